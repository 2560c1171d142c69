import Verif.Proof.Async

/-! The moves of the system of two threads, and the lock. -/

set_option linter.unusedSectionVars false
set_option linter.unusedSimpArgs false

namespace Verif
open Spec
variable {σ β η : Type}

/-- A thread of the system. -/
def Mach.strand (m : Mach σ β) : Who → Strand σ β
  | .explorer => m.exp
  | .caller => m.caller

/-- Replace a thread, the lock and the shared state. -/
def Mach.put (m : Mach σ β) (w : Who) (th : Strand σ β) (lock : Option Who) (sh : AsyncState σ β) : Mach σ β :=
  match w with
  | .explorer => { m with exp := th, lock := lock, sh := sh }
  | .caller => { m with caller := th, lock := lock, sh := sh }

/-- A thread can move. -/
def Mach.active (m : Mach σ β) : Who → Prop
  | .explorer => m.ended = false
  | .caller => m.op ≠ none

@[simp] theorem put_lock (m : Mach σ β) (w : Who) (th : Strand σ β) (l : Option Who) (sh : AsyncState σ β) : (m.put w th l sh).lock = l := by
  cases w <;> rfl
@[simp] theorem put_sh (m : Mach σ β) (w : Who) (th : Strand σ β) (l : Option Who) (sh : AsyncState σ β) : (m.put w th l sh).sh = sh := by
  cases w <;> rfl
@[simp] theorem put_op (m : Mach σ β) (w : Who) (th : Strand σ β) (l : Option Who) (sh : AsyncState σ β) : (m.put w th l sh).op = m.op := by
  cases w <;> rfl
@[simp] theorem put_ended (m : Mach σ β) (w : Who) (th : Strand σ β) (l : Option Who) (sh : AsyncState σ β) :
    (m.put w th l sh).ended = m.ended := by cases w <;> rfl
theorem put_strand (m : Mach σ β) (w v : Who) (th : Strand σ β) (l : Option Who) (sh : AsyncState σ β) :
    (m.put w th l sh).strand v = if v = w then th else m.strand v := by cases w <;> cases v <;> rfl

variable [DecidableEq β]

/-- The moves of the system. -/
inductive Move (S : Search σ β η) (it : Nat) (m : Mach σ β) : Who → Mach σ β → List Happening → Prop
  | act (w : Who) (b : Body) {X : Type} (x : M (AsyncState σ β) X) (k : Py X → Res (AsyncState σ β) Out) (ha : m.active w)
      (h : (m.strand w).cur = some (b, .act x k)) :
      Move S it m w (m.put w { m.strand w with cur := some (b, k (x m.sh).1) } m.lock (x m.sh).2) []
  | finish (w : Who) (b : Body) (r : Py Out) (ha : m.active w) (h : (m.strand w).cur = some (b, .done r)) :
      Move S it m w (m.put w ⟨none, afterBody (decide (m.lock = some w)) r (m.strand w).todo, Out.after r (m.strand w).out⟩ m.lock m.sh)
        [.finished b r]
  | acquire (w : Who) (rest : List Cmd) (ha : m.active w) (h : (m.strand w).cur = none) (ht : (m.strand w).todo = .acquire :: rest)
      (hl : m.lock = none) : Move S it m w (m.put w { m.strand w with todo := rest } (some w) m.sh) []
  | release (w : Who) (rest : List Cmd) (ha : m.active w) (h : (m.strand w).cur = none) (ht : (m.strand w).todo = .release :: rest) :
      Move S it m w (m.put w { m.strand w with todo := rest } none m.sh) []
  | start (w : Who) (b : Body) (rest : List Cmd) (ha : m.active w) (h : (m.strand w).cur = none) (ht : (m.strand w).todo = .body b :: rest) :
      Move S it m w (m.put w ⟨some (b, b.prog S it), rest, (m.strand w).out⟩ m.lock m.sh) [.started b]
  | join (w : Who) (rest : List Cmd) (ha : m.active w) (h : (m.strand w).cur = none) (ht : (m.strand w).todo = .join :: rest)
      (he : m.ended = true) : Move S it m w (m.put w { m.strand w with todo := rest } m.lock m.sh) []
  | restart (ha : m.ended = false) (h : m.exp.cur = none) (ht : m.exp.todo = []) (ho : m.exp.out = .ok (.flag false)) :
      Move S it m .explorer { m with exp := { m.exp with todo := loopScript } } []
  | stops (ha : m.ended = false) (h : m.exp.cur = none) (ht : m.exp.todo = []) (ho : m.exp.out ≠ .ok (.flag false)) :
      Move S it m .explorer { m with ended := true } [.ended]
  | returns (op : AsyncOp) (ho : m.op = some op) (h : m.caller.cur = none) (ht : m.caller.todo = []) :
      Move S it m .caller { m with op := none } [.returned op m.caller.out]
  | call (op : AsyncOp) (ho : m.op = none) :
      Move S it m .caller { m with op := some op, caller := ⟨none, op.script, .ok .unit⟩ } [.called op]

theorem idle_iff (th : Strand σ β) : th.idle = true ↔ th.cur = none ∧ th.todo = [] := by
  unfold Strand.idle
  simp

theorem strandStep_move (S : Search σ β η) (it : Nat) (m : Mach σ β) (w : Who) (ha : m.active w) (hi : (m.strand w).idle ≠ true) :
    let r := strandStep S it w m.ended (m.strand w) m.lock m.sh
    (m.put w r.1 r.2.1 r.2.2.1 = m ∧ r.2.2.2 = []) ∨ Move S it m w (m.put w r.1 r.2.1 r.2.2.1) r.2.2.2 := by
  have hsame : m.put w (m.strand w) m.lock m.sh = m := by cases w <;> rfl
  intro r
  rcases hc : (m.strand w).cur with _ | ⟨b, p⟩
  · rcases ht : (m.strand w).todo with _ | ⟨c, rest⟩
    · exact absurd ((idle_iff _).2 ⟨hc, ht⟩) hi
    · cases c with
      | acquire =>
          by_cases hl : m.lock = none
          · right
            have : r = ({ m.strand w with todo := rest }, some w, m.sh, []) := by
              simp only [r, strandStep, hc, ht, hl, if_true]
            rw [this]
            exact .acquire w rest ha hc ht hl
          · left
            have : r = (m.strand w, m.lock, m.sh, []) := by
              simp only [r, strandStep, hc, ht, hl, if_false]
            rw [this]
            exact ⟨hsame, rfl⟩
      | release =>
          right
          have : r = ({ m.strand w with todo := rest }, none, m.sh, []) := by simp only [r, strandStep, hc, ht]
          rw [this]
          exact .release w rest ha hc ht
      | body b =>
          right
          have : r = (⟨some (b, b.prog S it), rest, (m.strand w).out⟩, m.lock, m.sh, [.started b]) := by simp only [r, strandStep, hc, ht]
          rw [this]
          exact .start w b rest ha hc ht
      | join =>
          by_cases he : m.ended = true
          · right
            have : r = ({ m.strand w with todo := rest }, m.lock, m.sh, []) := by
              simp only [r, strandStep, hc, ht, he, if_true]
            rw [this]
            exact .join w rest ha hc ht he
          · left
            have : r = (m.strand w, m.lock, m.sh, []) := by
              simp only [r, strandStep, hc, ht, he, if_false]
              simp
            rw [this]
            exact ⟨hsame, rfl⟩
  · cases p with
    | done x =>
        right
        have : r = (⟨none, afterBody (decide (m.lock = some w)) x (m.strand w).todo, Out.after x (m.strand w).out⟩, m.lock, m.sh, [.finished b x]) := by
          simp only [r, strandStep, hc]
        rw [this]
        exact .finish w b x ha hc
    | act x k =>
        right
        have : r = ({ m.strand w with cur := some (b, k (x m.sh).1) }, m.lock, (x m.sh).2, []) := by
          simp only [r, strandStep, hc]
        rw [this]
        exact .act w b x k ha hc

/-- Every step of the system is a move or does nothing. -/
theorem step_move (S : Search σ β η) (it : Nat) (m : Mach σ β) (c : Choice) :
    ((m.step S it c).1 = m ∧ (m.step S it c).2 = []) ∨ Move S it m c.who (m.step S it c).1 (m.step S it c).2 := by
  cases c with
  | explorer =>
      show ((explorerStep S it m).1 = m ∧ (explorerStep S it m).2 = []) ∨ Move S it m .explorer (explorerStep S it m).1 (explorerStep S it m).2
      unfold explorerStep
      by_cases he : m.ended = true
      · rw [if_pos he]; left; exact ⟨rfl, rfl⟩
      · rw [if_neg he]
        have he' : m.ended = false := by simpa using he
        by_cases hi : m.exp.idle = true
        · rw [if_pos hi]
          obtain ⟨h1, h2⟩ := (idle_iff _).1 hi
          by_cases ho : m.exp.out = .ok (.flag false)
          · rw [if_pos ho]; right; exact .restart he' h1 h2 ho
          · rw [if_neg ho]; right; exact .stops he' h1 h2 ho
        · rw [if_neg hi]
          exact strandStep_move S it m .explorer he' hi
  | caller =>
      show ((callerStep S it m).1 = m ∧ (callerStep S it m).2 = []) ∨ Move S it m .caller (callerStep S it m).1 (callerStep S it m).2
      unfold callerStep
      rcases ho : m.op with _ | op
      · left; exact ⟨rfl, rfl⟩
      · by_cases hi : m.caller.idle = true
        · simp only [if_pos hi]
          obtain ⟨h1, h2⟩ := (idle_iff _).1 hi
          right; exact .returns op ho h1 h2
        · simp only [if_neg hi]
          have := strandStep_move S it m .caller (by show m.op ≠ none; rw [ho]; simp) hi
          simp only [Mach.put, Mach.strand, ho] at this
          exact this
  | call op =>
      show (_ ∧ _) ∨ Move S it m .caller _ _
      unfold Mach.step
      rcases ho : m.op with _ | op'
      · right; exact .call op ho
      · left; exact ⟨rfl, rfl⟩

/-- An invariant of the moves is an invariant of the system. -/
theorem run_invariant {S : Search σ β η} {it : Nat} {I : Mach σ β → Prop} (hI : ∀ m w m' es, I m → Move S it m w m' es → I m') :
    ∀ (cs : List Choice) (m : Mach σ β), I m → I (runMach S it cs m).1 := by
  intro cs
  induction cs with
  | nil => intro m h; exact h
  | cons c cs ih =>
      intro m h
      show I (runMach S it cs (m.step S it c).1).1
      apply ih
      rcases step_move S it m c with ⟨h1, _⟩ | h1
      · rw [h1]; exact h
      · exact hI _ _ _ _ h h1

/-! ### The lock -/

/-- The commands are well formed for a thread that holds the lock or not. -/
def Balanced : Bool → List Cmd → Prop
  | h, [] => h = false
  | h, .acquire :: r => h = false ∧ Balanced true r
  | h, .release :: r => h = true ∧ Balanced false r
  | h, .body b :: r => (Body.Locked b ↔ h = true) ∧ Balanced h r
  | h, .join :: r => h = false ∧ Balanced false r

/-- The lock is held by the thread that executes a protected body. -/
structure LockInv (m : Mach σ β) : Prop where
  todo : ∀ w, Balanced (decide (m.lock = some w)) (m.strand w).todo
  cur : ∀ w b p, (m.strand w).cur = some (b, p) → (Body.Locked b ↔ m.lock = some w)
  quiet : m.op = none → m.caller.cur = none ∧ m.caller.todo = []
  dead : m.ended = true → m.exp.cur = none ∧ m.exp.todo = []

theorem script_balanced (op : AsyncOp) : Balanced false op.script := by
  cases op <;> simp [AsyncOp.script, Balanced, Body.Locked]

theorem loop_balanced : Balanced false loopScript := by simp [loopScript, Balanced, Body.Locked]

theorem afterBody_balanced (h : Bool) (r : Py Out) (todo : List Cmd) (hb : Balanced h todo) : Balanced h (afterBody h r todo) := by
  cases r with
  | ok _ => exact hb
  | error e => cases h <;> simp [afterBody, Balanced]

theorem other_ne {w v : Who} {l : Option Who} (hl : l = some w) (hv : v ≠ w) : (decide (l = some v)) = false := by
  rw [hl]
  simp only [decide_eq_false_iff_not, Option.some.injEq]
  exact fun h => hv h.symm

theorem LockInv.move {S : Search σ β η} {it : Nat} {m m' : Mach σ β} {w : Who} {es : List Happening} (h : LockInv m)
    (hm : Move S it m w m' es) : LockInv m' := by
  have hquiet : ∀ (w : Who) (th : Strand σ β) (l : Option Who) (sh : AsyncState σ β), m.active w →
      ((m.put w th l sh).op = none → (m.put w th l sh).caller.cur = none ∧ (m.put w th l sh).caller.todo = []) ∧
      ((m.put w th l sh).ended = true → (m.put w th l sh).exp.cur = none ∧ (m.put w th l sh).exp.todo = []) := by
    intro w th l sh ha
    cases w with
    | explorer =>
        refine ⟨h.quiet, fun he => ?_⟩
        rw [put_ended, show m.ended = false from ha] at he
        cases he
    | caller =>
        refine ⟨fun he => ?_, h.dead⟩
        rw [put_op] at he
        exact absurd he ha
  have keep : ∀ (w : Who) (th : Strand σ β) (sh : AsyncState σ β), Balanced (decide (m.lock = some w)) th.todo →
      (∀ b p, th.cur = some (b, p) → (Body.Locked b ↔ m.lock = some w)) → m.active w → LockInv (m.put w th m.lock sh) := by
    intro w th sh h1 h2 ha
    have hq := hquiet w th m.lock sh ha
    refine ⟨?_, ?_, hq.1, hq.2⟩
    · intro v
      rw [put_strand, put_lock]
      split
      · next hv => subst hv; exact h1
      · exact h.todo v
    · intro v b p hc
      rw [put_strand] at hc
      rw [put_lock]
      split at hc
      · next hv => subst hv; exact h2 b p hc
      · exact h.cur v b p hc
  cases hm with
  | act w b x k ha hc =>
      exact keep w _ _ (h.todo w) (fun b' p' hp => by cases hp; exact h.cur w b _ hc) ha
  | finish w b r ha hc =>
      exact keep w _ _ (afterBody_balanced _ _ _ (h.todo w)) (fun b' p' hp => by cases hp) ha
  | acquire w rest ha hc ht hl =>
      have hq := hquiet w { m.strand w with todo := rest } (some w) m.sh ha
      refine ⟨?_, ?_, hq.1, hq.2⟩
      · intro v
        rw [put_strand, put_lock]
        split
        · next hv =>
            subst hv
            have := h.todo v
            rw [ht] at this
            simpa using this.2
        · next hv =>
            rw [other_ne rfl hv]
            have := h.todo v
            rw [hl] at this
            exact this
      · intro v b p hc'
        rw [put_strand] at hc'
        rw [put_lock]
        split at hc'
        · next hv => subst hv; rw [show ({ m.strand v with todo := rest } : Strand σ β).cur = (m.strand v).cur from rfl, hc] at hc'; cases hc'
        · next hv =>
            rw [h.cur v b p hc', hl]
            simp only [reduceCtorEq, Option.some.injEq, false_iff]
            exact fun h => hv h.symm
  | release w rest ha hc ht =>
      have hw : m.lock = some w := by
        have := h.todo w
        rw [ht] at this
        simpa using this.1
      have hq := hquiet w { m.strand w with todo := rest } none m.sh ha
      refine ⟨?_, ?_, hq.1, hq.2⟩
      · intro v
        rw [put_strand, put_lock]
        split
        · next hv =>
            subst hv
            have := h.todo v
            rw [ht] at this
            simpa using this.2
        · next hv =>
            have := h.todo v
            rw [other_ne hw hv] at this
            simpa using this
      · intro v b p hc'
        rw [put_strand] at hc'
        rw [put_lock]
        split at hc'
        · next hv => subst hv; rw [show ({ m.strand v with todo := rest } : Strand σ β).cur = (m.strand v).cur from rfl, hc] at hc'; cases hc'
        · next hv =>
            rw [h.cur v b p hc', hw]
            simp only [reduceCtorEq, Option.some.injEq, iff_false]
            exact fun h => hv h.symm
  | start w b rest ha hc ht =>
      have := h.todo w
      rw [ht] at this
      refine keep w _ _ this.2 (fun b' p' hp => ?_) ha
      cases hp
      simpa using this.1
  | join w rest ha hc ht he =>
      have := h.todo w
      rw [ht] at this
      exact keep w _ _ (by rw [this.1]; exact this.2) (fun b' p' hp => h.cur w b' p' hp) ha
  | restart ha hc ht ho =>
      have hl : decide (m.lock = some .explorer) = false := by
        have := h.todo .explorer
        rw [show (m.strand .explorer).todo = [] from ht] at this
        exact this
      refine ⟨?_, ?_, h.quiet, fun he => by rw [show m.ended = true from he] at ha; cases ha⟩
      · intro v
        cases v with
        | explorer => show Balanced (decide (m.lock = some .explorer)) loopScript; rw [hl]; exact loop_balanced
        | caller => exact h.todo .caller
      · intro v
        cases v with
        | explorer => exact h.cur .explorer
        | caller => exact h.cur .caller
  | stops ha hc ht ho =>
      refine ⟨fun v => ?_, fun v => ?_, h.quiet, fun _ => ⟨hc, ht⟩⟩
      · cases v with
        | explorer => exact h.todo .explorer
        | caller => exact h.todo .caller
      · cases v with
        | explorer => exact h.cur .explorer
        | caller => exact h.cur .caller
  | returns op ho hc ht =>
      refine ⟨fun v => ?_, fun v => ?_, fun _ => ⟨hc, ht⟩, h.dead⟩
      · cases v with
        | explorer => exact h.todo .explorer
        | caller => exact h.todo .caller
      · cases v with
        | explorer => exact h.cur .explorer
        | caller => exact h.cur .caller
  | call op ho =>
      have hl : decide (m.lock = some .caller) = false := by
        have := h.todo .caller
        rw [show (m.strand .caller).todo = [] from (h.quiet ho).2] at this
        exact this
      refine ⟨fun v => ?_, fun v => ?_, fun h1 => (by cases h1), h.dead⟩
      · cases v with
        | explorer => exact h.todo .explorer
        | caller => show Balanced (decide (m.lock = some .caller)) op.script; rw [hl]; exact script_balanced op
      · cases v with
        | explorer => exact h.cur .explorer
        | caller => intro b p hp; cases hp

theorem LockInv.init (S : Search σ β η) (b : β) (rng : σ) : LockInv (S.async b rng) := by
  refine ⟨?_, ?_, fun _ => ⟨rfl, rfl⟩, fun h => by cases h⟩
  · intro w
    cases w with
    | explorer => exact loop_balanced
    | caller => rfl
  · intro w b p h
    cases w <;> cases h

end Verif
