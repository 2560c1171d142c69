import Verif.Proof.AsyncMove
import Verif.Spec.AsyncCoin

/-! The asynchronous runner (C59). -/

set_option linter.unusedSectionVars false
set_option linter.unusedSimpArgs false

namespace Verif
open Spec
variable {σ β η : Type} [DecidableEq β]

/-! ### Mutual exclusion -/

/-- The protected body in execution. -/
def OpenOk (m : Mach σ β) (o : Option (Who × Body)) : Prop :=
  ∀ w b, o = some (w, b) ↔ (∃ p, (m.strand w).cur = some (b, p)) ∧ Body.Locked b

theorem OpenOk.keep {m m' : Mach σ β} {o : Option (Who × Body)} (h : OpenOk m o)
    (hk : ∀ w b, Body.Locked b → ((∃ p, (m'.strand w).cur = some (b, p)) ↔ ∃ p, (m.strand w).cur = some (b, p))) : OpenOk m' o := by
  intro w b
  rw [h w b]
  constructor
  · rintro ⟨h1, h2⟩; exact ⟨(hk w b h2).2 h1, h2⟩
  · rintro ⟨h1, h2⟩; exact ⟨(hk w b h2).1 h1, h2⟩

theorem exclusion_move {S : Search σ β η} {it : Nat} {m m' : Mach σ β} {w : Who} {es : List Happening} {o : Option (Who × Body)}
    (hl : LockInv m) (ho : OpenOk m o) (hm : Move S it m w m' es) :
    ∃ o', OpenOk m' o' ∧ ∀ t : AsyncTrace σ β, OneAtATime Body.Locked o' t →
      OneAtATime Body.Locked o (es.map (fun h => (w, h, m'.sh)) ++ t) := by
  have same : ∀ (w : Who) (th : Strand σ β) (l : Option Who) (sh : AsyncState σ β),
      (∀ b, (∃ p, th.cur = some (b, p)) ↔ ∃ p, (m.strand w).cur = some (b, p)) → OpenOk (m.put w th l sh) o := by
    intro w th l sh h1
    refine ho.keep fun v b _ => ?_
    rw [put_strand]
    split
    · next hv => subst hv; exact h1 b
    · exact Iff.rfl
  cases hm with
  | act w b x k ha hc => exact ⟨o, same w _ _ _ (fun b' => by rw [hc]; simp), fun t h => h⟩
  | finish w b r ha hc =>
      by_cases hb : Body.Locked b
      · refine ⟨none, ?_, fun t h => ?_⟩
        · intro v b'
          simp only [reduceCtorEq, false_iff, not_and]
          rintro ⟨p, hp⟩ hb'
          rw [put_strand] at hp
          split at hp
          · cases hp
          · next hv =>
              have h1 := (hl.cur w b _ hc).1 hb
              have h2 := (hl.cur v b' p hp).1 hb'
              rw [h1] at h2
              exact hv (by simpa using h2.symm)
        · show OneAtATime _ _ ((w, .finished b r, _) :: t)
          unfold OneAtATime
          rw [if_pos hb]
          exact ⟨(ho w b).2 ⟨⟨_, hc⟩, hb⟩, h⟩
      · refine ⟨o, ?_, fun t h => ?_⟩
        · refine ho.keep fun v b' hb' => ?_
          rw [put_strand]
          split
          · next hv =>
              subst hv
              rw [hc]
              simp only [reduceCtorEq, exists_false, Option.some.injEq, Prod.mk.injEq, false_iff, not_exists, not_and]
              intro p h1
              subst h1
              exact absurd hb' hb
          · exact Iff.rfl
        · show OneAtATime _ _ ((w, .finished b r, _) :: t)
          unfold OneAtATime
          rw [if_neg hb]
          exact h
  | acquire w rest ha hc ht hl' => exact ⟨o, same w _ _ _ (fun b' => Iff.rfl), fun t h => h⟩
  | release w rest ha hc ht => exact ⟨o, same w _ _ _ (fun b' => Iff.rfl), fun t h => h⟩
  | join w rest ha hc ht he => exact ⟨o, same w _ _ _ (fun b' => Iff.rfl), fun t h => h⟩
  | start w b rest ha hc ht =>
      by_cases hb : Body.Locked b
      · have hw : m.lock = some w := by
          have := hl.todo w
          rw [ht] at this
          simpa using this.1.1 hb
        have hnone : o = none := by
          rcases ho' : o with _ | ⟨v, b'⟩
          · rfl
          · obtain ⟨⟨p, hp⟩, hb'⟩ := (ho v b').1 ho'
            have h2 := (hl.cur v b' p hp).1 hb'
            rw [hw] at h2
            cases h2
            rw [hc] at hp
            cases hp
        refine ⟨some (w, b), ?_, fun t h => ?_⟩
        · intro v b'
          rw [put_strand]
          split
          · next hv =>
              subst hv
              simp only [Option.some.injEq, Prod.mk.injEq, true_and, exists_and_left, exists_eq', and_true]
              constructor
              · rintro rfl; exact ⟨rfl, hb⟩
              · rintro ⟨h, _⟩; exact h
          · next hv =>
              simp only [Option.some.injEq, Prod.mk.injEq]
              constructor
              · rintro ⟨h, _⟩; exact absurd h.symm hv
              · intro h
                have := (ho v b').2 h
                rw [hnone] at this
                cases this
        · show OneAtATime _ _ ((w, .started b, _) :: t)
          unfold OneAtATime
          rw [if_pos hb]
          exact ⟨hnone, h⟩
      · refine ⟨o, ?_, fun t h => ?_⟩
        · refine ho.keep fun v b' hb' => ?_
          rw [put_strand]
          split
          · next hv =>
              subst hv
              rw [hc]
              simp only [Option.some.injEq, Prod.mk.injEq, exists_and_left, exists_eq', and_true, reduceCtorEq, exists_false, iff_false]
              rintro rfl
              exact hb hb'
          · exact Iff.rfl
        · show OneAtATime _ _ ((w, .started b, _) :: t)
          unfold OneAtATime
          rw [if_neg hb]
          exact h
  | restart ha hc ht ho' =>
      refine ⟨o, ho.keep fun v b _ => ?_, fun t h => h⟩
      cases v <;> exact Iff.rfl
  | stops ha hc ht ho' =>
      refine ⟨o, ho.keep fun v b _ => ?_, fun t h => h⟩
      cases v <;> exact Iff.rfl
  | returns op ho' hc ht =>
      refine ⟨o, ho.keep fun v b _ => ?_, fun t h => h⟩
      cases v <;> exact Iff.rfl
  | call op ho' =>
      refine ⟨o, ho.keep fun v b _ => ?_, fun t h => h⟩
      cases v with
      | explorer => exact Iff.rfl
      | caller =>
          show (∃ p, (none : Option (Body × Res (AsyncState σ β) Out)) = some (b, p)) ↔ ∃ p, m.caller.cur = some (b, p)
          rw [(hl.quiet ho').1]

theorem exclusion_run {S : Search σ β η} {it : Nat} : ∀ (cs : List Choice) (m : Mach σ β) (o : Option (Who × Body)), LockInv m →
    OpenOk m o → OneAtATime Body.Locked o (runMach S it cs m).2 := by
  intro cs
  induction cs with
  | nil => intro m o _ _; trivial
  | cons c cs ih =>
      intro m o hl ho
      show OneAtATime _ _ (_ ++ _)
      rcases step_move S it m c with ⟨h1, h2⟩ | hm
      · rw [h2, h1]; exact ih m o hl ho
      · obtain ⟨o', h1, h2⟩ := exclusion_move hl ho hm
        exact h2 _ (ih _ o' (hl.move hm) h1)

/-- **C59.**  For every interleaving, the explorations, the bodies of `get_action` and the changes of the attributes of the thread
are executed one after the other. -/
theorem C59_exclusion (S : Search σ β η) (it : Nat) (b : β) (rng : σ) (cs : List Choice) :
    OneAtATime Body.Locked none (runMach S it cs (S.async b rng)).2 := by
  refine exclusion_run cs _ _ (.init S b rng) ?_
  intro w b'
  simp only [reduceCtorEq, false_iff, not_and]
  rintro ⟨p, hp⟩
  cases w <;> cases hp

/-! ### Serial executions -/

theorem seqBody_inv {S : Search σ β η} {b0 : β} (it : Nat) (b : Body) (st : AsyncState σ β) (h : AInv S b0 st) :
    AInv S b0 (seqBody S it b st).2 := by
  obtain ⟨⟨k, hk⟩, h2, h3⟩ := h
  cases b with
  | explore =>
      have hp := M.post_iff.1 (simulateFromNode_post (S := S) st.tnode st.taction st.runner.search hk.tree h2)
      rcases hr : simulateFromNode S st.tnode st.taction st.runner.search with ⟨r, s1⟩
      have hg : TInv S b0 s1.tree ∧ Tree.Grows st.runner.search.tree s1.tree := by
        cases r with
        | ok a => exact ⟨(hp.1 a s1 hr).1, (hp.1 a s1 hr).2⟩
        | error e => exact ⟨(hp.2 e s1 hr).1, (hp.2 e s1 hr).2.1⟩
      simp only [seqBody, hr]
      exact ⟨⟨k, hk.grow hg.1 hg.2⟩, lt_of_lt_of_le h2 hg.2.size, h3⟩
  | readDone => exact ⟨⟨k, hk⟩, h2, h3⟩
  | getAction =>
      have hp := M.post_iff.1 (getAction_post S it st.runner k hk)
      rcases hr : searchGetAction S it st.runner with ⟨r, s1⟩
      simp only [seqBody, hr]
      cases r with
      | ok a =>
          obtain ⟨q1, _, _, q2⟩ := hp.1 a s1 hr
          exact ⟨⟨_, q1⟩, lt_of_lt_of_le h2 q2.size, h3⟩
      | error e =>
          obtain ⟨q1, _, _, _, q2⟩ := hp.2 e s1 hr
          exact ⟨⟨_, q1⟩, lt_of_lt_of_le h2 (by first | exact q2.size | exact q2.1.size), h3⟩
  | setAction => exact ⟨⟨k, hk⟩, h2, fun a ha => hk.last a ha⟩
  | setNode => exact ⟨⟨k, hk⟩, hk.node, fun a ha => by cases ha⟩
  | setDone => exact ⟨⟨k, hk⟩, h2, h3⟩
  | step o =>
      have hp := M.post_iff.1 (step_post S o st.runner k hk)
      rcases hr : searchStep S o st.runner with ⟨r, s1⟩
      simp only [seqBody, hr]
      cases r with
      | ok a =>
          obtain ⟨_, _, _, _, q1, _, _, q2⟩ := hp.1 a s1 hr
          exact ⟨⟨_, q1⟩, lt_of_lt_of_le h2 q2.size, h3⟩
      | error e =>
          obtain ⟨q1, _, _, _, q2⟩ := hp.2 e s1 hr
          exact ⟨⟨_, q1⟩, lt_of_lt_of_le h2 (by first | exact q2.size | exact q2.1.size), h3⟩
  | reset g =>
      cases g with
      | true => exact ⟨⟨k, hk⟩, h2, h3⟩
      | false => exact ⟨⟨⟨none, []⟩, hk.tree, hk.tree.pos, rfl, rfl, fun a ha => (by cases ha), rfl⟩, h2, h3⟩

/-- The body in execution, if any, started in the state `s0`. -/
def Mid (S : Search σ β η) (it : Nat) (m : Mach σ β) (s0 : AsyncState σ β) : Option (Who × Body) → Prop
  | none => m.sh = s0 ∧ ∀ w, (m.strand w).cur = none
  | some (w, b) => (∃ p : Res (AsyncState σ β) Out, (m.strand w).cur = some (b, p) ∧ p.run m.sh = seqBody S it b s0) ∧
      ∀ v, v ≠ w → (m.strand v).cur = none

theorem Mid.same {S : Search σ β η} {it : Nat} {m m' : Mach σ β} {s0 : AsyncState σ β} {o : Option (Who × Body)} (h : Mid S it m s0 o)
    (hs : m'.sh = m.sh) (hc : ∀ w, (m'.strand w).cur = (m.strand w).cur) : Mid S it m' s0 o := by
  cases o with
  | none => exact ⟨hs.trans h.1, fun w => (hc w).trans (h.2 w)⟩
  | some wb =>
      obtain ⟨⟨p, h1, h2⟩, h3⟩ := h
      exact ⟨⟨p, (hc _).trans h1, by rw [hs]; exact h2⟩, fun v hv => (hc v).trans (h3 v hv)⟩

theorem Mid.current {S : Search σ β η} {it : Nat} {m : Mach σ β} {s0 : AsyncState σ β} {o : Option (Who × Body)} (h : Mid S it m s0 o)
    {w : Who} {b : Body} {p : Res (AsyncState σ β) Out} (hc : (m.strand w).cur = some (b, p)) :
    o = some (w, b) ∧ p.run m.sh = seqBody S it b s0 := by
  cases o with
  | none => rw [h.2 w] at hc; cases hc
  | some vb =>
      obtain ⟨v, b'⟩ := vb
      obtain ⟨⟨p', h1, h2⟩, h3⟩ := h
      by_cases hv : w = v
      · subst hv
        rw [hc] at h1
        cases h1
        exact ⟨rfl, h2⟩
      · rw [h3 w hv] at hc; cases hc

theorem serial_move {S : Search σ β η} {b0 : β} {it : Nat} {m m' : Mach σ β} {w : Who} {es : List Happening} {o : Option (Who × Body)}
    {s0 : AsyncState σ β} (hl : LockInv m) (ha : AInv S b0 s0) (hmid : Mid S it m s0 o) (hm : Move S it m w m' es) (t : AsyncTrace σ β)
    (h1 : OneAtATime (fun _ => True) o (es.map (fun h => (w, h, m'.sh)) ++ t)) :
    ∃ o' s1, AInv S b0 s1 ∧ Mid S it m' s1 o' ∧ OneAtATime (fun _ => True) o' t ∧
      lastOpen o (es.map (fun h => (w, h, m'.sh)) ++ t) = lastOpen o' t ∧
      ∀ s2, Replays S it s1 t s2 → Replays S it s0 (es.map (fun h => (w, h, m'.sh)) ++ t) s2 := by
  have same : ∀ (w : Who) (th : Strand σ β) (l : Option Who), th.cur = (m.strand w).cur → Mid S it (m.put w th l m.sh) s0 o := by
    intro w th l h
    refine hmid.same (put_sh ..) fun v => ?_
    rw [put_strand]
    split
    · next hv => subst hv; exact h
    · rfl
  cases hm with
  | act w b x k ha' hc =>
      obtain ⟨rfl, hrun⟩ := hmid.current hc
      refine ⟨some (w, b), s0, ha, ⟨⟨k (x m.sh).1, ?_, ?_⟩, ?_⟩, h1, rfl, fun _ h => h⟩
      · rw [put_strand, if_pos rfl]
      · rw [put_sh]; exact hrun
      · intro v hv
        rw [put_strand, if_neg hv]
        exact hmid.2 v hv
  | finish w b r ha' hc =>
      obtain ⟨rfl, hrun⟩ := hmid.current hc
      have hr : seqBody S it b s0 = (r, m.sh) := hrun.symm
      refine ⟨none, m.sh, ?_, ⟨put_sh .., fun v => ?_⟩, ?_, rfl, fun s2 h => ?_⟩
      · have := seqBody_inv it b s0 ha
        rw [hr] at this
        exact this
      · rw [put_strand]
        split
        · rfl
        · next hv => exact hmid.2 v hv
      · have : OneAtATime (fun _ => True) (some (w, b)) ((w, .finished b r, _) :: t) := h1
        unfold OneAtATime at this
        rw [if_pos trivial] at this
        exact this.2
      · show (seqBody S it b s0).1 = r ∧ Replays S it (seqBody S it b s0).2 t s2
        rw [hr]
        exact ⟨rfl, h⟩
  | acquire w rest ha' hc ht hl' => exact ⟨o, s0, ha, same w _ _ rfl, h1, rfl, fun _ h => h⟩
  | release w rest ha' hc ht => exact ⟨o, s0, ha, same w _ _ rfl, h1, rfl, fun _ h => h⟩
  | join w rest ha' hc ht he => exact ⟨o, s0, ha, same w _ _ rfl, h1, rfl, fun _ h => h⟩
  | start w b rest ha' hc ht =>
      have h2 : OneAtATime (fun _ => True) o ((w, .started b, _) :: t) := h1
      unfold OneAtATime at h2
      rw [if_pos trivial] at h2
      obtain ⟨rfl, h3⟩ := h2
      obtain ⟨rfl, h4⟩ := hmid
      refine ⟨some (w, b), m.sh, ha, ⟨⟨b.prog S it, ?_, ?_⟩, fun v hv => ?_⟩, h3, rfl, fun _ h => h⟩
      · rw [put_strand, if_pos rfl]
      · rw [put_sh]; exact run_prog b it m.sh ha
      · rw [put_strand, if_neg hv]; exact h4 v
  | restart ha' hc ht ho' =>
      refine ⟨o, s0, ha, hmid.same rfl fun v => ?_, h1, rfl, fun _ h => h⟩
      cases v <;> rfl
  | stops ha' hc ht ho' =>
      refine ⟨o, s0, ha, hmid.same rfl fun v => ?_, h1, rfl, fun _ h => h⟩
      cases v <;> rfl
  | returns op ho' hc ht =>
      refine ⟨o, s0, ha, hmid.same rfl fun v => ?_, h1, rfl, fun _ h => h⟩
      cases v <;> rfl
  | call op ho' =>
      refine ⟨o, s0, ha, hmid.same rfl fun v => ?_, h1, rfl, fun _ h => h⟩
      cases v with
      | explorer => rfl
      | caller => exact (hl.quiet ho').1.symm

theorem serial_run {S : Search σ β η} {b0 : β} {it : Nat} : ∀ (cs : List Choice) (m : Mach σ β) (o : Option (Who × Body))
    (s0 : AsyncState σ β), LockInv m → AInv S b0 s0 → Mid S it m s0 o → OneAtATime (fun _ => True) o (runMach S it cs m).2 →
    lastOpen o (runMach S it cs m).2 = none → Replays S it s0 (runMach S it cs m).2 (runMach S it cs m).1.sh ∧
      AInv S b0 (runMach S it cs m).1.sh := by
  intro cs
  induction cs with
  | nil =>
      intro m o s0 _ ha hmid _ hlast
      obtain rfl : o = none := hlast
      refine ⟨hmid.1, ?_⟩
      rw [show (runMach S it [] m).1.sh = s0 from hmid.1]
      exact ha
  | cons c cs ih =>
      intro m o s0 hl ha hmid h1 h2
      rcases step_move S it m c with ⟨h3, h4⟩ | hm
      · have e1 : (runMach S it (c :: cs) m).2 = (runMach S it cs m).2 := by
          show (m.step S it c).2.map _ ++ (runMach S it cs (m.step S it c).1).2 = _
          rw [h4, h3]; rfl
        have e2 : (runMach S it (c :: cs) m).1 = (runMach S it cs m).1 := by
          show (runMach S it cs (m.step S it c).1).1 = _
          rw [h3]
        rw [e1] at h1 h2
        rw [e1, e2]
        exact ih m o s0 hl ha hmid h1 h2
      · obtain ⟨o', s1, g1, g2, g3, g4, g5⟩ := serial_move hl ha hmid hm _ h1
        obtain ⟨k1, k2⟩ := ih _ o' s1 (hl.move hm) g1 g2 g3 (by rw [← g4]; exact h2)
        exact ⟨g5 _ k1, k2⟩

theorem AInv.init (S : Search σ β η) (b : β) (rng : σ) : AInv S b (S.async b rng).sh :=
  ⟨⟨_, runner_inv S b rng⟩, (TInv.init (S := S) b).pos, fun a ha => by cases ha⟩

/-- **C59.**  If in an execution `step` and `reset` of the base class do not overlap with other bodies, then the state and all
results are those of the sequential runner, whose calls are made one after the other. -/
theorem C59_serial (S : Search σ β η) (it : Nat) (b : β) (rng : σ) (cs : List Choice)
    (h : OneAtATime (fun _ => True) none (runMach S it cs (S.async b rng)).2) (hd : lastOpen none (runMach S it cs (S.async b rng)).2 = none) :
    Replays S it (S.async b rng).sh (runMach S it cs (S.async b rng)).2 (runMach S it cs (S.async b rng)).1.sh :=
  (serial_run cs _ none _ (.init S b rng) (.init S b rng) ⟨rfl, fun w => by cases w <;> rfl⟩ h hd).1

/-! ### Executions without `step` and `reset` -/

/-- The bodies of a list of commands. -/
def OnlyLocked (l : List Cmd) : Prop := ∀ b, Cmd.body b ∈ l → Body.Locked b

structure NoFree (m : Mach σ β) : Prop where
  todo : ∀ w, OnlyLocked (m.strand w).todo
  cur : ∀ w b p, (m.strand w).cur = some (b, p) → Body.Locked b

theorem loop_onlyLocked : OnlyLocked loopScript := by
  intro b hb
  simp only [loopScript, List.mem_cons, reduceCtorEq, Cmd.body.injEq, List.not_mem_nil, or_false, false_or] at hb
  rcases hb with rfl | rfl <;> trivial

theorem NoFree.move {S : Search σ β η} {it : Nat} {m m' : Mach σ β} {w : Who} {es : List Happening} (h : NoFree m)
    (hm : Move S it m w m' es) (hcall : ∀ op, es = [.called op] → OnlyLocked op.script) : NoFree m' := by
  have keep : ∀ (w : Who) (th : Strand σ β) (l : Option Who) (sh : AsyncState σ β), OnlyLocked th.todo →
      (∀ b p, th.cur = some (b, p) → Body.Locked b) → NoFree (m.put w th l sh) := by
    intro w th l sh h1 h2
    constructor
    · intro v; rw [put_strand]; split
      · exact h1
      · exact h.todo v
    · intro v b p hp
      rw [put_strand] at hp
      split at hp
      · exact h2 b p hp
      · exact h.cur v b p hp
  have tail : ∀ {w : Who} {c : Cmd} {rest : List Cmd}, (m.strand w).todo = c :: rest → OnlyLocked rest := by
    intro w c rest ht b hb
    exact h.todo w b (by rw [ht]; exact List.mem_cons_of_mem _ hb)
  cases hm with
  | act w b x k ha hc => exact keep w _ _ _ (h.todo w) (fun b' p hp => by cases hp; exact h.cur w b _ hc)
  | finish w b r ha hc =>
      refine keep w _ _ _ ?_ (fun b' p hp => by cases hp)
      intro b' hb'
      cases r with
      | ok _ => exact h.todo w b' hb'
      | error e =>
          simp only [afterBody] at hb'
          split at hb' <;> simp at hb'
  | acquire w rest ha hc ht hl => exact keep w _ _ _ (tail ht) (h.cur w)
  | release w rest ha hc ht => exact keep w _ _ _ (tail ht) (h.cur w)
  | join w rest ha hc ht he => exact keep w _ _ _ (tail ht) (h.cur w)
  | start w b rest ha hc ht =>
      exact keep w _ _ _ (tail ht) (fun b' p hp => by cases hp; exact h.todo w b (by rw [ht]; simp))
  | restart ha hc ht ho =>
      refine ⟨fun v => ?_, fun v => ?_⟩
      · cases v with
        | explorer => exact loop_onlyLocked
        | caller => exact h.todo .caller
      · cases v with
        | explorer => exact h.cur .explorer
        | caller => exact h.cur .caller
  | stops ha hc ht ho =>
      refine ⟨fun v => ?_, fun v => ?_⟩
      · cases v with
        | explorer => exact h.todo .explorer
        | caller => exact h.todo .caller
      · cases v with
        | explorer => exact h.cur .explorer
        | caller => exact h.cur .caller
  | returns op ho hc ht =>
      refine ⟨fun v => ?_, fun v => ?_⟩
      · cases v with
        | explorer => exact h.todo .explorer
        | caller => exact h.todo .caller
      · cases v with
        | explorer => exact h.cur .explorer
        | caller => exact h.cur .caller
  | call op ho =>
      refine ⟨fun v => ?_, fun v => ?_⟩
      · cases v with
        | explorer => exact h.todo .explorer
        | caller => exact hcall op rfl
      · cases v with
        | explorer => exact h.cur .explorer
        | caller => intro b p hp; cases hp

theorem oneAtATime_all {P : Body → Prop} [DecidablePred P] : ∀ (t : AsyncTrace σ β) (o : Option (Who × Body)),
    (∀ x ∈ t, (∀ b, x.2.1 = .started b → P b) ∧ ∀ b r, x.2.1 = .finished b r → P b) → OneAtATime P o t →
    OneAtATime (fun _ => True) o t := by
  intro t
  induction t with
  | nil => intro o _ _; trivial
  | cons x t ih =>
      intro o hall h
      obtain ⟨w, hp, sh⟩ := x
      have hall' : ∀ x ∈ t, (∀ b, x.2.1 = .started b → P b) ∧ ∀ b r, x.2.1 = .finished b r → P b :=
        fun x hx => hall x (List.mem_cons_of_mem _ hx)
      cases hp with
      | started b =>
          have hb : P b := (hall _ List.mem_cons_self).1 b rfl
          unfold OneAtATime at h ⊢
          rw [if_pos hb] at h
          rw [if_pos trivial]
          exact ⟨h.1, ih _ hall' h.2⟩
      | finished b r =>
          have hb : P b := (hall _ List.mem_cons_self).2 b r rfl
          unfold OneAtATime at h ⊢
          rw [if_pos hb] at h
          rw [if_pos trivial]
          exact ⟨h.1, ih _ hall' h.2⟩
      | called op => exact ih o hall' h
      | returned op r => exact ih o hall' h
      | ended => exact ih o hall' h

theorem strandStep_called {S : Search σ β η} {it : Nat} {w : Who} {e : Bool} {th : Strand σ β} {l : Option Who} {sh : AsyncState σ β}
    {op : AsyncOp} : (strandStep S it w e th l sh).2.2.2 ≠ [.called op] := by
  unfold strandStep
  split
  · simp
  · simp
  · split
    · simp
    · split_ifs <;> simp
    · simp
    · simp
    · split_ifs <;> simp

theorem called_choice {S : Search σ β η} {it : Nat} {m : Mach σ β} {c : Choice} {op : AsyncOp} (h : (m.step S it c).2 = [.called op]) :
    c = .call op := by
  cases c with
  | explorer =>
      change (explorerStep S it m).2 = _ at h
      unfold explorerStep at h
      split_ifs at h
      · simp at h
      · exact absurd h strandStep_called
  | caller =>
      change (callerStep S it m).2 = _ at h
      unfold callerStep at h
      split at h
      · cases h
      · split_ifs at h
        · simp at h
        · exact absurd h strandStep_called
  | call op' =>
      unfold Mach.step at h
      rcases ho : m.op with _ | _
      · rw [ho] at h; simp only [List.cons.injEq, Happening.called.injEq, and_true] at h; rw [h]
      · rw [ho] at h; cases h

theorem noFree_trace {S : Search σ β η} {it : Nat} : ∀ (cs : List Choice) (m : Mach σ β), NoFree m →
    Calls (fun op => OnlyLocked op.script) cs →
    ∀ x ∈ (runMach S it cs m).2, (∀ b, x.2.1 = .started b → Body.Locked b) ∧ ∀ b r, x.2.1 = .finished b r → Body.Locked b := by
  intro cs
  induction cs with
  | nil => intro m _ _ x hx; cases hx
  | cons c cs ih =>
      intro m hn hc x hx
      have hc' : Calls (fun op => OnlyLocked op.script) cs := fun op h => hc op (List.mem_cons_of_mem _ h)
      have hx' : x ∈ (m.step S it c).2.map (fun h => (c.who, h, (m.step S it c).1.sh)) ++ (runMach S it cs (m.step S it c).1).2 := hx
      rcases List.mem_append.1 hx' with hx1 | hx1
      · obtain ⟨e, he, rfl⟩ := List.mem_map.1 hx1
        rcases step_move S it m c with ⟨_, h4⟩ | hm
        · rw [h4] at he; cases he
        · generalize hgm : (m.step S it c).1 = m1 at hm
          generalize hge : (m.step S it c).2 = es at hm he
          generalize c.who = w at hm
          cases hm with
          | finish w b r ha hcur =>
              simp only [List.mem_singleton] at he
              subst he
              refine ⟨fun b' h => (by cases h), fun b' r' h => ?_⟩
              cases h
              exact hn.cur w b _ hcur
          | start w b rest ha hcur ht =>
              simp only [List.mem_singleton] at he
              subst he
              refine ⟨fun b' h => ?_, fun b' r' h => (by cases h)⟩
              cases h
              exact hn.todo w b (by rw [ht]; simp)
          | stops ha hc ht ho => simp only [List.mem_singleton] at he; subst he; exact ⟨fun b' h => (by cases h), fun b' r' h => (by cases h)⟩
          | returns op ho hc ht => simp only [List.mem_singleton] at he; subst he; exact ⟨fun b' h => (by cases h), fun b' r' h => (by cases h)⟩
          | call op ho => simp only [List.mem_singleton] at he; subst he; exact ⟨fun b' h => (by cases h), fun b' r' h => (by cases h)⟩
          | act => cases he
          | acquire => cases he
          | release => cases he
          | join => cases he
          | restart => cases he
      · refine ih _ ?_ hc' x hx1
        rcases step_move S it m c with ⟨h3, _⟩ | hm
        · rw [h3]; exact hn
        · refine hn.move hm ?_
          intro op hop
          apply hc op
          rw [called_choice hop]
          exact List.mem_cons_self

/-- **C59.**  Without calls of `step` and `reset`, every execution is serial: at any moment when no body is in execution, the state and
all results, in particular the actions returned, are those of the sequential runner. -/
theorem C59_linearizable (S : Search σ β η) (it : Nat) (b : β) (rng : σ) (cs : List Choice)
    (hc : Calls (fun op => op = .stop ∨ ∃ k, op = .getAction k) cs) :
    OneAtATime (fun _ => True) none (runMach S it cs (S.async b rng)).2 ∧
    (lastOpen none (runMach S it cs (S.async b rng)).2 = none →
      Replays S it (S.async b rng).sh (runMach S it cs (S.async b rng)).2 (runMach S it cs (S.async b rng)).1.sh) := by
  have h1 : OneAtATime (fun _ => True) none (runMach S it cs (S.async b rng)).2 := by
    refine oneAtATime_all (P := Body.Locked) _ _ ?_ (C59_exclusion S it b rng cs)
    refine noFree_trace cs _ ⟨fun w => ?_, fun w b p hp => ?_⟩ ?_
    · cases w with
      | explorer => exact loop_onlyLocked
      | caller => intro b hb; cases hb
    · cases w <;> cases hp
    · intro op hop b hb
      rcases hc op hop with rfl | ⟨k, rfl⟩
      · simp only [AsyncOp.script, List.mem_cons, reduceCtorEq, Cmd.body.injEq, List.not_mem_nil, or_false, false_or] at hb
        subst hb; trivial
      · simp only [AsyncOp.script, List.mem_cons, reduceCtorEq, Cmd.body.injEq, List.not_mem_nil, or_false, false_or] at hb
        rcases hb with rfl | rfl <;> trivial
  exact ⟨h1, fun hd => C59_serial S it b rng cs h1 hd⟩

/-- The threads take turns: an exploration begins, and is not finished, after `get_action` has returned an action. -/
example : (coinRun (coinAction ++ List.replicate 9 .explorer)).2.map (fun x => (x.1, x.2.1)) =
    [(.caller, .called (.getAction none)), (.caller, .started .getAction), (.caller, .finished .getAction (.ok (.name (.str "a")))),
      (.caller, .started .setAction), (.caller, .finished .setAction (.ok .unit)), (.caller, .returned (.getAction none) (.ok (.name (.str "a")))),
      (.explorer, .started .explore)] := by decide +kernel

/-- The hypotheses of `C59_serial` hold when `step` is called while the thread does nothing. -/
example : OneAtATime (fun _ => True) none (coinRun coinAlone).2 ∧ lastOpen none (coinRun coinAlone).2 = none ∧
    (coinRun coinAlone).1.sh.runner.history = [(0, 1)] := by
  decide +kernel

/-- The hypotheses of `C59_linearizable` hold for the calls of `get_action` and `stop`, in the middle of an exploration. -/
example : Calls (fun op => op = .stop ∨ ∃ k, op = .getAction k) coinStopped ∧ lastOpen none (coinRun coinStopped).2 = none ∧
    explorations (coinRun coinStopped).2 = 2 := by
  refine ⟨?_, by decide +kernel, by decide +kernel⟩
  intro op h
  simp only [coinStopped, coinStop, coinAction, List.mem_append, List.mem_replicate, List.mem_singleton, reduceCtorEq, and_false, or_false,
    false_or, Choice.call.injEq] at h
  rcases h with rfl | rfl
  · exact .inr ⟨_, rfl⟩
  · exact .inl rfl

end Verif
