import Verif.Props.AsyncNode

/-! Stopping the exploration thread, and absence of deadlocks. -/

set_option linter.unusedSectionVars false
set_option linter.unusedSimpArgs false

namespace Verif
open Spec
variable {σ β η : Type} [DecidableEq β]

/-! ### The stop flag -/

/-- The program never lowers the stop flag. -/
def DoneKept {α : Type} : Res (AsyncState σ β) α → Prop
  | .done _ => True
  | .act m k => (∀ s, s.done = true → (m s).2.done = true) ∧ ∀ r, DoneKept (k r)

theorem DoneKept.bind {α γ : Type} {p : Res (AsyncState σ β) α} {g : α → Res (AsyncState σ β) γ} (hp : DoneKept p)
    (hg : ∀ a, DoneKept (g a)) : DoneKept (p >>= g) := by
  show DoneKept (p.andThen g)
  induction p with
  | done r =>
      cases r with
      | ok a => exact hg a
      | error e => trivial
  | act m k ih => exact ⟨hp.1, fun r => ih r (hp.2 r)⟩

theorem DoneKept.tree {α : Type} (p : Res (SearchState σ β) α) : DoneKept (treeR p) := by
  induction p with
  | done r => trivial
  | act m k ih => exact ⟨fun s h => h, fun r => ih r⟩

theorem DoneKept.atom {α : Type} {x : M (AsyncState σ β) α} (h : ∀ s, s.done = true → (x s).2.done = true) : DoneKept (Res.atom x) :=
  ⟨h, fun _ => trivial⟩

theorem prog_doneKept (S : Search σ β η) (it : Nat) (b : Body) : DoneKept (b.prog S it) := by
  cases b with
  | explore =>
      exact DoneKept.bind (DoneKept.atom fun s h => h) fun i => DoneKept.bind (DoneKept.atom fun s h => h) fun a =>
        DoneKept.bind (DoneKept.tree _) fun _ => trivial
  | readDone => exact DoneKept.bind (DoneKept.atom fun s h => h) fun i => trivial
  | getAction =>
      exact DoneKept.bind (DoneKept.atom fun s h => h) fun i => DoneKept.bind (DoneKept.tree _) fun _ => DoneKept.bind (DoneKept.tree _) fun a =>
        DoneKept.bind (DoneKept.atom fun s h => h) fun _ => DoneKept.bind (DoneKept.atom fun s h => h) fun n => trivial
  | setAction => exact DoneKept.bind (DoneKept.atom fun s h => h) fun i => trivial
  | setNode => exact DoneKept.bind (DoneKept.atom fun s h => h) fun i => trivial
  | setDone => exact DoneKept.bind (DoneKept.atom fun s h => rfl) fun i => trivial
  | step o =>
      refine DoneKept.bind (DoneKept.atom fun s h => h) fun l => DoneKept.bind (DoneKept.atom fun s h => h) fun a =>
        DoneKept.bind (DoneKept.atom fun s h => h) fun oi => DoneKept.bind (DoneKept.atom fun s h => h) fun h =>
        DoneKept.bind (DoneKept.tree _) fun i => DoneKept.bind (DoneKept.atom fun s h => h) fun _ => trivial
  | reset given => exact DoneKept.bind (DoneKept.atom fun s h => h) fun _ => trivial

/-- The programs in execution never lower the flag. -/
def FlagInv (m : Mach σ β) : Prop := ∀ w b p, (m.strand w).cur = some (b, p) → DoneKept p

theorem FlagInv.move {S : Search σ β η} {it : Nat} {m m' : Mach σ β} {w : Who} {es : List Happening} (h : FlagInv m)
    (hm : Move S it m w m' es) : FlagInv m' := by
  have keep : ∀ (w : Who) (th : Strand σ β) (l : Option Who) (sh : AsyncState σ β),
      (∀ b p, th.cur = some (b, p) → DoneKept p) → FlagInv (m.put w th l sh) := by
    intro w th l sh h1 v b p hc
    rw [put_strand] at hc
    split at hc
    · exact h1 b p hc
    · exact h v b p hc
  cases hm with
  | act w b x k ha hc => exact keep w _ _ _ fun b' p hp => by cases hp; exact (h w b _ hc).2 _
  | finish w b r ha hc => exact keep w _ _ _ fun b' p hp => by cases hp
  | acquire w rest ha hc ht hl => exact keep w _ _ _ fun b' p hp => h w b' p hp
  | release w rest ha hc ht => exact keep w _ _ _ fun b' p hp => h w b' p hp
  | join w rest ha hc ht he => exact keep w _ _ _ fun b' p hp => h w b' p hp
  | start w b rest ha hc ht => exact keep w _ _ _ fun b' p hp => by cases hp; exact prog_doneKept S it b
  | restart ha hc ht ho => intro v; cases v with | explorer => exact h .explorer | caller => exact h .caller
  | stops ha hc ht ho => intro v; cases v with | explorer => exact h .explorer | caller => exact h .caller
  | returns op ho hc ht => intro v; cases v with | explorer => exact h .explorer | caller => exact h .caller
  | call op ho => intro v; cases v with | explorer => exact h .explorer | caller => intro b p hp; cases hp

theorem FlagInv.done {S : Search σ β η} {it : Nat} {m m' : Mach σ β} {w : Who} {es : List Happening} (h : FlagInv m)
    (hm : Move S it m w m' es) (hd : m.sh.done = true) : m'.sh.done = true := by
  cases hm with
  | act w b x k ha hc => rw [put_sh]; exact (h w b _ hc).1 _ hd
  | finish w b r ha hc => rw [put_sh]; exact hd
  | acquire w rest ha hc ht hl => rw [put_sh]; exact hd
  | release w rest ha hc ht => rw [put_sh]; exact hd
  | join w rest ha hc ht he => rw [put_sh]; exact hd
  | start w b rest ha hc ht => rw [put_sh]; exact hd
  | restart ha hc ht ho => exact hd
  | stops ha hc ht ho => exact hd
  | returns op ho hc ht => exact hd
  | call op ho => exact hd

/-! ### The end of the explorations -/

/-- No exploration starts any more. -/
def Quiet (S : Search σ β η) (it : Nat) (m : Mach σ β) : Prop :=
  m.sh.done = true ∧ (m.ended = true ∨ (Cmd.body .explore ∉ m.exp.todo ∧
    WpStrand S it (·.done) m.exp true (fun out _ => out ≠ .ok (.flag false))))

theorem Quiet.move {S : Search σ β η} {it : Nat} {m m' : Mach σ β} {w : Who} {es : List Happening} (hf : FlagInv m) (he : ExpInv S it m)
    (hc : CallerCmds m) (h : Quiet S it m) (hm : Move S it m w m' es) : Quiet S it m' ∧ Happening.started .explore ∉ es := by
  have hd := hf.done hm h.1
  cases w with
  | caller =>
      have hexp : m'.exp = m.exp ∧ m'.ended = m.ended := by cases hm <;> exact ⟨rfl, rfl⟩
      refine ⟨⟨hd, ?_⟩, ?_⟩
      · rw [hexp.1, hexp.2]; exact h.2
      · cases hm with
        | start w b rest ha hc' ht =>
            intro hx
            simp only [List.mem_singleton, Happening.started.injEq] at hx
            subst hx
            exact hc (by rw [show m.caller.todo = _ from ht]; simp)
        | _ => simp
  | explorer =>
      rcases h.2 with h2 | ⟨h2, h3⟩
      · have hna : ¬ m.active .explorer := fun hx => by rw [show m.ended = false from hx] at h2; cases h2
        cases hm with
        | act w b x k ha hc => exact absurd ha hna
        | finish w b r ha hc => exact absurd ha hna
        | acquire w rest ha hc ht hl => exact absurd ha hna
        | release w rest ha hc ht => exact absurd ha hna
        | join w rest ha hc ht he => exact absurd ha hna
        | start w b rest ha hc ht => exact absurd ha hna
        | restart ha hc ht ho => exact absurd ha hna
        | stops ha hc ht ho => exact absurd ha hna
      · have hw : (m.exp.todo = [] → m.exp.cur = none → es = [] → False) → WpStrand S it (·.done) m'.exp true (fun out _ => out ≠ .ok (.flag false)) := by
          intro hr
          have := WpStrand.move (f := fun s : AsyncState σ β => s.done) hm (by rw [h.1]; exact h3) (fun hx => by cases hx) (fun _ => hr)
          simp only [hd] at this
          exact this
        have tl : ∀ {c : Cmd} {rest : List Cmd}, m.exp.todo = c :: rest → Cmd.body .explore ∉ rest := by
          intro c rest ht hx
          exact h2 (by rw [ht]; exact List.mem_cons_of_mem _ hx)
        cases hm with
        | act w b x k ha hc =>
            exact ⟨⟨hd, .inr ⟨h2, hw fun _ h' => by rw [show m.exp.cur = _ from hc] at h'; cases h'⟩⟩, by simp⟩
        | finish w b r ha hc =>
            refine ⟨⟨hd, .inr ⟨?_, hw fun _ h' => by rw [show m.exp.cur = _ from hc] at h'; cases h'⟩⟩, by simp⟩
            show Cmd.body .explore ∉ afterBody _ r m.exp.todo
            cases r with
            | ok a => exact h2
            | error e => simp only [afterBody]; split <;> simp
        | acquire w rest ha hc ht hl =>
            exact ⟨⟨hd, .inr ⟨tl ht, hw fun h' => by rw [show m.exp.todo = _ from ht] at h'; cases h'⟩⟩, by simp⟩
        | release w rest ha hc ht =>
            exact ⟨⟨hd, .inr ⟨tl ht, hw fun h' => by rw [show m.exp.todo = _ from ht] at h'; cases h'⟩⟩, by simp⟩
        | join w rest ha hc ht he =>
            exact ⟨⟨hd, .inr ⟨tl ht, hw fun h' => by rw [show m.exp.todo = _ from ht] at h'; cases h'⟩⟩, by simp⟩
        | start w b rest ha hc ht =>
            refine ⟨⟨hd, .inr ⟨tl ht, hw fun h' => by rw [show m.exp.todo = _ from ht] at h'; cases h'⟩⟩, ?_⟩
            intro hx
            simp only [List.mem_singleton, Happening.started.injEq] at hx
            subst hx
            exact h2 (by rw [show m.exp.todo = _ from ht]; simp)
        | restart ha hc ht ho => exact absurd ho (h3.ends hc ht)
        | stops ha hc ht ho => exact ⟨⟨hd, .inl rfl⟩, by simp⟩

/-- An exploration that starts when the flag is set is the last one. -/
theorem explore_quiet (S : Search σ β η) (it : Nat) (out : Py Out) :
    WpStrand S it (·.done) (⟨some (.explore, Body.explore.prog S it), [.body .readDone, .release], out⟩ : Strand σ β) true
      (fun out _ => out ≠ .ok (.flag false)) := by
  have hr : ∀ out, WpCmds S it (fun s : AsyncState σ β => s.done) [.body .readDone, .release] true out (fun out _ => out ≠ .ok (.flag false)) := by
    intro out
    refine WpRes.bind ?_
    refine WpRes.read fun s hs => ?_
    show (Out.after (.ok (.flag s.done)) out) ≠ _
    rw [show s.done = true from hs]
    simp [Out.after]
  refine WpRes.bind ?_
  refine WpRes.read fun s hs => ?_
  refine WpRes.bind ?_
  refine WpRes.read fun s' hs' => ?_
  refine WpRes.bind ?_
  refine WpRes.tree (fun _ _ => rfl) _ fun r => ?_
  cases r with
  | error e => simp [Out.after]
  | ok a => exact hr _

theorem explorations_append (t u : AsyncTrace σ β) : explorations (t ++ u) = explorations t + explorations u := by
  unfold explorations
  exact List.countP_append

theorem explorations_zero {es : List Happening} {w : Who} {s : AsyncState σ β} (h : Happening.started .explore ∉ es) :
    explorations (es.map fun e => (w, e, s)) = 0 := by
  unfold explorations
  rw [List.countP_eq_zero]
  intro x hx
  obtain ⟨e, he, rfl⟩ := List.mem_map.1 hx
  simp only [decide_eq_true_eq]
  rintro rfl
  exact h he

/-- What holds of the machine at any time. -/
structure MInv (S : Search σ β η) (it : Nat) (m : Mach σ β) : Prop where
  lock : LockInv m
  exp : ExpInv S it m
  cmds : CallerCmds m
  flag : FlagInv m

theorem MInv.move {S : Search σ β η} {it : Nat} {m m' : Mach σ β} {w : Who} {es : List Happening} (h : MInv S it m)
    (hm : Move S it m w m' es) : MInv S it m' := ⟨h.lock.move hm, h.exp.move hm, h.cmds.move hm, h.flag.move hm⟩

theorem MInv.init (S : Search σ β η) (it : Nat) (b : β) (rng : σ) : MInv S it (S.async b rng) :=
  ⟨LockInv.init S b rng, ExpInv.init S it b rng, by simp [CallerCmds, Search.async], fun w b p h => by cases w <;> cases h⟩

theorem quiet_run {S : Search σ β η} {it : Nat} : ∀ (cs : List Choice) (m : Mach σ β), MInv S it m → Quiet S it m →
    explorations (runMach S it cs m).2 = 0 := by
  intro cs
  induction cs with
  | nil => intro m _ _; rfl
  | cons c cs ih =>
      intro m hi h
      show explorations (_ ++ _) = 0
      rw [explorations_append]
      rcases step_move S it m c with ⟨h1, h2⟩ | h1
      · rw [h2, h1, ih m hi h]; rfl
      · obtain ⟨hq, hes⟩ := h.move hi.flag hi.exp hi.cmds h1
        rw [explorations_zero hes, ih _ (hi.move h1) hq]

/-- A move that starts an exploration with the flag set. -/
theorem start_quiet {S : Search σ β η} {it : Nat} {m m' : Mach σ β} {w : Who} {es : List Happening} (hi : MInv S it m) (hd : m.sh.done = true)
    (hm : Move S it m w m' es) (he : Happening.started .explore ∈ es) : Quiet S it m' ∧ es = [.started .explore] := by
  cases hm with
  | start w b rest ha hc ht =>
      simp only [List.mem_singleton, Happening.started.injEq] at he
      subst he
      cases w with
      | caller => exact absurd (by rw [show m.caller.todo = _ from ht]; simp) hi.cmds
      | explorer =>
          have hrest : rest = [.body .readDone, .release] := by
            have := hi.exp.todo
            rw [show m.exp.todo = _ from ht] at this
            simpa [loopScript] using this
          subst hrest
          exact ⟨⟨hd, .inr ⟨by simp [Mach.put], explore_quiet S it _⟩⟩, rfl⟩
  | _ => simp at he

theorem done_run {S : Search σ β η} {it : Nat} : ∀ (cs : List Choice) (m : Mach σ β), MInv S it m → m.sh.done = true →
    explorations (runMach S it cs m).2 ≤ 1 := by
  intro cs
  induction cs with
  | nil => intro m _ _; exact Nat.zero_le _
  | cons c cs ih =>
      intro m hi h
      show explorations (_ ++ _) ≤ 1
      rw [explorations_append]
      rcases step_move S it m c with ⟨h1, h2⟩ | h1
      · rw [h2, h1]
        have := ih m hi h
        simp only [List.map_nil]
        show 0 + _ ≤ 1
        omega
      · by_cases he : Happening.started .explore ∈ (m.step S it c).2
        · obtain ⟨hq, hes⟩ := start_quiet hi h h1 he
          rw [quiet_run cs _ (hi.move h1) hq, hes]
          rfl
        · rw [explorations_zero he]
          have := ih _ (hi.move h1) (hi.flag.done h1 h)
          omega

/-! ### `stop` -/

/-- The caller in `stop`. -/
structure StopInv (S : Search σ β η) (it : Nat) (m : Mach σ β) : Prop where
  todo : m.op = some .stop → m.caller.todo ∈ [AsyncOp.stop.script, AsyncOp.stop.script.drop 1, AsyncOp.stop.script.drop 2,
    AsyncOp.stop.script.drop 3] ∨ m.ended = true ∧ m.caller.todo = [] ∧ m.caller.cur = none
  wp : m.op = some .stop → WpStrand S it (·.done) m.caller m.sh.done fun r v => r = .ok .unit ∧ v = true
  other : m.op ≠ some .stop → Cmd.join ∉ m.caller.todo

theorem StopInv.move {S : Search σ β η} {it : Nat} {m m' : Mach σ β} {w : Who} {es : List Happening} (he : ExpInv S it m)
    (hl : LockInv m) (h : StopInv S it m) (hm : Move S it m w m' es) : StopInv S it m' := by
  cases w with
  | explorer =>
      obtain ⟨⟨t, h1⟩, h2, h3⟩ := explorer_move he hm
      have hend : m.ended = true → m'.ended = true := by
        intro hx
        cases hm <;> first | exact hx | rfl
      refine ⟨fun ho => ?_, fun ho => ?_, fun ho => ?_⟩
      · rw [h3] at ho; rw [h2]
        rcases h.todo ho with h' | h'
        · exact .inl h'
        · exact .inr ⟨hend h'.1, h'.2⟩
      · rw [h3] at ho; rw [h2, h1]; exact h.wp ho
      · rw [h3] at ho; rw [h2]; exact h.other ho
  | caller =>
      have wp : m'.op = m.op → (∀ op', es ≠ [.called op']) → m'.op = some .stop →
          WpStrand S it (·.done) m'.caller m'.sh.done fun r v => r = .ok .unit ∧ v = true := by
        intro h1 h2 ho
        exact WpStrand.move (f := fun s : AsyncState σ β => s.done) hm (h.wp (h1 ▸ ho)) (fun _ => h2) (fun hx => by cases hx)
      cases hm with
      | act w b x k ha hc =>
          refine ⟨fun ho => ?_, wp rfl (fun _ h => by cases h), fun ho => h.other ho⟩
          rcases h.todo ho with h' | h'
          · exact .inl h'
          · exact absurd (h'.2.2.symm.trans hc) (by simp)
      | finish w b r ha hc =>
          refine ⟨fun ho => ?_, wp rfl (fun _ h => by cases h), fun ho => ?_⟩
          · rcases h.todo ho with h' | h'
            · left
              cases r with
              | ok a => exact h'
              | error e =>
                  have := h.wp ho
                  unfold WpStrand at this
                  rw [show m.caller.cur = _ from hc] at this
                  exact absurd this.1 (by simp [Out.after])
            · exact absurd (h'.2.2.symm.trans hc) (by simp)
          · show Cmd.join ∉ afterBody _ r m.caller.todo
            cases r with
            | ok a => exact h.other ho
            | error e => simp only [afterBody]; split <;> simp
      | acquire w rest ha hc ht hl' =>
          refine ⟨fun ho => ?_, wp rfl (fun _ h => by cases h), fun ho => ?_⟩
          · left
            rcases h.todo ho with h' | h'
            · rw [show m.caller.todo = _ from ht] at h'
              simp only [AsyncOp.script, List.drop, List.mem_cons, List.cons.injEq, List.not_mem_nil, or_false, reduceCtorEq, false_and, true_and,
                false_or] at h'
              subst h'
              simp [AsyncOp.script, Mach.put]
            · exact absurd (h'.2.1.symm.trans ht) (by simp)
          · intro hx
            exact h.other ho (by rw [show m.caller.todo = _ from ht]; exact List.mem_cons_of_mem _ hx)
      | release w rest ha hc ht =>
          refine ⟨fun ho => ?_, wp rfl (fun _ h => by cases h), fun ho => ?_⟩
          · left
            rcases h.todo ho with h' | h'
            · rw [show m.caller.todo = _ from ht] at h'
              simp only [AsyncOp.script, List.drop, List.mem_cons, List.cons.injEq, List.not_mem_nil, or_false, reduceCtorEq, false_and, true_and,
                false_or] at h'
              subst h'
              simp [AsyncOp.script, Mach.put]
            · exact absurd (h'.2.1.symm.trans ht) (by simp)
          · intro hx
            exact h.other ho (by rw [show m.caller.todo = _ from ht]; exact List.mem_cons_of_mem _ hx)
      | join w rest ha hc ht hend =>
          refine ⟨fun ho => ?_, wp rfl (fun _ h => by cases h), fun ho => ?_⟩
          · right
            rcases h.todo ho with h' | h'
            · rw [show m.caller.todo = _ from ht] at h'
              simp only [AsyncOp.script, List.drop, List.mem_cons, List.cons.injEq, List.not_mem_nil, or_false, reduceCtorEq, false_and, true_and,
                false_or] at h'
              subst h'
              exact ⟨hend, rfl, hc⟩
            · exact absurd (h'.2.1.symm.trans ht) (by simp)
          · intro hx
            exact h.other ho (by rw [show m.caller.todo = _ from ht]; exact List.mem_cons_of_mem _ hx)
      | start w b rest ha hc ht =>
          refine ⟨fun ho => ?_, wp rfl (fun _ h => by cases h), fun ho => ?_⟩
          · left
            rcases h.todo ho with h' | h'
            · rw [show m.caller.todo = _ from ht] at h'
              simp only [AsyncOp.script, List.drop, List.mem_cons, List.cons.injEq, List.not_mem_nil, or_false, reduceCtorEq, false_and, true_and,
                false_or] at h'
              rw [h'.2]
              simp [AsyncOp.script, Mach.put]
            · exact absurd (h'.2.1.symm.trans ht) (by simp)
          · intro hx
            exact h.other ho (by rw [show m.caller.todo = _ from ht]; exact List.mem_cons_of_mem _ hx)
      | returns op ho hc ht => exact ⟨fun h' => (by cases h'), fun h' => (by cases h'), fun _ => by show Cmd.join ∉ m.caller.todo; rw [ht]; simp⟩
      | call op ho =>
          refine ⟨fun h' => ?_, fun h' => ?_, fun h' => ?_⟩
          · cases h'; left; simp
          · cases h'
            show WpCmds S it (fun s : AsyncState σ β => s.done) AsyncOp.stop.script m.sh.done (.ok .unit) fun r v => r = .ok .unit ∧ v = true
            refine WpRes.bind ?_
            intro s hs
            exact ⟨rfl, rfl⟩
          · show Cmd.join ∉ op.script
            cases op with
            | stop => exact absurd rfl h'
            | _ => simp [AsyncOp.script]

theorem StopInv.init (S : Search σ β η) (it : Nat) (b : β) (rng : σ) : StopInv S it (S.async b rng) :=
  ⟨fun h => (by cases h), fun h => (by cases h), fun _ => by simp [Search.async]⟩

theorem StopInv.returned {S : Search σ β η} {it : Nat} {m m' : Mach σ β} {w : Who} {es : List Happening} {r : Py Out}
    (h : StopInv S it m) (hm : Move S it m w m' es) (he : Happening.returned .stop r ∈ es) :
    r = .ok .unit ∧ m'.sh.done = true ∧ m'.ended = true := by
  cases hm with
  | returns op ho hc ht =>
      simp only [List.mem_singleton, Happening.returned.injEq] at he
      obtain ⟨rfl, rfl⟩ := he
      have hq := (h.wp ho).ends hc ht
      refine ⟨hq.1, hq.2, ?_⟩
      rcases h.todo ho with h' | h'
      · rw [ht] at h'; simp [AsyncOp.script] at h'
      · exact h'.1
  | _ => simp at he

theorem move_ended {S : Search σ β η} {it : Nat} {m m' : Mach σ β} {w : Who} {es : List Happening} (hm : Move S it m w m' es)
    (he : m.ended = true) : m'.ended = true := by
  cases hm <;> first | (rw [put_ended]; exact he) | exact he | rfl

theorem ended_run {S : Search σ β η} {it : Nat} : ∀ (cs : List Choice) (m : Mach σ β), MInv S it m → m.sh.done = true → m.ended = true →
    (runMach S it cs m).1.sh.done = true ∧ (runMach S it cs m).1.ended = true ∧ ∀ x ∈ (runMach S it cs m).2, x.1 = .caller := by
  intro cs
  induction cs with
  | nil => intro m _ hd he; exact ⟨hd, he, fun x hx => by cases hx⟩
  | cons c cs ih =>
      intro m hi hd he
      rcases step_move S it m c with ⟨h1, h2⟩ | h1
      · have := ih m hi hd he
        show (runMach S it cs (m.step S it c).1).1.sh.done = true ∧ (runMach S it cs (m.step S it c).1).1.ended = true ∧ ∀ x ∈ _ ++ _, _
        rw [h1, h2]
        exact this
      · have he' : (m.step S it c).1.ended = true := move_ended h1 he
        obtain ⟨i1, i2, i3⟩ := ih _ (hi.move h1) (hi.flag.done h1 hd) he'
        refine ⟨i1, i2, fun x hx => ?_⟩
        rcases List.mem_append.1 hx with hx | hx
        · cases c with
          | explorer =>
              have : (m.step S it .explorer) = (m, []) := by
                show explorerStep S it m = (m, [])
                unfold explorerStep
                rw [if_pos he]
              rw [this] at hx
              cases hx
          | caller => obtain ⟨e, _, rfl⟩ := List.mem_map.1 hx; rfl
          | call op => obtain ⟨e, _, rfl⟩ := List.mem_map.1 hx; rfl
        · exact i3 x hx

theorem stop_run {S : Search σ β η} {it : Nat} : ∀ (cs : List Choice) (m : Mach σ β), MInv S it m → StopInv S it m →
    ∀ w r s, (w, Happening.returned .stop r, s) ∈ (runMach S it cs m).2 →
      r = .ok .unit ∧ (runMach S it cs m).1.sh.done = true ∧ (runMach S it cs m).1.ended = true := by
  intro cs
  induction cs with
  | nil => intro m _ _ w r s h; cases h
  | cons c cs ih =>
      intro m hi hs w r s h
      show r = .ok .unit ∧ (runMach S it cs (m.step S it c).1).1.sh.done = true ∧ (runMach S it cs (m.step S it c).1).1.ended = true
      rcases step_move S it m c with ⟨h1, h2⟩ | h1
      · rcases List.mem_append.1 h with h | h
        · rw [h2] at h; cases h
        · rw [h1] at h ⊢; exact ih m hi hs w r s h
      · rcases List.mem_append.1 h with h | h
        · obtain ⟨e, he, hx⟩ := List.mem_map.1 h
          cases hx
          obtain ⟨r1, r2, r3⟩ := hs.returned h1 he
          obtain ⟨e1, e2, _⟩ := ended_run cs _ (hi.move h1) r2 r3
          exact ⟨r1, e1, e2⟩
        · exact ih _ (hi.move h1) (hs.move hi.exp hi.lock h1) w r s h

theorem minv_run {S : Search σ β η} {it : Nat} (b : β) (rng : σ) (cs : List Choice) : MInv S it (runMach S it cs (S.async b rng)).1 :=
  run_invariant (fun _ _ _ _ h hm => h.move hm) cs _ (MInv.init S it b rng)

/-- **C59**: once the stop flag is set, at most one more exploration starts, whatever is called. -/
theorem C59_last (S : Search σ β η) (it : Nat) (b : β) (rng : σ) (cs cs' : List Choice)
    (hd : (runMach S it cs (S.async b rng)).1.sh.done = true) :
    explorations (runMach S it cs' (runMach S it cs (S.async b rng)).1).2 ≤ 1 :=
  done_run cs' _ (minv_run b rng cs) hd

/-- **C59**: `stop` does not fail; when it has returned the thread has ended and does nothing any more. -/
theorem C59_stop (S : Search σ β η) (it : Nat) (b : β) (rng : σ) (cs cs' : List Choice) (w : Who) (r : Py Out) (s : AsyncState σ β)
    (h : (w, Happening.returned .stop r, s) ∈ (runMach S it cs (S.async b rng)).2) :
    r = .ok .unit ∧ (runMach S it cs (S.async b rng)).1.sh.done = true ∧ (runMach S it cs (S.async b rng)).1.ended = true ∧
    ∀ x ∈ (runMach S it cs' (runMach S it cs (S.async b rng)).1).2, x.1 = .caller := by
  obtain ⟨h1, h2, h3⟩ := stop_run cs (S.async b rng) (MInv.init S it b rng) (StopInv.init S it b rng) w r s h
  exact ⟨h1, h2, h3, (ended_run cs' _ (minv_run b rng cs) h2 h3).2.2⟩

/-! ### Absence of deadlocks -/

/-- A state can be reached without calling any method. -/
def CanReach (S : Search σ β η) (it : Nat) (m m' : Mach σ β) : Prop :=
  ∃ cs, Calls (fun _ => False) cs ∧ (runMach S it cs m).1 = m'

theorem runMach_append (S : Search σ β η) (it : Nat) : ∀ (cs cs' : List Choice) (m : Mach σ β),
    (runMach S it (cs ++ cs') m).1 = (runMach S it cs' (runMach S it cs m).1).1 := by
  intro cs
  induction cs with
  | nil => intro cs' m; rfl
  | cons c cs ih => intro cs' m; exact ih cs' _

theorem CanReach.refl (S : Search σ β η) (it : Nat) (m : Mach σ β) : CanReach S it m m := ⟨[], fun _ h => (by cases h), rfl⟩

theorem CanReach.trans {S : Search σ β η} {it : Nat} {m m' m'' : Mach σ β} (h : CanReach S it m m') (h' : CanReach S it m' m'') :
    CanReach S it m m'' := by
  obtain ⟨cs, hc, rfl⟩ := h
  obtain ⟨cs', hc', rfl⟩ := h'
  refine ⟨cs ++ cs', fun op ho => ?_, runMach_append S it cs cs' m⟩
  rcases List.mem_append.1 ho with ho | ho
  · exact hc op ho
  · exact hc' op ho

theorem CanReach.inv {S : Search σ β η} {it : Nat} {m m' : Mach σ β} (h : CanReach S it m m') {I : Mach σ β → Prop}
    (hI : ∀ m w m' es, I m → Move S it m w m' es → I m') (hm : I m) : I m' := by
  obtain ⟨cs, _, rfl⟩ := h
  exact run_invariant hI cs m hm

/-- The choice of a step of a thread. -/
def Who.choice : Who → Choice
  | .explorer => .explorer
  | .caller => .caller

theorem CanReach.step {S : Search σ β η} {it : Nat} {m : Mach σ β} (w : Who) : CanReach S it m (m.step S it w.choice).1 := by
  refine ⟨[w.choice], fun op ho => ?_, rfl⟩
  rw [List.mem_singleton] at ho
  cases w <;> cases ho

theorem step_strand {S : Search σ β η} {it : Nat} {m : Mach σ β} {w : Who} (ha : m.active w) (hi : (m.strand w).idle ≠ true) :
    (m.step S it w.choice).1 = m.put w (strandStep S it w m.ended (m.strand w) m.lock m.sh).1
      (strandStep S it w m.ended (m.strand w) m.lock m.sh).2.1 (strandStep S it w m.ended (m.strand w) m.lock m.sh).2.2.1 := by
  cases w with
  | explorer =>
      show (explorerStep S it m).1 = _
      unfold explorerStep
      rw [if_neg (by rw [show m.ended = false from ha]; simp), if_neg (show ¬ m.exp.idle = true from hi)]
      rfl
  | caller =>
      show (callerStep S it m).1 = _
      unfold callerStep
      rcases ho : m.op with _ | op
      · exact absurd ho ha
      · simp only
        rw [if_neg (show ¬ m.caller.idle = true from hi)]
        simp only [Mach.put, ho, Mach.strand]

theorem not_idle_cur {th : Strand σ β} {x : Body × Res (AsyncState σ β) Out} (h : th.cur = some x) : th.idle ≠ true := by
  intro hi
  have := ((idle_iff _).1 hi).1
  rw [h] at this
  cases this

theorem not_idle_todo {th : Strand σ β} {c : Cmd} {r : List Cmd} (h : th.todo = c :: r) : th.idle ≠ true := by
  intro hi
  have := ((idle_iff _).1 hi).2
  rw [h] at this
  cases this

theorem put_put (m : Mach σ β) (w : Who) (th th' : Strand σ β) (l l' : Option Who) (sh sh' : AsyncState σ β) :
    (m.put w th l sh).put w th' l' sh' = m.put w th' l' sh' := by cases w <;> rfl

theorem put_active {m : Mach σ β} {w v : Who} {th : Strand σ β} {l : Option Who} {sh : AsyncState σ β} (h : m.active v) :
    (m.put w th l sh).active v := by cases w <;> cases v <;> exact h

theorem put_self (m : Mach σ β) (w : Who) : m.put w (m.strand w) m.lock m.sh = m := by cases w <;> rfl

/-- A thread can finish the body in execution. -/
theorem reach_finish {S : Search σ β η} {it : Nat} {w : Who} {b : Body} (p : Res (AsyncState σ β) Out) : ∀ {m : Mach σ β}, m.active w →
    (m.strand w).cur = some (b, p) → ∃ r sh, CanReach S it m
      (m.put w ⟨none, afterBody (decide (m.lock = some w)) r (m.strand w).todo, Out.after r (m.strand w).out⟩ m.lock sh) := by
  induction p with
  | done r =>
      intro m ha hc
      refine ⟨r, m.sh, ?_⟩
      have := CanReach.step (S := S) (it := it) (m := m) w
      rw [step_strand ha (not_idle_cur hc)] at this
      simpa only [strandStep, hc] using this
  | act x k ih =>
      intro m ha hc
      have h1 := CanReach.step (S := S) (it := it) (m := m) w
      rw [step_strand ha (not_idle_cur hc)] at h1
      simp only [strandStep, hc] at h1
      obtain ⟨r, sh, h2⟩ := ih (x m.sh).1 (m := m.put w { m.strand w with cur := some (b, k (x m.sh).1) } m.lock (x m.sh).2) (put_active ha)
        (by rw [put_strand, if_pos rfl])
      refine ⟨r, sh, h1.trans ?_⟩
      rw [put_put, put_lock, put_strand, if_pos rfl] at h2
      exact h2

/-- A thread that holds the lock can release it. -/
theorem reach_release {S : Search σ β η} {it : Nat} {w : Who} : ∀ (n : Nat) {m : Mach σ β}, m.active w → m.lock = some w →
    (m.strand w).cur = none → Balanced true (m.strand w).todo → (m.strand w).todo.length ≤ n →
    ∃ th sh, CanReach S it m (m.put w th none sh) := by
  intro n
  induction n with
  | zero =>
      intro m ha hl hc hb hn
      rw [List.length_eq_zero_iff.1 (Nat.le_zero.1 hn)] at hb
      cases hb
  | succ n ih =>
      intro m ha hl hc hb hn
      rcases ht : (m.strand w).todo with _ | ⟨c, rest⟩
      · rw [ht] at hb; cases hb
      · have h1 := CanReach.step (S := S) (it := it) (m := m) w
        rw [step_strand ha (not_idle_todo ht)] at h1
        rw [ht] at hb hn
        cases c with
        | acquire => exact absurd hb.1 (by simp)
        | join => exact absurd hb.1 (by simp)
        | release =>
            simp only [strandStep, hc, ht] at h1
            exact ⟨_, _, h1⟩
        | body b =>
            simp only [strandStep, hc, ht] at h1
            obtain ⟨r, sh, h2⟩ := reach_finish (S := S) (it := it) (w := w) (b := b) (b.prog S it)
              (m := m.put w ⟨some (b, b.prog S it), rest, (m.strand w).out⟩ m.lock m.sh) (put_active ha) (by rw [put_strand, if_pos rfl])
            rw [put_put, put_lock, put_strand, if_pos rfl, hl] at h2
            have h3 := ih (m := m.put w ⟨none, afterBody true r rest, Out.after r (m.strand w).out⟩ (some w) sh) (put_active ha) (put_lock _ _ _ _ _)
              (by rw [put_strand, if_pos rfl]) (by rw [put_strand, if_pos rfl]; exact afterBody_balanced _ _ _ hb.2)
              (by
                rw [put_strand, if_pos rfl]
                have hr : rest ≠ [] := by rintro rfl; exact absurd hb.2 (by simp [Balanced])
                have : 0 < rest.length := List.length_pos_iff.2 hr
                simp only [List.length_cons] at hn
                cases r with
                | ok a => show rest.length ≤ n; omega
                | error e => show 1 ≤ n; omega)
            obtain ⟨th, sh', h3⟩ := h3
            rw [put_put] at h3
            refine ⟨th, sh', h1.trans (CanReach.trans ?_ h3)⟩
            rw [hl]
            simpa [hl] using h2

/-- If the exploration thread holds the lock, it can release it. -/
theorem reach_unlocked {S : Search σ β η} {it : Nat} {m : Mach σ β} (hi : MInv S it m) (hl : m.lock = some .explorer) :
    ∃ th sh, CanReach S it m (m.put .explorer th none sh) := by
  have ha : m.active .explorer := by
    show m.ended = false
    by_contra he
    have := hi.lock.dead (by simpa using he)
    have hb := hi.lock.todo .explorer
    rw [show (m.strand .explorer).todo = [] from this.2, hl] at hb
    cases hb
  rcases hc : m.exp.cur with _ | ⟨b, p⟩
  · have hb := hi.lock.todo .explorer
    rw [hl] at hb
    exact reach_release _ ha hl hc (by simpa using hb) (Nat.le_refl _)
  · obtain ⟨r, sh, h1⟩ := reach_finish (S := S) (it := it) (w := .explorer) (b := b) p (m := m) ha hc
    have hi' := h1.inv (I := MInv S it) (fun _ _ _ _ h hm => h.move hm) hi
    have hb := hi'.lock.todo .explorer
    rw [put_lock, hl] at hb
    rw [hl] at h1
    obtain ⟨th, sh', h2⟩ := reach_release (S := S) (it := it) _ (w := .explorer) (m := m.put .explorer
      ⟨none, afterBody (decide ((some Who.explorer : Option Who) = some .explorer)) r (m.strand .explorer).todo, Out.after r (m.strand .explorer).out⟩
        (some .explorer) sh)
      (put_active ha) (put_lock _ _ _ _ _) rfl hb (Nat.le_refl _)
    rw [put_put] at h2
    exact ⟨th, sh', h1.trans h2⟩

theorem put_caller (m : Mach σ β) (th : Strand σ β) (l : Option Who) (sh : AsyncState σ β) : (m.put .explorer th l sh).caller = m.caller := rfl

/-- The exploration thread can end when the flag is set and the caller does not hold the lock. -/
theorem reach_ended {S : Search σ β η} {it : Nat} {m : Mach σ β} (hi : MInv S it m) (hd : m.sh.done = true) (hl : m.lock ≠ some .caller) :
    ∃ m', CanReach S it m m' ∧ m'.ended = true ∧ m'.caller = m.caller ∧ m'.op = m.op ∧ m'.lock ≠ some .caller := by
  have hdm : ∀ {m m' : Mach σ β}, MInv S it m → m.sh.done = true → CanReach S it m m' → MInv S it m' ∧ m'.sh.done = true := by
    intro m m' h1 h2 h3
    exact h3.inv (I := fun m => MInv S it m ∧ m.sh.done = true) (fun _ _ _ _ h hm => ⟨h.1.move hm, h.1.flag.done hm h.2⟩) ⟨h1, h2⟩
  -- with the lock free
  have free : ∀ {m : Mach σ β}, MInv S it m → m.lock = none → m.exp.cur = none := by
    intro m h1 h2
    rcases hc : m.exp.cur with _ | ⟨b, p⟩
    · rfl
    · exfalso
      have hb := h1.lock.cur .explorer b p hc
      rw [h2] at hb
      rcases (h1.exp.cur b p hc).2 with ⟨rfl, _⟩ | ⟨rfl, _⟩ <;> exact absurd (hb.1 trivial) (by simp)
  have freeTodo : ∀ {m : Mach σ β}, MInv S it m → m.lock = none → m.exp.todo = loopScript ∨ m.exp.todo = [] := by
    intro m h1 h2
    have hb := h1.lock.todo .explorer
    rw [h2] at hb
    have hb' : Balanced false m.exp.todo := hb
    have := h1.exp.todo
    simp only [List.mem_cons, List.not_mem_nil, or_false] at this
    rcases this with h | h | h | h | h
    · exact .inl h
    · rw [h] at hb'; simp [loopScript, Balanced, Body.Locked] at hb'
    · rw [h] at hb'; simp [loopScript, Balanced, Body.Locked] at hb'
    · rw [h] at hb'; simp [loopScript, Balanced, Body.Locked] at hb'
    · exact .inr h
  have quiet : ∀ {m : Mach σ β}, MInv S it m → m.lock = none → Quiet S it m →
      ∃ m', CanReach S it m m' ∧ m'.ended = true ∧ m'.caller = m.caller ∧ m'.op = m.op ∧ m'.lock ≠ some .caller := by
    intro m h1 h2 h3
    rcases h3.2 with h | ⟨h4, h5⟩
    · exact ⟨m, CanReach.refl S it m, h, rfl, rfl, by rw [h2]; simp⟩
    · have ht : m.exp.todo = [] := by
        rcases freeTodo h1 h2 with h | h
        · rw [h] at h4; simp [loopScript] at h4
        · exact h
      have hc := free h1 h2
      have ho := h5.ends hc ht
      by_cases he : m.ended = true
      · exact ⟨m, CanReach.refl S it m, he, rfl, rfl, by rw [h2]; simp⟩
      · refine ⟨{ m with ended := true }, ?_, rfl, rfl, rfl, by show m.lock ≠ _; rw [h2]; simp⟩
        have hs : (m.step S it Who.explorer.choice).1 = { m with ended := true } := by
          show (explorerStep S it m).1 = _
          unfold explorerStep
          rw [if_neg he, if_pos ((idle_iff _).2 ⟨hc, ht⟩), if_neg ho]
        rw [← hs]
        exact CanReach.step .explorer
  have script : ∀ {m : Mach σ β}, MInv S it m → m.sh.done = true → m.ended = false → m.lock = none → m.exp.todo = loopScript →
      ∃ m', CanReach S it m m' ∧ m'.ended = true ∧ m'.caller = m.caller ∧ m'.op = m.op ∧ m'.lock ≠ some .caller := by
    intro m h1 h2 hact h3 h4
    have hc := free h1 h3
    have s1 := CanReach.step (S := S) (it := it) (m := m) .explorer
    rw [step_strand (show m.active .explorer from hact) (not_idle_todo (show (m.strand .explorer).todo = .acquire :: _ from h4))] at s1
    have e1 : strandStep S it .explorer m.ended (m.strand .explorer) m.lock m.sh =
        ({ m.strand .explorer with todo := [.body .explore, .body .readDone, .release] }, some .explorer, m.sh, []) := by
      simp only [strandStep, Mach.strand, hc, h4, loopScript, h3, if_true]
    rw [e1] at s1
    set m1 := m.put .explorer { m.strand .explorer with todo := [.body .explore, .body .readDone, .release] } (some .explorer) m.sh with hm1
    obtain ⟨i1, d1⟩ := hdm h1 h2 s1
    have s2 := CanReach.step (S := S) (it := it) (m := m1) .explorer
    rw [step_strand (show m1.active .explorer from hact) (not_idle_todo (show (m1.strand .explorer).todo = .body .explore :: _ from rfl))] at s2
    have e2 : strandStep S it .explorer m1.ended (m1.strand .explorer) m1.lock m1.sh =
        (⟨some (.explore, Body.explore.prog S it), [.body .readDone, .release], m.exp.out⟩, some .explorer, m.sh, [.started .explore]) := by
      have : (m1.strand .explorer) = ⟨none, [.body .explore, .body .readDone, .release], m.exp.out⟩ := by
        rw [hm1]; simp only [Mach.put, Mach.strand, hc]
      simp only [strandStep, this]
      rfl
    rw [e2] at s2
    set m2 := m1.put .explorer ⟨some (.explore, Body.explore.prog S it), [.body .readDone, .release], m.exp.out⟩ (some .explorer) m.sh with hm2
    obtain ⟨i2, d2⟩ := hdm i1 d1 s2
    have hq : Quiet S it m2 := ⟨d2, .inr ⟨by simp [hm2, Mach.put], explore_quiet S it _⟩⟩
    obtain ⟨th, sh, s3⟩ := reach_unlocked (S := S) (it := it) i2 rfl
    have h3' := s3.inv (I := fun m => MInv S it m ∧ Quiet S it m)
      (fun _ _ _ _ h hm => ⟨h.1.move hm, (h.2.move h.1.flag h.1.exp h.1.cmds hm).1⟩) ⟨i2, hq⟩
    obtain ⟨m', s4, f1, f2, f3, f4⟩ := quiet h3'.1 rfl h3'.2
    exact ⟨m', s1.trans (s2.trans (s3.trans s4)), f1, f2, f3, f4⟩
  have nolock : ∀ {m : Mach σ β}, MInv S it m → m.sh.done = true → m.lock = none →
      ∃ m', CanReach S it m m' ∧ m'.ended = true ∧ m'.caller = m.caller ∧ m'.op = m.op ∧ m'.lock ≠ some .caller := by
    intro m h1 h2 h3
    by_cases he : m.ended = true
    · exact ⟨m, CanReach.refl S it m, he, rfl, rfl, by rw [h3]; simp⟩
    have he' : m.ended = false := by simpa using he
    have hc := free h1 h3
    rcases freeTodo h1 h3 with ht | ht
    · exact script h1 h2 he' h3 ht
    · by_cases ho : m.exp.out = .ok (.flag false)
      · have s1 := CanReach.step (S := S) (it := it) (m := m) .explorer
        have e1 : (m.step S it Who.explorer.choice).1 = { m with exp := { m.exp with todo := loopScript } } := by
          show (explorerStep S it m).1 = _
          unfold explorerStep
          rw [if_neg he, if_pos ((idle_iff _).2 ⟨hc, ht⟩), if_pos ho]
        rw [e1] at s1
        obtain ⟨i1, d1⟩ := hdm h1 h2 s1
        obtain ⟨m', s2, f⟩ := script i1 d1 he' h3 rfl
        exact ⟨m', s1.trans s2, f⟩
      · have s1 := CanReach.step (S := S) (it := it) (m := m) .explorer
        have e1 : (m.step S it Who.explorer.choice).1 = { m with ended := true } := by
          show (explorerStep S it m).1 = _
          unfold explorerStep
          rw [if_neg he, if_pos ((idle_iff _).2 ⟨hc, ht⟩), if_neg ho]
        rw [e1] at s1
        exact ⟨_, s1, rfl, rfl, rfl, by show m.lock ≠ _; rw [h3]; simp⟩
  rcases hlk : m.lock with _ | w
  · exact nolock hi hd hlk
  · cases w with
    | caller => exact absurd hlk hl
    | explorer =>
        obtain ⟨th, sh, s1⟩ := reach_unlocked (S := S) (it := it) hi hlk
        obtain ⟨i1, d1⟩ := hdm hi hd s1
        obtain ⟨m', s2, f1, f2, f3, f4⟩ := nolock i1 d1 rfl
        exact ⟨m', s1.trans s2, f1, f2, f3, f4⟩

/-- The caller can complete its commands. -/
theorem reach_return {S : Search σ β η} {it : Nat} : ∀ (n : Nat) {m : Mach σ β}, MInv S it m → StopInv S it m → m.op ≠ none →
    m.caller.cur = none → m.caller.todo.length ≤ n → ∃ m', CanReach S it m m' ∧ m'.op = none := by
  intro n
  induction n with
  | zero =>
      intro m hi hs ho hc hn
      have ht : m.caller.todo = [] := List.length_eq_zero_iff.1 (Nat.le_zero.1 hn)
      refine ⟨_, CanReach.step .caller, ?_⟩
      show (callerStep S it m).1.op = none
      unfold callerStep
      rcases ho' : m.op with _ | op
      · exact absurd ho' ho
      · simp only [(idle_iff _).2 ⟨hc, ht⟩, if_true]
  | succ n ih =>
      intro m hi hs ho hc hn
      have inv2 : ∀ {m m' : Mach σ β}, MInv S it m → StopInv S it m → CanReach S it m m' → MInv S it m' ∧ StopInv S it m' := by
        intro m m' h1 h2 h3
        exact h3.inv (I := fun m => MInv S it m ∧ StopInv S it m) (fun _ _ _ _ h hm => ⟨h.1.move hm, h.2.move h.1.exp h.1.lock hm⟩) ⟨h1, h2⟩
      rcases ht : m.caller.todo with _ | ⟨c, rest⟩
      · exact ih hi hs ho hc (by rw [ht]; simp)
      · have ha : m.active .caller := ho
        have s1 := CanReach.step (S := S) (it := it) (m := m) .caller
        rw [step_strand ha (not_idle_todo (show (m.strand .caller).todo = c :: rest from ht))] at s1
        have hn' : rest.length ≤ n := by rw [ht] at hn; simpa using hn
        cases c with
        | release =>
            have e1 : strandStep S it .caller m.ended (m.strand .caller) m.lock m.sh = ({ m.caller with todo := rest }, none, m.sh, []) := by
              simp only [strandStep, Mach.strand, hc, ht]
            rw [e1] at s1
            obtain ⟨i1, j1⟩ := inv2 hi hs s1
            obtain ⟨m', s2, h2⟩ := ih i1 j1 ho hc hn'
            exact ⟨m', s1.trans s2, h2⟩
        | body b =>
            have e1 : strandStep S it .caller m.ended (m.strand .caller) m.lock m.sh =
                (⟨some (b, b.prog S it), rest, m.caller.out⟩, m.lock, m.sh, [.started b]) := by
              simp only [strandStep, Mach.strand, hc, ht]
            rw [e1] at s1
            obtain ⟨i1, j1⟩ := inv2 hi hs s1
            obtain ⟨r, sh, s2⟩ := reach_finish (S := S) (it := it) (w := .caller) (b := b) (b.prog S it)
              (m := m.put .caller ⟨some (b, b.prog S it), rest, m.caller.out⟩ m.lock m.sh) (put_active ha) rfl
            obtain ⟨i2, j2⟩ := inv2 i1 j1 s2
            have hb : (decide (m.lock = some .caller)) = true → 0 < rest.length := by
              intro hx
              have := hi.lock.todo .caller
              rw [show (m.strand .caller).todo = _ from ht, hx] at this
              rcases rest with _ | _
              · exact absurd this.2 (by simp [Balanced])
              · simp
            obtain ⟨m', s3, h3⟩ := ih i2 j2 ho rfl (by
              show (afterBody (decide (m.lock = some .caller)) r rest).length ≤ n
              cases r with
              | ok a => exact hn'
              | error e =>
                  simp only [afterBody]
                  split
                  · next hx => have := hb hx; simp; omega
                  · simp)
            exact ⟨m', s1.trans (s2.trans s3), h3⟩
        | acquire =>
            have go : ∀ {m : Mach σ β}, MInv S it m → StopInv S it m → m.op ≠ none → m.caller.cur = none → m.caller.todo = .acquire :: rest →
                m.lock = none → ∃ m', CanReach S it m m' ∧ m'.op = none := by
              intro m hi hs ho hc ht hl
              have s1 := CanReach.step (S := S) (it := it) (m := m) .caller
              rw [step_strand (show m.active .caller from ho) (not_idle_todo (show (m.strand .caller).todo = _ :: rest from ht))] at s1
              have e1 : strandStep S it .caller m.ended (m.strand .caller) m.lock m.sh = ({ m.caller with todo := rest }, some .caller, m.sh, []) := by
                simp only [strandStep, Mach.strand, hc, ht, hl, if_true]
              rw [e1] at s1
              obtain ⟨i1, j1⟩ := inv2 hi hs s1
              obtain ⟨m', s2, h2⟩ := ih i1 j1 ho hc hn'
              exact ⟨m', s1.trans s2, h2⟩
            rcases hl : m.lock with _ | w
            · exact go hi hs ho hc ht hl
            · cases w with
              | caller =>
                  have := hi.lock.todo .caller
                  rw [show (m.strand .caller).todo = _ from ht, hl] at this
                  exact absurd this.1 (by simp)
              | explorer =>
                  obtain ⟨th, sh, s2⟩ := reach_unlocked (S := S) (it := it) hi hl
                  obtain ⟨i2, j2⟩ := inv2 hi hs s2
                  obtain ⟨m', s3, h3⟩ := go i2 j2 ho hc ht rfl
                  exact ⟨m', s2.trans s3, h3⟩
        | join =>
            have hop : m.op = some .stop := by
              by_contra hx
              exact hs.other hx (by rw [ht]; simp)
            have hr : rest = [] := by
              rcases hs.todo hop with h | h
              · rw [ht] at h
                simpa [AsyncOp.script] using h
              · rw [h.2.1] at ht; cases ht
            have hd : m.sh.done = true := by
              have := hs.wp hop
              unfold WpStrand at this
              rw [hc] at this
              simp only [ht, hr] at this
              exact this.2
            have hl : m.lock ≠ some .caller := by
              intro hl
              have := hi.lock.todo .caller
              rw [show (m.strand .caller).todo = _ from ht, hl] at this
              exact absurd this.1 (by simp)
            obtain ⟨m1, s2, g1, g2, g3, g4⟩ := reach_ended (S := S) (it := it) hi hd hl
            obtain ⟨i2, j2⟩ := inv2 hi hs s2
            have s3 := CanReach.step (S := S) (it := it) (m := m1) .caller
            rw [step_strand (show m1.active .caller by show m1.op ≠ none; rw [g3]; exact ho)
              (not_idle_todo (show (m1.strand .caller).todo = _ :: rest by show m1.caller.todo = _; rw [g2]; exact ht))] at s3
            have e1 : strandStep S it .caller m1.ended (m1.strand .caller) m1.lock m1.sh = ({ m.caller with todo := rest }, m1.lock, m1.sh, []) := by
              simp only [strandStep, Mach.strand, g2, hc, ht, g1, if_true]
            rw [e1] at s3
            obtain ⟨i3, j3⟩ := inv2 i2 j2 s3
            obtain ⟨m', s4, h4⟩ := ih i3 j3 (by show m1.op ≠ none; rw [g3]; exact ho) hc hn'
            exact ⟨m', s2.trans (s3.trans s4), h4⟩

/-- **C59**: there is no deadlock: from any state, and whatever has happened, the method in execution can return. -/
theorem C59_progress (S : Search σ β η) (it : Nat) (b : β) (rng : σ) (cs : List Choice) :
    ∃ cs', Calls (fun _ => False) cs' ∧ (runMach S it cs' (runMach S it cs (S.async b rng)).1).1.op = none := by
  have hi := minv_run (S := S) (it := it) b rng cs
  have hs : StopInv S it (runMach S it cs (S.async b rng)).1 := by
    have := run_invariant (S := S) (it := it) (I := fun m => MInv S it m ∧ StopInv S it m)
      (fun _ _ _ _ h hm => ⟨h.1.move hm, h.2.move h.1.exp h.1.lock hm⟩) cs _ ⟨MInv.init S it b rng, StopInv.init S it b rng⟩
    exact this.2
  generalize (runMach S it cs (S.async b rng)).1 = m at hi hs
  have key : ∃ m', CanReach S it m m' ∧ m'.op = none := by
    by_cases ho : m.op = none
    · exact ⟨m, CanReach.refl S it m, ho⟩
    · rcases hc : m.caller.cur with _ | ⟨bd, p⟩
      · exact reach_return _ hi hs ho hc (Nat.le_refl _)
      · obtain ⟨r, sh, s1⟩ := reach_finish (S := S) (it := it) (w := .caller) (b := bd) p (m := m) ho hc
        have := s1.inv (I := fun m => MInv S it m ∧ StopInv S it m)
          (fun _ _ _ _ h hm => ⟨h.1.move hm, h.2.move h.1.exp h.1.lock hm⟩) ⟨hi, hs⟩
        obtain ⟨m', s2, h2⟩ := reach_return _ this.1 this.2 ho rfl (Nat.le_refl _)
        exact ⟨m', s1.trans s2, h2⟩
  obtain ⟨m', ⟨cs', hc, rfl⟩, h⟩ := key
  exact ⟨cs', hc, h⟩

/-- **C59**: once the stop flag is set and the caller does not hold the lock, the exploration thread can end without further calls. -/
theorem C59_ends (S : Search σ β η) (it : Nat) (b : β) (rng : σ) (cs : List Choice)
    (hd : (runMach S it cs (S.async b rng)).1.sh.done = true) (hl : (runMach S it cs (S.async b rng)).1.lock ≠ some .caller) :
    ∃ cs', Calls (fun _ => False) cs' ∧ (runMach S it cs' (runMach S it cs (S.async b rng)).1).1.ended = true := by
  obtain ⟨m', ⟨cs', hc, rfl⟩, h, _⟩ := reach_ended (minv_run (S := S) (it := it) b rng cs) hd hl
  exact ⟨cs', hc, h⟩

/-- The flag is set during an exploration, and another one starts before the thread ends and `stop` returns. -/
example : (coinRun coinStop).1.sh.done = true ∧ (coinRun coinStop).1.ended = false ∧ (coinRun coinStop).1.lock ≠ some .caller ∧
    explorations (coinRun coinStop).2 = 1 ∧ explorations (coinRun coinStopped).2 = 2 ∧
    (coinRun coinStopped).2.getLast?.map (fun x => (x.1, x.2.1)) = some (.caller, .returned .stop (.ok .unit)) := by decide +kernel

/-- A method waits for the lock. -/
example : (coinRun (coinAction ++ List.replicate 9 .explorer ++ [.call .stop] ++ List.replicate 50 .caller)).1.op = some .stop ∧
    (coinRun (coinAction ++ List.replicate 9 .explorer ++ [.call .stop] ++ List.replicate 50 .caller)).1.lock = some .explorer := by decide +kernel

end Verif
