import Verif.Spec.Async
import Verif.Proof.PomcpErase
import Verif.Props.PomcpRunner

/-! Resumptions run without interruption are the sequential programs. -/

set_option linter.unusedSectionVars false
set_option linter.unusedSimpArgs false

namespace Verif
open Spec

namespace Res
variable {S S' α β : Type}

theorem run_done (r : Py α) (s : S) : (Res.done r : Res S α).run s = (r, s) := rfl

theorem run_pure (a : α) : (pure a : Res S α).run = pure a := rfl

theorem run_atom (m : M S α) : (atom m).run = m := rfl

theorem run_bind (p : Res S α) (f : α → Res S β) : (p >>= f).run = p.run >>= fun a => (f a).run := by
  show (p.andThen f).run = _
  induction p with
  | done r =>
      cases r with
      | ok a => rfl
      | error e => rfl
  | act m k ih =>
      funext s
      show ((k (m s).1).andThen f).run (m s).2 = _
      rw [ih]
      rfl

theorem run_tryExcept (e : PyErr) (q p : Res S α) : (tryExcept e q p).run = M.tryExcept p.run e q.run := by
  induction p with
  | done r =>
      funext s
      cases r with
      | ok a => rfl
      | error e' =>
          unfold tryExcept M.tryExcept
          simp only [run_done]
          split_ifs <;> rfl
  | act m k ih =>
      funext s
      show (tryExcept e q (k (m s).1)).run (m s).2 = _
      rw [ih]
      rfl

end Res

section
variable {σ β η : Type}

theorem run_treeR {α : Type} (p : Res (SearchState σ β) α) : (treeR p).run = onRunner (onSearch p.run) := by
  induction p with
  | done r => rfl
  | act m k ih =>
      funext s
      show (treeR (k (m s.runner.search).1)).run _ = _
      rw [ih]
      rfl

theorem run_rolloutR (S : Search σ β η) (i : Nat) (h : η) : (rolloutR S i h).run = rolloutFromNode S i h := by
  unfold rolloutR rolloutFromNode
  by_cases hr : S.hor.isReached h = true
  · rw [if_pos hr, if_pos hr]; rfl
  · rw [if_neg hr, if_neg hr]
    simp only [Res.run_bind, Res.run_atom]
    rfl

variable [DecidableEq β]

theorem M.bind_assoc {S α β γ : Type} (x : M S α) (f : α → M S β) (g : β → M S γ) : x >>= f >>= g = x >>= fun a => f a >>= g := by
  funext s
  simp only [M.bind_run]
  rcases x s with ⟨r, s1⟩
  cases r <;> rfl

theorem M.pure_bind {S α β : Type} (a : α) (f : α → M S β) : (pure a >>= f : M S β) = f a := rfl

theorem M.bind_congr {S α β : Type} {x x' : M S α} {f f' : α → M S β} {s : S} (hx : x s = x' s)
    (hf : ∀ a s1, x s = (.ok a, s1) → f a s1 = f' a s1) : (x >>= f) s = (x' >>= f') s := by
  rw [M.bind_run, M.bind_run, ← hx]
  rcases h : x s with ⟨r, s1⟩
  cases r with
  | ok a => exact hf a s1 h
  | error e => rfl

variable {S : Search σ β η} {b0 : β}

theorem run_createChildR {i a o : Nat} {st : SearchState σ β} (ht : TInv S b0 st.tree) (hi : i < st.tree.size)
    (ha : st.tree.anode i a ≠ none) (hn : st.tree.next i a o = none) :
    (createChildR S i a o).run st = createChild S i a o st := by
  have h1 : (createChildR S i a o).run = createChild S i a o >>= fun _ => readChild i a o := by
    unfold createChildR createChild
    simp only [Res.run_bind, Res.run_atom, M.bind_assoc, M.pure_bind]
  have hp := M.post_iff.1 (createChild_post (S := S) ht hi ha hn)
  rw [h1, M.bind_run]
  rcases h2 : createChild S i a o st with ⟨r, st'⟩
  cases r with
  | error e => rfl
  | ok j =>
      have := (hp.1 j st' h2).2.2.2.2.2.1 i a o
      simp only [and_self, if_true] at this
      simp only [readChild, this]

theorem run_simulateR : ∀ (fuel i s : Nat) (h : η) (act : Option Nat) (st : SearchState σ β), TInv S b0 st.tree → i < st.tree.size →
    (simulateR S fuel i s h act).run st = simulate S fuel i s h act st := by
  intro fuel
  induction fuel with
  | zero => intro i s h act st _ _; rfl
  | succ fuel ih =>
      intro i s h act st ht hi
      unfold simulateR simulate
      split_ifs with hr
      · rfl
      · simp only [Res.run_bind, Res.run_atom]
        refine M.bind_congr ?_ ?_
        · cases act <;> rfl
        intro a s1 h1
        have ht1 : s1.tree = st.tree := by
          have : (chooseActionR S i act).run = chooseAction S i act := by cases act <;> rfl
          rw [this] at h1
          exact (M.post_iff.1 chooseAction_post).1 _ _ h1
        refine M.bind_congr rfl ?_
        intro _ s2 h2
        have hp2 := (M.post_iff.1 (safeGetChild_post (S := S) (a := a) (st := s1) (by rw [ht1]; exact ht) (by rw [ht1]; exact hi))).1 _ _ h2
        obtain ⟨_, ht2, _, _, ha2, _, _, hs2, _⟩ := hp2
        have hi2 : i < s2.tree.size := by rw [hs2, ht1]; exact hi
        refine M.bind_congr rfl ?_
        intro x s3 h3
        have ht3 : s3.tree = s2.tree := by
          have := congrArg Prod.snd h3
          simp only [onRng] at this
          rw [← this]
        refine M.bind_congr rfl ?_
        intro j s4 h4
        obtain ⟨rfl, rfl⟩ : s3.tree.next i a x.2.1 = j ∧ s3 = s4 := by
          simp only [M.read, Prod.mk.injEq, Except.ok.injEq] at h4
          exact h4
        refine M.bind_congr ?_ (fun _ _ _ => rfl)
        rcases hj : s3.tree.next i a x.2.1 with _ | j
        · show (expandR S i a x.2.1 _).run s3 = expand S i a x.2.1 _ s3
          unfold expandR expand
          rw [Res.run_tryExcept, Res.run_bind]
          have : (createChildR S i a x.2.1).run s3 = createChild S i a x.2.1 s3 :=
            run_createChildR (by rw [ht3]; exact ht2) (by rw [ht3]; exact hi2) (by rw [ht3]; exact ha2) hj
          unfold M.tryExcept
          rw [M.bind_congr (f' := fun j => rolloutFromNode S j (S.hor.decrement a s x.1 x.2.1 h)) this
            (fun _ _ _ => by rw [run_rolloutR])]
          rfl
        · exact ih j x.1 _ none s3 (by rw [ht3]; exact ht2) (by rw [ht3]; exact (ht2.range _ _ _ _ (ht3 ▸ hj)).1)

theorem run_simulateFromNodeR (i : Nat) (act : Option Nat) (st : SearchState σ β) (ht : TInv S b0 st.tree) (hi : i < st.tree.size) :
    (simulateFromNodeR S i act).run st = simulateFromNode S i act st := by
  unfold simulateFromNodeR simulateFromNode
  simp only [Res.run_bind, Res.run_atom]
  refine M.bind_congr rfl ?_
  intro b s1 h1
  obtain ⟨rfl, rfl⟩ : (st.tree.nodes i).belief = b ∧ st = s1 := by
    simp only [M.read, Prod.mk.injEq, Except.ok.injEq] at h1
    exact h1
  refine M.bind_congr rfl ?_
  intro s s2 h2
  have ht2 : s2.tree = st.tree := by
    have := congrArg Prod.snd h2
    simp only [onRng] at this
    rw [← this]
  exact M.bind_congr (run_simulateR _ _ _ _ _ _ (by rw [ht2]; exact ht) (by rw [ht2]; exact hi)) (fun _ _ _ => rfl)

theorem run_simulateManyR (i : Nat) : ∀ (k : Nat) (st : SearchState σ β), TInv S b0 st.tree → i < st.tree.size →
    (simulateManyR S i k).run st = simulateMany S i k st := by
  intro k
  induction k with
  | zero => intro st _ _; rfl
  | succ k ih =>
      intro st ht hi
      unfold simulateManyR simulateMany
      rw [Res.run_bind]
      have h1 := run_simulateFromNodeR i none st ht hi
      refine M.bind_congr h1 ?_
      intro _ s1 h2
      rw [h1] at h2
      obtain ⟨q1, q2, _⟩ := (M.post_iff.1 (simulateFromNode_post (S := S) i none st ht hi)).1 _ _ h2
      exact ih s1 q1 (lt_of_lt_of_le hi q2)

theorem run_getNodeStepR (i a o : Nat) (st : SearchState σ β) (ht : TInv S b0 st.tree) (hi : i < st.tree.size) :
    (getNodeStepR S i a o).run st = getNodeStep S i a o st := by
  unfold getNodeStepR getNodeStep
  simp only [Res.run_bind, Res.run_atom]
  refine M.bind_congr rfl ?_
  intro _ s2 h2
  have hp2 := (M.post_iff.1 (safeGetChild_post (S := S) (a := a) ht hi)).1 _ _ h2
  obtain ⟨_, ht2, _, _, ha2, _, _, hs2, _⟩ := hp2
  refine M.bind_congr rfl ?_
  intro j s4 h4
  obtain ⟨rfl, rfl⟩ : s2.tree.next i a o = j ∧ s2 = s4 := by
    simp only [M.read, Prod.mk.injEq, Except.ok.injEq] at h4
    exact h4
  rcases hj : s2.tree.next i a o with _ | j
  · exact run_createChildR ht2 (by rw [hs2]; exact hi) ha2 hj
  · rfl

theorem run_getNodeFromR : ∀ (h : List (Nat × Nat)) (i : Nat) (st : SearchState σ β), TInv S b0 st.tree → i < st.tree.size →
    (getNodeFromR S i h).run st = getNodeFrom S i h st := by
  intro h
  induction h with
  | nil => intro i st _ _; rfl
  | cons ao h ih =>
      intro i st ht hi
      obtain ⟨a, o⟩ := ao
      unfold getNodeFromR getNodeFrom
      rw [Res.run_bind]
      have h1 := run_getNodeStepR i a o st ht hi
      refine M.bind_congr h1 ?_
      intro j s1 h2
      rw [h1] at h2
      obtain ⟨q1, _, _, _, q2, _⟩ := (M.post_iff.1 (getNodeStep_post (S := S) i a o st ht hi)).1 _ _ h2
      exact ih j s1 q1 q2

/-- The invariant of the shared state when nothing is in execution. -/
structure AInv (S : Search σ β η) (b0 : β) (st : AsyncState σ β) : Prop where
  runner : ∃ k, RInv S b0 st.runner k
  tnode : st.tnode < st.runner.search.tree.size
  taction : ∀ a, st.taction = some a → a < S.sim.nActions

theorem onRunner_bind {α γ : Type} (x : M (SearchRunner σ β) α) (f : α → M (SearchRunner σ β) γ) :
    onRunner (x >>= f) = onRunner x >>= fun a => onRunner (f a) := by
  funext s
  simp only [onRunner, M.bind_run]
  rcases x s.runner with ⟨r, s1⟩
  cases r <;> rfl

theorem run_getAction (it : Nat) (st : AsyncState σ β) (h : AInv S b0 st) :
    (getActionR S it).run st = seqBody S it .getAction st := by
  obtain ⟨k, hk⟩ := h.runner
  have e : seqBody S it .getAction st = (onRunner (searchGetAction S it) >>= fun n => pure (.name n)) st := by
    simp only [seqBody, M.bind_run, onRunner]
    rcases searchGetAction S it st.runner with ⟨r, s1⟩
    cases r <;> rfl
  rw [e]
  unfold getActionR searchGetAction
  simp only [Res.run_bind, Res.run_atom, run_treeR, onRunner_bind, M.bind_assoc]
  refine M.bind_congr rfl ?_
  intro i s1 h1
  obtain ⟨rfl, rfl⟩ : st.runner.node = i ∧ st = s1 := by
    simp only [M.read, Prod.mk.injEq, Except.ok.injEq] at h1
    exact h1
  refine M.bind_congr ?_ (fun _ _ _ => rfl)
  simp only [onRunner, onSearch]
  rw [run_simulateManyR _ _ _ hk.tree hk.node]

theorem mach_run_step (o : Name) (it : Nat) (st : AsyncState σ β) (h : AInv S b0 st) : (stepR S o).run st = seqBody S it (.step o) st := by
  obtain ⟨k, hk⟩ := h.runner
  have e : seqBody S it (.step o) st = (onRunner (searchStep S o) >>= fun _ => pure .unit) st := by
    simp only [seqBody, M.bind_run, onRunner]
    rcases searchStep S o st.runner with ⟨r, s1⟩
    cases r <;> rfl
  rw [e]
  unfold stepR searchStep searchMove
  simp only [Res.run_bind, Res.run_atom, run_treeR, onRunner_bind, M.bind_assoc]
  refine M.bind_congr rfl ?_
  intro l s1 h1
  obtain ⟨rfl, rfl⟩ : st.runner.last = l ∧ st = s1 := by
    simp only [M.read, Prod.mk.injEq, Except.ok.injEq] at h1
    exact h1
  refine M.bind_congr rfl ?_
  intro a s2 h2
  obtain rfl : st = s2 := congrArg Prod.snd h2
  refine M.bind_congr rfl ?_
  intro oi s3 h3
  obtain rfl : st = s3 := congrArg Prod.snd h3
  refine M.bind_congr rfl ?_
  intro hist s4 h4
  obtain rfl : st = s4 := congrArg Prod.snd h4
  refine M.bind_congr ?_ (fun _ _ _ => rfl)
  simp only [onRunner, onSearch]
  rw [run_getNodeFromR _ _ _ hk.tree hk.tree.pos]
  rfl

/-- A body that nothing interrupts does what the sequential runner does. -/
theorem run_prog (b : Body) (it : Nat) (st : AsyncState σ β) (h : AInv S b0 st) : (b.prog S it).run st = seqBody S it b st := by
  obtain ⟨k, hk⟩ := h.runner
  cases b with
  | explore =>
      have e : (Body.explore.prog S it).run st =
          (onRunner (onSearch (simulateFromNodeR S st.tnode st.taction).run) >>= fun _ => pure .unit) st := by
        unfold Body.prog
        simp only [Res.run_bind, Res.run_atom, run_treeR]
        rfl
      rw [e]
      simp only [seqBody, M.bind_run, onRunner, onSearch]
      rw [run_simulateFromNodeR _ _ _ hk.tree h.tnode]
      rcases simulateFromNode S st.tnode st.taction st.runner.search with ⟨r, s1⟩
      cases r <;> rfl
  | getAction => exact run_getAction it st h
  | step o => exact mach_run_step o it st h
  | reset g =>
      simp only [Body.prog, Res.run_bind, Res.run_atom, M.bind_run, onRunner, seqBody]
      rcases searchReset g st.runner with ⟨r, s1⟩
      cases r <;> rfl
  | _ => rfl

end
end Verif
