import Verif.Proof.PomcpTrace

/-! Recording the transitions does not change a search. -/

set_option linter.unusedSectionVars false
set_option linter.unusedSimpArgs false

namespace Verif
open Spec
variable {σ β η : Type}

namespace M
variable {S S' α γ : Type}

/-- `m` is what `m'` does, seen through `π`. -/
def Proj (π : S' → S) (m' : M S' α) (m : M S α) : Prop := ∀ s, m (π s) = ((m' s).1, π (m' s).2)

variable {π : S' → S}

theorem proj_pure (a : α) : Proj π (pure a) (pure a) := fun _ => rfl
theorem proj_raise (e : PyErr) : Proj π (raise e : M S' α) (raise e) := fun _ => rfl
theorem proj_lift (x : Py α) : Proj π (lift x) (lift x) := fun _ => rfl
theorem proj_read (f : S → α) (f' : S' → α) (h : ∀ s, f' s = f (π s)) : Proj π (read f') (read f) := fun s => by
  show (Except.ok (f (π s)), π s) = (Except.ok (f' s), π s)
  rw [h]

theorem proj_bind {x' : M S' α} {x : M S α} {f' : α → M S' γ} {f : α → M S γ} (hx : Proj π x' x) (hf : ∀ a, Proj π (f' a) (f a)) :
    Proj π (x' >>= f') (x >>= f) := by
  intro s
  have h := hx s
  rw [bind_run, bind_run, h]
  rcases x' s with ⟨r, s1⟩
  cases r with
  | ok a => exact hf a s1
  | error e => rfl

theorem proj_ite {c : Prop} [Decidable c] {x' y' : M S' α} {x y : M S α} (hx : Proj π x' x) (hy : Proj π y' y) :
    Proj π (if c then x' else y') (if c then x else y) := by
  by_cases h : c
  · simp only [if_pos h]; exact hx
  · simp only [if_neg h]; exact hy

theorem proj_try {x' y' : M S' α} {x y : M S α} {e : PyErr} (hx : Proj π x' x) (hy : Proj π y' y) :
    Proj π (tryExcept x' e y') (tryExcept x e y) := by
  intro s
  have h := hx s
  unfold tryExcept
  rw [h]
  rcases x' s with ⟨r, s1⟩
  cases r with
  | ok a => rfl
  | error e' =>
      by_cases he : e' = e
      · simp only [he, if_true]; exact hy s1
      · simp only [he, if_false]

end M

/-- Forget the record, for the state of the simulator. -/
abbrev eraseG (g : σ × List Ev) : σ := g.1

theorem onRng_proj {α : Type} {m' : M (σ × List Ev) α} {m : M σ α} (h : M.Proj eraseG m' m) :
    M.Proj (eraseLog (β := β)) (onRng m') (onRng m) := by
  intro st
  have h1 : m st.rng.1 = ((m' st.rng).1, (m' st.rng).2.1) := h st.rng
  show ((m st.rng.1).1, _) = ((m' st.rng).1, _)
  rw [h1]
  show (_, SearchState.mk st.tree (m st.rng.1).2) = (_, SearchState.mk st.tree (m' st.rng).2.1)
  rw [h1]

theorem onTree_proj {α : Type} (f : Tree β → α × Tree β) :
    M.Proj (eraseLog (σ := σ)) (onTree f) (onTree f) := fun _ => rfl

section
variable (sim : Sim σ β)

theorem transition_proj (a s : Nat) : M.Proj eraseG ((logged sim).sampleTransition a s) (sim.sampleTransition a s) := by
  intro g
  unfold logged
  rcases h : sim.sampleTransition a s g.1 with ⟨r, g1⟩
  cases r <;> simp [h]

theorem rand_proj : M.Proj eraseG (logged sim).rand sim.rand := fun _ => rfl
theorem sampleBelief_proj (b : β) : M.Proj eraseG ((logged sim).sampleBelief b) (sim.sampleBelief b) := fun _ => rfl
theorem successor_proj (b : β) (a o : Nat) : M.Proj eraseG ((logged sim).successor b a o) (sim.successor b a o) := fun _ => rfl

theorem randomAction_proj : M.Proj eraseG (randomAction (logged sim)) (randomAction sim) :=
  M.proj_bind (rand_proj sim) fun c => M.proj_lift (if sim.nActions = 0 then .error .valueError else .ok (c % sim.nActions))

theorem pickFrom_proj (l : List Nat) : M.Proj eraseG (pickFrom (logged sim) l) (pickFrom sim l) :=
  M.proj_bind (rand_proj sim) fun _ => M.proj_lift _

theorem rolloutLoop_proj (hor : HorizonOps η) : ∀ (bound s : Nat) (h : η) (gamma full : ℚ),
    M.Proj eraseG (rolloutLoop (logged sim) hor bound s h gamma full) (rolloutLoop sim hor bound s h gamma full) := by
  intro bound
  induction bound with
  | zero =>
      intro s h gamma full
      unfold rolloutLoop
      exact M.proj_ite (M.proj_pure _) (M.proj_raise _)
  | succ k ih =>
      intro s h gamma full
      unfold rolloutLoop
      exact M.proj_ite (M.proj_pure _) (M.proj_bind (randomAction_proj sim) fun a =>
        M.proj_bind (transition_proj sim a s) fun x => ih x.1 _ _ _)

theorem getBest_proj (bonus : Nat → Nat → ℚ) (e : ℚ) (rel : Bool) (i : Nat) :
    M.Proj eraseLog (getBestAction (logged sim) bonus e rel i) (getBestAction sim bonus e rel i) :=
  M.proj_bind (M.proj_read _ _ fun _ => rfl) fun nd =>
    M.proj_ite (M.proj_lift _) (onRng_proj (pickFrom_proj sim (notInit nd.children)))

end

theorem safeGetChild_proj (i a : Nat) : M.Proj (eraseLog (σ := σ) (β := β)) (safeGetChild i a) (safeGetChild i a) := by
  intro st
  have hrun : ∀ {τ : Type} (st : SearchState τ β), safeGetChild i a st = match (st.tree.nodes i).children[a]? with
      | none => (.error .indexError, st)
      | some none => (.ok (), { st with tree := st.tree.ensure i a })
      | some (some _) => (.ok (), st) := fun _ => rfl
  rw [hrun, hrun]
  show (match (st.tree.nodes i).children[a]? with | none => _ | some none => _ | some (some _) => _) = _
  rcases (st.tree.nodes i).children[a]? with _ | _ | _ <;> rfl

section
variable (S : Search σ β η)

theorem rollouts_proj (b : β) (h : η) : ∀ (k : Nat) (total : ℚ),
    M.Proj eraseG (rollouts (loggedSearch S) b h k total) (rollouts S b h k total) := by
  intro k
  induction k with
  | zero => intro total; exact M.proj_pure _
  | succ k ih =>
      intro total
      unfold rollouts
      exact M.proj_bind (sampleBelief_proj S.sim b) fun s =>
        M.proj_bind (rolloutLoop_proj S.sim S.hor S.bound s (S.hor.copy h) 1 0) fun x => ih (total + x)

theorem rolloutFromNode_proj (i : Nat) (h : η) : M.Proj eraseLog (rolloutFromNode (loggedSearch S) i h) (rolloutFromNode S i h) :=
  M.proj_ite (M.proj_pure _) (M.proj_bind (M.proj_read _ _ fun _ => rfl) fun b =>
    M.proj_bind (onRng_proj (rollouts_proj S b h S.rolloutIt 0)) fun _ =>
      M.proj_bind (M.proj_lift _) fun _ => M.proj_bind (onTree_proj _) fun _ => M.proj_pure _)

variable [DecidableEq β]

theorem createChild_proj (i a o : Nat) : M.Proj eraseLog (createChild (loggedSearch S) i a o) (createChild S i a o) :=
  M.proj_bind (M.proj_read _ _ fun _ => rfl) fun b =>
    M.proj_bind (onRng_proj (successor_proj S.sim b a o)) fun b' =>
      M.proj_bind (onTree_proj (Tree.nodeFor S.shared S.sim.nActions b')) fun _ =>
        M.proj_bind (onTree_proj _) fun _ => M.proj_pure _

theorem expand_proj (i a o : Nat) (h : η) : M.Proj eraseLog (expand (loggedSearch S) i a o h) (expand S i a o h) :=
  M.proj_try (M.proj_bind (createChild_proj S i a o) fun j => rolloutFromNode_proj S j h) (M.proj_pure _)

theorem chooseAction_proj (i : Nat) (act : Option Nat) :
    M.Proj eraseLog (chooseAction (loggedSearch S) i act) (chooseAction S i act) := by
  cases act with
  | some a => exact M.proj_pure a
  | none => exact getBest_proj S.sim S.bonus S.exploration S.relative i

theorem simulate_proj : ∀ (fuel i s : Nat) (h : η) (act : Option Nat),
    M.Proj eraseLog (simulate (loggedSearch S) fuel i s h act) (simulate S fuel i s h act) := by
  intro fuel
  induction fuel with
  | zero => intro i s h act; exact M.proj_raise _
  | succ fuel ih =>
      intro i s h act
      unfold simulate
      refine M.proj_ite (M.proj_read _ _ fun _ => rfl) (M.proj_bind (chooseAction_proj S i act) fun a =>
        M.proj_bind (safeGetChild_proj i a) fun _ => M.proj_bind (onRng_proj (transition_proj S.sim a s)) fun x =>
          M.proj_bind (M.proj_read _ _ fun _ => rfl) fun j => M.proj_bind ?_ fun y =>
            M.proj_bind (onTree_proj _) fun _ => M.proj_bind (onTree_proj _) fun _ => M.proj_pure _)
      cases j with
      | none => exact expand_proj S i a _ _
      | some j => exact ih j _ _ _

theorem simulateFromNode_proj (i : Nat) (act : Option Nat) :
    M.Proj eraseLog (simulateFromNode (loggedSearch S) i act) (simulateFromNode S i act) :=
  M.proj_bind (M.proj_read _ _ fun _ => rfl) fun b => M.proj_bind (onRng_proj (sampleBelief_proj S.sim b)) fun s =>
    M.proj_bind (simulate_proj S S.fuel i s S.horizon act) fun _ => M.proj_pure _

end
end Verif
