import Verif.Model.SupExperiment
import Mathlib.Data.Fintype.Pi
import Mathlib.Data.Fintype.BigOperators

/-! Specification vocabulary for searches with a horizon of completed subtasks (C84). -/

namespace Verif.Spec
open Verif

/-- The number of times that the action `wait` is drawn in the first `k` steps of a rollout that starts at the `g`-th random number;
every step draws an action and a transition. -/
def waits (c : Nat → Nat → Nat) (nActions : Nat) : Nat → Nat → Nat
  | _, 0 => 0
  | g, k + 1 => (if c g 0 % nActions = 0 then 1 else 0) + waits c nActions (g + 2) k

/-- The action `wait` does not stop to be drawn, among the random numbers of even rank and among those of odd rank. -/
def WaitsForever (c : Nat → Nat → Nat) (nActions : Nat) : Prop := ∀ g, ∃ i, c (g + 2 * i) 0 % nActions = 0

/-- The sequences of `k` actions in which `wait` occurs less than `n` times. -/
def fewWaits (nActions n k : Nat) : Finset (Fin k → Fin nActions) :=
  Finset.univ.filter fun f => (Finset.univ.filter fun i => (f i : Nat) = 0).card < n

/-- The actions drawn in the first steps of a rollout that starts at the `g`-th random number are those of `f`. -/
def Drawn (c : Nat → Nat → Nat) {nActions k : Nat} (g : Nat) (f : Fin k → Fin nActions) : Prop :=
  ∀ i : Fin k, c (g + 2 * i) 0 % nActions = f i

/-- The same machine, with another bound for the loops. -/
def _root_.Verif.ExpWorld.withBound (W : ExpWorld) (B : Nat) : ExpWorld := { W with bound := B }

/-- As soon as the bound of the loops is large enough, the result is `x`. -/
def Eventually {α : Type} (f : Nat → α) (x : α) : Prop := ∃ B, ∀ B' ≥ B, f B' = x

end Verif.Spec
