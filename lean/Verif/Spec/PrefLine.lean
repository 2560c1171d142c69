import Verif.Spec.EvalMean

/-! Specification vocabulary for the returns as functions of the probability of the preference (C114). -/

namespace Verif.Spec
open Verif

/-- The model after `model.p_preferences = [p]`, `supportive_evaluation_preference_job.py:19`. -/
def withPreference (m : SupPomdp) (p : ℚ) : SupPomdp := { m with par := { m.par with pPreferences := [p] } }

/-- The mean over the random numbers of the return of an evaluation with horizon `k`. -/
def expectedReturn {μ : Type} (m : SupPomdp) (pol : EvalPolicy μ) {D K N : Nat} (δ : ℚ) (discount : Bool) (k bound g : Nat) (q : μ) (n : Nat)
    (z : Nat → EvalNumbers m D K N) : ℚ :=
  mean fun ω : Fin n → EvalNumbers m D K N =>
    returnOf (simulateOneEvaluation (drawnModel m δ (overlay g ω z)) (ownMemory pol) k discount bound (g, q))

/-- The policy never holds and never asks: its actions are wait, bring and clear. -/
def NeverHolds {μ : Type} (m : SupPomdp) (pol : EvalPolicy μ) (Q : μ → Prop) : Prop :=
  ∀ q, Q q → chosenAction m pol q = 0 ∨ 4 ≤ chosenAction m pol q

/-- The expected number of leaves of the task that are completed in at most `k` transitions from the state `s`. -/
def leavesDone {μ : Type} (m : SupPomdp) (pol : EvalPolicy μ) (D K N : Nat) : Nat → μ → Nat → ℚ
  | 0, _, _ => 0
  | k + 1, q, s => mean fun ω : Numbers m D K N =>
      (if htmOf m s < m.nodes.length ∧ htmOf m (supMove m ω (chosenAction m pol q) s).1 ≠ htmOf m s then 1 else 0) +
        if m.isFinal (supMove m ω (chosenAction m pol q) s).1 then 0
        else leavesDone m pol D K N k (afterStep pol q (supMove m ω (chosenAction m pol q) s).2.1) (supMove m ω (chosenAction m pol q) s).1

/-- The expected number of leaves that are completed in an evaluation. -/
def meanLeaves {μ : Type} (m : SupPomdp) (pol : EvalPolicy μ) (D K N k : Nat) (q : μ) : ℚ :=
  mean fun ω : StartNumbers m D K => leavesDone m pol D K N k (pol.reset q).2 (startOf m ω)

end Verif.Spec
