import Verif.Model.Pomdp

/-! Specification vocabulary for POMDPs (C37-C42, C71). -/

namespace Verif.Spec
open Verif

/-- A probability distribution over `n` values. -/
def IsDist (n : Nat) (b : List ℚ) : Prop := b.length = n ∧ (∀ i < n, 0 ≤ b.getD i 0) ∧ sumRange n (fun i => b.getD i 0) = 1

/-- The rows of an array are probability distributions. -/
def RowsStochastic (A : Arr3) : Prop :=
  ∀ i < A.n0, ∀ j < A.n1, (∀ k < A.n2, 0 ≤ A.at_ i j k) ∧ sumRange A.n2 (A.at_ i j) = 1

/-- The entries of an array are not negative. -/
def RowsNonneg (A : Arr3) : Prop := ∀ i < A.n0, ∀ j < A.n1, ∀ k < A.n2, 0 ≤ A.at_ i j k

/-- The shapes of the arrays of a model agree with the numbers of states, actions and observations. -/
def Shaped (p : Pomdp) (nS nA nO : Nat) : Prop :=
  p.states.length = nS ∧ p.actions.length = nA ∧ p.observations.length = nO ∧ p.start.length = nS ∧
  p.T.n0 = nA ∧ p.T.n1 = nS ∧ p.T.n2 = nS ∧ p.O.n0 = nA ∧ p.O.n1 = nS ∧ p.O.n2 = nO ∧
  p.R.n0 = nA ∧ p.R.n1 = nS ∧ p.R.n2 = nS ∧ p.R.n3 = nO

/-- A model whose transition and observation rows are probability distributions. -/
def Stochastic (p : Pomdp) (nS nA nO : Nat) : Prop := Shaped p nS nA nO ∧ RowsStochastic p.T ∧ RowsStochastic p.O

/-- The probability of moving to `s'` and observing `o` after action `a` in belief `b`. -/
def jointProb (p : Pomdp) (nS a o : Nat) (b : List ℚ) (s' : Nat) : ℚ :=
  p.O.at_ a s' o * sumRange nS (fun s => b.getD s 0 * p.T.at_ a s s')

/-- The probability of observing `o` after action `a` in belief `b`. -/
def obsProb (p : Pomdp) (nS a o : Nat) (b : List ℚ) : ℚ := sumRange nS (jointProb p nS a o b)

/-- All sequences of `k` states. -/
def statePaths (n : Nat) : Nat → List (List Nat)
  | 0 => [[]]
  | k + 1 => (List.range n).flatMap fun s => (statePaths n k).map (s :: ·)

/-- The probability of the states `path` and the observations of `h`, given the state `s` and the actions of `h`. -/
def stepsProb (p : Pomdp) : Nat → List Nat → List (Nat × Nat) → ℚ
  | _, [], [] => 1
  | s, s' :: path, (a, o) :: h => p.T.at_ a s s' * p.O.at_ a s' o * stepsProb p s' path h
  | _, _, _ => 0

/-- The probability of a sequence of states, the first one drawn from `b`, and of the observations of `h`. -/
def pathProb (p : Pomdp) (b : List ℚ) (path : List Nat) (h : List (Nat × Nat)) : ℚ :=
  match path with
  | [] => 0
  | s :: rest => b.getD s 0 * stepsProb p s rest h

/-- The probability of the observations of `h` and of ending in `s`. -/
def endProb (p : Pomdp) (nS : Nat) (b : List ℚ) (h : List (Nat × Nat)) (s : Nat) : ℚ :=
  (((statePaths nS (h.length + 1)).filter fun path => path.getLast? = some s).map fun path => pathProb p b path h).sum

/-- The probability of the observations of `h`. -/
def histProb (p : Pomdp) (nS : Nat) (b : List ℚ) (h : List (Nat × Nat)) : ℚ :=
  ((statePaths nS (h.length + 1)).map fun path => pathProb p b path h).sum

/-- Successive belief updates along a history of actions and observations. -/
def updates (p : Pomdp) : List ℚ → List (Nat × Nat) → Py (List ℚ)
  | b, [] => .ok b
  | b, (a, o) :: h => do
      let b' ← p.beliefUpdate a o b
      updates p b' h

/-- A sum that `np.allclose` takes for 1. -/
def NearOne (x : ℚ) : Prop := |x - 1| ≤ 1 / 100000000 + 1 / 100000

/-- A multiple of 0.00001. -/
def FiveDecimals (x : ℚ) : Prop := ∃ k : Int, x = (k : ℚ) / 100000

end Verif.Spec
