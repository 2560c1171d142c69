import Verif.Model.FloatValue
import Verif.Spec.Pomcp

/-! Specification vocabulary for returns and values in floating point arithmetic (C118). -/

namespace Verif.Spec
open Verif

/-- A rounding with a relative error of at most `u` and an absolute one of at most `t`. -/
def RoundingError (u t : ℚ) (fl : ℚ → ℚ) : Prop := ∀ x, |fl x - x| ≤ u * |x| + t

/-- The discounted sum of some rewards. -/
def discountedRewards (gamma : ℚ) (rs : List ℚ) : ℚ := sumRange rs.length fun k => gamma ^ k * rs.getD k 0

/-- The mean of some numbers, and 0 if there are none. -/
def meanOf (l : List ℚ) : ℚ := l.sum / l.length

/-- The return of a simulation: the discounted sum of its rewards, and then the mean of those of the rollouts. -/
def exactReturn (gamma : ℚ) (x : Simulated) : ℚ :=
  discountedRewards gamma x.rewards + gamma ^ x.rewards.length * meanOf (x.rollouts.map (discountedRewards gamma))

/-- The value of a node for some returns, the last one first: the mean of the returns with `alpha = 0`, and otherwise each return counts
once more with weight `alpha`. -/
def mixValue (alpha : ℚ) : List ℚ → ℚ
  | [] => 0
  | x :: l => (1 - alpha) * ((l.length * mixValue alpha l + x) / (l.length + 1)) + alpha * x

/-- The value of a node for some returns. -/
def exactValue (alpha : ℚ) (returns : List ℚ) : ℚ := mixValue alpha returns.reverse

/-- The simulation has at most `H` rewards, together with each of its rollouts, there are at most `J` rollouts, and the rewards are
between `-R` and `R`. -/
def SimulatedWithin (x : Simulated) (H J : Nat) (R : ℚ) : Prop :=
  x.rewards.length ≤ H ∧ (∀ l ∈ x.rollouts, x.rewards.length + l.length ≤ H) ∧ x.rollouts.length ≤ J ∧
    (∀ r ∈ x.rewards, |r| ≤ R) ∧ ∀ l ∈ x.rollouts, ∀ r ∈ l, |r| ≤ R

end Verif.Spec
