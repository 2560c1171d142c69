import Verif.Spec.Pomcp
import Mathlib.Analysis.SpecialFunctions.Log.Basic
import Mathlib.Analysis.Real.Sqrt

/-! Specification vocabulary for the exploration of a search tree (C87). -/

namespace Verif.Spec
open Verif

/-- When there are enough visits, the bonus of the actions that have been tried less than `k` times exceeds the bonus of those that
have been tried often by more than `d`. -/
def FavoursRare (bonus : Nat → Nat → ℚ) : Prop :=
  ∀ (k : Nat) (d : ℚ), ∃ N, ∀ n m j, N ≤ n → N ≤ m → 0 < j → j < k → bonus n m + d < bonus n j

/-- The bonus is `sqrt (log n / m)` up to a relative error `r`. -/
def ApproxUcb (r : ℝ) (bonus : Nat → Nat → ℚ) : Prop :=
  ∀ n m : Nat, 0 < n → 0 < m → |(bonus n m : ℝ) - √(Real.log n / m)| ≤ r * √(Real.log n / m)

end Verif.Spec
