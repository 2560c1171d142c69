import Mathlib.Data.Rat.Defs
import Mathlib.Algebra.Order.Ring.Rat

/-! Finite sums, used by the models of numpy code (`.sum()`, `sum(...)`). -/

namespace Verif

/-- The sum of the values `f 0, ..., f (n-1)`. -/
def sumRange (n : Nat) (f : Nat → ℚ) : ℚ := ((List.range n).map f).sum

end Verif
