import Verif.Spec.Pomdp
import Verif.Model.FloatBelief

/-! Specification vocabulary for rounding (C104). -/

namespace Verif.Spec
open Verif

/-- Two numbers agree up to the factor `c`. -/
def WithinFactor (c x y : ℚ) : Prop := x ≤ c * y ∧ y ≤ c * x

/-- A rounding of numbers that are not negative with a relative error of at most `u`. -/
def RelativeError (u : ℚ) (r : Rounds) : Prop := ∀ x y, 0 ≤ x → r x y → |y - x| ≤ u * x

/-- A rounding of numbers that are not negative with a relative error of at most `u` and an absolute one of at most `t`, which
does not return negative numbers. -/
def BoundedError (u t : ℚ) (r : Rounds) : Prop := ∀ x y, 0 ≤ x → r x y → 0 ≤ y ∧ |y - x| ≤ u * x + t

end Verif.Spec
