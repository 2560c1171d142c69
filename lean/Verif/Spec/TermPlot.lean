import Verif.Model.TermPlot
import Verif.Spec.Explore

/-! Specification vocabulary for the figure of the exploration term (C120). -/

namespace Verif.Spec
open Verif

/-- The exploration term, for an exploration of 1, of an action that has `m` of the `n` simulations of a node, `lib/pomcp.py:304, 348`. -/
noncomputable def explorationTerm (n m : ℝ) : ℝ := √(Real.log n / m)

/-- The value of the curve for the percentage `p` at the abscissa `n`. -/
def TermShown (p n : Nat) (y : ℝ) : Prop :=
  ∃ (i j : Nat) (c : TermCurve), termPercentages[i]? = some p ∧ termPlot[i]? = some c ∧ c.x[j]? = some n ∧ c.y[j]? = some y

end Verif.Spec
