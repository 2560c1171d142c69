import Verif.Model.Figures
import Verif.Spec.ResultFiles

/-! Notions used in the properties of the figures of the launchers (C106). -/

namespace Verif.Spec
open Verif

/-- The mean of a quantity over the evaluations of a run. -/
def meanBy (value : Episode → ℚ) (r : ExpResults) : ℚ := (r.evaluations.map value).sum / r.evaluations.length

/-- Its variance. -/
def varianceBy (value : Episode → ℚ) (r : ExpResults) : ℚ := (r.evaluations.map fun ep => (value ep - meanBy value r) ^ 2).sum / r.evaluations.length

/-- At the abscissa `x` the curve shows the mean and the variance of the quantity `value` over the evaluations of the job whose parameters are
`cond x`, and there is one such job; `r` gives the results of the jobs `l`. -/
def CurveShows (l : Exps) (r : String → ExpResults) (value : Episode → ℚ) (cond : ℚ → Params) (c : Curve) : Prop :=
  c.mean.length = c.x.length ∧ c.var.length = c.x.length ∧
  ∀ (i : Nat) x, c.x[i]? = some x → ∃! name, (name, cond x) ∈ l ∧ c.mean[i]? = some (some (meanBy value (r name))) ∧
    c.var[i]? = some (some (varianceBy value (r name)))

/-- The parameters of a job on horizons. -/
def horizonCond (t : String) (s : Bool) (x : ℚ) : Params := [("horizon-type", .str t), ("horizon-length", .num x), ("intermediate-rewards", .bool s)]

/-- The parameters of a job on numbers of iterations. -/
def iterationCond (r : Nat) (x : ℚ) : Params := [("iterations", .num x), ("rollout-iterations", .num (r : ℚ))]

/-- The parameters of a job on preferences. -/
def preferenceCond (pol : String) (x : ℚ) : Params := [("p_preference", .num x), ("policy", .str pol), ("n_evaluations", .num 100)]

/-- The curves of axes: each has its label, the abscissas `xs`, and shows the jobs of its condition. -/
def PanelShows (l : Exps) (r : String → ExpResults) (value : Episode → ℚ) (xs : List ℚ) (conds : List (String × (ℚ → Params))) (a : Axes) : Prop :=
  List.Forall₂ (fun c cond => c.label = cond.1 ∧ c.x = xs ∧ CurveShows l r value cond.2 c) a.curves conds

end Verif.Spec
