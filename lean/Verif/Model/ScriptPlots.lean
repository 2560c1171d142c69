import Verif.Model.Script
import Verif.Model.HeatMap

/-!
# Model of the plots at the end of `samples/htm2pomdp.py` and `samples/icra_scenario2pomdp.py`

`plt.interactive`, `plt.close`, the bars of colors and the titles of the figures ("Policy values" and "Belief trajectory") are not part of the model.
-/

namespace Verif

/-- The number of columns of an array that is given by its rows. -/
def columnsOf (values : List (List ℚ)) : Nat := (values.headD []).length

/-- The two figures, `samples/htm2pomdp.py:102-108`, and `samples/icra_scenario2pomdp.py:54-60` with `PLOT`. -/
def scriptPlots (p : Pomdp) (gp gp2 : GraphPolicy) : Py (MeshAxes × MeshAxes) := do
  let a ← plotValues gp.values (columnsOf gp.values) gp.actions p.states
  let b ← plotValues gp2.values (columnsOf gp2.values) gp2.actions p.states
  return (a, b)

end Verif
