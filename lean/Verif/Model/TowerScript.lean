import Verif.Model.Script
import Verif.Model.BringNext

/-!
# Model of what follows the imports in `samples/tower_scenario.py`

The script cannot be run, since line 4 imports a name that does not exist (see `towerScript`).  Here is the rest of it, lines 11-45, as it would be
if line 4 were `from task_models.bring_next_to_pomdp import HTMToPOMDP`, which is the name that is used in line 25.  The printing of the orders,
lines 28-29, is not modelled.
-/

namespace Verif

/-- The end of the scripts (`samples/tower_scenario.py:32-45`, and the same in `samples/htm2pomdp.py` and `samples/icra_scenario2pomdp.py`): the model is solved, the
policy, the trajectories and the policy on the beliefs are saved.  The results are the variables `gp` and `gp2`. -/
def solveAndSave (env : ScriptEnv) (p : Pomdp) (iterations : Int) (gridType : Option String) (root : List String) (name : String) :
    M World (GraphPolicy × GraphPolicy) := do
  let gp ← p.solve env.mach none (some iterations) "grid" gridType none true
  gp.saveAsJson env.policies (policyFile root name) none
  let pol ← M.lift (newBeliefRunner gp p)
  let _ ← saveTrajectories env.trees gp p 10 (trajectoryFile root) (some 2) pol
  let gp2 ← M.lift (visitPolicy gp p 100 env.fuel)
  gp2.saveAsJson env.policies (policyFile root "from_beliefs.json") none
  return (gp, gp2)

/-- `tp`, `samples/tower_scenario.py:11`, with the default arguments (`tower_problem.py:8-10`). -/
def sampleTower : Tower := ⟨2, 3⟩

/-- `orders_medium`, `samples/tower_scenario.py:13-20`. -/
def mediumOrders : List (List Nat) :=
  [[2, 0, 4, 3, 1, 5], [2, 4, 0, 3, 5, 1], sampleTower.vFirst, [0, 1, 4, 5, 2, 3], [2, 3, 0, 1, 4, 5], [2, 3, 4, 5, 0, 1]]

/-- The names of the orders, `samples/tower_scenario.py:24`. -/
def mediumNames : List String := mediumOrders.map fun o => "-".intercalate (o.map pyStr)

/-- `HTMToPOMDP(2., 8., 5., tp.parts, end_reward=50., loop=False)`, `samples/tower_scenario.py:25`. -/
def towerParams : BnParams := ⟨2, 8, 5, sampleTower.parts, 50, none, false, false⟩

/-- `samples/tower_scenario.py:11-45`.  The results are the variables `p`, `gp` and `gp2`. -/
def towerRest (env : ScriptEnv) (root : List String) : M World (Pomdp × GraphPolicy × GraphPolicy) := do
  let _ ← M.lift sampleTower.verticalHorizontal
  let task ← M.lift (towerTask mediumOrders (some mediumNames))
  let p ← M.lift (bnToPomdp env.solver nameRadix towerParams env.depth task)
  let gps ← solveAndSave env p 50 (some "pairwise") root "test.json"
  return (p, gps.1, gps.2)

end Verif
