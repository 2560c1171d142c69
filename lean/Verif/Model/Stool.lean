import Verif.Model.HtmPomdp
import Verif.Model.Tower

/-!
# Model of `stool_scenarios.py` and of the conversion in `samples/icra_scenario2pomdp.py`

The rest of `samples/icra_scenario2pomdp.py` calls the external solver, the runner and plots.
-/

namespace Verif

/-- `CollaborativeAction(name, durations, fail_probability=fail)` with the default `no_probability`, `task_to_pomdp.py:35-41`. -/
def stoolAction (name : String) (durations : ℚ × ℚ × ℚ) (fail : ℚ := 1 / 10) : CAction :=
  ⟨name, durations.1, durations.2.1, durations.2.2, 1 / 10, fail⟩

/-- `LeafCombination(action)`. -/
def stoolLeaf (a : CAction) : Htm CAction := .leaf a none none false

/-- `SequentialCombination(children, name=name)`; it cannot fail, see `mkComb`. -/
def stoolSeq (children : List (Htm CAction)) (name : String) : Htm CAction := .comb .sequential children none none name false none

/-- `INF`, `stool_scenarios.py:12`. -/
def stoolInf : ℚ := 100

/-- `mount_central`, `stool_scenarios.py:15-20`. -/
def mountCentral : Htm CAction :=
  stoolSeq [stoolLeaf (stoolAction "Get central frame" (stoolInf, 20, 30)),
    stoolLeaf (stoolAction "Hold central frame" (1 / 100, 15, 30) (1 / 100))] "Mount central frame"

/-- `mount_legs`, `stool_scenarios.py:22-36`. -/
def mountLegs : Htm CAction :=
  stoolSeq [
    stoolSeq [stoolLeaf (stoolAction "Bring left leg" (stoolInf, 20, 30)),
      stoolLeaf (stoolAction "Snap left leg" (5, stoolInf, stoolInf) (1 / 100))] "Mount left leg",
    stoolSeq [stoolLeaf (stoolAction "Bring right leg" (stoolInf, 20, 30)),
      stoolLeaf (stoolAction "Snap right leg" (5, stoolInf, stoolInf) (1 / 100))] "Mount right leg"] "Mount legs"

/-- `release_central`, `stool_scenarios.py:38-39`. -/
def releaseCentral : Htm CAction := stoolLeaf (stoolAction "Release central frame" (stoolInf, 1, 1))

/-- `mount_top`, `stool_scenarios.py:41-45`. -/
def mountTop : Htm CAction :=
  stoolSeq [stoolLeaf (stoolAction "Bring top" (stoolInf, 20, 30)),
    stoolLeaf (stoolAction "Snap top" (5, stoolInf, stoolInf) (1 / 10))] "Mount top"

/-- `stool_task_sequential`, `stool_scenarios.py:47-49`. -/
def stoolTask : Htm CAction := stoolSeq [mountCentral, mountLegs, releaseCentral, mountTop] "Mount stool"

/-- The parameters of `samples/icra_scenario2pomdp.py:12-19`, with the costs of `stool_scenarios.py:7-10`. -/
def icraParams : HtmParams := ⟨1, 2, 2, 1, 1 / 10, false, false, false, false, none⟩

end Verif
