import Verif.Model.SearchScript
import Verif.Model.TowerScript
import Verif.Spec.ScriptInputs

/-! Properties C116 and C117 (the tasks and the parameters of the scripts). -/

namespace Verif
open Spec

/-- **C116 (inputs).**  The tasks and the parameters for which the scripts solve a model.  In `htm2pomdp.py` the cost of
communication is given as the duration of an announcement, and communication has no other cost. -/
theorem C116_inputs :
    (OnlySequences stoolTask ∧ outline 0 stoolTask = [
      (0, "Mount stool", none),
      (1, "Mount central frame", none),
      (2, "Get central frame", some (100, 20, 30, 1 / 10)), (2, "Hold central frame", some (1 / 100, 15, 30, 1 / 100)),
      (1, "Mount legs", none),
      (2, "Mount left leg", none), (3, "Bring left leg", some (100, 20, 30, 1 / 10)), (3, "Snap left leg", some (5, 100, 100, 1 / 100)),
      (2, "Mount right leg", none), (3, "Bring right leg", some (100, 20, 30, 1 / 10)), (3, "Snap right leg", some (5, 100, 100, 1 / 100)),
      (1, "Release central frame", some (100, 1, 1, 1 / 10)),
      (1, "Mount top", none), (2, "Bring top", some (100, 20, 30, 1 / 10)), (2, "Snap top", some (5, 100, 100, 1 / 10))]) ∧
    (OnlySequences chairTask ∧ outline 0 chairTask = [
      (0, "Mount chair", none),
      (1, "Mount central frame", none),
      (2, "Get central frame", some (100, 20, 30, 1 / 10)), (2, "Start Hold central frame", some (3, 10, 100, 1 / 10)),
      (1, "Mount legs", none),
      (2, "Mount left leg", none), (3, "Get left leg", some (100, 20, 30, 1 / 10)), (3, "Snap left leg", some (5, 100, 100, 1 / 10)),
      (2, "Mount right leg", none), (3, "Get right leg", some (100, 20, 30, 1 / 10)), (3, "Snap right leg", some (5, 100, 100, 1 / 10)),
      (1, "Release central frame", some (100, 1, 1, 1 / 10)),
      (1, "Mount top", none), (2, "Get top", some (100, 20, 30, 1 / 10)), (2, "Snap top", some (5, 100, 100, 1 / 10))]) ∧
    icraParams = { tWait := 1, tAsk := 2, tTell := 2, intrCost := 1, endReward := 1 / 10, deterministic := false, structured := false, loop := false, rewardState := false, subtaskReward := none } ∧
    chairParams = { tWait := 1, tAsk := 2, tTell := 1, intrCost := 0, endReward := 1 / 10, deterministic := false, structured := false, loop := false, rewardState := false, subtaskReward := none } ∧
    (sampleTower.parts = ["0", "1", "2", "3", "4", "5"] ∧ sampleTower.vFirst = [0, 1, 2, 3, 4, 5] ∧
      towerParams = { tCom := 2, tGet := 8, tErr := 5, objects := ["0", "1", "2", "3", "4", "5"], endReward := 50, discount := none, loop := false, noAnswer := false } ∧
      mediumNames = ["2-0-4-3-1-5", "2-4-0-3-5-1", "0-1-2-3-4-5", "0-1-4-5-2-3", "2-3-0-1-4-5", "2-3-4-5-0-1"]) := by
  refine ⟨⟨?_, ?_⟩, ⟨?_, ?_⟩, rfl, rfl, ?_, ?_, ?_, ?_⟩
  · simp [stoolTask, stoolSeq, mountCentral, mountLegs, releaseCentral, mountTop, stoolLeaf, stoolAction, OnlySequences, AllSequences]
  · simp [stoolTask, stoolSeq, mountCentral, mountLegs, releaseCentral, mountTop, stoolLeaf, stoolAction, stoolInf, outline, outlines]
  · simp [chairTask, stoolSeq, chairLeaf, stoolLeaf, stoolAction, OnlySequences, AllSequences]
  · simp [chairTask, stoolSeq, chairLeaf, stoolLeaf, stoolAction, chairInf, outline, outlines]
  · decide +kernel
  · decide +kernel
  · have : sampleTower.parts = ["0", "1", "2", "3", "4", "5"] := by decide +kernel
    simp only [towerParams, this]
  · decide +kernel

/-- **C117 (inputs).**  The parameters for which `samples/pomcp.py` makes the model of the stool. -/
theorem C117_inputs :
    searchParams = { tWait := 1, tAsk := 2, tTell := 2, intrCost := 1, endReward := 1000, deterministic := false, structured := false, loop := false, rewardState := true, subtaskReward := some 100 } := rfl

end Verif
