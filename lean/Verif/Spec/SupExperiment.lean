import Verif.Model.SupExperiment
import Verif.Spec.ClosedLoop

/-! Specification vocabulary for the experiments (C81). -/

namespace Verif.Spec
open Verif

/-- No process is killed by a signal. -/
def NoKill (es : List PoolEvent) : Prop := ∀ e ∈ es, ∀ w s, e ≠ .kill w s

/-- The value of a parameter: the first of these that has one. -/
def firstOf (ds : List (Option Params)) (k : String) : Option ParamValue := ds.findSome? fun d => d.bind fun d => dget d k

/-- The run ends with the results `r`, unless the events do not reach its end. -/
def RunEnds (x : Py ExpResults) (P : ExpResults → Prop) : Prop := x = .error .unfinished ∨ ∃ r, x = .ok r ∧ P r

/-- An evaluation that ends in the final state exactly when `k` actions did not fail, or else is stopped by the horizon. -/
def FinishesAt (m : SupPomdp) (maxHorizon k : Nat) (ep : Episode) : Prop :=
  ∃ s, ep.states.getLast? = some s ∧ (m.isFinal s = true ↔ completed ep.observations = k) ∧
    (m.isFinal s = false → ep.actions.length = maxHorizon)

/-- An evaluation that is stopped by the horizon. -/
def NeverFinishes (m : SupPomdp) (maxHorizon : Nat) (ep : Episode) : Prop :=
  ∃ s, ep.states.getLast? = some s ∧ m.isFinal s = false ∧ ep.actions.length = maxHorizon

/-- The task asked by the parameters of the multitask job: every way to perform it has `N` leaves. -/
def AskedTask (p : Params) (t : Htm SupAction) (N : Nat) (sequence : Bool) : Prop :=
  (dget p "task" = some (.str "sequence") ∧ dget p "n_subtasks" = some (.num N) ∧ 1 ≤ N ∧ t = taskLongSequence N ∧ sequence = true) ∨
  (dget p "task" = some (.str "uniform") ∧ N = 4 ∧ t = taskChoice (holdWords 4) ∧ sequence = false) ∨
  (dget p "task" = some (.str "alternative") ∧ N = 4 ∧ t = taskChoice alternativeWords ∧ sequence = false)

/-- The parameters of the model of the multitask job. -/
def multitaskExpected (sequence : Bool) : SupParams :=
  { pFail := 1 / 100, pConsumeAll := 1 / 2, pChangedByHuman := 1 / 100, pChangePreference := 0, rSubtask := 10, rFinal := 10,
    rPreference := if sequence then 10 else 18, rewardIndependentPreference := false, costGet := 15, costIntrinsic := 1,
    costHold := if sequence then 2 else 10, nPreferences := 1, pPreferences := [1] }

/-- The parameters of the model of the preference job. -/
def preferenceExpected (q c : ℚ) : SupParams :=
  { pFail := 1 / 100, pConsumeAll := 1 / 2, pChangedByHuman := 0, pChangePreference := c, rSubtask := 10, rFinal := 10,
    rPreference := 30, rewardIndependentPreference := true, costGet := 15, costIntrinsic := 1, costHold := 2, nPreferences := 1,
    pPreferences := [q] }

/-- The parameters of the model of the pomcp job. -/
def pomcpExpected (q c : ℚ) (intermediate : Bool) : SupParams :=
  { pFail := 1 / 100, pConsumeAll := 1 / 2, pChangedByHuman := 1 / 100, pChangePreference := c,
    rSubtask := if intermediate then 10 else 0, rFinal := if intermediate then 30 else 120, rPreference := 10,
    rewardIndependentPreference := false, costGet := 15, costIntrinsic := 1, costHold := 2, nPreferences := 1, pPreferences := [q] }

end Verif.Spec
