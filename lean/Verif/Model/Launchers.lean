import Verif.Model.SupExperiment
import Verif.Model.Tower

/-!
# Model of the launchers (`evaluation.py:229-266`, `samples/supportive_evaluation_{multitask,preference,pomcp}.py`)

* A launcher starts one job for each name; the configuration of a job is the dictionary of its name.
* The results are looked up by the name of the job.
* `fmt` is the text of a floating point number; the probabilities `np.arange(0, 1.001, .05)` are the exact multiples of 1/20.
* Not modelled: the class `Launcher` of `expjobs`, the files, the plots.
-/

namespace Verif

/-- The jobs of a launcher: the names and the parameters, `exps`. -/
abbrev Exps := List (String × Params)

/-- `dict(exps)`: the last one of a name counts; the jobs have the same names. -/
def exps (l : Exps) : Exps := l.foldl (fun d kv => dset d kv.1 kv.2) []

/-- `TASKS` and `POLICIES`, `samples/supportive_evaluation_multitask.py:22-23`. -/
def multitaskTasks : List String := ["sequence", "uniform", "alternative"]

/-- `POLICIES`, `samples/supportive_evaluation_multitask.py:22`. -/
def multitaskPolicies : List String := ["pomcp", "repeat", "random"]

/-- `init_jobs` of the multitask launcher, `samples/supportive_evaluation_multitask.py:31-37`, before `dict`. -/
def multitaskExps : Exps :=
  multitaskTasks.flatMap fun t => multitaskPolicies.map fun p => (t ++ "-" ++ p, [("task", .str t), ("policy", .str p)])

/-- The results that are looked up by the multitask launcher, `samples/supportive_evaluation_multitask.py:43-46, 60-66`. -/
def multitaskLookups (excludeRepeat : Bool) : List String :=
  (multitaskTasks.flatMap fun t => multitaskPolicies.map fun p => t ++ "-" ++ p) ++
  multitaskTasks.flatMap fun t =>
    (if excludeRepeat then multitaskPolicies.filter fun p => t = "sequence" ∨ p ≠ "repeat" else multitaskPolicies).map fun p => t ++ "-" ++ p

/-- `POLICIES`, `samples/supportive_evaluation_preference.py:26`. -/
def preferencePolicies : List String := ["never-hold", "always-hold", "pomcp"]

/-- `P_PREFERENCE`, `samples/supportive_evaluation_preference.py:27`. -/
def pPreferenceValues : List ℚ := (List.range 21).map fun k => (k : ℚ) / 20

/-- The name of a job of the preference launcher. -/
def preferenceName (fmt : ℚ → String) (q : ℚ) (pol : String) : String := "preferences-" ++ fmt q ++ "-" ++ pol

/-- `init_jobs` of the preference launcher, `samples/supportive_evaluation_preference.py:34-40`, before `dict`. -/
def preferenceExps (fmt : ℚ → String) : Exps :=
  pPreferenceValues.flatMap fun q => preferencePolicies.map fun pol =>
    (preferenceName fmt q pol, [("p_preference", .num q), ("policy", .str pol), ("n_evaluations", .num 100)])

/-- The results that are looked up by the preference launcher, `samples/supportive_evaluation_preference.py:53-55`. -/
def preferenceLookups (fmt : ℚ → String) : List String :=
  preferencePolicies.flatMap fun pol => pPreferenceValues.map fun q => preferenceName fmt q pol

/-- `HORIZON_LENGTH_TRANSITIONS`, `samples/supportive_evaluation_pomcp.py:15`. -/
def horizonTransitions : List Nat := [3, 5, 7, 10, 15, 20, 25, 30, 35, 40, 60, 80, 100]

/-- `HORIZON_LENGTH_HTM`, `samples/supportive_evaluation_pomcp.py:16`. -/
def horizonHtm : List Nat := (List.range 9).map (· + 1)

/-- `N_ITERATIONS`, `samples/supportive_evaluation_pomcp.py:18`. -/
def nIterations : List Nat := [15, 20, 30] ++ (List.range 20).map fun k => 50 + 50 * k

/-- `N_ROLLOUT_IT`, `samples/supportive_evaluation_pomcp.py:19`. -/
def nRolloutIt : List Nat := [1, 5, 10, 30, 50, 75, 100]

/-- The name of a job for a horizon. -/
def horizonName (t : String) (l : Nat) (s : String) : String := t ++ ("-" ++ (pyStr l ++ ("-" ++ s)))

/-- The name of a job for a number of iterations. -/
def iterationsName (i r : Nat) : String := "iterations-" ++ (pyStr i ++ ("-" ++ pyStr r))

/-- `init_jobs` of the pomcp launcher, `samples/supportive_evaluation_pomcp.py:26-42`, before `dict`. -/
def pomcpExps : Exps :=
  ((horizonTransitions.map fun l => ("transitions", l)) ++ (horizonHtm.map fun l => ("htm", l))).flatMap (fun tl =>
    [true, false].map fun s => (horizonName tl.1 tl.2 (if s then "s" else "ns"),
      [("horizon-type", .str tl.1), ("horizon-length", .num tl.2), ("intermediate-rewards", .bool s)])) ++
  nIterations.flatMap fun i => nRolloutIt.map fun r =>
    (iterationsName i r, [("iterations", .num i), ("rollout-iterations", .num r)])

/-- The results that are looked up by the pomcp launcher, `samples/supportive_evaluation_pomcp.py:51-56, 78-83, 101-103`. -/
def pomcpLookups : List String :=
  ["ns", "s"].flatMap (fun s => (horizonTransitions.map fun h => horizonName "transitions" h s) ++ horizonHtm.map fun h => horizonName "htm" h s) ++
  nRolloutIt.flatMap fun r => nIterations.map fun i => iterationsName i r

/-- The run of a job of a launcher: the configuration is read by the job, `evaluation.py:199-203, 223-226`. -/
def runJob (cls : ExpClass) (W : ExpWorld) (l : Exps) (name : String) : Py ExpResults :=
  match dget (exps l) name with
  | some p => cls.run W (cls.parameters (some p)) false
  | none => .error .keyError

end Verif
