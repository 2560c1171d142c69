import Verif.Model.Solve
import Verif.Model.Stool
import Verif.Model.Text

/-!
# Model of `samples/htm2pomdp.py`, `samples/icra_scenario2pomdp.py` and `samples/tower_scenario.py`, and of `save_trajectories_from_starts`

The plots at the end of the first two scripts are in `Model/ScriptPlots.lean`.  `__file__` is in the
directory `samples` of the directory `root`, so that `../visualization` is `visualization` in `root`; links are not modelled.
-/

namespace Verif

/-- `save_trajectories_from_starts`, `lib/pomdp.py:515-518`: the file is opened before the trees are computed.  The dictionary `{"graphs": trees}`
is given by the list of the trees.  The result is the runner after the call. -/
def saveTrajectories (j : Json (List TTree)) (g : GraphPolicy) (p : Pomdp) (horizon : Nat) (f : FilePath) (indent : Option Nat) (r : BRunner) :
    M World BRunner := do
  openWrite f
  let trees ← M.lift (treesFromStarts g p horizon r).1
  writeText f (j.dumps indent trees)
  return (treesFromStarts g p horizon r).2

/-- `GraphPolicyBeliefRunner(gp, p)`, `lib/pomdp.py:465-474`. -/
def newBeliefRunner (g : GraphPolicy) (p : Pomdp) : Py BRunner :=
  match bReset g p.start ⟨[], 0⟩ with
  | (.ok _, r) => .ok r
  | (.error e, _) => .error e

/-- The policy returned by `visit`, `lib/pomdp.py:520-524`, for at most `fuel` iterations. -/
def visitPolicy (g : GraphPolicy) (p : Pomdp) (maxStates fuel : Nat) : Py GraphPolicy := do
  let r ← visit g p maxStates fuel
  match r with
  | none => .error .unfinished
  | some x => .ok x.1

/-- The file `../visualization/policy/json/NAME`. -/
def policyFile (root : List String) (name : String) : FilePath := ⟨root ++ ["visualization", "policy", "json"], name⟩

/-- The file `../visualization/trajectories/json/trajectories.json`. -/
def trajectoryFile (root : List String) : FilePath := ⟨root ++ ["visualization", "trajectories", "json"], "trajectories.json"⟩

/-- What a script depends on: the machine, the encoders, the solver that is found, the exponential, the limit of the recursion and the bound of the
iterations of `visit`. -/
structure ScriptEnv where
  mach : Machine
  policies : Json GraphDict
  trees : Json (List TTree)
  solver : Option String
  exp : ℚ → ℚ
  depth : Nat
  fuel : Nat

/-- The part that is common to `samples/htm2pomdp.py:63-87` and `samples/icra_scenario2pomdp.py:18-35`: the task is converted and solved, the policy,
the trajectories and the policy on the beliefs are saved.  The default of `max_states` is 100 (`lib/pomdp.py:520`).  The results are the variables
`p`, `gp` and `gp2`. -/
def policyScript (env : ScriptEnv) (h : HtmParams) (task : Htm CAction) (root : List String) (name : String) :
    M World (Pomdp × GraphPolicy × GraphPolicy) := do
  let p ← M.lift (htmToPomdp env.solver env.exp nameRadix h env.depth task)
  let gp ← p.solve env.mach none (some 500) "grid" none none true
  gp.saveAsJson env.policies (policyFile root name) none
  let pol ← M.lift (newBeliefRunner gp p)
  let _ ← saveTrajectories env.trees gp p 10 (trajectoryFile root) (some 2) pol
  let gp2 ← M.lift (visitPolicy gp p 100 env.fuel)
  gp2.saveAsJson env.policies (policyFile root "from_beliefs.json") none
  return (p, gp, gp2)

/-- `samples/icra_scenario2pomdp.py:1-35`. -/
def icraScript (env : ScriptEnv) (root : List String) : M World (Pomdp × GraphPolicy × GraphPolicy) :=
  policyScript env icraParams stoolTask root "icra.json"

/-- The action of a leaf of `samples/htm2pomdp.py:31-59`; the probabilities are the default ones. -/
def chairLeaf (name : String) (durations : ℚ × ℚ × ℚ) : Htm CAction := stoolLeaf (stoolAction name durations)

/-- `INF`, `samples/htm2pomdp.py:19`. -/
def chairInf : ℚ := 100

/-- `chair_task`, `samples/htm2pomdp.py:31-59`. -/
def chairTask : Htm CAction :=
  stoolSeq [
    stoolSeq [chairLeaf "Get central frame" (chairInf, 20, 30), chairLeaf "Start Hold central frame" (3, 10, chairInf)] "Mount central frame",
    stoolSeq [
      stoolSeq [chairLeaf "Get left leg" (chairInf, 20, 30), chairLeaf "Snap left leg" (5, chairInf, chairInf)] "Mount left leg",
      stoolSeq [chairLeaf "Get right leg" (chairInf, 20, 30), chairLeaf "Snap right leg" (5, chairInf, chairInf)] "Mount right leg"] "Mount legs",
    chairLeaf "Release central frame" (chairInf, 1, 1),
    stoolSeq [chairLeaf "Get top" (chairInf, 20, 30), chairLeaf "Snap top" (5, chairInf, chairInf)] "Mount top"] "Mount chair"

/-- `HTMToPOMDP(T_WAIT, T_COMM, C_INTR, end_reward=R_END, loop=LOOP, reward_state=False, subtask_reward=R_SUBTASK)`, `samples/htm2pomdp.py:15-28, 63-64`:
the third parameter is `t_tell`, and `intr_cost` has its default, 0 (`task_to_pomdp.py:390-392`). -/
def chairParams : HtmParams := ⟨1, 2, 1, 0, 1 / 10, false, false, false, false, none⟩

/-- `samples/htm2pomdp.py:1-87`. -/
def chairScript (env : ScriptEnv) (root : List String) : M World (Pomdp × GraphPolicy × GraphPolicy) :=
  policyScript env chairParams chairTask root "test.json"

/-- The names that are defined in the module `bring_next_to_pomdp`, `bring_next_to_pomdp.py:1-12, 15, 22, 63, 100, 115, 150, 178`. -/
def bringNextNames : List String :=
  ["np", "POMDP", "AbstractAction", "SequentialCombination", "AlternativeCombination", "LeafCombination", "ParallelCombination", "_name_radix",
    "_start_indices_from", "concatenate", "uniform", "LOOP", "NO_ANSWER", "CollaborativeAction", "_NodeToPOMDP", "_LeafToPOMDP", "_ParentNodeToPOMDP", "_SequenceToPOMDP",
    "_AlternativesToPOMDP", "HTMToPOMDP"]

/-- `from MODULE import NAME`, when MODULE is not a package. -/
def importFrom (names : List String) (name : String) : Py Unit := if name ∈ names then .ok () else .error .importError

/-- `samples/tower_scenario.py`; `rest` is what follows the second import, line 4. -/
def towerScript {α : Type} (rest : M World α) : M World α := do
  M.lift (importFrom bringNextNames "task_modelsToPOMDP")
  rest

end Verif
