import Verif.Model.ExportFull
import Verif.Model.Script
import Verif.Model.PolicyPage

/-!
# Model of the program of `samples/pomcp.py` (lines 1-12 and 90-138)

* The texts of numbers, `{:2.0f}` and `{:.1f}`, are arbitrary functions.
* What is printed is the list of the characters that are sent to the terminal, as `print` of Python 3 does (`samples/pomcp.py:119-120`).
* The warning of the runner about a small number of iterations (`lib/pomcp.py:435-437`) is not modelled.
-/

namespace Verif

/-- `'{:2.0f}'.format(x)` and `'{:.1f}'.format(x)`. -/
structure StatusFormat where
  percent : ℚ → List Char
  value : ℚ → List Char

/-- The text of `best`, which is `None` at first, `samples/pomcp.py:112, 121`. -/
def bestText : Option Name → List Char
  | none => "None".toList
  | some a => nameText a

/-- The text `s` in the `i`-th turn, `samples/pomcp.py:115-117`. -/
def statusLine (fmt : StatusFormat) (i n : Nat) (best : Option Name) (v : ℚ) : List Char :=
  "Exploring... [".toList ++ fmt.percent (i * 100 / n) ++ "%] (current best: ".toList ++ bestText best ++ " [".toList ++ fmt.value v ++ "])".toList

/-- The variable `pol`, what has been printed, and the disk. -/
structure ExploreState (σ β : Type) where
  runner : SearchRunner σ β
  printed : List Char
  world : World

/-- The content of the file, `samples/pomcp.py:127-131`. -/
structure SearchFile where
  graphs : List StartGraph
  actions : List Name
  states : List Name
  exploration : ℚ
  relative : Bool

variable {σ β η : Type}

/-- A computation of the runner. -/
def onPol {α : Type} (m : M (SearchRunner σ β) α) : M (ExploreState σ β) α := fun st =>
  ((m st.runner).1, { st with runner := (m st.runner).2 })

/-- A computation on the disk. -/
def onDisk {α : Type} (m : M World α) : M (ExploreState σ β) α := fun st =>
  ((m st.world).1, { st with world := (m st.world).2 })

/-- `print`. -/
def sayText (t : List Char) : M (ExploreState σ β) Unit := M.modify fun st => { st with printed := st.printed ++ t }

/-- `pol.tree.root.children[pol._last_action].value if pol._last_action is not None else 0.0`, `samples/pomcp.py:116-117`; a child that does not exist is
`None`, which has no attribute. -/
def lastValue : M (ExploreState σ β) ℚ := fun st =>
  match st.runner.last with
  | none => (.ok 0, st)
  | some a =>
      match (st.runner.search.tree.nodes 0).children[a]? with
      | none => (.error .indexError, st)
      | some none => (.error .attributeError, st)
      | some (some c) => (.ok c.avg.value, st)

/-- `print(' ' * maxl, end='\r')` and `print(s, end='\r')`, `samples/pomcp.py:119-120`. -/
def statusPrint (maxl : Nat) (s : List Char) : List Char := List.replicate maxl ' ' ++ ['\r'] ++ (s ++ ['\r'])

variable [DecidableEq β]

/-- A turn of the loop, `samples/pomcp.py:115-121`; the variables are `best` and `maxl`. -/
def exploreTurn (fmt : StatusFormat) (S : Search σ β η) (iterations n i : Nat) (x : Option Name × Nat) : M (ExploreState σ β) (Option Name × Nat) := do
  let v ← lastValue
  sayText (statusPrint (max x.2 (statusLine fmt i n x.1 v).length) (statusLine fmt i n x.1 v))
  let b ← onPol (searchGetAction S iterations)
  return (some b, max x.2 (statusLine fmt i n x.1 v).length)

/-- `k` turns of the loop from the `i`-th one, `samples/pomcp.py:114-121`. -/
def exploreTurns (fmt : StatusFormat) (S : Search σ β η) (iterations n : Nat) : Nat → Nat → Option Name × Nat → M (ExploreState σ β) (Option Name × Nat)
  | 0, _, x => pure x
  | k + 1, i, x => do
      let y ← exploreTurn fmt S iterations n i x
      exploreTurns fmt S iterations n k (i + 1) y

/-- The number of beliefs, if they are shared, `samples/pomcp.py:123-124`; `BELIEF_VALUES` is the parameter `belief_values` of the runner. -/
def foundText (shared : Bool) (size : Nat) : List Char :=
  if shared then "Found ".toList ++ showNat size ++ " distinct beliefs.\n".toList else []

/-- The program from `N = 100` on, `samples/pomcp.py:111-138`, with `n` turns. -/
def exploreProgram (fmt : StatusFormat) (j : Json SearchFile) (X : Exporter σ β) (S : Search σ β η) (states : List Name) (iterations n depth : Nat)
    (f : FilePath) : M (ExploreState σ β) Unit := do
  let _ ← exploreTurns fmt S iterations n n 0 (none, 0)
  sayText "Exploring... [done]\n".toList
  let size ← M.read fun st => st.runner.search.tree.lookup.length
  sayText (foundText S.shared size)
  let graphs ← onPol (onSearch (searchGraphs X S.shared depth false))
  onDisk (saveJson j f (some 2) ⟨graphs, S.sim.actions, states, S.exploration, S.relative⟩)

/-- The file `../visualization/pomcp/json/pomcp.json`, `samples/pomcp.py:133-136`. -/
def searchFile (root : List String) : FilePath := ⟨root ++ ["visualization", "pomcp", "json"], "pomcp.json"⟩

/-- `HTMToPOMDP(T_WAIT, T_ASK, T_TELL, intr_cost=C_INTR, end_reward=R_END, loop=LOOP, reward_state=R_STATE, subtask_reward=R_SUBTASK)`,
`samples/pomcp.py:91-97, 106-107` and `stool_scenarios.py:7-10`. -/
def searchParams : HtmParams := ⟨1, 2, 2, 1, 1000, false, false, false, true, some 100⟩

/-- What the script depends on: the formats, the encoder, the solver that is found, the exponential, the limits of the recursion in the conversion, in the
simulations and in the export, the bound of the loops of the rollouts, the bonus `sqrt(log(n) / m)` and the random numbers. -/
structure SearchEnv where
  fmt : StatusFormat
  json : Json SearchFile
  solver : Option String
  exp : ℚ → ℚ
  depth : Nat
  fuel : Nat
  bound : Nat
  exportDepth : Nat
  bonus : Nat → Nat → ℚ
  u : Nat → ℚ
  c : Nat → Nat

/-- The search of the script, `samples/pomcp.py:99-103, 111-114`; `rollout_it` is 1 and `alpha` is 0.001 (`lib/pomcp.py:236, 281, 415`). -/
def scriptSearch (env : SearchEnv) (p : Pomdp) : Search Nat (List ℚ) Int where
  sim := exactSim p env.u env.c
  hor := nTransitions
  horizon := 100
  exploration := 1
  relative := true
  rolloutIt := 1
  alpha := 1 / 1000
  bonus := env.bonus
  shared := true
  fuel := env.fuel
  bound := env.bound

/-- The exports of the script. -/
def scriptExporter (env : SearchEnv) (p : Pomdp) : Exporter Nat (List ℚ) := ⟨exactSim p env.u env.c, env.bonus, id⟩

/-- The program, run in its own variables: what it prints is its result. -/
def runExplore (m : M (ExploreState σ β) Unit) (r : SearchRunner σ β) : M World (List Char × SearchRunner σ β) := fun w =>
  ((m ⟨r, [], w⟩).1.map fun _ => ((m ⟨r, [], w⟩).2.printed, (m ⟨r, [], w⟩).2.runner), (m ⟨r, [], w⟩).2.world)

/-- `samples/pomcp.py:106-138`, which would be run if the import on line 6 were from `task_models.lib.pomcp`. -/
def searchScriptBody (env : SearchEnv) (root : List String) : M World (List Char × SearchRunner Nat (List ℚ)) := do
  let p ← M.lift (htmToPomdp env.solver env.exp nameRadix searchParams env.depth stoolTask)
  let b ← M.lift (arrayBelief p.start)
  runExplore (exploreProgram env.fmt env.json (scriptExporter env p) (scriptSearch env p) p.states 100 100 env.exportDepth (searchFile root))
    ((scriptSearch env p).runner b 0)

/-- The names that are defined in the module `task_models.lib.pomdp`, in the order of `lib/pomdp.py`. -/
def pomdpModuleNames : List String :=
  ["os", "json", "subprocess", "spawn", "np", "TemporaryDirectory", "Queue", "assert_normal", "SOLVER_NAME", "ValueFunctionParseError", "Impossible",
    "parse_value_function", "parse_policy_graph", "PREAMBLE_FMT", "DECIMALS", "NUMBER_FORMAT", "_as_list", "_dump_list", "_dump_list_or_count",
    "_dump_1d_array", "_dump_2d_array", "_dump_3d_array", "_dump_4d_array", "POMDP", "GraphPolicy", "GraphPolicyRunner", "GraphPolicyBeliefRunner",
    "_Aux"]

/-- `samples/pomcp.py`: both names of line 6 are imported from `task_models.lib.pomdp`. -/
def searchScript (env : SearchEnv) (root : List String) : M World (List Char × SearchRunner Nat (List ℚ)) := do
  M.lift (importFrom pomdpModuleNames "GraphPolicyBeliefRunner")
  M.lift (importFrom pomdpModuleNames "POMCPPolicyRunner")
  searchScriptBody env root

end Verif
