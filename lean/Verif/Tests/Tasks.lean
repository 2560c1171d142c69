import Verif.Model.Hierarchy

/-!
# The tests of `tests/test_tasks.py` and `tests/test_actions.py` on the model

These are tests of the model, not proofs of properties of the code.  Random features of the tests are replaced by fixed ones.
-/

namespace Verif.Tests.Tasks
open Verif

/-- `DummyState.to_array(i)`, lines 41-49: the six bits of a number. -/
def bits (i : Nat) : List ℚ := (List.range 6).map fun k => if (i / 2 ^ (5 - k)) % 2 = 1 then 1 else 0

/-- `test_to_array`, lines 57-63. -/
example : bits 3 = [0, 0, 0, 0, 1, 1] := by decide +kernel

/-- `Condition(DummyState.to_array(mask), DummyState.to_array(value))`. -/
def cond (c : Nat × Nat) : Cond :=
  match mkCond ⟨.int64, bits c.1⟩ ⟨.int64, bits c.2⟩ with
  | .ok c => c
  | .error _ => .matchAll

/-- `get_action`, lines 66-74. -/
def getAction (pre post : Nat × Nat) (name : String := "") : Act := .prePost (cond pre) (cond post) name

/-- `action.check(before, after)` on `DummyState`s. -/
def chk (a : Act) (s s' : Nat) : Bool :=
  match a with
  | .prePost pre post _ => (match prePostCheck pre post (bits s) (bits s') with | .ok b => b | .error _ => false)
  | _ => false

/-- `check_path` on the paths of the tests. -/
def check (p : List (Elem Nat Act)) : Bool := checkPath chk p

/-- A catch-all action. -/
def any : Elem Nat Act := .action (getAction (0, 0) (0, 0))

/-! ### `TestPathCheck`, lines 77-149 -/

example : check [] = true := by decide +kernel
example : check [.state 2] = true := by decide +kernel
example : check [.action (getAction (1, 0) (1, 1))] = false := by decide +kernel
example : check [.state 0, any] = false := by decide +kernel
example : check [any, .state 0] = false := by decide +kernel
example : check [.state 0, .state 0, any, .state 0] = false := by decide +kernel
example : check [.state 0, any, any, .state 0] = false := by decide +kernel
example : check [.state 1, .action (getAction (1, 0) (0, 0)), .state 0] = false := by decide +kernel
example : check [.state 1, .action (getAction (0, 0) (1, 1)), .state 0] = false := by decide +kernel
example : check [.state 1, any, .state 1, .action (getAction (1, 0) (0, 0)), .state 0] = false := by decide +kernel
example : check [.state 1, any, .state 1, .action (getAction (0, 0) (1, 1)), .state 0] = false := by decide +kernel

/-- The first action of the paths of the tests. -/
def a0 : Act := getAction (1, 0) (1, 1)
/-- The second action of the paths of the tests. -/
def a1 : Act := getAction (1 + 2, 1) (1 + 2, 1 + 2)
/-- `self.path`, lines 195-200. -/
def path : List (Elem Nat Act) := [.state 0, .action a0, .state 5, .action a1, .state 7]

example : check path = true := by decide +kernel

/-! ### `TestSplitPath`, lines 152-171 -/

example : splitPath ([] : List Nat) = [] ∧ splitPath [1] = [] ∧ splitPath [1, 2] = [] := by decide
example : splitPath [1, 2, 3] = [(1, 2, 3)] := by decide
example : splitPath [1, 2, 3, 4, 5] = [(1, 2, 3), (3, 4, 5)] := by decide
example : splitPath [1, 2, 3, 4, 5, 6, 7] = [(1, 2, 3), (3, 4, 5), (5, 6, 7)] := by decide

/-! ### `TestMaxClique`, lines 174-193 -/

/-- `self.g`. -/
def cliqueGraph : List (Nat × List Nat) := [(1, [2, 5]), (2, [1, 3, 5]), (3, [2, 4]), (4, [3, 5, 6]), (5, [1, 2, 4]), (6, [4])]

/-- Are these the cliques found, as sets of sets? -/
def cliquesAre {α : Type} [DecidableEq α] (l : Py (List (List α))) (expected : List (List α)) : Bool :=
  match l with
  | .ok l => decide (l.length = expected.length) && expected.all fun e => l.any fun c => setEq e c
  | .error _ => false

example : cliquesAre (Cliques.maxCliques cliqueGraph (fun _ l => l) 20) [[1, 2, 5], [2, 3], [3, 4], [4, 5], [4, 6]] = true := by
  decide +kernel
example : cliquesAre (Cliques.maxCliques cliqueGraph (fun _ l => l.reverse) 20) [[1, 2, 5], [2, 3], [3, 4], [4, 5], [4, 6]] = true := by
  decide +kernel

/-! ### `TestTaskGraph`, lines 194-323 -/

/-- `TaskGraph()`. -/
def empty : TaskGraph Nat Act := {}

/-- The graph after `add_path` of each path; the empty graph after an error. -/
def withPaths (ps : List (List (Elem Nat Act))) : TaskGraph Nat Act :=
  match ps.foldlM (fun g p => g.addPath chk p) empty with
  | .ok g => g
  | .error _ => empty

/-- `test_add_transition`, lines 203-208. -/
example : empty.hasTransition 0 a0 5 = false ∧ (empty.addTransition 0 a0 5).hasTransition 0 a0 5 = true := by decide +kernel

/-- `test_add_path`, lines 210-215. -/
example : empty.hasTransition 5 a1 7 = false ∧ (withPaths [path]).hasTransition 0 a0 5 = true
    ∧ (withPaths [path]).hasTransition 5 a1 7 = true := by decide +kernel

/-- The answer of `has_path`; `none` if it raises `ValueError`. -/
def has (g : TaskGraph Nat Act) (p : List (Elem Nat Act)) : Option Bool :=
  match g.hasPath chk p with
  | .ok b => some b
  | .error .valueError => none
  | .error _ => some false

/-- `test_always_has_empty_path`, lines 217-220. -/
example : has empty [] = some true ∧ has (withPaths [path]) [] = some true := by decide +kernel

/-- `test_has_singleton_path`, lines 222-234. -/
example : has empty [.state 8] = some false ∧ has { empty with initial := [8] } [.state 8] = some false
    ∧ has { empty with initial := [8], terminal := [8] } [.state 8] = some true
    ∧ has { withPaths [path] with initial := [8, 0], terminal := [8, 7] } [.state 8] = some true
    ∧ has { withPaths [path] with initial := [8, 0], terminal := [8, 7] } [.state 7] = some false
    ∧ has { withPaths [path] with initial := [8, 0], terminal := [8, 7] } [.state 5] = some false := by decide +kernel

/-- `test_invalid_paths_raises_error`, lines 236-243. -/
example : has (withPaths [path]) [.state 0, .action (getAction (3, 0) (3, 1)), .state 7] = none := by decide +kernel

/-- Another intermediate state, lines 246-251. -/
def path2 : List (Elem Nat Act) := [.state 0, .action a0, .state 1, .action a1, .state 7]
/-- Another action, lines 258-263. -/
def path3 : List (Elem Nat Act) := [.state 0, .action a0, .state 5, .action (getAction (3, 1) (5, 5)), .state 7]

/-- `test_must_have_same_transitions`, lines 245-255. -/
example : has (withPaths [path]) path2 = some false ∧ has (withPaths [path, path2]) path2 = some true := by decide +kernel

/-- `test_must_have_same_transitions2`, lines 257-267. -/
example : has (withPaths [path]) path3 = some false ∧ has (withPaths [path, path3]) path3 = some true := by decide +kernel

/-- Does `check_only_deterministic_transitions` return (rather than raise `ValueError`)? -/
def deterministic (g : TaskGraph Nat Act) : Bool :=
  match g.checkDeterministic id with
  | .ok _ => true
  | .error _ => false

/-- `test_is_not_deterministic`, `test_empty_is_deterministic`, `test_deterministic`, `test_deterministic2`, lines 269-300. -/
example : deterministic (withPaths [path, path2]) = false ∧ deterministic empty = true ∧ deterministic (withPaths [path]) = true
    ∧ deterministic (withPaths [path, path3]) = true := by decide +kernel

/-- `test_remove_transition`, lines 302-309. -/
example : (match (withPaths [path]).removeTransition 0 a0 5 with
    | .ok g => !g.hasTransition 0 a0 5 && (match g.removeTransition 0 a0 5 with | .error .keyError => true | _ => false)
    | .error _ => false) = true := by decide +kernel

/-- The transitions after `compact`; the empty label `''` is `.plain ""`. -/
def compacted (nodes : List (Option Nat)) (new : Option Nat) : Option (List (Option Nat × Act × Option Nat)) :=
  let g : BaseGraph (Option Nat) Act := (BaseGraph.addTransition {} (some 0) a0 (some 5)).addTransition (some 5) a1 (some 7)
  match g.compact (.plain "") g.allTransitions nodes new with
  | .ok g => some g.allTransitions
  | .error _ => none

/-- `test_compact_node_to_itself_is_same`, lines 311-317. -/
example : compacted [some 0] (some 0) = some [(some 0, .plain "", some 5), (some 5, a1, some 7)] := by decide +kernel

/-- `test_compact_all_nodes_is_empty`, lines 319-322. -/
example : compacted [some 0, some 5, some 7] none = some [] := by decide +kernel

/-- `test_compacts_two`, lines 324-328. -/
example : compacted [some 0, some 5] none = some [(none, .plain "", some 7)] := by decide +kernel

/-! ### `TestConjugateTaskGraph`, lines 331-508 -/

open Hierarchy

/-- `graph.conjugate()`. -/
def conj (ps : List (List (Elem Nat Act))) : Py (ConjGraph Act Nat) := conjGraph id id (withPaths ps)

/-- Does the conjugate equal the graph with these transitions? -/
def conjIs (c : Py (ConjGraph Act Nat)) (ts : List (Act × Nat × Act)) : Bool :=
  match c with
  | .ok c => c.toBaseGraph.eq (ts.foldl (fun g t => g.addTransition t.1 t.2.1 t.2.2) {})
  | .error _ => false

/-- `test_check_deterministic`, lines 339-347. -/
example : (match conj [path, path2] with | .error .valueError => true | _ => false) = true := by decide +kernel

/-- `test_conjugate_empty_is_empty`, lines 349-350. -/
example : conjIs (conj []) [] = true := by decide +kernel

/-- `test_conjugate_chain`, lines 352-359. -/
example : conjIs (conj [path]) [(initialAct, 0, a0), (a0, 5, a1), (a1, 7, terminalAct)] = true := by decide +kernel

/-- The actions of `test_conjugate_chair`, lines 361-392. -/
def getL : Act := getAction (1, 0) (1, 1) "get left peg"
@[inherit_doc getL] def getR : Act := getAction (2, 0) (2, 2) "get right peg"
@[inherit_doc getL] def placeL : Act := getAction (1 + 4, 1) (1 + 4, 4) "place left peg"
@[inherit_doc getL] def placeR : Act := getAction (2 + 8, 2) (2 + 8, 8) "place right peg"
@[inherit_doc getL] def getF : Act := getAction (16, 0) (16, 16) "get frame"
@[inherit_doc getL] def placeF : Act := getAction (16 + 32 + 4 + 8, 16 + 4 + 8) (16 + 32 + 4 + 8, 32 + 4 + 8) "place frame"

/-- The two paths of `test_conjugate_chair`, lines 394-409. -/
def chair : List (List (Elem Nat Act)) :=
  [[.state 0, .action getL, .state 1, .action placeL, .state 4, .action getR, .state (4 + 2), .action placeR, .state (4 + 8),
    .action getF, .state (4 + 8 + 16), .action placeF, .state (4 + 8 + 32)],
   [.state 0, .action getR, .state 2, .action placeR, .state 8, .action getL, .state (8 + 1), .action placeL, .state (8 + 4),
    .action getF, .state (4 + 8 + 16), .action placeF, .state (4 + 8 + 32)]]

/-- `test_conjugate_chair`, lines 361-440. -/
example : conjIs (conj chair)
    [(initialAct, 0, getL), (getL, 1, placeL), (getL, 8 + 1, placeL), (placeL, 4, getR), (placeL, 8 + 4, getF), (initialAct, 0, getR),
     (getR, 2, placeR), (getR, 4 + 2, placeR), (placeR, 8, getL), (placeR, 4 + 8, getF), (getF, 4 + 8 + 16, placeF),
     (placeF, 4 + 8 + 32, terminalAct)] = true := by decide +kernel

/-- All the chains yielded by `get_max_chains`, popping the element of `to_explore` chosen by `pop`. -/
def chainsFrom (ut : List (Act × List Act)) (indeg : List (Act × Nat)) (pop : List Act → Option Act) :
    Nat → Chains.Cfg Act → Option (List (List Act))
  | 0, _ => none
  | fuel + 1, c =>
      if c.finished then some []
      else
        match Chains.step ut indeg c ((pop c.toExplore).getD initialAct) with
        | .error _ => none
        | .ok (c', y) => (chainsFrom ut indeg pop fuel c').map fun l => y.toList ++ l

/-- `list(c.get_max_chains())`. -/
def chains (pop : List Act → Option Act) (c : Py (ConjGraph Act Nat)) : Option (List (List Act)) :=
  match c with
  | .error _ => none
  | .ok c =>
      match Chains.degrees (BaseGraph.allNodes c.toBaseGraph.allTransitions) c.toBaseGraph.allTransitions with
      | .error _ => none
      | .ok (ut, indeg) => chainsFrom ut indeg pop 50 (Chains.start c.initial)

/-- `test_get_max_chains_on_chain`, lines 442-449. -/
example : chains List.head? (conj [path]) = some [[initialAct, a0, a1, terminalAct]] := by decide +kernel

/-- The actions of the cliques, lines 453-455. -/
def q0 : Act := getAction (1, 0) (1, 1) "0"
@[inherit_doc q0] def q1 : Act := getAction (2, 0) (2, 2) "1"
@[inherit_doc q0] def q2 : Act := getAction (4, 0) (4, 4) "2"

/-- The six paths of `test_get_max_chains_on_clique`, lines 458-463. -/
def clique : List (List (Elem Nat Act)) :=
  [[.state 0, .action q0, .state 1, .action q1, .state 3, .action q2, .state 7],
   [.state 0, .action q0, .state 1, .action q2, .state 5, .action q1, .state 7],
   [.state 0, .action q1, .state 2, .action q0, .state 3, .action q2, .state 7],
   [.state 0, .action q1, .state 2, .action q2, .state 6, .action q0, .state 7],
   [.state 0, .action q2, .state 4, .action q0, .state 5, .action q1, .state 7],
   [.state 0, .action q2, .state 4, .action q1, .state 6, .action q0, .state 7]]

/-- `test_get_max_chains_on_clique`, lines 451-467. -/
example : chains List.head? (conj clique) = some [] ∧ chains List.getLast? (conj clique) = some [] := by decide +kernel

/-- The actions of `test_get_two_max_chains`, lines 471-474. -/
def c0 : Act := getAction (1, 0) (1, 1) "a0"
@[inherit_doc c0] def c1 : Act := getAction (2, 0) (2, 2) "a1"
@[inherit_doc c0] def d0 : Act := getAction (4, 0) (4, 4) "b0"
@[inherit_doc c0] def d1 : Act := getAction (8, 0) (8, 8) "b0"

/-- The two paths of `test_get_two_max_chains`, lines 477-480. -/
def twoChains : List (List (Elem Nat Act)) :=
  [[.state 0, .action c0, .state 1, .action c1, .state 3, .action d0, .state 7, .action d1, .state 15],
   [.state 0, .action d0, .state 4, .action d1, .state 12, .action c0, .state 13, .action c1, .state 15]]

/-- `test_get_two_max_chains`, lines 469-488. -/
example : chains List.head? (conj twoChains) = some [[c0, c1], [d0, d1]] ∧ chains List.getLast? (conj twoChains) = some [[d0, d1], [c0, c1]] := by
  decide +kernel

/-- `list(c.get_max_cliques())`. -/
def cliques (c : Py (ConjGraph Act Nat)) : Py (List (List Act)) :=
  match c with
  | .error e => .error e
  | .ok c => Cliques.getMaxCliques (BaseGraph.allNodes c.toBaseGraph.allTransitions) c.toBaseGraph.allTransitions id (fun _ l => l) 50

/-- `test_get_max_clique_on_chain`, lines 490-496. -/
example : cliquesAre (cliques (conj [path])) [] = true := by decide +kernel

/-- `test_get_max_clique_on_clique`, lines 498-514. -/
example : cliquesAre (cliques (conj clique)) [[q0, q1, q2]] = true := by decide +kernel

/-! ### `TestParallelToAlternatives`, lines 517-549 -/

/-- An action with a name and a `copy` method, as `AbstractAction`. -/
def named : ActOps String where
  name := id
  agent := fun _ => ""
  copy := fun fmt a => .ok (fmt a)

/-- `LeafCombination(AbstractAction(n))`. -/
def leaf (n : String) : Htm String := .leaf n none none false

/-- `to_alternative` of a parallel combination of these children. -/
def alternatives (cs : List (Htm String)) : Option (Option Kind × List (Option Kind × List (Option Kind))) :=
  match toAlternative named cs "unnamed" false with
  | .ok t => some (t.kind, t.children.map fun c => (c.kind, c.children.map Htm.kind))
  | .error _ => none

/-- `test_is_correct`, lines 518-527. -/
example : alternatives [leaf "a", leaf "b", leaf "c"]
    = some (some .alternative, List.replicate 6 (some .sequential, [none, none, none])) := by decide +kernel

/-- `test_complex`, lines 529-545. -/
example : alternatives [.comb .parallel [leaf "a", leaf "b"] none none "unnamed" false none, leaf "c"]
    = some (some .alternative, [(some .sequential, [some .parallel, none]), (some .sequential, [none, some .parallel])]) := by
  decide +kernel

/-! ### `tests/test_actions.py` -/

/-- `test_raises_value_error_on_masked_nonzeros`, lines 12-16. -/
example : (match mkCond ⟨.int64, [0, 1, 0, 0, 1]⟩ ⟨.int64, [1, 0, 0, 0, 0]⟩ with | .error .valueError => true | _ => false) = true := by
  decide +kernel

/-- The conditions of lines 42-47. -/
def pre : Cond := .cond ⟨.int64, [0, 1, 0, 0, 1]⟩ ⟨.int64, [0, 0, 0, 0, -1]⟩
@[inherit_doc pre] def post : Cond := .cond ⟨.int64, [1, 0, 0, 0, 0]⟩ ⟨.int64, [1, 0, 0, 0, 0]⟩
/-- Features in place of the random ones of lines 21-23 and 48-52. -/
def before : List ℚ := [1 / 3, 0, 1 / 7, 2 / 5, -1]
@[inherit_doc before] def after : List ℚ := [1, 0, 1 / 7, 2 / 5, -1]

example : mkCond ⟨.int64, [0, 1, 0, 0, 1]⟩ ⟨.int64, [0, 0, 0, 0, -1]⟩ = .ok pre := by decide +kernel
example : mkCond ⟨.int64, [1, 0, 0, 0, 0]⟩ ⟨.int64, [1, 0, 0, 0, 0]⟩ = .ok post := by decide +kernel

/-- The answer of a check. -/
def answer (r : Py Bool) : Option Bool := match r with | .ok b => some b | .error _ => none

/-- `test_check_true` and `test_check_false` of a condition, lines 18-34. -/
example : answer (pre.check before) = some true ∧ answer (pre.check [1 / 3, 1, 1 / 7, 2 / 5, -1]) = some false := by decide +kernel

/-- `test_check_true` and `test_check_false` of an action, lines 56-62. -/
example : answer (prePostCheck pre post before after) = some true ∧ answer (prePostCheck pre post after after) = some true
    ∧ answer (prePostCheck pre post before before) = some false ∧ answer (prePostCheck pre post after before) = some false := by
  decide +kernel

/-- `test_equality`, lines 64-73. -/
example : answer (Act.eq (.prePost pre post "a") (.prePost pre post "b")) = some true := by decide +kernel

/-- `test_inequality`, lines 75-84. -/
example : answer (Act.eq (.prePost pre post "") (.prePost (.cond ⟨.int64, [0, 1, 0, 0, 1]⟩ ⟨.int64, [0, 0, 0, 0, 1]⟩) post "")) = some false
    ∧ answer (Act.eq (.prePost pre post "") (.prePost pre pre "")) = some false := by decide +kernel

end Verif.Tests.Tasks
