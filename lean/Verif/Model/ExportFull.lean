import Verif.Model.Export

/-!
# Model of the export of a whole search tree (`lib/pomcp.py:175-176, 210-212, 258-263, 325-338, 366-402, 489-490`)

`to_dict` with `as_policy=False` only reads the tree, which is an argument here; the state is the set `exclude_visited` of beliefs, or
`none`.  `fuel` is the recursion limit, counted in calls of `to_dict` of the two classes of nodes; beyond it `RuntimeError` is raised.
The argument `recursive` is always true.  The entry `node` is always `None` and omitted.
-/

namespace Verif

variable {σ β η : Type}

/-- The dictionary of an observation node or of an action node, `lib/pomcp.py:258-263, 336-338, 366-376, 390-401`. -/
inductive FullDict where
  | obs (value : ℚ) (visits : Nat) (belief : List ℚ) (actions : List Name) (children : List FullDict)
  | act (value : ℚ) (visits : Nat) (observations : List Name) (children : List FullDict)

/-- The test and the addition to `exclude_visited`, `lib/pomcp.py:330-335`: whether the children are exported. -/
def markBelief [DecidableEq β] (b : β) : M (Option (List β)) Bool := fun v =>
  match v with
  | none => (.ok true, none)
  | some l => if b ∈ l then (.ok false, some l) else (.ok true, some (b :: l))

/-- The actions whose node exists, `lib/pomcp.py:369-371, 373-374`. -/
def madeActions (t : Tree β) (i : Nat) : List Nat := (initChildren (t.nodes i).children).map Prod.fst

/-- The names and the dictionaries of the children, in the order of the code: `recur` is the recursive call. -/
def fullSub (recur : NodeRef → M (Option (List β)) FullDict) (labels : List Name) (keys : List Nat) (nodes : List NodeRef) :
    M (Option (List β)) (List Name × List FullDict) := do
  let names ← M.lift (namesAt labels keys)
  let cs ← exportList recur nodes
  pure (names, cs)

/-- `to_dict` of an observation node after the test, `lib/pomcp.py:336-338, 366-378`. -/
def fullObs (X : Exporter σ β) (t : Tree β) (recur : NodeRef → M (Option (List β)) FullDict) (i : Nat) :
    Bool → M (Option (List β)) FullDict
  | false => pure (.obs (t.nodes i).avg.value (t.nodes i).avg.n (X.toList (t.nodes i).belief) [] [])
  | true => do
      let s ← fullSub recur X.sim.actions (madeActions t i) (nodeChildren t (.obs i))
      pure (.obs (t.nodes i).avg.value (t.nodes i).avg.n (X.toList (t.nodes i).belief) s.1 s.2)

/-- `to_dict` of an action node, `lib/pomcp.py:387-402`. -/
def fullAct (X : Exporter σ β) (t : Tree β) (recur : NodeRef → M (Option (List β)) FullDict) (i a : Nat) (c : ANode) :
    M (Option (List β)) FullDict := do
  let s ← fullSub recur X.sim.observations (c.children.map Prod.fst) (nodeChildren t (.act i a))
  pure (.act c.avg.value c.avg.n s.1 s.2)

/-- `to_dict` with `as_policy=False`, `lib/pomcp.py:328-338, 366-402`. -/
def fullDict [DecidableEq β] (X : Exporter σ β) (t : Tree β) : Nat → NodeRef → M (Option (List β)) FullDict
  | 0, _ => M.raise .runtimeError
  | fuel + 1, .obs i => do
      let first ← markBelief (t.nodes i).belief
      fullObs X t (fullDict X t fuel) i first
  | fuel + 1, .act i a =>
      match t.anode i a with
      | none => M.raise .attributeError
      | some c => fullAct X t (fullDict X t fuel) i a c

/-- `to_dict(as_policy=False)` of a search tree, `lib/pomcp.py:175-176, 210-212`. -/
def treeFull [DecidableEq β] (X : Exporter σ β) (shared : Bool) (fuel : Nat) (t : Tree β) : Py FullDict :=
  (fullDict X t fuel (.obs 0) (startVisited β shared)).1

/-- One of the graphs of `trajectory_trees_from_starts`. -/
inductive StartGraph where
  | policy (d : PolicyDict)
  | full (d : FullDict)

/-- `trajectory_trees_from_starts`, `lib/pomcp.py:489-490`: the list under the key `graphs`. -/
def searchGraphs [DecidableEq β] (X : Exporter σ β) (shared : Bool) (fuel : Nat) : Bool → M (SearchState σ β) (List StartGraph)
  | false => do
      let d ← treePolicy X shared fuel
      pure [.policy d]
  | true => fun st => ((treeFull X shared fuel st.tree).map fun d => [.full d], st)

end Verif
