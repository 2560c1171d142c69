import Verif.Model.Pomcp

/-!
# Model of the export of a search tree (`lib/pomcp.py:58-61, 175-183, 210-212, 258-290, 326-402, 489-490, 596-639`)

* A dictionary with fixed keys is a value of an inductive type; a key that may be absent is an option.
* The set `exclude_visited` of beliefs is part of the state; it is `none` if the argument is `None`.
* `fuel` is the recursion limit, counted in calls of `to_dict` or of `_map`; beyond it `RuntimeError` is raised.
* `belief.to_list()` is an arbitrary function, and so is the function applied to it in `export_pomcp`.
* `nan` is `none`: with an exploration of 0, `augmented_values` is `nan` for the children that are missing or not visited, and
  everywhere if the node itself is not visited.  (`0 * sqrt(log(n) / m)` is `0` if `n` and `m` are positive, and `nan` otherwise.)
* The writing of the file is not modelled; `to_dict` with `as_policy=False` is in `ExportFull`.
-/

namespace Verif

variable {σ β η : Type}

/-! ### The state of an export -/

/-- The search and the argument `exclude_visited`. -/
structure ExportState (σ β : Type) where
  search : SearchState σ β
  visited : Option (List β)

/-- A computation of the search tree. -/
def inSearch {α : Type} (m : M (SearchState σ β) α) : M (ExportState σ β) α := fun st =>
  ((m st.search).1, { st with search := (m st.search).2 })

/-- What the exports use: the model, `sqrt(log(n) / m)` and `to_list` of beliefs. -/
structure Exporter (σ β : Type) where
  sim : Sim σ β
  bonus : Nat → Nat → ℚ
  toList : β → List ℚ

/-- `l[i]` for the names of actions and observations. -/
def labelAt (l : List Name) (i : Nat) : Py Name :=
  match l[i]? with
  | some x => .ok x
  | none => .error .indexError

/-- `[names[i] for i in l]`. -/
def namesAt (names : List Name) : List Nat → Py (List Name)
  | [] => .ok []
  | i :: l => do
      let x ← labelAt names i
      let xs ← namesAt names l
      .ok (x :: xs)

/-! ### The policy -/

/-- The entries of the dictionary of an observation node, apart from its observations and children, `lib/pomcp.py:260-263, 338-356`. -/
structure PolicyInfo where
  value : ℚ
  visits : Nat
  belief : List ℚ
  action : Name
  observed : Option Nat
  values : List (Option ℚ)
  exploration : List (Option ℚ)
  childVisits : List Nat
  deriving DecidableEq, Repr

/-- The dictionary of an observation node with `as_policy=True`; `observations` and `children` are present together, and if they are
not, `children` is empty here, `lib/pomcp.py:357-365`. -/
inductive PolicyDict where
  | mk (info : PolicyInfo) (observations : Option (List Name)) (children : List PolicyDict)

/-- `[v if not math.isnan(v) else None for v in self.augmented_values()]`, `lib/pomcp.py:345-346`. -/
def exportValues (nd : ONode β) : List (Option ℚ) :=
  nd.children.map fun c => match c with
    | none => none
    | some c => if nd.avg.n = 0 ∨ c.avg.n = 0 then none else some c.avg.value

/-- The exploration terms, `lib/pomcp.py:347-352`. -/
def exportTerms (bonus : Nat → Nat → ℚ) (nd : ONode β) : List (Option ℚ) :=
  nd.children.map fun c => match c with
    | none => none
    | some c => if c.avg.n > 0 then some (bonus nd.avg.n c.avg.n) else none

/-- The visits of the children, `lib/pomcp.py:353-354`. -/
def exportVisits (nd : ONode β) : List Nat :=
  nd.children.map fun c => match c with
    | none => 0
    | some c => c.avg.n

/-- The entries for the node `nd`, `lib/pomcp.py:258-263, 336-338, 341-355`. -/
def policyInfo (X : Exporter σ β) (nd : ONode β) (action : Name) (observed : Option Nat) : PolicyInfo where
  value := nd.avg.value
  visits := nd.avg.n
  belief := X.toList nd.belief
  action := action
  observed := observed
  values := exportValues nd
  exploration := exportTerms X.bonus nd
  childVisits := exportVisits nd

/-- The action and the entries of the node `i`, `lib/pomcp.py:339-355`.  The value, the visits and the belief do not depend on the
changes made by `safe_get_child`. -/
def policyHead (X : Exporter σ β) (i : Nat) (observed : Option Nat) : M (SearchState σ β) (Nat × PolicyInfo) := do
  let a ← getBestAction X.sim X.bonus 0 false i
  safeGetChild i a
  let name ← M.lift (labelAt X.sim.actions a)
  let nd ← M.read fun st => st.tree.nodes i
  pure (a, policyInfo X nd name observed)

/-- The test and the addition to `exclude_visited`, `lib/pomcp.py:330-335`: whether the children are exported. -/
def markVisited [DecidableEq β] (i : Nat) : M (ExportState σ β) Bool := fun st =>
  match st.visited with
  | none => (.ok true, st)
  | some l =>
      if (st.search.tree.nodes i).belief ∈ l then (.ok false, st)
      else (.ok true, { st with visited := some ((st.search.tree.nodes i).belief :: l) })

/-- `[f(i, o) for i, o in enumerate(children)]` from position `k`; `f` takes the position and the node. -/
def exportEach {S ρ : Type} (f : Nat → Nat → M S ρ) : Nat → List (Nat × Nat) → M S (List ρ)
  | _, [] => pure []
  | k, (_, j) :: l => do
      let x ← f k j
      let xs ← exportEach f (k + 1) l
      pure (x :: xs)

/-- The children of the action node of `a` in the node `i`, which exists. -/
def grandChildren (t : Tree β) (i a : Nat) : List (Nat × Nat) :=
  match t.anode i a with
  | some c => c.children
  | none => []

/-- The entries `observations` and `children`, `lib/pomcp.py:357-365`: `recur` is the recursive call on the position and the node. -/
def policySub (X : Exporter σ β) (recur : Nat → Nat → M (ExportState σ β) PolicyDict) (i a : Nat) :
    M (ExportState σ β) (List Name × List PolicyDict) := do
  let gc ← M.read fun st => grandChildren st.search.tree i a
  let names ← M.lift (namesAt X.sim.observations (gc.map Prod.fst))
  let cs ← exportEach recur 0 gc
  pure (names, cs)

/-- The end of `to_dict`, `lib/pomcp.py:357-365`. -/
def policyEnd (X : Exporter σ β) (recur : Nat → Nat → M (ExportState σ β) PolicyDict) (i : Nat) (h : Nat × PolicyInfo) :
    Bool → M (ExportState σ β) PolicyDict
  | false => pure (.mk h.2 none [])
  | true => do
      let s ← policySub X recur i h.1
      pure (.mk h.2 (some s.1) s.2)

/-- `to_dict` of an observation node with `as_policy=True`, `lib/pomcp.py:328-365`. -/
def policyDict [DecidableEq β] (X : Exporter σ β) : Nat → Nat → Option Nat → M (ExportState σ β) PolicyDict
  | 0, _, _ => M.raise .runtimeError
  | fuel + 1, i, observed => do
      let first ← markVisited i
      let h ← inSearch (policyHead X i observed)
      policyEnd X (fun k j => policyDict X fuel j (some k)) i h first

/-- `exclude_visited` for the root: `lib/pomcp.py:175-176` and, if `shared`, `lib/pomcp.py:210-212`. -/
def startVisited (β : Type) (shared : Bool) : Option (List β) := if shared then some [] else none

/-- `to_dict(as_policy=True)` of a search tree, `lib/pomcp.py:175-176, 210-212`. -/
def treePolicy [DecidableEq β] (X : Exporter σ β) (shared : Bool) (fuel : Nat) : M (SearchState σ β) PolicyDict := fun st =>
  ((policyDict X fuel 0 none ⟨st, startVisited β shared⟩).1, (policyDict X fuel 0 none ⟨st, startVisited β shared⟩).2.search)

/-! ### `map` -/

/-- The actions whose node exists, `lib/pomcp.py:325-326`. -/
def initChildren (l : List (Option ANode)) : List (Nat × ANode) :=
  l.zipIdx.filterMap fun x => x.1.map fun c => (x.2, c)

/-- `[f(c) for c in l]`, `lib/pomcp.py:267-268`. -/
def exportList {S ρ γ : Type} (f : γ → M S ρ) : List γ → M S (List ρ)
  | [] => pure []
  | x :: l => do
      let y ← f x
      let ys ← exportList f l
      pure (y :: ys)

/-- A node of the tree. -/
inductive NodeRef where
  | obs (i : Nat)
  | act (i a : Nat)
  deriving DecidableEq, Repr

/-- `_iterate_children`, `lib/pomcp.py:271-272, 326-327`. -/
def nodeChildren (t : Tree β) : NodeRef → List NodeRef
  | .obs i => (initChildren (t.nodes i).children).map fun x => .act i x.1
  | .act i a => (grandChildren t i a).map fun x => .obs x.2

/-- `_map`, `lib/pomcp.py:265-269`: `fn` may change the tree. -/
def mapNode {ρ : Type} (fn : NodeRef → M (SearchState σ β) ρ) (join : ρ → List ρ → Py ρ) : Nat → NodeRef → M (SearchState σ β) ρ
  | 0, _ => M.raise .runtimeError
  | fuel + 1, r => do
      let x ← fn r
      let cs ← M.read fun st => nodeChildren st.tree r
      let ys ← exportList (mapNode fn join fuel) cs
      M.lift (join x ys)

/-! ### The export with a quotient of the beliefs -/

/-- The dictionaries made by `export_pomcp`: `info` is present for observation nodes, `flag` is the entry `'####'`, `idx` is
`'ACTION_IDX'`, `lib/pomcp.py:602-628`. -/
inductive QuotDict where
  | mk (info : Option PolicyInfo) (flag : Bool) (idx : Option Nat) (observations : Option (List Name)) (children : Option (List QuotDict))

/-- `c['observed'] = k`, `lib/pomcp.py:626`. -/
def QuotDict.setObserved (k : Nat) : QuotDict → QuotDict
  | .mk info flag idx obs cs => .mk (info.map fun i => { i with observed := some k }) flag idx obs cs

/-- `names.index(x)`. -/
def nameIndex (names : List Name) (x : Name) : Py Nat := if x ∈ names then .ok (names.idxOf x) else .error .valueError

/-- The function `to_dict` of `export_pomcp` on an observation node, `lib/pomcp.py:603-609`; `quot` is the quotient of the belief. -/
def quotObs (X : Exporter σ β) (quot : List ℚ → List ℚ) (i : Nat) : M (SearchState σ β) QuotDict := do
  let h ← policyHead X i none
  let nd ← M.read fun st => st.tree.nodes i
  let a ← M.lift (nameIndex X.sim.actions h.2.action)
  pure (.mk (some { h.2 with belief := quot h.2.belief }) false (some ((nd.children.take a).countP (·.isSome))) none none)

/-- The function `to_dict` of `export_pomcp`, `lib/pomcp.py:602-614`. -/
def quotFn (X : Exporter σ β) (quot : List ℚ → List ℚ) : NodeRef → M (SearchState σ β) QuotDict
  | .obs i => quotObs X quot i
  | .act i a => do
      let gc ← M.read fun st => grandChildren st.tree i a
      let names ← M.lift (namesAt X.sim.observations (gc.map Prod.fst))
      pure (.mk none true none (some names) none)

/-- The loop over the children and their observations, `lib/pomcp.py:625-626`: the children beyond the shortest list remain. -/
def setAllObserved (names : List Name) : List QuotDict → List Name → Py (List QuotDict)
  | c :: cs, o :: os => do
      let k ← nameIndex names o
      let rest ← setAllObserved names cs os
      .ok (c.setObserved k :: rest)
  | cs, _ => .ok cs

/-- The entries of the chosen action, `lib/pomcp.py:621-624`. -/
def takeChild (children : List QuotDict) (k : Nat) : Py (List Name × List QuotDict) :=
  match children[k]? with
  | none => .error .indexError
  | some (.mk _ _ _ (some os) (some cs)) => .ok (os, cs)
  | some _ => .error .keyError

/-- `join_children` of `export_pomcp` on an observation node, `lib/pomcp.py:620-627`. -/
def joinObs (names : List Name) (info : Option PolicyInfo) (children : List QuotDict) : Option Nat → Py QuotDict
  | none => .error .keyError
  | some k => do
      let x ← takeChild children k
      let cs ← setAllObserved names x.2 x.1
      .ok (.mk info false none (some x.1) (some cs))

/-- `join_children` of `export_pomcp`, `lib/pomcp.py:616-627`. -/
def joinQuot (names : List Name) : QuotDict → List QuotDict → Py QuotDict
  | .mk info true idx obs _, children => .ok (.mk info false idx obs (some children))
  | .mk info false idx _ _, children => joinObs names info children idx

/-- The graph written by `export_pomcp` with `belief_as_quotient`, `lib/pomcp.py:598-629`. -/
def quotientExport (X : Exporter σ β) (quot : List ℚ → List ℚ) (fuel : Nat) : M (SearchState σ β) QuotDict :=
  mapNode (quotFn X quot) (joinQuot X.sim.observations) fuel (.obs 0)

end Verif
