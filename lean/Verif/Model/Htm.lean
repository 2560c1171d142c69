import Verif.Py
import Mathlib.Data.Rat.Defs
import Mathlib.Algebra.Order.Ring.Rat

/-!
# Model of hierarchical tasks (`task.py:326-608`, `json_to_htm.py`)

Trees are values of the nested inductive type `Htm`.  The type `A` of the actions held by leaves is a parameter with the
operations that the tree code uses (`ActOps`), because different modules put different classes of actions into leaves.
Probabilities are rationals instead of floats.  The class attribute `kind` of the base class `Combination`
(`'Undefined'`, never instantiated by the code) is not modelled.
-/

namespace Verif

/-- The attributes and methods of the action of a leaf that `task.py` uses: `action.name` (`task.py:434`),
`action.agent` (`task.py:579`) and `action.copy(rename_format=...)` (`task.py:448`).  A rename format is modelled by the
function `name ↦ rename_format.format(name)`.  Classes without a `copy` method give `AttributeError`. -/
structure ActOps (A : Type) where
  name : A → String
  agent : A → String
  copy : (String → String) → A → Py A

/-- `kind` of the three instantiable subclasses of `Combination`, `task.py:452-454, 470-472, 505-507`. -/
inductive Kind where
  | sequential
  | alternative
  | parallel
  deriving DecidableEq, Repr

/-- The class attribute `kind` as a string, and the keys of `COMBINATION_CLASSES`, `task.py:605-608`. -/
def Kind.str : Kind → String
  | .sequential => "Sequential"
  | .alternative => "Alternative"
  | .parallel => "Parallel"

/-- `COMBINATION_CLASSES[s]`, `task.py:605-608`. -/
def combinationClass (s : String) : Py Kind :=
  if s = "Sequential" then .ok .sequential
  else if s = "Parallel" then .ok .parallel
  else if s = "Alternative" then .ok .alternative
  else .error .keyError

/-- A node of a task tree: `LeafCombination` (`task.py:424-449`) or one of the subclasses of `Combination`
(`task.py:401-421`).  `idx` and `parent` are integers or `None`. -/
inductive Htm (A : Type) where
  | leaf (action : A) (idx parent : Option Int) (highlighted : Bool)
  | comb (kind : Kind) (children : List (Htm A)) (idx parent : Option Int) (name : String) (highlighted : Bool)
      (proba : Option (List ℚ))

namespace Htm
variable {A : Type}

/-- `node.idx`. -/
def idx : Htm A → Option Int
  | leaf _ i _ _ => i
  | comb _ _ i _ _ _ _ => i

/-- `node.parent`. -/
def parent : Htm A → Option Int
  | leaf _ _ p _ => p
  | comb _ _ _ p _ _ _ => p

/-- `node.highlighted`. -/
def highlighted : Htm A → Bool
  | leaf _ _ _ h => h
  | comb _ _ _ _ _ h _ => h

/-- `node.name`, `task.py:385-387, 432-434`. -/
def name (ops : ActOps A) : Htm A → String
  | leaf a _ _ _ => ops.name a
  | comb _ _ _ _ n _ _ => n

/-- `node.kind` (`None` on leaves, `task.py:426`). -/
def kind : Htm A → Option Kind
  | leaf _ _ _ _ => none
  | comb k _ _ _ _ _ _ => some k

/-- `node.children` on combinations (on leaves the property raises, `task.py:440-442`; the code never asks). -/
def children : Htm A → List (Htm A)
  | leaf _ _ _ _ => []
  | comb _ cs _ _ _ _ _ => cs

end Htm

/-! ### `AlternativeCombination.proba` -/

/-- `np.isclose(x, 1)` with the default tolerances (`|x - 1| <= 1e-8 + 1e-5 * |1|`). -/
def isCloseOne (x : ℚ) : Bool := decide (|x - 1| ≤ 1 / 100000000 + 1 / 100000)

/-- The setter of `AlternativeCombination.proba`, `task.py:482-495`, given the number of children; it returns the new
value of `_proba` or raises.  `np.min([])` raises `ValueError`. -/
def setProba (numChildren : Nat) (probabilities : Option (List ℚ)) : Py (List ℚ) :=
  match probabilities with
  | none =>
      if numChildren = 0 then .error .zeroDivisionError
      else .ok (List.replicate numChildren (1 / (numChildren : ℚ)))
  | some ps =>
      if ps = [] then .error .valueError
      else if ps.any (fun p => decide (p < 0)) then .error .valueError
      else if ps.any (fun p => decide (1 < p)) then .error .valueError
      else if !isCloseOne ps.sum then .error .valueError
      else .ok ps

/-- The constructors of the combinations, `task.py:405-409, 456-457, 474-476, 509-510`.  For an alternative the value
given is first assigned (and checked), then overwritten by `self.proba = None`. -/
def mkComb {A : Type} (kind : Kind) (children : List (Htm A)) (idx parent : Option Int := none)
    (name : String := "unnamed") (highlighted : Bool := false) (probabilities : Option (List ℚ) := none) :
    Py (Htm A) :=
  match kind with
  | .alternative => do
      let _ ← setProba children.length probabilities
      let p ← setProba children.length none
      return .comb .alternative children idx parent name highlighted (some p)
  | k => .ok (.comb k children idx parent name highlighted probabilities)

/-! ### `as_dictionary` -/

/-- The nested dictionaries returned by `as_dictionary` of a node, `task.py:389-398, 411-417`; `children = none` means
that the key is absent.  Also what `json_to_htm.build_htm` receives. -/
inductive DNode where
  | mk (name : String) (id : Int) (parent : Option Int) (combination : Option String) (attributes : List String)
      (children : Option (List DNode))

/-- `attr` of `_meta_dictionary`, `task.py:390-392`. -/
def attrOf (highlighted : Bool) : List String := if highlighted then ["highlighted"] else []

mutual
/-- `as_dictionary` of a node, `task.py:411-417, 444-445`.  The generator `int_generator()` (`task.py:368-372`) is the
next integer; it is returned after the traversal. -/
def Htm.asDict {A : Type} (ops : ActOps A) (parentId : Option Int) : Htm A → Int → DNode × Int
  | .leaf a _ _ h, g => (.mk (ops.name a) g parentId none (attrOf h) none, g + 1)
  | .comb k cs _ _ n h _, g =>
      let r := Htm.asDictL ops (some g) cs (g + 1)
      (.mk n g parentId (some k.str) (attrOf h) (some r.1), r.2)
/-- The list comprehension of `task.py:413-416`. -/
def Htm.asDictL {A : Type} (ops : ActOps A) (parentId : Option Int) : List (Htm A) → Int → List DNode × Int
  | [], g => ([], g)
  | c :: cs, g =>
      let r := Htm.asDict ops parentId c g
      let rs := Htm.asDictL ops parentId cs r.2
      (r.1 :: rs.1, rs.2)
end

/-- `HierarchicalTask.as_dictionary`, `task.py:540-545`: the pair of the name and the nodes; `root = none` is the empty
task. -/
def taskAsDictionary {A : Type} (ops : ActOps A) (root : Option (Htm A)) (name : Option String) :
    String × Option DNode :=
  (name.getD "Hierarchical task tree", root.map fun r => (r.asDict ops none 0).1)

/-! ### `build_htm` -/

/-- An `Action` object as built by `build_htm`, `json_to_htm.py:19` (`action.py:55-60`). -/
structure BaseAction where
  name : String
  agent : String
  deriving DecidableEq, Repr

/-- `Action` has a name and an agent and no `copy` method (`action.py:52-73`). -/
def BaseAction.ops : ActOps BaseAction where
  name := BaseAction.name
  agent := BaseAction.agent
  copy := fun _ _ => .error .attributeError

/-- `COMBINATION_CLASSES[combination]` when `combination` may be `None`. -/
def combinationOf : Option String → Py Kind
  | some s => combinationClass s
  | none => .error .keyError

/-- The leaf built by `json_to_htm.py:17-19`: the agent is the first attribute that is not `'highlighted'`; `agent[0]` of
an empty list raises `IndexError`. -/
def buildLeaf (name : String) (id : Int) (parent : Option Int) (attributes : List String) : Py (Htm BaseAction) :=
  match attributes.filter (fun a => decide (a ≠ "highlighted")) with
  | [] => .error .indexError
  | agent :: _ => .ok (.leaf ⟨name, agent⟩ (some id) parent false)

mutual
/-- `build_htm`, `json_to_htm.py:9-28`.  All keys but `children` are assumed present; a missing `children` raises
`KeyError`. -/
def buildHtm : DNode → Py (Htm BaseAction)
  | .mk name id parent _ attributes none =>
      if attributes ≠ [] then buildLeaf name id parent attributes else .error .keyError
  | .mk name id parent combination attributes (some cs) =>
      if attributes ≠ [] then buildLeaf name id parent attributes
      else do
        let built ← buildHtmL cs
        let k ← combinationOf combination
        mkComb k built (some id) parent name
/-- The loop of `json_to_htm.py:22-24`. -/
def buildHtmL : List DNode → Py (List (Htm BaseAction))
  | [] => .ok []
  | c :: cs => do
      let b ← buildHtm c
      let bs ← buildHtmL cs
      return b :: bs
end

/-! ### `deep_copy` and `to_alternative` -/

mutual
/-- `deep_copy` of the four classes, `task.py:447-449, 459-464, 497-502, 512-517`.  The copies have no `idx` and no
`parent` (the arguments are not passed). -/
def Htm.deepCopy {A : Type} (ops : ActOps A) (fmt : String → String) : Htm A → Py (Htm A)
  | .leaf a _ _ h => do
      let a' ← ops.copy fmt a
      return .leaf a' none none h
  | .comb k cs _ _ n h p => do
      let cs' ← Htm.deepCopyL ops fmt cs
      mkComb k cs' none none (fmt n) h p
/-- `_deep_copy_children`, `task.py:419-421`. -/
def Htm.deepCopyL {A : Type} (ops : ActOps A) (fmt : String → String) : List (Htm A) → Py (List (Htm A))
  | [] => .ok []
  | c :: cs => do
      let c' ← Htm.deepCopy ops fmt c
      let cs' ← Htm.deepCopyL ops fmt cs
      return c' :: cs'
end

/-- Every way of taking one element out of a list, in order. -/
def picks {α : Type} : List α → List (α × List α)
  | [] => []
  | x :: xs => (x, xs) :: (picks xs).map fun p => (p.1, x :: p.2)

/-- `itertools.permutations(l)` (lexicographic order of positions); the first argument is the number of elements left,
`l.length` for the call. -/
def permsN {α : Type} : Nat → List α → List (List α)
  | 0, _ => [[]]
  | n + 1, l => (picks l).flatMap fun p => (permsN n p.2).map fun q => p.1 :: q

/-- `itertools.permutations(l)`, imported by `task.py:27`. -/
def permutations {α : Type} (l : List α) : List (List α) := permsN l.length l

/-- `'{{}} order-{}'.format(i)` as a rename format, `task.py:522`. -/
def orderFmt (i : Nat) (n : String) : String := n ++ " order-" ++ toString i

/-- One sequence of `to_alternative`, `task.py:521-523`. -/
def orderSeq {A : Type} (ops : ActOps A) (name : String) (p : List (Htm A)) (i : Nat) : Py (Htm A) := do
  let cs ← Htm.deepCopyL ops (orderFmt i) p
  mkComb .sequential cs none none (orderFmt i name)

/-- `ParallelCombination.to_alternative`, `task.py:519-527`. -/
def toAlternative {A : Type} (ops : ActOps A) (children : List (Htm A)) (name : String) (highlighted : Bool) :
    Py (Htm A) := do
  let seqs ← (permutations children).zipIdx.mapM fun pi => orderSeq ops name pi.1 pi.2
  mkComb .alternative seqs none none name highlighted

/-! ### Searches -/

mutual
/-- `find_parent_node`, `task.py:547-568`. -/
def Htm.findParent {A : Type} (i : Option Int) : Htm A → Option (Htm A)
  | .leaf _ _ _ _ => none
  | .comb k cs a b n h p => Htm.findParentL i (.comb k cs a b n h p) cs
/-- The loop of `task.py:557-568` over the children of `node`. -/
def Htm.findParentL {A : Type} (i : Option Int) (node : Htm A) : List (Htm A) → Option (Htm A)
  | [] => none
  | c :: cs =>
      if i = c.idx then some node
      else match Htm.findParent i c with
        | some p => some p
        | none => Htm.findParentL i node cs
end

/-- `c.idx > curr_idx`: `TypeError` if `c.idx` is `None`. -/
def idxGt (i : Option Int) (cur : Int) : Py Bool :=
  match i with
  | some i => .ok (decide (i > cur))
  | none => .error .typeError

/-- `c.kind == None and c.action.agent == "human"`, `task.py:579`. -/
def isHumanLeaf {A : Type} (ops : ActOps A) : Htm A → Bool
  | .leaf a _ _ _ => decide (ops.agent a = "human")
  | .comb .. => false

mutual
/-- `find_next_human_action`, `task.py:570-585`. -/
def Htm.findNextHuman {A : Type} (ops : ActOps A) (cur : Int) : Htm A → Py (Option (Htm A))
  | .leaf _ _ _ _ => .ok none
  | .comb _ cs _ _ _ _ _ => Htm.findNextHumanL ops cur cs
/-- The loop of `task.py:577-585`. -/
def Htm.findNextHumanL {A : Type} (ops : ActOps A) (cur : Int) : List (Htm A) → Py (Option (Htm A))
  | [] => .ok none
  | c :: cs => do
      let gt ← idxGt c.idx cur
      if gt && isHumanLeaf ops c then return some c
      else
        let r ← Htm.findNextHuman ops cur c
        match r with
        | some x => return some x
        | none => Htm.findNextHumanL ops cur cs
end

/-- `name in s` on strings: `name` is a contiguous substring. -/
def pyIn (name s : List Char) : Bool :=
  match s with
  | [] => name.isEmpty
  | c :: rest => name.isPrefixOf (c :: rest) || pyIn name rest

mutual
/-- `find_node_by_name`, `task.py:587-602`; `lower` is `str.lower`. -/
def Htm.findByName {A : Type} (ops : ActOps A) (lower : String → String) (q : String) : Htm A → Option (Htm A)
  | .leaf _ _ _ _ => none
  | .comb _ cs _ _ _ _ _ => Htm.findByNameL ops lower q cs
/-- The loop of `task.py:594-602`. -/
def Htm.findByNameL {A : Type} (ops : ActOps A) (lower : String → String) (q : String) :
    List (Htm A) → Option (Htm A)
  | [] => none
  | c :: cs =>
      if pyIn q.toList (lower (c.name ops)).toList then some c
      else match Htm.findByName ops lower q c with
        | some x => some x
        | none => Htm.findByNameL ops lower q cs
end

end Verif
