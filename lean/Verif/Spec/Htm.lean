import Verif.Model.Htm

/-! Specification vocabulary for task trees (C13-C19). -/

namespace Verif.Spec
open Verif
variable {A : Type}

mutual
/-- The nodes of a tree in depth-first pre-order, the root first. -/
def nodes : Htm A → List (Htm A)
  | .leaf a i p h => [.leaf a i p h]
  | .comb k cs i p n h pr => .comb k cs i p n h pr :: nodesL cs
/-- The nodes of a list of trees, one tree after the other. -/
def nodesL : List (Htm A) → List (Htm A)
  | [] => []
  | c :: cs => nodes c ++ nodesL cs
end

/-- The proper descendants of a node in depth-first pre-order. -/
def below (t : Htm A) : List (Htm A) := nodesL t.children

mutual
/-- The actions of the leaves, from left to right. -/
def leaves : Htm A → List A
  | .leaf a _ _ _ => [a]
  | .comb _ cs _ _ _ _ _ => leavesL cs
/-- The actions of the leaves of a list of trees. -/
def leavesL : List (Htm A) → List A
  | [] => []
  | c :: cs => leaves c ++ leavesL cs
end

/-- Fields of a dictionary. -/
def DNode.id : DNode → Int
  | .mk _ i _ _ _ _ => i

mutual
/-- The ids of a nested dictionary in depth-first pre-order. -/
def dIds : DNode → List Int
  | .mk _ i _ _ _ none => [i]
  | .mk _ i _ _ _ (some cs) => i :: dIdsL cs
/-- The ids of a list of dictionaries. -/
def dIdsL : List DNode → List Int
  | [] => []
  | c :: cs => dIds c ++ dIdsL cs
end

mutual
/-- The dictionary's `parent` field is `p`, and the one of each dictionary nested in it is the id of the enclosing one. -/
def ParentsOk (p : Option Int) : DNode → Prop
  | .mk _ _ q _ _ none => q = p
  | .mk _ i q _ _ (some cs) => q = p ∧ ParentsOkL (some i) cs
/-- See `ParentsOk`. -/
def ParentsOkL (p : Option Int) : List DNode → Prop
  | [] => True
  | c :: cs => ParentsOk p c ∧ ParentsOkL p cs
end

mutual
/-- A dictionary that has the shape, the names, the kinds and the attributes of a tree; leaves have no `children`. -/
def Mirrors (ops : ActOps A) : Htm A → DNode → Prop
  | .leaf a _ _ h, .mk n _ _ comb attrs ch =>
      n = ops.name a ∧ comb = none ∧ attrs = (if h then ["highlighted"] else []) ∧ ch = none
  | .comb k cs _ _ n' h _, .mk n _ _ comb attrs ch =>
      n = n' ∧ comb = some k.str ∧ attrs = (if h then ["highlighted"] else []) ∧
        ∃ ds, ch = some ds ∧ MirrorsL ops cs ds
/-- See `Mirrors`; the children correspond one to one, in order. -/
def MirrorsL (ops : ActOps A) : List (Htm A) → List DNode → Prop
  | [], [] => True
  | c :: cs, d :: ds => Mirrors ops c d ∧ MirrorsL ops cs ds
  | _, _ => False
end

/-- A probability vector up to the tolerance of `np.isclose`. -/
def IsDistrib (ps : List ℚ) : Prop :=
  ps ≠ [] ∧ (∀ p ∈ ps, 0 ≤ p ∧ p ≤ 1) ∧ |ps.sum - 1| ≤ 1 / 100000000 + 1 / 100000

mutual
/-- What can be built with the constructors and assignments to `proba`: an alternative has children and a distribution. -/
def Built : Htm A → Prop
  | .leaf _ _ _ _ => True
  | .comb k cs _ _ _ _ p => (k = .alternative → cs ≠ [] ∧ ∃ ps, p = some ps ∧ IsDistrib ps) ∧ BuiltL cs
/-- See `Built`. -/
def BuiltL : List (Htm A) → Prop
  | [] => True
  | c :: cs => Built c ∧ BuiltL cs
end

mutual
/-- A description that `build_htm` is meant for: a node with attributes is a leaf and has an agent among them; the others
have children and the name of a combination class (alternatives have at least one child). -/
def Described : DNode → Prop
  | .mk _ _ _ _ attrs none => ∃ a ∈ attrs, a ≠ "highlighted"
  | .mk _ _ _ comb attrs (some cs) =>
      (∃ a ∈ attrs, a ≠ "highlighted") ∨
      (attrs = [] ∧ DescribedL cs ∧
        (comb = some "Sequential" ∨ comb = some "Parallel" ∨ (comb = some "Alternative" ∧ cs ≠ [])))
/-- See `Described`. -/
def DescribedL : List DNode → Prop
  | [] => True
  | c :: cs => Described c ∧ DescribedL cs
end

mutual
/-- The tree that a description describes: the same names, ids, parents, kinds and order of children, and the first
attribute other than `highlighted` as the agent. -/
def Describes : DNode → Htm BaseAction → Prop
  | .mk n i p _ attrs _, .leaf a i' p' _ =>
      a.name = n ∧ i' = some i ∧ p' = p ∧ attrs.find? (fun x => x ≠ "highlighted") = some a.agent
  | .mk _ _ _ _ _ none, .comb _ _ _ _ _ _ _ => False
  | .mk n i p comb attrs (some ds), .comb k cs i' p' n' _ _ =>
      attrs = [] ∧ n' = n ∧ i' = some i ∧ p' = p ∧ comb = some k.str ∧ DescribesL ds cs
/-- See `Describes`. -/
def DescribesL : List DNode → List (Htm BaseAction) → Prop
  | [], [] => True
  | d :: ds, c :: cs => Describes d c ∧ DescribesL ds cs
  | _, _ => False
end

mutual
/-- `t'` has the shape, kinds, highlighted flags and order of children of `t`, every name is replaced by `fmt` of it.
Alternatives have the uniform distribution and the other nodes the value of `t`. -/
def CopyOf (ops : ActOps A) (fmt : String → String) : Htm A → Htm A → Prop
  | .leaf a _ _ h, .leaf a' _ _ h' => ops.copy fmt a = .ok a' ∧ ops.name a' = fmt (ops.name a) ∧ h' = h
  | .comb k cs _ _ n h p, .comb k' cs' _ _ n' h' p' =>
      k' = k ∧ n' = fmt n ∧ h' = h ∧ CopyOfL ops fmt cs cs' ∧
      (if k = .alternative then p' = some (List.replicate cs.length (1 / (cs.length : ℚ))) else p' = p)
  | _, _ => False
/-- See `CopyOf`. -/
def CopyOfL (ops : ActOps A) (fmt : String → String) : List (Htm A) → List (Htm A) → Prop
  | [], [] => True
  | c :: cs, d :: ds => CopyOf ops fmt c d ∧ CopyOfL ops fmt cs ds
  | _, _ => False
end

/-- A leaf for the human whose index is larger than `cur`. -/
def humanAfter (ops : ActOps A) (cur : Int) : Htm A → Bool
  | .leaf a (some i) _ _ => decide (ops.agent a = "human") && decide (cur < i)
  | _ => false

end Verif.Spec
