import Verif.Model.NodeTree
import Mathlib.Data.List.Destutter

/-! Specification vocabulary for the conversions of tasks to POMDPs: linearisations (C31-C36). -/

namespace Verif.Spec
open Verif
variable {A : Type}

mutual
/-- The linearisations of a task tree, as sequences of actions: one after the other for a sequence, any one for an
alternative, one after the other in any order for a parallel combination. -/
def HLin : Htm A → List A → Prop
  | .leaf a _ _ _, u => u = [a]
  | .comb .sequential cs _ _ _ _ _, u => ∃ us, HLinL cs us ∧ u = us.flatten
  | .comb .alternative cs _ _ _ _ _, u => HLinAny cs u
  | .comb .parallel cs _ _ _ _ _, u => ∃ us vs, HLinL cs us ∧ us.Perm vs ∧ u = vs.flatten
/-- A linearisation of each tree. -/
def HLinL : List (Htm A) → List (List A) → Prop
  | [], us => us = []
  | c :: cs, us => ∃ u vs, us = u :: vs ∧ HLin c u ∧ HLinL cs vs
/-- A linearisation of one of the trees. -/
def HLinAny : List (Htm A) → List A → Prop
  | [], _ => False
  | c :: cs, u => HLin c u ∨ HLinAny cs u
end

mutual
/-- The linearisations of the tree of a conversion, as sequences of positions of leaves; `k` is the position of the first
leaf. -/
def Lin : N2P A → Nat → List Nat → Prop
  | .leaf _, k, u => u = [k]
  | .seq cs, k, u => LinSeq cs k u
  | .alt cs, k, u => LinAlt cs k u
@[inherit_doc Lin]
def LinSeq : List (N2P A) → Nat → List Nat → Prop
  | [], _, u => u = []
  | c :: cs, k, u => ∃ v w, u = v ++ w ∧ Lin c k v ∧ LinSeq cs (k + c.leaves.length) w
@[inherit_doc Lin]
def LinAlt : List (N2P A) → Nat → List Nat → Prop
  | [], _, _ => False
  | c :: cs, k, u => Lin c k u ∨ LinAlt cs (k + c.leaves.length) u
end

mutual
/-- No sequence or alternative without children. -/
def Full : N2P A → Prop
  | .leaf _ => True
  | .seq cs => cs ≠ [] ∧ FullL cs
  | .alt cs => cs ≠ [] ∧ FullL cs
@[inherit_doc Full]
def FullL : List (N2P A) → Prop
  | [] => True
  | c :: cs => Full c ∧ FullL cs
end

mutual
/-- A task tree without empty combinations. -/
def HFull : Htm A → Prop
  | .leaf _ _ _ _ => True
  | .comb _ cs _ _ _ _ _ => cs ≠ [] ∧ HFullL cs
@[inherit_doc HFull]
def HFullL : List (Htm A) → Prop
  | [] => True
  | c :: cs => HFull c ∧ HFullL cs
end

mutual
/-- The depth of the calls of `from_node` on a tree: a parallel combination is replaced by alternatives of sequences. -/
def callDepth : Htm A → Nat
  | .leaf _ _ _ _ => 1
  | .comb .parallel cs _ _ _ _ _ => callDepthL cs + 2
  | .comb _ cs _ _ _ _ _ => callDepthL cs + 1
@[inherit_doc callDepth]
def callDepthL : List (Htm A) → Nat
  | [] => 0
  | c :: cs => max (callDepth c) (callDepthL cs)
end

/-- `a'` is a copy of a copy ... of `a`, as made when parallel combinations are replaced. -/
inductive CopyChain (ops : ActOps A) : A → A → Prop
  | refl (a : A) : CopyChain ops a a
  | step {a b c : A} (i : Nat) : CopyChain ops a b → ops.copy (orderFmt i) b = .ok c → CopyChain ops a c

/-- The sequence of actions `u` labels the sequence of leaves `ks`. -/
def Labels (n : N2P A) (ks : List Nat) (u : List A) : Prop := List.Forall₂ (fun k a => n.leaves[k]? = some a) ks u

/-- `k` is immediately followed by `j` in a linearisation. -/
def FollowedBy (n : N2P A) (k j : Nat) : Prop := ∃ u v, Lin n 0 (u ++ k :: j :: v)

/-- `k` is the last leaf of a linearisation. -/
def IsLast (n : N2P A) (k : Nat) : Prop := ∃ u, Lin n 0 (u ++ [k])

/-- `k` is the first leaf of a linearisation. -/
def IsFirst (n : N2P A) (k : Nat) : Prop := ∃ u, Lin n 0 (k :: u)

/-- `k` comes before `j` in a linearisation. -/
def Before (n : N2P A) (k j : Nat) : Prop := ∃ u v w, Lin n 0 (u ++ k :: (v ++ j :: w))

/-- The leaves visited by a sequence of states, when each of the `m` leaves has `w` states: consecutive states of the same
leaf count once, and other states do not count. -/
def visitedLeaves (w m : Nat) (states : List Nat) : List Nat :=
  ((states.filter fun s => decide (s < w * m)).map fun s => s / w).destutter (· ≠ ·)

/-- A sequence of states of positive probability, for some actions, with `T` and `nA` actions. -/
def Possible (nA : Nat) (T : Nat → Nat → Nat → ℚ) (states : List Nat) : Prop :=
  states.IsChain fun s s' => ∃ a < nA, 0 < T a s s'

end Verif.Spec
