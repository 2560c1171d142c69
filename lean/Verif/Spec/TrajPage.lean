import Verif.Model.TrajPage
import Verif.Spec.PolicyPage

/-! Specification vocabulary for the page of trajectories (C109). -/

namespace Verif.Spec
open Verif

/-- The subtree at a path, given by the numbers of the children. -/
inductive SubAt : TTree → List Nat → TTree → Prop
  | nil (t : TTree) : SubAt t [] t
  | cons {b : List ℚ} {a : Name} {c : Int} {os : List Name} {ks : List TTree} {k : Nat} {t s : TTree} {p : List Nat} : ks[k]? = some t → SubAt t p s →
      SubAt (.node b a c os ks) (k :: p) s

/-- The observations of a node of a tree. -/
def obsListOf : TTree → List Name
  | .node _ _ _ os _ => os

/-- The children of a node of a tree. -/
def kidsOf : TTree → List TTree
  | .node _ _ _ _ ks => ks

/-- All the nodes have one observation for each child, the observations have different texts, and the actions are strings. -/
def WellLabelled (t : TTree) : Prop :=
  ∀ p s, SubAt t p s → (obsListOf s).length = (kidsOf s).length ∧ ((obsListOf s).map nameText).Nodup ∧ "undefined".toList ∉ (obsListOf s).map nameText ∧
    ∃ a, TTree.actionOf s = .str a

/-- A node is open if it was clicked an odd number of times; for the root, which is open at first, an even number of times. -/
def IsOpen (clicks : List (List Nat)) (p : List Nat) : Prop :=
  if p = [] then clicks.count p % 2 = 0 else clicks.count p % 2 = 1

/-- A node must be displayed: all the nodes above it are open. -/
def Displayed (t : TTree) (clicks : List (List Nat)) (p : List Nat) (s : TTree) : Prop :=
  SubAt t p s ∧ ∀ q r, p = q ++ r → r ≠ [] → IsOpen clicks q

/-- The text of a node: the number of the node of the policy, and the action. -/
def NodeText (s : TTree) (text : List Char) : Prop :=
  ∃ a label, TTree.actionOf s = .str a ∧ Abbreviated abbreviations a.toList label ∧ text = "[".toList ++ showInt (TTree.nodeOf s) ++ "] ".toList ++ label

end Verif.Spec
