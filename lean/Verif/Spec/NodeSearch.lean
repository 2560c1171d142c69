import Verif.Model.Pomcp
import Verif.Spec.Pomcp
import Verif.Spec.Export

/-! Notions used in the properties of the enumeration of a search tree. -/

namespace Verif.Spec
variable {σ β : Type}

/-- The history with these actions and observations, by their names. -/
def histNames (sim : Sim σ β) (l : List (Nat × Nat)) : List Name :=
  l.flatMap fun ao => [sim.actions.getD ao.1 (.int ao.1), sim.observations.getD ao.2 (.int ao.2)]

/-- The nodes one turn after a node, in the order of the actions in the model, and for each action in the order in which the
observations have been made, with their histories. -/
def offspring (sim : Sim σ β) (t : Tree β) (x : List Name × Nat) : List (List Name × Nat) :=
  (List.range sim.actions.length).flatMap fun a =>
    (successors t x.2 a).map fun oj => (x.1 ++ histNames sim [(a, oj.1)], oj.2)

/-- What may come after the histories `found`: the root, and the offspring of those found, apart from what has been found. -/
def waiting (sim : Sim σ β) (t : Tree β) (found : List (List Name × Nat)) : List (List Name × Nat) :=
  (([], 0) :: found.flatMap (offspring sim t)).filter fun x => decide (x ∉ found)

/-- The order of Python for names. -/
def NameBefore : Name → Name → Prop
  | .int a, .int b => a < b
  | .str a, .str b => a < b
  | .int _, .str _ => True
  | .str _, .int _ => False

/-- The order of Python for lists: the first difference counts, and a list comes after its beginnings. -/
def ListBefore (h h' : List Name) : Prop :=
  (∃ a l, h' = h ++ a :: l) ∨ ∃ p a b l l', h = p ++ a :: l ∧ h' = p ++ b :: l' ∧ a ≠ b ∧ NameBefore a b

/-- The choice of the next one, by the order: the first that waits, the last one, or the one of the largest value, and among those
with this value the first history. -/
inductive Picks (t : Tree β) (l : List (List Name × Nat)) (x : List Name × Nat) : String → Prop
  | breadth : l.head? = some x → Picks t l x "breadth"
  | depth : l.getLast? = some x → Picks t l x "depth"
  | q : x ∈ l → (∀ y ∈ l, y ≠ x → (t.nodes y.2).avg.value < (t.nodes x.2).avg.value ∨
        ((t.nodes y.2).avg.value = (t.nodes x.2).avg.value ∧ ListBefore x.1 y.1)) → Picks t l x "q"

/-- The orders that exist. -/
def IsOrder (order : String) : Prop := order = "breadth" ∨ order = "depth" ∨ order = "q"

/-- A name made of words, with dashes between them. -/
def dashed (ws : List (List Char)) : List Char := List.intercalate ['-'] ws

/-- Words that are not empty and have no dashes. -/
def AreWords (ws : List (List Char)) : Prop := ws ≠ [] ∧ ∀ w ∈ ws, w ≠ [] ∧ '-' ∉ w

/-- The text of one turn: the initials of the action, and of the observation. -/
def turnText (x : List (List Char) × List Char) : List Char :=
  x.1.filterMap List.head? ++ ':' :: (if x.2 = "none".toList then ['∅'] else x.2.take 1)

end Verif.Spec
