import Verif.Model.BringNext
import Verif.Model.Text

/-!
# Model of `tower_problem.py`

`str(i)` is `showNat`.  The name `None` of a sequence built without a name is the text `None`.
-/

namespace Verif

/-- `str(i)` of a natural number. -/
def pyStr (i : Nat) : String := String.ofList (showNat i)

/-- `_name_radix`, `task_to_pomdp.py:50-51`: lower case and `-` for blanks.  Letters outside ASCII are left as they are. -/
def nameRadix (name : String) : String :=
  String.ofList (name.toList.map fun c => if c.toLower = ' ' then '-' else c.toLower)

/-- `TowerProblem`, `tower_problem.py:6-10`. -/
structure Tower where
  h : Nat
  n : Nat
  deriving DecidableEq, Repr

namespace Tower

/-- `n_parts`, `tower_problem.py:12-14`. -/
def nParts (t : Tower) : Nat := t.h * t.n

/-- `parts`, `tower_problem.py:16-18`. -/
def parts (t : Tower) : List String := (List.range t.nParts).map pyStr

/-- `v_first`, `tower_problem.py:20-21`. -/
def vFirst (t : Tower) : List Nat := List.range t.nParts

/-- `h_first`, `tower_problem.py:23-24`. -/
def hFirst (t : Tower) : List Nat := (List.range t.h).flatMap fun k => (List.range t.n).map fun i => i * t.h + k

end Tower

/-- One leaf of `sequential_combination_from_order`, `tower_problem.py:27-29`. -/
def towerLeaf (name : Option String) (i : Nat) : Htm BAction :=
  .leaf ⟨pyStr i ++ (match name with | some n => "-" ++ n | none => ""), some (pyStr i)⟩ none none false

/-- `sequential_combination_from_order`, `tower_problem.py:26-30`. -/
def towerSequence (order : List Nat) (name : Option String) : Py (Htm BAction) :=
  mkComb .sequential (order.map (towerLeaf name)) none none (name.getD "None")

/-- `names`, `tower_problem.py:33-34`. -/
def towerNames (orders : List (List Nat)) (names : Option (List String)) : List String :=
  names.getD ((List.range orders.length).map pyStr)

/-- `alternative_combination_from_orders` and `task_from_orders`, `tower_problem.py:32-42`: the root of the task. -/
def towerTask (orders : List (List Nat)) (names : Option (List String)) : Py (Htm BAction) := do
  let cs ← (orders.zip (towerNames orders names)).mapM fun on => towerSequence on.1 (some on.2)
  mkComb .alternative cs none none "Alt"

/-- `vertical_horizontal_task`, `tower_problem.py:44-46`. -/
def Tower.verticalHorizontal (t : Tower) : Py (Htm BAction) := towerTask [t.vFirst, t.hFirst] (some ["vertical", "horizontal"])

end Verif
