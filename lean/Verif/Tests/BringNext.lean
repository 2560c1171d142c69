import Verif.Tests.HtmPomdp

/-!
# The tests of `tests/test_bring_next_to_pomdp.py` on the model

These are tests of the model, not proofs of properties of the code.
-/

namespace Verif.Tests.BringNext
open Verif

/-- `LeafCombination(CollaborativeAction(name, object))`. -/
def leaf (name obj : String) : Htm BAction := .leaf ⟨name, some obj⟩ none none false

/-- `HTMToPOMDP(2., 8., 5., objects, end_reward=50.)`. -/
def h2p (objects : List String) : BnParams := ⟨2, 8, 5, objects, 50, none, true, false⟩

/-- The conversion of `Bottom left` and `Top left`. -/
def two (k : Kind) (objects : List String) : Py Pomdp := do
  let root ← mkComb k [leaf "Bottom left" "A1", leaf "Top left" "A2"] none none "Do all"
  bnToPomdp (some "") nameRadix (h2p objects) 10 root

/-- The array `R` of the tests, broadcast to the last dimension. -/
def spread (R : List (List (List ℚ))) : List (List (List (List ℚ))) := R.map fun x => x.map fun y => y.map fun v => List.replicate 4 v

/-- `T` of `test_leaf_to_pomdp`. -/
def leafExpT : List (List (List ℚ)) :=
  [[[0, 1],
    [1, 0]],
   [[1, 0],
    [1, 0]]]

/-- `O` of `test_leaf_to_pomdp`. -/
def leafExpO : List (List (List ℚ)) :=
  [[[0, 0, 0, 1],
    [9 / 10, 0, 0, 1 / 10]],
   [[0, 1, 0, 0],
    [0, 0, 1, 0]]]

/-- `R` of `test_leaf_to_pomdp`. -/
def leafExpR : List (List (List ℚ)) :=
  [[[(-5), (-8)],
    [50, 50]],
   [[(-2), (-2)],
    [50, 50]]]

/-- `test_leaf_to_pomdp`, lines 12-46. -/
example : HtmPomdp.gives (bnToPomdp (some "") nameRadix (h2p ["A1"]) 10 (leaf "bottom left" "A1"))
    ["before-bottom-left", "end"]
    ["get-A1", "ask-A1"]
    ["none", "yes", "no", "error"]
    [1, 0] leafExpT leafExpO (spread leafExpR) = true := by
  decide +kernel

/-- `T` of `test_seq_to_pomdp`. -/
def seqExpT : List (List (List ℚ)) :=
  [[[1, 0, 0],
    [0, 0, 1],
    [1, 0, 0]],
   [[0, 1, 0],
    [0, 1, 0],
    [1, 0, 0]],
   [[1, 0, 0],
    [0, 1, 0],
    [1, 0, 0]],
   [[1, 0, 0],
    [0, 1, 0],
    [1, 0, 0]]]

/-- `O` of `test_seq_to_pomdp`. -/
def seqExpO : List (List (List ℚ)) :=
  [[[0, 0, 0, 1],
    [0, 0, 0, 1],
    [9 / 10, 0, 0, 1 / 10]],
   [[0, 0, 0, 1],
    [9 / 10, 0, 0, 1 / 10],
    [0, 0, 0, 1]],
   [[0, 0, 1, 0],
    [0, 1, 0, 0],
    [0, 0, 1, 0]],
   [[0, 1, 0, 0],
    [0, 0, 1, 0],
    [0, 0, 1, 0]]]

/-- `R` of `test_seq_to_pomdp`. -/
def seqExpR : List (List (List ℚ)) :=
  [[[(-5), (-5), (-5)],
    [(-5), (-5), (-8)],
    [50, 50, 50]],
   [[(-5), (-8), (-5)],
    [(-5), (-5), (-5)],
    [50, 50, 50]],
   [[(-2), (-2), (-2)],
    [(-2), (-2), (-2)],
    [50, 50, 50]],
   [[(-2), (-2), (-2)],
    [(-2), (-2), (-2)],
    [50, 50, 50]]]

/-- `test_seq_to_pomdp`, lines 48-119. -/
example : HtmPomdp.gives (two .sequential ["A2", "A1"])
    ["before-bottom-left", "before-top-left", "end"]
    ["get-A2", "get-A1", "ask-A2", "ask-A1"]
    ["none", "yes", "no", "error"]
    [1, 0, 0] seqExpT seqExpO (spread seqExpR) = true := by
  decide +kernel

/-- `T` of `test_alt_to_pomdp`. -/
def altExpT : List (List (List ℚ)) :=
  [[[0, 0, 1],
    [0, 1, 0],
    [1 / 2, 1 / 2, 0]],
   [[1, 0, 0],
    [0, 0, 1],
    [1 / 2, 1 / 2, 0]],
   [[1, 0, 0],
    [0, 1, 0],
    [1 / 2, 1 / 2, 0]],
   [[1, 0, 0],
    [0, 1, 0],
    [1 / 2, 1 / 2, 0]]]

/-- `O` of `test_alt_to_pomdp`. -/
def altExpO : List (List (List ℚ)) :=
  [[[0, 0, 0, 1],
    [0, 0, 0, 1],
    [9 / 10, 0, 0, 1 / 10]],
   [[0, 0, 0, 1],
    [0, 0, 0, 1],
    [9 / 10, 0, 0, 1 / 10]],
   [[0, 1, 0, 0],
    [0, 0, 1, 0],
    [0, 0, 1, 0]],
   [[0, 0, 1, 0],
    [0, 1, 0, 0],
    [0, 0, 1, 0]]]

/-- `R` of `test_alt_to_pomdp`. -/
def altExpR : List (List (List ℚ)) :=
  [[[(-5), (-5), (-8)],
    [(-5), (-5), (-5)],
    [50, 50, 50]],
   [[(-5), (-5), (-5)],
    [(-5), (-5), (-8)],
    [50, 50, 50]],
   [[(-2), (-2), (-2)],
    [(-2), (-2), (-2)],
    [50, 50, 50]],
   [[(-2), (-2), (-2)],
    [(-2), (-2), (-2)],
    [50, 50, 50]]]

/-- `test_alt_to_pomdp`, lines 121-192. -/
example : HtmPomdp.gives (two .alternative ["A1", "A2"])
    ["before-bottom-left", "before-top-left", "end"]
    ["get-A1", "get-A2", "ask-A1", "ask-A2"]
    ["none", "yes", "no", "error"]
    [1 / 2, 1 / 2, 0] altExpT altExpO (spread altExpR) = true := by
  decide +kernel

end Verif.Tests.BringNext
