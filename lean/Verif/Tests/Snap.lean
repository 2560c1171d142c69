import Verif.Model.SnapDemo

/-!
# The tests of `tests/test_snap_circuit.py` on the model

These are tests of the model, not proofs of properties of the code.
-/

namespace Verif.Tests.Snap
open Verif

/-- `BOARD`, line 9. -/
def board : Nat × Nat := (7, 10)

/-- The positions of the non-zero entries of `get_features()`, and the other values than 0 and 1. -/
def ones (s : SnapState) : Py (List Nat × Bool) := do
  let f ← s.getFeatures
  return ((List.range f.length).filter fun i => f.getD i 0 == 1, f.all fun x => x == 0 || x == 1)

/-- `test_order_is_row_column` and `test_dimensions`. -/
example : (mkSnapState (5, 6) []).rows = 5 ∧ (mkSnapState (5, 6) []).cols = 6 ∧
    (mkSnapState (5, 6) []).nDim = 5 * 6 * 4 * 20 := by decide +kernel

/-- `test_no_part`. -/
example : (mkSnapState (5, 6) []).getFeatures = .ok (List.replicate (5 * 6 * 4 * 20) 0) := by decide +kernel

/-- `test_features_one_part`. -/
example : ones (mkSnapState (2, 3) [((1, 2, 3), ⟨5, "first part"⟩)]) = .ok ([3 + 4 * (2 + 3 * (1 + 2 * 5))], true) := by
  decide +kernel

/-- `test_parts` (with the default `N_PARTS`). -/
example : ones (mkSnapState (2, 3) [((1, 2, 3), ⟨0, "first part"⟩), ((0, 1, 0), ⟨2, "second part"⟩)]) =
    .ok ([3 + 4 * (2 + 3 * (1 + 2 * 0)), 0 + 4 * (1 + 3 * (0 + 2 * 2))], true) := by decide +kernel

/-- The states of the tests of equality. -/
def two (b : Nat × Nat) (i : Int) : SnapState := mkSnapState b [((1, 2, 3), ⟨0, "first part"⟩), ((0, 1, 0), ⟨i, "second part"⟩)]

/-- `test_equals`, `test_mismatch_part` and `test_mismatch_dimensions`. -/
example : (two (2, 3) 2).eq (two (2, 3) 2) = true ∧ (two (2, 3) 2).eq (two (2, 3) 3) = false ∧
    (two (2, 3) 2).eq (two (2, 4) 2) = false := by decide +kernel

/-- `test_str`. -/
example : stateText [((1, 2, 3), ⟨5, "first-part"⟩)] = .ok "{first-part<5> at (1, 2) oriented west}" := by decide +kernel

/-- `test_str`: the order of the two parts is the one of the set (CPython 3.8 and later). -/
example : stateText [((1, 2, 3), ⟨5, "first-part"⟩), ((0, 1, 0), ⟨2, "second part"⟩)] =
    .ok "{first-part<5> at (1, 2) oriented west, second part<2> at (0, 1) oriented north}" := by decide +kernel

/-- `TestOrientationNames`. -/
example : orientationNames.length = 4 ∧ [0, 1, 2, 3].map orientationName =
    [.ok "north", .ok "east", .ok "south", .ok "west"] := by decide +kernel

/-- The part and the location of the other tests. -/
def part : SnapPart := ⟨1, "2"⟩
@[inherit_doc part] def loc : SnapLoc := (2, 3, 0)

/-- `cond.check(state)`. -/
def check (there : Bool) (parts : List (SnapLoc × SnapPart)) : Py Bool := do
  let c ← mkPresence board part loc there
  c.checkSnap (mkSnapState board parts)

/-- `TestPartPresenceCondition`, `is_there=True`. -/
example : check true [(loc, part)] = .ok true ∧ check true [] = .ok false ∧ check true [((2, 3, 1), part)] = .ok false ∧
    check true [(loc, ⟨0, "2"⟩)] = .ok false := by decide +kernel

/-- `TestPartPresenceCondition`, `is_there=False`. -/
example : check false [] = .ok true ∧ check false [(loc, part)] = .ok false := by decide +kernel

/-- `action.check(before, after)`. -/
def place (before after : List (SnapLoc × SnapPart)) : Py Bool := do
  let a ← mkPlace board part loc
  a.check (mkSnapState board before) (mkSnapState board after)

/-- `TestAction`. -/
example : place [] [(loc, part)] = .ok true ∧ place [] [] = .ok false ∧ place [(loc, part)] [(loc, part)] = .ok false := by
  decide +kernel

end Verif.Tests.Snap
