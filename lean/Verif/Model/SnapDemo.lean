import Verif.Model.Snap
import Verif.Model.TaskGraph

/-!
# Model of `samples/snap_circuit_scenarii.py` and of `__str__` (`snap_circuit.py:31-32, 57-63`)

* States and actions are compared by the structural equality of the model, where the code compares sets of parts and conditions:
  C102_equal shows that this is the same for the states and actions of the sample.
* `check` is only used where it does not raise (`demoCheck`).
* The random positions are arguments.  Writing the text of the dictionary with `json` is not modelled.
-/

namespace Verif

deriving instance DecidableEq for SnapState
deriving instance DecidableEq for PlaceAct

/-- `BOARD`, `samples/snap_circuit_scenarii.py:10`. -/
def demoBoard : Nat × Nat := (7, 10)

/-- `a.check(s, s')`, `action.py:93-94`, without exceptions. -/
def demoCheck (a : PlaceAct) (s s' : SnapState) : Bool :=
  match a.check s s' with
  | .ok b => b
  | .error _ => false

/-- `path_make_L` after the assertions, `samples/snap_circuit_scenarii.py:16-26`. -/
def makeL (row col : Int) : Py (List (Elem SnapState PlaceAct)) := do
  let part0 : SnapPart := ⟨0, "2"⟩
  let part1 : SnapPart := ⟨1, "2"⟩
  let location0 : SnapLoc := (row, col, 0)
  let location1 : SnapLoc := (row + 2, col, 1)
  let a0 ← mkPlace demoBoard part0 location0
  let a1 ← mkPlace demoBoard part1 location1
  .ok [.state (mkSnapState demoBoard []), .action a0, .state (mkSnapState demoBoard [(location0, part0)]), .action a1,
    .state (mkSnapState demoBoard [(location0, part0), (location1, part1)])]

/-- `path_make_L`, `samples/snap_circuit_scenarii.py:13-26`. -/
def pathMakeL (position : Int × Int) : Py (List (Elem SnapState PlaceAct)) :=
  if position.1 < demoBoard.1 - 2 then
    if position.2 < demoBoard.2 - 1 then makeL position.1 position.2 else .error .assertionError
  else .error .assertionError

/-- `np.random.randint(n)`, from an arbitrary number. -/
def randInt (n : Nat) (u : Nat) : Nat := u % n

/-- `random_paths_make_L`, `samples/snap_circuit_scenarii.py:29-31`; `u` are the two random numbers. -/
def randomPathMakeL (u : Nat × Nat) : Py (List (Elem SnapState PlaceAct)) :=
  pathMakeL (randInt (demoBoard.1 - 2) u.1, randInt (demoBoard.2 - 1) u.2)

/-- `tg.add_path(...)` for several positions, `samples/snap_circuit_scenarii.py:34-36`. -/
def graphOfLs : List (Int × Int) → TaskGraph SnapState PlaceAct → Py (TaskGraph SnapState PlaceAct)
  | [], g => .ok g
  | p :: ps, g => do
      let path ← pathMakeL p
      let g ← g.addPath demoCheck path
      graphOfLs ps g

/-- The text of a part and its location, `snap_circuit.py:31-32, 59-60`. -/
def placedText (e : SnapLoc × SnapPart) : Py String := do
  let o ← orientationName e.1.2.2
  .ok (e.2.label ++ "<" ++ toString e.2.id ++ "> at (" ++ toString e.1.1 ++ ", " ++ toString e.1.2.1 ++ ") oriented " ++ o)

/-- The parts in the order of iteration of `self._parts`, for a state constructed from a list of parts. -/
def setOrder (parts : List (SnapLoc × SnapPart)) : Py (List (SnapLoc × SnapPart)) := do
  let t ← hsetOf hashPlaced (List.replicate 8 none) parts
  .ok t.elems

/-- `str(SnapCircuitState(board, parts))`, `snap_circuit.py:57-63`. -/
def stateText (parts : List (SnapLoc × SnapPart)) : Py String := do
  let order ← setOrder parts
  let texts ← order.mapM placedText
  .ok ("{" ++ ", ".intercalate texts ++ "}")

end Verif
