import Verif.Model.Snap
import Mathlib.Data.Nat.Log

/-! Definitions used to state C63 and C65. -/

namespace Verif

/-- An index that numpy accepts on an axis of length `n`. -/
def AxisOk (n : Nat) (i : Int) : Prop := -(n : Int) ≤ i ∧ i < n

/-- A part number and a location that index the features of a board. -/
def PlacedOk (board : Nat × Nat) (e : SnapLoc × SnapPart) : Prop :=
  AxisOk 20 e.2.id ∧ AxisOk board.1 e.1.1 ∧ AxisOk board.2 e.1.2.1 ∧ AxisOk 4 e.1.2.2

/-- A part number and a location of a board in the usual sense: counted from zero, at most 20 parts. -/
def PlacedIn (board : Nat × Nat) (e : SnapLoc × SnapPart) : Prop :=
  (0 ≤ e.2.id ∧ e.2.id < 20) ∧ (0 ≤ e.1.1 ∧ e.1.1 < board.1) ∧ (0 ≤ e.1.2.1 ∧ e.1.2.1 < board.2) ∧
    (0 ≤ e.1.2.2 ∧ e.1.2.2 < 4)

/-- Two placed parts that use the same feature (numpy counts negative indices from the end). -/
def SameCell (board : Nat × Nat) (e f : SnapLoc × SnapPart) : Prop :=
  e.2.id % 20 = f.2.id % 20 ∧ e.1.1 % board.1 = f.1.1 % board.1 ∧ e.1.2.1 % board.2 = f.1.2.1 % board.2 ∧
    e.1.2.2 % 4 = f.1.2.2 % 4

/-- The parts of a state on its board. -/
def SnapState.board (s : SnapState) : Nat × Nat := (s.rows, s.cols)

/-- The number of slots of a copy of a set of `n` elements: 8 up to four elements, else the first power of two above `2 n`. -/
def copySlots (n : Nat) : Nat := if n ≤ 4 then 8 else 2 ^ (Nat.log 2 n + 2)

end Verif
