import Verif.Model.SnapDemo
import Verif.Spec.Snap

/-! Notions used in the properties of the snap circuit sample. -/

namespace Verif.Spec

/-- The name of an orientation; they are counted from the north, clockwise. -/
def compass (o : Int) : String :=
  if o % 4 = 0 then "north" else if o % 4 = 1 then "east" else if o % 4 = 2 then "south" else "west"

/-- A row and a column as a text. -/
def atText (loc : SnapLoc) : String := " at (" ++ toString loc.1 ++ ", " ++ toString loc.2.1 ++ ") oriented " ++ compass loc.2.2

/-- A part with its place as a text. -/
def partText (e : SnapLoc × SnapPart) : String := e.2.label ++ "<" ++ toString e.2.id ++ ">" ++ atText e.1

/-- The first part of the L at a position: two cells to the south. -/
def legOne (p : Int × Int) : SnapLoc × SnapPart := ((p.1, p.2, 0), ⟨0, "2"⟩)

/-- The second part of the L at a position: two rows below, to the east. -/
def legTwo (p : Int × Int) : SnapLoc × SnapPart := ((p.1 + 2, p.2, 1), ⟨1, "2"⟩)

/-- The positions where an L fits on the board of seven rows and ten columns. -/
def FitsL (p : Int × Int) : Prop := 0 ≤ p.1 ∧ p.1 < 5 ∧ 0 ≤ p.2 ∧ p.2 < 9

/-- The path that demonstrates the L at a position: the empty board, the action that adds the first part, the board with it, the
action that adds the second part, the board with both. -/
def Demonstrates (p : Int × Int) (path : List (Elem SnapState PlaceAct)) : Prop :=
  ∃ (s0 s1 s2 : SnapState) (a0 a1 : PlaceAct), path = [.state s0, .action a0, .state s1, .action a1, .state s2] ∧
    (s0.rows = 7 ∧ s1.rows = 7 ∧ s2.rows = 7) ∧ (s0.cols = 10 ∧ s1.cols = 10 ∧ s2.cols = 10) ∧
    s0.parts = [] ∧ s1.parts = [legOne p] ∧ s2.parts = [legOne p, legTwo p] ∧
    (a0.part = (legOne p).2 ∧ a0.location = (legOne p).1) ∧ (a1.part = (legTwo p).2 ∧ a1.location = (legTwo p).1)

end Verif.Spec
