import Verif.Model.HeatMap

/-! Specification vocabulary for heat maps (C112). -/

namespace Verif.Spec
open Verif

/-- `m` is the least of the numbers. -/
def LeastIn (m : ℚ) (l : List ℚ) : Prop := m ∈ l ∧ ∀ x ∈ l, m ≤ x

/-- `m` is the greatest of the numbers. -/
def GreatestIn (m : ℚ) (l : List ℚ) : Prop := m ∈ l ∧ ∀ x ∈ l, x ≤ m

/-- The ticks of the columns or rows: the label number `k` is in the middle of the squares of the column or row number `k`, and there is no other. -/
def LabelledBy (ticks : List (ℚ × List Char)) (labels : List (List Char)) : Prop :=
  ticks.length = labels.length ∧ ∀ (k : Nat) t, labels[k]? = some t → ticks[k]? = some (((k : ℚ) + ((k : ℚ) + 1)) / 2, t)

/-- All the squares are visible, and nothing around them. -/
def Covers (ax : MeshAxes) (rows cols : Nat) : Prop := ax.xlim = (0, (cols : ℚ)) ∧ ax.ylim = (0, (rows : ℚ))

end Verif.Spec
