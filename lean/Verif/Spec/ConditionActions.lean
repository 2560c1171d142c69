import Verif.Model.Actions

/-! Specification of the actions with a pre- and a postcondition (C64). -/

namespace Verif.Spec

/-- The features satisfy a condition: they agree with the value wherever the mask is 1; any features satisfy
`MatchAllCondition`. -/
def Satisfies (features : List ℚ) : Cond → Prop
  | .matchAll => True
  | .cond m v => ∀ i : Nat, m.data[i]? = some 1 → features[i]? = v.data[i]?

/-- The condition can be tested on vectors of `n` features. -/
def HasDim (n : Nat) : Cond → Prop
  | .matchAll => True
  | .cond m _ => m.data.length = n

/-- A condition that the constructors give, with a mask of zeros and ones. -/
def PlainCond : Cond → Prop
  | .matchAll => True
  | .cond m v => (∀ x ∈ m.data, x = 0 ∨ x = 1) ∧ mkCond m v = .ok (.cond m v)

end Verif.Spec
