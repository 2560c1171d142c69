import Verif.Spec.HtmPomdp
import Verif.Spec.Htm
import Verif.Model.BringNext

/-! Specification vocabulary for the bring-next conversion (C35, C36, C72). -/

namespace Verif.Spec
open Verif

mutual
/-- No parallel combination in the tree. -/
def ParFree {A : Type} : Htm A → Prop
  | .leaf _ _ _ _ => True
  | .comb k cs _ _ _ _ _ => k ≠ .parallel ∧ ParFreeL cs
@[inherit_doc ParFree]
def ParFreeL {A : Type} : List (Htm A) → Prop
  | [] => True
  | c :: cs => ParFree c ∧ ParFreeL cs
end

/-- Every action of the tree names an object. -/
def HasObjects (t : Htm BAction) : Prop := ∀ a ∈ leaves t, ∃ o, a.obj = some o

/-- Every object of the tree is one of `objects`. -/
def Declared (objects : List String) (t : Htm BAction) : Prop := ∀ a ∈ leaves t, ∀ o, a.obj = some o → o ∈ objects

end Verif.Spec
