import Verif.Model.LostRunner
import Verif.Spec.GraphPolicy

/-! Notions used in the property of runners after an unexpected observation (C122). -/

namespace Verif.Spec
open Verif

/-- The first position of the observation is the number of a node. -/
def Silent (g : GraphPolicy) (o : Name) : Prop := ∃ j, FirstAt g.observations o j ∧ j < g.actions.length

/-- The outcome of a step with the observation number `i` of a list, after an unexpected observation: no exception if it is the first of the list that is
`Silent`, `ValueError` if it is not known, and else `IndexError`. -/
def AfterLost (g : GraphPolicy) (os : List Name) (i : Nat) (o : Name) (x : Py Unit) : Prop :=
  if o ∉ g.observations then x = .error .valueError
  else (x = .ok () ∧ Silent g o ∧ ∀ i' < i, ∀ o', os[i']? = some o' → ¬ Silent g o') ∨
    (x = .error .indexError ∧ ¬ (Silent g o ∧ ∀ i' < i, ∀ o', os[i']? = some o' → ¬ Silent g o'))

end Verif.Spec
