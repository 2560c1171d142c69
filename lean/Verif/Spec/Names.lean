import Verif.Spec.Htm
import Mathlib.Data.Nat.Factorial.Basic

/-! Specification vocabulary for the names of converted tasks (C99). -/

namespace Verif.Spec
open Verif
variable {A : Type}

/-- The end of the name of a leaf, for the orders chosen in the parallel combinations around it. -/
def orderSuffix : List Nat → String
  | [] => ""
  | i :: l => " order-" ++ toString i ++ orderSuffix l

mutual
/-- The names of the leaves of a task in which parallel combinations are replaced by all of their orders: a leaf is copied for each of the orders
of the combinations that contain it. -/
def orderNames (name : A → String) (l : List Nat) : Htm A → List String
  | .leaf a _ _ _ => [name a ++ orderSuffix l]
  | .comb .parallel cs _ _ _ _ _ => (List.range cs.length.factorial).flatMap fun i => orderNamesL name (l ++ [i]) cs
  | .comb .sequential cs _ _ _ _ _ => orderNamesL name l cs
  | .comb .alternative cs _ _ _ _ _ => orderNamesL name l cs
@[inherit_doc orderNames]
def orderNamesL (name : A → String) (l : List Nat) : List (Htm A) → List String
  | [] => []
  | c :: cs => orderNames name l c ++ orderNamesL name l cs
end

/-- A text that ends as the names of copies do. -/
def EndsInOrder (s : String) : Prop := ∃ (x : String) (i : Nat), s = x ++ "-order-" ++ toString i

end Verif.Spec
