import Verif.Model.Htm

/-! Specification of what copies keep of the probabilities (C18). -/

namespace Verif.Spec

variable {A : Type}

mutual
/-- The two trees have the same probabilities at every node. -/
def SameProba : Htm A → Htm A → Prop
  | .leaf _ _ _ _, .leaf _ _ _ _ => True
  | .comb _ cs _ _ _ _ p, .comb _ cs' _ _ _ _ p' => p' = p ∧ SameProbas cs cs'
  | _, _ => False
/-- See `SameProba`. -/
def SameProbas : List (Htm A) → List (Htm A) → Prop
  | [], [] => True
  | c :: cs, d :: ds => SameProba c d ∧ SameProbas cs ds
  | _, _ => False
end

mutual
/-- In every alternative of the tree, all the children have the same probability. -/
def Unbiased : Htm A → Prop
  | .leaf _ _ _ _ => True
  | .comb k cs _ _ _ _ p =>
      (k = .alternative → p = some (List.replicate cs.length (1 / (cs.length : ℚ)))) ∧ Unbiaseds cs
/-- See `Unbiased`. -/
def Unbiaseds : List (Htm A) → Prop
  | [] => True
  | c :: cs => Unbiased c ∧ Unbiaseds cs
end

end Verif.Spec
