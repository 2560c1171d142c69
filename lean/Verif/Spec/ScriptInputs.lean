import Verif.Model.HtmPomdp

/-! Specification of the tasks of the scripts (C116, C117). -/

namespace Verif.Spec

mutual
/-- The nodes of a task made of sequences, from the root, each before the ones below it: the depth and the name, and for the
leaves the durations for the human, the robot and of an error and the probability of a failure. -/
def outline (depth : Nat) : Htm CAction → List (Nat × String × Option (ℚ × ℚ × ℚ × ℚ))
  | .leaf a _ _ _ => [(depth, a.name, some (a.tHum, a.tRob, a.tErr, a.failProba))]
  | .comb _ cs _ _ n _ _ => (depth, n, none) :: outlines (depth + 1) cs
/-- See `outline`. -/
def outlines (depth : Nat) : List (Htm CAction) → List (Nat × String × Option (ℚ × ℚ × ℚ × ℚ))
  | [] => []
  | c :: cs => outline depth c ++ outlines depth cs
end

mutual
/-- All nodes with children are sequences that are not highlighted; all probabilities of a negative answer are 1/10. -/
def OnlySequences : Htm CAction → Prop
  | .leaf a _ _ h => a.noProba = 1 / 10 ∧ h = false
  | .comb k cs _ _ _ h _ => k = .sequential ∧ h = false ∧ AllSequences cs
/-- See `OnlySequences`. -/
def AllSequences : List (Htm CAction) → Prop
  | [] => True
  | c :: cs => OnlySequences c ∧ AllSequences cs
end

end Verif.Spec
