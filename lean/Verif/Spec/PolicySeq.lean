import Verif.Model.PolicySeq

/-!
# The plan of the scripted policy

Stated with the names of the actions only.
-/

namespace Verif

/-- The actions of a complete execution with `n` subtasks, in order. -/
def seqPlan (n : Nat) : List String :=
  ["bring screws", "bring screwdriver", "bring joints"] ++ (List.replicate n ["bring leg", "hold H"]).flatten ++
    ["clear screws", "clear screwdriver", "clear joints"]

/-- The action after `k` completed actions: waiting when the plan is finished. -/
def seqPlanAt (n k : Nat) : String := (seqPlan n)[k]?.getD "wait"

/-- The exception that `step` must raise on an observation made after an action, if any. -/
def seqFault (m : SeqModel) (action observation : String) : Option PyErr :=
  if observation ∉ m.observations then some .valueError
  else if observation = "fail" then none
  else if observation = "none" then none
  else if observation = "not-found" ∧ action ≠ "hold H" then none
  else some .unexpectedObservation

/-- The number of completed actions after one use, from the number before. -/
def seqProgress (m : SeqModel) (n k : Nat) : SeqUse → Nat
  | .ask _ => k
  | .turn _ o => if seqFault m (seqPlanAt n k) o = none ∧ o ≠ "fail" then k + 1 else k
  | .reset => 0

/-- The number of completed actions since the last reset. -/
def seqCompleted (m : SeqModel) (n : Nat) (us : List SeqUse) : Nat := us.foldl (seqProgress m n) 0

/-- The actions done and observations made since the last reset. -/
def seqHistory (m : SeqModel) (n : Nat) : List SeqUse → Nat → List (String × String) → List (String × String)
  | [], _, h => h
  | .ask _ :: us, k, h => seqHistory m n us k h
  | .turn c o :: us, k, h =>
      seqHistory m n us (seqProgress m n k (.turn c o)) (if o ∈ m.observations then h ++ [(seqPlanAt n k, o)] else h)
  | .reset :: us, _, _ => seqHistory m n us 0 []

/-- The names that the policy looks up. -/
def seqNames : List String :=
  ["wait", "hold H", "bring leg", "bring screws", "bring screwdriver", "bring joints", "clear screws", "clear screwdriver",
    "clear joints"]

end Verif
