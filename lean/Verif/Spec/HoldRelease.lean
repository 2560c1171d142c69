import Verif.Spec.Pomdp
import Verif.Model.HoldRelease

/-! Specification of the hold-and-release task (C66), in terms of the human and the robot. -/

namespace Verif.Spec
open Verif

/-- The task: the human works, the human has finished, the robot has acted after that. -/
inductive HrState where
  | working
  | finished
  | released
  deriving DecidableEq, Repr

/-- What the robot can do. -/
inductive HrAct where
  | wait
  | act
  | ask
  deriving DecidableEq, Repr

/-- What the robot can see. -/
inductive HrObs where
  | nothing
  | doing
  | done
  deriving DecidableEq, Repr

/-- The index of a state in the model: its position in the list `zero`, `one`, `final`. -/
def HrState.ix : HrState → Nat
  | .working => 0
  | .finished => 1
  | .released => 2

/-- The index of an action in the model: its position in the list `wait`, `physical`, `communicate`. -/
def HrAct.ix : HrAct → Nat
  | .wait => 0
  | .act => 1
  | .ask => 2

/-- The index of an observation in the model: its position in the list `nothing`, `doing`, `done`. -/
def HrObs.ix : HrObs → Nat
  | .nothing => 0
  | .doing => 1
  | .done => 2

/-- The change of the task, where `f` tells whether the human finishes now. -/
def hrNext (f : Prop) [Decidable f] : HrState → HrAct → HrState
  | .working, _ => if f then .finished else .working
  | .finished, .act => .released
  | .finished, _ => .finished
  | .released, _ => .released

/-- What is seen when the new state is `s'`: nothing on a wait. -/
def hrSees : HrAct → HrState → HrObs
  | .wait, _ => .nothing
  | _, .working => .doing
  | _, .finished => .done
  | _, .released => .nothing

/-- The cost of an action. -/
def hrCost (wait failure communication : ℚ) : HrState → HrAct → ℚ
  | _, .wait => wait
  | .working, .act => failure
  | _, .act => 0
  | _, .ask => communication

/-- A trajectory of the model: actions with the random numbers used, the states reached, the observations and rewards. -/
def HrRun (p : Pomdp) : Nat → List (Nat × Nat × Nat × ℚ) → Prop
  | _, [] => True
  | s, (a, s', o, r) :: l =>
      (∃ u v, 0 ≤ u ∧ u < 1 ∧ 0 ≤ v ∧ v < 1 ∧ p.sampleTransition u v a s = .ok (s', o, r)) ∧ HrRun p s' l

/-- The state before each step of a trajectory. -/
def hrBefore : Nat → List (Nat × Nat × Nat × ℚ) → List Nat
  | _, [] => []
  | s, (_, s', _, _) :: l => s :: hrBefore s' l

end Verif.Spec
