import Verif.Spec.Orders

/-! Specification vocabulary for the plays of a model of `HTMToPOMDP` (C105). -/

namespace Verif.Spec
open Verif

/-- What is played between the arrival at a leaf and the next leaf: actions of no effect in the initial state, the action that decides
who does the leaf, actions in the state of the one who does it, and the action during which the leaf is completed. -/
structure Visit where
  leaf : Nat
  before : List Nat
  enter : Nat
  /-- Who does the leaf. -/
  robot : Bool
  during : List Nat
  last : Nat
deriving DecidableEq

/-- The state in which the leaf is being done. -/
def Visit.place (v : Visit) : Nat := if v.robot then 3 * v.leaf + 2 else 3 * v.leaf + 1

/-- The actions of a visit, except the last one, each with the state where it leads. -/
def Visit.inside (v : Visit) : List (Nat × Nat) :=
  v.before.map (fun x => (x, 3 * v.leaf)) ++ (v.enter, v.place) :: v.during.map fun x => (x, v.place)

/-- The state where visits begin; `fin` is the state at the end. -/
def firstState (fin : Nat) : List Visit → Nat
  | [] => fin
  | v :: _ => 3 * v.leaf

/-- The actions of visits, each with the state where it leads. -/
def playOf (fin : Nat) : List Visit → List (Nat × Nat)
  | [] => []
  | v :: vs => v.inside ++ (v.last, firstState fin vs) :: playOf fin vs

/-- The probability of the states of a play from the state `s`, given its actions. -/
def playProb (T : Nat → Nat → Nat → ℚ) : Nat → List (Nat × Nat) → ℚ
  | _, [] => 1
  | s, (x, z) :: w => T x s z * playProb T z w

/-- The sum of the rewards of a play from the state `s` is `r`, whatever is observed. -/
inductive Earns (R : Nat → Nat → Nat → Nat → ℚ) : Nat → List (Nat × Nat) → ℚ → Prop
  | nil (s : Nat) : Earns R s [] 0
  | cons (s x z : Nat) (w : List (Nat × Nat)) (r v : ℚ) : (∀ o, R x s z o = r) → Earns R z w v → Earns R s ((x, z) :: w) (r + v)

/-- The visits that may occur: before, neither the question who does the leaf nor the announcement that the robot does it; the question
or the announcement, and after the announcement the robot does the leaf; the robot completes the leaf by the physical action. -/
def Visit.Valid (v : Visit) : Prop :=
  (∀ x ∈ v.before, x ≠ 4 * v.leaf + 2 ∧ x ≠ 4 * v.leaf + 3) ∧
  (v.enter = 4 * v.leaf + 2 ∨ (v.enter = 4 * v.leaf + 3 ∧ v.robot = true)) ∧ (v.robot = true → v.last = 4 * v.leaf + 1)

/-- The probability that an action of duration `d` is too short for the human to complete the action `c`. -/
def notDone (exp : ℚ → ℚ) (c : CAction) (d : ℚ) : ℚ := exp (-d / c.tHum)

/-- The probability of a visit of a leaf with the action `c`, where `dur` is the duration of an action: the human says that they do not
do the leaf with probability `no_proba`; each physical action of the robot fails with probability `fail_proba`; and the human completes
the leaf during the last of the actions. -/
def visitChance (exp : ℚ → ℚ) (dur : Nat → ℚ) (c : CAction) (v : Visit) : ℚ :=
  if v.robot then
    (if v.enter = 4 * v.leaf + 2 then c.noProba else 1) * (c.failProba ^ v.during.count (4 * v.leaf + 1) * (1 - c.failProba))
  else (1 - c.noProba) * ((v.during.map fun x => notDone exp c (dur x)).prod * (1 - notDone exp c (dur v.last)))

/-- The cost of an action: its duration and, except for `wait`, the intrinsic cost. -/
def actCost (h : HtmParams) (dur : Nat → ℚ) (x : Nat) : ℚ := if x = 0 then h.tWait else dur x + h.intrCost

/-- The cost of an action of a visit once it is decided who does the leaf: the robot's physical action takes the time of the robot. -/
def doingCost (h : HtmParams) (dur : Nat → ℚ) (c : CAction) (v : Visit) (x : Nat) : ℚ :=
  if v.robot = true ∧ x = 4 * v.leaf + 1 then c.tRob + h.intrCost else actCost h dur x

/-- The cost of a visit of a leaf with the action `c`. -/
def visitCost (h : HtmParams) (dur : Nat → ℚ) (c : CAction) (v : Visit) : ℚ :=
  ((v.before ++ [v.enter]).map (actCost h dur)).sum + ((v.during ++ [v.last]).map (doingCost h dur c v)).sum

/-- The robot tells that it does the leaf `k`, then fails `f` times and succeeds. -/
def robotVisit (k f : Nat) : Visit := ⟨k, [], 4 * k + 3, true, List.replicate f (4 * k + 1), 4 * k + 1⟩

/-- The human answers that they do the leaf `k`; the robot waits, and the leaf is completed after `f` more waits. -/
def humanVisit (k f : Nat) : Visit := ⟨k, [], 4 * k + 2, false, List.replicate f 0, 0⟩

/-- The actions of the leaves of the visits. -/
def ActionsOf (n : N2P CAction) (vs : List Visit) (cs : List CAction) : Prop := List.Forall₂ (fun v c => n.leaves[v.leaf]? = some c) vs cs

end Verif.Spec
