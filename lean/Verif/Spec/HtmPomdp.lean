import Verif.Spec.NodeTree
import Verif.Spec.Pomdp
import Verif.Model.HtmPomdp

/-! Specification vocabulary for the conversions to POMDPs: rows of the arrays (C31-C36). -/

namespace Verif.Spec
open Verif
variable {A : Type}

/-- The first state of a leaf that may come next after the leaf `k`, or the final state `fin` if `k` may be the last one;
leaves have `w` states. -/
def IsNext (w : Nat) (n : N2P A) (fin k z : Nat) : Prop := (∃ j, FollowedBy n k j ∧ z = w * j) ∨ (z = fin ∧ IsLast n k)

/-- A probability distribution over all the states that may come next after the leaf `k`. -/
def NextDist (w : Nat) (n : N2P A) (fin k nS : Nat) (q : Nat → ℚ) : Prop :=
  (∀ z, 0 ≤ q z) ∧ (∀ z, 0 < q z ↔ IsNext w n fin k z) ∧ sumRange nS q = 1

/-- The duration of the action `x`: `wait` is 0, the four actions of the leaf `k` are `1 + 4 k, ..., 4 + 4 k`. -/
def actDuration (h : HtmParams) (n : N2P CAction) (x : Nat) : ℚ :=
  match x with
  | 0 => h.tWait
  | x + 1 =>
      match n.leaves[x / 4]? with
      | none => 0
      | some c => [c.tErr, h.tAsk, h.tTell, h.tAsk].getD (x % 4) 0

/-- 1 at `s`, 0 elsewhere. -/
def stay (s z : Nat) : ℚ := if z = s then 1 else 0

/-- The row of the initial state of the leaf `k`. -/
def initRow (c : CAction) (k x z : Nat) : ℚ :=
  if x = 4 * k + 2 then c.noProba * stay (3 * k + 2) z + (1 - c.noProba) * stay (3 * k + 1) z
  else if x = 4 * k + 3 then stay (3 * k + 2) z
  else stay (3 * k) z

/-- The row of the human state of the leaf `k`. -/
def humanRow (exp : ℚ → ℚ) (c : CAction) (d : ℚ) (q : Nat → ℚ) (k z : Nat) : ℚ :=
  exp (-d / c.tHum) * stay (3 * k + 1) z + (1 - exp (-d / c.tHum)) * q z

/-- The row of the human state of the leaf `k`, deterministic variant. -/
def humanRowDet (q : Nat → ℚ) (k x z : Nat) : ℚ := if x = 4 * k + 4 then q z else stay (3 * k + 1) z

/-- The row of the robot state of the leaf `k`. -/
def robotRow (c : CAction) (q : Nat → ℚ) (k x z : Nat) : ℚ :=
  if x = 4 * k + 1 then c.failProba * stay (3 * k + 2) z + (1 - c.failProba) * q z else stay (3 * k + 2) z

/-- A trajectory of a model: a sequence of states of positive probability (for some actions), from a start state to the last
state of the model. -/
def Trajectory (p : Pomdp) (states : List Nat) : Prop :=
  (∃ s, states.head? = some s ∧ 0 < p.start.getD s 0) ∧ states.getLast? = some (p.states.length - 1) ∧
  Possible p.actions.length p.T.at_ states

/-- The actions of the leaves visited are copies of the actions of `u`. -/
def LabelsCopy (ops : ActOps A) (n : N2P A) (ks : List Nat) (u : List A) : Prop := ∃ u', Labels n ks u' ∧ List.Forall₂ (CopyChain ops) u u'

/-- The row with a 1 for the observation `o`. -/
def Observes (row : Nat → ℚ) (o : Nat) : Prop := ∀ z, row z = if z = o then 1 else 0

/-- Probabilities: the parameters of an action are in [0, 1]. -/
def CAction.Prob (c : CAction) : Prop := 0 ≤ c.noProba ∧ c.noProba ≤ 1 ∧ 0 ≤ c.failProba ∧ c.failProba ≤ 1

end Verif.Spec
