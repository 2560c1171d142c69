import Verif.Spec.Orders
import Verif.Spec.Supportive

/-! Specification vocabulary for the orders of supportive episodes (C86). -/

namespace Verif.Spec
open Verif
variable {A : Type}

mutual
/-- The number of leaves with which the task may start. -/
def firsts : Htm A → Nat
  | .leaf _ _ _ _ => 1
  | .comb .sequential cs _ _ _ _ _ => (firstsL cs).headD 0
  | .comb _ cs _ _ _ _ _ => (firstsL cs).sum
@[inherit_doc firsts]
def firstsL : List (Htm A) → List Nat
  | [] => []
  | c :: cs => firsts c :: firstsL cs
end

mutual
/-- The orders of the actions of a task (without parallel combinations) when each alternative is drawn with a probability
proportional to the number of leaves with which it may start. -/
def firstChances : Htm A → Chances A
  | .leaf a _ _ _ => [([a], 1)]
  | .comb .sequential cs _ _ _ _ _ => allD (firstChancesL cs)
  | .comb .alternative cs _ _ _ _ _ =>
      ((firstsL cs).zip (firstChancesL cs)).flatMap fun x => scaleD ((x.1 : ℚ) / ((firstsL cs).sum : ℚ)) x.2
  | .comb .parallel _ _ _ _ _ _ => []
@[inherit_doc firstChances]
def firstChancesL : List (Htm A) → List (Chances A)
  | [] => []
  | c :: cs => firstChances c :: firstChancesL cs
end

mutual
/-- The alternatives of each alternative combination may start with the same number of leaves. -/
def Balanced : Htm A → Prop
  | .leaf _ _ _ _ => True
  | .comb k cs _ _ _ _ _ => (k = .alternative → ∀ n ∈ firstsL cs, ∀ n' ∈ firstsL cs, n = n') ∧ BalancedL cs
@[inherit_doc Balanced]
def BalancedL : List (Htm A) → Prop
  | [] => True
  | c :: cs => Balanced c ∧ BalancedL cs
end

/-- The share of the numbers `0, …, n - 1` for which `P` holds. -/
def share (n : Nat) (P : Nat → Prop) [DecidablePred P] : ℚ := ((List.range n).countP P : ℚ) / n

/-- The probability of the states `k :: ks`, one after the other, when each is drawn with the probabilities `q` of the last. -/
def walkProb (q : Nat → Nat → ℚ) : List Nat → ℚ
  | [] => 0
  | [_] => 1
  | k :: j :: ks => q k j * walkProb q (j :: ks)

/-- The HTM value after a call that may raise is `k`. -/
def LeadsTo (m : SupPomdp) (r : Py (Nat × Nat × ℚ)) (k : Nat) : Prop :=
  match r with
  | .ok (s, _, _) => htmOf m s = k
  | .error _ => False

instance (m : SupPomdp) (r : Py (Nat × Nat × ℚ)) (k : Nat) : Decidable (LeadsTo m r k) := by
  unfold LeadsTo; split <;> infer_instance

/-- `sample_start` draws a state with HTM value `k`. -/
def StartsAt (m : SupPomdp) (r : Py Nat) (k : Nat) : Prop :=
  match r with
  | .ok s => htmOf m s = k
  | .error _ => False

instance (m : SupPomdp) (r : Py Nat) (k : Nat) : Decidable (StartsAt m r k) := by
  unfold StartsAt; split <;> infer_instance

/-- In the simulator, the first leaf of an episode is drawn with the probabilities `q0`, whatever the other random numbers, and
the leaf (or the cleaning) after leaf `i` with the probabilities `q i`, whatever the action that completes the leaf, the rest of the
state and the other random numbers. -/
structure DrawsLeaves (m : SupPomdp) (q0 : Nat → ℚ) (q : Nat → Nat → ℚ) : Prop where
  start : ∀ u v k, share m.init.length (fun c => StartsAt m (m.sampleStart c u v) k) = q0 k
  next : ∀ i < m.nodes.length, ∀ (d : SupPomdp.Draws) a s random s' o r, s < m.nStates → htmOf m s = i →
    m.sampleTransition d a s random = .ok (s', o, r) → htmOf m s' ≠ i → ∀ k,
      share (m.succs.getD i []).length (fun c => LeadsTo m (m.sampleTransition { d with succ := c } a s random) k) = q i k

/-- In the simulator, the orders in which the leaves of the task are completed have the probabilities `d`. -/
def SupOrders (m : SupPomdp) (d : Chances SupAction) : Prop :=
  ∃ q0 q, DrawsLeaves m q0 q ∧
    SameChances (List.Forall₂ fun i a => ∃ j p h, m.nodes[i]? = some (.leaf a j p h))
      (fun ks => ((ks ++ [m.nodes.length]).head?.elim 0 q0) * walkProb q (ks ++ [m.nodes.length])) d

end Verif.Spec
