import Verif.Spec.HtmPomdp
import Mathlib.Data.List.Permutation
import Mathlib.Data.Nat.Factorial.Basic

/-! Specification vocabulary for the probabilities of the orders of a task (C83). -/

namespace Verif.Spec
open Verif
variable {A X : Type}

/-- A distribution over sequences, given as the list of its outcomes with their probabilities. -/
abbrev Chances (X : Type) := List (List X × ℚ)

/-- An outcome of `d`, then an independent outcome of `e`. -/
def thenD (d e : Chances X) : Chances X := d.flatMap fun x => e.map fun y => (x.1 ++ y.1, x.2 * y.2)

/-- An outcome of each, one after the other. -/
def allD : List (Chances X) → Chances X
  | [] => [([], 1)]
  | d :: ds => thenD d (allD ds)

/-- Outcomes of `d` when `d` is drawn with probability `p`. -/
def scaleD (p : ℚ) (d : Chances X) : Chances X := d.map fun x => (x.1, p * x.2)

mutual
/-- The orders in which the actions of a task may be done, with their probabilities: an alternative is drawn with the probabilities
`draw n ps`, where `n` is the number of alternatives and `ps` the probabilities given in the task; the orders of a parallel
combination are all as likely. -/
def chancesBy (draw : Nat → List ℚ → List ℚ) : Htm A → Chances A
  | .leaf a _ _ _ => [([a], 1)]
  | .comb .sequential cs _ _ _ _ _ => allD (chancesByL draw cs)
  | .comb .alternative cs _ _ _ _ pr => ((draw cs.length (pr.getD [])).zip (chancesByL draw cs)).flatMap fun x => scaleD x.1 x.2
  | .comb .parallel cs _ _ _ _ _ => (chancesByL draw cs).permutations.flatMap fun ds => scaleD (1 / (cs.length.factorial : ℚ)) (allD ds)
@[inherit_doc chancesBy]
def chancesByL (draw : Nat → List ℚ → List ℚ) : List (Htm A) → List (Chances A)
  | [] => []
  | c :: cs => chancesBy draw c :: chancesByL draw cs
end

/-- The orders of a task with the probabilities given by the task. -/
def chances (t : Htm A) : Chances A := chancesBy (fun _ ps => ps) t

/-- The orders of a task when all alternatives are as likely, whatever their probabilities in the task. -/
def evenChances (t : Htm A) : Chances A := chancesBy (fun n _ => List.replicate n (1 / (n : ℚ))) t

mutual
/-- The alternatives of the task all have the same probability. -/
def UniformAlts : Htm A → Prop
  | .leaf _ _ _ _ => True
  | .comb k cs _ _ _ _ pr => (k = .alternative → pr = some (List.replicate cs.length (1 / (cs.length : ℚ)))) ∧ UniformAltsL cs
@[inherit_doc UniformAlts]
def UniformAltsL : List (Htm A) → Prop
  | [] => True
  | c :: cs => UniformAlts c ∧ UniformAltsL cs
end

/-- The probability of the leaves `ks`, one after the other, then of the end: `q k` is the distribution of the state that comes
after the leaf `k`, leaves have `w` states, and `fin` is the state at the end. -/
def followProb (w fin : Nat) (q : Nat → Nat → ℚ) : List Nat → ℚ
  | [] => 0
  | [k] => q k fin
  | k :: j :: ks => q k (w * j) * followProb w fin q (j :: ks)

/-- The probability that the leaves done are `ks`, in this order; `start` is the distribution of the first state. -/
def orderProb (w fin : Nat) (start : Nat → ℚ) (q : Nat → Nat → ℚ) : List Nat → ℚ
  | [] => 0
  | k :: ks => start (w * k) * followProb w fin q (k :: ks)

/-- The orders of the leaves of a model have the probabilities of the outcomes `d` of a task: `l` matches them one to one, with
the leaves done, which are labelled (relation `lab`) by the actions. -/
def SameChances (lab : List Nat → List A → Prop) (prob : List Nat → ℚ) (d : Chances A) : Prop :=
  ∃ l : List (List A × List Nat × ℚ), (l.map fun x => (x.1, x.2.2)).Perm d ∧ (l.map fun x => x.2.1).Nodup ∧
    (∀ x ∈ l, lab x.2.1 x.1 ∧ prob x.2.1 = x.2.2) ∧ ∀ ks, prob ks ≠ 0 → ks ∈ l.map fun x => x.2.1

end Verif.Spec
