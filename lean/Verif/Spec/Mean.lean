import Verif.Model.Evaluation
import Verif.Spec.Sampling
import Verif.Spec.SupKernel
import Mathlib.Data.Fintype.BigOperators
import Mathlib.Algebra.BigOperators.Group.Finset.Basic

/-! Specification vocabulary for the means of returns (C93, C94). -/

namespace Verif.Spec
open Verif

/-- The mean of a number that depends on an element of a finite set whose elements are all as likely. -/
def mean {Ω : Type} [Fintype Ω] (f : Ω → ℚ) : ℚ := (∑ ω, f ω) / Fintype.card Ω

/-- The random numbers `z`, of which those from the `g`-th are replaced by those of `ω`. -/
def overlay {α : Type} (g : Nat) {n : Nat} (ω : Fin n → α) (z : Nat → α) (k : Nat) : α :=
  if h : g ≤ k ∧ k < g + n then ω ⟨k - g, by omega⟩ else z k

/-- Random numbers as equidistant numbers between 0 and 1. -/
def realsOf {D : Nat} (z : Nat → Fin D) (k : Nat) : ℚ := equidistant (z k)

/-- Random numbers as integers. -/
def intsOf {D : Nat} (z : Nat → Fin D) (k : Nat) : Nat := z k

/-- The result of a computation that returns a number. -/
def numberOf {S : Type} (r : Py ℚ × S) : ℚ :=
  match r.1 with
  | .ok x => x
  | .error _ => 0

/-- The horizon is reached after at most `k` transitions, whatever they are. -/
def EndsIn {η : Type} (hor : HorizonOps η) : Nat → η → Prop
  | 0, h => hor.isReached h = true
  | k + 1, h => hor.isReached h = true ∨ ∀ a s s' o, EndsIn hor k (hor.decrement a s s' o h)

/-- The expected discounted return, from the state `s` until the horizon, if every action is drawn with the same probability (at most `k`
transitions are counted). -/
def randomValue {η : Type} (p : Pomdp) (nS nA nO : Nat) (hor : HorizonOps η) : Nat → η → Nat → ℚ
  | 0, _, _ => 0
  | k + 1, h, s =>
      if hor.isReached h then 0
      else (sumRange nA fun a => sumRange nS fun s' => sumRange nO fun o => p.T.at_ a s s' * p.O.at_ a s' o *
        (p.R.at_ a s s' o + p.discount * randomValue p nS nA nO hor k (hor.decrement a s s' o h) s')) / nA

/-- The transition of the supportive simulator for given random numbers. -/
def supMove (m : SupPomdp) {D K N : Nat} (ω : Numbers m D K N) (a s : Nat) : Nat × Nat × ℚ :=
  match m.sampleTransition (drawsOf ω) a s with
  | .ok y => y
  | .error _ => (0, 0, 0)

/-- The expected discounted return in the supportive simulator, from the state `s` until the horizon, if every action is drawn with the same
probability (at most `k` transitions are counted). -/
def supRandomValue {η : Type} (m : SupPomdp) (discount : ℚ) (D K N : Nat) (hor : HorizonOps η) : Nat → η → Nat → ℚ
  | 0, _, _ => 0
  | k + 1, h, s =>
      if hor.isReached h then 0
      else (sumRange m.nActions fun a => mean fun ω : Numbers m D K N => (supMove m ω a s).2.2 +
        discount * supRandomValue m discount D K N hor k (hor.decrement a s (supMove m ω a s).1 (supMove m ω a s).2.1 h) (supMove m ω a s).1) / m.nActions

/-- The supportive simulator with beliefs of `n` particles whose `k`-th call uses the random numbers `z k` for its first transition and its
first integer, and others for the rest. -/
def supSimOf (m : SupPomdp) (discount : ℚ) (n : Nat) {D K N A : Nat} (d : Nat → Nat → SupPomdp.Draws) (c : Nat → Nat → Nat)
    (z : Nat → Numbers m D K N × Fin A) : Sim Nat (List Nat) :=
  supSim m discount n (fun k j => if j = 0 then drawsOf (z k).1 else d k j) (fun k j => if j = 0 then (z k).2 else c k j)

end Verif.Spec
