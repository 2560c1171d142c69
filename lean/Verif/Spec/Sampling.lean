import Verif.Spec.Pomdp
import Verif.Model.Belief
import Mathlib.Data.Fintype.Pi
import Mathlib.Data.Fintype.Prod
import Mathlib.Data.List.OfFn

/-! Specification vocabulary for the probabilities of samples (C85). -/

namespace Verif.Spec
open Verif

/-- One of `D` equidistant random numbers. -/
def equidistant {D : Nat} (i : Fin D) : ℚ := (i : Nat) / (D : ℚ)

/-- A probability that is a multiple of `1 / D`. -/
def Multiple (D : Nat) (x : ℚ) : Prop := ∃ k : Nat, (D : ℚ) * x = k

/-- The random numbers of the search for a particle: the position of an old particle, and two numbers for the transition. -/
abbrev Attempt (n D : Nat) : Type := Fin n × Fin D × Fin D

/-- The transition that is sampled in an attempt. -/
def attempt (p : Pomdp) (parts : List Nat) (a : Nat) {n D : Nat} (x : Attempt n D) : Py (Nat × Nat × ℚ) :=
  p.sampleTransition (equidistant x.2.1) (equidistant x.2.2) a (parts.getD x.1 0)

/-- The end state of a transition that gives the observation `o`. -/
def consistentWith (o : Nat) : Py (Nat × Nat × ℚ) → Option Nat
  | .ok r => if r.2.1 = o then some r.1 else none
  | .error _ => none

/-- The end states of the attempts with observation `o`, but no more than `n`. -/
def found (f : α → Option Nat) (n : Nat) {N : Nat} (ω : Fin N → α) : List Nat := ((List.ofFn ω).filterMap f).take n

/-- The positions of the old particles in the attempts. -/
def picks {n D N : Nat} (ω : Fin N → Attempt n D) (k : Nat) : Nat := if h : k < N then (ω ⟨k, h⟩).1 else 0

/-- The simulator, with the random numbers of the attempts. -/
def sims (p : Pomdp) {n D N : Nat} (ω : Fin N → Attempt n D) (k a s : Nat) : Py (Nat × Nat × ℚ) :=
  if h : k < N then p.sampleTransition (equidistant (ω ⟨k, h⟩).2.1) (equidistant (ω ⟨k, h⟩).2.2) a s else .error .indexError

end Verif.Spec
