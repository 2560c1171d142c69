import Verif.Spec.SupKernel
import Verif.Model.Belief

/-! Specification vocabulary for particle beliefs in the supportive simulator (C97). -/

namespace Verif.Spec
open Verif

/-- The random numbers of one attempt to find a particle: the position of an old particle, and those of a transition. -/
abbrev SupAttempt (m : SupPomdp) (n D K N : Nat) : Type := Fin n × Numbers m D K N

/-- The transition that is sampled in an attempt. -/
def supAttempt (m : SupPomdp) (parts : List Nat) (a : Nat) {n D K N : Nat} (x : SupAttempt m n D K N) : Py (Nat × Nat × ℚ) :=
  m.sampleTransition (drawsOf x.2) a (parts.getD x.1 0)

/-- The positions of the old particles in a sequence of attempts. -/
def positionsOf {Ω : Type} {n M : Nat} (ω : Fin M → Fin n × Ω) (k : Nat) : Nat := if h : k < M then (ω ⟨k, h⟩).1 else 0

/-- The simulator, with the random numbers of a sequence of attempts. -/
def simulatorOf {Ω : Type} {n M : Nat} (sim : Ω → Nat → Nat → Py (Nat × Nat × ℚ)) (ω : Fin M → Fin n × Ω) (k a s : Nat) : Py (Nat × Nat × ℚ) :=
  if h : k < M then sim (ω ⟨k, h⟩).2 a s else .error .indexError

/-- The probability that completing the leaf of `s1` leads to `s'`, whatever the human has to fetch. -/
def completeOutcome (m : SupPomdp) (s1 s' : Nat) : ℚ := ∑ k ∈ Finset.range ((leafConditions m s1).length + 1), completeChance m s1 s' k

/-- The probability that wait, hold H or hold V (the actions 0, 1 and 2) end in `s'` with the observation `o`, once the random changes have
led to `s1`. -/
def waitOutcome (m : SupPomdp) (a s1 s' o : Nat) : ℚ :=
  if htmOf m s1 = m.nodes.length + 1 then one (s' = s1 ∧ o = 0)
  else if htmOf m s1 = m.nodes.length then
    if a = 0 then one (htmOf m s' = m.nodes.length + 1 ∧ (∀ i < m.objects.length + 1 + m.par.nPreferences, bit s' i = bit s1 i) ∧ o = 0)
    else one (s' = s1 ∧ o = 1)
  else if a = 0 ∨ Welcome m a s1 then one (o = 0) * completeOutcome m s1 s'
  else 98 / 100 * one (s' = s1 ∧ o = 1) + 2 / 100 * (one (o = 0) * completeOutcome m s1 s')

/-- The same for the question (the action 3). -/
def askOutcome (m : SupPomdp) (s1 s' o : Nat) : ℚ :=
  one (s' = s1) * if bit s1 (m.objects.length + 1) = 1 then 9 / 10 * one (o = 3) + 1 / 10 * one (o = 0)
    else 95 / 100 * one (o = 4) + 5 / 100 * one (o = 0)

/-- The same for an action that brings (`b = 1`) or clears (`b = 0`) the object `obj`. -/
def objectOutcome (m : SupPomdp) (obj b s1 s' o : Nat) : ℚ :=
  if bit s1 obj = b then one (s' = s1 ∧ o = 2)
  else m.par.pFail * one (s' = s1 ∧ o = 1) +
    (1 - m.par.pFail) * one (htmOf m s' = htmOf m s1 ∧
      (∀ i < m.objects.length + 1 + m.par.nPreferences, bit s' i = if i = obj then b else bit s1 i) ∧ o = 0)

/-- `k` gives the probabilities of the outcomes of the action `a`, once the random changes have been made. -/
def OutcomesOf (m : SupPomdp) (a : Nat) (k : Nat → Nat → Nat → ℚ) : Prop :=
  (a < 3 ∧ k = waitOutcome m a) ∨ (a = 3 ∧ k = askOutcome m) ∨
    ∃ obj, (m.bring obj = .ok a ∧ k = objectOutcome m obj 1) ∨ (m.clear obj = .ok a ∧ k = objectOutcome m obj 0)

/-- The probability that a state drawn from the belief `b` is followed by `s'` and the observation `o`. -/
def supJoint (m : SupPomdp) (k : Nat → Nat → Nat → ℚ) (b : List ℚ) (o s' : Nat) : ℚ :=
  ∑ s ∈ Finset.range m.nStates, b.getD s 0 * ∑ s1 ∈ Finset.range m.nStates, changeChance m s s1 * k s1 s' o

/-- The probability of the observation `o` in the belief `b`. -/
def supEvidence (m : SupPomdp) (k : Nat → Nat → Nat → ℚ) (b : List ℚ) (o : Nat) : ℚ :=
  ∑ s' ∈ Finset.range m.nStates, supJoint m k b o s'

end Verif.Spec
