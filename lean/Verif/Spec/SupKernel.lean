import Verif.Spec.Supportive
import Verif.Spec.Sampling
import Mathlib.SetTheory.Cardinal.Finite
import Mathlib.Algebra.BigOperators.Group.Finset.Basic
import Mathlib.Algebra.BigOperators.Fin

/-! Specification vocabulary for the probabilities of the supportive simulator (C92). -/

namespace Verif.Spec
open Verif

/-- The probability of an event in a finite set whose elements are all as likely. -/
noncomputable def chance {Ω : Type} (P : Ω → Prop) : ℚ := (Nat.card {ω // P ω} : ℚ) / Nat.card Ω

/-- The random numbers of one call: for each object, for each preference; then for the hold, the successor, for each of `N` conditions,
for the answer, and for the failure.  Numbers in `[0, 1)` are among `D` equidistant ones, and the choice of the successor is made with one
of `K` numbers. -/
abbrev Numbers (m : SupPomdp) (D K N : Nat) : Type :=
  ((Fin m.objects.length → Fin D) × (Fin m.par.nPreferences → Fin D)) × (Fin D × Fin K × (Fin N → Fin D) × Fin D × Fin D)

/-- The number with index `i` of a list of random numbers. -/
def numberAt {n D : Nat} (u : Fin n → Fin D) (i : Nat) : ℚ := if h : i < n then equidistant (u ⟨i, h⟩) else 0

/-- The same numbers as an argument of the simulator. -/
def drawsOf {m : SupPomdp} {D K N : Nat} (ω : Numbers m D K N) : SupPomdp.Draws where
  objects := numberAt ω.1.1
  prefs := numberAt ω.1.2
  hold := equidistant ω.2.1
  succ := ω.2.2.1
  consume := numberAt ω.2.2.2.1
  ask := equidistant ω.2.2.2.2.1
  fail := equidistant ω.2.2.2.2.2

/-- A bit of a state. -/
def bit (s i : Nat) : Nat := s / 2 ^ i % 2

/-- One if the statement holds, zero otherwise. -/
def one (P : Prop) [Decidable P] : ℚ := if P then 1 else 0

/-- The probability that the random changes lead from `s` to `s1`: each object is moved with probability `p_changed_by_human` and each
preference changes with probability `p_change_preference`, independently; nothing else changes. -/
def changeChance (m : SupPomdp) (s s1 : Nat) : ℚ :=
  one (htmOf m s1 = htmOf m s ∧ bit s1 m.objects.length = bit s m.objects.length) *
  (∏ i : Fin m.objects.length, if bit s1 i = bit s i then 1 - m.par.pChangedByHuman else m.par.pChangedByHuman) *
  ∏ i : Fin m.par.nPreferences, if bit s1 (m.objects.length + 1 + i) = bit s (m.objects.length + 1 + i)
    then 1 - m.par.pChangePreference else m.par.pChangePreference

/-- The probability that an object with the condition `c` is there (`b = 1`) or not (`b = 0`) after the leaf: it is gone if consumed, there
if used, and gone with probability `p_consume_all` if partly consumed. -/
def conditionChance (m : SupPomdp) (c b b0 : Nat) : ℚ :=
  if c = 0 then one (b = 0)
  else if c = 1 then one (b = 1)
  else if c = 2 then (if b = 0 then m.par.pConsumeAll else 1 - m.par.pConsumeAll)
  else one (b = b0)

/-- The probability that the conditions of a leaf, met one after the other, turn the bits `b` into those of the state `s'`, and that `k`
objects were not there when they were needed. -/
def conditionsChance (m : SupPomdp) (s' : Nat) : List (Nat × Nat) → (Nat → Nat) → Nat → ℚ
  | [], b, k => one (k = 0 ∧ ∀ i < m.objects.length + 1 + m.par.nPreferences, bit s' i = b i)
  | co :: l, b, k =>
      if b co.2 = 0 ∧ k = 0 then 0
      else conditionChance m co.1 0 (b co.2) * conditionsChance m s' l (Function.update b co.2 0) (if b co.2 = 0 then k - 1 else k) +
        conditionChance m co.1 1 (b co.2) * conditionsChance m s' l (Function.update b co.2 1) (if b co.2 = 0 then k - 1 else k)

/-- The conditions of the leaf of a state. -/
def leafConditions (m : SupPomdp) (s1 : Nat) : List (Nat × Nat) := m.conditions.getD (htmOf m s1) []

/-- The probability that completing the leaf of the state `s1` leads to `s'`, `k` objects being fetched by the human: the next leaf is drawn
evenly among the successors, the objects change as the conditions say, and nothing else changes. -/
def completeChance (m : SupPomdp) (s1 s' k : Nat) : ℚ :=
  let next := m.succs.getD (htmOf m s1) []
  ((next.count (htmOf m s') : ℚ) / next.length) * conditionsChance m s' (leafConditions m s1) (bit s1) k

/-- The human likes to be helped in `s1`, and the action `a` is the way of holding that the leaf needs. -/
def Welcome (m : SupPomdp) (a s1 : Nat) : Prop :=
  bit s1 (m.objects.length + 1) = 1 ∧
    (m.needsHold (htmOf m s1) = .ok (some "h") ∧ a = 1 ∨ m.needsHold (htmOf m s1) = .ok (some "v") ∧ a = 2)

instance (m : SupPomdp) (a s1 : Nat) : Decidable (Welcome m a s1) := inferInstanceAs (Decidable (_ ∧ (_ ∨ _)))

/-- The reward of completing the leaf of `s1` if the human had to fetch `k` objects. -/
def completeReward (m : SupPomdp) (a s1 k : Nat) : ℚ :=
  m.par.rSubtask - m.par.costGet * k
    + (if Welcome m a s1 then m.par.rPreference else 0) - (if a = 0 then 0 else m.par.costHold)
    + (if m.par.rewardIndependentPreference ∧ bit s1 (m.objects.length + 1) = 0 then m.par.rPreference - m.par.costHold else 0)

/-- The probability that completing the leaf of `s1` leads to `s'` with the reward `r` and without an observation. -/
def finishChance (m : SupPomdp) (a s1 s' o : Nat) (r : ℚ) : ℚ :=
  ∑ k ∈ Finset.range ((leafConditions m s1).length + 1), one (o = 0 ∧ r = completeReward m a s1 k) * completeChance m s1 s' k

/-- The probabilities of wait, hold H and hold V (the actions 0, 1 and 2) once the random changes have led to `s1`. -/
def waitChance (m : SupPomdp) (a s1 s' o : Nat) (r : ℚ) : ℚ :=
  if htmOf m s1 = m.nodes.length + 1 then one (s' = s1 ∧ o = 0 ∧ r = if a = 0 then 0 else -m.par.costHold)
  else if htmOf m s1 = m.nodes.length then
    if a = 0 then one (htmOf m s' = m.nodes.length + 1 ∧ (∀ i < m.objects.length + 1 + m.par.nPreferences, bit s' i = bit s1 i) ∧ o = 0 ∧
      r = m.par.rFinal - m.par.costGet * ((List.range m.objects.length).countP fun i => bit s1 i = 1))
    else one (s' = s1 ∧ o = 1 ∧ r = -m.par.costHold)
  else if a = 0 ∨ Welcome m a s1 then finishChance m a s1 s' o r
  else 98 / 100 * one (s' = s1 ∧ o = 1 ∧ r = -m.par.costHold) +
    2 / 100 * finishChance m a s1 s' o r

/-- The probabilities of the answers to the question (the action 3) once the random changes have led to `s1`. -/
def askChance (m : SupPomdp) (s1 s' o : Nat) (r : ℚ) : ℚ :=
  one (s' = s1 ∧ r = -m.par.costIntrinsic) *
    if bit s1 (m.objects.length + 1) = 1 then 9 / 10 * one (o = 3) + 1 / 10 * one (o = 0)
    else 95 / 100 * one (o = 4) + 5 / 100 * one (o = 0)

/-- The probabilities of an action that brings (`b = 1`) or clears (`b = 0`) the object `obj` once the random changes have led to `s1`. -/
def objectChance (m : SupPomdp) (obj b s1 s' o : Nat) (r : ℚ) : ℚ :=
  one (r = -m.par.costIntrinsic) *
    if bit s1 obj = b then one (s' = s1 ∧ o = 2)
    else m.par.pFail * one (s' = s1 ∧ o = 1) +
      (1 - m.par.pFail) * one (htmOf m s' = htmOf m s1 ∧
        (∀ i < m.objects.length + 1 + m.par.nPreferences, bit s' i = if i = obj then b else bit s1 i) ∧ o = 0)

/-- No leaf has two conditions on the same object. -/
def OnceEach (m : SupPomdp) : Prop := ∀ l ∈ m.conditions, (l.map Prod.snd).Nodup

/-- If no leaf has two conditions on the same object: the objects of the conditions change independently, and those that are not there at
the beginning are fetched. -/
def onceChance (m : SupPomdp) (a s1 s' o : Nat) (r : ℚ) : ℚ :=
  let conds := leafConditions m s1
  let next := m.succs.getD (htmOf m s1) []
  one (o = 0 ∧ r = completeReward m a s1 (conds.countP fun co => bit s1 co.2 = 0)) * (((next.count (htmOf m s') : ℚ) / next.length) *
    (one (∀ i < m.objects.length + 1 + m.par.nPreferences, i ∉ conds.map Prod.snd → bit s' i = bit s1 i) *
      (conds.map fun co => conditionChance m co.1 (bit s' co.2) (bit s1 co.2)).prod))

/-- The random numbers are fine enough: all the probabilities of the model are among the multiples of `1 / D`, the number of successors of
each leaf divides `K`, and there is a number for each condition. -/
structure Fine (m : SupPomdp) (D K N : Nat) : Prop where
  posD : 0 < D
  posK : 0 < K
  hundred : 100 ∣ D
  fail : Multiple D m.par.pFail ∧ m.par.pFail ≤ 1
  consume : Multiple D m.par.pConsumeAll ∧ m.par.pConsumeAll ≤ 1
  object : Multiple D m.par.pChangedByHuman ∧ m.par.pChangedByHuman ≤ 1
  preference : Multiple D m.par.pChangePreference ∧ m.par.pChangePreference ≤ 1
  succs : ∀ l ∈ m.succs, l.length ∣ K
  conditions : ∀ l ∈ m.conditions, l.length ≤ N

/-- The random numbers of `sample_start`: the choice of the initial leaf, the preferences, and the objects. -/
abbrev StartNumbers (m : SupPomdp) (D K : Nat) : Type :=
  Fin K × (Fin m.par.nPreferences → Fin D) × (Fin m.objects.length → Fin D)

/-- The probability of the start state `s`: the initial leaf is drawn evenly, each preference holds with its probability, each object is
there with probability `p_changed_by_human`, and the body feature is zero. -/
def startChance (m : SupPomdp) (s : Nat) : ℚ :=
  one (bit s m.objects.length = 0) * ((m.init.count (htmOf m s) : ℚ) / m.init.length) *
  (∏ i : Fin m.par.nPreferences, if bit s (m.objects.length + 1 + i) = 1 then m.par.pPreferences.getD i 0 else 1 - m.par.pPreferences.getD i 0) *
  ∏ i : Fin m.objects.length, if bit s i = 1 then m.par.pChangedByHuman else 1 - m.par.pChangedByHuman

end Verif.Spec
