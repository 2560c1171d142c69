import Verif.Model.SupState
import Mathlib.Tactic.Ring
import Mathlib.Tactic.Linarith
import Mathlib.Algebra.Order.Ring.Nat

/-! Lemmas on the bit encoding of supportive states. -/

set_option linter.unusedSectionVars false
set_option linter.unusedSimpArgs false

namespace Verif

/-- Bit `i` of `s`. -/
def bitAt (s i : Nat) : Nat := s / 2 ^ i % 2

theorem bitAt_lt (s i : Nat) : bitAt s i < 2 := Nat.mod_lt _ (by omega)

theorem bitAt_add_mul (x r i j : Nat) (hj : j < i) : bitAt (x * 2 ^ i + r) j = bitAt r j := by
  unfold bitAt
  obtain ⟨k, rfl⟩ : ∃ k, i = j + (k + 1) := ⟨i - j - 1, by omega⟩
  have : x * 2 ^ (j + (k + 1)) + r = r + 2 ^ j * (2 * (x * 2 ^ k)) := by ring
  rw [this, Nat.add_mul_div_left _ _ (Nat.two_pow_pos j)]
  omega

theorem div_add_mul (x r i : Nat) (hr : r < 2 ^ i) : (x * 2 ^ i + r) / 2 ^ i = x := by
  rw [Nat.mul_comm, Nat.mul_add_div (Nat.two_pow_pos i), Nat.div_eq_of_lt hr, Nat.add_zero]

/-- `setBit` on integers. -/
def setBitN (s i b : Nat) : Nat := s + b * 2 ^ i - bitAt s i * 2 ^ i

theorem setBitN_eq (s i b : Nat) : setBitN s i b = (s / 2 ^ i / 2 * 2 + b) * 2 ^ i + s % 2 ^ i := by
  have h1 : s = (s / 2 ^ i / 2 * 2 + bitAt s i) * 2 ^ i + s % 2 ^ i := by
    have e : s / 2 ^ i / 2 * 2 + bitAt s i = s / 2 ^ i := by unfold bitAt; omega
    rw [e, Nat.mul_comm]
    exact (Nat.div_add_mod s (2 ^ i)).symm
  unfold setBitN
  generalize s / 2 ^ i / 2 * 2 = q at *
  generalize bitAt s i = c at *
  generalize s % 2 ^ i = r at *
  generalize 2 ^ i = p at *
  have h2 : (q + c) * p = q * p + c * p := by ring
  have h3 : (q + b) * p = q * p + b * p := by ring
  rw [h2] at h1
  rw [h3]
  omega

theorem setBitN_div (s i b k : Nat) (hb : b < 2) (hk : i < k) : setBitN s i b / 2 ^ k = s / 2 ^ k := by
  obtain ⟨j, rfl⟩ : ∃ j, k = i + (j + 1) := ⟨k - i - 1, by omega⟩
  have e : ∀ n : Nat, n / 2 ^ (i + (j + 1)) = n / 2 ^ i / 2 / 2 ^ j := by
    intro n
    rw [Nat.div_div_eq_div_mul, Nat.div_div_eq_div_mul]
    congr 1
    ring
  rw [e, e, setBitN_eq, div_add_mul _ _ _ (Nat.mod_lt _ (Nat.two_pow_pos i))]
  congr 1
  omega

theorem bitAt_setBitN (s i b j : Nat) (hb : b < 2) : bitAt (setBitN s i b) j = if j = i then b else bitAt s j := by
  rcases Nat.lt_trichotomy j i with h | h | h
  · rw [if_neg (by omega), setBitN_eq, bitAt_add_mul _ _ _ _ h]
    conv_rhs => rw [← Nat.div_add_mod s (2 ^ i), Nat.mul_comm, bitAt_add_mul _ _ _ _ h]
  · subst h
    rw [if_pos rfl, setBitN_eq]
    unfold bitAt
    rw [div_add_mul _ _ _ (Nat.mod_lt _ (Nat.two_pow_pos j))]
    omega
  · rw [if_neg (by omega)]
    unfold bitAt
    rw [setBitN_div s i b j hb h]

/-- Setting the quotient. -/
def setHiN (s k n : Nat) : Nat := s + n * 2 ^ k - s / 2 ^ k * 2 ^ k

theorem setHiN_eq (s k n : Nat) : setHiN s k n = n * 2 ^ k + s % 2 ^ k := by
  have := Nat.div_add_mod s (2 ^ k)
  rw [Nat.mul_comm] at this
  unfold setHiN
  omega

theorem setHiN_div (s k n : Nat) : setHiN s k n / 2 ^ k = n := by
  rw [setHiN_eq, div_add_mul _ _ _ (Nat.mod_lt _ (Nat.two_pow_pos k))]

theorem bitAt_setHiN (s k n j : Nat) (hj : j < k) : bitAt (setHiN s k n) j = bitAt s j := by
  rw [setHiN_eq, bitAt_add_mul _ _ _ _ hj]
  conv_rhs => rw [← Nat.div_add_mod s (2 ^ k), Nat.mul_comm, bitAt_add_mul _ _ _ _ hj]

theorem div_succ (s k : Nat) : s / 2 ^ k = 2 * (s / 2 ^ (k + 1)) + bitAt s k := by
  have : s / 2 ^ (k + 1) = s / 2 ^ k / 2 := by
    rw [Nat.div_div_eq_div_mul, Nat.pow_succ]
  unfold bitAt
  omega

theorem eq_of_bits (k : Nat) : ∀ s s' : Nat, s / 2 ^ k = s' / 2 ^ k → (∀ j < k, bitAt s j = bitAt s' j) → s = s' := by
  induction k with
  | zero => intro s s' h _; simpa using h
  | succ k ih =>
    intro s s' h hb
    apply ih s s' _ (fun j hj => hb j (by omega))
    rw [div_succ s k, div_succ s' k, h, hb k (by omega)]

theorem exists_bits (k : Nat) : ∀ (h : Nat) (f : Nat → Nat), (∀ j < k, f j < 2) →
    ∃ s, s / 2 ^ k = h ∧ ∀ j < k, bitAt s j = f j := by
  induction k with
  | zero => intro h f _; exact ⟨h, by simp, by simp⟩
  | succ k ih =>
    intro h f hf
    obtain ⟨s, h1, h2⟩ := ih (2 * h + f k) f (fun j hj => hf j (by omega))
    have hfk := hf k (by omega)
    have h3 := div_succ s k
    rw [h1] at h3
    have h4 := bitAt_lt s k
    refine ⟨s, by omega, ?_⟩
    intro j hj
    by_cases hjk : j = k
    · subst hjk; omega
    · exact h2 j (by omega)

namespace SupState

theorem getBit_def (x : SupState) (i : Nat) : x.getBit i = bitAt x.s i := rfl

theorem setBit_s (x : SupState) (i b : Nat) : (x.setBit i b).s = setBitN x.s i b := rfl

theorem setBit_consts (x : SupState) (i b : Nat) : (x.setBit i b).shiftBody = x.shiftBody ∧
    (x.setBit i b).shiftPref = x.shiftPref ∧ (x.setBit i b).shiftHtm = x.shiftHtm ∧ (x.setBit i b).nHtm = x.nHtm :=
  ⟨rfl, rfl, rfl, rfl⟩

theorem setHtm_s (x : SupState) (n : Nat) : (x.setHtm n).s = setHiN x.s x.shiftHtm n := rfl

theorem getBit_setBit (x : SupState) (i b j : Nat) (hb : b < 2) :
    (x.setBit i b).getBit j = if j = i then b else x.getBit j := by
  rw [getBit_def, setBit_s, bitAt_setBitN _ _ _ _ hb]
  rfl

theorem htm_setBit (x : SupState) (i b : Nat) (hb : b < 2) (hi : i < x.shiftHtm) : (x.setBit i b).htm = x.htm :=
  setBitN_div _ _ _ _ hb hi

theorem htm_setHtm (x : SupState) (n : Nat) : (x.setHtm n).htm = n := setHiN_div _ _ _

theorem getBit_setHtm (x : SupState) (n j : Nat) (hj : j < x.shiftHtm) : (x.setHtm n).getBit j = x.getBit j :=
  bitAt_setHiN _ _ _ _ hj

theorem getBit_lt (x : SupState) (i : Nat) : x.getBit i < 2 := bitAt_lt _ _

/-- Two states over the same features. -/
def SameShape (x y : SupState) : Prop :=
  x.shiftBody = y.shiftBody ∧ x.shiftPref = y.shiftPref ∧ x.shiftHtm = y.shiftHtm ∧ x.nHtm = y.nHtm

theorem SameShape.refl (x : SupState) : SameShape x x := ⟨rfl, rfl, rfl, rfl⟩

theorem SameShape.trans {x y z : SupState} (h : SameShape x y) (h' : SameShape y z) : SameShape x z :=
  ⟨h.1.trans h'.1, h.2.1.trans h'.2.1, h.2.2.1.trans h'.2.2.1, h.2.2.2.trans h'.2.2.2⟩

theorem SameShape.symm {x y : SupState} (h : SameShape x y) : SameShape y x :=
  ⟨h.1.symm, h.2.1.symm, h.2.2.1.symm, h.2.2.2.symm⟩

/-- A run of bit assignments below the HTM value. -/
theorem foldl_setBit (l : List Nat) (f : SupState → Nat → SupState) (x : SupState) (P : Nat → Prop)
    (hf : ∀ y i, SameShape x y → i ∈ l → ∃ j b, f y i = y.setBit j b ∧ b < 2 ∧ j < x.shiftHtm ∧ P j) :
    SameShape x (l.foldl f x) ∧ (l.foldl f x).htm = x.htm ∧ ∀ k, ¬ P k → (l.foldl f x).getBit k = x.getBit k := by
  suffices ∀ y, SameShape x y → SameShape x (l.foldl f y) ∧ (l.foldl f y).htm = y.htm ∧
      ∀ k, ¬ P k → (l.foldl f y).getBit k = y.getBit k from this x (.refl x)
  induction l with
  | nil => intro y hy; exact ⟨hy, rfl, fun _ _ => rfl⟩
  | cons i l ih =>
    intro y hy
    obtain ⟨j, b, h1, h2, h3, h4⟩ := hf y i hy (by simp)
    have hs : SameShape x (f y i) := by rw [h1]; exact hy.trans ⟨rfl, rfl, rfl, rfl⟩
    obtain ⟨h5, h6, h7⟩ := ih (fun y i hy hi => hf y i hy (by simp [hi])) (f y i) hs
    refine ⟨h5, ?_, ?_⟩
    · show (List.foldl f (f y i) l).htm = _
      rw [h6, h1, htm_setBit y j b h2 (by rw [← hy.2.2.1]; exact h3)]
    · intro k hk
      show (List.foldl f (f y i) l).getBit k = _
      rw [h7 k hk, h1, getBit_setBit y j b k h2, if_neg]
      rintro rfl
      exact hk h4

theorem lt_nStates_iff (x : SupState) : x.s < x.nStates ↔ x.htm < x.nHtm := by
  unfold nStates htm
  rw [Nat.div_lt_iff_lt_mul (Nat.two_pow_pos _)]

end SupState
end Verif
