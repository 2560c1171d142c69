import Verif.Spec.Trajectory
import Verif.Proof.Text
import Verif.Proof.Pomdp
import Mathlib.Tactic.Linarith
import Mathlib.Tactic.Ring
import Mathlib.Tactic.FieldSimp
import Mathlib.Tactic.IntervalCases

/-! Lemmas on the texts and the log of trajectories (C89). -/

set_option linter.unusedSectionVars false
set_option linter.unusedSimpArgs false

namespace Verif
open Spec

/-! ### Numbers -/

theorem showAux_length : ∀ (d fuel n : Nat), n < 10 ^ (d + 1) → (showAux fuel n).length ≤ d + 1 := by
  intro d
  induction d with
  | zero =>
      intro fuel n hn
      cases fuel with
      | zero => simp [showAux]
      | succ f => simp only [showAux]; rw [if_pos (by simpa using hn)]; simp
  | succ d ih =>
      intro fuel n hn
      cases fuel with
      | zero => simp [showAux]
      | succ f =>
          simp only [showAux]
          split
          · simp
          · have : n / 10 < 10 ^ (d + 1) := by
              rw [Nat.div_lt_iff_lt_mul (by omega)]
              rw [Nat.pow_succ] at hn
              exact hn
            have := ih f (n / 10) this
            simp only [List.length_append, List.length_singleton]
            omega

theorem digitsVal_zeros : ∀ (k : Nat) (t : List Char), digitsVal (List.replicate k '0' ++ t) 0 = digitsVal t 0 := by
  intro k t
  induction k with
  | zero => rfl
  | succ k ih => rw [List.replicate_succ, List.cons_append]; exact ih

theorem digits_no_point {t : List Char} (h : ∀ c ∈ t, IsDigit c) : ∀ c ∈ t, c ≠ '.' := by
  intro c hc e
  have := h c hc
  subst e
  revert this
  unfold IsDigit
  decide

theorem padZeros_spec {d n : Nat} (hd : 1 ≤ d) (hn : n < 10 ^ d) :
    (padZeros d n).length = d ∧ (∀ c ∈ padZeros d n, IsDigit c) ∧ readDigits (padZeros d n) = some n := by
  obtain ⟨d, rfl⟩ : ∃ e, d = e + 1 := ⟨d - 1, by omega⟩
  have hl : (showNat n).length ≤ d + 1 := showAux_length d (n + 1) n hn
  obtain ⟨h1, h2, h3⟩ := showNat_spec n
  refine ⟨by simp only [padZeros, List.length_append, List.length_replicate]; omega, ?_, ?_⟩
  · intro c hc
    unfold padZeros at hc
    rcases List.mem_append.1 hc with hc | hc
    · rw [(List.mem_replicate.1 hc).2]; unfold IsDigit; decide
    · exact h2 c hc
  · unfold readDigits
    have hne : padZeros (d + 1) n ≠ [] := by unfold padZeros; simp [h1]
    rw [if_neg hne]
    unfold parseNat at h3 ⊢
    rw [if_neg hne]
    rw [if_neg h1] at h3
    unfold padZeros
    rw [digitsVal_zeros, h3]

theorem readUnsigned_digits {w f : List Char} {n k : Nat} (hw : ∀ c ∈ w, IsDigit c) (hf : ∀ c ∈ f, IsDigit c)
    (h1 : readDigits w = some n) (h2 : readDigits f = some k) : readUnsigned (w ++ '.' :: f) = some ((n : ℚ) + (k : ℚ) / 10 ^ f.length) := by
  unfold readUnsigned
  rw [splitOn_append _ _ _ (digits_no_point hw), splitOn_word _ _ (digits_no_point hf)]
  simp only [h1, h2]
  rfl

theorem readDigits_showNat (n : Nat) : readDigits (showNat n) = some n := by
  obtain ⟨h1, h2, h3⟩ := showNat_spec n
  unfold readDigits
  rw [if_neg h1, h3]

theorem readDecimal_unsigned {t : List Char} (h : ∀ c ∈ t.head?, c ≠ '-') : readDecimal t = readUnsigned t := by
  unfold readDecimal
  split
  · rename_i u
    exact absurd rfl (h '-' (by simp))
  · rfl

theorem roundEven_nonneg {x : ℚ} (h : 0 ≤ x) : 0 ≤ roundEven x := by
  have := (roundEven_bound x).1
  have h2 : (-1 : ℚ) < (roundEven x : ℚ) := by linarith
  have h3 : (-1 : Int) < roundEven x := by exact_mod_cast h2
  omega

theorem roundEven_nonpos {x : ℚ} (h : x ≤ 0) : roundEven x ≤ 0 := by
  have := (roundEven_bound x).2
  have h2 : (roundEven x : ℚ) < 1 := by linarith
  have h3 : roundEven x < (1 : Int) := by exact_mod_cast h2
  omega

theorem natAbs_rat_nonneg {k : Int} (h : 0 ≤ k) : (k.natAbs : ℚ) = (k : ℚ) := by
  obtain ⟨n, rfl⟩ := Int.eq_ofNat_of_zero_le h
  simp

theorem natAbs_rat_nonpos {k : Int} (h : k ≤ 0) : (k.natAbs : ℚ) = -(k : ℚ) := by
  have := natAbs_rat_nonneg (k := -k) (by omega)
  rw [Int.natAbs_neg] at this
  rw [this]
  push_cast
  rfl

/-- A number written with `d` decimals reads as a number that differs from it by at most half a unit of the last digit. -/
theorem fixedText_read {d : Nat} (hd : 1 ≤ d) (x : ℚ) :
    ∃ y, readDecimal (fixedText d x) = some y ∧ y = (roundEven (x * 10 ^ d) : ℚ) / 10 ^ d ∧ |y - x| ≤ 1 / (2 * 10 ^ d) := by
  have hp : (0 : ℚ) < 10 ^ d := by positivity
  have hpn : 0 < 10 ^ d := by positivity
  have hb : |(roundEven (x * 10 ^ d) : ℚ) / 10 ^ d - x| ≤ 1 / (2 * 10 ^ d) := by
    obtain ⟨b1, b2⟩ := roundEven_bound (x * 10 ^ d)
    have e : (roundEven (x * 10 ^ d) : ℚ) / 10 ^ d - x = ((roundEven (x * 10 ^ d) : ℚ) - x * 10 ^ d) / 10 ^ d := by
      field_simp
    rw [e, abs_div, abs_of_pos hp, div_le_div_iff₀ hp (by positivity)]
    have : |(roundEven (x * 10 ^ d) : ℚ) - x * 10 ^ d| ≤ 1 / 2 := abs_le.2 ⟨by linarith, by linarith⟩
    nlinarith
  refine ⟨_, ?_, rfl, hb⟩
  obtain ⟨p1, p2, p3⟩ := padZeros_spec (n := (roundEven (x * 10 ^ d)).natAbs % 10 ^ d) hd (Nat.mod_lt _ hpn)
  obtain ⟨s1, s2, s3⟩ := showNat_spec ((roundEven (x * 10 ^ d)).natAbs / 10 ^ d)
  have hr := readUnsigned_digits s2 p2 (readDigits_showNat _) p3
  have hval : (((roundEven (x * 10 ^ d)).natAbs / 10 ^ d : ℕ) : ℚ) + (((roundEven (x * 10 ^ d)).natAbs % 10 ^ d : ℕ) : ℚ) / 10 ^ d =
      ((roundEven (x * 10 ^ d)).natAbs : ℚ) / 10 ^ d := by
    have := Nat.div_add_mod (roundEven (x * 10 ^ d)).natAbs (10 ^ d)
    have h2 : ((10 ^ d : ℕ) : ℚ) * (((roundEven (x * 10 ^ d)).natAbs / 10 ^ d : ℕ) : ℚ) + (((roundEven (x * 10 ^ d)).natAbs % 10 ^ d : ℕ) : ℚ) =
        ((roundEven (x * 10 ^ d)).natAbs : ℚ) := by exact_mod_cast this
    rw [← h2]
    push_cast
    field_simp
  rw [p1, hval] at hr
  by_cases hx : x < 0
  · have ht : fixedText d x = '-' :: (showNat ((roundEven (x * 10 ^ d)).natAbs / 10 ^ d) ++ '.' :: padZeros d ((roundEven (x * 10 ^ d)).natAbs % 10 ^ d)) := by
      simp only [fixedText, if_pos hx]; simp
    rw [ht]
    unfold readDecimal
    simp only [hr, Option.map_some]
    have hn := roundEven_nonpos (x := x * 10 ^ d) (by nlinarith)
    congr 1
    rw [natAbs_rat_nonpos hn]
    ring
  · have ht : fixedText d x = showNat ((roundEven (x * 10 ^ d)).natAbs / 10 ^ d) ++ '.' :: padZeros d ((roundEven (x * 10 ^ d)).natAbs % 10 ^ d) := by
      simp only [fixedText, if_neg hx]; simp
    rw [ht, readDecimal_unsigned, hr]
    · have hn := roundEven_nonneg (x := x * 10 ^ d) (by have := not_lt.1 hx; positivity)
      rw [natAbs_rat_nonneg hn]
    · intro c hc
      cases hs : showNat ((roundEven (x * 10 ^ d)).natAbs / 10 ^ d) with
      | nil => exact absurd hs s1
      | cons a l =>
          rw [hs] at hc
          simp only [List.cons_append, List.head?_cons, Option.mem_def, Option.some.injEq] at hc
          subst hc
          exact (isDigit_ne a (s2 a (by rw [hs]; simp))).1

theorem fixedText_chars (d : Nat) (x : ℚ) : ∀ c ∈ fixedText d x, IsDigit c ∨ c = '.' ∨ c = '-' := by
  intro c hc
  simp only [fixedText, padZeros, List.mem_append] at hc
  rcases hc with (((hc | hc) | hc) | hc | hc)
  · split at hc
    · right; right; simpa using hc
    · cases hc
  · exact .inl ((showNat_spec _).2.1 c hc)
  · right; left; simpa using hc
  · left; rw [(List.mem_replicate.1 hc).2]; unfold IsDigit; decide
  · exact .inl ((showNat_spec _).2.1 c hc)

theorem formatP_no_space (x : ℚ) : ∀ c ∈ formatP x, c ≠ ' ' := by
  intro c hc
  unfold formatP at hc
  split at hc
  · intro e; subst e; simp at hc
  · rcases fixedText_chars 1 x c (List.mem_of_mem_drop hc) with h | rfl | rfl
    · exact (isDigit_ne c h).2.2.2.1
    · decide
    · decide

/-- A probability is written with two characters, and reads as a number that differs from it by at most 0.05. -/
theorem formatP_spec {x : ℚ} (h0 : 0 ≤ x) (h1 : x ≤ 1) :
    (formatP x).length = 2 ∧ ∃ y, readDecimal (formatP x) = some y ∧ |y - x| ≤ 1 / 20 := by
  obtain ⟨y, _, h3, h4⟩ := fixedText_read (d := 1) le_rfl x
  have hk0 : 0 ≤ roundEven (x * 10) := roundEven_nonneg (by linarith)
  have hk1 : roundEven (x * 10) ≤ 10 := by
    have := (roundEven_bound (x * 10)).2
    have h2 : (roundEven (x * 10) : ℚ) < 11 := by linarith
    have h3 : roundEven (x * 10) < (11 : Int) := by exact_mod_cast h2
    omega
  have hx : ¬ x < 0 := not_lt.2 h0
  simp only [pow_one] at h3 h4
  have key : ∀ k : Int, roundEven (x * 10) = k → fixedText 1 x =
      showNat (k.natAbs / 10) ++ ['.'] ++ padZeros 1 (k.natAbs % 10) := by
    intro k hk
    simp only [fixedText, if_neg hx, pow_one, hk]
    rfl
  have hy : |y - x| ≤ 1 / 20 := by norm_num at h4 ⊢; exact h4
  generalize hk : roundEven (x * 10) = k at *
  have fin : ∀ t : List Char, fixedText 1 x = t → (if t = ['1', '.', '0'] then ['1', '.'] else t.drop 1).length = 2 →
      readDecimal (if t = ['1', '.', '0'] then ['1', '.'] else t.drop 1) = some ((k : ℚ) / 10) →
      (formatP x).length = 2 ∧ ∃ y, readDecimal (formatP x) = some y ∧ |y - x| ≤ 1 / 20 := by
    intro t ht a1 a2
    unfold formatP
    rw [ht]
    exact ⟨a1, y, by rw [a2, h3], hy⟩
  have hf := key k rfl
  refine fin _ hf ?_ ?_
  · interval_cases k <;> decide
  · interval_cases k <;> decide +kernel

theorem splitOn_joinWith (sep : Char) : ∀ (l : List (List Char)), l ≠ [] → (∀ w ∈ l, ∀ c ∈ w, c ≠ sep) → splitOn sep (joinWith [sep] l) = l := by
  intro l
  induction l with
  | nil => intro h; exact absurd rfl h
  | cons w l ih =>
      intro _ hw
      cases l with
      | nil => simp only [joinWith]; exact splitOn_word _ _ (hw w (by simp))
      | cons v l =>
          simp only [joinWith]
          rw [List.append_assoc, List.singleton_append, splitOn_append _ _ _ (hw w (by simp)), ih (by simp) (fun u hu => hw u (by simp [hu]))]

/-! ### States -/

theorem joinRange_bits (n : Nat) (f : Nat → Nat) (h : ∀ i, f i < 2) :
    joinRange n f = (List.range n).map fun i => if f i = 1 then '1' else '0' := by
  unfold joinRange
  have : ∀ l : List Nat, (l.map fun i => showNat (f i)).flatten = l.map fun i => if f i = 1 then '1' else '0' := by
    intro l
    induction l with
    | nil => rfl
    | cons a l ih =>
        rw [List.map_cons, List.flatten_cons, ih, List.map_cons]
        have := h a
        have h2 : f a = 0 ∨ f a = 1 := by omega
        rcases h2 with h2 | h2 <;> rw [h2] <;> rfl
  exact this _

theorem getBit_lt (x : SupState) (i : Nat) : x.getBit i < 2 := Nat.mod_lt _ (by omega)

theorem padLeft_pyInt (w n : Nat) : pyInt (padLeft w (showNat n)) = .ok (n : Int) := by
  have := pyInt_showInt (List.replicate (w - (showNat n).length) ' ') [] (n : Int)
    (by intro c hc; rw [(List.mem_replicate.1 hc).2]; decide) (by simp)
  simpa [padLeft, showInt] using this

end Verif
