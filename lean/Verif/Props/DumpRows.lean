import Verif.Props.Pomdp

/-! Property C41 (the length of the rows that are written without negative entries). -/

namespace Verif
open Spec

/-- What is written for a row of probabilities. -/
theorem written_row (n : Nat) (a : List ℚ) (ha : IsDist n a) :
    ∃ r m, dumpRow a = .ok r ∧ m < n ∧ (∀ i < n, around (a.getD i 0) ≤ around (a.getD m 0)) ∧
      (∀ i < n, i ≠ m → r.getD i 0 = around (a.getD i 0)) ∧ FiveDecimals (r.getD m 0) ∧
      r.getD m 0 = around (a.getD m 0) + (1 - sumRange n (fun j => around (a.getD j 0))) := by
  obtain ⟨hl, h0, hs⟩ := ha
  have hsum : a.sum = 1 := by rw [sum_eq_sumRange, hl, hs]
  have hne : a ≠ [] := by rintro rfl; simp at hsum
  obtain ⟨r, m, h1, h2, hm, hmax, hoth, hrs, hfive⟩ := C41_row a hne
  rw [hl] at *
  refine ⟨r, m, h1, hm, hmax, hoth, hfive m hm, ?_⟩
  rw [hsum, around_one] at hrs
  have hrsum : r.sum = sumRange n (fun j => r.getD j 0) := by rw [sum_eq_sumRange, h2]
  have hdiff : sumRange n (fun j => r.getD j 0) =
      sumRange n (fun j => around (a.getD j 0)) + sumRange n (fun j => if j = m then r.getD m 0 - around (a.getD m 0) else 0) := by
    rw [← sumRange_add]
    apply sumRange_congr
    intro j hj
    by_cases hji : j = m
    · subst hji; simp
    · rw [hoth j hj hji, if_neg hji, add_zero]
  rw [sumRange_ite _ _ _ hm, ← hrsum, hrs] at hdiff
  linarith

/-- Rows of up to 449 probabilities are written without negative entries. -/
theorem short_rows (n : Nat) (a : List ℚ) (ha : IsDist n a) (hn : n ≤ 449) (r : List ℚ) (hr : dumpRow a = .ok r) :
    ∀ i < n, 0 ≤ r.getD i 0 := by
  obtain ⟨r', m, h1, hm, hmax, hoth, hfive, hri⟩ := written_row n a ha
  rw [hr] at h1
  cases h1
  obtain ⟨hl, h0, hs⟩ := ha
  have hround0 : ∀ x, 0 ≤ x → 0 ≤ around x := by
    intro x hx
    have h := around_mono_le 0 x hx
    have h00 : around 0 = 0 := by decide +kernel
    linarith
  intro i hi
  by_cases him : i = m
  · subst him
    by_contra hc
    obtain ⟨c, hc'⟩ := hfive
    have hc1 : c ≤ -1 := by
      have : (c : ℚ) / 100000 < 0 := by rw [← hc']; exact not_le.1 hc
      have : (c : ℚ) < 0 := by linarith
      have : c < 0 := by exact_mod_cast this
      omega
    have hc2 : (c : ℚ) ≤ -1 := by exact_mod_cast hc1
    obtain ⟨k, hk⟩ : FiveDecimals (around (a.getD i 0)) := ⟨_, rfl⟩
    have hk0 : 0 ≤ (k : ℚ) / 100000 := by rw [← hk]; exact hround0 _ (h0 i hi)
    have hle1 := sumRange_le n (fun j => around (a.getD j 0)) (fun _ => around (a.getD i 0)) hmax
    rw [sumRange_const, hk] at hle1
    have hle2 : sumRange n (fun j => around (a.getD j 0)) ≤ 1 + n * (1 / 200000) + (around (a.getD i 0) - a.getD i 0 - 1 / 200000) := by
      have := sumRange_le n (fun j => around (a.getD j 0))
        (fun j => (a.getD j 0 + 1 / 200000) + if j = i then around (a.getD i 0) - a.getD i 0 - 1 / 200000 else 0) (by
          intro j hj
          by_cases hji : j = i
          · subst hji; simp
          · simp only [if_neg hji, add_zero]
            exact (around_bound _).2)
      rw [sumRange_add, sumRange_add, sumRange_const, hs, sumRange_ite _ _ _ hi] at this
      exact this
    have hb := (around_bound (a.getD i 0)).2
    rw [hk] at hle2 hb hri
    rw [hc'] at hri
    have e1 : 2 * (k : ℚ) + 2 ≤ n := by linarith
    have e2 : (100001 : ℚ) ≤ n * k - k := by linarith
    have e1' : 2 * k + 2 ≤ n := by exact_mod_cast e1
    have e2' : (100001 : Int) ≤ n * k - k := by exact_mod_cast e2
    have hk3 : (0 : Int) ≤ k := by
      have : (0 : ℚ) ≤ k := by linarith
      exact_mod_cast this
    have hn' : (n : Int) ≤ 449 := by exact_mod_cast hn
    have hk4 : k ≤ 223 := by omega
    nlinarith
  · rw [hoth i hi him]
    exact hround0 _ (h0 i hi)

/-- A row with a negative entry: 324 times 222.5 + 1/450 and 126 times 221.5 + 1/450 units, followed by zeros. -/
def longRow (k : Nat) : List ℚ :=
  List.replicate 324 (100126 / 450 / 100000) ++ (List.replicate 126 (99676 / 450 / 100000) ++ List.replicate k 0)

theorem entry_eq (l : List ℚ) {i : Nat} (h : i < l.length) : l.getD i 0 = l[i] := by
  simp [List.getD_eq_getElem?_getD, h]

theorem longRow_mem {k : Nat} {x : ℚ} (h : x ∈ longRow k) : x = 100126 / 450 / 100000 ∨ x = 99676 / 450 / 100000 ∨ x = 0 := by
  simp only [longRow, List.mem_append, List.mem_replicate] at h
  tauto

theorem longRow_dist (k : Nat) : IsDist (450 + k) (longRow k) := by
  have hl : (longRow k).length = 450 + k := by
    rw [longRow, List.length_append, List.length_append, List.length_replicate, List.length_replicate, List.length_replicate]
    omega
  refine ⟨hl, ?_, ?_⟩
  · intro i hi
    rw [entry_eq _ (by omega)]
    rcases longRow_mem (List.getElem_mem (by omega : i < (longRow k).length)) with h | h | h <;> rw [h] <;> norm_num
  · have h := sum_eq_sumRange (longRow k)
    rw [hl] at h
    rw [← h, longRow, List.sum_append, List.sum_append, sum_replicate_q, sum_replicate_q, sum_replicate_q]
    norm_num

theorem longRow_negative (k : Nat) : ∃ r, dumpRow (longRow k) = .ok r ∧ ∃ i < 450 + k, r.getD i 0 < 0 := by
  obtain ⟨r, m, h1, hm, hmax, hoth, -, hri⟩ := written_row _ _ (longRow_dist k)
  refine ⟨r, h1, m, hm, ?_⟩
  have hl : (longRow k).length = 450 + k := (longRow_dist k).1
  have e1 : around (100126 / 450 / 100000) = 223 / 100000 := by decide +kernel
  have e2 : around (99676 / 450 / 100000) = 222 / 100000 := by decide +kernel
  have e3 : around 0 = 0 := by decide +kernel
  have hm' : around ((longRow k).getD m 0) ≤ 223 / 100000 := by
    rw [entry_eq _ (by omega)]
    rcases longRow_mem (List.getElem_mem (by omega : m < (longRow k).length)) with h | h | h <;> rw [h]
    · rw [e1]
    · rw [e2]; norm_num
    · rw [e3]; norm_num
  have hsum : sumRange (450 + k) (fun j => around ((longRow k).getD j 0)) = 100224 / 100000 := by
    have h := sum_eq_sumRange ((longRow k).map around)
    rw [List.length_map, hl] at h
    have h' : sumRange (450 + k) (fun j => around ((longRow k).getD j 0)) = sumRange (450 + k) (fun j => ((longRow k).map around).getD j 0) := by
      apply sumRange_congr
      intro j hj
      rw [entry_eq _ (by omega), entry_eq _ (by rw [List.length_map]; omega), List.getElem_map]
    rw [h', ← h, longRow, List.map_append, List.map_append, List.map_replicate, List.map_replicate, List.map_replicate, e1, e2, e3,
      List.sum_append, List.sum_append, sum_replicate_q, sum_replicate_q, sum_replicate_q]
    norm_num
  rw [hri, hsum]
  linarith

/-- **C41 (non-negative entries).**  All the rows of `n` probabilities are written without negative entries exactly when `n` is at
most 449. -/
theorem C41_nonneg_lengths (n : Nat) :
    (∀ a r, IsDist n a → dumpRow a = .ok r → ∀ i < n, 0 ≤ r.getD i 0) ↔ n ≤ 449 := by
  constructor
  · intro h
    by_contra hc
    obtain ⟨k, rfl⟩ : ∃ k, n = 450 + k := ⟨n - 450, by omega⟩
    obtain ⟨r, h1, i, hi, hneg⟩ := longRow_negative k
    exact absurd (h _ _ (longRow_dist k) h1 i hi) (not_le.2 hneg)
  · intro hn a r ha hr
    exact short_rows n a ha hn r hr

/-- Non-vacuity: a row of thirds. -/
example : IsDist 3 [1 / 3, 1 / 3, 1 / 3] ∧ dumpRow [1 / 3, 1 / 3, 1 / 3] = .ok [33334 / 100000, 33333 / 100000, 33333 / 100000] := by
  refine ⟨⟨rfl, ?_, ?_⟩, ?_⟩
  · intro i hi
    interval_cases i <;> norm_num
  · norm_num [sumRange, List.range_succ]
  · decide +kernel

end Verif
