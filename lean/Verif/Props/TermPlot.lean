import Verif.Spec.TermPlot
import Mathlib.Analysis.SpecialFunctions.Log.Monotone
import Mathlib.Analysis.SpecialFunctions.Exp
import Mathlib.Analysis.Complex.ExponentialBounds

set_option linter.unusedSectionVars false
set_option linter.unusedSimpArgs false

/-!
# C120: the figure of the exploration term
-/

namespace Verif
open Spec

theorem mem_natArange {a b k n : Nat} (hk : 0 < k) (hab : a ≤ b) : n ∈ natArange a b k ↔ a ≤ n ∧ n < b ∧ k ∣ n - a := by
  unfold natArange
  simp only [List.mem_map, List.mem_range]
  constructor
  · rintro ⟨i, hi, rfl⟩
    have h1 : (i + 1) * k ≤ b - a + k - 1 := (Nat.mul_le_mul_right k hi).trans (Nat.div_mul_le_self _ _)
    rw [Nat.add_mul] at h1
    exact ⟨by omega, by omega, ⟨i, by rw [Nat.add_sub_cancel_left, Nat.mul_comm]⟩⟩
  · rintro ⟨h1, h2, ⟨i, hi⟩⟩
    refine ⟨i, ?_, by rw [Nat.mul_comm]; omega⟩
    rw [← Nat.succ_le_iff, Nat.le_div_iff_mul_le hk]
    rw [Nat.succ_mul, Nat.mul_comm i k]
    omega

/-- **C120 (curves).**  There is a curve for each of the seven percentages; its value at `n` is `sqrt (log n / (p n))`. -/
theorem C120_curves (p n : Nat) (y : ℝ) : TermShown p n y ↔ p ∈ termPercentages ∧ n ∈ termNs ∧ y = √(Real.log n / ((p : ℝ) * n)) := by
  unfold TermShown
  constructor
  · rintro ⟨i, j, c, h1, h2, h3, h4⟩
    unfold termPlot termYs termLabels at h2
    simp only [List.getElem?_map, List.getElem?_zip_eq_some, Option.map_eq_some_iff, Prod.exists] at h2
    obtain ⟨a, b, ⟨-, p', hp', rfl⟩, rfl⟩ := h2
    rw [h1] at hp'
    cases hp'
    simp only [List.getElem?_map, Option.map_eq_some_iff] at h3 h4
    obtain ⟨n', hn', rfl⟩ := h4
    rw [h3] at hn'
    cases hn'
    exact ⟨List.mem_of_getElem? h1, List.mem_of_getElem? h3, rfl⟩
  · rintro ⟨hp, hn, rfl⟩
    obtain ⟨i, hi⟩ := List.mem_iff_getElem?.1 hp
    obtain ⟨j, hj⟩ := List.mem_iff_getElem?.1 hn
    refine ⟨i, j, ⟨"[" ++ pyStr p ++ "]%", termNs, termNs.map fun n : Nat => √(Real.log n / ((p : ℝ) * n))⟩, hi, ?_, hj, ?_⟩
    · unfold termPlot termYs termLabels
      simp only [List.getElem?_map, List.getElem?_zip_eq_some, Option.map_eq_some_iff, Prod.exists]
      exact ⟨_, _, ⟨⟨p, hi, rfl⟩, p, hi, rfl⟩, rfl⟩
    · simp only [List.getElem?_map, hj, Option.map_some]

/-- **C120 (abscissas).**  The curves have a value for the numbers of simulations below 100, and from 200 on below 100000 for the multiples of
100; for 100 there is none. -/
theorem C120_abscissas (n : Nat) : n ∈ termNs ↔ (1 ≤ n ∧ n < 100) ∨ (200 ≤ n ∧ n < 100000 ∧ 100 ∣ n) := by
  unfold termNs
  rw [List.mem_append, mem_natArange (by omega) (by omega), mem_natArange (by omega) (by omega)]
  omega

/-- **C120 (scale, false).**  The curve with the percentage `p` is a tenth of the exploration term of an action that has `p` percent of the
simulations: the percentage is used as a factor. -/
theorem C120_false_scale {p n : Nat} {y : ℝ} (h : TermShown p n y) :
    explorationTerm n ((p : ℝ) / 100 * n) = 10 * y ∧ (2 ≤ n → y < explorationTerm n ((p : ℝ) / 100 * n)) := by
  obtain ⟨hp, hn, rfl⟩ := (C120_curves p n y).1 h
  have hp0 : 0 < p := by
    simp only [termPercentages, List.mem_cons, List.not_mem_nil, or_false] at hp
    omega
  have hn0 : 0 < n := by have := (C120_abscissas n).1 hn; omega
  have hp' : (0 : ℝ) < p := by exact_mod_cast hp0
  have hn' : (0 : ℝ) < n := by exact_mod_cast hn0
  have e : explorationTerm n ((p : ℝ) / 100 * n) = 10 * √(Real.log n / ((p : ℝ) * n)) := by
    unfold explorationTerm
    rw [show Real.log n / ((p : ℝ) / 100 * n) = 10 ^ 2 * (Real.log n / ((p : ℝ) * n)) by field_simp; norm_num, Real.sqrt_mul (by norm_num),
      Real.sqrt_sq (by norm_num)]
  refine ⟨e, fun h2 => ?_⟩
  have : 0 < √(Real.log n / ((p : ℝ) * n)) := by
    refine Real.sqrt_pos.2 (div_pos (Real.log_pos ?_) (by positivity))
    exact_mod_cast h2
  rw [e]
  linarith

/-- **C120 (scale).**  For a positive exploration factor, the curve is the exploration term that the search uses, with a tenth of this factor, for an action
with `m` of the `n` simulations, when `m` is `p` percent of `n`. -/
theorem C120_search {p n m : Nat} {y : ℝ} (h : TermShown p n y) (hm : 100 * m = p * n) (bonus : Nat → Nat → ℚ) (r : ℝ) (hb : ApproxUcb r bonus) :
    |(bonus n m : ℝ) - 10 * y| ≤ r * (10 * y) := by
  obtain ⟨hp, hn, -⟩ := (C120_curves p n y).1 h
  have hp0 : 0 < p := by
    simp only [termPercentages, List.mem_cons, List.not_mem_nil, or_false] at hp
    omega
  have hn0 : 0 < n := by have := (C120_abscissas n).1 hn; omega
  have hm0 : 0 < m := by
    have := Nat.mul_pos hp0 hn0
    omega
  have := hb n m hn0 hm0
  rw [← (C120_false_scale h).1]
  have e : ((p : ℝ) / 100 * n) = m := by
    have : (100 : ℝ) * m = p * n := by exact_mod_cast hm
    linarith
  rw [e]
  exact this

/-- **C120 (order).**  The curves of larger percentages are below. -/
theorem C120_order {p q n : Nat} {y z : ℝ} (h : TermShown p n y) (h' : TermShown q n z) (hpq : p < q) : z ≤ y ∧ (2 ≤ n → z < y) := by
  obtain ⟨hp, hn, rfl⟩ := (C120_curves p n y).1 h
  obtain ⟨hq, -, rfl⟩ := (C120_curves q n z).1 h'
  have hp0 : 0 < p := by
    simp only [termPercentages, List.mem_cons, List.not_mem_nil, or_false] at hp
    omega
  have hn0 : 0 < n := by have := (C120_abscissas n).1 hn; omega
  have hp' : (0 : ℝ) < p := by exact_mod_cast hp0
  have hn' : (0 : ℝ) < n := by exact_mod_cast hn0
  have hpq' : (p : ℝ) < q := by exact_mod_cast hpq
  have hl : 0 ≤ Real.log n := Real.log_natCast_nonneg n
  constructor
  · exact Real.sqrt_le_sqrt (div_le_div_of_nonneg_left hl (by positivity) (by gcongr))
  · intro h2
    have hl' : 0 < Real.log n := Real.log_pos (by exact_mod_cast h2)
    exact Real.sqrt_lt_sqrt (by positivity) (div_lt_div_of_pos_left hl' (by positivity) (by gcongr))

/-- **C120 (shape).**  A curve starts from 0, rises until three simulations and never rises after. -/
theorem C120_shape {p n k : Nat} {y z : ℝ} (h : TermShown p n y) (h' : TermShown p k z) (hnk : n < k) :
    (n = 1 → y = 0) ∧ (k ≤ 3 → y < z) ∧ (3 ≤ n → z ≤ y) := by
  obtain ⟨hp, hn, rfl⟩ := (C120_curves p n y).1 h
  obtain ⟨-, hk, rfl⟩ := (C120_curves p k z).1 h'
  have hp0 : 0 < p := by
    simp only [termPercentages, List.mem_cons, List.not_mem_nil, or_false] at hp
    omega
  have hn0 : 0 < n := by have := (C120_abscissas n).1 hn; omega
  have hp' : (0 : ℝ) < p := by exact_mod_cast hp0
  have hn' : (0 : ℝ) < n := by exact_mod_cast hn0
  have e : ∀ x : Nat, Real.log x / ((p : ℝ) * x) = Real.log x / x / p := fun x => by rw [div_div, mul_comm]
  rw [e n, e k]
  refine ⟨fun h1 => by subst h1; simp, fun h3 => ?_, fun h3 => ?_⟩
  · have l2 : 0 < Real.log 2 := Real.log_pos (by norm_num)
    have l3 : 0 < Real.log 3 := Real.log_pos (by norm_num)
    have h89 : 3 * Real.log 2 < 2 * Real.log 3 := by
      rw [show (3 : ℝ) * Real.log 2 = Real.log (2 ^ 3) by rw [Real.log_pow]; norm_num,
        show (2 : ℝ) * Real.log 3 = Real.log (3 ^ 2) by rw [Real.log_pow]; norm_num]
      exact Real.log_lt_log (by norm_num) (by norm_num)
    have key : Real.log n / n < Real.log k / k := by
      have : (n = 1 ∧ k = 2) ∨ (n = 1 ∧ k = 3) ∨ (n = 2 ∧ k = 3) := by omega
      rcases this with ⟨rfl, rfl⟩ | ⟨rfl, rfl⟩ | ⟨rfl, rfl⟩
      · simpa using l2
      · simpa using l3
      · push_cast
        rw [div_lt_div_iff₀ (by norm_num) (by norm_num)]
        linarith
    refine Real.sqrt_lt_sqrt (div_nonneg (div_nonneg (Real.log_natCast_nonneg n) hn'.le) hp'.le) ?_
    gcongr
  · have he : Real.exp 1 ≤ 3 := by have := Real.exp_one_lt_d9; linarith
    have a1 : (3 : ℝ) ≤ n := by exact_mod_cast h3
    have a2 : (n : ℝ) ≤ k := by exact_mod_cast hnk.le
    have := Real.log_div_self_antitoneOn (show (n : ℝ) ∈ {x | Real.exp 1 ≤ x} from he.trans a1)
      (show (k : ℝ) ∈ {x | Real.exp 1 ≤ x} from he.trans (a1.trans a2)) a2
    refine Real.sqrt_le_sqrt ?_
    simp only at this
    gcongr

/-- **C120 (labels, false).**  The labels have brackets, since a row of `percentages` is an array. -/
theorem C120_false_labels : termPlot.map (·.label) = ["[1]%", "[5]%", "[10]%", "[30]%", "[50]%", "[70]%", "[100]%"] := by
  have : termPlot.map (·.label) = termLabels := by
    unfold termPlot
    rw [List.map_map]
    exact List.map_fst_zip (by simp [termLabels, termYs])
  rw [this]
  decide +kernel

/-- The figure has values. -/
example : TermShown 50 400 √(Real.log (400 : Nat) / (((50 : Nat) : ℝ) * (400 : Nat))) ∧ TermShown 100 400 √(Real.log (400 : Nat) / (((100 : Nat) : ℝ) * (400 : Nat))) ∧
    100 * 200 = 50 * 400 := by
  refine ⟨(C120_curves _ _ _).2 ⟨by decide, (C120_abscissas _).2 (by omega), rfl⟩, (C120_curves _ _ _).2 ⟨by decide, (C120_abscissas _).2 (by omega), rfl⟩, rfl⟩

end Verif
