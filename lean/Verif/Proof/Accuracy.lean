import Verif.Spec.Accuracy
import Verif.Proof.Mean
import Mathlib.Algebra.BigOperators.Ring.Finset
import Mathlib.Probability.Moments.SubGaussian
import Mathlib.Probability.UniformOn

/-! Proofs about means of independent draws (C119). -/

set_option linter.unusedSectionVars false
set_option linter.unusedSimpArgs false

namespace Verif
open Spec

section
variable {Ω : Type} [Fintype Ω]

/-- Means of products of independent factors. -/
theorem sum_prod_pi {F : Type} [Field F] {n : Nat} (h : Fin n → Ω → F) :
    (∑ ω : Fin n → Ω, ∏ i, h i (ω i)) = ∏ i, ∑ x, h i x := by
  classical
  rw [Finset.prod_univ_sum]
  simp

theorem mean_prod_pi {n : Nat} (h : Fin n → Ω → ℚ) : mean (fun ω : Fin n → Ω => ∏ i, h i (ω i)) = ∏ i, mean (h i) := by
  unfold mean
  rw [sum_prod_pi, Finset.prod_div_distrib]
  simp

theorem mean_sum {n : Nat} (h : Fin n → Ω → ℚ) : mean (fun ω => ∑ i, h i ω) = ∑ i, mean (h i) := by
  unfold mean
  rw [Finset.sum_comm, Finset.sum_div]

variable [Nonempty Ω]

theorem mean_coord {n : Nat} (g : Ω → ℚ) (i : Fin n) : mean (fun ω : Fin n → Ω => g (ω i)) = mean g := by
  classical
  have h := mean_prod_pi (n := n) fun k x => if k = i then g x else 1
  have e : ∀ ω : Fin n → Ω, (∏ k, if k = i then g (ω k) else 1) = g (ω i) := fun ω => by
    rw [Finset.prod_ite_eq' Finset.univ i fun k => g (ω k)]; simp
  rw [mean_congr e] at h
  rw [h]
  have e2 : ∀ k : Fin n, (mean fun x => if k = i then g x else 1) = if k = i then mean g else 1 := by
    intro k
    by_cases hk : k = i
    · simp [hk]
    · simp [hk, mean_const]
  rw [Finset.prod_congr rfl fun k _ => e2 k, Finset.prod_ite_eq' Finset.univ i fun _ => mean g]
  simp

theorem mean_pair {n : Nat} (g : Ω → ℚ) (hg : mean g = 0) (i j : Fin n) (hij : i ≠ j) :
    mean (fun ω : Fin n → Ω => g (ω i) * g (ω j)) = 0 := by
  classical
  have h := mean_prod_pi (n := n) fun k x => (if k = i then g x else 1) * (if k = j then g x else 1)
  have e : ∀ ω : Fin n → Ω, (∏ k, (if k = i then g (ω k) else 1) * (if k = j then g (ω k) else 1)) = g (ω i) * g (ω j) := fun ω => by
    rw [Finset.prod_mul_distrib, Finset.prod_ite_eq' Finset.univ i fun k => g (ω k), Finset.prod_ite_eq' Finset.univ j fun k => g (ω k)]
    simp
  rw [mean_congr e] at h
  rw [h]
  refine Finset.prod_eq_zero (Finset.mem_univ i) ?_
  simp [hij, hg]

/-- The deviations sum to zero on average. -/
theorem mean_centered (f : Ω → ℚ) : mean (fun x => f x - mean f) = 0 := by
  have : (fun x => f x - mean f) = fun x => -mean f + 1 * f x := by funext x; ring
  rw [this, mean_affine]
  ring

theorem mean_sampleMean {n : Nat} (hn : 0 < n) (f : Ω → ℚ) : mean (fun ω : Fin n → Ω => sampleMean f ω) = mean f := by
  have h0 : (n : ℚ) ≠ 0 := by exact_mod_cast hn.ne'
  unfold sampleMean
  have e : (fun ω : Fin n → Ω => (∑ i, f (ω i)) / n) = fun ω => (1 / n : ℚ) * ∑ i, f (ω i) := by funext ω; ring
  rw [e, mean_mul, mean_sum (fun i (ω : Fin n → Ω) => f (ω i)), Finset.sum_congr rfl fun i _ => mean_coord f i]
  simp
  field_simp

theorem sampleMean_dev {n : Nat} (hn : 0 < n) (f : Ω → ℚ) (ω : Fin n → Ω) : sampleMean f ω - mean f = (∑ i, (f (ω i) - mean f)) / n := by
  have h0 : (n : ℚ) ≠ 0 := by exact_mod_cast hn.ne'
  unfold sampleMean
  rw [Finset.sum_sub_distrib]
  simp
  field_simp

theorem mean_square {n : Nat} (f : Ω → ℚ) : mean (fun ω : Fin n → Ω => (∑ i, (f (ω i) - mean f)) ^ 2) = n * varianceIn f := by
  classical
  have e : (fun ω : Fin n → Ω => (∑ i, (f (ω i) - mean f)) ^ 2) = fun ω => ∑ i, ∑ j, (f (ω i) - mean f) * (f (ω j) - mean f) := by
    funext ω
    rw [sq, Finset.sum_mul_sum]
  rw [e, mean_sum (fun i (ω : Fin n → Ω) => ∑ j, (f (ω i) - mean f) * (f (ω j) - mean f))]
  have e2 : ∀ i : Fin n, mean (fun ω : Fin n → Ω => ∑ j, (f (ω i) - mean f) * (f (ω j) - mean f)) = varianceIn f := by
    intro i
    rw [mean_sum (fun j (ω : Fin n → Ω) => (f (ω i) - mean f) * (f (ω j) - mean f)), Finset.sum_eq_single i]
    · have := mean_coord (n := n) (fun x => (f x - mean f) ^ 2) i
      rw [varianceIn, ← this]
      exact mean_congr fun ω => by ring
    · intro j _ hj
      exact mean_pair (fun x => f x - mean f) (mean_centered f) i j (Ne.symm hj)
    · simp
  rw [Finset.sum_congr rfl fun i _ => e2 i]
  simp

theorem mean_error {n : Nat} (hn : 0 < n) (f : Ω → ℚ) : mean (fun ω : Fin n → Ω => (sampleMean f ω - mean f) ^ 2) = varianceIn f / n := by
  have h0 : (n : ℚ) ≠ 0 := by exact_mod_cast hn.ne'
  have e : (fun ω : Fin n → Ω => (sampleMean f ω - mean f) ^ 2) = fun ω => (1 / (n : ℚ) ^ 2) * (∑ i, (f (ω i) - mean f)) ^ 2 := by
    funext ω
    rw [sampleMean_dev hn]
    ring
  rw [e, mean_mul, mean_square]
  field_simp

theorem sampleVar_eq {n : Nat} (hn : 0 < n) (f : Ω → ℚ) (ω : Fin n → Ω) :
    sampleVar f ω = (∑ i, (f (ω i) - mean f) ^ 2) / n - (sampleMean f ω - mean f) ^ 2 := by
  have h0 : (n : ℚ) ≠ 0 := by exact_mod_cast hn.ne'
  have h1 := sampleMean_dev hn f ω
  unfold sampleVar
  set s := sampleMean f ω - mean f with hs
  have e : ∀ i, (f (ω i) - sampleMean f ω) ^ 2 = (f (ω i) - mean f) ^ 2 - 2 * s * (f (ω i) - mean f) + s ^ 2 := by
    intro i
    rw [hs]
    ring
  rw [Finset.sum_congr rfl fun i _ => e i, Finset.sum_add_distrib, Finset.sum_sub_distrib, ← Finset.mul_sum]
  have h2 : (∑ i, (f (ω i) - mean f)) = n * s := by rw [h1]; field_simp
  rw [h2]
  simp
  field_simp
  ring

theorem mean_sampleVar {n : Nat} (hn : 0 < n) (f : Ω → ℚ) : mean (fun ω : Fin n → Ω => sampleVar f ω) = (1 - 1 / n) * varianceIn f := by
  have h0 : (n : ℚ) ≠ 0 := by exact_mod_cast hn.ne'
  have e : (fun ω : Fin n → Ω => sampleVar f ω) =
      fun ω => (1 / n : ℚ) * (∑ i, (f (ω i) - mean f) ^ 2) + (-1) * (sampleMean f ω - mean f) ^ 2 := by
    funext ω
    rw [sampleVar_eq hn]
    ring
  rw [e, mean_add, mean_mul, mean_mul, mean_error hn, mean_sum (fun i (ω : Fin n → Ω) => (f (ω i) - mean f) ^ 2),
    Finset.sum_congr rfl fun i _ => mean_coord (fun x => (f x - mean f) ^ 2) i]
  simp only [Finset.sum_const, Finset.card_univ, Fintype.card_fin, nsmul_eq_mul]
  rw [show mean (fun x => (f x - mean f) ^ 2) = varianceIn f from rfl]
  field_simp
  ring

theorem mean_mono {f g : Ω → ℚ} (h : ∀ x, f x ≤ g x) : mean f ≤ mean g := by
  unfold mean
  have : (0 : ℚ) < Fintype.card Ω := by exact_mod_cast Fintype.card_pos
  exact div_le_div_of_nonneg_right (Finset.sum_le_sum fun x _ => h x) this.le

/-- A number between two bounds has a variance of at most a quarter of the square of their difference. -/
theorem variance_le {f : Ω → ℚ} {lo hi : ℚ} (h : ∀ x, lo ≤ f x ∧ f x ≤ hi) : varianceIn f ≤ (hi - lo) ^ 2 / 4 := by
  have h1 : mean (fun x => (f x - (lo + hi) / 2) ^ 2) ≤ (hi - lo) ^ 2 / 4 := by
    rw [← mean_const (Ω := Ω) ((hi - lo) ^ 2 / 4)]
    refine mean_mono fun x => ?_
    obtain ⟨a, b⟩ := h x
    have := mul_nonneg (sub_nonneg.2 a) (sub_nonneg.2 b)
    nlinarith
  have h2 : mean (fun x => (f x - (lo + hi) / 2) ^ 2) = varianceIn f + (mean f - (lo + hi) / 2) ^ 2 := by
    have e : (fun x => (f x - (lo + hi) / 2) ^ 2) =
        fun x => (f x - mean f) ^ 2 + ((mean f - (lo + hi) / 2) ^ 2 + 2 * (mean f - (lo + hi) / 2) * (f x - mean f)) := by
      funext x; ring
    rw [e, mean_add, mean_affine, mean_centered]
    unfold varianceIn
    ring
  have := sq_nonneg (mean f - (lo + hi) / 2)
  linarith

theorem variance_nonneg (f : Ω → ℚ) : 0 ≤ varianceIn f := by
  rw [← mean_const (Ω := Ω) 0]
  exact mean_mono fun x => sq_nonneg _

theorem proportion_eq (P : Ω → Prop) [DecidablePred P] : proportion P = mean fun x => if P x then 1 else 0 := by
  unfold proportion mean
  rw [Finset.sum_boole]

theorem proportion_le_one (P : Ω → Prop) [DecidablePred P] : proportion P ≤ 1 := by
  rw [proportion_eq]
  refine (mean_mono (g := fun _ => 1) fun x => ?_).trans (mean_const 1).le
  split <;> norm_num

/-- The inequality of Chebyshev. -/
theorem chebyshev {n : Nat} (hn : 0 < n) (f : Ω → ℚ) {ε : ℚ} (hε : 0 < ε) :
    proportion (fun ω : Fin n → Ω => ε ≤ |sampleMean f ω - mean f|) ≤ varianceIn f / (n * ε ^ 2) := by
  have hn' : (0 : ℚ) < n := by exact_mod_cast hn
  rw [proportion_eq]
  have h1 : mean (fun ω : Fin n → Ω => ε ^ 2 * if ε ≤ |sampleMean f ω - mean f| then 1 else 0) ≤
      mean (fun ω : Fin n → Ω => (sampleMean f ω - mean f) ^ 2) := by
    refine mean_mono fun ω => ?_
    split
    · next h =>
      rw [mul_one, ← sq_abs (sampleMean f ω - mean f)]
      exact pow_le_pow_left₀ hε.le h 2
    · rw [mul_zero]; exact sq_nonneg _
  rw [mean_mul, mean_error hn] at h1
  rw [le_div_iff₀ (by positivity)]
  rw [le_div_iff₀ hn'] at h1
  linarith

end

/-! ### The inequality of Hoeffding -/

section
variable {Ω : Type} [Fintype Ω] [Nonempty Ω]
open MeasureTheory ProbabilityTheory

/-- The lemma of Hoeffding for equally likely elements. -/
theorem hoeffding_lemma (X : Ω → ℝ) {a b : ℝ} (hb : ∀ x, a ≤ X x ∧ X x ≤ b) (h0 : ∑ x, X x = 0) (t : ℝ) :
    (∑ x, Real.exp (t * X x)) / Fintype.card Ω ≤ Real.exp (t ^ 2 * (b - a) ^ 2 / 8) := by
  letI : MeasurableSpace Ω := ⊤
  haveI : MeasurableSingletonClass Ω := ⟨fun _ => trivial⟩
  have key : ∀ g : Ω → ℝ, ∫ x, g x ∂(uniformOn (Set.univ : Set Ω)) = (∑ x, g x) / Fintype.card Ω := by
    intro g
    rw [integral_fintype (Integrable.of_finite)]
    rw [Finset.sum_div]
    refine Finset.sum_congr rfl fun x _ => ?_
    have : (uniformOn (Set.univ : Set Ω)).real {x} = 1 / Fintype.card Ω := by
      unfold Measure.real
      rw [uniformOn_univ]
      simp
    rw [this, smul_eq_mul]
    ring
  have hm : (uniformOn (Set.univ : Set Ω))[X] = 0 := by rw [key, h0, zero_div]
  have h := (hasSubgaussianMGF_of_mem_Icc_of_integral_eq_zero (μ := uniformOn (Set.univ : Set Ω)) (X := X) (a := a) (b := b)
    (measurable_of_finite X).aemeasurable (Filter.Eventually.of_forall hb) hm).mgf_le t
  unfold mgf at h
  rw [key] at h
  refine h.trans (le_of_eq ?_)
  congr 1
  simp
  rw [div_pow, sq_abs]
  ring

theorem hoeffding_side {n : Nat} (X : Ω → ℝ) {a b : ℝ} (hab : a < b) (hb : ∀ x, a ≤ X x ∧ X x ≤ b) (h0 : ∑ x, X x = 0) {ε : ℝ} (hε : 0 < ε) :
    (((Finset.univ.filter fun ω : Fin n → Ω => n * ε ≤ ∑ i, X (ω i)).card : ℝ)) / Fintype.card (Fin n → Ω) ≤
      Real.exp (-(2 * n * ε ^ 2 / (b - a) ^ 2)) := by
  have hba : 0 < b - a := sub_pos.2 hab
  set t : ℝ := 4 * ε / (b - a) ^ 2 with ht
  have htp : 0 < t := by positivity
  have hc : (0 : ℝ) < Fintype.card Ω := by exact_mod_cast Fintype.card_pos
  have hc' : (0 : ℝ) < Fintype.card (Fin n → Ω) := by exact_mod_cast Fintype.card_pos
  have h1 : ((Finset.univ.filter fun ω : Fin n → Ω => n * ε ≤ ∑ i, X (ω i)).card : ℝ) ≤
      ∑ ω : Fin n → Ω, Real.exp (-(t * (n * ε))) * ∏ i, Real.exp (t * X (ω i)) := by
    rw [← Finset.sum_boole]
    refine Finset.sum_le_sum fun ω _ => ?_
    rw [← Real.exp_sum, ← Real.exp_add, ← Finset.mul_sum]
    split
    · next h =>
      rw [← Real.exp_zero]
      apply Real.exp_le_exp.2
      have := mul_le_mul_of_nonneg_left h htp.le
      linarith
    · positivity
  rw [← Finset.mul_sum, sum_prod_pi (fun _ x => Real.exp (t * X x))] at h1
  have h2 := hoeffding_lemma X hb h0 t
  have h3 : (∏ _i : Fin n, ∑ x, Real.exp (t * X x)) / Fintype.card (Fin n → Ω) ≤ Real.exp (t ^ 2 * (b - a) ^ 2 / 8) ^ n := by
    have : (∏ _i : Fin n, ∑ x, Real.exp (t * X x)) / (Fintype.card (Fin n → Ω) : ℝ) = ((∑ x, Real.exp (t * X x)) / Fintype.card Ω) ^ n := by
      simp [div_pow]
    rw [this]
    exact pow_le_pow_left₀ (by positivity) h2 n
  rw [div_le_iff₀ hc']
  refine h1.trans ?_
  rw [div_le_iff₀ hc', ← Real.exp_nat_mul] at h3
  refine (mul_le_mul_of_nonneg_left h3 (Real.exp_pos _).le).trans (le_of_eq ?_)
  rw [← mul_assoc, ← Real.exp_add]
  congr 2
  rw [ht]
  field_simp
  ring

theorem hoeffding {n : Nat} (hn : 0 < n) (f : Ω → ℚ) {lo hi ε : ℚ} (h : ∀ x, lo ≤ f x ∧ f x ≤ hi) (hε : 0 < ε) :
    ((proportion fun ω : Fin n → Ω => ε ≤ |sampleMean f ω - mean f| : ℚ) : ℝ) ≤
      2 * Real.exp (-(2 * n * (ε : ℝ) ^ 2 / ((hi : ℝ) - lo) ^ 2)) := by
  classical
  rcases eq_or_lt_of_le ((h (Classical.arbitrary Ω)).1.trans (h (Classical.arbitrary Ω)).2) with e | hlt
  · have h1 := proportion_le_one (fun ω : Fin n → Ω => ε ≤ |sampleMean f ω - mean f|)
    have h1' : ((proportion fun ω : Fin n → Ω => ε ≤ |sampleMean f ω - mean f| : ℚ) : ℝ) ≤ 1 := by exact_mod_cast h1
    subst e
    simp
    linarith
  have hn' : (0 : ℝ) < n := by exact_mod_cast hn
  have hc' : (0 : ℝ) < Fintype.card (Fin n → Ω) := by exact_mod_cast Fintype.card_pos
  have h0 : ∑ x, ((f x - mean f : ℚ) : ℝ) = 0 := by
    have e := mean_centered f
    unfold mean at e
    rw [div_eq_zero_iff] at e
    rcases e with e | e
    · have : ((∑ x, (f x - (∑ x, f x) / Fintype.card Ω) : ℚ) : ℝ) = ((0 : ℚ) : ℝ) := by rw [e]
      rw [Rat.cast_sum] at this
      simpa [mean] using this
    · exact absurd e (by exact_mod_cast Fintype.card_ne_zero)
  have hε' : (0 : ℝ) < ε := by exact_mod_cast hε
  have hlt' : (lo : ℝ) < hi := by exact_mod_cast hlt
  have s1 := hoeffding_side (n := n) (fun x => ((f x - mean f : ℚ) : ℝ)) (a := (lo - mean f : ℚ)) (b := (hi - mean f : ℚ))
    (by exact_mod_cast sub_lt_sub_right hlt _)
    (fun x => ⟨by exact_mod_cast sub_le_sub_right (h x).1 _, by exact_mod_cast sub_le_sub_right (h x).2 _⟩) h0 hε'
  have s2 := hoeffding_side (n := n) (fun x => -((f x - mean f : ℚ) : ℝ)) (a := -((hi - mean f : ℚ) : ℝ)) (b := -((lo - mean f : ℚ) : ℝ))
    (by
      have : ((lo - mean f : ℚ) : ℝ) < (hi - mean f : ℚ) := by exact_mod_cast sub_lt_sub_right hlt _
      linarith)
    (fun x => by
      have h1 : ((lo - mean f : ℚ) : ℝ) ≤ (f x - mean f : ℚ) := by exact_mod_cast sub_le_sub_right (h x).1 _
      have h2 : ((f x - mean f : ℚ) : ℝ) ≤ (hi - mean f : ℚ) := by exact_mod_cast sub_le_sub_right (h x).2 _
      constructor <;> linarith) (by rw [Finset.sum_neg_distrib, h0, neg_zero]) hε'
  have e1 : ((hi - mean f : ℚ) : ℝ) - ((lo - mean f : ℚ) : ℝ) = (hi : ℝ) - lo := by push_cast; ring
  have e2 : -((lo - mean f : ℚ) : ℝ) - -((hi - mean f : ℚ) : ℝ) = (hi : ℝ) - lo := by push_cast; ring
  rw [e1] at s1
  rw [e2] at s2
  have hsub : (Finset.univ.filter fun ω : Fin n → Ω => ε ≤ |sampleMean f ω - mean f|) ⊆
      (Finset.univ.filter fun ω : Fin n → Ω => n * (ε : ℝ) ≤ ∑ i, ((f (ω i) - mean f : ℚ) : ℝ)) ∪
      (Finset.univ.filter fun ω : Fin n → Ω => n * (ε : ℝ) ≤ ∑ i, -((f (ω i) - mean f : ℚ) : ℝ)) := by
    intro ω hω
    simp only [Finset.mem_filter, Finset.mem_univ, true_and, Finset.mem_union] at hω ⊢
    have hq : (n : ℚ) * (sampleMean f ω - mean f) = ∑ i, (f (ω i) - mean f) := by
      rw [sampleMean_dev hn]
      have h0 : (n : ℚ) ≠ 0 := by exact_mod_cast hn.ne'
      field_simp
    have hr : (n : ℝ) * ((sampleMean f ω - mean f : ℚ) : ℝ) = ∑ i, ((f (ω i) - mean f : ℚ) : ℝ) := by
      rw [← Rat.cast_sum, ← hq]
      push_cast
      ring
    rw [Finset.sum_neg_distrib, ← hr]
    rcases le_abs.1 hω with hω | hω
    · left
      exact mul_le_mul_of_nonneg_left (by exact_mod_cast hω) hn'.le
    · right
      rw [← mul_neg]
      refine mul_le_mul_of_nonneg_left ?_ hn'.le
      have : ((ε : ℚ) : ℝ) ≤ ((-(sampleMean f ω - mean f) : ℚ) : ℝ) := by exact_mod_cast hω
      push_cast at this ⊢
      linarith
  have hcard : ((Finset.univ.filter fun ω : Fin n → Ω => ε ≤ |sampleMean f ω - mean f|).card : ℝ) ≤
      ((Finset.univ.filter fun ω : Fin n → Ω => n * (ε : ℝ) ≤ ∑ i, ((f (ω i) - mean f : ℚ) : ℝ)).card : ℝ) +
      ((Finset.univ.filter fun ω : Fin n → Ω => n * (ε : ℝ) ≤ ∑ i, -((f (ω i) - mean f : ℚ) : ℝ)).card : ℝ) := by
    exact_mod_cast (Finset.card_le_card hsub).trans (Finset.card_union_le _ _)
  have hp : ((proportion fun ω : Fin n → Ω => ε ≤ |sampleMean f ω - mean f| : ℚ) : ℝ) =
      ((Finset.univ.filter fun ω : Fin n → Ω => ε ≤ |sampleMean f ω - mean f|).card : ℝ) / Fintype.card (Fin n → Ω) := by
    unfold proportion
    push_cast
    rfl
  rw [hp]
  refine (div_le_div_of_nonneg_right hcard hc'.le).trans ?_
  rw [add_div]
  linarith

end

end Verif
