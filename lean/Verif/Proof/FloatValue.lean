import Verif.Spec.FloatValue
import Verif.Proof.FloatBelief
import Verif.Props.Pomcp
import Verif.Proof.Mean
import Mathlib.Tactic.Linarith
import Mathlib.Tactic.Ring
import Mathlib.Tactic.Positivity

/-! Errors of returns and values in floating point arithmetic (C118). -/

set_option linter.unusedSectionVars false
set_option linter.unusedSimpArgs false

namespace Verif
open Spec

section
variable {u t : ℚ} {fl : ℚ → ℚ}

theorem fl_near (hf : RoundingError u t fl) (hu : 0 ≤ u) {x m b : ℚ} (hm : |x| ≤ m) (hb : t ≤ b) : |fl x - x| ≤ u * m + b :=
  (hf x).trans (add_le_add (mul_le_mul_of_nonneg_left hm hu) hb)

theorem abs_tri {x y z d e : ℚ} (h1 : |x - y| ≤ d) (h2 : |y - z| ≤ e) : |x - z| ≤ d + e :=
  (abs_sub_le x y z).trans (add_le_add h1 h2)

theorem abs_of_near {x y d m : ℚ} (h : |x - y| ≤ d) (hm : |y| ≤ m) : |x| ≤ m + d := by
  rw [abs_le] at *
  constructor <;> linarith [h.1, h.2, hm.1, hm.2]

theorem abs_add_le' {x y d e : ℚ} (h1 : |x| ≤ d) (h2 : |y| ≤ e) : |x + y| ≤ d + e := (abs_add_le x y).trans (add_le_add h1 h2)

theorem abs_mul_le' {x y d e : ℚ} (h1 : |x| ≤ d) (h2 : |y| ≤ e) : |x * y| ≤ d * e := by
  rw [abs_mul]
  exact mul_le_mul h1 h2 (abs_nonneg _) ((abs_nonneg _).trans h1)

theorem abs_add_sub_le {x x' y y' d e : ℚ} (h1 : |x - x'| ≤ d) (h2 : |y - y'| ≤ e) : |(x + y) - (x' + y')| ≤ d + e := by
  have : (x + y) - (x' + y') = (x - x') + (y - y') := by ring
  rw [this]
  exact abs_add_le' h1 h2

/-- One update of an average. -/
theorem update_step (hf : RoundingError u t fl) (hu : 0 ≤ u) (hu1 : u ≤ 1 / 100) {B : ℚ} (hB : 0 ≤ B) (ht1 : t ≤ u) (htB : t ≤ u * B)
    {alpha : ℚ} (h0 : 0 ≤ alpha) (h1 : alpha ≤ 1) {n : Nat} {a q T T' x x' : ℚ} (ha : 1 ≤ a) (hq : a ≤ q)
    (hT : |T'| ≤ n * B) (hTT : |T - T'| ≤ n * (q - 1) * B) (hx : |x'| ≤ B) (hxx : |x - x'| ≤ (a - 1) * B) :
    |fl (fl (fl (T + x) * fl (1 - alpha)) + fl (fl (alpha * (n + 1)) * x)) - ((T' + x') * (1 - alpha) + alpha * (n + 1) * x')| ≤
      (n + 1) * (q * (1 + 13 * u) - 1) * B := by
  have hn : (0 : ℚ) ≤ n := Nat.cast_nonneg n
  have hn1 : (1 : ℚ) ≤ n + 1 := by linarith
  have hq1 : 1 ≤ q := ha.trans hq
  obtain ⟨M, hM⟩ : ∃ M : ℚ, M = (n + 1) * q * B := ⟨_, rfl⟩
  have hx0 : |x| ≤ a * B := by
    have := abs_of_near hxx hx
    linarith
  have hT0 : |T| ≤ n * q * B := by
    have := abs_of_near hTT hT
    linarith
  have haq : a * B ≤ q * B := mul_le_mul_of_nonneg_right hq hB
  have hs : |T + x| ≤ M := by
    have := abs_add_le' hT0 hx0
    have e : M = n * q * B + q * B := by rw [hM]; ring
    linarith
  have hBM : B ≤ M := by
    have h1 : (1 : ℚ) ≤ (n + 1) * q := one_le_mul_of_one_le_of_one_le hn1 hq1
    have := mul_le_mul_of_nonneg_right h1 hB
    rw [hM]; linarith
  have hM0 : 0 ≤ M := hB.trans hBM
  have hNaB : (n + 1) * (a * B) ≤ M := by
    have := mul_le_mul_of_nonneg_left haq (by linarith : (0 : ℚ) ≤ n + 1)
    rw [hM]; linarith
  have htM : t ≤ u * M := htB.trans (mul_le_mul_of_nonneg_left hBM hu)
  have huM : 0 ≤ u * M := mul_nonneg hu hM0
  -- the sum
  have e1 : |fl (T + x) - (T + x)| ≤ 2 * (u * M) := by
    have := fl_near hf hu hs htM
    linarith
  have b1 : |fl (T + x)| ≤ (1 + 2 * u) * M := by
    have := abs_of_near e1 hs
    linarith
  -- the factor
  have hc0 : |1 - alpha| ≤ 1 - alpha := by rw [abs_of_nonneg (by linarith)]
  have e2 : |fl (1 - alpha) - (1 - alpha)| ≤ 2 * u := by
    have h2 : u * (1 - alpha) ≤ u := mul_le_of_le_one_right hu (by linarith)
    have := fl_near hf hu hc0 ht1
    linarith
  have b2 : |fl (1 - alpha)| ≤ 1 + 2 * u := by
    have := abs_of_near e2 hc0
    linarith
  -- the first product
  have hu2 : (1 + 2 * u) * (1 + 2 * u) ≤ 105 / 100 := by
    have := mul_le_mul_of_nonneg_left hu1 hu
    linarith
  have hsc : |fl (T + x) * fl (1 - alpha)| ≤ 105 / 100 * M := by
    have := abs_mul_le' b1 b2
    have h3 := mul_le_mul_of_nonneg_right hu2 hM0
    linarith
  have e3 : |fl (fl (T + x) * fl (1 - alpha)) - fl (T + x) * fl (1 - alpha)| ≤ u * (105 / 100 * M) + u * M := fl_near hf hu hsc htM
  have e4 : |fl (T + x) * fl (1 - alpha) - (T + x) * (1 - alpha)| ≤ (1 + 2 * u) * M * (2 * u) + 2 * (u * M) := by
    have : fl (T + x) * fl (1 - alpha) - (T + x) * (1 - alpha) =
      fl (T + x) * (fl (1 - alpha) - (1 - alpha)) + (fl (T + x) - (T + x)) * (1 - alpha) := by ring
    rw [this]
    refine abs_add_le' (abs_mul_le' b1 e2) ?_
    exact (abs_mul_le' e1 hc0).trans (mul_le_of_le_one_right (by linarith) (by linarith))
  have e5 : |fl (fl (T + x) * fl (1 - alpha)) - (T + x) * (1 - alpha)| ≤ 61 / 10 * (u * M) := by
    have h5 := abs_tri e3 e4
    have h6 : (1 + 2 * u) * M * (2 * u) ≤ 204 / 100 * (u * M) := by
      have := mul_le_mul_of_nonneg_right hu1 huM
      linarith
    linarith
  -- the second product
  have hc1 : |alpha * (n + 1)| ≤ n + 1 := by
    rw [abs_of_nonneg (mul_nonneg h0 (by linarith))]
    exact mul_le_of_le_one_left (by linarith) h1
  have e6 : |fl (alpha * (n + 1)) - alpha * (n + 1)| ≤ 2 * u * (n + 1) := by
    have h7 : u ≤ u * (n + 1) := le_mul_of_one_le_right hu hn1
    have := fl_near hf hu hc1 (ht1.trans h7)
    linarith
  have b6 : |fl (alpha * (n + 1))| ≤ (1 + 2 * u) * (n + 1) := by
    have := abs_of_near e6 hc1
    linarith
  have hqx : |fl (alpha * (n + 1)) * x| ≤ 102 / 100 * M := by
    have h8 := abs_mul_le' b6 hx0
    have h9 : (1 + 2 * u) * (n + 1) * (a * B) ≤ 102 / 100 * M := by
      have : (1 + 2 * u) * (n + 1) * (a * B) = (1 + 2 * u) * ((n + 1) * (a * B)) := by ring
      rw [this]
      have h10 : (1 + 2 * u) * ((n + 1) * (a * B)) ≤ (1 + 2 * u) * M := mul_le_mul_of_nonneg_left hNaB (by linarith)
      have h11 : (1 + 2 * u) * M ≤ 102 / 100 * M := mul_le_mul_of_nonneg_right (by linarith) hM0
      linarith
    linarith
  have e7 : |fl (fl (alpha * (n + 1)) * x) - fl (alpha * (n + 1)) * x| ≤ u * (102 / 100 * M) + u * M := fl_near hf hu hqx htM
  have e8 : |fl (alpha * (n + 1)) * x - alpha * (n + 1) * x| ≤ 2 * (u * M) := by
    have : fl (alpha * (n + 1)) * x - alpha * (n + 1) * x = (fl (alpha * (n + 1)) - alpha * (n + 1)) * x := by ring
    rw [this]
    have h12 := abs_mul_le' e6 hx0
    have h13 : 2 * u * (n + 1) * (a * B) = 2 * u * ((n + 1) * (a * B)) := by ring
    have h14 := mul_le_mul_of_nonneg_left hNaB (by linarith : (0 : ℚ) ≤ 2 * u)
    linarith
  have e9 := abs_tri e7 e8
  -- the result
  have e10 := abs_add_sub_le e5 e9
  have hmid : |(T + x) * (1 - alpha) + alpha * (n + 1) * x| ≤ M := by
    have h15 := abs_mul_le' hs hc0
    have h16 : |alpha * (n + 1) * x| ≤ alpha * M := by
      have : alpha * (n + 1) * x = alpha * ((n + 1) * x) := by ring
      rw [this]
      refine abs_mul_le' (by rw [abs_of_nonneg h0]) ?_
      rw [abs_mul, abs_of_nonneg (by linarith : (0 : ℚ) ≤ n + 1)]
      exact (mul_le_mul_of_nonneg_left hx0 (by linarith)).trans hNaB
    have := abs_add_le' h15 h16
    linarith
  have hy := abs_of_near e10 hmid
  have hy' : |fl (fl (T + x) * fl (1 - alpha)) + fl (fl (alpha * (n + 1)) * x)| ≤ 112 / 100 * M := by
    have : u * M ≤ 1 / 100 * M := mul_le_mul_of_nonneg_right hu1 hM0
    linarith
  have e11 := fl_near hf hu hy' htM
  have e12 := abs_tri e11 e10
  have e13 : |((T + x) * (1 - alpha) + alpha * (n + 1) * x) - ((T' + x') * (1 - alpha) + alpha * (n + 1) * x')| ≤
      (n * (q - 1) + (a - 1)) * B := by
    have : ((T + x) * (1 - alpha) + alpha * (n + 1) * x) - ((T' + x') * (1 - alpha) + alpha * (n + 1) * x') =
      ((T - T') + (x - x')) * (1 - alpha) + alpha * ((n + 1) * (x - x')) := by ring
    rw [this]
    have h17 := abs_mul_le' (abs_add_le' hTT hxx) hc0
    have h18 : |alpha * ((n + 1) * (x - x'))| ≤ alpha * ((n + 1) * ((a - 1) * B)) := by
      refine abs_mul_le' (by rw [abs_of_nonneg h0]) ?_
      rw [abs_mul, abs_of_nonneg (by linarith : (0 : ℚ) ≤ n + 1)]
      exact mul_le_mul_of_nonneg_left hxx (by linarith)
    have h19 := abs_add_le' h17 h18
    have h20 : (n + 1) * ((a - 1) * B) ≤ n * (q - 1) * B + (a - 1) * B := by
      have h21 : n * ((a - 1) * B) ≤ n * ((q - 1) * B) := mul_le_mul_of_nonneg_left (mul_le_mul_of_nonneg_right (by linarith) hB) hn
      linarith
    have h22 := mul_le_mul_of_nonneg_left h20 h0
    linarith
  refine (abs_tri e12 e13).trans ?_
  have e14 : (n + 1) * (q * (1 + 13 * u) - 1) * B = (n * (q - 1) + (a - 1)) * B + (q * B - a * B) + 13 * (u * M) := by rw [hM]; ring
  rw [e14]
  linarith

theorem grow_ge (hu : 0 ≤ u) (k : Nat) : 1 ≤ (1 + 13 * u) ^ k := one_le_pow₀ (by linarith)

theorem grow_mono (hu : 0 ≤ u) {j k : Nat} (h : j ≤ k) : (1 + 13 * u) ^ j ≤ (1 + 13 * u) ^ k := pow_le_pow_right₀ (by linarith) h

theorem foldl_new_total (alpha : ℚ) (h0 : 0 ≤ alpha) (h1 : alpha ≤ 1) {B : ℚ} : ∀ (xs : List ℚ) (v : Avg), (∀ x ∈ xs, |x| ≤ B) → |v.total| ≤ v.n * B →
    |(xs.foldl (Avg.update alpha) v).total| ≤ (xs.foldl (Avg.update alpha) v).n * B := by
  intro xs
  induction xs with
  | nil => intro v _ h; exact h
  | cons x xs ih =>
      intro v hx hv
      refine ih _ (fun y hy => hx y (by simp [hy])) ?_
      have hx1 := hx x (by simp)
      show |(v.total + x) * (1 - alpha) + alpha * (v.n + 1) * x| ≤ ((v.n + 1 : Nat) : ℚ) * B
      have hn : (0 : ℚ) ≤ v.n := Nat.cast_nonneg _
      have a1 := abs_mul_le' (abs_add_le' hv hx1) (show |1 - alpha| ≤ 1 - alpha by rw [abs_of_nonneg (by linarith)])
      have a2 : |alpha * (v.n + 1) * x| ≤ alpha * (v.n + 1) * B :=
        abs_mul_le' (by rw [abs_of_nonneg (mul_nonneg h0 (by linarith))]) hx1
      have := abs_add_le' a1 a2
      push_cast
      linarith

/-- An average of numbers that are known up to an error. -/
theorem average_error (hf : RoundingError u t fl) (hu : 0 ≤ u) (hu1 : u ≤ 1 / 100) {B : ℚ} (hB : 0 ≤ B) (ht1 : t ≤ u) (htB : t ≤ u * B)
    {alpha : ℚ} (h0 : 0 ≤ alpha) (h1 : alpha ≤ 1) {a : ℚ} (ha : 1 ≤ a) : ∀ (xs : List (ℚ × ℚ)) (v v' : Avg), v.n = v'.n → |v'.total| ≤ v'.n * B →
    |v.total - v'.total| ≤ v'.n * (a * (1 + 13 * u) ^ v'.n - 1) * B → (∀ x ∈ xs, |x.2| ≤ B ∧ |x.1 - x.2| ≤ (a - 1) * B) →
    (xs.foldl (fun v x => v.updateFl fl alpha x.1) v).n = v'.n + xs.length ∧
    |(xs.foldl (fun v x => v.updateFl fl alpha x.1) v).total - ((xs.map Prod.snd).foldl (Avg.update alpha) v').total| ≤
      (v'.n + xs.length : Nat) * (a * (1 + 13 * u) ^ (v'.n + xs.length) - 1) * B := by
  intro xs
  induction xs with
  | nil => intro v v' hn _ h _; exact ⟨hn, h⟩
  | cons x xs ih =>
      intro v v' hn hv' hv hx
      have hx1 := hx x (by simp)
      have hstep := update_step hf hu hu1 hB ht1 htB h0 h1 (n := v'.n) ha (q := a * (1 + 13 * u) ^ v'.n)
        (le_mul_of_one_le_right (by linarith) (grow_ge hu _)) hv' hv hx1.1 hx1.2
      have hsmall := foldl_new_total alpha h0 h1 [x.2] v' (by simpa using hx1.1) hv'
      obtain ⟨r1, r2⟩ := ih (v.updateFl fl alpha x.1) (v'.update alpha x.2) (by show v.n + 1 = v'.n + 1; rw [hn]) hsmall
        (by
          show |fl (fl (fl (v.total + x.1) * fl (1 - alpha)) + fl (fl (alpha * (v.n + 1)) * x.1)) -
            ((v'.total + x.2) * (1 - alpha) + alpha * (v'.n + 1) * x.2)| ≤ ((v'.n + 1 : Nat) : ℚ) * (a * (1 + 13 * u) ^ (v'.n + 1) - 1) * B
          rw [hn]
          refine hstep.trans (le_of_eq ?_)
          push_cast
          rw [pow_succ]
          ring)
        (fun y hy => hx y (by simp [hy]))
      have e : (v'.update alpha x.2).n + xs.length = v'.n + (x :: xs).length := by
        show v'.n + 1 + xs.length = v'.n + (xs.length + 1)
        omega
      rw [e] at r1 r2
      exact ⟨r1, r2⟩

/-- A quotient by a count. -/
theorem quotient_error (hf : RoundingError u t fl) (hu : 0 ≤ u) {B : ℚ} (hB : 0 ≤ B) (htB : t ≤ u * B) {n : Nat} (hn : 0 < n)
    {q T T' : ℚ} (hq : 1 ≤ q) (hT' : |T'| ≤ n * B) (hT : |T - T'| ≤ n * (q - 1) * B) :
    |fl (T / n) - T' / n| ≤ (q * (1 + 2 * u) - 1) * B := by
  have hn' : (0 : ℚ) < n := by exact_mod_cast hn
  have a1 : |T / n - T' / n| ≤ (q - 1) * B := by
    rw [← sub_div, abs_div, abs_of_pos hn', div_le_iff₀ hn']
    linarith
  have a2 : |T' / n| ≤ B := by
    rw [abs_div, abs_of_pos hn', div_le_iff₀ hn']
    linarith
  have a3 := abs_of_near a1 a2
  have a4 : |T / n| ≤ q * B := by linarith
  have a5 := abs_tri (fl_near hf hu a4 htB) a1
  have a6 : u * B ≤ u * (q * B) := by
    have : B ≤ q * B := le_mul_of_one_le_left hB hq
    exact mul_le_mul_of_nonneg_left this hu
  linarith

/-! ### Returns -/

theorem discountedRewards_cons (gamma r : ℚ) (rs : List ℚ) :
    discountedRewards gamma (r :: rs) = r + gamma * discountedRewards gamma rs := by
  unfold discountedRewards
  rw [List.length_cons, sumRange_eq_sum, sumRange_eq_sum, Finset.sum_range_succ', Finset.mul_sum, add_comm]
  congr 1
  · simp
  · refine Finset.sum_congr rfl fun k _ => ?_
    rw [pow_succ]
    simp only [List.getD_cons_succ]
    ring

theorem discountedRewards_small {gamma R : ℚ} (h0 : 0 ≤ gamma) (h1 : gamma ≤ 1) (hR : 0 ≤ R) : ∀ rs : List ℚ, (∀ r ∈ rs, |r| ≤ R) →
    |discountedRewards gamma rs| ≤ rs.length * R := by
  intro rs
  induction rs with
  | nil => intro _; simp [discountedRewards, sumRange_eq_sum]
  | cons r rs ih =>
      intro h
      have a1 := ih (fun y hy => h y (by simp [hy]))
      have a2 := abs_mul_le' (show |gamma| ≤ 1 by rw [abs_of_nonneg h0]; exact h1) a1
      have a3 := abs_add_le' (h r (by simp)) a2
      rw [discountedRewards_cons, List.length_cons]
      push_cast
      linarith

/-- One transition of a rollout. -/
theorem rollout_step (hf : RoundingError u t fl) (hu : 0 ≤ u) (hu1 : u ≤ 1 / 100) {R : ℚ} (hR : 0 ≤ R) (htR : t ≤ u * R)
    {k : Nat} {q g g' F F' r : ℚ} (hq : 1 ≤ q) (hg : |g'| ≤ 1) (hgg : |g - g'| ≤ q - 1) (hF : |F'| ≤ k * R)
    (hFF : |F - F'| ≤ k * (q - 1) * R) (hr : |r| ≤ R) :
    |fl (F + fl (g * r)) - (F' + g' * r)| ≤ (k + 1) * (q * (1 + 13 * u) - 1) * R := by
  have hk : (0 : ℚ) ≤ k := Nat.cast_nonneg k
  have hg0 : |g| ≤ q := by
    have := abs_of_near hgg hg
    linarith
  have hRq : R ≤ q * R := le_mul_of_one_le_left hR hq
  have hqR : 0 ≤ q * R := hR.trans hRq
  have huq : 0 ≤ u * (q * R) := mul_nonneg hu hqR
  have htq : t ≤ u * (q * R) := htR.trans (mul_le_mul_of_nonneg_left hRq hu)
  have a1 : |g * r| ≤ q * R := abs_mul_le' hg0 hr
  have a2 := fl_near hf hu a1 htq
  have a3 : |g * r - g' * r| ≤ (q - 1) * R := by
    rw [← sub_mul]
    exact abs_mul_le' hgg hr
  have a4 := abs_tri a2 a3
  have a5 := abs_add_sub_le hFF a4
  have b1 := abs_add_le' hF (abs_mul_le' hg hr)
  have b2 := abs_of_near a5 b1
  have kq : 0 ≤ k * (u * (q * R)) := mul_nonneg hk huq
  have b3 : |F + fl (g * r)| ≤ (k + 1) * (q * R) + 2 * (u * (q * R)) := by linarith
  have htk : t ≤ (k + 1) * (u * (q * R)) := by linarith
  have a6 := abs_tri (fl_near hf hu b3 htk) a5
  have c1 : u * (u * (q * R)) ≤ 1 / 100 * (u * (q * R)) := mul_le_mul_of_nonneg_right hu1 huq
  refine a6.trans ?_
  linarith

/-- The discount of a rollout. -/
theorem discount_step (hf : RoundingError u t fl) (hu : 0 ≤ u) (ht1 : t ≤ u) {gamma q g g' : ℚ} (h0 : 0 ≤ gamma) (h1 : gamma ≤ 1) (hq : 1 ≤ q)
    (hg : |g'| ≤ 1) (hgg : |g - g'| ≤ q - 1) : |fl (g * gamma) - g' * gamma| ≤ q * (1 + 13 * u) - 1 := by
  have hg0 : |g| ≤ q := by
    have := abs_of_near hgg hg
    linarith
  have hgam : |gamma| ≤ 1 := by rw [abs_of_nonneg h0]; exact h1
  have a1 := abs_mul_le' hg0 hgam
  have a3 : |g * gamma - g' * gamma| ≤ (q - 1) * 1 := by
    rw [← sub_mul]
    exact abs_mul_le' hgg hgam
  have a4 := abs_tri (fl_near hf hu a1 ht1) a3
  have : u ≤ u * q := le_mul_of_one_le_right hu hq
  linarith

theorem rollout_error (hf : RoundingError u t fl) (hu : 0 ≤ u) (hu1 : u ≤ 1 / 100) {R : ℚ} (hR : 0 ≤ R) (ht1 : t ≤ u) (htR : t ≤ u * R)
    {gamma : ℚ} (h0 : 0 ≤ gamma) (h1 : gamma ≤ 1) : ∀ (rs : List ℚ) (k : Nat) (q g g' F F' : ℚ), 1 ≤ q → |g'| ≤ 1 → |g - g'| ≤ q - 1 →
    |F'| ≤ k * R → |F - F'| ≤ k * (q - 1) * R → (∀ r ∈ rs, |r| ≤ R) →
    |rolloutFl fl gamma rs g F - (F' + g' * discountedRewards gamma rs)| ≤ (k + rs.length : Nat) * (q * (1 + 13 * u) ^ rs.length - 1) * R := by
  intro rs
  induction rs with
  | nil =>
      intro k q g g' F F' _ _ _ _ hFF _
      simpa [rolloutFl, discountedRewards, sumRange_eq_sum] using hFF
  | cons r rs ih =>
      intro k q g g' F F' hq hg hgg hF hFF hr
      have hr1 := hr r (by simp)
      have hgam : |gamma| ≤ 1 := by rw [abs_of_nonneg h0]; exact h1
      have hq' : 1 ≤ q * (1 + 13 * u) := one_le_mul_of_one_le_of_one_le hq (by linarith)
      have a1 := ih (k + 1) (q * (1 + 13 * u)) (fl (g * gamma)) (g' * gamma) (fl (F + fl (g * r))) (F' + g' * r) hq'
        (by simpa using abs_mul_le' hg hgam) (discount_step hf hu ht1 h0 h1 hq hg hgg)
        (by
          have := abs_add_le' hF (abs_mul_le' hg hr1)
          push_cast
          linarith)
        (by
          have := rollout_step hf hu hu1 hR htR hq hg hgg hF hFF hr1
          push_cast
          exact this) (fun y hy => hr y (by simp [hy]))
      have e1 : F' + g' * r + g' * gamma * discountedRewards gamma rs = F' + g' * discountedRewards gamma (r :: rs) := by
        rw [discountedRewards_cons]; ring
      have e2 : k + 1 + rs.length = k + (r :: rs).length := by rw [List.length_cons]; omega
      have e3 : q * (1 + 13 * u) * (1 + 13 * u) ^ rs.length = q * (1 + 13 * u) ^ (r :: rs).length := by
        rw [List.length_cons, pow_succ]; ring
      rw [e1, e2, e3] at a1
      exact a1

theorem one_rollout_error (hf : RoundingError u t fl) (hu : 0 ≤ u) (hu1 : u ≤ 1 / 100) {R : ℚ} (hR : 0 ≤ R) (ht1 : t ≤ u) (htR : t ≤ u * R)
    {gamma : ℚ} (h0 : 0 ≤ gamma) (h1 : gamma ≤ 1) {rs : List ℚ} {L : Nat} (hL : rs.length ≤ L) (hr : ∀ r ∈ rs, |r| ≤ R) :
    |rolloutFl fl gamma rs 1 0 - discountedRewards gamma rs| ≤ ((1 + 13 * u) ^ L - 1) * ((L + 1 : Nat) * R) := by
  have a1 := rollout_error hf hu hu1 hR ht1 htR h0 h1 rs 0 1 1 1 0 0 le_rfl (by simp) (by simp) (by simp) (by simp) hr
  rw [zero_add, one_mul, zero_add, one_mul] at a1
  refine a1.trans ?_
  have c1 : (1 + 13 * u) ^ rs.length - 1 ≤ (1 + 13 * u) ^ L - 1 := by linarith [grow_mono hu hL]
  have c0 : 0 ≤ (1 + 13 * u) ^ rs.length - 1 := by linarith [grow_ge hu rs.length]
  have c2 : (rs.length : ℚ) ≤ (L + 1 : Nat) := by exact_mod_cast (by omega : rs.length ≤ L + 1)
  calc (rs.length : ℚ) * ((1 + 13 * u) ^ rs.length - 1) * R ≤ ((L + 1 : Nat) : ℚ) * ((1 + 13 * u) ^ L - 1) * R :=
        mul_le_mul_of_nonneg_right (mul_le_mul c2 c1 c0 (Nat.cast_nonneg _)) hR
    _ = _ := by ring

theorem rolloutSum_error (hf : RoundingError u t fl) (hu : 0 ≤ u) {B : ℚ} (hB : 0 ≤ B) (htB : t ≤ u * B) {gamma a : ℚ} (ha : 1 ≤ a) :
    ∀ (l : List (List ℚ)) (j : Nat) (s s' : ℚ), (∀ rs ∈ l, |discountedRewards gamma rs| ≤ B ∧
      |rolloutFl fl gamma rs 1 0 - discountedRewards gamma rs| ≤ (a - 1) * B) → |s'| ≤ j * B → |s - s'| ≤ j * (a * (1 + 13 * u) ^ j - 1) * B →
    |rolloutSumFl fl gamma l s - (s' + (l.map (discountedRewards gamma)).sum)| ≤ (j + l.length : Nat) * (a * (1 + 13 * u) ^ (j + l.length) - 1) * B := by
  intro l
  induction l with
  | nil => intro j s s' _ _ h; simpa [rolloutSumFl] using h
  | cons rs l ih =>
      intro j s s' hl hs hss
      have h1 := hl rs (by simp)
      have hj : (0 : ℚ) ≤ j := Nat.cast_nonneg j
      obtain ⟨q, hq⟩ : ∃ q, q = a * (1 + 13 * u) ^ j := ⟨_, rfl⟩
      rw [← hq] at hss
      have haq : a ≤ q := by rw [hq]; exact le_mul_of_one_le_right (by linarith) (grow_ge hu j)
      have hBq : B ≤ q * B := le_mul_of_one_le_left hB (ha.trans haq)
      have haB : a * B ≤ q * B := mul_le_mul_of_nonneg_right haq hB
      have a1 := abs_add_sub_le hss h1.2
      have a2 := abs_of_near a1 (abs_add_le' hs h1.1)
      have a3 : |s + rolloutFl fl gamma rs 1 0| ≤ (j + 1) * (q * B) := by linarith
      have hu1 : 0 ≤ u * (q * B) := mul_nonneg hu (hB.trans hBq)
      have hu2 : 0 ≤ j * (u * (q * B)) := mul_nonneg hj hu1
      have htq : t ≤ (j + 1) * (u * (q * B)) := by
        have := mul_le_mul_of_nonneg_left hBq hu
        linarith
      have a4 := abs_tri (fl_near hf hu a3 htq) a1
      have a5 := ih (j + 1) (fl (s + rolloutFl fl gamma rs 1 0)) (s' + discountedRewards gamma rs) (fun y hy => hl y (by simp [hy]))
        (by
          have := abs_add_le' hs h1.1
          push_cast
          linarith)
        (by
          have e : a * (1 + 13 * u) ^ (j + 1) = q * (1 + 13 * u) := by rw [hq, pow_succ]; ring
          rw [e]
          refine a4.trans ?_
          push_cast
          linarith)
      have e1 : s' + discountedRewards gamma rs + (l.map (discountedRewards gamma)).sum = s' + ((rs :: l).map (discountedRewards gamma)).sum := by
        simp [add_assoc]
      have e2 : j + 1 + l.length = j + (rs :: l).length := by rw [List.length_cons]; omega
      rw [e1, e2] at a5
      exact a5

theorem sum_small {B : ℚ} : ∀ l : List ℚ, (∀ x ∈ l, |x| ≤ B) → |l.sum| ≤ l.length * B := by
  intro l
  induction l with
  | nil => intro _; simp
  | cons x l ih =>
      intro h
      have a1 := ih (fun y hy => h y (by simp [hy]))
      have a2 := abs_add_le' (h x (by simp)) a1
      rw [List.sum_cons, List.length_cons]
      push_cast
      linarith

theorem meanOf_small {B : ℚ} (hB : 0 ≤ B) (l : List ℚ) (h : ∀ x ∈ l, |x| ≤ B) : |meanOf l| ≤ B := by
  unfold meanOf
  cases l with
  | nil => simpa using hB
  | cons x l =>
      have hn : (0 : ℚ) < (x :: l).length := by exact_mod_cast (by simp)
      rw [abs_div, abs_of_pos hn, div_le_iff₀ hn]
      have := sum_small _ h
      linarith

/-- The mean of the rollouts. -/
theorem partial_error (hf : RoundingError u t fl) (hu : 0 ≤ u) (hu1 : u ≤ 1 / 100) {R : ℚ} (hR : 0 ≤ R) (ht1 : t ≤ u) (htR : t ≤ u * R)
    {gamma : ℚ} (h0 : 0 ≤ gamma) (h1 : gamma ≤ 1) {l : List (List ℚ)} {L J : Nat} (hL : ∀ rs ∈ l, rs.length ≤ L) (hJ : l.length ≤ J)
    (hr : ∀ rs ∈ l, ∀ r ∈ rs, |r| ≤ R) : |meanOf (l.map (discountedRewards gamma))| ≤ (L + 1 : Nat) * R ∧
    |partialFl fl gamma l - meanOf (l.map (discountedRewards gamma))| ≤ ((1 + 13 * u) ^ (L + J + 1) - 1) * ((L + 1 : Nat) * R) := by
  have hB : (0 : ℚ) ≤ (L + 1 : Nat) * R := mul_nonneg (Nat.cast_nonneg _) hR
  have hRB : R ≤ (L + 1 : Nat) * R := le_mul_of_one_le_left hR (by push_cast; linarith [(Nat.cast_nonneg L : (0 : ℚ) ≤ L)])
  have htB : t ≤ u * ((L + 1 : Nat) * R) := htR.trans (mul_le_mul_of_nonneg_left hRB hu)
  have hsmall : ∀ rs ∈ l, |discountedRewards gamma rs| ≤ (L + 1 : Nat) * R := by
    intro rs hrs
    refine (discountedRewards_small h0 h1 hR rs (hr rs hrs)).trans (mul_le_mul_of_nonneg_right ?_ hR)
    have := hL rs hrs
    exact_mod_cast (by omega : rs.length ≤ L + 1)
  have hsmall' : ∀ x ∈ l.map (discountedRewards gamma), |x| ≤ (L + 1 : Nat) * R := by
    intro x hx
    obtain ⟨rs, hrs, rfl⟩ := List.mem_map.1 hx
    exact hsmall rs hrs
  refine ⟨meanOf_small hB _ hsmall', ?_⟩
  unfold partialFl
  split
  · rename_i hl
    subst hl
    simp only [List.map_nil, meanOf, List.sum_nil, zero_div, sub_self, abs_zero]
    exact mul_nonneg (by linarith [grow_ge hu (L + J + 1)]) hB
  · rename_i hl
    have hpos : 0 < l.length := List.length_pos_iff.2 hl
    have a1 := rolloutSum_error hf hu hB htB (gamma := gamma) (a := (1 + 13 * u) ^ L) (grow_ge hu L) l 0 0 0
      (fun rs hrs => ⟨hsmall rs hrs, one_rollout_error hf hu hu1 hR ht1 htR h0 h1 (hL rs hrs) (hr rs hrs)⟩) (by simp) (by simp)
    rw [zero_add, zero_add] at a1
    have a2 := sum_small _ hsmall'
    rw [List.length_map] at a2
    have hq : 1 ≤ (1 + 13 * u) ^ L * (1 + 13 * u) ^ l.length := one_le_mul_of_one_le_of_one_le (grow_ge hu _) (grow_ge hu _)
    have a3 := quotient_error hf hu hB htB hpos hq a2 a1
    unfold rolloutsFl meanOf
    rw [List.length_map]
    refine a3.trans (mul_le_mul_of_nonneg_right ?_ hB)
    have c1 : (1 + 13 * u) ^ L * (1 + 13 * u) ^ l.length * (1 + 2 * u) ≤ (1 + 13 * u) ^ L * (1 + 13 * u) ^ l.length * (1 + 13 * u) :=
      mul_le_mul_of_nonneg_left (by linarith) (by linarith)
    have c2 : (1 + 13 * u) ^ L * (1 + 13 * u) ^ l.length * (1 + 13 * u) = (1 + 13 * u) ^ (L + l.length + 1) := by
      rw [pow_add, pow_add, pow_one]
    have c3 := grow_mono hu (show L + l.length + 1 ≤ L + J + 1 by omega)
    linarith

/-- A step of the backup. -/
theorem backup_step (hf : RoundingError u t fl) (hu : 0 ≤ u) (hu1 : u ≤ 1 / 100) {R : ℚ} (hR : 0 ≤ R) (htR : t ≤ u * R)
    {gamma : ℚ} (h0 : 0 ≤ gamma) (h1 : gamma ≤ 1) {a b p p' r : ℚ} (ha : 1 ≤ a) (hb : 0 ≤ b) (hp : |p'| ≤ b) (hpp : |p - p'| ≤ (a - 1) * b)
    (hr : |r| ≤ R) : |backupFl fl gamma r p - (r + gamma * p')| ≤ (a * (1 + 13 * u) - 1) * (b + R) := by
  have hgam : |gamma| ≤ 1 := by rw [abs_of_nonneg h0]; exact h1
  have hp0 : |p| ≤ a * b := by
    have := abs_of_near hpp hp
    linarith
  have hab : 0 ≤ a * b := mul_nonneg (by linarith) hb
  have hRa : R ≤ a * R := le_mul_of_one_le_left hR ha
  have huR : 0 ≤ u * R := mul_nonneg hu hR
  have huab : 0 ≤ u * (a * b) := mul_nonneg hu hab
  have huRa : u * R ≤ u * (a * R) := mul_le_mul_of_nonneg_left hRa hu
  have a1 : |gamma * p| ≤ a * b := by simpa using abs_mul_le' hgam hp0
  have a2 : |gamma * p - gamma * p'| ≤ (a - 1) * b := by
    rw [← mul_sub]
    simpa using abs_mul_le' hgam hpp
  have a3 := abs_tri (fl_near hf hu a1 htR) a2
  have a4 : |(r + fl (gamma * p)) - (r + gamma * p')| ≤ 0 + (u * (a * b) + u * R + (a - 1) * b) := abs_add_sub_le (by simp) a3
  have a5 : |r + gamma * p'| ≤ R + b := by
    refine abs_add_le' hr ?_
    simpa using abs_mul_le' hgam hp
  have a6 := abs_of_near a4 a5
  have a7 : |r + fl (gamma * p)| ≤ R + a * b + u * (a * b) + u * R := by linarith
  have a8 := abs_tri (fl_near hf hu a7 htR) a4
  refine a8.trans ?_
  have c1 := mul_le_mul_of_nonneg_right hu1 huR
  have c2 := mul_le_mul_of_nonneg_right hu1 huab
  linarith

theorem backups_error (hf : RoundingError u t fl) (hu : 0 ≤ u) (hu1 : u ≤ 1 / 100) {R : ℚ} (hR : 0 ≤ R) (htR : t ≤ u * R)
    {gamma : ℚ} (h0 : 0 ≤ gamma) (h1 : gamma ≤ 1) {a b p p' : ℚ} (ha : 1 ≤ a) (hb : 0 ≤ b) (hp : |p'| ≤ b) (hpp : |p - p'| ≤ (a - 1) * b) :
    ∀ rs : List ℚ, (∀ r ∈ rs, |r| ≤ R) → |discountedRewards gamma rs + gamma ^ rs.length * p'| ≤ b + rs.length * R ∧
    |rs.foldr (backupFl fl gamma) p - (discountedRewards gamma rs + gamma ^ rs.length * p')| ≤
      (a * (1 + 13 * u) ^ rs.length - 1) * (b + rs.length * R) := by
  intro rs
  induction rs with
  | nil => intro _; simpa [discountedRewards, sumRange_eq_sum] using ⟨hp, hpp⟩
  | cons r rs ih =>
      intro hr
      obtain ⟨i1, i2⟩ := ih (fun y hy => hr y (by simp [hy]))
      have hr1 := hr r (by simp)
      have hn : (0 : ℚ) ≤ rs.length * R := mul_nonneg (Nat.cast_nonneg _) hR
      have e1 : discountedRewards gamma (r :: rs) + gamma ^ (r :: rs).length * p' =
          r + gamma * (discountedRewards gamma rs + gamma ^ rs.length * p') := by
        rw [discountedRewards_cons, List.length_cons, pow_succ]; ring
      have a1 := backup_step hf hu hu1 hR htR h0 h1 (one_le_mul_of_one_le_of_one_le ha (grow_ge hu rs.length)) (by linarith) i1 i2 hr1
      rw [e1, List.foldr_cons]
      constructor
      · have := abs_add_le' hr1 (abs_mul_le' (show |gamma| ≤ 1 by rw [abs_of_nonneg h0]; exact h1) i1)
        rw [List.length_cons]
        push_cast
        linarith
      · refine a1.trans (le_of_eq ?_)
        rw [List.length_cons, pow_succ]
        push_cast
        ring

/-- The return of a simulation. -/
theorem simulated_error (hf : RoundingError u t fl) (hu : 0 ≤ u) (hu1 : u ≤ 1 / 100) {R : ℚ} (hR : 0 ≤ R) (ht1 : t ≤ u) (htR : t ≤ u * R)
    {gamma : ℚ} (h0 : 0 ≤ gamma) (h1 : gamma ≤ 1) {H J : Nat} {x : Simulated} (hx : SimulatedWithin x H J R) :
    |exactReturn gamma x| ≤ (H + 1 : Nat) * R ∧
    |simulatedFl fl gamma x - exactReturn gamma x| ≤ ((1 + 13 * u) ^ (H + J + 1) - 1) * ((H + 1 : Nat) * R) := by
  obtain ⟨x1, x2, x3, x4, x5⟩ := hx
  obtain ⟨L, hL⟩ : ∃ L, L + x.rewards.length = H := ⟨H - x.rewards.length, by omega⟩
  obtain ⟨p1, p2⟩ := partial_error hf hu hu1 hR ht1 htR h0 h1 (L := L) (J := J) (fun rs hrs => by have := x2 rs hrs; omega) x3 x5
  have hB : (0 : ℚ) ≤ (L + 1 : Nat) * R := mul_nonneg (Nat.cast_nonneg _) hR
  obtain ⟨q1, q2⟩ := backups_error hf hu hu1 hR htR h0 h1 (grow_ge hu (L + J + 1)) hB p1 p2 x.rewards x4
  have e1 : ((L + 1 : Nat) : ℚ) * R + x.rewards.length * R = (H + 1 : Nat) * R := by
    rw [← hL]; push_cast; ring
  have e2 : (1 + 13 * u) ^ (L + J + 1) * (1 + 13 * u) ^ x.rewards.length = (1 + 13 * u) ^ (H + J + 1) := by
    rw [← pow_add, ← hL]; congr 1; omega
  rw [e1] at q1 q2
  rw [e2] at q2
  exact ⟨q1, q2⟩

/-! ### Nodes -/

theorem exactValue_eq (alpha : ℚ) (xs : List ℚ) : (xs.foldl (Avg.update alpha) .new).value = exactValue alpha xs := by
  unfold exactValue
  induction xs using List.reverseRecOn with
  | nil => rfl
  | append_singleton xs x ih =>
      have hn := C52_count alpha xs
      rw [List.foldl_concat, C52_mixture, List.reverse_concat, mixValue, ih, List.length_reverse, hn]
      intro h
      rw [hn] at h
      rw [List.length_eq_zero_iff.1 h]
      rfl

theorem nodeFl_pairs (alpha gamma : ℚ) (xs : List Simulated) : nodeFl fl alpha gamma xs =
    (xs.map fun x => (simulatedFl fl gamma x, exactReturn gamma x)).foldl (fun v x => v.updateFl fl alpha x.1) .new := by
  unfold nodeFl
  rw [List.foldl_map]

theorem nodeFl_error (hf : RoundingError u t fl) (hu : 0 ≤ u) (hu1 : u ≤ 1 / 100) {R : ℚ} (hR : 0 ≤ R) (ht1 : t ≤ u) (htR : t ≤ u * R)
    {alpha gamma : ℚ} (ha0 : 0 ≤ alpha) (ha1 : alpha ≤ 1) (h0 : 0 ≤ gamma) (h1 : gamma ≤ 1) {H J : Nat} {xs : List Simulated}
    (hx : ∀ x ∈ xs, SimulatedWithin x H J R) : (nodeFl fl alpha gamma xs).n = xs.length ∧
    |exactValue alpha (xs.map (exactReturn gamma))| ≤ (H + 1 : Nat) * R ∧
    |(nodeFl fl alpha gamma xs).valueFl fl - exactValue alpha (xs.map (exactReturn gamma))| ≤
      ((1 + 13 * u) ^ (xs.length + H + J + 2) - 1) * ((H + 1 : Nat) * R) := by
  have hB : (0 : ℚ) ≤ (H + 1 : Nat) * R := mul_nonneg (Nat.cast_nonneg _) hR
  have hRB : R ≤ (H + 1 : Nat) * R := le_mul_of_one_le_left hR (by push_cast; linarith [(Nat.cast_nonneg H : (0 : ℚ) ≤ H)])
  have htB : t ≤ u * ((H + 1 : Nat) * R) := htR.trans (mul_le_mul_of_nonneg_left hRB hu)
  have hp : ∀ y ∈ xs.map fun x => (simulatedFl fl gamma x, exactReturn gamma x), |y.2| ≤ (H + 1 : Nat) * R ∧
      |y.1 - y.2| ≤ ((1 + 13 * u) ^ (H + J + 1) - 1) * ((H + 1 : Nat) * R) := by
    intro y hy
    obtain ⟨x, hxs, rfl⟩ := List.mem_map.1 hy
    exact simulated_error hf hu hu1 hR ht1 htR h0 h1 (hx x hxs)
  obtain ⟨r1, r2⟩ := average_error hf hu hu1 hB ht1 htB ha0 ha1 (grow_ge hu (H + J + 1))
    (xs.map fun x => (simulatedFl fl gamma x, exactReturn gamma x)) .new .new rfl (by simp [Avg.new]) (by simp [Avg.new]) hp
  have e0 : (xs.map fun x => (simulatedFl fl gamma x, exactReturn gamma x)).map Prod.snd = xs.map (exactReturn gamma) := by
    rw [List.map_map]; rfl
  have e1 : (Avg.new.n + (xs.map fun x => (simulatedFl fl gamma x, exactReturn gamma x)).length) = xs.length := by
    simp [Avg.new]
  rw [← nodeFl_pairs, e1] at r1
  rw [← nodeFl_pairs, e0, e1] at r2
  have hsmall := foldl_new_total alpha ha0 ha1 (xs.map (exactReturn gamma)) .new (B := (H + 1 : Nat) * R)
    (fun y hy => by
      obtain ⟨x, hxs, rfl⟩ := List.mem_map.1 hy
      exact (simulated_error hf hu hu1 hR ht1 htR h0 h1 (hx x hxs)).1) (by simp [Avg.new])
  have hn := C52_count alpha (xs.map (exactReturn gamma))
  rw [List.length_map] at hn
  refine ⟨r1, ?_⟩
  rw [← exactValue_eq]
  unfold Avg.valueFl Avg.value
  rw [r1, hn]
  rw [hn] at hsmall
  by_cases hz : xs.length = 0
  · rw [if_pos hz, if_pos hz, sub_self, abs_zero]
    exact ⟨hB, mul_nonneg (by linarith [grow_ge hu (xs.length + H + J + 2)]) hB⟩
  · rw [if_neg hz, if_neg hz]
    have hpos : 0 < xs.length := Nat.pos_of_ne_zero hz
    have hpos' : (0 : ℚ) < xs.length := by exact_mod_cast hpos
    refine ⟨by rw [abs_div, abs_of_pos hpos', div_le_iff₀ hpos']; linarith, ?_⟩
    have hq : 1 ≤ (1 + 13 * u) ^ (H + J + 1) * (1 + 13 * u) ^ xs.length := one_le_mul_of_one_le_of_one_le (grow_ge hu _) (grow_ge hu _)
    refine (quotient_error hf hu hB htB hpos hq hsmall r2).trans (mul_le_mul_of_nonneg_right ?_ hB)
    have c1 : (1 + 13 * u) ^ (H + J + 1) * (1 + 13 * u) ^ xs.length * (1 + 2 * u) ≤
        (1 + 13 * u) ^ (H + J + 1) * (1 + 13 * u) ^ xs.length * (1 + 13 * u) :=
      mul_le_mul_of_nonneg_left (by linarith) (by linarith)
    have c2 : (1 + 13 * u) ^ (H + J + 1) * (1 + 13 * u) ^ xs.length * (1 + 13 * u) = (1 + 13 * u) ^ (xs.length + H + J + 2) := by
      rw [← pow_add, ← pow_succ]; congr 1; omega
    linarith

/-- The value that is compared. -/
theorem compared_error (hf : RoundingError u t fl) (hu : 0 ≤ u) (hu1 : u ≤ 1 / 100) {B q v v' : ℚ} (hB : 0 ≤ B) (htB : t ≤ u * B) (hq : 1 ≤ q)
    (hv : |v'| ≤ B) (hvv : |v - v'| ≤ (q - 1) * B) : |fl (v + fl 0) - v'| ≤ (q * (1 + 13 * u) - 1) * B := by
  have hBq : B ≤ q * B := le_mul_of_one_le_left hB hq
  have huB : u * B ≤ u * (q * B) := mul_le_mul_of_nonneg_left hBq hu
  have huB0 : 0 ≤ u * B := mul_nonneg hu hB
  have a1 := fl_near hf hu (show |(0 : ℚ)| ≤ 0 by simp) htB
  have a2 := abs_add_sub_le hvv a1
  rw [add_zero] at a2
  have a3 := abs_of_near a2 hv
  have a4 := abs_tri (fl_near hf hu a3 htB) a2
  have c1 := mul_le_mul_of_nonneg_right hu1 huB0
  refine a4.trans ?_
  linarith

/-- The growth is linear as long as it is small. -/
theorem grow_linear {x : ℚ} (hx : 0 ≤ x) : ∀ m : Nat, m * x ≤ 1 / 2 → (1 + x) ^ m ≤ 1 + 2 * (m * x) := by
  intro m
  induction m with
  | zero => intro _; simp
  | succ m ih =>
      intro h
      push_cast at h
      have hm : 0 ≤ m * x := mul_nonneg (Nat.cast_nonneg m) hx
      have a1 := ih (by linarith)
      have a2 := mul_le_mul_of_nonneg_right a1 (by linarith : 0 ≤ 1 + x)
      have a3 : m * x * x ≤ 1 / 2 * x := mul_le_mul_of_nonneg_right (by linarith) hx
      rw [pow_succ]
      push_cast
      linarith

end

end Verif
