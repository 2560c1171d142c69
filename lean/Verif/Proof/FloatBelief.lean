import Verif.Proof.Pomdp
import Verif.Spec.FloatBelief
import Mathlib.Algebra.Order.Floor.Ring
import Mathlib.Algebra.Order.Ring.Pow
import Mathlib.Data.Rat.Floor
import Mathlib.Tactic.Linarith
import Mathlib.Tactic.Positivity
import Mathlib.Tactic.FieldSimp
import Mathlib.Tactic.Ring

/-! Lemmas for C104: rounding errors of belief updates. -/

set_option linter.unusedSectionVars false
set_option linter.unusedSimpArgs false

namespace Verif
open Spec

/-! ### Factors -/

namespace WithinF

theorem refl {c x : ℚ} (hc : 1 ≤ c) (hx : 0 ≤ x) : WithinFactor c x x := by
  constructor <;> nlinarith

theorem symm {c x y : ℚ} (h : WithinFactor c x y) : WithinFactor c y x := ⟨h.2, h.1⟩

theorem trans {c d x y z : ℚ} (hc : 0 ≤ c) (hd : 0 ≤ d) (h : WithinFactor c x y) (g : WithinFactor d y z) : WithinFactor (c * d) x z := by
  constructor
  · have := mul_le_mul_of_nonneg_left g.1 hc
    linarith [h.1]
  · have := mul_le_mul_of_nonneg_left h.2 hd
    linarith [g.2]

theorem mono {c d x y : ℚ} (hx : 0 ≤ x) (hy : 0 ≤ y) (hcd : c ≤ d) (h : WithinFactor c x y) : WithinFactor d x y :=
  ⟨h.1.trans (mul_le_mul_of_nonneg_right hcd hy), h.2.trans (mul_le_mul_of_nonneg_right hcd hx)⟩

theorem add {c x y x' y' : ℚ} (h : WithinFactor c x y) (g : WithinFactor c x' y') : WithinFactor c (x + x') (y + y') := by
  constructor
  · rw [mul_add]; exact add_le_add h.1 g.1
  · rw [mul_add]; exact add_le_add h.2 g.2

theorem mul {c x y k : ℚ} (hk : 0 ≤ k) (h : WithinFactor c x y) : WithinFactor c (x * k) (y * k) := by
  constructor
  · have := mul_le_mul_of_nonneg_right h.1 hk; linarith
  · have := mul_le_mul_of_nonneg_right h.2 hk; linarith

theorem zero {c x : ℚ} (hx : 0 ≤ x) (h : WithinFactor c 0 x) : x = 0 := by
  have := h.2
  rw [mul_zero] at this
  exact le_antisymm this hx

end WithinF

/-- The factor of one rounding. -/
def grow (u : ℚ) : ℚ := 1 / (1 - u)

theorem grow_one {u : ℚ} (h0 : 0 ≤ u) (h1 : u < 1) : 1 ≤ grow u := by
  unfold grow
  rw [le_div_iff₀ (by linarith)]
  linarith

theorem round_within {u : ℚ} (h0 : 0 ≤ u) (h1 : u < 1) {r : Rounds} (hr : RelativeError u r) {x y : ℚ} (hx : 0 ≤ x) (h : r x y) :
    0 ≤ y ∧ WithinFactor (grow u) y x := by
  have e := abs_le.1 (hr x y hx h)
  have hp : 0 < 1 - u := by linarith
  have hy : (1 - u) * x ≤ y := by linarith [e.1]
  have hm : 0 ≤ (1 - u) * x := mul_nonneg hp.le hx
  refine ⟨hm.trans hy, ?_, ?_⟩
  · unfold grow
    rw [one_div, ← div_eq_inv_mul, le_div_iff₀ hp]
    have : y * (1 - u) ≤ (x + u * x) * (1 - u) := mul_le_mul_of_nonneg_right (by linarith [e.2]) hp.le
    nlinarith [mul_nonneg hx (sq_nonneg u)]
  · unfold grow
    rw [one_div, ← div_eq_inv_mul, le_div_iff₀ hp]
    linarith

section
variable {u : ℚ} (h0 : 0 ≤ u) (h1 : u < 1)
include h0 h1

theorem grow_pow_one (d : Nat) : 1 ≤ grow u ^ d := one_le_pow₀ (grow_one h0 h1)

theorem grow_pow_nonneg (d : Nat) : 0 ≤ grow u ^ d := zero_le_one.trans (grow_pow_one h0 h1 d)

theorem grow_pow_mono {d e : Nat} (h : d ≤ e) : grow u ^ d ≤ grow u ^ e := pow_le_pow_right₀ (grow_one h0 h1) h

theorem floatSum_within {r : Rounds} (hr : RelativeError u r) {d : Nat} {l : List ℚ} {v : ℚ} (h : FloatSum r d l v)
    (hl : ∀ x ∈ l, 0 ≤ x) : 0 ≤ v ∧ WithinFactor (grow u ^ d) v l.sum := by
  induction h with
  | nil => exact ⟨le_refl _, by simp [WithinFactor]⟩
  | one x =>
      have hx := hl x (by simp)
      exact ⟨hx, by simpa using WithinF.refl (le_refl 1) hx⟩
  | @add d e l m v w z _ _ hz ih1 ih2 =>
      obtain ⟨a1, a2⟩ := ih1 fun x hx => hl x (List.mem_append_left _ hx)
      obtain ⟨b1, b2⟩ := ih2 fun x hx => hl x (List.mem_append_right _ hx)
      have sl : 0 ≤ l.sum := List.sum_nonneg fun x hx => hl x (List.mem_append_left _ hx)
      have sm : 0 ≤ m.sum := List.sum_nonneg fun x hx => hl x (List.mem_append_right _ hx)
      obtain ⟨c1, c2⟩ := round_within h0 h1 hr (add_nonneg a1 b1) hz
      refine ⟨c1, ?_⟩
      rw [List.sum_append, pow_succ, mul_comm]
      exact WithinF.trans (zero_le_one.trans (grow_one h0 h1)) (grow_pow_nonneg h0 h1 _) c2
        (WithinF.add (WithinF.mono a1 sl (grow_pow_mono h0 h1 (le_max_left _ _)) a2)
          (WithinF.mono b1 sm (grow_pow_mono h0 h1 (le_max_right _ _)) b2))
  | perm hp _ ih =>
      rw [← hp.sum_eq]
      exact ih fun x hx => hl x (hp.mem_iff.1 hx)

theorem floatDot_within {rs rp : Rounds} (hs : RelativeError u rs) (hq : RelativeError u rp) {d : Nat} {l : List (ℚ × ℚ)} {v : ℚ}
    (h : FloatDot rs rp d l v) (hl : ∀ x ∈ l, 0 ≤ x.1 ∧ 0 ≤ x.2) :
    0 ≤ v ∧ WithinFactor (grow u ^ d) v (l.map fun x => x.1 * x.2).sum := by
  have hprod : ∀ (l : List (ℚ × ℚ)), (∀ x ∈ l, 0 ≤ x.1 ∧ 0 ≤ x.2) → 0 ≤ (l.map fun x => x.1 * x.2).sum := by
    intro l hl
    apply List.sum_nonneg
    intro y hy
    obtain ⟨x, hx, rfl⟩ := List.mem_map.1 hy
    exact mul_nonneg (hl x hx).1 (hl x hx).2
  induction h with
  | nil => exact ⟨le_refl _, by simp [WithinFactor]⟩
  | @mul x y z hz =>
      have hx := hl (x, y) (by simp)
      have := round_within h0 h1 hq (mul_nonneg hx.1 hx.2) hz
      simpa using this
  | @add d e l m v w z _ _ hz ih1 ih2 =>
      have hl1 := fun x hx => hl x (List.mem_append_left m hx)
      have hl2 := fun x hx => hl x (List.mem_append_right l hx)
      obtain ⟨a1, a2⟩ := ih1 hl1
      obtain ⟨b1, b2⟩ := ih2 hl2
      obtain ⟨c1, c2⟩ := round_within h0 h1 hs (add_nonneg a1 b1) hz
      refine ⟨c1, ?_⟩
      rw [List.map_append, List.sum_append, pow_succ, mul_comm]
      exact WithinF.trans (zero_le_one.trans (grow_one h0 h1)) (grow_pow_nonneg h0 h1 _) c2
        (WithinF.add (WithinF.mono a1 (hprod l hl1) (grow_pow_mono h0 h1 (le_max_left _ _)) a2)
          (WithinF.mono b1 (hprod m hl2) (grow_pow_mono h0 h1 (le_max_right _ _)) b2))
  | @fma d l v x y z _ hz ih =>
      have hl1 := fun t ht => hl t (List.mem_append_left [(x, y)] ht)
      have hx := hl (x, y) (by simp)
      obtain ⟨a1, a2⟩ := ih hl1
      have hxy := mul_nonneg hx.1 hx.2
      obtain ⟨c1, c2⟩ := round_within h0 h1 hq (add_nonneg a1 hxy) hz
      refine ⟨c1, ?_⟩
      rw [List.map_append, List.sum_append, pow_succ, mul_comm]
      refine WithinF.trans (zero_le_one.trans (grow_one h0 h1)) (grow_pow_nonneg h0 h1 _) c2 (WithinF.add a2 ?_)
      simpa using WithinF.refl (grow_pow_one h0 h1 d) hxy
  | perm hp _ ih =>
      rw [← (hp.map _).sum_eq]
      exact ih fun x hx => hl x (hp.mem_iff.1 hx)

end

/-! ### One update -/

/-- The stored belief `b` and the exact one `c` (up to a factor) have the same proportions, up to the factor `R`. -/
structure Alike (n : Nat) (R : ℚ) (b c : List ℚ) : Prop where
  bpos : ∀ i < n, 0 ≤ b.getD i 0
  cpos : ∀ i < n, 0 ≤ c.getD i 0
  bsum : 0 < sumRange n fun i => b.getD i 0
  csum : 0 < sumRange n fun i => c.getD i 0
  cross : ∀ i < n, ∀ j < n, b.getD i 0 * c.getD j 0 ≤ R * (b.getD j 0 * c.getD i 0)

theorem list_sum_getD (l : List ℚ) : l.sum = sumRange l.length fun i => l.getD i 0 := by
  unfold sumRange
  congr 1
  apply List.ext_getElem
  · simp
  · intro i h1 h2
    simp [h1]

/-- The exact update before normalisation. -/
def jointList (p : Pomdp) (nS a o : Nat) (b : List ℚ) : List ℚ := (List.range nS).map (jointProb p nS a o b)

theorem jointList_getD (p : Pomdp) (nS a o : Nat) (b : List ℚ) (i : Nat) (hi : i < nS) :
    (jointList p nS a o b).getD i 0 = jointProb p nS a o b i := getD_map_range _ _ _ hi

section
variable {u : ℚ} (h0 : 0 ≤ u) (h1 : u < 1)
variable {rs rp : Rounds}
variable {p : Pomdp} {nS nA nO : Nat} (hp : Shaped p nS nA nO) (hT : RowsNonneg p.T) (hO : RowsNonneg p.O)
include hp hT hO

theorem joint_nonneg' {a o : Nat} (ha : a < nA) (ho : o < nO) (b : List ℚ) (hb : ∀ i < nS, 0 ≤ b.getD i 0) :
    ∀ i < nS, 0 ≤ jointProb p nS a o b i := by
  obtain ⟨-, -, -, -, t0, t1, t2, o0, o1, o2, -⟩ := hp
  intro i hi
  refine mul_nonneg (hO a (by omega) i (by omega) o (by omega)) (sumRange_nonneg _ _ fun s hs => ?_)
  exact mul_nonneg (hb s hs) (hT a (by omega) s (by omega) i (by omega))

include h0 h1 in
/-- The stored products are close to the exact ones of the stored belief. -/
theorem floatJoint_within (hs : RelativeError u rs) (hq : RelativeError u rp) {D a o : Nat} (ha : a < nA) (ho : o < nO)
    {b xs : List ℚ} (hb : ∀ i < nS, 0 ≤ b.getD i 0) (h : FloatJoint rs rp D p a o b xs) :
    xs.length = nS ∧ ∀ i < nS, 0 ≤ xs.getD i 0 ∧ WithinFactor (grow u ^ (D + 1)) (xs.getD i 0) (jointProb p nS a o b i) := by
  have hjoint := joint_nonneg' hp hT hO ha ho b hb
  obtain ⟨-, -, -, -, t0, t1, t2, o0, o1, o2, -⟩ := hp
  obtain ⟨hl, hx⟩ := h
  refine ⟨by omega, fun i hi => ?_⟩
  obtain ⟨d, hd, v, hv, hz⟩ := hx i (by omega)
  rw [t1] at hv
  have hOi : 0 ≤ p.O.at_ a i o := hO a (by omega) i (by omega) o (by omega)
  have hT' : ∀ s < nS, 0 ≤ p.T.at_ a s i := fun s hs => hT a (by omega) s (by omega) i (by omega)
  obtain ⟨v0, vw⟩ := floatDot_within h0 h1 hs hq hv (by
    intro x hx
    obtain ⟨s, hs, rfl⟩ := List.mem_map.1 hx
    exact ⟨hb s (List.mem_range.1 hs), hT' s (List.mem_range.1 hs)⟩)
  rw [List.map_map] at vw
  have e : ((List.range nS).map ((fun x : ℚ × ℚ => x.1 * x.2) ∘ fun s => (b.getD s 0, p.T.at_ a s i))).sum =
      sumRange nS fun s => b.getD s 0 * p.T.at_ a s i := rfl
  rw [e] at vw
  have sn : 0 ≤ sumRange nS fun s => b.getD s 0 * p.T.at_ a s i := sumRange_nonneg _ _ fun s hs => mul_nonneg (hb s hs) (hT' s hs)
  obtain ⟨z0, zw⟩ := round_within h0 h1 hq (mul_nonneg v0 hOi) hz
  refine ⟨z0, ?_⟩
  unfold jointProb
  rw [pow_succ, mul_comm (grow u ^ D), mul_comm (p.O.at_ a i o)]
  exact WithinF.trans (zero_le_one.trans (grow_one h0 h1)) (grow_pow_nonneg h0 h1 _) zw
    (WithinF.mul hOi (WithinF.mono v0 sn (grow_pow_mono h0 h1 hd) vw))

/-- The exact updates of two beliefs with the same proportions. -/
theorem joint_cross {a o : Nat} (ha : a < nA) (ho : o < nO) {R : ℚ} {b c : List ℚ} (h : Alike nS R b c) (i j : Nat) (hi : i < nS)
    (hj : j < nS) :
    jointProb p nS a o b i * jointProb p nS a o c j ≤ R * (jointProb p nS a o b j * jointProb p nS a o c i) := by
  obtain ⟨-, -, -, -, t0, t1, t2, o0, o1, o2, -⟩ := hp
  have hOi : 0 ≤ p.O.at_ a i o := hO a (by omega) i (by omega) o (by omega)
  have hOj : 0 ≤ p.O.at_ a j o := hO a (by omega) j (by omega) o (by omega)
  have hT' : ∀ s < nS, ∀ t < nS, 0 ≤ p.T.at_ a s t := fun s hs t ht => hT a (by omega) s (by omega) t (by omega)
  have hprod : ∀ f g : Nat → ℚ, sumRange nS f * sumRange nS g = sumRange nS fun k => sumRange nS fun l => f k * g l := by
    intro f g
    rw [← sumRange_mul_right]
    apply sumRange_congr
    intro k _
    rw [sumRange_mul_left]
  have key : (sumRange nS fun s => b.getD s 0 * p.T.at_ a s i) * (sumRange nS fun s => c.getD s 0 * p.T.at_ a s j) ≤
      R * ((sumRange nS fun s => b.getD s 0 * p.T.at_ a s j) * (sumRange nS fun s => c.getD s 0 * p.T.at_ a s i)) := by
    rw [hprod, hprod, ← sumRange_mul_left]
    calc _ ≤ sumRange nS (fun k => sumRange nS fun l => R * (b.getD l 0 * p.T.at_ a l j * (c.getD k 0 * p.T.at_ a k i))) := by
          apply sumRange_le
          intro k hk
          apply sumRange_le
          intro l hl
          have := mul_le_mul_of_nonneg_right (h.cross k hk l hl) (mul_nonneg (hT' k hk i hi) (hT' l hl j hj))
          linarith
      _ = sumRange nS (fun k => sumRange nS fun l => R * (b.getD k 0 * p.T.at_ a k j * (c.getD l 0 * p.T.at_ a l i))) := by
          rw [sumRange_comm]
      _ ≤ _ := by
          apply sumRange_le
          intro k _
          rw [sumRange_mul_left]
  unfold jointProb
  have := mul_le_mul_of_nonneg_left key (mul_nonneg hOi hOj)
  linarith

include h0 h1 in
/-- One step: the observation is impossible, or the stored belief has the proportions of the exact one. -/
theorem floatUpdate_step (hs : RelativeError u rs) (hq : RelativeError u rp) {D a o : Nat} (ha : a < nA) (ho : o < nO) {R : ℚ}
    (hR : 0 ≤ R) {b c : List ℚ} (h : Alike nS R b c) {r : Py (List ℚ)} (hr : FloatUpdate rs rp D p a o b r) :
    (r = .error .impossible ∧ ∀ i < nS, jointProb p nS a o c i = 0) ∨
    ∃ q, r = .ok q ∧ q.length = nS ∧ Alike nS (R * grow u ^ (2 * (D + 2))) q (jointList p nS a o c) ∧
      WithinFactor (grow u ^ (D + 1)) (sumRange nS fun i => q.getD i 0) 1 := by
  have hjb := joint_nonneg' hp hT hO ha ho b h.bpos
  have hjc := joint_nonneg' hp hT hO ha ho c h.cpos
  have hcross := fun i hi j hj => joint_cross hp hT hO ha ho h i j hi hj
  have hg := grow_one h0 h1
  -- both joint vectors vanish together
  have hvan : (∀ i < nS, jointProb p nS a o b i = 0) ↔ (∀ i < nS, jointProb p nS a o c i = 0) := by
    obtain ⟨-, -, -, -, t0, t1, t2, o0, o1, o2, -⟩ := hp
    have hT' : ∀ s < nS, ∀ t < nS, 0 ≤ p.T.at_ a s t := fun s hs t ht => hT a (by omega) s (by omega) t (by omega)
    have one : ∀ {b c : List ℚ}, (∀ i < nS, 0 ≤ b.getD i 0) → (∀ i < nS, 0 ≤ c.getD i 0) →
        (∀ i < nS, b.getD i 0 = 0 → c.getD i 0 = 0) →
        (∀ i < nS, jointProb p nS a o b i = 0) → (∀ i < nS, jointProb p nS a o c i = 0) := by
      intro b c hb hc hbc hz i hi
      have hzi := hz i hi
      unfold jointProb at hzi ⊢
      rcases mul_eq_zero.1 hzi with e | e
      · rw [e, zero_mul]
      · have : sumRange nS (fun s => c.getD s 0 * p.T.at_ a s i) = 0 := by
          refine (sumRange_congr nS _ (fun _ => 0) fun s hs => ?_).trans (sumRange_zero nS)
          have h1 : b.getD s 0 * p.T.at_ a s i = 0 := by
            refine le_antisymm ?_ (mul_nonneg (hb s hs) (hT' s hs i hi))
            exact (sumRange_single_le nS (fun s => b.getD s 0 * p.T.at_ a s i) (fun k hk => mul_nonneg (hb k hk) (hT' k hk i hi)) s hs).trans
              e.le
          rcases mul_eq_zero.1 h1 with e' | e'
          · rw [hbc s hs e', zero_mul]
          · rw [e', mul_zero]
        rw [this, mul_zero]
    obtain ⟨kb, hkb, kb0⟩ := (sumRange_pos_iff _ _ h.bpos).1 h.bsum
    obtain ⟨kc, hkc, kc0⟩ := (sumRange_pos_iff _ _ h.cpos).1 h.csum
    have hbc : ∀ i < nS, b.getD i 0 = 0 → c.getD i 0 = 0 := by
      intro i hi e
      have := h.cross kb hkb i hi
      rw [e, zero_mul, mul_zero] at this
      by_contra hne
      have : 0 < b.getD kb 0 * c.getD i 0 := mul_pos kb0 (lt_of_le_of_ne (h.cpos i hi) (Ne.symm hne))
      linarith
    have hcb : ∀ i < nS, c.getD i 0 = 0 → b.getD i 0 = 0 := by
      intro i hi e
      have := h.cross i hi kc hkc
      rw [e, mul_zero, mul_zero] at this
      by_contra hne
      have : 0 < b.getD i 0 * c.getD kc 0 := mul_pos (lt_of_le_of_ne (h.bpos i hi) (Ne.symm hne)) kc0
      linarith
    exact ⟨one h.bpos h.cpos hbc, one h.cpos h.bpos hcb⟩
  cases hr with
  | @impossible xs d hx hd hsum =>
      left
      refine ⟨rfl, hvan.1 ?_⟩
      obtain ⟨hl, hw⟩ := floatJoint_within h0 h1 hp hT hO hs hq ha ho h.bpos hx
      have hn : ∀ x ∈ xs, 0 ≤ x := by
        intro x hx
        obtain ⟨i, hi, rfl⟩ := List.mem_iff_getElem.1 hx
        have := (hw i (by omega)).1
        simpa [hi] using this
      obtain ⟨-, sw⟩ := floatSum_within h0 h1 hs hsum hn
      have sz := WithinF.zero (List.sum_nonneg hn) sw
      rw [list_sum_getD, hl] at sz
      intro i hi
      have x0 : xs.getD i 0 = 0 := by
        refine le_antisymm ?_ (hw i hi).1
        exact (sumRange_single_le nS (fun i => xs.getD i 0) (fun k hk => (hw k hk).1) i hi).trans sz.le
      have := (hw i hi).2
      rw [x0] at this
      exact WithinF.zero (hjb i hi) this
  | @ok xs q s d hx hd hsum hs0 hql hdiv =>
      right
      obtain ⟨hl, hw⟩ := floatJoint_within h0 h1 hp hT hO hs hq ha ho h.bpos hx
      have hn : ∀ x ∈ xs, 0 ≤ x := by
        intro x hx
        obtain ⟨i, hi, rfl⟩ := List.mem_iff_getElem.1 hx
        have := (hw i (by omega)).1
        simpa [hi] using this
      obtain ⟨s0, sw⟩ := floatSum_within h0 h1 hs hsum hn
      have spos : 0 < s := lt_of_le_of_ne s0 (Ne.symm hs0)
      have sxs : 0 ≤ xs.sum := List.sum_nonneg hn
      have sw := WithinF.mono s0 sxs (grow_pow_mono h0 h1 hd) sw
      rw [list_sum_getD, hl] at sw sxs
      have hqw : ∀ i < nS, 0 ≤ q.getD i 0 ∧ WithinFactor (grow u) (q.getD i 0) (xs.getD i 0 / s) := by
        intro i hi
        exact round_within h0 h1 hq (div_nonneg (hw i hi).1 s0) (hdiv i (by omega))
      have hqj : ∀ i < nS, WithinFactor (grow u ^ (D + 2)) (q.getD i 0) (jointProb p nS a o b i / s) := by
        intro i hi
        rw [show D + 2 = (D + 1) + 1 from rfl, pow_succ, mul_comm]
        refine WithinF.trans (zero_le_one.trans hg) (grow_pow_nonneg h0 h1 _) (hqw i hi).2 ?_
        rw [div_eq_mul_inv, div_eq_mul_inv]
        exact WithinF.mul (inv_nonneg.2 s0) (hw i hi).2
      have sumw : WithinFactor (grow u ^ (D + 1)) (sumRange nS fun i => q.getD i 0) 1 := by
        have e1 : WithinFactor (grow u) (sumRange nS fun i => q.getD i 0) ((sumRange nS fun i => xs.getD i 0) / s) := by
          rw [← sumRange_div]
          constructor
          · rw [← sumRange_mul_left]; exact sumRange_le _ _ _ fun i hi => (hqw i hi).2.1
          · rw [← sumRange_mul_left]; exact sumRange_le _ _ _ fun i hi => (hqw i hi).2.2
        rw [pow_succ, mul_comm]
        refine WithinF.trans (zero_le_one.trans hg) (grow_pow_nonneg h0 h1 _) e1 (WithinF.symm ?_)
        have := WithinF.mul (inv_nonneg.2 s0) sw
        rwa [mul_inv_cancel₀ hs0, ← div_eq_mul_inv] at this
      have qsum : 0 < sumRange nS fun i => q.getD i 0 := by
        have hk : 0 < grow u ^ (D + 1) := lt_of_lt_of_le one_pos (grow_pow_one h0 h1 _)
        have h2 := sumw.2
        by_contra hneg
        have h3 : grow u ^ (D + 1) * (sumRange nS fun i => q.getD i 0) ≤ 0 :=
          mul_nonpos_of_nonneg_of_nonpos hk.le (not_lt.1 hneg)
        linarith
      refine ⟨q, rfl, by omega, ⟨fun i hi => (hqw i hi).1, ?_, qsum, ?_, ?_⟩, sumw⟩
      · intro i hi
        rw [jointList_getD _ _ _ _ _ _ hi]
        exact hjc i hi
      · rw [sumRange_congr nS _ (jointProb p nS a o c) fun i hi => jointList_getD _ _ _ _ _ _ hi]
        by_contra hneg
        have hz : ∀ i < nS, jointProb p nS a o c i = 0 := by
          intro i hi
          refine le_antisymm ?_ (hjc i hi)
          exact (sumRange_single_le nS (jointProb p nS a o c) hjc i hi).trans (not_lt.1 hneg)
        have hz' := hvan.2 hz
        have : (sumRange nS fun i => q.getD i 0) ≤ 0 := by
          refine (sumRange_le nS _ (fun _ => 0) fun i hi => ?_).trans (sumRange_zero nS).le
          have := (hqj i hi).1
          rwa [hz' i hi, zero_div, mul_zero] at this
        linarith
      · intro i hi j hj
        rw [jointList_getD _ _ _ _ _ _ hi, jointList_getD _ _ _ _ _ _ hj]
        have k1 := mul_le_mul_of_nonneg_right (hqj i hi).1 (hjc j hj)
        have k2 := mul_le_mul_of_nonneg_right (hqj j hj).2 (hjc i hi)
        have k3 := hcross i hi j hj
        have hk := grow_pow_nonneg h0 h1 (D + 2)
        have k4 : jointProb p nS a o b i / s * jointProb p nS a o c j ≤ R * (jointProb p nS a o b j / s * jointProb p nS a o c i) := by
          rw [div_mul_eq_mul_div, div_mul_eq_mul_div, mul_div_assoc', div_le_div_iff_of_pos_right spos]
          exact k3
        have k5 := mul_le_mul_of_nonneg_left k4 hk
        have k6 := mul_le_mul_of_nonneg_left k2 (mul_nonneg hk hR)
        have e : grow u ^ (2 * (D + 2)) = grow u ^ (D + 2) * grow u ^ (D + 2) := by rw [two_mul, pow_add]
        rw [e]
        calc q.getD i 0 * jointProb p nS a o c j ≤ grow u ^ (D + 2) * (jointProb p nS a o b i / s) * jointProb p nS a o c j := k1
          _ = grow u ^ (D + 2) * (jointProb p nS a o b i / s * jointProb p nS a o c j) := by ring
          _ ≤ grow u ^ (D + 2) * (R * (jointProb p nS a o b j / s * jointProb p nS a o c i)) := k5
          _ = grow u ^ (D + 2) * R * (jointProb p nS a o b j / s * jointProb p nS a o c i) := by ring
          _ ≤ grow u ^ (D + 2) * R * (grow u ^ (D + 2) * q.getD j 0 * jointProb p nS a o c i) := k6
          _ = _ := by ring

end

/-! ### Histories -/

/-- The exact updates of a history, without normalisation. -/
def jointAlong (p : Pomdp) (nS : Nat) : List ℚ → List (Nat × Nat) → List ℚ
  | c, [] => c
  | c, (a, o) :: h => jointAlong p nS (jointList p nS a o c) h

theorem beliefProb_jointList (p : Pomdp) (nS : Nat) (f : Nat → Bool) (c : List ℚ) (a o : Nat) (h : List (Nat × Nat)) :
    beliefProb p nS f c ((a, o) :: h) = beliefProb p nS f (jointList p nS a o c) h := by
  rw [beliefProb_cons]
  unfold beliefProb
  apply sumRange_congr
  intro s hs
  rw [jointList_getD _ _ _ _ _ _ hs]

theorem jointAlong_getD (p : Pomdp) (nS : Nat) (h : List (Nat × Nat)) : ∀ (c : List ℚ) (e : Nat), e < nS →
    (jointAlong p nS c h).getD e 0 = endProb p nS c h e := by
  induction h with
  | nil =>
      intro c e he
      rw [endProb_eq]
      unfold beliefProb jointAlong
      simp only [tailProb_nil]
      rw [sumRange_congr nS _ (fun s => if s = e then c.getD e 0 else 0) (fun s _ => by
        by_cases hs : s = e <;> simp [hs])]
      rw [sumRange_ite nS e _ he]
  | cons x h ih =>
      obtain ⟨a, o⟩ := x
      intro c e he
      rw [jointAlong, ih _ _ he, endProb_eq, endProb_eq, beliefProb_jointList]

theorem jointAlong_sum (p : Pomdp) (nS : Nat) (h : List (Nat × Nat)) : ∀ (c : List ℚ),
    (sumRange nS fun i => (jointAlong p nS c h).getD i 0) = histProb p nS c h := by
  induction h with
  | nil =>
      intro c
      rw [histProb_eq]
      unfold beliefProb jointAlong
      simp [tailProb_nil]
  | cons x h ih =>
      obtain ⟨a, o⟩ := x
      intro c
      rw [jointAlong, ih, histProb_eq, histProb_eq, beliefProb_jointList]

section
variable {u : ℚ} (h0 : 0 ≤ u) (h1 : u < 1)
variable {rs rp : Rounds}
variable {p : Pomdp} {nS nA nO : Nat} (hp : Shaped p nS nA nO) (hT : RowsNonneg p.T) (hO : RowsNonneg p.O)
include h0 h1 hp hT hO

/-- A history: it is impossible, or the stored belief has the proportions of the exact one. -/
theorem floatUpdates_along (hs : RelativeError u rs) (hq : RelativeError u rp) {D : Nat} {b : List ℚ} {h : List (Nat × Nat)}
    {r : Py (List ℚ)} (hr : FloatUpdates rs rp D p b h r) : ∀ {R : ℚ} {c : List ℚ}, 0 ≤ R → Alike nS R b c →
      (∀ x ∈ h, x.1 < nA ∧ x.2 < nO) →
      (r = .error .impossible ∧ histProb p nS c h = 0) ∨
      ∃ q, r = .ok q ∧ Alike nS (R * grow u ^ (2 * (D + 2) * h.length)) q (jointAlong p nS c h) ∧
        (h ≠ [] → q.length = nS ∧ WithinFactor (grow u ^ (D + 1)) (sumRange nS fun i => q.getD i 0) 1) := by
  induction hr with
  | done b =>
      intro R c hR ha _
      refine .inr ⟨b, rfl, by simpa [jointAlong] using ha, fun h => absurd rfl h⟩
  | @stop b a o h e hu =>
      intro R c hR ha hh
      obtain ⟨h1', h2'⟩ := hh (a, o) (by simp)
      rcases floatUpdate_step h0 h1 hp hT hO hs hq h1' h2' hR ha hu with ⟨e1, e2⟩ | ⟨q, e1, -⟩
      · refine .inl ⟨by cases e1; rfl, ?_⟩
        rw [histProb_eq, beliefProb_cons]
        refine (sumRange_congr nS _ (fun _ => 0) fun i hi => ?_).trans (sumRange_zero nS)
        rw [e2 i hi, zero_mul]
      · cases e1
  | @step b b1 a o h r hu hrest ih =>
      intro R c hR ha hh
      obtain ⟨h1', h2'⟩ := hh (a, o) (by simp)
      rcases floatUpdate_step h0 h1 hp hT hO hs hq h1' h2' hR ha hu with ⟨e1, -⟩ | ⟨q, e1, hql, hal, hw⟩
      · cases e1
      · cases e1
        rcases ih (mul_nonneg hR (grow_pow_nonneg h0 h1 _)) hal (fun x hx => hh x (List.mem_cons_of_mem _ hx)) with
          ⟨e3, e4⟩ | ⟨q', e3, e4, e5⟩
        · refine .inl ⟨e3, ?_⟩
          rw [histProb_eq] at e4 ⊢
          rw [beliefProb_jointList, e4]
        · refine .inr ⟨q', e3, ?_, fun _ => ?_⟩
          · rw [mul_assoc, ← pow_add] at e4
            rw [List.length_cons, mul_add, mul_one, add_comm]
            exact e4
          · by_cases hn : h = []
            · subst hn
              cases hrest
              cases e3
              exact ⟨hql, hw⟩
            · exact e5 hn

end

/-- Proportions and sums give the distance to the exact posterior. -/
theorem Alike.within {n : Nat} {R g : ℚ} {q c : List ℚ} (h : Alike n R q c) (hR : 0 ≤ R) (hg : 0 ≤ g)
    (hs : WithinFactor g (sumRange n fun i => q.getD i 0) 1) (i : Nat) (hi : i < n) :
    WithinFactor (R * g) (q.getD i 0) (c.getD i 0 / sumRange n fun j => c.getD j 0) := by
  have hC := h.csum
  have e1 : q.getD i 0 * (sumRange n fun j => c.getD j 0) ≤ R * ((sumRange n fun j => q.getD j 0) * c.getD i 0) := by
    rw [← sumRange_mul_left, ← sumRange_mul_right, ← sumRange_mul_left]
    exact sumRange_le _ _ _ fun j hj => h.cross i hi j hj
  have e2 : (sumRange n fun j => q.getD j 0) * c.getD i 0 ≤ R * (q.getD i 0 * (sumRange n fun j => c.getD j 0)) := by
    rw [← sumRange_mul_left, ← sumRange_mul_right, ← sumRange_mul_left]
    exact sumRange_le _ _ _ fun j hj => h.cross j hj i hi
  obtain ⟨s1, s2⟩ := hs
  have hc := h.cpos i hi
  constructor
  · rw [mul_div_assoc', le_div_iff₀ hC]
    have : R * ((sumRange n fun j => q.getD j 0) * c.getD i 0) ≤ R * ((g * 1) * c.getD i 0) :=
      mul_le_mul_of_nonneg_left (mul_le_mul_of_nonneg_right s1 hc) hR
    linarith
  · rw [div_le_iff₀ hC]
    have k1 : 1 * c.getD i 0 ≤ g * (sumRange n fun j => q.getD j 0) * c.getD i 0 := mul_le_mul_of_nonneg_right s2 hc
    have k2 := mul_le_mul_of_nonneg_left e2 hg
    linarith

theorem alike_self {n : Nat} {b : List ℚ} (hb : ∀ i < n, 0 ≤ b.getD i 0) (hs : ∃ i < n, 0 < b.getD i 0) : Alike n 1 b b :=
  ⟨hb, hb, (sumRange_pos_iff n _ hb).2 hs, (sumRange_pos_iff n _ hb).2 hs, fun i _ j _ => by rw [one_mul, mul_comm]⟩

/-- From a factor to an error. -/
theorem within_error {u x y : ℚ} {m : Nat} (h0 : 0 ≤ u) (hm : m * u ≤ 1 / 2) (hx : 0 ≤ x) (hy : 0 ≤ y)
    (h : WithinFactor (grow u ^ m) x y) : |x - y| ≤ 2 * m * u * y := by
  rcases Nat.eq_zero_or_pos m with rfl | hmp
  · obtain ⟨a, b⟩ := h
    simp only [pow_zero, one_mul] at a b
    have : x = y := le_antisymm a b
    simp [this]
  have hu : u ≤ 1 / 2 := by
    have : (1 : ℚ) ≤ m := by exact_mod_cast hmp
    nlinarith
  have hb : 1 - m * u ≤ (1 - u) ^ m := by
    have := one_add_mul_le_pow (a := -u) (by linarith) m
    have e : (1 : ℚ) + -u = 1 - u := by ring
    rw [e] at this
    linarith
  have hpos : 0 < (1 - u) ^ m := pow_pos (by linarith) m
  have e : grow u ^ m = 1 / (1 - u) ^ m := by unfold grow; rw [div_pow, one_pow]
  rw [e] at h
  obtain ⟨a, b⟩ := h
  rw [div_mul_eq_mul_div, one_mul, le_div_iff₀ hpos] at a b
  have h1 : (1 - m * u) * x ≤ y := by
    have := mul_le_mul_of_nonneg_right hb hx
    linarith
  have h2 : (1 - m * u) * y ≤ x := by
    have := mul_le_mul_of_nonneg_right hb hy
    linarith
  have hmu : 0 ≤ m * u := by positivity
  rw [abs_le]
  constructor
  · nlinarith [mul_nonneg hmu hy]
  · -- x (1 - mu) ≤ y, and (1 + 2mu)(1 - mu) ≥ 1
    by_contra hneg
    have hlt : (1 + 2 * (m * u)) * y < x := by
      have := not_le.1 hneg
      nlinarith
    have hpos' : 0 < 1 - m * u := by linarith
    have := mul_lt_mul_of_pos_left hlt hpos'
    nlinarith [mul_nonneg (mul_nonneg hmu hy) (by linarith : (0 : ℚ) ≤ 1 - 2 * (m * u))]

/-! ### Underflow -/

theorem bounded_of_relative {u t : ℚ} (h1 : u ≤ 1) (ht : 0 ≤ t) {r : Rounds} (h : RelativeError u r) : BoundedError u t r := by
  intro x y hx hr
  have e := h x y hx hr
  refine ⟨?_, by linarith⟩
  have := (abs_le.1 e).1
  nlinarith

theorem floatDot_nonneg {u t : ℚ} (h0 : 0 ≤ u) (h1 : u < 1) {rs rp : Rounds} (hs : RelativeError u rs) (hq : BoundedError u t rp) {d : Nat}
    {l : List (ℚ × ℚ)} {v : ℚ} (h : FloatDot rs rp d l v) (hl : ∀ x ∈ l, 0 ≤ x.1 ∧ 0 ≤ x.2) : 0 ≤ v := by
  induction h with
  | nil => exact le_refl _
  | @mul x y z hz =>
      have hx := hl (x, y) (by simp)
      exact (hq _ _ (mul_nonneg hx.1 hx.2) hz).1
  | @add d e l m v w z _ _ hz ih1 ih2 =>
      exact (round_within h0 h1 hs (add_nonneg (ih1 fun x hx => hl x (List.mem_append_left m hx))
        (ih2 fun x hx => hl x (List.mem_append_right l hx))) hz).1
  | @fma d l v x y z _ hz ih =>
      have hx := hl (x, y) (by simp)
      exact (hq _ _ (add_nonneg (ih fun t ht => hl t (List.mem_append_left [(x, y)] ht)) (mul_nonneg hx.1 hx.2)) hz).1
  | perm hp _ ih => exact ih fun x hx => hl x (hp.mem_iff.1 hx)

section
variable {u t : ℚ} (h0 : 0 ≤ u) (h1 : u < 1)
variable {rs rp : Rounds}
variable {p : Pomdp} {nS nA nO : Nat} (hp : Shaped p nS nA nO) (hT : RowsNonneg p.T) (hO : RowsNonneg p.O)
include h0 h1 hp hT hO

/-- The stored belief is not negative and its exact sum is close to one. -/
theorem floatUpdate_sum (ht : 0 ≤ t) (hs : RelativeError u rs) (hq : BoundedError u t rp) {D a o : Nat} (ha : a < nA) (ho : o < nO)
    {b : List ℚ} (hb : ∀ i < nS, 0 ≤ b.getD i 0) {q : List ℚ} (hr : FloatUpdate rs rp D p a o b (.ok q)) :
    q.length = nS ∧ (∀ i < nS, 0 ≤ q.getD i 0) ∧ ∃ y, WithinFactor (grow u ^ D) 1 y ∧ 0 ≤ y ∧
      |(sumRange nS fun i => q.getD i 0) - y| ≤ u * y + nS * t := by
  cases hr with
  | @ok xs q s d hx hd hsum hs0 hql hdiv =>
      obtain ⟨hl, hw⟩ := hx
      have hlS : xs.length = nS := by obtain ⟨-, -, -, -, t0, t1, t2, o0, o1, o2, -⟩ := hp; omega
      have hx0 : ∀ i < nS, 0 ≤ xs.getD i 0 := by
        obtain ⟨-, -, -, -, t0, t1, t2, o0, o1, o2, -⟩ := hp
        intro i hi
        obtain ⟨d, hd, v, hv, hz⟩ := hw i (by omega)
        rw [t1] at hv
        have v0 := floatDot_nonneg h0 h1 hs hq hv (by
          intro x hx
          obtain ⟨s, hs, rfl⟩ := List.mem_map.1 hx
          exact ⟨hb s (List.mem_range.1 hs), hT a (by omega) s (by have := List.mem_range.1 hs; omega) i (by omega)⟩)
        exact (hq _ _ (mul_nonneg v0 (hO a (by omega) i (by omega) o (by omega))) hz).1
      have hn : ∀ x ∈ xs, 0 ≤ x := by
        intro x hx
        obtain ⟨i, hi, rfl⟩ := List.mem_iff_getElem.1 hx
        have := hx0 i (by omega)
        simpa [hi] using this
      obtain ⟨s0, sw⟩ := floatSum_within h0 h1 hs hsum hn
      have spos : 0 < s := lt_of_le_of_ne s0 (Ne.symm hs0)
      have sxs : 0 ≤ xs.sum := List.sum_nonneg hn
      have sw := WithinF.mono s0 sxs (grow_pow_mono h0 h1 hd) sw
      rw [list_sum_getD, hlS] at sw sxs
      have hqw := fun i (hi : i < nS) => hq _ _ (div_nonneg (hx0 i hi) s0) (hdiv i (by omega))
      refine ⟨by omega, fun i hi => (hqw i hi).1, (sumRange nS fun i => xs.getD i 0) / s, ?_, div_nonneg sxs s0, ?_⟩
      · have := WithinF.mul (inv_nonneg.2 s0) sw
        rwa [mul_inv_cancel₀ hs0, ← div_eq_mul_inv] at this
      · rw [← sumRange_div, ← sumRange_const, ← sumRange_mul_left, ← sumRange_add, abs_le]
        have e1 := sumRange_le nS (fun i => xs.getD i 0 / s) (fun i => q.getD i 0 + (u * (xs.getD i 0 / s) + t))
          fun i hi => by have := (abs_le.1 (hqw i hi).2).1; linarith
        have e2 := sumRange_le nS (fun i => q.getD i 0) (fun i => xs.getD i 0 / s + (u * (xs.getD i 0 / s) + t))
          fun i hi => by have := (abs_le.1 (hqw i hi).2).2; linarith
        rw [sumRange_add] at e1 e2
        constructor <;> linarith

theorem floatUpdates_sum (ht : 0 ≤ t) (hs : RelativeError u rs) (hq : BoundedError u t rp) {D : Nat} {b : List ℚ} {h : List (Nat × Nat)}
    {r : Py (List ℚ)} (hr : FloatUpdates rs rp D p b h r) : (∀ i < nS, 0 ≤ b.getD i 0) → (∀ x ∈ h, x.1 < nA ∧ x.2 < nO) → h ≠ [] →
      ∀ q, r = .ok q → q.length = nS ∧ (∀ i < nS, 0 ≤ q.getD i 0) ∧ ∃ y, WithinFactor (grow u ^ D) 1 y ∧ 0 ≤ y ∧
        |(sumRange nS fun i => q.getD i 0) - y| ≤ u * y + nS * t := by
  induction hr with
  | done b => intro _ _ hn; exact absurd rfl hn
  | stop _ => intro _ _ _ q hq; cases hq
  | @step b b1 a o h r hu hrest ih =>
      intro hb hh _ q hqe
      obtain ⟨h1', h2'⟩ := hh (a, o) (by simp)
      have hstep := floatUpdate_sum h0 h1 hp hT hO ht hs hq h1' h2' hb hu
      by_cases hn : h = []
      · subst hn
        cases hrest
        cases hqe
        exact hstep
      · exact ih hstep.2.1 (fun x hx => hh x (List.mem_cons_of_mem _ hx)) hn q hqe

end

/-! ### Double precision -/

theorem halfEven_error (y : ℚ) : |(halfEven y : ℚ) - y| ≤ 1 / 2 := by
  have h1 := Int.floor_le y
  have h2 := Int.lt_floor_add_one y
  unfold halfEven
  split_ifs with a b c
  · rw [abs_le]; constructor <;> linarith
  · push_cast; rw [abs_le]; constructor <;> linarith
  · rw [abs_le]; constructor <;> linarith
  · push_cast; rw [abs_le]; constructor <;> linarith

theorem halfEven_int (k : ℤ) : halfEven (k : ℚ) = k := by
  unfold halfEven
  simp

theorem halfEven_nonneg {y : ℚ} (h : 0 ≤ y) : 0 ≤ halfEven y := by
  have h1 := Int.floor_nonneg.2 h
  unfold halfEven
  split_ifs <;> omega

/-- A multiple of the smallest double. -/
def Grid (x : ℚ) : Prop := ∃ k : ℤ, x = k * 2 ^ (-1074 : ℤ)

theorem Grid.zero : Grid 0 := ⟨0, by simp⟩

theorem Grid.add {x y : ℚ} (h : Grid x) (g : Grid y) : Grid (x + y) := by
  obtain ⟨k, rfl⟩ := h
  obtain ⟨l, rfl⟩ := g
  exact ⟨k + l, by push_cast; ring⟩

theorem binary64_grid (x : ℚ) : Grid (binary64 x) := by
  have h : -1074 ≤ lastPlace x := le_max_right _ _
  obtain ⟨n, hn⟩ := Int.eq_ofNat_of_zero_le (sub_nonneg.2 h)
  refine ⟨halfEven (x / 2 ^ lastPlace x) * 2 ^ n, ?_⟩
  have e : lastPlace x = (n : ℤ) + (-1074 : ℤ) := by omega
  unfold binary64
  have e2 : (2 : ℚ) ^ lastPlace x = 2 ^ n * 2 ^ (-1074 : ℤ) := by
    rw [e, zpow_add₀ (by norm_num), zpow_natCast]
  rw [e2]
  push_cast
  ring

theorem binary64_error_place (x : ℚ) : |binary64 x - x| ≤ 2 ^ lastPlace x / 2 := by
  have hp : (0 : ℚ) < 2 ^ lastPlace x := zpow_pos (by norm_num) _
  have h := halfEven_error (x / 2 ^ lastPlace x)
  have e : binary64 x - x = ((halfEven (x / 2 ^ lastPlace x) : ℚ) - x / 2 ^ lastPlace x) * 2 ^ lastPlace x := by
    unfold binary64
    rw [sub_mul, div_mul_cancel₀ _ hp.ne']
  rw [e, abs_mul, abs_of_pos hp]
  have := mul_le_mul_of_nonneg_right h hp.le
  linarith

theorem log_place {x : ℚ} (hx : x ≠ 0) : (2 : ℚ) ^ (Int.log 2 |x| - 52) / 2 ≤ 1 / 2 ^ 53 * |x| := by
  have h : ((2 : ℕ) : ℚ) ^ Int.log 2 |x| ≤ |x| := Int.zpow_log_le_self (by norm_num) (abs_pos.2 hx)
  rw [zpow_sub₀ (by norm_num)]
  push_cast at h
  have e : (2 : ℚ) ^ (52 : ℤ) = 2 ^ 52 := by norm_cast
  rw [e]
  have : (2 : ℚ) ^ 53 = 2 ^ 52 * 2 := by norm_num
  rw [this, div_div, one_div, ← div_eq_inv_mul]
  exact div_le_div_of_nonneg_right h (by positivity)

theorem binary64_zero : binary64 0 = 0 := by
  unfold binary64
  rw [zero_div]
  have : halfEven 0 = 0 := by simpa using halfEven_int 0
  rw [this]
  simp

theorem binary64_nonneg {x : ℚ} (h : 0 ≤ x) : 0 ≤ binary64 x := by
  have hp : (0 : ℚ) < 2 ^ lastPlace x := zpow_pos (by norm_num) _
  unfold binary64
  exact mul_nonneg (by exact_mod_cast halfEven_nonneg (div_nonneg h hp.le)) hp.le

theorem binary64_error (x : ℚ) : |binary64 x - x| ≤ 1 / 2 ^ 53 * |x| + 1 / 2 ^ 1075 := by
  by_cases hx : x = 0
  · subst hx
    rw [binary64_zero]
    simp
  · have h := binary64_error_place x
    have g := log_place hx
    have e : (2 : ℚ) ^ (-1074 : ℤ) / 2 = 1 / 2 ^ 1075 := by
      rw [zpow_neg, show (1074 : ℤ) = ((1074 : ℕ) : ℤ) from rfl, zpow_natCast, pow_succ 2 1074]
      rw [one_div, mul_inv, div_eq_mul_inv]
    rcases max_choice (Int.log 2 |x| - 52) (-1074) with m | m
    · have : lastPlace x = Int.log 2 |x| - 52 := m
      rw [this] at h
      have : (0 : ℚ) ≤ 1 / 2 ^ 1075 := by positivity
      linarith
    · have : lastPlace x = -1074 := m
      rw [this, e] at h
      have : (0 : ℚ) ≤ 1 / 2 ^ 53 * |x| := by positivity
      linarith

theorem binary64_relative {x : ℚ} (h : x = 0 ∨ 1 / 2 ^ 1022 ≤ |x|) : |binary64 x - x| ≤ 1 / 2 ^ 53 * |x| := by
  by_cases hx : x = 0
  · subst hx
    rw [binary64_zero]
    simp
  · have h := h.resolve_left hx
    have hl : (-1022 : ℤ) ≤ Int.log 2 |x| := by
      rw [← Int.zpow_le_iff_le_log (by norm_num) (abs_pos.2 hx)]
      refine le_trans (le_of_eq ?_) h
      push_cast
      rw [zpow_neg, show (1022 : ℤ) = ((1022 : ℕ) : ℤ) from rfl, zpow_natCast, one_div]
    have e : lastPlace x = Int.log 2 |x| - 52 := max_eq_left (by omega)
    have h' := binary64_error_place x
    rw [e] at h'
    exact h'.trans (log_place hx)

theorem binary64_of_grid {x : ℚ} (h : Grid x) : |binary64 x - x| ≤ 1 / 2 ^ 53 * |x| := by
  by_cases hx : x = 0
  · subst hx
    rw [binary64_zero]
    simp
  · rcases max_choice (Int.log 2 |x| - 52) (-1074) with m | m
    · have e : lastPlace x = Int.log 2 |x| - 52 := m
      have h' := binary64_error_place x
      rw [e] at h'
      exact h'.trans (log_place hx)
    · have e : lastPlace x = -1074 := m
      obtain ⟨k, hk⟩ := h
      have hp : (0 : ℚ) < 2 ^ (-1074 : ℤ) := zpow_pos (by norm_num) _
      have : binary64 x = x := by
        unfold binary64
        rw [e]
        have : x / 2 ^ (-1074 : ℤ) = (k : ℚ) := by rw [hk, mul_div_assoc, div_self hp.ne', mul_one]
        rw [this, halfEven_int, ← hk]
      rw [this]
      simp

/-- Sums of doubles. -/
def sumDouble : Rounds := fun x y => toDouble x y ∧ Grid x

theorem sumDouble_relative : RelativeError (1 / 2 ^ 53) sumDouble := by
  intro x y hx h
  obtain ⟨rfl, hg⟩ := h
  have := binary64_of_grid hg
  rwa [abs_of_nonneg hx] at this

theorem toNormal_relative : RelativeError (1 / 2 ^ 53) toNormal := by
  intro x y hx h
  obtain ⟨rfl, hg⟩ := h
  have := binary64_relative hg
  rwa [abs_of_nonneg hx] at this

theorem toDouble_bounded : BoundedError (1 / 2 ^ 53) (1 / 2 ^ 1075) toDouble := by
  intro x y hx h
  cases h
  have := binary64_error x
  rw [abs_of_nonneg hx] at this
  exact ⟨binary64_nonneg hx, this⟩

theorem floatSum_double {d : Nat} {l : List ℚ} {v : ℚ} (h : FloatSum toDouble d l v) (hl : ∀ x ∈ l, Grid x) :
    Grid v ∧ FloatSum sumDouble d l v := by
  induction h with
  | nil => exact ⟨Grid.zero, .nil⟩
  | one x => exact ⟨hl x (by simp), .one x⟩
  | @add d e l m v w z _ _ hz ih1 ih2 =>
      obtain ⟨a1, a2⟩ := ih1 fun x hx => hl x (List.mem_append_left _ hx)
      obtain ⟨b1, b2⟩ := ih2 fun x hx => hl x (List.mem_append_right _ hx)
      refine ⟨?_, .add a2 b2 ⟨hz, a1.add b1⟩⟩
      cases hz
      exact binary64_grid _
  | perm hp _ ih =>
      obtain ⟨a, b⟩ := ih fun x hx => hl x (hp.mem_iff.1 hx)
      exact ⟨a, .perm hp b⟩

theorem floatDot_double {rp : Rounds} (hrp : ∀ x y, rp x y → Grid y) {d : Nat} {l : List (ℚ × ℚ)} {v : ℚ}
    (h : FloatDot toDouble rp d l v) : Grid v ∧ FloatDot sumDouble rp d l v := by
  induction h with
  | nil => exact ⟨Grid.zero, .nil⟩
  | mul hz => exact ⟨hrp _ _ hz, .mul hz⟩
  | add _ _ hz ih1 ih2 =>
      refine ⟨?_, .add ih1.2 ih2.2 ⟨hz, ih1.1.add ih2.1⟩⟩
      cases hz
      exact binary64_grid _
  | fma _ hz ih => exact ⟨hrp _ _ hz, .fma ih.2 hz⟩
  | perm hp _ ih => exact ⟨ih.1, .perm hp ih.2⟩

theorem floatJoint_double {rp : Rounds} (hrp : ∀ x y, rp x y → Grid y) {D : Nat} {p : Pomdp} {a o : Nat} {b xs : List ℚ}
    (h : FloatJoint toDouble rp D p a o b xs) : (∀ x ∈ xs, Grid x) ∧ FloatJoint sumDouble rp D p a o b xs := by
  obtain ⟨hl, hw⟩ := h
  refine ⟨?_, hl, fun s' hs' => ?_⟩
  · intro x hx
    obtain ⟨i, hi, rfl⟩ := List.mem_iff_getElem.1 hx
    obtain ⟨d, -, v, -, hz⟩ := hw i (by omega)
    have := hrp _ _ hz
    simpa [hi] using this
  · obtain ⟨d, hd, v, hv, hz⟩ := hw s' hs'
    exact ⟨d, hd, v, (floatDot_double hrp hv).2, hz⟩

theorem floatUpdate_double {rp : Rounds} (hrp : ∀ x y, rp x y → Grid y) {D : Nat} {p : Pomdp} {a o : Nat} {b : List ℚ} {r : Py (List ℚ)}
    (h : FloatUpdate toDouble rp D p a o b r) : FloatUpdate sumDouble rp D p a o b r ∧ ∀ q, r = .ok q → ∀ x ∈ q, Grid x := by
  cases h with
  | impossible hx hd hsum =>
      obtain ⟨hg, hj⟩ := floatJoint_double hrp hx
      exact ⟨.impossible hj hd (floatSum_double hsum hg).2, fun q hq => by cases hq⟩
  | ok hx hd hsum hs0 hql hdiv =>
      obtain ⟨hg, hj⟩ := floatJoint_double hrp hx
      refine ⟨.ok hj hd (floatSum_double hsum hg).2 hs0 hql hdiv, fun q hq x hx => ?_⟩
      cases hq
      obtain ⟨i, hi, rfl⟩ := List.mem_iff_getElem.1 hx
      have := hrp _ _ (hdiv i (by omega))
      simpa [hi] using this

theorem floatUpdates_double {rp : Rounds} (hrp : ∀ x y, rp x y → Grid y) {D : Nat} {p : Pomdp} {b : List ℚ} {h : List (Nat × Nat)}
    {r : Py (List ℚ)} (hr : FloatUpdates toDouble rp D p b h r) :
    FloatUpdates sumDouble rp D p b h r ∧ (h ≠ [] → ∀ q, r = .ok q → ∀ x ∈ q, Grid x) := by
  induction hr with
  | done b => exact ⟨.done b, fun h => absurd rfl h⟩
  | stop hu => exact ⟨.stop (floatUpdate_double hrp hu).1, fun _ q hq => by cases hq⟩
  | @step b b1 a o h r hu hrest ih =>
      refine ⟨.step (floatUpdate_double hrp hu).1 ih.1, fun _ q hq => ?_⟩
      by_cases hn : h = []
      · subst hn
        cases hrest
        cases hq
        exact (floatUpdate_double hrp hu).2 _ rfl
      · exact ih.2 hn q hq

theorem toDouble_grid : ∀ x y, toDouble x y → Grid y := by
  intro x y h
  cases h
  exact binary64_grid x

theorem toNormal_grid : ∀ x y, toNormal x y → Grid y := by
  intro x y h
  rw [h.1]
  exact binary64_grid x

end Verif

namespace Verif
open Spec

/-! ### Results exist -/

theorem floatSum_exists (f : ℚ → ℚ) (l : List ℚ) : ∃ v, FloatSum (fun x y => y = f x) l.length l v := by
  induction l using List.reverseRecOn with
  | nil => exact ⟨0, .nil⟩
  | append_singleton l x ih =>
      obtain ⟨v, hv⟩ := ih
      refine ⟨f (v + x), ?_⟩
      have := FloatSum.add hv (.one x) rfl
      simpa using this

theorem floatDot_exists (f g : ℚ → ℚ) (l : List (ℚ × ℚ)) :
    ∃ v, FloatDot (fun x y => y = f x) (fun x y => y = g x) l.length l v := by
  induction l using List.reverseRecOn with
  | nil => exact ⟨0, .nil⟩
  | append_singleton l x ih =>
      obtain ⟨v, hv⟩ := ih
      refine ⟨g (v + x.1 * x.2), ?_⟩
      have := FloatDot.fma hv (rfl : g (v + x.1 * x.2) = g (v + x.1 * x.2))
      simpa using this

theorem floatUpdate_exists (f g : ℚ → ℚ) {D : Nat} (p : Pomdp) (h1 : p.T.n1 ≤ D) (h2 : p.T.n2 ≤ D) (a o : Nat) (b : List ℚ) :
    ∃ r, FloatUpdate (fun x y => y = f x) (fun x y => y = g x) D p a o b r := by
  have hv := fun s' => floatDot_exists f g ((List.range p.T.n1).map fun s => (b.getD s 0, p.T.at_ a s s'))
  choose v hv using hv
  simp only [List.length_map, List.length_range] at hv
  set xs : List ℚ := (List.range p.T.n2).map fun s' => g (v s' * p.O.at_ a s' o) with hxs
  have hlen : xs.length = p.T.n2 := by simp [hxs]
  have hj : FloatJoint (fun x y => y = f x) (fun x y => y = g x) D p a o b xs :=
    ⟨hlen, fun s' hs' => ⟨p.T.n1, h1, v s', hv s', getD_map_range _ _ _ hs'⟩⟩
  obtain ⟨s, hs⟩ := floatSum_exists f xs
  rw [hlen] at hs
  by_cases h0 : s = 0
  · subst h0
    exact ⟨_, .impossible hj h2 hs⟩
  · refine ⟨_, .ok (q := (List.range p.T.n2).map fun i => g (xs.getD i 0 / s)) hj h2 hs h0 (by simp [hlen]) fun i hi => ?_⟩
    exact getD_map_range _ _ _ (by omega)

theorem floatUpdates_exists (f g : ℚ → ℚ) {D : Nat} (p : Pomdp) (h1 : p.T.n1 ≤ D) (h2 : p.T.n2 ≤ D) (h : List (Nat × Nat)) :
    ∀ b, ∃ r, FloatUpdates (fun x y => y = f x) (fun x y => y = g x) D p b h r := by
  induction h with
  | nil => exact fun b => ⟨_, .done b⟩
  | cons x h ih =>
      obtain ⟨a, o⟩ := x
      intro b
      obtain ⟨r, hr⟩ := floatUpdate_exists f g p h1 h2 a o b
      rcases r with e | b1
      · exact ⟨_, .stop hr⟩
      · obtain ⟨r, hr'⟩ := ih b1
        exact ⟨r, .step hr hr'⟩

/-! ### Without rounding -/

theorem floatSum_exact {d : Nat} {l : List ℚ} {v : ℚ} (h : FloatSum (fun x y => y = x) d l v) : v = l.sum := by
  induction h with
  | nil => rfl
  | one x => simp
  | add _ _ hz ih1 ih2 => rw [hz, ih1, ih2, List.sum_append]
  | perm hp _ ih => rw [ih, hp.sum_eq]

theorem floatDot_exact {d : Nat} {l : List (ℚ × ℚ)} {v : ℚ} (h : FloatDot (fun x y => y = x) (fun x y => y = x) d l v) :
    v = (l.map fun x => x.1 * x.2).sum := by
  induction h with
  | nil => rfl
  | mul hz => simp [hz]
  | add _ _ hz ih1 ih2 => rw [hz, ih1, ih2, List.map_append, List.sum_append]
  | fma _ hz ih => rw [hz, ih, List.map_append, List.sum_append]; simp
  | perm hp _ ih => rw [ih, (hp.map _).sum_eq]

theorem floatUpdate_exact {p : Pomdp} {nS nA nO : Nat} (hp : Shaped p nS nA nO) {D a o : Nat} (ha : a < nA) (ho : o < nO) {b : List ℚ}
    (hb : b.length = nS) {r : Py (List ℚ)} (h : FloatUpdate (fun x y => y = x) (fun x y => y = x) D p a o b r) :
    r = p.beliefUpdate a o b := by
  rw [beliefUpdate_cases p hp a o ha ho b hb]
  have joint : ∀ xs, FloatJoint (fun x y => y = x) (fun x y => y = x) D p a o b xs →
      xs.length = nS ∧ (∀ i < nS, xs.getD i 0 = jointProb p nS a o b i) ∧ xs.sum = obsProb p nS a o b := by
    rintro xs ⟨hl, hw⟩
    obtain ⟨-, -, -, -, t0, t1, t2, o0, o1, o2, -⟩ := hp
    have hl' : xs.length = nS := by omega
    have he : ∀ i < nS, xs.getD i 0 = jointProb p nS a o b i := by
      intro i hi
      obtain ⟨d, -, v, hv, hz⟩ := hw i (by omega)
      rw [hz, floatDot_exact hv, List.map_map, t1]
      unfold jointProb
      rw [mul_comm]
      rfl
    refine ⟨hl', he, ?_⟩
    rw [list_sum_getD, hl']
    exact sumRange_congr _ _ _ he
  cases h with
  | impossible hx hd hsum =>
      obtain ⟨-, -, hs⟩ := joint _ hx
      rw [if_pos (by rw [← hs, ← floatSum_exact hsum])]
  | @ok xs q s d hx hd hsum hs0 hql hdiv =>
      obtain ⟨hl, he, hs⟩ := joint _ hx
      have e := floatSum_exact hsum
      rw [if_neg (by rw [← hs, ← e]; exact hs0)]
      congr 1
      apply List.ext_getElem
      · simp; omega
      · intro i h1 h2
        have := hdiv i (by omega)
        rw [he i (by omega), e, hs] at this
        simpa [h1] using this

theorem floatUpdates_exact {p : Pomdp} {nS nA nO : Nat} (hp : Shaped p nS nA nO) {D : Nat} {b : List ℚ} {h : List (Nat × Nat)}
    {r : Py (List ℚ)} (hr : FloatUpdates (fun x y => y = x) (fun x y => y = x) D p b h r) :
    b.length = nS → (∀ x ∈ h, x.1 < nA ∧ x.2 < nO) → r = updates p b h := by
  induction hr with
  | done b => intro _ _; rfl
  | @stop b a o h e hu =>
      intro hb hh
      obtain ⟨h1, h2⟩ := hh (a, o) (by simp)
      have := floatUpdate_exact hp h1 h2 hb hu
      unfold updates
      rw [← this]
      rfl
  | @step b b1 a o h r hu hrest ih =>
      intro hb hh
      obtain ⟨h1, h2⟩ := hh (a, o) (by simp)
      have e := floatUpdate_exact hp h1 h2 hb hu
      have hb1 : b1.length = nS := by
        rw [beliefUpdate_cases p hp a o h1 h2 b hb] at e
        split at e
        · cases e
        · injection e with e
          rw [e]
          simp
      rw [ih hb1 fun x hx => hh x (List.mem_cons_of_mem _ hx)]
      conv_rhs => unfold updates
      rw [← e]
      rfl

/-! ### Doubles -/

theorem binary64_pow (k : ℤ) (hk : -1022 ≤ k) : binary64 (2 ^ k) = 2 ^ k := by
  have hp : (0 : ℚ) < 2 ^ k := zpow_pos (by norm_num) _
  have hlog : Int.log 2 |(2 : ℚ) ^ k| = k := by
    rw [abs_of_pos hp]
    have := Int.log_zpow (R := ℚ) (b := 2) (by norm_num) k
    push_cast at this
    exact this
  have e : lastPlace ((2 : ℚ) ^ k) = k - 52 := by
    unfold lastPlace
    rw [hlog]
    exact max_eq_left (by omega)
  unfold binary64
  rw [e, ← zpow_sub₀ (by norm_num)]
  have : k - (k - 52) = ((52 : ℕ) : ℤ) := by push_cast; ring
  rw [this, zpow_natCast]
  have h52 : halfEven ((2 : ℚ) ^ 52) = 2 ^ 52 := by
    have := halfEven_int (2 ^ 52)
    push_cast at this
    exact this
  have e3 : (2 : ℚ) ^ k = 2 ^ 52 * 2 ^ (k - 52) := by
    rw [zpow_sub₀ (by norm_num), show (52 : ℤ) = ((52 : ℕ) : ℤ) from rfl, zpow_natCast]
    field_simp
  rw [h52, e3]
  push_cast
  ring

theorem binary64_tiny {x : ℚ} (h0 : 0 < x) (h : x < 2 ^ (-1075 : ℤ)) : binary64 x = 0 := by
  have hlog : Int.log 2 |x| < -1075 := by
    rw [← Int.lt_zpow_iff_log_lt (by norm_num) (abs_pos.2 h0.ne'), abs_of_pos h0]
    exact_mod_cast h
  have e : lastPlace x = -1074 := max_eq_right (by omega)
  have hp : (0 : ℚ) < 2 ^ (-1074 : ℤ) := zpow_pos (by norm_num) _
  have hq : x / 2 ^ (-1074 : ℤ) < 1 / 2 := by
    rw [div_lt_iff₀ hp]
    have : (2 : ℚ) ^ (-1075 : ℤ) = 1 / 2 * 2 ^ (-1074 : ℤ) := by
      rw [show (-1075 : ℤ) = -1 + -1074 by norm_num, zpow_add₀ (by norm_num)]
      norm_num
    linarith
  have hq0 : 0 ≤ x / 2 ^ (-1074 : ℤ) := (div_pos h0 hp).le
  have hf : ⌊x / (2 : ℚ) ^ (-1074 : ℤ)⌋ = 0 := by
    rw [Int.floor_eq_iff]
    push_cast
    constructor <;> linarith
  unfold binary64
  rw [e]
  have : halfEven (x / 2 ^ (-1074 : ℤ)) = 0 := by
    unfold halfEven
    rw [hf, if_pos (by push_cast; linarith)]
  rw [this]
  simp

/-- The accumulated errors for models of the sizes the code can hold. -/
theorem near_of_bounds {n D e : Nat} {S y v : ℚ} (hn : n ≤ 2 ^ 20) (hD : D ≤ 2 ^ 20) (he : e ≤ 2 ^ 20) (hy0 : 0 ≤ y)
    (hy : WithinFactor (grow (1 / 2 ^ 53) ^ D) 1 y) (hS0 : 0 ≤ S) (hS : |S - y| ≤ 1 / 2 ^ 53 * y + n * (1 / 2 ^ 1075)) (hv0 : 0 ≤ v)
    (hv : WithinFactor (grow (1 / 2 ^ 53) ^ e) v S) : |v - 1| ≤ 1 / 2 ^ 29 := by
  have hD' : (D : ℚ) ≤ 2 ^ 20 := by exact_mod_cast hD
  have he' : (e : ℚ) ≤ 2 ^ 20 := by exact_mod_cast he
  have hn' : (n : ℚ) ≤ 2 ^ 20 := by exact_mod_cast hn
  have y1 := within_error (m := D) (u := 1 / 2 ^ 53) (by positivity) (by
    rw [mul_one_div, div_le_iff₀ (by positivity)]
    exact hD'.trans (by norm_num)) hy0 zero_le_one hy.symm
  have y2 : |y - 1| ≤ 1 / 2 ^ 32 := by
    refine y1.trans ?_
    rw [mul_one]
    have : 2 * (D : ℚ) * (1 / 2 ^ 53) ≤ 2 * 2 ^ 20 * (1 / 2 ^ 53) := by
      apply mul_le_mul_of_nonneg_right _ (by positivity)
      linarith
    exact this.trans (by norm_num)
  have nt : (n : ℚ) * (1 / 2 ^ 1075) ≤ 1 / 2 ^ 40 := by
    have : (n : ℚ) * (1 / 2 ^ 1075) ≤ 2 ^ 20 * (1 / 2 ^ 1075) := mul_le_mul_of_nonneg_right hn' (by positivity)
    refine this.trans ?_
    rw [mul_one_div, div_le_div_iff₀ (by positivity) (by positivity), one_mul, ← pow_add]
    exact pow_le_pow_right₀ (by norm_num) (by norm_num)
  have y3 : y ≤ 2 := by have := (abs_le.1 y2).2; linarith [(by norm_num : (1 : ℚ) / 2 ^ 32 ≤ 1)]
  have s1 : |S - 1| ≤ 1 / 2 ^ 31 := by
    have a1 := abs_le.1 hS
    have a2 := abs_le.1 y2
    have k : (1 : ℚ) / 2 ^ 53 * y ≤ 1 / 2 ^ 52 := by linarith
    have k2 : (1 : ℚ) / 2 ^ 32 + 1 / 2 ^ 52 + 1 / 2 ^ 40 ≤ 1 / 2 ^ 31 := by norm_num
    rw [abs_le]
    constructor <;> linarith
  have s2 : S ≤ 2 := by have := (abs_le.1 s1).2; linarith [(by norm_num : (1 : ℚ) / 2 ^ 31 ≤ 1)]
  have v1 := within_error (m := e) (u := 1 / 2 ^ 53) (by positivity) (by
    rw [mul_one_div, div_le_iff₀ (by positivity)]
    exact he'.trans (by norm_num)) hv0 hS0 hv
  have v2 : |v - S| ≤ 1 / 2 ^ 31 := by
    refine v1.trans ?_
    have : 2 * (e : ℚ) * (1 / 2 ^ 53) * S ≤ 2 * 2 ^ 20 * (1 / 2 ^ 53) * 2 := by
      apply mul_le_mul _ s2 hS0 (by positivity)
      apply mul_le_mul_of_nonneg_right _ (by positivity)
      linarith
    exact this.trans (by norm_num)
  have b1 := abs_le.1 s1
  have b2 := abs_le.1 v2
  have k3 : (1 : ℚ) / 2 ^ 31 + 1 / 2 ^ 31 ≤ 1 / 2 ^ 29 := by norm_num
  rw [abs_le]
  constructor <;> linarith

end Verif
