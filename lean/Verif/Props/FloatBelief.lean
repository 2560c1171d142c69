import Verif.Props.Pomdp
import Verif.Proof.FloatBelief

/-!
# C104: beliefs in floating point arithmetic

C37 and C38 are about exact numbers.  Here every operation of an update is rounded, and sums are made in any order.  As long as
products do not underflow, an observation is refused exactly if the history has probability zero, and otherwise the stored belief is
the posterior of the whole history up to a relative error that grows linearly with the length of the history.  With or without
underflow what is returned is accepted as a distribution.  With underflow a possible observation can be refused.
-/

set_option linter.unusedSectionVars false
set_option linter.unusedSimpArgs false

namespace Verif
open Spec

/-- After any history the stored belief is the exact posterior, up to a factor per rounding; updates fail exactly for the histories of
probability zero.  The start belief need not be normalised, nor do the rows of the model. -/
theorem C104_posterior (u : ℚ) (h0 : 0 ≤ u) (h1 : u < 1) (rs rp : Rounds) (hs : RelativeError u rs) (hq : RelativeError u rp)
    (p : Pomdp) (nS nA nO : Nat) (hp : Shaped p nS nA nO) (hT : RowsNonneg p.T) (hO : RowsNonneg p.O) (D : Nat) (b : List ℚ)
    (hb : ∀ i < nS, 0 ≤ b.getD i 0) (hpos : ∃ i < nS, 0 < b.getD i 0) (h : List (Nat × Nat))
    (hh : ∀ ao ∈ h, ao.1 < nA ∧ ao.2 < nO) (hne : h ≠ []) (r : Py (List ℚ)) (hr : FloatUpdates rs rp D p b h r) :
    (r = .error .impossible ∧ histProb p nS b h = 0) ∨
    ∃ q, r = .ok q ∧ 0 < histProb p nS b h ∧ q.length = nS ∧ ∀ s < nS, 0 ≤ q.getD s 0 ∧
      WithinFactor ((1 / (1 - u)) ^ (2 * (D + 2) * h.length + (D + 1))) (q.getD s 0) (endProb p nS b h s / histProb p nS b h) := by
  rcases floatUpdates_along h0 h1 hp hT hO hs hq hr zero_le_one (alike_self hb hpos) hh with e | ⟨q, e1, e2, e3⟩
  · exact .inl e
  · refine .inr ⟨q, e1, ?_, (e3 hne).1, fun s hs' => ⟨e2.bpos s hs', ?_⟩⟩
    · rw [← jointAlong_sum]
      exact e2.csum
    · have := e2.within (mul_nonneg zero_le_one (grow_pow_nonneg h0 h1 _)) (grow_pow_nonneg h0 h1 _) (e3 hne).2 s hs'
      rw [jointAlong_getD p nS h b s hs', jointAlong_sum, one_mul, ← pow_add] at this
      exact this

/-- The relative error is at most twice the number of roundings times the unit of rounding. -/
theorem C104_error (u : ℚ) (h0 : 0 ≤ u) (h1 : u < 1) (rs rp : Rounds) (hs : RelativeError u rs) (hq : RelativeError u rp)
    (p : Pomdp) (nS nA nO : Nat) (hp : Shaped p nS nA nO) (hT : RowsNonneg p.T) (hO : RowsNonneg p.O) (D : Nat) (b : List ℚ)
    (hb : ∀ i < nS, 0 ≤ b.getD i 0) (hpos : ∃ i < nS, 0 < b.getD i 0) (h : List (Nat × Nat))
    (hh : ∀ ao ∈ h, ao.1 < nA ∧ ao.2 < nO) (hne : h ≠ []) (m : Nat) (hm : m = 2 * (D + 2) * h.length + (D + 1)) (hmu : m * u ≤ 1 / 2)
    (q : List ℚ) (hr : FloatUpdates rs rp D p b h (.ok q)) (s : Nat) (hs' : s < nS) :
    |q.getD s 0 - endProb p nS b h s / histProb p nS b h| ≤ 2 * m * u * (endProb p nS b h s / histProb p nS b h) := by
  rcases C104_posterior u h0 h1 rs rp hs hq p nS nA nO hp hT hO D b hb hpos h hh hne _ hr with ⟨e, -⟩ | ⟨q', e, hH, -, hw⟩
  · cases e
  · cases e
    obtain ⟨q0, w⟩ := hw s hs'
    rw [← hm] at w
    refine within_error h0 hmu q0 ?_ w
    refine div_nonneg ?_ hH.le
    have hg : 0 < (1 / (1 - u)) ^ m := pow_pos (div_pos one_pos (by linarith)) m
    by_contra hneg
    have h3 : endProb p nS b h s < 0 := by
      by_contra h4
      exact hneg (not_lt.1 h4)
    have h5 : endProb p nS b h s / histProb p nS b h < 0 := div_neg_of_neg_of_pos h3 hH
    have := mul_neg_of_pos_of_neg hg h5
    linarith [w.1]

/-- Double precision: sums of stored numbers never lose more than the last bit, and products and quotients do not unless they
underflow. -/
theorem C104_double :
    (∀ x, |binary64 x - x| ≤ 1 / 2 ^ 53 * |x| + 1 / 2 ^ 1075) ∧
    (∀ x, x = 0 ∨ 1 / 2 ^ 1022 ≤ |x| → |binary64 x - x| ≤ 1 / 2 ^ 53 * |x|) ∧
    (∀ x y, |binary64 (binary64 x + binary64 y) - (binary64 x + binary64 y)| ≤ 1 / 2 ^ 53 * |binary64 x + binary64 y|) :=
  ⟨binary64_error, fun _ => binary64_relative, fun x y => binary64_of_grid ((binary64_grid x).add (binary64_grid y))⟩

/-- In double precision, if no product or quotient underflows, updates fail exactly for the histories of probability zero, and the
relative error of the belief is at most `m / 2 ^ 52`. -/
theorem C104_double_posterior (p : Pomdp) (nS nA nO : Nat) (hp : Shaped p nS nA nO) (hT : RowsNonneg p.T) (hO : RowsNonneg p.O) (D : Nat)
    (b : List ℚ) (hb : ∀ i < nS, 0 ≤ b.getD i 0) (hpos : ∃ i < nS, 0 < b.getD i 0) (h : List (Nat × Nat))
    (hh : ∀ ao ∈ h, ao.1 < nA ∧ ao.2 < nO) (hne : h ≠ []) (m : Nat) (hm : m = 2 * (D + 2) * h.length + (D + 1)) (hmu : m ≤ 2 ^ 52)
    (r : Py (List ℚ)) (hr : FloatUpdates toDouble toNormal D p b h r) :
    (r = .error .impossible ∧ histProb p nS b h = 0) ∨
    ∃ q, r = .ok q ∧ 0 < histProb p nS b h ∧ ∀ s < nS,
      |q.getD s 0 - endProb p nS b h s / histProb p nS b h| ≤ m / 2 ^ 52 * (endProb p nS b h s / histProb p nS b h) := by
  have hr' := (floatUpdates_double toNormal_grid hr).1
  have h1 : (1 : ℚ) / 2 ^ 53 < 1 := by norm_num
  rcases C104_posterior (1 / 2 ^ 53) (by positivity) h1 sumDouble toNormal sumDouble_relative toNormal_relative p nS nA nO hp hT hO D b hb
    hpos h hh hne r hr' with e | ⟨q, e, hH, -, -⟩
  · exact .inl e
  · refine .inr ⟨q, e, hH, fun s hs => ?_⟩
    subst e
    have hm' : (m : ℚ) ≤ 2 ^ 52 := by exact_mod_cast hmu
    have := C104_error (1 / 2 ^ 53) (by positivity) h1 sumDouble toNormal sumDouble_relative toNormal_relative p nS nA nO hp hT hO D b hb
      hpos h hh hne m hm (by
        rw [mul_one_div, div_le_iff₀ (by positivity)]
        exact hm'.trans (by norm_num)) q hr' s hs
    have e : 2 * (m : ℚ) * (1 / 2 ^ 53) = m / 2 ^ 52 := by ring
    rwa [e] at this

/-- In double precision, with or without underflow, a returned belief is a distribution as far as the code can tell: it has an entry
for each state, none is negative, and its sum, however it is computed, passes the test of `assert_normal` and that of
`np.random.choice`. -/
theorem C104_normalised (p : Pomdp) (nS nA nO : Nat) (hp : Shaped p nS nA nO) (hT : RowsNonneg p.T) (hO : RowsNonneg p.O) (D : Nat)
    (hS : nS ≤ 2 ^ 20) (hD : D ≤ 2 ^ 20) (b : List ℚ) (hb : ∀ i < nS, 0 ≤ b.getD i 0) (h : List (Nat × Nat))
    (hh : ∀ ao ∈ h, ao.1 < nA ∧ ao.2 < nO) (hne : h ≠ []) (q : List ℚ) (hr : FloatUpdates toDouble toDouble D p b h (.ok q)) :
    q.length = nS ∧ (∀ s < nS, 0 ≤ q.getD s 0) ∧
    (∀ e v, e ≤ 2 ^ 20 → FloatSum toDouble e q v → |v - 1| ≤ 1 / 2 ^ 29 ∧ closeToOne v = true) ∧
    normal1 q = true ∧ ∀ x, ∃ k, Pomdp.choice nS q x = .ok k := by
  obtain ⟨hr', hgrid⟩ := floatUpdates_double toDouble_grid hr
  have h1 : (1 : ℚ) / 2 ^ 53 < 1 := by norm_num
  obtain ⟨hl, hn, y, hy, hy0, hsum⟩ := floatUpdates_sum (by positivity) h1 hp hT hO (by positivity) sumDouble_relative toDouble_bounded hr'
    hb hh hne q rfl
  have hmem : ∀ x ∈ q, 0 ≤ x := by
    intro x hx
    obtain ⟨i, hi, rfl⟩ := List.mem_iff_getElem.1 hx
    have := hn i (by omega)
    simpa [hi] using this
  have hS0 : 0 ≤ sumRange nS fun i => q.getD i 0 := sumRange_nonneg _ _ hn
  have hqs : q.sum = sumRange nS fun i => q.getD i 0 := by rw [list_sum_getD, hl]
  have hclose : ∀ v : ℚ, |v - 1| ≤ 1 / 2 ^ 29 → closeToOne v = true := by
    intro v hv
    unfold closeToOne
    rw [decide_eq_true_iff]
    exact hv.trans (by norm_num)
  have hexact : |q.sum - 1| ≤ 1 / 2 ^ 29 := by
    rw [hqs]
    refine near_of_bounds (e := 0) hS hD (by norm_num) hy0 hy hS0 hsum hS0 ?_
    rw [pow_zero]
    exact WithinF.refl (le_refl 1) hS0
  refine ⟨hl, hn, ?_, hclose _ hexact, fun x => ?_⟩
  · intro e v he hv
    obtain ⟨v0, vw⟩ := floatSum_within (by positivity) h1 sumDouble_relative (floatSum_double hv (hgrid hne q rfl)).2 hmem
    rw [hqs] at vw
    have := near_of_bounds hS hD he hy0 hy hS0 hsum v0 vw
    exact ⟨this, hclose _ this⟩
  · have hne0 : nS ≠ 0 := by
      rintro rfl
      rw [hqs] at hexact
      simp only [sumRange, List.range_zero, List.map_nil, List.sum_nil] at hexact
      norm_num at hexact
    unfold Pomdp.choice
    rw [if_neg (by omega), if_neg hne0, if_neg (by
      simp only [List.any_eq_true, decide_eq_true_eq, not_exists, not_and, not_lt]
      exact hmem), if_neg (by
      rw [not_lt]
      exact hexact.trans (by norm_num))]
    exact ⟨_, rfl⟩

/-- For every rounding function there is a result, whatever the history, with as many roundings as there are states. -/
theorem C104_total (f g : ℚ → ℚ) (p : Pomdp) (nS nA nO : Nat) (hp : Shaped p nS nA nO) (D : Nat) (hD : nS ≤ D) (b : List ℚ)
    (h : List (Nat × Nat)) : ∃ r, FloatUpdates (fun x y => y = f x) (fun x y => y = g x) D p b h r := by
  obtain ⟨-, -, -, -, t0, t1, t2, -⟩ := hp
  exact floatUpdates_exists f g p (by omega) (by omega) h b

/-- Without rounding, the updates here are those of the exact model. -/
theorem C104_exact (p : Pomdp) (nS nA nO : Nat) (hp : Shaped p nS nA nO) (D : Nat) (hD : nS ≤ D) (b : List ℚ) (hb : b.length = nS)
    (h : List (Nat × Nat)) (hh : ∀ ao ∈ h, ao.1 < nA ∧ ao.2 < nO) (r : Py (List ℚ)) :
    FloatUpdates (fun x y => y = x) (fun x y => y = x) D p b h r ↔ r = updates p b h := by
  constructor
  · intro hr
    exact floatUpdates_exact hp hr hb hh
  · rintro rfl
    obtain ⟨r, hr⟩ := C104_total id id p nS nA nO hp D hD b h
    have hr : FloatUpdates (fun x y => y = x) (fun x y => y = x) D p b h r := hr
    rwa [← floatUpdates_exact hp hr hb hh]

/-- With underflow, an observation of positive probability can be refused: two states, the second one reached with probability
`2 ^ -600` and seen with probability `2 ^ -600`. -/
theorem C104_false_underflow : ∃ (T O : Arr3) (R : Arr4) (start : List ℚ) (p : Pomdp),
    Pomdp.mk' (some "pomdp-solve") T O R start 1 none none none "reward" = .ok p ∧ RowsNonneg p.T ∧ RowsNonneg p.O ∧
    FloatUpdates toDouble toDouble 2 p p.start [(0, 0)] (.error .impossible) ∧ 0 < histProb p 2 p.start [(0, 0)] := by
  let tiny : ℚ := 2 ^ (-600 : ℤ)
  have htp : 0 < tiny := zpow_pos (by norm_num) _
  have htl : tiny ≤ 1 / 2 ^ 40 := by
    have : tiny ≤ 2 ^ (-40 : ℤ) := zpow_le_zpow_right₀ (by norm_num) (by norm_num)
    refine this.trans (le_of_eq ?_)
    norm_num
  let T : Arr3 := ⟨1, 2, 2, fun _ s s' => if s = 0 then (if s' = 0 then 1 else tiny) else (if s' = 0 then 0 else 1)⟩
  let O : Arr3 := ⟨1, 2, 2, fun _ s o => if s = 0 then (if o = 0 then 0 else 1) else (if o = 0 then tiny else 1)⟩
  let R : Arr4 := ⟨1, 2, 2, 2, fun _ _ _ _ => 0⟩
  have hmk : ∃ p, Pomdp.mk' (some "pomdp-solve") T O R [1, 0] 1 none none none "reward" = .ok p := by
    rw [C39_accepts]
    refine ⟨Or.inl rfl, by simp, by norm_num, le_rfl, 2, 1, 2, by simp, by simp, by simp, rfl, ⟨rfl, rfl, rfl⟩, ⟨rfl, rfl, rfl⟩,
      ⟨rfl, rfl, rfl, rfl⟩, ?_, ?_⟩
    · norm_num [NearOne]
    · intro a _ s hs
      have h01 : s = 0 ∨ s = 1 := by omega
      have hk : (1 : ℚ) / 2 ^ 40 ≤ 1 / 100000000 + 1 / 100000 := by norm_num
      rcases h01 with rfl | rfl
      · constructor
        · simp only [sumRange, List.range_succ, List.range_zero, List.nil_append, List.map_append, List.map_cons, List.map_nil,
            List.sum_append, List.sum_cons, List.sum_nil, T, NearOne]
          norm_num
          rw [abs_of_pos htp]
          norm_num at hk htl
          linarith
        · simp only [sumRange, List.range_succ, List.range_zero, List.nil_append, List.map_append, List.map_cons, List.map_nil,
            List.sum_append, List.sum_cons, List.sum_nil, O, NearOne]
          norm_num
      · constructor
        · simp only [sumRange, List.range_succ, List.range_zero, List.nil_append, List.map_append, List.map_cons, List.map_nil,
            List.sum_append, List.sum_cons, List.sum_nil, T, NearOne]
          norm_num
        · simp only [sumRange, List.range_succ, List.range_zero, List.nil_append, List.map_append, List.map_cons, List.map_nil,
            List.sum_append, List.sum_cons, List.sum_nil, O, NearOne]
          norm_num
          rw [abs_of_pos htp]
          norm_num at hk htl
          linarith
  obtain ⟨p, hp⟩ := hmk
  obtain ⟨eT, eO, es, -⟩ := C39_stored _ _ _ _ _ _ _ _ _ _ _ hp
  refine ⟨T, O, R, [1, 0], p, hp, ?_, ?_, ?_, ?_⟩
  · rw [eT]
    intro a _ s _ s' _
    show 0 ≤ (if s = 0 then (if s' = 0 then 1 else tiny) else (if s' = 0 then 0 else 1) : ℚ)
    split_ifs <;> linarith
  · rw [eO]
    intro a _ s _ o _
    show 0 ≤ (if s = 0 then (if o = 0 then 0 else 1) else (if o = 0 then tiny else 1) : ℚ)
    split_ifs <;> linarith
  · rw [es]
    have b1 : binary64 1 = 1 := by simpa using binary64_pow 0 (by norm_num)
    have bt : binary64 tiny = tiny := binary64_pow (-600) (by norm_num)
    have btt : binary64 (tiny * tiny) = 0 := by
      apply binary64_tiny (mul_pos htp htp)
      show (2 : ℚ) ^ (-600 : ℤ) * 2 ^ (-600 : ℤ) < _
      rw [← zpow_add₀ (by norm_num)]
      exact zpow_lt_zpow_right₀ (by norm_num) (by norm_num)
    have dot : ∀ x y : ℚ, binary64 x = x → FloatDot toDouble toDouble 2 [((1 : ℚ), x), (0, y)] x := by
      intro x y hx
      have h1 : FloatDot toDouble toDouble 1 [((1 : ℚ), x)] x := .mul (by show x = binary64 (1 * x); rw [one_mul, hx])
      exact .fma h1 (by show x = binary64 (x + 0 * y); rw [zero_mul, add_zero, hx])
    refine .stop (.impossible (xs := [0, 0]) (d := 1) ⟨by rw [eT]; rfl, fun s' hs' => ?_⟩ (by norm_num) ?_)
    · have hs2 : s' < 2 := by rw [eT] at hs'; exact hs'
      rw [eT, eO]
      have h01 : s' = 0 ∨ s' = 1 := by omega
      rcases h01 with rfl | rfl
      · refine ⟨2, le_refl _, 1, dot 1 0 b1, ?_⟩
        show (0 : ℚ) = binary64 (1 * 0)
        rw [mul_zero, binary64_zero]
      · refine ⟨2, le_refl _, tiny, dot tiny 1 bt, ?_⟩
        show (0 : ℚ) = binary64 (tiny * tiny)
        rw [btt]
    · exact .add (.one 0) (.one 0) (by show (0 : ℚ) = binary64 (0 + 0); rw [add_zero, binary64_zero])
  · rw [es, histProb_eq, beliefProb_cons]
    rw [sumRange_congr 2 _ (fun s' => jointProb p 2 0 0 [1, 0] s') (fun s' _ => by rw [tailProb_nil]; simp)]
    unfold jointProb
    rw [eT, eO]
    have : sumRange 2 (fun s' => O.at_ 0 s' 0 * sumRange 2 fun s => [(1 : ℚ), 0].getD s 0 * T.at_ 0 s s') = tiny * tiny := by
      simp [sumRange, List.range_succ, T, O]
    rw [this]
    exact mul_pos htp htp

/-! ### The hypotheses can be met -/

/-- Two states, nothing is known: every row is one half. -/
def halves : Pomdp :=
  { sNames := .count 2, aNames := .count 1, oNames := .count 2, start := [1, 0], discount := 1, T := ⟨1, 2, 2, fun _ _ _ => 1 / 2⟩,
    O := ⟨1, 2, 2, fun _ _ _ => 1 / 2⟩, R := ⟨1, 2, 2, 2, fun _ _ _ _ => 0⟩, solverPath := "pomdp-solve" }

theorem halves_shaped : Shaped halves 2 1 2 := ⟨rfl, rfl, rfl, rfl, rfl, rfl, rfl, rfl, rfl, rfl, rfl, rfl, rfl, rfl⟩

/-- An update of this model in double precision, without underflow. -/
theorem halves_update {rp : Rounds} (hr : ∀ k : ℤ, -1022 ≤ k → rp (2 ^ k) (2 ^ k)) :
    FloatUpdates toDouble rp 2 halves [1, 0] [(0, 0)] (.ok [1 / 2, 1 / 2]) := by
  have r1 : rp (1 / 2) (1 / 2) := by have := hr (-1) (by norm_num); norm_num at this; norm_num; exact this
  have r2 : rp (1 / 4) (1 / 4) := by have := hr (-2) (by norm_num); norm_num at this; norm_num; exact this
  refine .step (b1 := [1 / 2, 1 / 2]) (.ok (xs := [1 / 4, 1 / 4]) (s := 1 / 2) (d := 1) ⟨rfl, fun s' hs' => ⟨2, le_refl _, 1 / 2, ?_, ?_⟩⟩
    (by norm_num) ?_ (by norm_num) rfl ?_) (.done _)
  · have h1 : FloatDot toDouble rp 1 [((1 : ℚ), (1 : ℚ) / 2)] (1 / 2) := .mul (by rw [one_mul]; exact r1)
    exact .fma h1 (by show rp (1 / 2 + (0 : ℚ) * (1 / 2)) (1 / 2); rw [zero_mul, add_zero]; exact r1)
  · have e : (1 / 2 : ℚ) * halves.O.at_ 0 s' 0 = 1 / 4 := by show (1 / 2 : ℚ) * (1 / 2) = 1 / 4; norm_num
    rw [e]
    have h01 : s' = 0 ∨ s' = 1 := by
      have : s' < 2 := hs'
      omega
    rcases h01 with rfl | rfl <;> exact r2
  · refine .add (.one _) (.one _) ?_
    show (1 / 2 : ℚ) = binary64 (1 / 4 + 1 / 4)
    have := binary64_pow (-1) (by norm_num)
    norm_num at this ⊢
    exact this.symm
  · intro i hi
    have h01 : i = 0 ∨ i = 1 := by
      have : i < 2 := hi
      omega
    have e : (1 / 4 : ℚ) / (1 / 2) = 1 / 2 := by norm_num
    rcases h01 with rfl | rfl
    · show rp ((1 / 4 : ℚ) / (1 / 2)) (1 / 2)
      rw [e]
      exact r1
    · show rp ((1 / 4 : ℚ) / (1 / 2)) (1 / 2)
      rw [e]
      exact r1

theorem toNormal_pow (k : ℤ) (hk : -1022 ≤ k) : toNormal (2 ^ k) (2 ^ k) := by
  refine ⟨(binary64_pow k hk).symm, .inr ?_⟩
  rw [abs_of_pos (zpow_pos (by norm_num) _)]
  have : (2 : ℚ) ^ (-1022 : ℤ) ≤ 2 ^ k := zpow_le_zpow_right₀ (by norm_num) hk
  refine le_trans (le_of_eq ?_) this
  rw [zpow_neg, show (1022 : ℤ) = ((1022 : ℕ) : ℤ) from rfl, zpow_natCast, one_div]

/-- The hypotheses of `C104_posterior`, `C104_error` and `C104_double_posterior`, for an update that succeeds. -/
example : RelativeError (1 / 2 ^ 53) sumDouble ∧ RelativeError (1 / 2 ^ 53) toNormal ∧ Shaped halves 2 1 2 ∧ RowsNonneg halves.T ∧
    RowsNonneg halves.O ∧ (∀ i < 2, 0 ≤ halves.start.getD i 0) ∧ (∃ i < 2, 0 < halves.start.getD i 0) ∧
    FloatUpdates toDouble toNormal 2 halves halves.start [(0, 0)] (.ok [1 / 2, 1 / 2]) ∧
    FloatUpdates sumDouble toNormal 2 halves halves.start [(0, 0)] (.ok [1 / 2, 1 / 2]) ∧
    ((2 * (2 + 2) * 1 + (2 + 1) : Nat) : ℚ) * (1 / 2 ^ 53) ≤ 1 / 2 := by
  refine ⟨sumDouble_relative, toNormal_relative, halves_shaped, ?_, ?_, ?_, ⟨0, by norm_num, ?_⟩, halves_update toNormal_pow,
    (floatUpdates_double toNormal_grid (halves_update toNormal_pow)).1, by norm_num⟩
  · intro _ _ _ _ _ _; show (0 : ℚ) ≤ 1 / 2; norm_num
  · intro _ _ _ _ _ _; show (0 : ℚ) ≤ 1 / 2; norm_num
  · intro i hi
    have h01 : i = 0 ∨ i = 1 := by omega
    rcases h01 with rfl | rfl <;> norm_num [halves]
  · norm_num [halves]

/-- The hypotheses of `C104_normalised`. -/
example : FloatUpdates toDouble toDouble 2 halves halves.start [(0, 0)] (.ok [1 / 2, 1 / 2]) :=
  halves_update fun k hk => (binary64_pow k hk).symm

/-- The hypotheses of `C104_total` and `C104_exact`. -/
example : Shaped halves 2 1 2 ∧ halves.start.length = 2 := ⟨halves_shaped, rfl⟩

end Verif
