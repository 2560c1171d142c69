import Verif.Proof.FloatValue

/-!
# C118: returns and values in floating point arithmetic

Every operation on the returns and on the values of the search rounds its result.  The theorems bound the errors for every rounding with a
small relative error, and then for doubles.
-/

set_option linter.unusedSectionVars false
set_option linter.unusedSimpArgs false

namespace Verif
open Spec

/-- The value of a node is that for the exact returns, up to a relative error of `13 u` for each simulation, transition and rollout. -/
theorem C118_value (u t : ℚ) (fl : ℚ → ℚ) (hf : RoundingError u t fl) (hu : 0 ≤ u) (hu1 : u ≤ 1 / 100) (R : ℚ) (hR : 0 ≤ R) (ht1 : t ≤ u)
    (htR : t ≤ u * R) (alpha gamma : ℚ) (ha0 : 0 ≤ alpha) (ha1 : alpha ≤ 1) (h0 : 0 ≤ gamma) (h1 : gamma ≤ 1) (H J : Nat) (xs : List Simulated)
    (hx : ∀ x ∈ xs, SimulatedWithin x H J R) : (nodeFl fl alpha gamma xs).n = xs.length ∧
    |(nodeFl fl alpha gamma xs).valueFl fl - exactValue alpha (xs.map (exactReturn gamma))| ≤
      ((1 + 13 * u) ^ (xs.length + H + J + 2) - 1) * ((H + 1) * R) := by
  have := nodeFl_error hf hu hu1 hR ht1 htR ha0 ha1 h0 h1 hx
  push_cast at this
  exact ⟨this.1, this.2.2⟩

/-- The return of a simulation, and that of an evaluation, are the exact ones up to rounding. -/
theorem C118_return (u t : ℚ) (fl : ℚ → ℚ) (hf : RoundingError u t fl) (hu : 0 ≤ u) (hu1 : u ≤ 1 / 100) (R : ℚ) (hR : 0 ≤ R) (ht1 : t ≤ u)
    (htR : t ≤ u * R) (gamma : ℚ) (h0 : 0 ≤ gamma) (h1 : gamma ≤ 1) :
    (∀ (H J : Nat) (x : Simulated), SimulatedWithin x H J R →
      |simulatedFl fl gamma x - exactReturn gamma x| ≤ ((1 + 13 * u) ^ (H + J + 1) - 1) * ((H + 1) * R)) ∧
    ∀ rewards : List ℚ, (∀ r ∈ rewards, |r| ≤ R) →
      |evaluationFl fl gamma rewards - discountedRewards gamma rewards.reverse| ≤ ((1 + 13 * u) ^ rewards.length - 1) * (rewards.length * R) := by
  constructor
  · intro H J x hx
    have := (simulated_error hf hu hu1 hR ht1 htR h0 h1 hx).2
    push_cast at this
    exact this
  · intro rewards hr
    have := (backups_error hf hu hu1 hR htR h0 h1 (a := 1) (b := 0) (p := 0) (p' := 0) le_rfl le_rfl (by simp) (by simp) rewards.reverse
      (fun r hr' => hr r (List.mem_reverse.1 hr'))).2
    rw [List.length_reverse, mul_zero, add_zero, zero_add, one_mul, List.foldr_reverse] at this
    exact this

/-- The action that is best in floating point arithmetic is best for the exact returns, up to twice the error of a value. -/
theorem C118_greedy (u t : ℚ) (fl : ℚ → ℚ) (hf : RoundingError u t fl) (hu : 0 ≤ u) (hu1 : u ≤ 1 / 100) (R : ℚ) (hR : 0 ≤ R) (ht1 : t ≤ u)
    (htR : t ≤ u * R) (alpha gamma : ℚ) (ha0 : 0 ≤ alpha) (ha1 : alpha ≤ 1) (h0 : 0 ≤ gamma) (h1 : gamma ≤ 1) (H J n : Nat)
    (sims : List (List Simulated)) (hs : sims ≠ []) (hx : ∀ xs ∈ sims, xs.length ≤ n ∧ ∀ x ∈ xs, SimulatedWithin x H J R) (root : Nat → ℚ) :
    ∃ a xs, bestFl fl root (sims.map (nodeFl fl alpha gamma)) = .ok a ∧ sims[a]? = some xs ∧
      ∀ ys ∈ sims, exactValue alpha (ys.map (exactReturn gamma)) ≤ exactValue alpha (xs.map (exactReturn gamma)) +
        2 * (((1 + 13 * u) ^ (n + H + J + 3) - 1) * ((H + 1) * R)) := by
  have hB : (0 : ℚ) ≤ (H + 1 : Nat) * R := mul_nonneg (Nat.cast_nonneg _) hR
  have hRB : R ≤ (H + 1 : Nat) * R := le_mul_of_one_le_left hR (by push_cast; linarith [(Nat.cast_nonneg H : (0 : ℚ) ≤ H)])
  have htB : t ≤ u * ((H + 1 : Nat) * R) := htR.trans (mul_le_mul_of_nonneg_left hRB hu)
  have herr : ∀ xs ∈ sims, |fl ((nodeFl fl alpha gamma xs).valueFl fl + fl 0) - exactValue alpha (xs.map (exactReturn gamma))| ≤
      ((1 + 13 * u) ^ (n + H + J + 3) - 1) * ((H + 1 : Nat) * R) := by
    intro xs hxs
    obtain ⟨hl, hw⟩ := hx xs hxs
    obtain ⟨_, e1, e2⟩ := nodeFl_error hf hu hu1 hR ht1 htR ha0 ha1 h0 h1 hw
    refine (compared_error hf hu hu1 hB htB (grow_ge hu _) e1 e2).trans (mul_le_mul_of_nonneg_right ?_ hB)
    rw [← pow_succ]
    have := grow_mono hu (show xs.length + H + J + 2 + 1 ≤ n + H + J + 3 by omega)
    linarith
  have hlist : (((sims.map (nodeFl fl alpha gamma)).zipIdx).map fun c => fl (c.1.valueFl fl + fl (0 * root c.2))) =
      sims.map fun xs => fl ((nodeFl fl alpha gamma xs).valueFl fl + fl 0) := by
    apply List.ext_getElem
    · simp
    · intro i _ _
      simp
  obtain ⟨a, v, g1, g2, g3⟩ := argmax_spec (sims.map fun xs => fl ((nodeFl fl alpha gamma xs).valueFl fl + fl 0)) (by simpa using hs)
  rw [List.getElem?_map, Option.map_eq_some_iff] at g2
  obtain ⟨xs, g4, rfl⟩ := g2
  refine ⟨a, xs, by rw [bestFl, hlist, g1], g4, fun ys hys => ?_⟩
  obtain ⟨i, hi⟩ := List.mem_iff_getElem?.1 hys
  have hmax := (g3 i _ (by rw [List.getElem?_map, hi]; rfl)).1
  have b1 := abs_le.1 (herr ys hys)
  have b2 := abs_le.1 (herr xs (List.mem_of_getElem? g4))
  push_cast at b1 b2
  linarith [b1.1, b2.2]

/-- For doubles: `2 ^ (-48)` for each simulation, transition and rollout. -/
theorem C118_double (R : ℚ) (hR : 1 / 2 ^ 1022 ≤ R) (alpha gamma : ℚ) (ha0 : 0 ≤ alpha) (ha1 : alpha ≤ 1) (h0 : 0 ≤ gamma) (h1 : gamma ≤ 1)
    (H J n : Nat) (hm : n + H + J + 3 ≤ 2 ^ 48) :
    (∀ xs : List Simulated, xs.length ≤ n → (∀ x ∈ xs, SimulatedWithin x H J R) →
      |(nodeFl binary64 alpha gamma xs).valueFl binary64 - exactValue alpha (xs.map (exactReturn gamma))| ≤
        (n + H + J + 2) / 2 ^ 48 * ((H + 1) * R)) ∧
    (∀ rewards : List ℚ, rewards.length ≤ H → (∀ r ∈ rewards, |r| ≤ R) →
      |evaluationFl binary64 gamma rewards - discountedRewards gamma rewards.reverse| ≤ H / 2 ^ 48 * (H * R)) ∧
    ∀ sims : List (List Simulated), sims ≠ [] → (∀ xs ∈ sims, xs.length ≤ n ∧ ∀ x ∈ xs, SimulatedWithin x H J R) → ∀ root : Nat → ℚ,
      ∃ a xs, bestFl binary64 root (sims.map (nodeFl binary64 alpha gamma)) = .ok a ∧ sims[a]? = some xs ∧
        ∀ ys ∈ sims, exactValue alpha (ys.map (exactReturn gamma)) ≤ exactValue alpha (xs.map (exactReturn gamma)) +
          2 * ((n + H + J + 3) / 2 ^ 48 * ((H + 1) * R)) := by
  have hf : RoundingError (1 / 2 ^ 53) (1 / 2 ^ 1075) binary64 := binary64_error
  have hu : (0 : ℚ) ≤ 1 / 2 ^ 53 := by positivity
  have hu1 : (1 : ℚ) / 2 ^ 53 ≤ 1 / 100 := by norm_num
  have hR0 : 0 ≤ R := le_trans (by positivity) hR
  have ht1 : (1 : ℚ) / 2 ^ 1075 ≤ 1 / 2 ^ 53 := one_div_le_one_div_of_le (by positivity) (pow_le_pow_right₀ (by norm_num) (by norm_num))
  have htR : (1 : ℚ) / 2 ^ 1075 ≤ 1 / 2 ^ 53 * R := by
    have e : (1 : ℚ) / 2 ^ 1075 = 1 / 2 ^ 53 * (1 / 2 ^ 1022) := by
      rw [div_mul_div_comm, one_mul, ← pow_add]
    rw [e]
    exact mul_le_mul_of_nonneg_left hR hu
  have hgrow : ∀ m : Nat, m ≤ 2 ^ 48 → (1 + 13 * (1 / 2 ^ 53 : ℚ)) ^ m - 1 ≤ m / 2 ^ 48 := by
    intro m hm
    have hm' : (m : ℚ) ≤ 2 ^ 48 := by exact_mod_cast hm
    have hm0 : (0 : ℚ) ≤ m := Nat.cast_nonneg m
    have := grow_linear (x := 13 * (1 / 2 ^ 53 : ℚ)) (by positivity) m (by
      have : (m : ℚ) * (13 * (1 / 2 ^ 53)) ≤ 2 ^ 48 * (13 * (1 / 2 ^ 53)) := mul_le_mul_of_nonneg_right hm' (by positivity)
      refine this.trans (by norm_num))
    have e : 2 * ((m : ℚ) * (13 * (1 / 2 ^ 53))) ≤ m / 2 ^ 48 := by norm_num; linarith
    linarith
  have hB : (0 : ℚ) ≤ (H + 1) * R := mul_nonneg (by positivity) hR0
  refine ⟨fun xs hl hx => ?_, fun rewards hl hr => ?_, fun sims hs hx root => ?_⟩
  · refine (C118_value _ _ _ hf hu hu1 R hR0 ht1 htR alpha gamma ha0 ha1 h0 h1 H J xs hx).2.trans (mul_le_mul_of_nonneg_right ?_ hB)
    have a1 := hgrow (xs.length + H + J + 2) (by omega)
    push_cast at a1
    have a2 : (xs.length : ℚ) ≤ n := by exact_mod_cast hl
    refine a1.trans (div_le_div_of_nonneg_right ?_ (by positivity))
    linarith
  · refine ((C118_return _ _ _ hf hu hu1 R hR0 ht1 htR gamma h0 h1).2 rewards hr).trans ?_
    have a1 := hgrow rewards.length (by omega)
    have a2 : (rewards.length : ℚ) ≤ H := by exact_mod_cast hl
    refine mul_le_mul (a1.trans (div_le_div_of_nonneg_right a2 (by positivity))) (mul_le_mul_of_nonneg_right a2 hR0)
      (mul_nonneg (Nat.cast_nonneg _) hR0) (by positivity)
  · obtain ⟨a, xs, r1, r2, r3⟩ := C118_greedy _ _ _ hf hu hu1 R hR0 ht1 htR alpha gamma ha0 ha1 h0 h1 H J n sims hs hx root
    refine ⟨a, xs, r1, r2, fun ys hys => (r3 ys hys).trans ?_⟩
    have a1 := hgrow (n + H + J + 3) hm
    push_cast at a1
    have := mul_le_mul_of_nonneg_right a1 hB
    linarith

theorem rolloutFl_id (gamma : ℚ) : ∀ (rs : List ℚ) (g F : ℚ), rolloutFl id gamma rs g F = F + g * discountedRewards gamma rs := by
  intro rs
  induction rs with
  | nil => intro g F; simp [rolloutFl, discountedRewards, sumRange_eq_sum]
  | cons r rs ih => intro g F; rw [rolloutFl, ih, discountedRewards_cons]; simp only [id]; ring

theorem rolloutSumFl_id (gamma : ℚ) : ∀ (l : List (List ℚ)) (s : ℚ), rolloutSumFl id gamma l s = s + (l.map (discountedRewards gamma)).sum := by
  intro l
  induction l with
  | nil => intro s; simp [rolloutSumFl]
  | cons rs l ih => intro s; rw [rolloutSumFl, ih, rolloutFl_id]; simp [add_assoc]

theorem simulatedFl_id (gamma : ℚ) (x : Simulated) : simulatedFl id gamma x = exactReturn gamma x := by
  have h : ∀ (rs : List ℚ) (p : ℚ), rs.foldr (backupFl id gamma) p = discountedRewards gamma rs + gamma ^ rs.length * p := by
    intro rs p
    induction rs with
    | nil => simp [discountedRewards, sumRange_eq_sum]
    | cons r rs ih =>
        rw [List.foldr_cons, ih, discountedRewards_cons, List.length_cons, pow_succ, backupFl]
        simp only [id]
        ring
  unfold simulatedFl exactReturn
  rw [h]
  congr 2
  unfold partialFl
  split
  · rename_i hl
    rw [hl]
    simp [meanOf]
  · rw [rolloutsFl, rolloutSumFl_id, zero_add, meanOf, List.length_map]
    rfl

/-- Without rounding this is the model of the other claims: a rollout of the search is one of these for the rewards that it samples, a node
is updated with the exact returns, its value is that of `exactValue`, and the best action is one with the largest value. -/
theorem C118_exact {σ β η : Type} (sim : Sim σ β) (hor : HorizonOps η) (alpha gamma : ℚ) :
    (∀ (bound s : Nat) (h : η) (g F : ℚ) (rng rng' : σ) (v : ℚ), rolloutLoop sim hor bound s h g F rng = (.ok v, rng') →
      ∃ rs, v = rolloutFl id sim.discount rs g F) ∧
    (∀ x, simulatedFl id gamma x = exactReturn gamma x) ∧
    (∀ xs, nodeFl id alpha gamma xs = (xs.map (exactReturn gamma)).foldl (Avg.update alpha) .new) ∧
    (∀ xs, (nodeFl id alpha gamma xs).valueFl id = exactValue alpha (xs.map (exactReturn gamma))) ∧
    (∀ root children, bestFl id root children = argmax (children.map Avg.value)) ∧
    ∀ rewards, evaluationFl id gamma rewards = discountedRewards gamma rewards.reverse := by
  have hnode : ∀ xs, nodeFl id alpha gamma xs = (xs.map (exactReturn gamma)).foldl (Avg.update alpha) .new := by
    intro xs
    unfold nodeFl
    rw [List.foldl_map]
    congr 1
    funext v x
    rw [simulatedFl_id]
    rfl
  refine ⟨?_, simulatedFl_id gamma, hnode, fun xs => ?_, fun root children => ?_, fun rewards => ?_⟩
  · intro bound
    induction bound with
    | zero =>
        intro s h g F rng rng' v hr
        unfold rolloutLoop at hr
        split at hr
        · cases hr
          exact ⟨[], rfl⟩
        · cases hr
    | succ k ih =>
        intro s h g F rng rng' v hr
        unfold rolloutLoop at hr
        split at hr
        · cases hr
          exact ⟨[], rfl⟩
        · change (randomAction sim >>= fun a => sim.sampleTransition a s >>= fun x =>
            rolloutLoop sim hor k x.1 (hor.decrement a s x.1 x.2.1 h) (g * sim.discount) (F + g * x.2.2)) rng = (.ok v, rng') at hr
          rw [M.bind_run] at hr
          rcases ha : randomAction sim rng with ⟨⟨e⟩ | a, r1⟩
          · rw [ha] at hr; cases hr
          · rw [ha] at hr
            simp only [M.bind_run] at hr
            rcases hb : sim.sampleTransition a s r1 with ⟨⟨e⟩ | x, r2⟩
            · rw [hb] at hr; cases hr
            · rw [hb] at hr
              obtain ⟨rs, hv⟩ := ih _ _ _ _ _ _ _ hr
              exact ⟨x.2.2 :: rs, hv⟩
  · rw [hnode, ← exactValue_eq]
    rfl
  · unfold bestFl
    congr 1
    apply List.ext_getElem
    · simp
    · intro i _ _
      simp [Avg.valueFl, Avg.value]
  · have := simulatedFl_id gamma ⟨rewards.reverse, []⟩
    unfold simulatedFl exactReturn at this
    simp only [partialFl, if_true, List.foldr_reverse, List.map_nil, meanOf, List.sum_nil, zero_div, mul_zero, add_zero] at this
    exact this

/-- In floating point arithmetic a value need not be between the smallest and the largest of the returns (as in C52): after three simulations
with the return 0.1 it is larger. -/
theorem C118_outside : ∃ r : ℚ, r = binary64 (1 / 10) ∧ (∀ x ∈ List.replicate 3 (⟨[r], []⟩ : Simulated), simulatedFl binary64 1 x = r) ∧
    r < (nodeFl binary64 0 1 (List.replicate 3 ⟨[r], []⟩)).valueFl binary64 := by
  refine ⟨_, rfl, ?_, ?_⟩ <;> decide +kernel

/-- The bound for a search of 10000 simulations with ten rollouts of at most 100 transitions, and rewards of at most 1. -/
example : ∀ xs : List Simulated, xs.length ≤ 10000 → (∀ x ∈ xs, SimulatedWithin x 100 10 1) →
    |(nodeFl binary64 0 (9 / 10) xs).valueFl binary64 - exactValue 0 (xs.map (exactReturn (9 / 10)))| ≤ 1 / 2 ^ 27 := by
  intro xs h1 h2
  refine ((C118_double 1 (by
    rw [div_le_one (by positivity)]
    exact one_le_pow₀ (by norm_num)) 0 (9 / 10) le_rfl (by norm_num) (by norm_num) (by norm_num) 100 10 10000 (by norm_num)).1 xs h1 h2).trans ?_
  norm_num

/-- Simulations that meet the hypotheses. -/
example : ∀ x ∈ [(⟨[1, -1 / 3], [[1 / 2, 1], [0, 1]]⟩ : Simulated), ⟨[], [[1], []]⟩], SimulatedWithin x 4 2 1 := by
  unfold SimulatedWithin; decide +kernel

/-- The rounded value differs from the exact one. -/
example : (nodeFl binary64 (1 / 8) (3 / 4) [⟨[1, -1 / 3], [[1 / 2, 1], [0, 1]]⟩, ⟨[], [[1 / 7], []]⟩]).valueFl binary64 ≠
    exactValue (1 / 8) ([(⟨[1, -1 / 3], [[1 / 2, 1], [0, 1]]⟩ : Simulated), ⟨[], [[1 / 7], []]⟩].map (exactReturn (3 / 4))) := by decide +kernel

end Verif
