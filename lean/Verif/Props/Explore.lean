import Verif.Proof.Explore

/-! Searches keep exploring: C87. -/

set_option linter.unusedSectionVars false
set_option linter.unusedSimpArgs false

namespace Verif
open Spec
variable {σ β η : Type} [DecidableEq β]

/-- The bonus of the code, `sqrt (log n / m)`, even when computed with errors, favours rare actions more and more. -/
theorem C87_bonus (r : ℝ) (hr0 : 0 ≤ r) (hr1 : r < 1) (bonus : Nat → Nat → ℚ) (h : ApproxUcb r bonus) : FavoursRare bonus := by
  intro k d
  rcases Nat.eq_zero_or_pos k with rfl | hk
  · exact ⟨0, fun n m j _ _ _ h => by omega⟩
  have hk' : (0 : ℝ) < k := by exact_mod_cast hk
  have hs : 0 < √(k : ℝ) := Real.sqrt_pos.2 hk'
  have hq : 0 < 1 - r := by linarith
  obtain ⟨X, hX⟩ := Filter.eventually_atTop.1 (Real.tendsto_log_atTop.eventually_gt_atTop ((2 * √(k : ℝ) * |(d : ℝ)| / (1 - r)) ^ 2))
  refine ⟨max (max 1 (⌈X⌉₊)) ⌈(4 * √(k : ℝ) / (1 - r)) ^ 2⌉₊, fun n m j hn hm hj hjk => ?_⟩
  have hn1 : 1 ≤ n := (le_max_left 1 (⌈X⌉₊)).trans ((le_max_left _ _).trans hn)
  have hn2 : ⌈X⌉₊ ≤ n := (le_max_right 1 (⌈X⌉₊)).trans ((le_max_left _ _).trans hn)
  have hm1 : 1 ≤ m := (le_max_left 1 (⌈X⌉₊)).trans ((le_max_left _ _).trans hm)
  have hm2 : (4 * √(k : ℝ) / (1 - r)) ^ 2 ≤ m := (Nat.le_ceil _).trans (by exact_mod_cast (le_max_right _ _).trans hm)
  have hlog := hX n ((Nat.le_ceil X).trans (by exact_mod_cast hn2))
  have hl0 : 0 ≤ Real.log n := (sq_nonneg _).trans hlog.le
  have hsl : 2 * √(k : ℝ) * |(d : ℝ)| / (1 - r) < √(Real.log n) := Real.lt_sqrt_of_sq_lt hlog
  have hj' : (0 : ℝ) < j := by exact_mod_cast hj
  have hm' : (0 : ℝ) < m := by exact_mod_cast hm1
  have h1 := (abs_le.1 (h n m hn1 hm1)).2
  have h2 := (abs_le.1 (h n j hn1 hj)).1
  have hl : 0 ≤ √(Real.log n) := Real.sqrt_nonneg _
  have h3 : √(Real.log n) / √(k : ℝ) ≤ √(Real.log n / j) := by
    rw [← Real.sqrt_div hl0]
    exact Real.sqrt_le_sqrt (div_le_div_of_nonneg_left hl0 hj' (by exact_mod_cast hjk.le))
  have hsm : 4 * √(k : ℝ) / (1 - r) ≤ √(m : ℝ) := Real.le_sqrt_of_sq_le hm2
  have h4 : √(Real.log n / m) * 4 ≤ (1 - r) * (√(Real.log n) / √(k : ℝ)) := by
    rw [Real.sqrt_div hl0]
    have hm0 : 0 < √(m : ℝ) := Real.sqrt_pos.2 hm'
    rw [div_mul_eq_mul_div, div_le_iff₀ hm0]
    rw [div_le_iff₀ hq] at hsm
    have h5 : (1 - r) * (√(Real.log n) / √(k : ℝ)) * √(m : ℝ) = √(Real.log n) * ((√(m : ℝ) * (1 - r)) / √(k : ℝ)) := by
      field_simp
    rw [h5]
    apply mul_le_mul_of_nonneg_left _ hl
    rw [le_div_iff₀ hs]
    exact hsm
  have h5 : 2 * |(d : ℝ)| < (1 - r) * (√(Real.log n) / √(k : ℝ)) := by
    rw [div_lt_iff₀ hq] at hsl
    rw [mul_div_assoc', lt_div_iff₀ hs]
    linarith
  have h7 := le_abs_self (d : ℝ)
  have h8 : (1 - r) * (√(Real.log n) / √(k : ℝ)) ≤ (1 - r) * √(Real.log n / j) := mul_le_mul_of_nonneg_left h3 hq.le
  have h9 : r * √(Real.log n / m) ≤ 1 * √(Real.log n / m) := mul_le_mul_of_nonneg_right hr1.le (Real.sqrt_nonneg _)
  have : ((bonus n m + d : ℚ) : ℝ) < ((bonus n j : ℚ) : ℝ) := by
    push_cast
    linarith
  exact_mod_cast this

/-- With an absolute exploration, every action of a node is tried as often as wanted if there are enough simulations from that node:
`N` only depends on the configuration, and neither on the draws nor on what has been done before. -/
theorem C87_explores_partial (S : Search σ β η) (hq : QuietSim S.sim) (hh : S.hor.isReached S.horizon = false)
    (hrel : S.relative = false) (he : 0 < S.exploration) (hbonus : FavoursRare S.bonus) (lo hi : ℚ) (hr : RewardsIn S.sim lo hi)
    (hd0 : 0 ≤ S.sim.discount) (hd1 : S.sim.discount < 1) (ha0 : 0 ≤ S.alpha) (ha1 : S.alpha ≤ 1) (K : Nat) :
    ∃ N, ∀ (b : β) (rng : σ) (ops : List TreeOp) (i n : Nat) (st' : SearchState σ β),
      i < (runTreeOps S (S.start b rng) ops).tree.size → N ≤ n →
      simulateMany S i n (runTreeOps S (S.start b rng) ops) = (.ok (), st') →
      ∀ a < S.sim.nActions, K ≤ actionVisits st'.tree i a := by
  have hp : 0 < 1 - S.sim.discount := by linarith
  have hr' : RewardsIn S.sim (min lo 0) (max hi 0) := fun a s g x g' h =>
    ⟨(min_le_left _ _).trans (hr a s g x g' h).1, (hr a s g x g' h).2.trans (le_max_left _ _)⟩
  have hL0 : min lo 0 / (1 - S.sim.discount) ≤ 0 := div_nonpos_of_nonpos_of_nonneg (min_le_right _ _) hp.le
  have hH0 : 0 ≤ max hi 0 / (1 - S.sim.discount) := div_nonneg (le_max_right _ _) hp.le
  have key : ∀ x : ℚ, x / (1 - S.sim.discount) = x + S.sim.discount * (x / (1 - S.sim.discount)) := by
    intro x
    have := hp.ne'
    field_simp
    ring
  obtain ⟨N, hN⟩ := hbonus K ((max hi 0 / (1 - S.sim.discount) - min lo 0 / (1 - S.sim.discount)) / S.exploration)
  refine ⟨N + 1 + S.sim.nActions * (N + 1) + 1, fun b rng ops i n st' hi' hn h => ?_⟩
  obtain ⟨ht, _⟩ := runTreeOps_inv ops (S.start b rng) (TInv.init (S := S) b)
  have hb := runTreeOps_bounds hr' hL0 hH0 hd0 (key _).le (key _).ge ha0 ha1 ops (S.start b rng) (TInv.init b) (BInv.init b)
  refine Explore.many hq hh hrel he (fun i st st' h1 h2 h3 h4 => ?_) hL0 hH0 (N := N + 1) ?_ (by omega) i n _ st' ht hi' hb h ?_
  · exact (M.post_iff.1 (simulateFromNode_bounds hr' hL0 hH0 hd0 (key _).le (key _).ge ha0 ha1 i none st h1 h2 h3)).1 _ _ h4
  · intro n m j h1 h2 h3 h4
    exact hN n m j (by omega) (by omega) h3 h4
  · unfold Explore.missing
    omega

/-- If the exploration is relative to the spread of the values, and there are no rewards, an action other than the first one is not
tried again. -/
theorem even_never (S : Search σ β η) (hq : QuietSim S.sim) (hh : S.hor.isReached S.horizon = false) (hrel : S.relative = true)
    (he : 0 < S.exploration) (hr : RewardsIn S.sim 0 0) (hd0 : 0 ≤ S.sim.discount) (ha0 : 0 ≤ S.alpha) (ha1 : S.alpha ≤ 1)
    (hs : S.shared = false) {b0 : β} (i a : Nat) (ha : 0 < a) : ∀ (n : Nat) (st st' : SearchState σ β), TInv S b0 st.tree →
    i < st.tree.size → BInv 0 0 st.tree → simulateMany S i n st = (.ok (), st') →
    actionVisits st'.tree i a ≤ max 1 (actionVisits st.tree i a) := by
  intro n
  induction n with
  | zero => intro st st' _ _ _ h; cases h; exact le_max_right _ _
  | succ n ih =>
      intro st st' ht hi hB h
      obtain ⟨_, s1, h1, h2⟩ := M.bind_ok h
      obtain ⟨ht1, hg⟩ := (M.post_iff.1 (simulateFromNode_post i none st ht hi)).1 _ _ h1
      have hB1 := (M.post_iff.1 (simulateFromNode_bounds hr (le_refl 0) (le_refl 0) hd0 (by simp) (by simp) ha0 ha1 i none st ht hi hB)).1 _ _ h1
      have hi1 := lt_of_lt_of_le hi hg.size
      have hrest := ih s1 st' ht1 hi1 hB1 h2
      suffices actionVisits s1.tree i a ≤ max 1 (actionVisits st.tree i a) by
        refine hrest.trans ?_
        rw [max_le_iff]
        exact ⟨le_max_left _ _, this⟩
      obtain ⟨path, a', _, _, k1, _, k2⟩ := Explore.step hq hh ht hi h1
      obtain ⟨path', extra, p1, _, _, _, p5, _, _⟩ := simulateFromNode_counts hq ht hi h1
      have hcount : path'.count (i, a) ≤ 1 := by
        have hnd : path'.Nodup := by
          have := isPath_increasing ht1 hs p1
          have h3 := this.imp (S := fun x y => x ≠ y) (fun h => Nat.ne_of_lt h)
          exact List.Nodup.of_map _ h3
        exact List.nodup_iff_count_le_one.1 hnd _
      have e1 := k2 i a
      have e2 := p5 i a
      by_cases hc : path.count (i, a) = 0
      · omega
      · have hm : (i, a) ∈ path := List.count_pos_iff.1 (Nat.pos_of_ne_zero hc)
        obtain ⟨q1, q2, q3⟩ := k1 _ hm
        by_cases hu : unexplored st.tree i = []
        · exfalso
          obtain ⟨w, hw, _, hfirst⟩ := q3 hu
          have hv : ∀ x, actionValue st.tree i x = 0 := by
            intro x
            unfold actionValue
            rcases hx : st.tree.anode i x with _ | d
            · rfl
            · have := (hB.2 i x d hx).value (le_refl 0) (le_refl 0)
              exact le_antisymm this.2 this.1
          unfold IsWeight at hw
          rw [if_pos ⟨hrel, he⟩] at hw
          obtain ⟨d, ⟨x, _, y, _, _, hd⟩, rfl⟩ := hw
          rw [hv, hv, sub_self] at hd
          subst hd
          have := hfirst 0 ha
          unfold uctScore at this
          simp [hv] at this
        · have := (List.mem_filter.1 (q2 hu)).2
          simp only [decide_eq_true_eq] at this
          change actionVisits st.tree i a = 0 at this
          have h1 := le_max_left 1 (actionVisits st.tree i a)
          omega

/-- A model with one state and two actions, without rewards. -/
def evenArms : Pomdp := { twoArms with R := ⟨2, 1, 1, 1, fun _ _ _ _ => 0⟩ }

/-- A search in this model with an exploration relative to the spread of the values. -/
def evenSearch (e : ℚ) (bonus : Nat → Nat → ℚ) : Search Nat (List ℚ) Int :=
  { loopSearch false 1 with
    sim := exactSim evenArms (fun _ => 0) (fun _ => 0)
    exploration := e
    relative := true
    bonus := bonus }

theorem evenArms_stochastic : Stochastic evenArms 1 2 1 := by
  refine ⟨by simp [Shaped, evenArms, twoArms, Pomdp.states, Pomdp.actions, Pomdp.observations, Names.asList], ?_, ?_⟩ <;>
    (intro i _ j _; exact ⟨fun _ _ => by norm_num [evenArms, twoArms], by simp [evenArms, twoArms, sumRange, List.range_succ]⟩)

theorem evenArms_dist : IsDist 1 [(1 : ℚ)] :=
  ⟨rfl, by intro i hi; interval_cases i; norm_num, by simp [sumRange, List.range_succ]⟩

theorem even_rewards (e : ℚ) (bonus : Nat → Nat → ℚ) : RewardsIn (evenSearch e bonus).sim 0 0 := by
  intro a s g x g' h
  have hx : ∀ y, evenArms.sampleTransition 0 0 a s = .ok y → y.2.2 = 0 := by
    intro y hy
    unfold Pomdp.sampleTransition at hy
    simp only [bind, Except.bind] at hy
    split at hy
    · cases hy
    · split at hy
      · cases hy
      · split at hy
        · cases hy
        · cases hy; rfl
  rw [hx x (congrArg Prod.fst h)]
  simp

/-- The property is false if the exploration is relative: in a model without rewards, whatever the bonus and the positive
exploration, the second action is never tried more than once, however many simulations there are. -/
theorem C87_false_relative (e : ℚ) (he : 0 < e) (bonus : Nat → Nat → ℚ) (n : Nat) :
    ∃ st', simulateMany (evenSearch e bonus) 0 n ((evenSearch e bonus).start [1] 0) = (.ok (), st') ∧ actionVisits st'.tree 0 1 ≤ 1 := by
  have hinit : TInv (evenSearch e bonus) [1] ((evenSearch e bonus).start [1] 0).tree := TInv.init _
  have hok : ∀ (n : Nat) (ops : List TreeOp), ∃ st', simulateMany (evenSearch e bonus) 0 n
      (runTreeOps (evenSearch e bonus) ((evenSearch e bonus).start [1] 0) ops) = (.ok (), st') := by
    intro n
    induction n with
    | zero => intro ops; exact ⟨_, rfl⟩
    | succ n ih =>
        intro ops
        have hpos := (runTreeOps_inv (S := evenSearch e bonus) (b0 := [1]) ops _ hinit).1.pos
        obtain ⟨s1, h1⟩ := C54_never_raises (c := fun _ => 0) evenArms_stochastic (by omega) (u := fun _ => 0)
          (fun _ => by norm_num) (evenSearch e bonus) rfl Int.toNat nTransitions_bounded Nat.zero_lt_one (show 1 < 100 by omega)
          (show 1 ≤ 100 by omega) [1] evenArms_dist
          0 ops 0 hpos none (by simp)
        have h2 : runTreeOps (evenSearch e bonus) ((evenSearch e bonus).start [1] 0) (ops ++ [.simulate 0 none]) = s1 := by
          unfold runTreeOps at h1 hpos ⊢
          rw [List.foldl_append]
          show (if 0 < _ then (simulateFromNode (evenSearch e bonus) 0 none _).2 else _) = s1
          rw [if_pos hpos, h1]
        obtain ⟨st', h3⟩ := ih (ops ++ [.simulate 0 none])
        rw [h2] at h3
        refine ⟨st', ?_⟩
        show (simulateFromNode _ 0 none >>= fun _ => simulateMany _ 0 n) _ = _
        rw [M.bind_of_ok h1]
        exact h3
  obtain ⟨st', h⟩ := hok n []
  refine ⟨st', h, ?_⟩
  have := even_never (evenSearch e bonus) (exactSim_quiet _ _ _) (show nTransitions.isReached (1 : Int) = false by decide) rfl he (even_rewards e bonus)
    (by show (0 : ℚ) ≤ 1 / 2; norm_num) (by show (0 : ℚ) ≤ 0; norm_num) (by show (0 : ℚ) ≤ 1; norm_num) rfl 0 1 (by omega) n _ st' hinit
    hinit.pos (BInv.init _) h
  refine this.trans ?_
  rw [show actionVisits ((evenSearch e bonus).start [1] 0).tree 0 1 = 0 from rfl]
  decide

/-- Square roots can be approximated by rationals. -/
theorem ucb_exists : ∃ bonus, ApproxUcb (1 / 2) bonus := by
  have h : ∀ x : ℝ, 0 ≤ x → ∃ q : ℚ, |(q : ℝ) - x| ≤ 1 / 2 * x := by
    intro x hx
    rcases hx.eq_or_lt with rfl | hx
    · exact ⟨0, by simp⟩
    · obtain ⟨q, h1, h2⟩ := exists_rat_btwn (show x / 2 < x by linarith)
      refine ⟨q, ?_⟩
      rw [abs_le]
      constructor <;> linarith
  choose f hf using h
  exact ⟨fun n m => f (√(Real.log n / m)) (Real.sqrt_nonneg _), fun n m _ _ => hf _ _⟩

/-- An approximation of `sqrt (log n / m)`. -/
noncomputable def roundedUcb : Nat → Nat → ℚ := ucb_exists.choose

theorem roundedUcb_approx : ApproxUcb (1 / 2) roundedUcb := ucb_exists.choose_spec

/-- A search with the rounded bonus in the model without rewards, with an absolute exploration. -/
noncomputable def ucbSearch : Search Nat (List ℚ) Int := { evenSearch 1 roundedUcb with relative := false }

example : ∃ N, ∀ (ops : List TreeOp) (i n : Nat) (st' : SearchState Nat (List ℚ)),
    i < (runTreeOps ucbSearch (ucbSearch.start [1] 0) ops).tree.size → N ≤ n →
    simulateMany ucbSearch i n (runTreeOps ucbSearch (ucbSearch.start [1] 0) ops) = (.ok (), st') →
    ∀ a < 2, 1000 ≤ actionVisits st'.tree i a := by
  obtain ⟨N, h⟩ := C87_explores_partial ucbSearch (exactSim_quiet _ _ _) (by decide) rfl (by show (0 : ℚ) < 1; norm_num)
    (C87_bonus (1 / 2) (by norm_num) (by norm_num) _ roundedUcb_approx) 0 0 (even_rewards 1 roundedUcb)
    (by show (0 : ℚ) ≤ 1 / 2; norm_num) (by show (1 / 2 : ℚ) < 1; norm_num) (by show (0 : ℚ) ≤ 0; norm_num) (by show (0 : ℚ) ≤ 1; norm_num) 1000
  exact ⟨N, fun ops => h [1] 0 ops⟩

end Verif
