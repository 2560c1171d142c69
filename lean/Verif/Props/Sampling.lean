import Verif.Proof.Sampling

/-! C85: samples have the probabilities of the model, and particles are drawn from the posterior (`lib/pomdp.py:259-273`,
`lib/belief.py:38-116`). -/

set_option linter.unusedSectionVars false
set_option linter.unusedSimpArgs false

namespace Verif
open Spec

/-! ### Transitions and start states -/

/-- **C85 (intervals).**  The random numbers for which `sample_transition` returns the state `s'` and the observation `o` are those of an
interval whose length is the probability of `s'`, and of an interval whose length is the probability of `o` in `s'`. -/
theorem C85_transition (p : Pomdp) (nS nA nO : Nat) (hp : Stochastic p nS nA nO) (a s : Nat) (ha : a < nA) (hs : s < nS)
    (s' o : Nat) (hs' : s' < nS) (ho : o < nO) : ∃ lo hi lo' hi' : ℚ,
      (0 ≤ lo ∧ hi ≤ 1 ∧ hi - lo = p.T.at_ a s s') ∧ (0 ≤ lo' ∧ hi' ≤ 1 ∧ hi' - lo' = p.O.at_ a s' o) ∧
      ∀ u v, 0 ≤ u → 0 ≤ v → (p.sampleTransition u v a s = .ok (s', o, p.R.at_ a s s' o) ↔ (lo ≤ u ∧ u < hi) ∧ (lo' ≤ v ∧ v < hi')) := by
  have hp' := hp
  obtain ⟨⟨c1, _, c3, _, h0, h1, h2, h3, h4, h5, _⟩, kT, kO⟩ := hp'
  have k1 := kT a (by omega) s (by omega)
  rw [h2] at k1
  have k2 := kO a (by omega) s' (by omega)
  rw [h5] at k2
  refine ⟨sumRange s' (p.T.at_ a s), sumRange (s' + 1) (p.T.at_ a s), sumRange o (p.O.at_ a s'), sumRange (o + 1) (p.O.at_ a s'),
    ⟨sumRange_nonneg _ _ fun i hi => k1.1 i (by omega), k1.2 ▸ sumRange_mono _ nS k1.1 (by omega), by rw [sumRange_succ]; ring⟩,
    ⟨sumRange_nonneg _ _ fun i hi => k2.1 i (by omega), k2.2 ▸ sumRange_mono _ nO k2.1 (by omega), by rw [sumRange_succ]; ring⟩, ?_⟩
  intro u v hu hv
  rw [sampleTransition_eq_iff hp ha hs u v hs', choice_iff nS _ k1.1 k1.2 u hu s' hs', choice_iff nO _ k2.1 k2.2 v hv o ho]
  simp

/-- **C85 (start).**  The random numbers for which `sample_start` returns `s` are those of an interval whose length is its probability. -/
theorem C85_start (p : Pomdp) (nS nA nO : Nat) (hp : Shaped p nS nA nO) (hb : IsDist nS p.start) (s : Nat) (hs : s < nS) :
    ∃ lo hi : ℚ, 0 ≤ lo ∧ hi ≤ 1 ∧ hi - lo = p.start.getD s 0 ∧ ∀ u, 0 ≤ u → (p.sampleStart u = .ok s ↔ lo ≤ u ∧ u < hi) := by
  have hl : p.start = (List.range nS).map (fun i => p.start.getD i 0) := by
    apply List.ext_getElem
    · simp [hb.1]
    · intro i h1 h2
      simp [h1]
  have hn : p.nStates = nS := hp.1
  refine ⟨sumRange s fun i => p.start.getD i 0, sumRange (s + 1) fun i => p.start.getD i 0, sumRange_nonneg _ _ fun i hi => hb.2.1 i (by omega),
    hb.2.2 ▸ sumRange_mono _ nS hb.2.1 (by omega), by rw [sumRange_succ]; ring, fun u hu => ?_⟩
  have := choice_iff nS (fun i => p.start.getD i 0) hb.2.1 hb.2.2 u hu s hs
  rw [← hl] at this
  unfold Pomdp.sampleStart
  rw [hn]
  exact this

/-- **C85 (counts).**  If the probabilities of the model are multiples of `1 / D`, then among the `D ^ 2` pairs of equidistant random
numbers exactly the share `T * O` gives the state `s'` and the observation `o`. -/
theorem C85_count (p : Pomdp) (nS nA nO : Nat) (hp : Stochastic p nS nA nO) (a s : Nat) (ha : a < nA) (hs : s < nS) (D : Nat)
    (hT : ∀ s' < nS, Multiple D (p.T.at_ a s s')) (hO : ∀ s' < nS, ∀ o < nO, Multiple D (p.O.at_ a s' o)) (s' o : Nat) (hs' : s' < nS) (ho : o < nO) :
    ((Finset.univ.filter fun x : Fin D × Fin D =>
      p.sampleTransition (equidistant x.1) (equidistant x.2) a s = .ok (s', o, p.R.at_ a s s' o)).card : ℚ) =
      (D : ℚ) ^ 2 * (p.T.at_ a s s' * p.O.at_ a s' o) :=
  transition_count hp ha hs hT hO hs' ho

/-! ### Particles -/

/-- **C85 (rejection).**  Attempts are drawn from a finite set `α`, and those with `f x = some s` find the state `s`.  Among all the
sequences of `N` attempts of which at most `n` are used, the states that are found are independent of each other and of their number, and
each is `s` with the probability that one attempt finds `s`, given that it finds a state. -/
theorem C85_rejection {α : Type} [Fintype α] (f : α → Option Nat) (N n : Nat) (l : List Nat)
    (h : 0 < (Finset.univ.filter fun x => (f x).isSome = true).card) :
    ((Finset.univ.filter fun ω : Fin N → α => found f n ω = l).card : ℚ) =
      (l.map fun s => ((Finset.univ.filter fun x => f x = some s).card : ℚ) / ((Finset.univ.filter fun x => (f x).isSome = true).card : ℚ)).prod *
      ((Finset.univ.filter fun ω : Fin N → α => (found f n ω).length = l.length).card : ℚ) := by
  have h1 := rejection f N n l
  have hW : (0 : ℚ) < someCount f := by unfold someCount; exact_mod_cast h
  have e : (l.map fun s => stateCount f s / someCount f).prod * someCount f ^ l.length = (l.map (stateCount f)).prod := by
    clear h1
    induction l with
    | nil => simp
    | cons s l ih =>
        simp only [List.map_cons, List.prod_cons, List.length_cons]
        rw [← ih, pow_succ]
        field_simp
  show foundCount f n l N = (l.map fun s => stateCount f s / someCount f).prod * lengthCount f n l.length N
  have hne : someCount f ^ l.length ≠ 0 := pow_ne_zero _ (ne_of_gt hW)
  apply mul_right_cancel₀ hne
  rw [h1, ← e]
  ring

/-- **C85 (the sampler).**  With the random numbers of `ω`, `successor` raises `MaxSamplesReached` exactly if no attempt gives the
observation; otherwise its particles begin with the end states of the first attempts that do, and there are no others if these are enough. -/
theorem C85_successor (p : Pomdp) (nS nA nO : Nat) (hp : Stochastic p nS nA nO) (parts : List Nat) (n : Nat) (hn : parts.length = n) (hpos : 0 < n)
    (hin : ∀ s ∈ parts, s < nS) (a o : Nat) (ha : a < nA) (choose : Nat → Nat) (D : Nat)
    (ω : Fin (100 * n) → Attempt n D) :
    ((particleSuccessor parts n (picks ω) choose (sims p ω) a o).1 = .error .maxSamplesReached ↔
      found (fun x => consistentWith o (attempt p parts a x)) n ω = []) ∧
    (found (fun x => consistentWith o (attempt p parts a x)) n ω ≠ [] →
      ∃ ps, (particleSuccessor parts n (picks ω) choose (sims p ω) a o).1 = .ok ps ∧
        found (fun x => consistentWith o (attempt p parts a x)) n ω <+: ps ∧
        ((found (fun x => consistentWith o (attempt p parts a x)) n ω).length = n →
          ps = found (fun x => consistentWith o (attempt p parts a x)) n ω)) := by
  have hD : 0 < D := by
    have := (ω ⟨0, by omega⟩).2.1.2
    omega
  have hDq : (0 : ℚ) < D := by exact_mod_cast hD
  have hr : ∀ i : Fin D, 0 ≤ equidistant i ∧ equidistant i < 1 := by
    intro i
    unfold equidistant
    refine ⟨by positivity, ?_⟩
    rw [div_lt_one hDq]
    exact_mod_cast i.2
  have hat : ∀ x : Attempt n D, ∃ r, attempt p parts a x = .ok r := by
    intro x
    have hs : parts.getD x.1 0 < nS := by
      have hx : (x.1 : Nat) < parts.length := by rw [hn]; exact x.1.2
      rw [List.getD_eq_getElem?_getD, List.getElem?_eq_getElem hx]
      exact hin _ (List.getElem_mem _)
    obtain ⟨s1, o1, r, h1, _⟩ := (C71_transition p nS nA nO hp a _ ha hs).1 _ _ (hr x.2.1).1 (hr x.2.1).2 (hr x.2.2).1 (hr x.2.2).2
    exact ⟨_, h1⟩
  choose tr0 htr0 using hat
  let tr : Nat → Nat × Nat × ℚ := fun k => if h : k < 100 * n then tr0 (ω ⟨k, h⟩) else (0, 0, 0)
  obtain ⟨h1, h2⟩ := C51_exact parts n (picks ω) choose (sims p ω) a o tr hpos hn (by
    intro k hk s hs
    have hs' : parts.getD (ω ⟨k, hk⟩).1 0 = s := by
      have e : picks ω k % n = (ω ⟨k, hk⟩).1 := by
        unfold picks
        rw [dif_pos hk]
        exact Nat.mod_eq_of_lt (ω ⟨k, hk⟩).1.2
      rw [e] at hs
      simp [List.getD_eq_getElem?_getD, hs]
    unfold sims
    rw [dif_pos hk]
    simp only [tr, dif_pos hk]
    rw [← htr0, attempt, hs'])
  have hlist : ((List.range (100 * n)).filter fun k => decide ((tr k).2.1 = o)).map (fun k => (tr k).1) =
      (List.ofFn ω).filterMap fun x => consistentWith o (attempt p parts a x) := by
    have e1 : (List.ofFn ω) = (List.range (100 * n)).filterMap fun k => if h : k < 100 * n then some (ω ⟨k, h⟩) else none := by
      rw [List.ofFn_eq_map, ← List.map_coe_finRange_eq_range, List.filterMap_map]
      have : ((fun k => if h : k < 100 * n then some (ω ⟨k, h⟩) else none) ∘ (fun i : Fin (100 * n) => (i : Nat))) = fun i => some (ω i) := by
        funext i
        simp
      rw [this]
      simp
    rw [e1, List.filterMap_filterMap]
    have : ∀ l : List Nat, (∀ k ∈ l, k < 100 * n) → (l.filter fun k => decide ((tr k).2.1 = o)).map (fun k => (tr k).1) =
        l.filterMap fun k => (if h : k < 100 * n then some (ω ⟨k, h⟩) else none).bind fun x => consistentWith o (attempt p parts a x) := by
      intro l hl
      induction l with
      | nil => rfl
      | cons k l ih =>
          have hk := hl k List.mem_cons_self
          have ih := ih fun j hj => hl j (List.mem_cons_of_mem _ hj)
          have e : tr k = tr0 (ω ⟨k, hk⟩) := by simp only [tr, dif_pos hk]
          by_cases ho : (tr0 (ω ⟨k, hk⟩)).2.1 = o
          · rw [List.filter_cons_of_pos (by simp [e, ho]), List.map_cons, ih, e, List.filterMap_cons_some (b := (tr0 (ω ⟨k, hk⟩)).1)
              (by simp only [dif_pos hk, Option.bind_some, htr0, consistentWith, if_pos ho])]
          · rw [List.filter_cons_of_neg (by simp [e, ho]), ih, List.filterMap_cons_none
              (by simp only [dif_pos hk, Option.bind_some, htr0, consistentWith, if_neg ho])]
    exact this _ fun k hk => List.mem_range.1 hk
  have hfound : found (fun x => consistentWith o (attempt p parts a x)) n ω =
      (((List.range (100 * n)).filter fun k => decide ((tr k).2.1 = o)).map fun k => (tr k).1).take n := by
    rw [hlist]; rfl
  have hnil : found (fun x => consistentWith o (attempt p parts a x)) n ω = [] ↔ ∀ k < 100 * n, (tr k).2.1 ≠ o := by
    rw [hfound, List.take_eq_nil_iff, List.map_eq_nil_iff, List.filter_eq_nil_iff]
    simp only [List.mem_range, decide_eq_true_eq]
    constructor
    · rintro (h | h)
      · omega
      · exact h
    · exact .inr
  refine ⟨by rw [hnil]; exact h1, fun hf => ?_⟩
  obtain ⟨ps, g1, g2⟩ := h2 (by
    by_contra hc
    push Not at hc
    exact hf (hnil.2 hc))
  rw [← hfound] at g2
  refine ⟨ps, g1, g2, fun hlen => ?_⟩
  have := (C51_consistent _ _ _ _ _ _ _ _ g1).1
  exact (g2.eq_of_length (by rw [hlen, this])).symm

/-- **C85 (particles).**  If the probabilities of the model are multiples of `1 / D`: among all random numbers of the attempts of
`successor`, the particles that are found are independent, and each has the distribution that `belief_update` computes for the empirical
distribution of the old particles; and so has in particular the particle at any place. -/
theorem C85_particles (p : Pomdp) (nS nA nO : Nat) (hp : Stochastic p nS nA nO) (parts : List Nat) (hne : parts ≠ [])
    (hin : ∀ s ∈ parts, s < nS) (a o : Nat) (ha : a < nA) (ho : o < nO) (D : Nat) (hD : 0 < D)
    (hT : ∀ s < nS, ∀ s' < nS, Multiple D (p.T.at_ a s s')) (hO : ∀ s' < nS, ∀ o < nO, Multiple D (p.O.at_ a s' o))
    (b b' : List ℚ) (hb : particleArray nS parts = .ok b) (hb' : p.beliefUpdate a o b = .ok b') (N n : Nat) :
    (∀ l : List Nat,
      ((Finset.univ.filter fun ω : Fin N → Attempt parts.length D => found (fun x => consistentWith o (attempt p parts a x)) n ω = l).card : ℚ) =
      (l.map fun s => b'.getD s 0).prod *
      ((Finset.univ.filter fun ω : Fin N → Attempt parts.length D =>
        (found (fun x => consistentWith o (attempt p parts a x)) n ω).length = l.length).card : ℚ)) ∧
    ∀ j, ∀ i < j, ∀ s,
      ((Finset.univ.filter fun ω : Fin N → Attempt parts.length D =>
        (found (fun x => consistentWith o (attempt p parts a x)) n ω).length = j ∧
        (found (fun x => consistentWith o (attempt p parts a x)) n ω)[i]? = some s).card : ℚ) =
      b'.getD s 0 * ((Finset.univ.filter fun ω : Fin N → Attempt parts.length D =>
        (found (fun x => consistentWith o (attempt p parts a x)) n ω).length = j).card : ℚ) := by
  obtain ⟨l0, hl0, hlen, hfr, hnn, hsum⟩ := (C50_array nS parts).2.1 hin hne
  rw [hb] at hl0
  cases hl0
  have hbd : IsDist nS b := by
    refine ⟨hlen, fun i hi => ?_, ?_⟩
    · rw [List.getD_eq_getElem?_getD, List.getElem?_eq_getElem (by omega)]
      exact hnn _ (List.getElem_mem _)
    · rw [← hsum]
      unfold sumRange
      congr 1
      apply List.ext_getElem
      · simp [hlen]
      · intro i h1 h2
        simp [h2]
  have hz : obsProb p nS a o b ≠ 0 := by
    intro hc
    rw [(C37_impossible p nS nA nO hp a o ha ho b hbd).2 hc] at hb'
    cases hb'
  obtain ⟨b2, h1, h2, h3, -⟩ := C37_posterior p nS nA nO hp a o ha ho b hbd hz
  rw [hb'] at h1
  cases h1
  have hlq : (0 : ℚ) < parts.length := by
    have := List.length_pos_iff.2 hne
    exact_mod_cast this
  have hDq : (0 : ℚ) < D := by exact_mod_cast hD
  set f : Attempt parts.length D → Option Nat := fun x => consistentWith o (attempt p parts a x) with hf
  have hsc : ∀ s < nS, stateCount f s = parts.length * (D : ℚ) ^ 2 * jointProb p nS a o b s := fun s hs =>
    stateCount_eq hp hne hin ha ho hT hO hb s hs
  have hW : someCount f = parts.length * (D : ℚ) ^ 2 * obsProb p nS a o b := by
    rw [show someCount f = sumRange nS (stateCount f) from someCount_eq hp hin ha, sumRange_congr _ _ _ hsc, sumRange_mul_left]
    rfl
  have hWpos : someCount f ≠ 0 := by
    rw [hW]
    positivity
  have hpost : ∀ s, stateCount f s = b'.getD s 0 * someCount f := by
    intro s
    by_cases hs : s < nS
    · rw [hsc s hs, hW, h3 s hs]
      unfold jointProb
      field_simp
    · have e1 : b'.getD s 0 = 0 := by
        rw [List.getD_eq_getElem?_getD, List.getElem?_eq_none (by rw [h2.1]; omega)]
        rfl
      rw [e1, zero_mul]
      unfold stateCount
      rw [Finset.filter_eq_empty_iff.2]
      · simp
      · intro x _ hx
        exact hs ((try_some_iff hp hin ha x s).1 hx).1
  refine ⟨fun l => ?_, fun j i hij s => ?_⟩
  · have h4 := rejection f N n l
    have e : (l.map fun s => b'.getD s 0).prod * someCount f ^ l.length = (l.map (stateCount f)).prod := by
      clear h4
      induction l with
      | nil => simp
      | cons s l ih =>
          simp only [List.map_cons, List.prod_cons, List.length_cons]
          rw [← ih, hpost s]
          ring
    show foundCount f n l N = (l.map fun s => b'.getD s 0).prod * lengthCount f n l.length N
    apply mul_right_cancel₀ (pow_ne_zero l.length hWpos)
    rw [h4, ← e]
    ring
  · have h4 := rejection_place f s N n j i hij
    show placeCount f n j i s N = b'.getD s 0 * lengthCount f n j N
    apply mul_right_cancel₀ hWpos
    rw [h4, hpost s]
    ring

/-! ### The hypotheses are met -/

/-- The tiger problem, with probabilities that are multiples of `1 / 100`, and three particles. -/
example : Stochastic tiger 2 3 2 ∧ (∀ s < 2, ∀ s' < 2, Multiple 100 (tiger.T.at_ 0 s s')) ∧
    (∀ s' < 2, ∀ o < 2, Multiple 100 (tiger.O.at_ 0 s' o)) ∧ (∀ s ∈ [0, 1, 1], s < 2) ∧
    ∃ b b', particleArray 2 [0, 1, 1] = .ok b ∧ tiger.beliefUpdate 0 0 b = .ok b' ∧ b'.getD 0 0 = 17 / 23 := by
  refine ⟨tiger_stochastic, ?_, ?_, by decide, [1 / 3, 2 / 3], [17 / 23, 6 / 23], by decide +kernel, by decide +kernel, by decide +kernel⟩
  · intro s hs s' hs'
    interval_cases s <;> interval_cases s' <;> first | exact ⟨100, by decide +kernel⟩ | exact ⟨0, by decide +kernel⟩
  · intro s hs s' hs'
    interval_cases s <;> interval_cases s' <;> first | exact ⟨85, by decide +kernel⟩ | exact ⟨15, by decide +kernel⟩

end Verif
