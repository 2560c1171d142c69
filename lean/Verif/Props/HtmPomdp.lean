import Verif.Proof.HtmModel

/-! # C31-C34: the models made by `HTMToPOMDP` -/

set_option linter.unusedSimpArgs false

namespace Verif
open Spec

/-- The number of leaves after the replacement of the parallel combinations. -/
local notation "len" n:max => List.length (N2P.leaves n)

/-- A task: get the legs, then the seat or (mount and check in any order). -/
def demoTask : Htm CAction :=
  let a (s : String) : Htm CAction := .leaf ⟨s, 1, 2, 3, 1 / 10, 1 / 20⟩ none none false
  .comb .sequential [a "Get legs",
    .comb .alternative [a "Get seat", .comb .parallel [a "Mount", a "Check"] none none "both" false none] none none "rest" false (some [1 / 2, 1 / 2])]
    none none "chair" false none

/-- Its parameters. -/
def demoParams : HtmParams := ⟨1, 1, 1, 1, 10, false, false, false, false, some 2⟩

theorem demoTask_built : Built demoTask := by
  have hd : IsDistrib [(1 : ℚ) / 2, 1 / 2] := ⟨List.cons_ne_nil _ _, by norm_num, by norm_num⟩
  simp [demoTask, Built, BuiltL]
  simpa using hd

theorem demoTask_full : HFull demoTask := by simp [demoTask, HFull, HFullL]

/-! ### C31 -/

/-- **C31**, the combinations of flags that work.  For every well-built task without empty combinations: the conversion
succeeds exactly when the names of the leaves (after replacement of the parallel combinations, and as used in the names of
states) are distinct, and then all rows of `T` and `O` sum to exactly 1, `start` is a distribution, and the rows are
non-negative if the parameters of the actions and the values of the exponential used are in [0, 1].

Missing: the flag `structured`, `loop` with several initial states and `loop` with `reward_state`, see the next theorems. -/
theorem C31_well_formed_partial (path : String) (exp : ℚ → ℚ) (radix : String → String) (h : HtmParams) (fuel : Nat) (t : Htm CAction)
    (hb : Built t) (hf : HFull t) (hd : callDepth t ≤ fuel) (hs : h.structured = false) (hlr : h.loop = true → h.rewardState = false) :
    ∃ n, N2P.fromNode CAction.ops fuel t = .ok n ∧ ((h.loop = true → ∃ k, ∀ j, IsFirst n j ↔ j = k) →
      ((∃ p, htmToPomdp (some path) exp radix h fuel t = .ok p) ↔ (n.leaves.map fun c => radix c.name).Nodup) ∧
      ∀ p, htmToPomdp (some path) exp radix h fuel t = .ok p →
        ∃ nS nA nO, Shaped p nS nA nO ∧ nS = 3 * len n + (if h.rewardState then 2 else 1) ∧ nA = 4 * len n + 1 ∧
          (∀ a < nA, ∀ s < nS, sumRange nS (p.T.at_ a s) = 1) ∧ RowsStochastic p.O ∧ IsDist nS p.start ∧
          ((∀ c ∈ Spec.leaves t, CAction.Prob c) →
            (h.deterministic = false → ∀ c ∈ Spec.leaves t, ∀ x < nA, 0 ≤ exp (-actDuration h n x / c.tHum) ∧ exp (-actDuration h n x / c.tHum) ≤ 1) →
            RowsStochastic p.T)) := by
  obtain ⟨n, h1, ⟨hfn, hlang, hleaves⟩, h3⟩ := htmToPomdp_ok (some path) exp radix h fuel t hb hf hd
  refine ⟨n, h1, fun hfirst => ?_⟩
  have hN : 3 * len n < htmNS h n := by unfold htmNS; split <;> omega
  have hTsum : ∀ a s, s < htmNS h n → sumRange (htmNS h n) (htmTArr exp h n a s) = 1 := by
    intro a s hs'
    by_cases hsl : s < 3 * len n
    · exact htmT_sum_leaf exp h hfn a s hsl
    · cases hl : h.loop
      · exact htmT_sum_end exp h hl a s (by omega) hs'
      · have hr := hlr hl
        have : s = 3 * len n := by unfold htmNS at hs'; simp [hr] at hs'; omega
        rw [this, htmT_sum_loop exp h hfn hl hr]
        obtain ⟨k, hk⟩ := hfirst hl
        have hmem : ∀ x ∈ n.init 3 0, x = 3 * k := by
          intro x hx
          obtain ⟨j, hj, rfl⟩ := N2P.init_range 3 n 0 x hx
          rw [Nat.zero_add] at *
          rw [(hk j).1 ((N2P.root_init (by omega) hfn j).1 hx)]
        have hne := N2P.init_ne_nil 3 n hfn 0
        have hnd := N2P.init_nodup 3 (by omega) n 0
        match hi : n.init 3 0, hne, hnd, hmem with
        | [x], _, _, _ => simp
        | x :: y :: l, _, hnd, hmem =>
          have e1 := hmem x (by simp)
          have e2 := hmem y (by simp)
          rw [List.nodup_cons] at hnd
          exact absurd (by rw [e1, e2]; simp) hnd.1
  have hOsum : ∀ a s, a < 4 * len n + 1 → s < htmNS h n → sumRange (htmObservations h).length (htmOArr h n a s) = 1 ∧ ∀ z, 0 ≤ htmOArr h n a s z := by
    intro a s ha hs'
    obtain ⟨o, ho, e⟩ := htmO_unit h hs a s ha hs'
    rw [e]
    exact ⟨sumRange_unit _ _ ho, unit_nonneg o⟩
  obtain ⟨hst1, hst2, -⟩ := htmStart hfn (htmNS h n) hN
  rw [h3]
  constructor
  · rw [htmConvert_eq _ _ _ _ _ (full_noEmpty n hfn) hs]
    have near : ∀ x : ℚ, x = 1 → NearOne x := by rintro x rfl; norm_num [NearOne]
    constructor
    · rintro ⟨p, hp⟩
      obtain ⟨r, path', _, _, hg, rfl⟩ := (mk'_ok_iff ..).1 hp
      obtain ⟨_, _, _, hg1, _⟩ := (good_iff _).1 hg
      exact (htm_states_nodup radix h n).1 hg1
    · intro hnd
      refine ⟨_, (mk'_ok_iff ..).2 ⟨_, path, (by simp only [Pomdp.rewardOf]; rfl), rfl, ?_, rfl⟩⟩
      rw [good_iff]
      have l1 := htm_states_length radix h n
      have l2 := htm_actions_length radix n
      refine ⟨⟨rfl, rfl, rfl, ?_, ?_, ?_, ?_, ?_, ?_, rfl, ?_, ?_, ?_, rfl⟩, ?_, ?_, (htm_states_nodup radix h n).2 hnd, (htm_actions_nodup radix n).2 hnd, ?_,
        by norm_num, by norm_num⟩
      · exact (by simp : _ = htmNS h n).trans l1.symm
      · exact l2.symm
      · exact l1.symm
      · exact l1.symm
      · exact l2.symm
      · exact l1.symm
      · exact l2.symm
      · exact l1.symm
      · exact l1.symm
      · exact near _ hst1
      · intro a ha s hs'
        have ha' : a < 4 * len n + 1 := lt_of_lt_of_eq ha l2
        have hs'' : s < htmNS h n := lt_of_lt_of_eq hs' l1
        refine ⟨near _ ?_, near _ (hOsum a s ha' hs'').1⟩
        have := hTsum a s hs''
        rw [← l1] at this
        exact this
      · show (htmObservations h).Nodup
        unfold htmObservations
        split <;> decide
  · intro p hp
    obtain ⟨_, eT, eO, eR, est, _, es, ea, eo, hg⟩ := htmConvert_ok path exp radix h n hfn p hp
    obtain ⟨hsh, _⟩ := (good_iff p).1 hg
    have n1 : p.nStates = htmNS h n := by
      have := hsh.2.2.2.2.2.1
      rw [eT] at this
      exact this.symm
    have n2 : p.nActions = 4 * len n + 1 := by
      have := hsh.2.2.2.2.1
      rw [eT] at this
      exact this.symm
    rw [n1, n2] at hsh
    refine ⟨_, _, _, hsh, rfl, rfl, ?_, ?_, ?_, ?_⟩
    · intro a _ s hs'
      rw [eT]
      exact hTsum a s hs'
    · rw [eO]
      intro a ha s hs'
      obtain ⟨e1, e2⟩ := hOsum a s ha hs'
      exact ⟨fun k _ => e2 k, e1⟩
    · refine ⟨by rw [est]; simp, fun i hi => ?_, ?_⟩
      · rw [est, getD_map_range _ _ _ hi]
        exact hst2 i
      · rw [est, sumRange_congr _ _ (scatter (fun _ => 0) (n.init 3 0) n.start) (fun i hi => getD_map_range _ _ _ hi)]
        exact hst1
    · intro hpr hex
      rw [eT]
      have hpr' : ∀ c ∈ n.leaves, CAction.Prob c := by
        intro c hc
        obtain ⟨a, ha, hch⟩ := hleaves c hc
        obtain ⟨_, _, _, e4, e5⟩ := copyChain_fields hch
        have := hpr a ha
        unfold CAction.Prob at *
        rw [e4, e5]
        exact this
      have hex' : h.deterministic = false → ∀ c ∈ n.leaves, ∀ x < 4 * len n + 1,
          0 ≤ exp (-actDuration h n x / c.tHum) ∧ exp (-actDuration h n x / c.tHum) ≤ 1 := by
        intro hdet c hc x hx
        obtain ⟨a, ha, hch⟩ := hleaves c hc
        rw [(copyChain_fields hch).1]
        exact hex hdet a ha x hx
      exact fun a ha s hs' => ⟨fun k _ => htmT_nonneg exp h hfn hpr' hex' a s k ha hs', hTsum a s hs'⟩

/-- The task of the example is converted: a non-trivial instance of C31-C34. -/
theorem demo_converts : ∃ p, htmToPomdp (some "pomdp-solve") (fun _ => 1 / 2) id demoParams 5 demoTask = .ok p := by
  obtain ⟨n, h1, h2⟩ := C31_well_formed_partial "pomdp-solve" (fun _ => 1 / 2) id demoParams 5 demoTask demoTask_built demoTask_full (by decide) rfl (by decide)
  refine (h2 (by intro h; cases h)).1.2 ?_
  have hn : N2P.fromNode CAction.ops 5 demoTask = .ok (.seq [.leaf ⟨"Get legs", 1, 2, 3, 1 / 10, 1 / 20⟩,
      .alt [.leaf ⟨"Get seat", 1, 2, 3, 1 / 10, 1 / 20⟩,
        .alt [.seq [.leaf ⟨"Mount order-0", 1, 2, 3, 1 / 10, 1 / 20⟩, .leaf ⟨"Check order-0", 1, 2, 3, 1 / 10, 1 / 20⟩],
          .seq [.leaf ⟨"Check order-1", 1, 2, 3, 1 / 10, 1 / 20⟩, .leaf ⟨"Mount order-1", 1, 2, 3, 1 / 10, 1 / 20⟩]]]]) := by rfl
  rw [hn] at h1
  injection h1 with h1
  subst h1
  decide

/-- The flag `structured` makes every conversion raise `AttributeError`. -/
theorem C31_false_structured (solver : Option String) (exp : ℚ → ℚ) (radix : String → String) (h : HtmParams) (fuel : Nat) (t : Htm CAction)
    (hb : Built t) (hf : HFull t) (hd : callDepth t ≤ fuel) (hs : h.structured = true) :
    htmToPomdp solver exp radix h fuel t = .error .attributeError := by
  obtain ⟨n, h1, ⟨hfn, -, -⟩, h3⟩ := htmToPomdp_ok solver exp radix h fuel t hb hf hd
  rw [h3, htmConvert_structured solver exp radix h n hfn hs]

example : htmToPomdp (some "pomdp-solve") (fun _ => 1 / 2) id { demoParams with structured := true } 5 demoTask = .error .attributeError :=
  C31_false_structured _ _ _ _ _ _ demoTask_built demoTask_full (by decide) rfl

theorem C31_rows_rejected (path : String) (exp : ℚ → ℚ) (radix : String → String) (h : HtmParams) (n : N2P CAction) (hfn : Full n)
    (hs : h.structured = false) (a s : Nat) (ha : a < 4 * len n + 1) (hs' : s < htmNS h n)
    (hbad : ¬ NearOne (sumRange (htmNS h n) (htmTArr exp h n a s))) : htmConvert (some path) exp radix h n = .error .valueError := by
  rw [htmConvert_eq _ _ _ _ _ (full_noEmpty n hfn) hs]
  rcases mk'_cost path ⟨4 * len n + 1, htmNS h n, htmNS h n, htmTArr exp h n⟩ ⟨4 * len n + 1, htmNS h n, (htmObservations h).length, htmOArr h n⟩
    ⟨4 * len n + 1, htmNS h n, htmNS h n, (htmObservations h).length, htmRArr h n⟩
    ((List.range (htmNS h n)).map (scatter (fun _ => 0) (n.init 3 0) n.start)) 1 (some (n.concat (leafStates radix) ++ endStates h))
    (some (Name.str "wait" :: n.concat (leafActions radix))) (some (htmObservations h)) with ⟨p, hp⟩ | hp
  · exfalso
    obtain ⟨r, path', _, _, hg, rfl⟩ := (mk'_ok_iff ..).1 hp
    obtain ⟨_, _, hg1, _⟩ := (good_iff _).1 hg
    have l1 := htm_states_length radix h n
    have l2 := htm_actions_length radix n
    have := (hg1 a (lt_of_lt_of_eq ha l2.symm) s (lt_of_lt_of_eq hs' l1.symm)).1
    refine hbad ?_
    have e := this
    rw [show htmNS h n = (n.concat (leafStates radix) ++ endStates h).length from l1.symm]
    exact e
  · exact hp

/-- With `loop` and several possible first leaves, the conversion raises `ValueError`: the row of the end state sums to the
number of first leaves. -/
theorem C31_false_loop (path : String) (exp : ℚ → ℚ) (radix : String → String) (h : HtmParams) (fuel : Nat) (t : Htm CAction)
    (hb : Built t) (hf : HFull t) (hd : callDepth t ≤ fuel) (hs : h.structured = false) (hl : h.loop = true) (hr : h.rewardState = false)
    (n : N2P CAction) (hn : N2P.fromNode CAction.ops fuel t = .ok n) (i j : Nat) (hi : IsFirst n i) (hj : IsFirst n j) (hij : i ≠ j) :
    htmToPomdp (some path) exp radix h fuel t = .error .valueError := by
  obtain ⟨n', h1, ⟨hfn, -, -⟩, h3⟩ := htmToPomdp_ok (some path) exp radix h fuel t hb hf hd
  rw [hn] at h1
  injection h1 with h1
  subst h1
  rw [h3]
  refine C31_rows_rejected path exp radix h n hfn hs 0 (3 * len n) (by omega) (by unfold htmNS; split <;> omega) ?_
  rw [htmT_sum_loop exp h hfn hl hr]
  have hi' := (N2P.root_init (w := 3) (by omega) hfn i).2 hi
  have hj' := (N2P.root_init (w := 3) (by omega) hfn j).2 hj
  have h2 : 2 ≤ (n.init 3 0).length := by
    match hx : n.init 3 0, hi', hj' with
    | [], hi', _ => simp at hi'
    | [x], hi', hj' => simp at hi' hj'; omega
    | x :: y :: l, _, _ => simp
  have h2' : (2 : ℚ) ≤ ((n.init 3 0).length : ℚ) := by exact_mod_cast h2
  unfold NearOne
  rw [abs_of_nonneg (by linarith)]
  intro hle
  have : (1 : ℚ) / 100000000 + 1 / 100000 < 1 := by norm_num
  linarith

/-- With `loop` and `reward_state`, the conversion raises `ValueError`: the row of the reward state is zero. -/
theorem C31_false_loop_reward (path : String) (exp : ℚ → ℚ) (radix : String → String) (h : HtmParams) (fuel : Nat) (t : Htm CAction)
    (hb : Built t) (hf : HFull t) (hd : callDepth t ≤ fuel) (hs : h.structured = false) (hl : h.loop = true) (hr : h.rewardState = true) :
    htmToPomdp (some path) exp radix h fuel t = .error .valueError := by
  obtain ⟨n, h1, ⟨hfn, -, -⟩, h3⟩ := htmToPomdp_ok (some path) exp radix h fuel t hb hf hd
  rw [h3]
  refine C31_rows_rejected path exp radix h n hfn hs 0 (3 * len n) (by omega) (by simp [htmNS, hr]) ?_
  rw [htmT_loopReward exp h n hl hr, sumRange_const, mul_zero]
  exact not_nearOne_zero

example : htmToPomdp (some "pomdp-solve") (fun _ => 1 / 2) id { demoParams with loop := true, rewardState := true } 5 demoTask = .error .valueError :=
  C31_false_loop_reward _ _ _ _ _ _ demoTask_built demoTask_full (by decide) rfl rfl rfl

/-- An alternative of two leaves meets the hypotheses of the last-but-one theorem. -/
example : htmToPomdp (some "pomdp-solve") (fun _ => 1 / 2) id { demoParams with loop := true } 5
    (.comb .alternative [.leaf ⟨"a", 1, 2, 3, 0, 0⟩ none none false, .leaf ⟨"b", 1, 2, 3, 0, 0⟩ none none false] none none "x" false
      (some [1 / 2, 1 / 2])) = .error .valueError := by
  have hd : IsDistrib [(1 : ℚ) / 2, 1 / 2] := ⟨List.cons_ne_nil _ _, by norm_num, by norm_num⟩
  refine C31_false_loop _ _ _ _ _ _ ?_ (by simp [HFull, HFullL]) (by decide) rfl rfl rfl (.alt [.leaf ⟨"a", 1, 2, 3, 0, 0⟩, .leaf ⟨"b", 1, 2, 3, 0, 0⟩]) rfl 0 1
    ⟨[], Or.inl rfl⟩ ⟨[], Or.inr (Or.inl rfl)⟩ (by decide)
  simp [Built, BuiltL]
  simpa using hd

/-! ### C32 -/

/-- **C32**: the sequences of leaves visited by the trajectories are exactly the linearisations of the task. -/
theorem C32_trajectories (path : String) (exp : ℚ → ℚ) (radix : String → String) (h : HtmParams) (fuel : Nat) (t : Htm CAction)
    (hb : Built t) (hf : HFull t) (hd : callDepth t ≤ fuel) (hl : h.loop = false) (hfail : ∀ c ∈ Spec.leaves t, c.failProba < 1) (p : Pomdp)
    (hp : htmToPomdp (some path) exp radix h fuel t = .ok p) :
    ∃ n, N2P.fromNode CAction.ops fuel t = .ok n ∧
      (∀ ks, (∃ states, Trajectory p states ∧ visitedLeaves 3 (len n) states = ks) ↔ Lin n 0 ks) ∧
      (∀ states, Trajectory p states → ∃ u, HLin t u ∧ LabelsCopy CAction.ops n (visitedLeaves 3 (len n) states) u) ∧
      (∀ u, HLin t u → ∃ states, Trajectory p states ∧ LabelsCopy CAction.ops n (visitedLeaves 3 (len n) states) u) ∧
      (∀ k c, n.leaves[k]? = some c → ∀ i < 3, p.states[3 * k + i]? = (["init-", "H-", "R-"].map fun s => Name.str (s ++ radix c.name))[i]?) ∧
      p.states.getLast? = some (.str "end") := by
  obtain ⟨n, h1, ⟨hfn, hlang, hleaves⟩, h3⟩ := htmToPomdp_ok (some path) exp radix h fuel t hb hf hd
  rw [h3] at hp
  obtain ⟨hs, eT, eO, eR, est, _, es, ea, eo, hg⟩ := htmConvert_ok path exp radix h n hfn p hp
  have hN : 3 * len n < htmNS h n := by unfold htmNS; split <;> omega
  have hfail' : ∀ c ∈ n.leaves, c.failProba < 1 := by
    intro c hc
    obtain ⟨a, ha, hch⟩ := hleaves c hc
    rw [(copyChain_fields hch).2.2.2.2]
    exact hfail a ha
  have hmain : ∀ ks, (∃ states, Trajectory p states ∧ visitedLeaves 3 (len n) states = ks) ↔ Lin n 0 ks := by
    intro ks
    rw [← paths_iff (by omega) hfn (htm_follows exp h hfn hl hfail') (by omega)]
    obtain ⟨-, hst2, hst3⟩ := htmStart hfn (htmNS h n) hN
    have hlen : p.states.length = htmNS h n := by rw [es, htm_states_length]
    have halen : p.actions.length = 4 * len n + 1 := by rw [ea, htm_actions_length]
    unfold Trajectory Possible
    rw [hlen, halen, eT, est]
    constructor
    · rintro ⟨states, ⟨⟨s, hs1, hs2⟩, h4, h5⟩, h6⟩
      match states, hs1 with
      | x :: l, hs1 =>
        have hs1 : x = s := by simpa using hs1
        subst hs1
        have hx : x < htmNS h n := by
          by_contra hx
          rw [List.getD, List.getElem?_eq_none (by simpa using hx)] at hs2
          exact absurd hs2 (lt_irrefl _)
        rw [getD_map_range _ _ _ hx, hst3] at hs2
        exact ⟨x, hs2, l, h5, h4, h6⟩
    · rintro ⟨s, hs1, l, h4, h5, h6⟩
      refine ⟨s :: l, ⟨⟨s, rfl, ?_⟩, h5, h4⟩, h6⟩
      rw [getD_map_range _ _ _ (by have := init_lt s hs1; omega), hst3]
      exact hs1
  refine ⟨n, h1, hmain, ?_, ?_, ?_, ?_⟩
  · intro states hst
    have hlin := (hmain _).1 ⟨states, hst, rfl⟩
    obtain ⟨hk, _⟩ := lin_range n 0 _ hlin
    have hlab : ∃ u', Labels n (visitedLeaves 3 (len n) states) u' := by
      generalize visitedLeaves 3 (len n) states = ks at hk
      clear hlin
      induction ks with
      | nil => exact ⟨[], .nil⟩
      | cons k ks ih =>
        obtain ⟨u, hu⟩ := ih (fun j hj => hk j (by simp [hj]))
        have := hk k (by simp)
        exact ⟨n.leaves[k]'(by omega) :: u, .cons (by simp) hu⟩
    obtain ⟨u', hu'⟩ := hlab
    obtain ⟨u, h4, h5⟩ := hlang.2 u' ((N2P.nLin_iff n u').2 ⟨_, hlin, hu'⟩)
    exact ⟨u, h4, u', hu', h5⟩
  · intro u hu
    obtain ⟨u', h4, h5⟩ := hlang.1 u hu
    obtain ⟨ks, h6, h7⟩ := (N2P.nLin_iff n u').1 h4
    obtain ⟨states, h8, rfl⟩ := (hmain ks).2 h6
    exact ⟨states, h8, u', h7, h5⟩
  · intro k c hk i hi
    have hlt := (List.getElem?_eq_some_iff.1 hk).1
    rw [es, List.getElem?_append_left (by rw [N2P.concat, flatMap_length_const 3 _ (fun a => rfl)]; omega), N2P.concat,
      flatMap_get_const 3 _ (fun a => rfl) _ k c hk i hi]
    rfl
  · rw [es, List.getLast?_append]
    unfold endStates
    split <;> rfl

example : ∃ p, htmToPomdp (some "pomdp-solve") (fun _ => 1 / 2) id demoParams 5 demoTask = .ok p ∧ (∀ c ∈ Spec.leaves demoTask, c.failProba < 1) := by
  obtain ⟨p, hp⟩ := demo_converts
  refine ⟨p, hp, ?_⟩
  simp [demoTask, Spec.leaves, Spec.leavesL]
  norm_num

/-! ### C33 -/

/-- **C33**, transitions: the rows of the three states of the leaf `k` for every action. -/
theorem C33_transitions (path : String) (exp : ℚ → ℚ) (radix : String → String) (h : HtmParams) (fuel : Nat) (t : Htm CAction)
    (hb : Built t) (hf : HFull t) (hd : callDepth t ≤ fuel) (p : Pomdp) (hp : htmToPomdp (some path) exp radix h fuel t = .ok p) :
    ∃ n, N2P.fromNode CAction.ops fuel t = .ok n ∧ ∀ k c, n.leaves[k]? = some c →
      ∃ q qd, NextDist 3 n (3 * len n) k p.states.length q ∧ NextDist 3 n (3 * len n) k p.states.length qd ∧
        (∀ z z', IsNext 3 n (3 * len n) k z → IsNext 3 n (3 * len n) k z' → qd z = qd z') ∧
        ∀ x z, p.T.at_ x (3 * k) z = initRow c k x z ∧
          p.T.at_ x (3 * k + 1) z = (if h.deterministic then humanRowDet qd k x z else humanRow exp c (actDuration h n x) q k z) ∧
          p.T.at_ x (3 * k + 2) z = robotRow c q k x z := by
  obtain ⟨n, h1, ⟨hfn, hlang, hleaves⟩, h3⟩ := htmToPomdp_ok (some path) exp radix h fuel t hb hf hd
  rw [h3] at hp
  obtain ⟨hs, eT, eO, eR, est, _, es, ea, eo, hg⟩ := htmConvert_ok path exp radix h n hfn p hp
  have hN : 3 * len n < htmNS h n := by unfold htmNS; split <;> omega
  have hlen : p.states.length = htmNS h n := by rw [es, htm_states_length]
  refine ⟨n, h1, fun k c hk => ?_⟩
  have hlt := (List.getElem?_eq_some_iff.1 hk).1
  obtain ⟨cx, hcx⟩ := N2P.root_exists (w := 3) (wa := 4) (a := 1) (fin := 3 * len n) (n := n) hlt
  have hact : cx.act = c := by
    have := (N2P.root_get hcx).1
    rw [hk] at this
    injection this with this
    exact this.symm
  obtain ⟨hu1, hu2⟩ := ctxUniform_next (by omega) hfn (size3 n) hcx hN
  refine ⟨ctxDist cx, ctxUniform cx, by rw [hlen]; exact ctxDist_next (by omega) hfn (size3 n) hcx hN, by rw [hlen]; exact hu1,
    fun z z' hz hz' => by rw [hu2 z hz, hu2 z' hz'], fun x z => ?_⟩
  obtain ⟨m1, m2, m3⟩ := midT_leaf exp h hfn (size3 n) hcx x
  rw [eT]
  dsimp only
  rw [htmT_mid exp h n x _ (by omega), htmT_mid exp h n x _ (by omega), htmT_mid exp h n x _ (by omega), m1, m2, m3, hact]
  refine ⟨rfl, ?_, rfl⟩
  split <;> rfl

/-- What a leaf writes with the flag `structured` (the conversion fails later, see `C31_false_structured`): asking the intention
observes yes in the human state, no in the robot state, and telling observes nothing in the robot state; both observe an error
elsewhere. -/
theorem C33_structured (h : HtmParams) (hs : h.structured = true) (c : CAction) (a s : Nat) (next before after : List Nat) (O : F3) (y : Nat) :
    Observes (leafO h c a s next before after O (a + 1) y) (if y = s + 1 then 1 else if y = s + 2 then 2 else 3) ∧
    Observes (leafO h c a s next before after O (a + 2) y) (if y = s + 2 then 0 else 3) := by
  have hf : ∀ x, x ≠ a + 3 → ∀ O : F3, leafOFinished h a s next after O x y = O x y := by
    intro x hx O
    funext z
    unfold leafOFinished
    split <;> simp [setObs, setObsAll, hx]
  constructor
  · intro z
    unfold leafO
    rw [hf _ (by omega)]
    by_cases h1 : y = s + 1
    · subst h1; simp [leafOTell, hs, setObs, setObsAll, unit, oYes]; rfl
    · by_cases h2 : y = s + 2
      · subst h2; simp [leafOTell, hs, setObs, setObsAll, unit, oNo]; rfl
      · simp [leafOTell, hs, setObs, setObsAll, unit, oErr, h1, h2]
  · intro z
    unfold leafO
    rw [hf _ (by omega)]
    by_cases h2 : y = s + 2
    · subst h2; simp [leafOTell, hs, setObs, setObsAll, unit, oNone]; rfl
    · simp [leafOTell, hs, setObs, setObsAll, unit, oErr, h2]; rfl

example : Observes (leafO { demoParams with structured := true } ⟨"x", 1, 1, 0, 0, 0⟩ 1 0 [3] [] [] (fun _ _ _ => 0) 3 2) 0 :=
  (C33_structured _ rfl _ 1 0 _ _ _ _ 2).2

/-- **C33**, observations: what is observed after each action, by the state reached. -/
theorem C33_observations (path : String) (exp : ℚ → ℚ) (radix : String → String) (h : HtmParams) (fuel : Nat) (t : Htm CAction)
    (hb : Built t) (hf : HFull t) (hd : callDepth t ≤ fuel) (p : Pomdp) (hp : htmToPomdp (some path) exp radix h fuel t = .ok p) :
    ∃ n, N2P.fromNode CAction.ops fuel t = .ok n ∧ p.observations.take 4 = [.str "none", .str "yes", .str "no", .str "error"] ∧
      -- in the states of the leaves, and in the end state without `loop` and `reward_state`
      (∀ y, (y < 3 * len n ∨ (y = 3 * len n ∧ h.loop = false ∧ h.rewardState = false)) →
        Observes (p.O.at_ 0 y) 0 ∧
        ∀ k < len n,
          -- the physical action observes nothing where the leaf leads, an error elsewhere
          (IsNext 3 n (3 * len n) k y → Observes (p.O.at_ (4 * k + 1) y) 0) ∧
          (¬ IsNext 3 n (3 * len n) k y → Observes (p.O.at_ (4 * k + 1) y) 3) ∧
          -- asking the intention observes yes in the human state, no in the robot state, and nothing elsewhere
          Observes (p.O.at_ (4 * k + 2) y) (if y = 3 * k + 1 then 1 else if y = 3 * k + 2 then 2 else 0) ∧
          -- telling observes nothing
          Observes (p.O.at_ (4 * k + 3) y) 0 ∧
          -- asking whether the leaf is finished
          (h.deterministic = false → ((y = 3 * len n ∨ Before n k (y / 3)) → Observes (p.O.at_ (4 * k + 4) y) 1) ∧
            (¬ (y = 3 * len n ∨ Before n k (y / 3)) → Observes (p.O.at_ (4 * k + 4) y) 2)) ∧
          (h.deterministic = true → (IsNext 3 n (3 * len n) k y → Observes (p.O.at_ (4 * k + 4) y) 1) ∧
            (y = 3 * k + 1 → Observes (p.O.at_ (4 * k + 4) y) 2) ∧
            (¬ IsNext 3 n (3 * len n) k y → y ≠ 3 * k + 1 → Observes (p.O.at_ (4 * k + 4) y) 3))) ∧
      -- in the last states, every action observes the same
      ((h.loop = true ∨ h.rewardState = true) → p.observations[4]? = some (.str "done") ∧ ∀ x, Observes (p.O.at_ x (3 * len n)) 4) ∧
      (h.rewardState = true → ∀ x, Observes (p.O.at_ x (3 * len n + 1)) 0) := by
  obtain ⟨n, h1, ⟨hfn, hlang, hleaves⟩, h3⟩ := htmToPomdp_ok (some path) exp radix h fuel t hb hf hd
  rw [h3] at hp
  obtain ⟨hs, eT, eO, eR, est, _, es, ea, eo, hg⟩ := htmConvert_ok path exp radix h n hfn p hp
  have hN : 3 * len n < htmNS h n := by unfold htmNS; split <;> omega
  have hunit : ∀ (row : Nat → ℚ) (o : Nat), row = unit o → Observes row o := by rintro row o rfl z; rfl
  refine ⟨n, h1, ?_, ?_, ?_, ?_⟩
  · rw [eo]; unfold htmObservations; split <;> rfl
  · intro y hy
    have hy' : y < 3 * len n ∨ (h.loop = false ∧ h.rewardState = false) := by tauto
    rw [eO]
    dsimp only
    refine ⟨hunit _ _ (by rw [htmO_mid h hs 0 y (by omega) hy']; funext z; simp [setObsAll, oNone]), fun k hk => ?_⟩
    obtain ⟨cx, hcx⟩ := N2P.root_exists (w := 3) (wa := 4) (a := 1) (fin := 3 * len n) (n := n) hk
    obtain ⟨_, ha, hsx⟩ := N2P.root_get hcx
    have hrow : ∀ i < 4, htmOArr h n (4 * k + 1 + i) y =
        leafO h cx.act cx.a cx.s cx.next cx.before cx.after (fun _ _ _ => 0) (cx.a + i) y := by
      intro i hi
      rw [htmO_mid h hs _ y (by omega) hy']
      have : setObsAll 0 (unit oNone) (midO h n (3 * len n)) (4 * k + 1 + i) y = midO h n (3 * len n) (4 * k + 1 + i) y := by
        funext z; simp [setObsAll]
      rw [this, midO_leaf h n hcx _ (by omega), ha, show 1 + 4 * k + i = 4 * k + 1 + i by omega]
    have hnext := root_next_iff (by omega) hfn (size3 n) hcx y
    have hafter : y ∈ cx.after ↔ (y = 3 * len n ∨ Before n k (y / 3)) := by
      have e : y = 3 * (y / 3) + y % 3 := by omega
      rcases hy with hy | ⟨rfl, -⟩
      · constructor
        · intro hm
          rw [e] at hm
          exact Or.inr ((N2P.root_after (by omega) hfn (size3 n) hcx (by omega) (by omega)).1 hm)
        · rintro (h4 | h4)
          · omega
          · rw [e]
            exact (N2P.root_after (by omega) hfn (size3 n) hcx (by omega) (by omega)).2 h4
      · exact ⟨fun _ => Or.inl rfl, fun _ => N2P.root_after_fin hcx⟩
    have r0 := hrow 0 (by omega)
    have r1 := hrow 1 (by omega)
    have r2 := hrow 2 (by omega)
    have r3 := hrow 3 (by omega)
    simp only [Nat.add_zero] at r0
    rw [leafO_phy] at r0
    rw [leafO_ask _ _ _ _ _ _ _ _ hs] at r1
    rw [leafO_tell _ _ _ _ _ _ _ _ hs] at r2
    refine ⟨fun hn => hunit _ _ ?_, fun hn => hunit _ _ ?_, hunit _ _ ?_, hunit _ _ r2, fun hdet => ⟨fun hn => hunit _ _ ?_, fun hn => hunit _ _ ?_⟩,
      fun hdet => ⟨fun hn => hunit _ _ ?_, fun hn => hunit _ _ ?_, fun hn hn' => hunit _ _ ?_⟩⟩
    · rw [r0, if_pos (hnext.2 hn)]; rfl
    · rw [r0, if_neg (fun hm => hn (hnext.1 hm))]; rfl
    · rw [show 4 * k + 2 = 4 * k + 1 + 1 by omega, r1, hsx]
      by_cases y1 : y = 3 * k + 1
      · rw [if_neg (by omega), if_pos y1, if_pos y1]; rfl
      · by_cases y2 : y = 3 * k + 2
        · rw [if_pos y2, if_neg y1, if_pos y2]; rfl
        · rw [if_neg y2, if_neg y1, if_neg y1, if_neg y2]; rfl
    · rw [show 4 * k + 4 = 4 * k + 1 + 3 by omega, r3, leafO_finished _ _ _ _ _ _ _ _ hdet, if_pos (hafter.2 hn)]; rfl
    · rw [show 4 * k + 4 = 4 * k + 1 + 3 by omega, r3, leafO_finished _ _ _ _ _ _ _ _ hdet, if_neg (fun hm => hn (hafter.1 hm))]; rfl
    · rw [show 4 * k + 4 = 4 * k + 1 + 3 by omega, r3, leafO_finishedDet _ _ _ _ _ _ _ _ hdet, if_pos (hnext.2 hn)]; rfl
    · rw [show 4 * k + 4 = 4 * k + 1 + 3 by omega, r3, leafO_finishedDet _ _ _ _ _ _ _ _ hdet, if_neg, if_pos (by omega)]
      · rfl
      · intro hm
        rcases isNext_lt hfn _ _ (hnext.1 hm) with h4 | ⟨j, _, _, h4⟩ <;> omega
    · rw [show 4 * k + 4 = 4 * k + 1 + 3 by omega, r3, leafO_finishedDet _ _ _ _ _ _ _ _ hdet, if_neg (fun hm => hn (hnext.1 hm)), if_neg (by omega)]; rfl
  · intro hlr
    have hlr' : h.loop ∨ h.rewardState := by simpa using hlr
    refine ⟨by rw [eo]; unfold htmObservations; rw [if_pos hlr']; rfl, fun x => ?_⟩
    rw [eO]
    refine hunit _ _ ?_
    cases hr : h.rewardState
    · exact htmO_endLoop h (by simpa [hr] using hlr) hr x
    · exact (htmO_endReward h hr x).1
  · intro hr x
    rw [eO]
    exact hunit _ _ (htmO_endReward h hr x).2

/-! ### C34 -/

/-- **C34**: costs (the rewards stored in the model are their opposites). -/
theorem C34_costs (path : String) (exp : ℚ → ℚ) (radix : String → String) (h : HtmParams) (fuel : Nat) (t : Htm CAction)
    (hb : Built t) (hf : HFull t) (hd : callDepth t ≤ fuel) (p : Pomdp) (hp : htmToPomdp (some path) exp radix h fuel t = .ok p) :
    ∃ n, N2P.fromNode CAction.ops fuel t = .ok n ∧
      (∀ k c, n.leaves[k]? = some c → ∀ i < 3, ∀ x z o,
        p.R.at_ x (3 * k + i) z o = - ((if x = 4 * k + 1 ∧ i = 2 then c.tRob + h.intrCost
            else if x = 0 then h.tWait else actDuration h n x + h.intrCost)
          - (if z / 3 = k then 0 else h.subtaskReward.getD 0))) ∧
      (∀ x z o, h.rewardState = false → p.R.at_ x (3 * len n) z o = if x = 0 then h.endReward else - h.intrCost) ∧
      (∀ x z o, h.rewardState = true → p.R.at_ x (3 * len n) z o = (if x = 0 then h.endReward else - h.intrCost) ∧
        p.R.at_ x (3 * len n + 1) z o = (if x = 0 then 0 else - h.intrCost)) := by
  obtain ⟨n, h1, ⟨hfn, hlang, hleaves⟩, h3⟩ := htmToPomdp_ok (some path) exp radix h fuel t hb hf hd
  rw [h3] at hp
  obtain ⟨hs, eT, eO, eR, est, _, es, ea, eo, hg⟩ := htmConvert_ok path exp radix h n hfn p hp
  refine ⟨n, h1, ?_, ?_, ?_⟩
  · intro k c hk i hi x z o
    have hlt := (List.getElem?_eq_some_iff.1 hk).1
    obtain ⟨cx, hcx⟩ := N2P.root_exists (w := 3) (wa := 4) (a := 1) (fin := 3 * len n) (n := n) hlt
    have hact : cx.act = c := by
      have := (N2P.root_get hcx).1
      rw [hk] at this
      injection this with this
      exact this.symm
    rw [eR]
    dsimp only
    have hmid : htmRArr h n x (3 * k + i) z o = midR h n (3 * len n) x (3 * k + i) z o := by
      unfold htmRArr htmREnd htmNS
      cases hr : h.rewardState
      · simp only [hr, Bool.false_eq_true, if_false]
        rw [if_neg (by omega), if_neg (by omega)]
      · simp only [hr, if_true]
        rw [if_neg (by omega), if_neg (by omega), if_neg (by omega), if_neg (by omega)]
    rw [hmid, midR_leaf h n hcx x i z o hi, hact]
    have e1 : (z < 3 * k ∨ 3 * k + 3 ≤ z) ↔ ¬ (z / 3 = k) := by omega
    congr 2
    · split
      · rfl
      · split
        · rename_i hx; rw [hx]; rfl
        · rfl
    · by_cases hz : z / 3 = k
      · rw [if_neg (by rw [e1]; exact not_not.2 hz), if_pos hz]
      · rw [if_pos (e1.2 hz), if_neg hz]
  · intro x z o hr
    rw [eR]
    simp only [htmRArr, htmREnd, htmNS, hr, Bool.false_eq_true, if_false, Nat.add_sub_cancel, and_true, if_true]
    split <;> ring
  · intro x z o hr
    rw [eR]
    have e1 : 3 * len n + 2 - 1 = 3 * len n + 1 := by omega
    have e2 : ¬ (3 * len n = 3 * len n + 1) := by omega
    simp only [htmRArr, htmREnd, htmNS, hr, if_true, Nat.add_sub_cancel, e1, e2, and_true, and_false, if_false]
    refine ⟨by split <;> ring, ?_⟩
    by_cases hx : x = 0 <;> simp [hx]

end Verif
