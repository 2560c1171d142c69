import Verif.Proof.Pomdp
import Mathlib.Tactic.IntervalCases

/-! Properties C37 to C42 and C71: the `POMDP` class. -/

set_option linter.unusedSectionVars false
set_option linter.unusedSimpArgs false

namespace Verif
open Spec

/-! ### C37 -/

/-- `belief_update` raises `Impossible` exactly when the observation has probability zero. -/
theorem C37_impossible (p : Pomdp) (nS nA nO : Nat) (hp : Stochastic p nS nA nO) (a o : Nat) (ha : a < nA) (ho : o < nO)
    (b : List ℚ) (hb : IsDist nS b) :
    p.beliefUpdate a o b = .error .impossible ↔ obsProb p nS a o b = 0 := by
  rw [beliefUpdate_cases p hp.1 a o ha ho b hb.1]
  split
  · rename_i h; simp [h]
  · rename_i h; simp [h]

/-- Otherwise it returns the posterior distribution, with the expected support. -/
theorem C37_posterior (p : Pomdp) (nS nA nO : Nat) (hp : Stochastic p nS nA nO) (a o : Nat) (ha : a < nA) (ho : o < nO)
    (b : List ℚ) (hb : IsDist nS b) (hz : obsProb p nS a o b ≠ 0) :
    ∃ b', p.beliefUpdate a o b = .ok b' ∧ IsDist nS b' ∧
      (∀ s' < nS, b'.getD s' 0 =
        p.O.at_ a s' o * sumRange nS (fun s => b.getD s 0 * p.T.at_ a s s') / obsProb p nS a o b) ∧
      ∀ s' < nS, 0 < b'.getD s' 0 ↔ 0 < p.O.at_ a s' o ∧ ∃ s < nS, 0 < b.getD s 0 ∧ 0 < p.T.at_ a s s' := by
  have hn := jointProb_nonneg p hp a o ha ho b hb.2.1
  have hpos : 0 < obsProb p nS a o b := lt_of_le_of_ne (sumRange_nonneg _ _ hn) (Ne.symm hz)
  refine ⟨(List.range nS).map fun s' => jointProb p nS a o b s' / obsProb p nS a o b, ?_, ?_, ?_, ?_⟩
  · rw [beliefUpdate_cases p hp.1 a o ha ho b hb.1, if_neg hz]
  · refine ⟨by simp, ?_, ?_⟩
    · intro i hi
      rw [getD_map_range _ _ _ hi]
      exact div_nonneg (hn i hi) (le_of_lt hpos)
    · rw [sumRange_congr _ _ (fun i => jointProb p nS a o b i / obsProb p nS a o b)
        (fun i hi => getD_map_range _ _ _ hi), sumRange_div]
      exact div_self hz
  · intro s' hs'
    rw [getD_map_range _ _ _ hs']
    rfl
  · intro s' hs'
    rw [getD_map_range _ _ _ hs', div_pos_iff_of_pos_right hpos]
    obtain ⟨⟨_, _, _, _, h0, h1, h2, h3, h4, h5, _⟩, hT, hO⟩ := hp
    have hO' := (hO a (by omega) s' (by omega)).1 o (by omega)
    have hsn : ∀ s < nS, 0 ≤ b.getD s 0 * p.T.at_ a s s' := fun s hs =>
      mul_nonneg (hb.2.1 s hs) ((hT a (by omega) s (by omega)).1 s' (by omega))
    have hs0 := sumRange_nonneg _ _ hsn
    unfold jointProb
    constructor
    · intro h
      have hOp : 0 < p.O.at_ a s' o := lt_of_le_of_ne hO' (fun he => by rw [← he, zero_mul] at h; exact lt_irrefl _ h)
      have hsp := (mul_pos_iff_of_pos_left hOp).1 h
      obtain ⟨s, hs, hps⟩ := (sumRange_pos_iff _ _ hsn).1 hsp
      refine ⟨hOp, s, hs, ?_⟩
      have hb' := hb.2.1 s hs
      have hbp : 0 < b.getD s 0 := lt_of_le_of_ne hb' (fun he => by rw [← he, zero_mul] at hps; exact lt_irrefl _ hps)
      exact ⟨hbp, (mul_pos_iff_of_pos_left hbp).1 hps⟩
    · rintro ⟨hOp, s, hs, h6, h7⟩
      exact mul_pos hOp ((sumRange_pos_iff _ _ hsn).2 ⟨s, hs, mul_pos h6 h7⟩)

/-! ### C38 -/

/-- Belief updates along a history give the posterior of the last state, and fail exactly on histories of probability
zero. -/
theorem C38_posterior (p : Pomdp) (nS nA nO : Nat) (hp : Stochastic p nS nA nO) (h : List (Nat × Nat))
    (hh : ∀ ao ∈ h, ao.1 < nA ∧ ao.2 < nO) (b : List ℚ) (hb : IsDist nS b) :
    (histProb p nS b h = 0 → updates p b h = .error .impossible) ∧
    (histProb p nS b h ≠ 0 → 0 < histProb p nS b h ∧
      ∃ b', updates p b h = .ok b' ∧ IsDist nS b' ∧ ∀ s < nS, b'.getD s 0 = endProb p nS b h s / histProb p nS b h) := by
  simp only [endProb_eq, histProb_eq]
  induction h generalizing b with
  | nil =>
    have h1 : beliefProb p nS (fun _ => true) b [] = 1 := by
      unfold beliefProb
      simp only [tailProb_nil, if_true, mul_one]
      exact hb.2.2
    rw [h1]
    refine ⟨fun h => by norm_num at h, fun _ => ⟨by norm_num, b, rfl, hb, ?_⟩⟩
    intro s hs
    unfold beliefProb
    simp only [tailProb_nil, decide_eq_true_eq, div_one, mul_ite, mul_one, mul_zero]
    have : sumRange nS (fun i => if i = s then b.getD i 0 else 0) = sumRange nS (fun i => if i = s then b.getD s 0 else 0) :=
      sumRange_congr _ _ _ (fun i _ => by by_cases hi : i = s <;> simp [hi])
    rw [this, sumRange_ite _ _ _ hs]
  | cons ao h ih =>
    obtain ⟨a, o⟩ := ao
    obtain ⟨ha, ho⟩ := hh (a, o) (by simp)
    have hn := jointProb_nonneg p hp a o ha ho b hb.2.1
    by_cases hz : obsProb p nS a o b = 0
    · have hb0 : beliefProb p nS (fun _ => true) b ((a, o) :: h) = 0 := by
        rw [beliefProb_cons]
        have : ∀ s' < nS, jointProb p nS a o b s' = 0 := by
          intro s' hs'
          have := sumRange_single_le _ _ hn s' hs'
          have h0 := hn s' hs'
          unfold obsProb at hz
          rw [hz] at this
          exact le_antisymm this h0
        rw [sumRange_congr _ _ (fun _ => 0) (fun s' hs' => by rw [this s' hs', zero_mul]), sumRange_zero]
      refine ⟨fun _ => ?_, fun h => absurd hb0 h⟩
      simp only [updates, (C37_impossible p nS nA nO hp a o ha ho b hb).2 hz, bind, Except.bind]
    · obtain ⟨b', hb', hd, _, _⟩ := C37_posterior p nS nA nO hp a o ha ho b hb hz
      have hpos : 0 < obsProb p nS a o b := lt_of_le_of_ne (sumRange_nonneg _ _ hn) (Ne.symm hz)
      have hbe := hb'
      rw [beliefUpdate_cases p hp.1 a o ha ho b hb.1, if_neg hz] at hbe
      have hbe := Except.ok.inj hbe
      have hstep : ∀ c, beliefProb p nS c b ((a, o) :: h) = obsProb p nS a o b * beliefProb p nS c b' h := by
        intro c
        rw [beliefProb_update p nS c b a o h hz, hbe]
      obtain ⟨ih1, ih2⟩ := ih (fun x hx => hh x (by simp [hx])) b' hd
      simp only [updates, hb', bind, Except.bind, hstep]
      refine ⟨fun h0 => ih1 ((mul_eq_zero.1 h0).resolve_left hz), fun h0 => ?_⟩
      obtain ⟨hp0, b'', h1, h2, h3⟩ := ih2 (fun h => h0 (by rw [h, mul_zero]))
      refine ⟨mul_pos hpos hp0, b'', h1, h2, fun s hs => ?_⟩
      rw [h3 s hs, mul_div_mul_left _ _ hz]

/-! ### C39 -/

/-- The constructor accepts exactly the well-formed models. -/
theorem C39_accepts (solver : Option String) (T O : Arr3) (R : Arr4) (start : List ℚ) (discount : ℚ)
    (states actions observations : Option (List Name)) (values : String) :
    (∃ p, Pomdp.mk' solver T O R start discount states actions observations values = .ok p) ↔
      (values = "reward" ∨ values = "cost") ∧ solver ≠ none ∧ 0 ≤ discount ∧ discount ≤ 1 ∧
      ∃ nS nA nO, (∀ l, states = some l → l.length = nS ∧ l.Nodup) ∧ (∀ l, actions = some l → l.length = nA ∧ l.Nodup) ∧
        (∀ l, observations = some l → l.length = nO ∧ l.Nodup) ∧ start.length = nS ∧
        (T.n0 = nA ∧ T.n1 = nS ∧ T.n2 = nS) ∧ (O.n0 = nA ∧ O.n1 = nS ∧ O.n2 = nO) ∧
        (R.n0 = nA ∧ R.n1 = nS ∧ R.n2 = nS ∧ R.n3 = nO) ∧ NearOne start.sum ∧
        ∀ a < nA, ∀ s < nS, NearOne (sumRange nS (T.at_ a s)) ∧ NearOne (sumRange nO (O.at_ a s)) := by
  simp only [mk'_ok_iff]
  have hdim : ∀ r, Pomdp.rewardOf values R = .ok r → r.n0 = R.n0 ∧ r.n1 = R.n1 ∧ r.n2 = R.n2 ∧ r.n3 = R.n3 := by
    intro r hr
    unfold Pomdp.rewardOf at hr
    split at hr
    · cases hr; exact ⟨rfl, rfl, rfl, rfl⟩
    · split at hr
      · cases hr; exact ⟨rfl, rfl, rfl, rfl⟩
      · cases hr
  have hnames : ∀ (g : Option (List Name)) (n m : Nat), (Names.init g n).asList.length = m →
      (Names.init g n).asList.Nodup → ∀ l, g = some l → l.length = m ∧ l.Nodup := by
    rintro g n m h1 h2 l rfl
    exact ⟨h1, h2⟩
  constructor
  · rintro ⟨p, r, path, hr, rfl, hg, rfl⟩
    obtain ⟨⟨_, _, _, s0, s1, s2, s3, s4, s5, s6, s7, s8, s9, s10⟩, g1, g2, g3, g4, g5, g6, g7⟩ := (good_iff _).1 hg
    obtain ⟨d0, d1, d2, d3⟩ := hdim r hr
    simp only [] at s0 s1 s2 s3 s4 s5 s6 s7 s8 s9 s10 g1 g2 g3 g4 g5 g6 g7
    refine ⟨?_, by simp, g6, g7, _, _, _, hnames _ _ _ rfl g3, hnames _ _ _ rfl g4, hnames _ _ _ rfl g5, s0, ⟨s1, s2, s3⟩,
      ⟨s4, s5, s6⟩, ⟨d0 ▸ s7, d1 ▸ s8, d2 ▸ s9, d3 ▸ s10⟩, g1, g2⟩
    unfold Pomdp.rewardOf at hr
    split at hr
    · left; assumption
    · split at hr
      · right; assumption
      · cases hr
  · rintro ⟨hv, hs, hd0, hd1, nS, nA, nO, k1, k2, k3, k4, ⟨t0, t1, t2⟩, ⟨o0, o1, o2⟩, ⟨r0, r1, r2, r3⟩, k5, k6⟩
    have hex : ∃ r, Pomdp.rewardOf values R = .ok r := by
      unfold Pomdp.rewardOf
      rcases hv with rfl | rfl
      · exact ⟨R, by simp⟩
      · exact ⟨R.neg, by simp⟩
    obtain ⟨r, hr⟩ := hex
    obtain ⟨d0, d1, d2, d3⟩ := hdim r hr
    cases solver with
    | none => exact absurd rfl hs
    | some path =>
      refine ⟨_, r, path, hr, rfl, ?_, rfl⟩
      have hinit : ∀ (g : Option (List Name)) (n : Nat), (∀ l, g = some l → l.length = n ∧ l.Nodup) →
          (Names.init g n).asList.length = n ∧ (Names.init g n).asList.Nodup := by
        intro g n hg
        cases g with
        | none => exact ⟨by simp [Names.init, Names.asList], range_names_nodup n⟩
        | some l => exact hg l rfl
      rw [o0, o1, o2]
      obtain ⟨hS, hS'⟩ := hinit _ _ k1
      obtain ⟨hA, hA'⟩ := hinit _ _ k2
      obtain ⟨hO, hO'⟩ := hinit _ _ k3
      rw [good_iff]
      simp only [Pomdp.nStates, Pomdp.nActions, Pomdp.nObservations, Pomdp.states, Pomdp.actions, Pomdp.observations, hS, hA, hO]
      exact ⟨⟨hS, hA, hO, k4, t0, t1, t2, o0, o1, o2, d0.trans r0, d1.trans r1, d2.trans r2, d3.trans r3⟩, k5, k6, hS', hA', hO', hd0, hd1⟩

/-- The attributes of a constructed model: the arguments, the costs being negated and the missing names numbered. -/
theorem C39_stored (solver : Option String) (T O : Arr3) (R : Arr4) (start : List ℚ) (discount : ℚ)
    (states actions observations : Option (List Name)) (values : String) (p : Pomdp)
    (h : Pomdp.mk' solver T O R start discount states actions observations values = .ok p) :
    p.T = T ∧ p.O = O ∧ p.start = start ∧ p.discount = discount ∧ some p.solverPath = solver ∧
    (values = "reward" → p.R = R) ∧
    (values = "cost" → p.R.n0 = R.n0 ∧ p.R.n1 = R.n1 ∧ p.R.n2 = R.n2 ∧ p.R.n3 = R.n3 ∧
      ∀ a s s' o, p.R.at_ a s s' o = - R.at_ a s s' o) ∧
    p.states = states.getD ((List.range T.n1).map Name.int) ∧ p.actions = actions.getD ((List.range T.n0).map Name.int) ∧
    p.observations = observations.getD ((List.range O.n2).map Name.int) := by
  obtain ⟨r, path, hr, hs, hg, rfl⟩ := (mk'_ok_iff ..).1 h
  obtain ⟨⟨_, _, _, s0, s1, s2, s3, s4, s5, s6, _⟩, _⟩ := (good_iff _).1 hg
  simp only [] at s0 s1 s2 s3 s4 s5 s6
  refine ⟨rfl, rfl, rfl, rfl, hs.symm, ?_, ?_, ?_, ?_, ?_⟩
  · rintro rfl
    simp [Pomdp.rewardOf] at hr
    exact hr.symm
  · rintro rfl
    simp [Pomdp.rewardOf] at hr
    subst hr
    exact ⟨rfl, rfl, rfl, rfl, fun _ _ _ _ => rfl⟩
  · have : T.n1 = O.n1 := by omega
    rw [this]
    cases states <;> rfl
  · have : T.n0 = O.n0 := by omega
    rw [this]
    cases actions <;> rfl
  · cases observations <;> rfl

/-- Negative entries are accepted. -/
theorem C39_negative_accepted : ∃ (T O : Arr3) (R : Arr4) (start : List ℚ) (p : Pomdp),
    Pomdp.mk' (some "pomdp-solve") T O R start 1 none none none "reward" = .ok p ∧ p.T.at_ 0 0 0 < 0 ∧ p.start.getD 0 0 < 0 := by
  refine ⟨⟨1, 2, 2, fun _ _ k => if k = 0 then -1 else 2⟩, ⟨1, 2, 1, fun _ _ _ => 1⟩, ⟨1, 2, 2, 1, fun _ _ _ _ => 0⟩, [-1, 2], ?_⟩
  have h : ∃ p, Pomdp.mk' (some "pomdp-solve") ⟨1, 2, 2, fun _ _ k => if k = 0 then -1 else 2⟩ ⟨1, 2, 1, fun _ _ _ => 1⟩
      ⟨1, 2, 2, 1, fun _ _ _ _ => 0⟩ [-1, 2] 1 none none none "reward" = .ok p := by
    rw [C39_accepts]
    refine ⟨Or.inl rfl, by simp, by norm_num, le_rfl, 2, 1, 1, by simp, by simp, by simp, rfl, ⟨rfl, rfl, rfl⟩, ⟨rfl, rfl, rfl⟩,
      ⟨rfl, rfl, rfl, rfl⟩, ?_, ?_⟩
    · norm_num [NearOne]
    · intro a _ s _
      norm_num [NearOne, sumRange, List.range_succ]
  obtain ⟨p, hp⟩ := h
  obtain ⟨h1, _, h2, _⟩ := C39_stored _ _ _ _ _ _ _ _ _ _ _ hp
  exact ⟨p, hp, by rw [h1]; norm_num, by rw [h2]; norm_num⟩

/-! ### C40 -/

/-- A model with at least one action, written to a dictionary and read back, has the same arrays, discount, names and
belief updates. -/
theorem C40_roundtrip (solver : Option String) (T O : Arr3) (R : Arr4) (start : List ℚ) (discount : ℚ)
    (states actions observations : Option (List Name)) (values : String) (p : Pomdp)
    (h : Pomdp.mk' solver T O R start discount states actions observations values = .ok p) (hA : 0 < T.n0) :
    ∃ q, Pomdp.fromDict solver p.toDict = .ok q ∧ q.T.Same p.T ∧ q.O.Same p.O ∧ q.R.Same p.R ∧ q.start = p.start ∧
      q.discount = p.discount ∧ q.states = p.states ∧ q.actions = p.actions ∧ q.observations = p.observations ∧
      q.solverPath = p.solverPath ∧ ∀ a o b, q.beliefUpdate a o b = p.beliefUpdate a o b := by
  obtain ⟨r, path, hr, rfl, hg, hp⟩ := (mk'_ok_iff ..).1 h
  obtain ⟨⟨_, _, _, s0, s1, s2, s3, s4, s5, s6, s7, s8, s9, s10⟩, _⟩ := (good_iff _).1 hg
  have hA' : 0 < p.nActions := by rw [← s1, hp]; exact hA
  have hpath : p.solverPath = path := by rw [hp]
  have hT : Arr3.Same ⟨p.T.n0, p.T.n1, p.T.n2, getD3 p.T.toList⟩ p.T := ⟨rfl, rfl, rfl, fun i hi j hj k hk => getD3_toList p.T i j k hi hj hk⟩
  have hO : Arr3.Same ⟨p.O.n0, p.O.n1, p.O.n2, getD3 p.O.toList⟩ p.O := ⟨rfl, rfl, rfl, fun i hi j hj k hk => getD3_toList p.O i j k hi hj hk⟩
  refine ⟨_, fromDict_toDict p path hg hA', hT, hO,
    ⟨rfl, rfl, rfl, rfl, fun i hi j hj k hk l hl => getD4_toList p.R i j k l hi hj hk hl⟩, rfl, rfl, rfl, rfl, rfl, hpath.symm, ?_⟩
  intro a o b
  exact beliefUpdate_congr _ _ hT hO (by show p.T.n2 = p.O.n1; omega) a o b

/-- The solver file is the same when the names were given. -/
theorem C40_dump_partial (solver : Option String) (T O : Arr3) (R : Arr4) (start : List ℚ) (discount : ℚ)
    (states actions observations : List Name) (values : String) (p : Pomdp)
    (h : Pomdp.mk' solver T O R start discount (some states) (some actions) (some observations) values = .ok p) (hA : 0 < T.n0)
    (fmt strNum : ℚ → String) :
    ∃ q, Pomdp.fromDict solver p.toDict = .ok q ∧ q.dump fmt strNum = p.dump fmt strNum := by
  obtain ⟨q, hq, h1, h2, h3, h4, h5, h6, h7, h8, _⟩ := C40_roundtrip _ _ _ _ _ _ _ _ _ _ _ h hA
  refine ⟨q, hq, ?_⟩
  obtain ⟨r, path, hr, rfl, hg, hp⟩ := (mk'_ok_iff ..).1 h
  have hq' : q.sNames = .list q.states ∧ q.aNames = .list q.actions ∧ q.oNames = .list q.observations := by
    unfold Pomdp.fromDict at hq
    simp only [bind, Except.bind] at hq
    split at hq
    · cases hq
    · split at hq
      · cases hq
      · split at hq
        · cases hq
        · obtain ⟨_, _, _, _, _, hq'⟩ := (mk'_ok_iff ..).1 hq
          rw [hq']
          exact ⟨rfl, rfl, rfl⟩
  have hp' : p.sNames = .list p.states ∧ p.aNames = .list p.actions ∧ p.oNames = .list p.observations := by
    rw [hp]; exact ⟨rfl, rfl, rfl⟩
  unfold Pomdp.dump
  rw [hq'.1, hq'.2.1, hq'.2.2, hp'.1, hp'.2.1, hp'.2.2, h4, h5, h6, h7, h8, h1.toList, h2.toList, h3.toList]

/-- What is read from the dictionary of a model has this dictionary; hence reading it a second time gives the same model,
with the same solver file, whether names were given or not. -/
theorem C40_stable (solver : Option String) (T O : Arr3) (R : Arr4) (start : List ℚ) (discount : ℚ)
    (states actions observations : Option (List Name)) (values : String) (p q : Pomdp)
    (h : Pomdp.mk' solver T O R start discount states actions observations values = .ok p)
    (hq : Pomdp.fromDict solver p.toDict = .ok q) :
    q.toDict = p.toDict ∧ Pomdp.fromDict solver q.toDict = .ok q := by
  have hA : 0 < T.n0 := by
    rcases Nat.eq_zero_or_pos T.n0 with h0 | h0
    · obtain ⟨r, path, hr, rfl, hg, hp⟩ := (mk'_ok_iff ..).1 h
      have : p.T = T := by rw [hp]
      have h1 : p.T.toList = [] := by rw [this]; simp [Arr3.toList, h0]
      simp [Pomdp.fromDict, Pomdp.toDict, h1, asArr3, bind, Except.bind] at hq
    · exact h0
  obtain ⟨q', hq', h1, h2, h3, h4, h5, h6, h7, h8, -⟩ := C40_roundtrip _ _ _ _ _ _ _ _ _ _ _ h hA
  rw [hq] at hq'
  cases hq'
  have key : q.toDict = p.toDict := by
    unfold Pomdp.toDict
    rw [h1.toList, h2.toList, h3.toList, h4, h5, h6, h7, h8]
  exact ⟨key, by rw [key]; exact hq⟩

/-- The dictionary of a model without actions cannot be read. -/
theorem C40_no_action (solver : Option String) (T O : Arr3) (R : Arr4) (start : List ℚ) (discount : ℚ)
    (states actions observations : Option (List Name)) (values : String) (p : Pomdp)
    (h : Pomdp.mk' solver T O R start discount states actions observations values = .ok p) (hA : T.n0 = 0) :
    Pomdp.fromDict solver p.toDict = .error .valueError := by
  obtain ⟨r, path, hr, rfl, hg, hp⟩ := (mk'_ok_iff ..).1 h
  have : p.T = T := by rw [hp]
  have h1 : p.T.toList = [] := by rw [this]; simp [Arr3.toList, hA]
  simp [Pomdp.fromDict, Pomdp.toDict, h1, asArr3, bind, Except.bind]

/-! ### C41 -/

/-- The rows written in the solver file. -/
theorem C41_row (a : List ℚ) (ha : a ≠ []) :
    ∃ r imax, dumpRow a = .ok r ∧ r.length = a.length ∧ imax < a.length ∧
      (∀ i < a.length, around (a.getD i 0) ≤ around (a.getD imax 0)) ∧
      (∀ i < a.length, i ≠ imax → r.getD i 0 = around (a.getD i 0)) ∧ r.sum = around a.sum ∧ ∀ i < a.length, FiveDecimals (r.getD i 0) := by
  obtain ⟨m, v, h1, h2, h3⟩ := argmax_spec (a.map around) (by simpa using ha)
  have hm : m < a.length := by simpa using (List.getElem?_eq_some_iff.1 h2).1
  have hget : ∀ i < a.length, (a.map around)[i]? = some (around (a.getD i 0)) := by
    intro i hi
    simp [List.getD_eq_getElem?_getD, hi]
  have hv : v = around (a.getD m 0) := by rw [hget m hm] at h2; exact (Option.some.inj h2).symm
  refine ⟨_, m, by simp only [dumpRow, h1, bind, Except.bind, pure, Except.pure]; rfl, by simp, hm, ?_, ?_, ?_, ?_⟩
  · intro i hi
    rw [← hv]
    exact (h3 i _ (hget i hi)).1
  · intro i hi hne
    rw [List.getD_eq_getElem?_getD, List.getElem?_set_ne (Ne.symm hne), hget i hi]
    rfl
  · rw [sum_set _ _ _ (by simpa using hm)]
    ring
  · intro i hi
    have hround : ∀ x, FiveDecimals (around x) := fun x => ⟨roundEven (x * 100000), rfl⟩
    have hadd : ∀ x y, FiveDecimals x → FiveDecimals y → FiveDecimals (x + y) := by
      rintro x y ⟨k, rfl⟩ ⟨l, rfl⟩
      exact ⟨k + l, by push_cast; ring⟩
    have hneg : ∀ x, FiveDecimals x → FiveDecimals (-x) := by
      rintro x ⟨k, rfl⟩
      exact ⟨-k, by push_cast; ring⟩
    have hsum : ∀ l : List ℚ, FiveDecimals (l.map around).sum := by
      intro l
      induction l with
      | nil => exact ⟨0, by simp⟩
      | cons x l ih => simp only [List.map_cons, List.sum_cons]; exact hadd _ _ (hround x) ih
    by_cases hi' : i = m
    · subst hi'
      rw [List.getD_eq_getElem?_getD, List.getElem?_set_self (by simpa using hi)]
      simp only [Option.getD_some]
      have : (a.map around).getD i 0 = around (a.getD i 0) := by rw [List.getD_eq_getElem?_getD, hget i hi]; rfl
      rw [this, sub_eq_add_neg]
      exact hadd _ _ (hround _) (hadd _ _ (hround _) (hneg _ (hsum a)))
    · rw [List.getD_eq_getElem?_getD, List.getElem?_set_ne (Ne.symm hi'), hget i hi]
      exact hround _

/-- A row of probabilities is written as a row whose sum is exactly 1. -/
theorem C41_sum (a : List ℚ) (ha : a ≠ []) (hs : a.sum = 1) : ∃ r, dumpRow a = .ok r ∧ r.length = a.length ∧ r.sum = 1 := by
  obtain ⟨r, _, h1, h2, _, _, _, h3, _⟩ := C41_row a ha
  exact ⟨r, h1, h2, by rw [h3, hs, around_one]⟩

/-- The entries stay non-negative in rows of probabilities that are not too long. -/
theorem C41_nonneg_partial (n : Nat) (a : List ℚ) (ha : IsDist n a) (hn : n * (n + 1) ≤ 200000) :
    ∃ r, dumpRow a = .ok r ∧ ∀ i < n, 0 ≤ r.getD i 0 := by
  obtain ⟨hl, h0, hs⟩ := ha
  have hsum : a.sum = 1 := by rw [sum_eq_sumRange, hl, hs]
  have hne : a ≠ [] := by rintro rfl; simp at hsum
  have hn0 : 0 < n := by rw [← hl]; exact List.length_pos_of_ne_nil hne
  obtain ⟨r, m, h1, h2, hm, hmax, hoth, hrs, _⟩ := C41_row a hne
  rw [hl] at *
  refine ⟨r, h1, ?_⟩
  have hround0 : ∀ x, 0 ≤ x → 0 ≤ around x := by
    intro x hx
    have h := around_mono_le 0 x hx
    have h00 : around 0 = 0 := by
      unfold around
      have : (0 : ℚ) * 100000 = ((0 : Int) : ℚ) := by norm_num
      rw [this, roundEven_int]
      norm_num
    linarith
  intro i hi
  by_cases him : i = m
  · subst him
    rw [hsum, around_one] at hrs
    -- the largest entry is at least 1 / n, up to the rounding
    have hbig : ∃ k < n, (1 : ℚ) / n ≤ a.getD k 0 := by
      by_contra hc
      have hlt : ∀ k < n, a.getD k 0 < 1 / n := fun k hk => not_le.1 (fun h => hc ⟨k, hk, h⟩)
      have hle := sumRange_le (n - 1) (fun k => a.getD k 0) (fun _ => 1 / (n : ℚ)) (fun k hk => le_of_lt (hlt k (by omega)))
      have hsplit : sumRange n (fun k => a.getD k 0) = sumRange (n - 1) (fun k => a.getD k 0) + a.getD (n - 1) 0 := by
        conv_lhs => rw [show n = (n - 1) + 1 by omega]
        rw [sumRange_succ]
      have hlast := hlt (n - 1) (by omega)
      rw [sumRange_const] at hle
      have hnq : ((n - 1 : Nat) : ℚ) = (n : ℚ) - 1 := by push_cast [Nat.cast_sub hn0]; ring
      have hnp : (0 : ℚ) < n := by exact_mod_cast hn0
      have : ((n : ℚ) - 1) * (1 / n) + 1 / n = 1 := by field_simp; ring
      rw [hnq] at hle
      linarith
    obtain ⟨k, hk, hkb⟩ := hbig
    have hmk := hmax k hk
    have hb1 := (around_bound (a.getD k 0)).1
    -- the other entries
    have hri : r.getD i 0 = around (a.getD i 0) + (1 - sumRange n (fun j => around (a.getD j 0))) := by
      have hrsum : r.sum = sumRange n (fun j => r.getD j 0) := by rw [sum_eq_sumRange, h2]
      have hdiff : sumRange n (fun j => r.getD j 0) =
          sumRange n (fun j => around (a.getD j 0)) + sumRange n (fun j => if j = i then r.getD i 0 - around (a.getD i 0) else 0) := by
        rw [← sumRange_add]
        apply sumRange_congr
        intro j hj
        by_cases hji : j = i
        · subst hji; simp
        · rw [hoth j hj hji, if_neg hji, add_zero]
      rw [sumRange_ite _ _ _ hi, ← hrsum, hrs] at hdiff
      linarith
    have htot : sumRange n (fun j => around (a.getD j 0)) ≤ 1 + n * (1 / 200000) := by
      have := sumRange_le n (fun j => around (a.getD j 0)) (fun j => a.getD j 0 + 1 / 200000) (fun j _ => (around_bound _).2)
      rw [sumRange_add, sumRange_const, hs] at this
      exact this
    have hnn : (n : ℚ) * (n + 1) ≤ 200000 := by exact_mod_cast hn
    have hnp : (0 : ℚ) < n := by exact_mod_cast hn0
    have hfin : ((n : ℚ) + 1) / 200000 ≤ 1 / n := by
      rw [div_le_div_iff₀ (by norm_num) hnp]
      linarith
    rw [hri]
    have : ((n : ℚ) + 1) / 200000 = n * (1 / 200000) + 1 / 200000 := by ring
    linarith
  · rw [hoth i hi him]
    exact hround0 _ (h0 i hi)

theorem sum_replicate_q (n : Nat) (x : ℚ) : (List.replicate n x).sum = n * x := by
  induction n with
  | zero => simp
  | succ n ih => simp only [List.replicate_succ, List.sum_cons, ih]; push_cast; ring

/-- They do not in general: a uniform row over 600 values is written with a negative entry. -/
theorem C41_false_nonneg : ∃ (a r : List ℚ), IsDist 600 a ∧ dumpRow a = .ok r ∧ ∃ i < 600, r.getD i 0 < 0 := by
  have hlen : (List.replicate 600 (1 / 600 : ℚ)).length = 600 := List.length_replicate
  have hget : ∀ i < 600, (List.replicate 600 (1 / 600 : ℚ)).getD i 0 = 1 / 600 := by
    intro i hi
    rw [List.getD_eq_getElem?_getD, List.getElem?_replicate, if_pos hi]
    rfl
  have hsum : (List.replicate 600 (1 / 600 : ℚ)).sum = 1 := by rw [sum_replicate_q]; norm_num
  have hd : IsDist 600 (List.replicate 600 (1 / 600 : ℚ)) := by
    refine ⟨hlen, fun i hi => by rw [hget i hi]; norm_num, ?_⟩
    have h := sum_eq_sumRange (List.replicate 600 (1 / 600 : ℚ))
    rw [hlen, hsum] at h
    exact h.symm
  have hne : List.replicate 600 (1 / 600 : ℚ) ≠ [] := by
    intro h
    rw [h] at hlen
    simp at hlen
  obtain ⟨r, m, h1, h2, hm, hmax, hoth, hrs, _⟩ := C41_row _ hne
  refine ⟨_, r, hd, h1, m, by rwa [hlen] at hm, ?_⟩
  rw [hlen] at h2 hm hoth
  have hround : around (1 / 600) = 167 / 100000 := by decide +kernel
  rw [hsum, around_one] at hrs
  have hrsum : r.sum = sumRange 600 (fun j => r.getD j 0) := by rw [sum_eq_sumRange, h2]
  have hdiff : sumRange 600 (fun j => r.getD j 0) =
      sumRange 600 (fun _ => (167 / 100000 : ℚ)) + sumRange 600 (fun j => if j = m then r.getD m 0 - 167 / 100000 else 0) := by
    rw [← sumRange_add]
    apply sumRange_congr
    intro j hj
    by_cases hji : j = m
    · subst hji; simp
    · rw [hoth j hj hji, hget j hj, hround]; simp [hji]
  rw [sumRange_ite _ _ _ hm, sumRange_const, ← hrsum, hrs] at hdiff
  push_cast at hdiff
  linarith

/-- `dump` never fails on a constructed model. -/
theorem C41_defined (solver : Option String) (T O : Arr3) (R : Arr4) (start : List ℚ) (discount : ℚ)
    (states actions observations : Option (List Name)) (values : String) (p : Pomdp)
    (h : Pomdp.mk' solver T O R start discount states actions observations values = .ok p) (fmt strNum : ℚ → String) :
    ∃ text, p.dump fmt strNum = .ok text := by
  obtain ⟨_, _, _, _, hg, _⟩ := (mk'_ok_iff ..).1 h
  obtain ⟨hS, hO⟩ := good_pos p hg
  obtain ⟨⟨_, _, _, s0, s1, s2, s3, s4, s5, s6, s7, s8, s9, s10⟩, _⟩ := (good_iff _).1 hg
  have h3 : ∀ A : Arr3, (0 < A.n0 → 0 < A.n2) → ∀ m ∈ A.toList, ∀ r ∈ m, r ≠ [] := by
    intro A hA m hm r hr
    simp only [Arr3.toList, List.mem_map, List.mem_range] at hm
    obtain ⟨i, hi, rfl⟩ := hm
    simp only [List.mem_map, List.mem_range] at hr
    obtain ⟨j, hj, rfl⟩ := hr
    have := hA (by omega)
    intro he
    have := congrArg List.length he
    simp at this
    omega
  have h4 : ∀ m ∈ p.R.toList, ∀ k ∈ m, ∀ r ∈ k, r ≠ [] := by
    intro m hm k hk r hr
    simp only [Arr4.toList, List.mem_map, List.mem_range] at hm
    obtain ⟨i, hi, rfl⟩ := hm
    simp only [List.mem_map, List.mem_range] at hk
    obtain ⟨j, hj, rfl⟩ := hk
    simp only [List.mem_map, List.mem_range] at hr
    obtain ⟨l, hl, rfl⟩ := hr
    have := hO (by omega)
    intro he
    have := congrArg List.length he
    simp at this
    omega
  obtain ⟨t1, e1⟩ := dump1_ok fmt p.start (by intro he; rw [he] at s0; simp at s0; omega)
  obtain ⟨t2, e2⟩ := dump3_ok fmt "T" (p.actions.map Name.toStr) p.T.toList (h3 p.T (fun _ => by omega))
  obtain ⟨t3, e3⟩ := dump3_ok fmt "O" (p.actions.map Name.toStr) p.O.toList (h3 p.O (fun h => by have := hO (by omega); omega))
  obtain ⟨t4, e4⟩ := dump4_ok fmt "R" (p.actions.map Name.toStr) (p.states.map Name.toStr) p.R.toList h4
  exact ⟨_, by unfold Pomdp.dump; simp only [e1, e2, e3, e4, bind, Except.bind, pure, Except.pure]; rfl⟩

/-! ### C42 -/

theorem randomizeArr_spec (A : Arr3) (hA : RowsNonneg A) (hn : 0 < A.n2) (x : ℚ) (hx : 0 < x) :
    ∀ i < A.n0, ∀ j < A.n1, (∀ k < A.n2, 0 < (Pomdp.randomizeArr A x).at_ i j k) ∧
      sumRange A.n2 ((Pomdp.randomizeArr A x).at_ i j) = 1 := by
  intro i hi j hj
  have h0 := hA i hi j hj
  have hpos : 0 < sumRange A.n2 (fun k => A.at_ i j k + x) := by
    rw [sumRange_add, sumRange_const]
    have := sumRange_nonneg _ _ h0
    have hnq : (0 : ℚ) < A.n2 := by exact_mod_cast hn
    have := mul_pos hnq hx
    linarith
  refine ⟨fun k hk => div_pos (by have := h0 k hk; linarith) hpos, ?_⟩
  show sumRange A.n2 (fun k => (A.at_ i j k + x) / _) = 1
  rw [sumRange_div]
  exact div_self (ne_of_gt hpos)

/-- `randomize(x)` with a positive `x` makes all the entries of `T` and `O` positive, with rows that sum to 1; the rest
does not change; afterwards no belief update is impossible. -/
theorem C42_positive (p : Pomdp) (nS nA nO : Nat) (hp : Shaped p nS nA nO) (hT : RowsNonneg p.T) (hO : RowsNonneg p.O)
    (hS0 : 0 < nS) (hO0 : 0 < nO) (x : ℚ) (hx : 0 < x) :
    Stochastic (p.randomize x) nS nA nO ∧
    (∀ a < nA, ∀ s < nS, (∀ s' < nS, 0 < (p.randomize x).T.at_ a s s') ∧ ∀ o < nO, 0 < (p.randomize x).O.at_ a s o) ∧
    (p.randomize x).R = p.R ∧ (p.randomize x).start = p.start ∧ (p.randomize x).discount = p.discount ∧
    (p.randomize x).states = p.states ∧ (p.randomize x).actions = p.actions ∧ (p.randomize x).observations = p.observations ∧
    ∀ a < nA, ∀ o < nO, ∀ b, IsDist nS b → ∃ b', (p.randomize x).beliefUpdate a o b = .ok b' := by
  have hsh := hp
  have hTr := randomizeArr_spec p.T hT (by obtain ⟨_, _, _, _, _, _, h, _⟩ := hp; omega) x hx
  have hOr := randomizeArr_spec p.O hO (by obtain ⟨_, _, _, _, _, _, _, _, _, h, _⟩ := hp; omega) x hx
  have hst : Stochastic (p.randomize x) nS nA nO :=
    ⟨hsh, fun i hi j hj => ⟨fun k hk => le_of_lt ((hTr i hi j hj).1 k hk), (hTr i hi j hj).2⟩,
      fun i hi j hj => ⟨fun k hk => le_of_lt ((hOr i hi j hj).1 k hk), (hOr i hi j hj).2⟩⟩
  obtain ⟨_, _, _, _, h0, h1, h2, h3, h4, h5, _⟩ := hsh
  have hpos : ∀ a < nA, ∀ s < nS, (∀ s' < nS, 0 < (p.randomize x).T.at_ a s s') ∧ ∀ o < nO, 0 < (p.randomize x).O.at_ a s o :=
    fun a ha s hs => ⟨fun s' hs' => (hTr a (by omega) s (by omega)).1 s' (by omega),
      fun o ho => (hOr a (by omega) s (by omega)).1 o (by omega)⟩
  refine ⟨hst, hpos, rfl, rfl, rfl, rfl, rfl, rfl, ?_⟩
  intro a ha o ho b hb
  have hz : obsProb (p.randomize x) nS a o b ≠ 0 := by
    apply ne_of_gt
    have hex : ∃ s < nS, 0 < b.getD s 0 := by
      apply (sumRange_pos_iff _ _ hb.2.1).1
      rw [hb.2.2]; norm_num
    obtain ⟨s, hs, hbs⟩ := hex
    apply (sumRange_pos_iff _ _ (jointProb_nonneg _ hst a o ha ho b hb.2.1)).2
    refine ⟨s, hs, mul_pos ((hpos a ha s hs).2 o ho) ?_⟩
    apply (sumRange_pos_iff _ _ _).2 ⟨s, hs, mul_pos hbs ((hpos a ha s hs).1 s hs)⟩
    intro i hi
    exact mul_nonneg (hb.2.1 i hi) (le_of_lt ((hpos a ha i hi).1 s hs))
  obtain ⟨b', h, _⟩ := C37_posterior _ nS nA nO hst a o ha ho b hb hz
  exact ⟨b', h⟩

/-- `randomize(0)` changes nothing when the rows sum to 1. -/
theorem C42_zero (p : Pomdp) (nS nA nO : Nat) (hp : Stochastic p nS nA nO) :
    (p.randomize 0).T.Same p.T ∧ (p.randomize 0).O.Same p.O ∧ (p.randomize 0).R = p.R ∧ (p.randomize 0).start = p.start := by
  obtain ⟨_, hT, hO⟩ := hp
  have key : ∀ A : Arr3, RowsStochastic A → (Pomdp.randomizeArr A 0).Same A := by
    intro A hA
    refine ⟨rfl, rfl, rfl, fun i hi j hj k _ => ?_⟩
    show (A.at_ i j k + 0) / sumRange A.n2 (fun k => A.at_ i j k + 0) = _
    simp only [add_zero]
    rw [(hA i hi j hj).2, div_one]
  exact ⟨key _ hT, key _ hO, rfl, rfl⟩

/-! ### C71 -/

theorem choice_spec (n : Nat) (f : Nat → ℚ) (h0 : ∀ i < n, 0 ≤ f i) (h1 : sumRange n f = 1) :
    (∀ u, 0 ≤ u → u < 1 → ∃ i, Pomdp.choice n ((List.range n).map f) u = .ok i ∧ i < n ∧ 0 < f i) ∧
    (∀ i < n, 0 < f i → ∃ u, 0 ≤ u ∧ u < 1 ∧ Pomdp.choice n ((List.range n).map f) u = .ok i) := by
  have hn : n ≠ 0 := by rintro rfl; simp [sumRange] at h1
  have hsum : ((List.range n).map f).sum = 1 := h1
  have hch : ∀ u, Pomdp.choice n ((List.range n).map f) u = .ok (Pomdp.searchCdf u ((List.range n).map f) 0) := by
    intro u
    unfold Pomdp.choice
    rw [if_neg (by simp), if_neg hn, if_neg (by simpa using h0), if_neg (by rw [hsum]; norm_num), hsum, mul_one]
  refine ⟨fun u hu hu1 => ?_, fun i hi hf => ?_⟩
  · obtain ⟨x, hx, hx0⟩ := searchCdf_spec ((List.range n).map f) u 0 hu (by rw [hsum]; linarith)
    refine ⟨_, hch u, ?_, ?_⟩
    · simpa using (List.getElem?_eq_some_iff.1 hx).1
    · have hlt : Pomdp.searchCdf u ((List.range n).map f) 0 < n := by simpa using (List.getElem?_eq_some_iff.1 hx).1
      simp [hlt] at hx
      rwa [hx]
  · obtain ⟨u, hu0, hu1, hu⟩ := searchCdf_reach ((List.range n).map f) (by simpa using h0) 0 i (f i) (by simp [hi]) hf
    exact ⟨u, hu0, by rw [hsum] at hu1; linarith, by rw [hch, hu]⟩

/-- Sampling a transition returns a state and an observation of positive probability and the reward of the transition,
and any such pair is returned for some random numbers. -/
theorem C71_transition (p : Pomdp) (nS nA nO : Nat) (hp : Stochastic p nS nA nO) (a s : Nat) (ha : a < nA) (hs : s < nS) :
    (∀ u v, 0 ≤ u → u < 1 → 0 ≤ v → v < 1 → ∃ s' o r, p.sampleTransition u v a s = .ok (s', o, r) ∧ s' < nS ∧ o < nO ∧
      0 < p.T.at_ a s s' ∧ 0 < p.O.at_ a s' o ∧ r = p.R.at_ a s s' o) ∧
    ∀ s' < nS, ∀ o < nO, 0 < p.T.at_ a s s' → 0 < p.O.at_ a s' o →
      ∃ u v, 0 ≤ u ∧ u < 1 ∧ 0 ≤ v ∧ v < 1 ∧ p.sampleTransition u v a s = .ok (s', o, p.R.at_ a s s' o) := by
  obtain ⟨⟨c1, _, c3, _, h0, h1, h2, h3, h4, h5, _⟩, hT, hO⟩ := hp
  have kT := hT a (by omega) s (by omega)
  have e1 : p.nStates = p.T.n2 := by simp only [Pomdp.nStates, c1, h2]
  have e2 : p.nObservations = p.O.n2 := by simp only [Pomdp.nObservations, c3, h5]
  obtain ⟨f1, f2⟩ := choice_spec p.T.n2 (p.T.at_ a s) kT.1 kT.2
  unfold Pomdp.sampleTransition
  rw [e1, e2]
  simp only [show ¬ (p.T.n0 ≤ a ∨ p.T.n1 ≤ s) by omega, if_false]
  constructor
  · intro u v hu hu1 hv hv1
    obtain ⟨s', hs', hlt, hpos⟩ := f1 u hu hu1
    have kO := hO a (by omega) s' (by omega)
    obtain ⟨o, ho, holt, hopos⟩ := (choice_spec p.O.n2 (p.O.at_ a s') kO.1 kO.2).1 v hv hv1
    exact ⟨s', o, _, by simp only [hs', ho, bind, Except.bind, pure, Except.pure], by omega, by omega, hpos, hopos, rfl⟩
  · intro s' hs' o ho hpos hopos
    obtain ⟨u, hu, hu1, hcu⟩ := f2 s' (by omega) hpos
    have kO := hO a (by omega) s' (by omega)
    obtain ⟨v, hv, hv1, hcv⟩ := (choice_spec p.O.n2 (p.O.at_ a s') kO.1 kO.2).2 o (by omega) hopos
    exact ⟨u, v, hu, hu1, hv, hv1, by simp only [hcu, hcv, bind, Except.bind, pure, Except.pure]⟩

/-- Sampling a start state returns a state of positive probability, and any of them. -/
theorem C71_start (p : Pomdp) (nS nA nO : Nat) (hp : Shaped p nS nA nO) (hb : IsDist nS p.start) :
    (∀ u, 0 ≤ u → u < 1 → ∃ s, p.sampleStart u = .ok s ∧ s < nS ∧ 0 < p.start.getD s 0) ∧
    ∀ s < nS, 0 < p.start.getD s 0 → ∃ u, 0 ≤ u ∧ u < 1 ∧ p.sampleStart u = .ok s := by
  have hl : p.start = (List.range nS).map (fun i => p.start.getD i 0) := by
    apply List.ext_getElem
    · simp [hb.1]
    · intro i h1 h2
      simp [h1]
  have hn : p.nStates = nS := hp.1
  have := choice_spec nS (fun i => p.start.getD i 0) hb.2.1 hb.2.2
  unfold Pomdp.sampleStart
  rw [hn]
  rw [← hl] at this
  exact this

/-- A constructed model need not be sampled without error: the tolerance of the constructor is larger than that of the
random choice. -/
theorem C71_false_tolerance : ∃ (T O : Arr3) (R : Arr4) (start : List ℚ) (p : Pomdp),
    Pomdp.mk' (some "pomdp-solve") T O R start 1 none none none "reward" = .ok p ∧ (∀ x ∈ p.start, 0 ≤ x) ∧
    ∀ u, p.sampleStart u = .error .valueError := by
  refine ⟨⟨1, 1, 1, fun _ _ _ => 1⟩, ⟨1, 1, 1, fun _ _ _ => 1⟩, ⟨1, 1, 1, 1, fun _ _ _ _ => 0⟩, [1 + 1 / 1000000], ?_⟩
  have h : ∃ p, Pomdp.mk' (some "pomdp-solve") ⟨1, 1, 1, fun _ _ _ => 1⟩ ⟨1, 1, 1, fun _ _ _ => 1⟩
      ⟨1, 1, 1, 1, fun _ _ _ _ => 0⟩ [1 + 1 / 1000000] 1 none none none "reward" = .ok p := by
    rw [C39_accepts]
    refine ⟨Or.inl rfl, by simp, by norm_num, le_rfl, 1, 1, 1, by simp, by simp, by simp, rfl, ⟨rfl, rfl, rfl⟩, ⟨rfl, rfl, rfl⟩,
      ⟨rfl, rfl, rfl, rfl⟩, ?_, ?_⟩
    · norm_num [NearOne, abs_of_nonneg]
    · intro a _ s _
      norm_num [NearOne, sumRange, List.range_succ]
  obtain ⟨p, hp⟩ := h
  obtain ⟨_, _, h2, _, _, _, _, h3, _⟩ := C39_stored _ _ _ _ _ _ _ _ _ _ _ hp
  refine ⟨p, hp, by rw [h2]; norm_num, fun u => ?_⟩
  unfold Pomdp.sampleStart Pomdp.choice
  have hn : p.nStates = 1 := by unfold Pomdp.nStates; rw [h3]; rfl
  rw [hn, h2, if_neg (by simp), if_neg (by simp), if_neg (by norm_num), if_pos (by norm_num [abs_of_nonneg])]

/-! ### A concrete model -/

/-- The tiger problem: the state says where the tiger is, the actions are listening and opening a door. -/
def tiger : Pomdp :=
  ⟨.list [.str "left", .str "right"], .list [.str "listen", .str "open-left", .str "open-right"], .count 2,
    ⟨3, 2, 2, fun a s s' => if a = 0 then (if s = s' then 1 else 0) else 1 / 2⟩,
    ⟨3, 2, 2, fun a s o => if a = 0 then (if s = o then 17 / 20 else 3 / 20) else 1 / 2⟩,
    ⟨3, 2, 2, 2, fun a s _ _ => if a = 0 then -1 else if a = s + 1 then -100 else 10⟩, [1 / 2, 1 / 2], 95 / 100, "pomdp-solve"⟩

theorem tiger_stochastic : Stochastic tiger 2 3 2 := by
  refine ⟨⟨rfl, rfl, rfl, rfl, rfl, rfl, rfl, rfl, rfl, rfl, rfl, rfl, rfl, rfl⟩, ?_, ?_⟩
  · intro i _ j hj
    refine ⟨fun k _ => ?_, ?_⟩
    · simp only [tiger]; split_ifs <;> norm_num
    · have hj : j < 2 := hj
      interval_cases j <;> by_cases h : i = 0 <;> norm_num [tiger, sumRange, h, List.range_succ]
  · intro i _ j hj
    refine ⟨fun k _ => ?_, ?_⟩
    · simp only [tiger]; split_ifs <;> norm_num
    · have hj : j < 2 := hj
      interval_cases j <;> by_cases h : i = 0 <;> norm_num [tiger, sumRange, h, List.range_succ]

/-- Non-vacuity of C37, C38, C42 and C71: the tiger problem, listening in the uniform belief. -/
example : Stochastic tiger 2 3 2 ∧ IsDist 2 tiger.start ∧ obsProb tiger 2 0 0 tiger.start ≠ 0 ∧
    updates tiger tiger.start [(0, 0), (0, 0)] = .ok [289 / 298, 9 / 298] ∧
    histProb tiger 2 tiger.start [(0, 0), (0, 0)] = 149 / 400 := by
  refine ⟨tiger_stochastic, ⟨rfl, ?_, ?_⟩, ?_, ?_, ?_⟩
  · intro i hi
    interval_cases i <;> norm_num [tiger]
  · norm_num [tiger, sumRange, List.range_succ]
  · norm_num [tiger, obsProb, jointProb, sumRange, List.range_succ]
  · decide +kernel
  · decide +kernel

/-- Non-vacuity of the impossible case of C37. -/
example : ∃ p : Pomdp, Stochastic p 2 1 2 ∧ IsDist 2 p.start ∧ obsProb p 2 0 1 p.start = 0 := by
  refine ⟨⟨.count 2, .count 1, .count 2, ⟨1, 2, 2, fun _ s s' => if s = s' then 1 else 0⟩,
    ⟨1, 2, 2, fun _ s o => if s = o then 1 else 0⟩, ⟨1, 2, 2, 2, fun _ _ _ _ => 0⟩, [1, 0], 1, ""⟩,
    ⟨⟨rfl, rfl, rfl, rfl, rfl, rfl, rfl, rfl, rfl, rfl, rfl, rfl, rfl, rfl⟩, ?_, ?_⟩, ⟨rfl, ?_, ?_⟩, ?_⟩
  · intro i _ j hj
    have hj : j < 2 := hj
    refine ⟨fun k _ => ?_, ?_⟩
    · simp only []; split_ifs <;> norm_num
    · interval_cases j <;> norm_num [sumRange, List.range_succ]
  · intro i _ j hj
    have hj : j < 2 := hj
    refine ⟨fun k _ => ?_, ?_⟩
    · simp only []; split_ifs <;> norm_num
    · interval_cases j <;> norm_num [sumRange, List.range_succ]
  · intro i hi
    interval_cases i <;> norm_num
  · norm_num [sumRange, List.range_succ]
  · norm_num [obsProb, jointProb, sumRange, List.range_succ]

/-- Non-vacuity of C39 and C40: the tiger problem is accepted, with all names and three actions. -/
theorem tiger_constructed : ∃ p, Pomdp.mk' (some "pomdp-solve") tiger.T tiger.O tiger.R tiger.start tiger.discount
    (some tiger.states) (some tiger.actions) (some tiger.observations) "reward" = .ok p ∧ 0 < tiger.T.n0 := by
  have h : ∃ p, Pomdp.mk' (some "pomdp-solve") tiger.T tiger.O tiger.R tiger.start tiger.discount
      (some tiger.states) (some tiger.actions) (some tiger.observations) "reward" = .ok p := by
    rw [C39_accepts]
    obtain ⟨_, hT, hO⟩ := tiger_stochastic
    refine ⟨Or.inl rfl, by simp, by norm_num [tiger], by norm_num [tiger], 2, 3, 2, ?_, ?_, ?_, rfl, ⟨rfl, rfl, rfl⟩, ⟨rfl, rfl, rfl⟩,
      ⟨rfl, rfl, rfl, rfl⟩, by norm_num [NearOne, tiger], ?_⟩
    · intro l hl; cases hl; exact ⟨rfl, by decide⟩
    · intro l hl; cases hl; exact ⟨rfl, by decide⟩
    · intro l hl; cases hl; exact ⟨rfl, by decide⟩
    · intro a ha s hs
      have h1 := (hT a ha s hs).2
      have h2 := (hO a ha s hs).2
      constructor
      · rw [show sumRange 2 (tiger.T.at_ a s) = 1 from h1]; norm_num [NearOne]
      · rw [show sumRange 2 (tiger.O.at_ a s) = 1 from h2]; norm_num [NearOne]
  obtain ⟨p, hp⟩ := h
  exact ⟨p, hp, by decide⟩

/-- A model without actions is accepted (hypotheses of `C40_no_action`). -/
example : ∃ p, Pomdp.mk' (some "pomdp-solve") ⟨0, 1, 1, fun _ _ _ => 0⟩ ⟨0, 1, 1, fun _ _ _ => 0⟩ ⟨0, 1, 1, 1, fun _ _ _ _ => 0⟩
    [1] 1 none none none "reward" = .ok p := by
  rw [C39_accepts]
  exact ⟨Or.inl rfl, by simp, by norm_num, by norm_num, 1, 0, 1, by simp, by simp, by simp, rfl, ⟨rfl, rfl, rfl⟩,
    ⟨rfl, rfl, rfl⟩, ⟨rfl, rfl, rfl, rfl⟩, by norm_num [NearOne], by simp⟩

/-- The solver file changes when the names were not given: the number of observations of a model with default names is
written in the first file, and their list in the second. -/
theorem C40_false_dump : ∃ p q : Pomdp, Pomdp.mk' (some "pomdp-solve") tiger.T tiger.O tiger.R tiger.start tiger.discount none none none
      "reward" = .ok p ∧ Pomdp.fromDict (some "pomdp-solve") p.toDict = .ok q ∧
      p.dump (fun _ => "") (fun _ => "") ≠ q.dump (fun _ => "") (fun _ => "") := by
  have hacc : ∃ p, Pomdp.mk' (some "pomdp-solve") tiger.T tiger.O tiger.R tiger.start tiger.discount none none none
      "reward" = .ok p := by
    rw [C39_accepts]
    obtain ⟨_, hT, hO⟩ := tiger_stochastic
    refine ⟨Or.inl rfl, by simp, by norm_num [tiger], by norm_num [tiger], 2, 3, 2, by simp, by simp, by simp, rfl, ⟨rfl, rfl, rfl⟩,
      ⟨rfl, rfl, rfl⟩, ⟨rfl, rfl, rfl, rfl⟩, by norm_num [NearOne, tiger], ?_⟩
    intro a ha s hs
    have h1 := (hT a ha s hs).2
    have h2 := (hO a ha s hs).2
    constructor
    · rw [show sumRange 2 (tiger.T.at_ a s) = 1 from h1]; norm_num [NearOne]
    · rw [show sumRange 2 (tiger.O.at_ a s) = 1 from h2]; norm_num [NearOne]
  obtain ⟨p, hp⟩ := hacc
  obtain ⟨q, hq, _⟩ := C40_roundtrip _ _ _ _ _ _ _ _ _ _ _ hp (by decide)
  refine ⟨p, q, hp, hq, ?_⟩
  have key : ((Pomdp.mk' (some "pomdp-solve") tiger.T tiger.O tiger.R tiger.start tiger.discount none none none "reward").toOption.any
      fun p => (Pomdp.fromDict (some "pomdp-solve") p.toDict).toOption.any fun q =>
        decide ((p.dump (fun _ => "") (fun _ => "")).toOption ≠ (q.dump (fun _ => "") (fun _ => "")).toOption)) = true := by
    decide +kernel
  rw [hp] at key
  simp only [Except.toOption, Option.any_some] at key
  rw [hq] at key
  simp only [Option.any_some, Except.toOption] at key
  intro he
  rw [he] at key
  exact of_decide_eq_true key rfl

/-- Non-vacuity of C41: a row of thirds. -/
example : IsDist 3 [1 / 3, 1 / 3, 1 / 3] ∧ dumpRow [1 / 3, 1 / 3, 1 / 3] = .ok [33334 / 100000, 33333 / 100000, 33333 / 100000] := by
  refine ⟨⟨rfl, ?_, ?_⟩, ?_⟩
  · intro i hi
    interval_cases i <;> norm_num
  · norm_num [sumRange, List.range_succ]
  · decide +kernel

end Verif
