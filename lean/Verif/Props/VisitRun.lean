import Verif.Proof.VisitRun

/-! # C107: the policy built by `visit` runs like the belief runner -/

set_option linter.unusedSectionVars false
set_option linter.unusedSimpArgs false

namespace Verif
open Spec

/-- The run of a belief runner from the start is what following the policy from the exact beliefs gives. -/
theorem C107_belief (g : GraphPolicy) (p : Pomdp) (nS nA nO : Nat) (hp : Stochastic p nS nA nO) (hf : Fits g p nS) (hd : NamesDistinct p)
    (hs : IsDist nS p.start) (r0 : BRunner) : ∃ r, bReset g p.start r0 = (.ok (), r) ∧
      ∀ w as e, runBelief g p w r = (as, e) ↔ BeliefRun g p nS p.start w as e := by
  obtain ⟨r, h1, h2, h3⟩ := C46_start g p nS hf hs r0
  refine ⟨r, h1, fun w as e => ⟨fun h => ?_, fun h => beliefRun_run g p nS nA nO hp hf hd h r h3 h2⟩⟩
  obtain ⟨as', e', hr⟩ := beliefRun_total g p nS nA nO hp hf hd hs w p.start ⟨[], [], .nil _⟩
  rw [beliefRun_run g p nS nA nO hp hf hd hr r h3 h2] at h
  cases h
  exact hr

/-- **C107, partial** (for beliefs that are apart, and a limit that is not reached): the nodes of the policy built by `visit` are exactly the beliefs that
can be reached, each once, and it runs exactly like the belief runner: the same actions and the same exceptions for all sequences of observations. -/
theorem C107_partial (g : GraphPolicy) (p : Pomdp) (nS nA nO : Nat) (hp : Stochastic p nS nA nO) (hf : Fits g p nS) (hd : NamesDistinct p)
    (hs : IsDist nS p.start) (ha : Apart g p nS) (maxStates : Nat) (L : List (List ℚ)) (hL : ∀ b, Reached g p nS b → b ∈ L) (hlen : L.length ≤ maxStates) :
    ∃ q y, (∀ fuel, maxStates + nO + 1 ≤ fuel → visit g p maxStates fuel = .ok (some (q, y))) ∧
      (∀ b, Reached g p nS b ↔ b ∈ q.values) ∧ q.values.Nodup ∧
      (∀ w as e, runPolicy q q.init w = (as, e) ↔ BeliefRun g p nS p.start w as e) ∧
      ∀ r0 r, bReset g p.start r0 = (.ok (), r) → ∀ w, runPolicy q q.init w = runBelief g p w r := by
  obtain ⟨q, y, hv, h1, h2, h3, h4, h5, h6, h7, h8, h9, h10, k, hk, h11, h12, h13⟩ := C49_visit g p nS nA nO hp hf hd hs maxStates
  have hO : p.observations.length = nO := hp.1.2.2.1
  have hreach := visit_reached g p nS nA nO hp hf hd hs (hv _ (le_refl _))
  obtain ⟨_, _, _, _, hla⟩ := visit_result g p (hv _ (le_refl _))
  have hnodup : q.values.Nodup := by
    rw [List.nodup_iff_getElem?_ne_getElem?]
    intro i j hij hj he
    have := h8 i j q.values[i] q.values[j] (by omega) (List.getElem?_eq_getElem (by omega)) (List.getElem?_eq_getElem hj)
    rw [List.getElem?_eq_getElem (show i < q.values.length by omega), List.getElem?_eq_getElem hj] at he
    rw [Option.some.inj he, distSq_self] at this
    norm_num at this
  have hsub : q.values.length ≤ L.length := by
    refine (List.subperm_of_subset hnodup fun b hb => hL b (hreach b hb)).length_le
  have hkl : k = q.values.length := by
    rcases h11 with h | h
    · exact h
    · omega
  have hq : ExactGraph g p nS nO q := by
    refine ⟨h1, hla, h4, h5, h9, ?_, ?_⟩
    · intro i io b b' hi hpost hio
      have hb := hreach b (List.mem_of_getElem? hi)
      obtain ⟨o, ho⟩ : ∃ o, p.observations[io]? = some o := ⟨_, List.getElem?_eq_getElem (show io < p.observations.length by omega)⟩
      have hb' : Reached g p nS b' := by
        obtain ⟨hist, w', h⟩ := hb
        exact follows_snoc g p nS h ho hpost
      cases he : entry q.transitions i io with
      | none =>
        exact absurd ⟨b', hpost⟩ ((h12 i io b (by rw [hkl]; exact (List.getElem?_eq_some_iff.1 hi).1) hio hi).1 he)
      | some j =>
        obtain ⟨n, c, b'', e1, e2, e3, e4⟩ := h10 i io b j hi he
        have := policyPosterior_unique g p nS hd e3 hpost
        subst this
        refine ⟨n, by rw [e1], ?_⟩
        by_cases hc : c = b''
        · rw [← hc]; exact e2
        · exact absurd e4 (not_lt.2 (ha c b'' (hreach c (List.mem_of_getElem? e2)) hb' hc))
    · intro i io b hi hio hno
      exact (h12 i io b (by rw [hkl]; exact (List.getElem?_eq_some_iff.1 hi).1) hio hi).2 hno
  have hrun : ∀ w as e, runPolicy q q.init w = (as, e) ↔ BeliefRun g p nS p.start w as e := by
    intro w as e
    have key : ∀ as e, BeliefRun g p nS p.start w as e → runPolicy q q.init w = (as, e) := by
      intro as e h
      rw [h2]
      exact exact_run g p nS nO hq hO hd h 0 h3
    refine ⟨fun h => ?_, key as e⟩
    obtain ⟨as', e', hr⟩ := beliefRun_total g p nS nA nO hp hf hd hs w p.start ⟨[], [], .nil _⟩
    rw [key _ _ hr] at h
    cases h
    exact hr
  refine ⟨q, y, hv, fun b => ⟨fun hb => ?_, hreach b⟩, hnodup, hrun, ?_⟩
  · obtain ⟨hist, w, hb⟩ := hb
    have : ∀ {b0 b : List ℚ} {hist : List (Nat × Nat)} {w : List Name}, Follows g p nS b0 hist w b → b0 ∈ q.values → b ∈ q.values := by
      intro b0 b hist w h
      induction h with
      | nil => exact id
      | @cons b b1 b2 act a o on hist w k1 k2 k3 k4 _ ih =>
        intro hmem
        obtain ⟨i, hi⟩ := List.mem_iff_getElem?.1 hmem
        obtain ⟨n, -, hn⟩ := hq.next i o b b1 hi ⟨act, a, k1, k2, k4⟩ (by rw [← hO]; exact (List.getElem?_eq_some_iff.1 k3).1)
        exact ih (List.mem_of_getElem? hn)
    exact this hb (List.mem_of_getElem? h3)
  · intro r0 r hr w
    obtain ⟨r', hr', hb⟩ := C107_belief g p nS nA nO hp hf hd hs r0
    rw [hr] at hr'
    cases hr'
    have := (hb w (runBelief g p w r).1 (runBelief g p w r).2).1 rfl
    rw [(hrun w _ _).2 this]

/-! ### Counterexamples -/

/-- A model where something goes wrong slowly: nothing is observed until the alarm. -/
def alarmModel : Pomdp :=
  ⟨.list [.str "fine", .str "wrong", .str "alarm"], .list [.str "wait"], .list [.str "nothing", .str "alarm"],
    ⟨1, 3, 3, fun _ s s' => if s = 0 then (if s' = 0 then 199 / 200 else if s' = 1 then 1 / 200 else 0) else if s' = 2 then 1 else 0⟩,
    ⟨1, 3, 2, fun _ s o => if s = 2 then (if o = 1 then 1 else 0) else if o = 0 then 1 else 0⟩,
    ⟨1, 3, 3, 2, fun _ _ _ _ => 0⟩, [1, 0, 0], 1, "pomdp-solve"⟩

/-- Its only policy. -/
def alarmPolicy : GraphPolicy := ⟨[.str "wait"], [.str "nothing", .str "alarm"], [[some 0, some 0]], [[0, 0, 0]], 0⟩

/-- **C107 is false**: beliefs that are near are taken for one, so that the policy raises `Impossible` for a possible observation. -/
theorem C107_false_near : ∃ (g : GraphPolicy) (p : Pomdp) (q : GraphPolicy) (y : Aux) (r : BRunner) (w : List Name),
    Stochastic p 3 1 2 ∧ Fits g p 3 ∧ NamesDistinct p ∧ IsDist 3 p.start ∧ visit g p 100 200 = .ok (some (q, y)) ∧ bReset g p.start ⟨[], 0⟩ = (.ok (), r) ∧
      (runBelief g p w r).2 = none ∧ (runPolicy q q.init w).2 = some .impossible := by
  refine ⟨alarmPolicy, alarmModel, ⟨[.str "wait"], [.str "nothing", .str "alarm"], [[some 0, none]], [[1, 0, 0]], 0⟩,
    ⟨[[1, 0, 0]], [], [[some 0, none]], [.str "wait"]⟩, ⟨[1, 0, 0], 0⟩, [.str "nothing", .str "alarm"], ?_, ?_, ⟨by decide +kernel, by decide +kernel⟩, ?_, ?_, ?_, ?_, ?_⟩
  · refine ⟨⟨rfl, rfl, rfl, rfl, rfl, rfl, rfl, rfl, rfl, rfl, rfl, rfl, rfl, rfl⟩, ?_, ?_⟩
    · intro i _ j hj
      refine ⟨fun k _ => ?_, ?_⟩
      · simp only [alarmModel]; split_ifs <;> norm_num
      · have hj : j < 3 := hj
        interval_cases j <;> norm_num [alarmModel, sumRange, List.range_succ]
    · intro i _ j hj
      refine ⟨fun k _ => ?_, ?_⟩
      · simp only [alarmModel]; split_ifs <;> norm_num
      · have hj : j < 3 := hj
        interval_cases j <;> norm_num [alarmModel, sumRange, List.range_succ]
  · exact ⟨by simp [alarmPolicy], rfl, by decide, by decide⟩
  · refine ⟨rfl, ?_, ?_⟩
    · intro i hi
      interval_cases i <;> norm_num [alarmModel]
    · norm_num [alarmModel, sumRange, List.range_succ]
  · decide +kernel
  · decide +kernel
  · decide +kernel
  · decide +kernel

/-- **C107 is false** when the limit is reached: the nodes that have not been explored refuse all observations. -/
theorem C107_false_limit : ∃ (q : GraphPolicy) (y : Aux) (r : BRunner) (w : List Name), visit tigerPolicy tiger 1 100 = .ok (some (q, y)) ∧
    bReset tigerPolicy tiger.start ⟨[], 0⟩ = (.ok (), r) ∧ (runBelief tigerPolicy tiger w r).2 = none ∧ (runPolicy q q.init w).2 = some .impossible := by
  have h : (match visit tigerPolicy tiger 1 100 with
    | .ok (some (q, _)) => decide ((runPolicy q q.init [.int 0, .int 0]).2 = some .impossible)
    | _ => false) = true := by decide +kernel
  cases hv : visit tigerPolicy tiger 1 100 with
  | error e => rw [hv] at h; exact absurd h (by simp)
  | ok x =>
    cases x with
    | none => rw [hv] at h; exact absurd h (by simp)
    | some x =>
      obtain ⟨q, y⟩ := x
      rw [hv] at h
      exact ⟨q, y, ⟨[1 / 2, 1 / 2], 0⟩, [.int 0, .int 0], rfl, by decide +kernel, by decide +kernel, of_decide_eq_true h⟩

/-- **C107 is false** for `reset(belief)`: the values of the nodes are the beliefs themselves, and the node of the best product with a belief is not the
node of this belief; it may have another action. -/
theorem C107_false_reset : ∃ (q : GraphPolicy) (y : Aux) (b : List ℚ) (i j : Nat), visit tigerPolicy tiger 100 200 = .ok (some (q, y)) ∧
    q.values[i]? = some b ∧ nodeFromBelief q.values b = .ok j ∧ q.actions[i]? = some (.str "listen") ∧ q.actions[j]? = some (.str "open-right") := by
  have h : (match visit tigerPolicy tiger 100 200 with
    | .ok (some (q, _)) => decide (q.values[1]? = some [17 / 20, 3 / 20] ∧ nodeFromBelief q.values [17 / 20, 3 / 20] = .ok 3 ∧
        q.actions[1]? = some (.str "listen") ∧ q.actions[3]? = some (.str "open-right"))
    | _ => false) = true := by decide +kernel
  cases hv : visit tigerPolicy tiger 100 200 with
  | error e => rw [hv] at h; exact absurd h (by simp)
  | ok x =>
    cases x with
    | none => rw [hv] at h; exact absurd h (by simp)
    | some x =>
      obtain ⟨q, y⟩ := x
      rw [hv] at h
      exact ⟨q, y, _, 1, 3, rfl, of_decide_eq_true h⟩

/-! ### Non-vacuity -/

/-- A list of beliefs that contains the start and is closed contains all the beliefs that can be reached. -/
theorem reached_mem (g : GraphPolicy) (p : Pomdp) (nS nA nO : Nat) (hp : Stochastic p nS nA nO) (hf : Fits g p nS) (hd : NamesDistinct p)
    (hs : IsDist nS p.start) (L : List (List ℚ)) (h0 : p.start ∈ L)
    (hc : ∀ b ∈ L, ∀ o ∈ p.observations, (bStep g p o (bReset g b ⟨[], 0⟩).2).2.belief ∈ L) : ∀ b, Reached g p nS b → b ∈ L := by
  rintro b ⟨hist, w, h⟩
  have : ∀ {b0 b : List ℚ} {hist : List (Nat × Nat)} {w : List Name}, Follows g p nS b0 hist w b → IsDist nS b0 → b0 ∈ L → b ∈ L := by
    intro b0 b hist w h
    induction h with
    | nil => exact fun _ => id
    | @cons b b1 b2 act a o on hist w k1 k2 k3 k4 _ ih =>
      intro hb hmem
      obtain ⟨n, e1, m, e2, e3⟩ := bReset_ok g p nS hf b hb.1 ⟨[], 0⟩
      obtain ⟨r1, q1, q2, q3⟩ := (C46_step g p nS nA nO hp hf hd ⟨b, n⟩ ⟨hb, m, e2, e3⟩ o on k3).1 ⟨b1, act, a, k1, k2, k4⟩
      have := policyPosterior_unique g p nS hd q3 ⟨act, a, k1, k2, k4⟩
      have hh := hc b hmem on (List.mem_of_getElem? k3)
      rw [e1, q1] at hh
      rw [← this] at ih
      exact ih q2.1 hh
  exact this h hs h0

/-- The beliefs that can be reached in the tiger problem. -/
def tigerBeliefs : List (List ℚ) := [[1 / 2, 1 / 2], [17 / 20, 3 / 20], [3 / 20, 17 / 20], [289 / 298, 9 / 298], [9 / 298, 289 / 298]]

theorem tiger_reached : ∀ b, Reached tigerPolicy tiger 2 b → b ∈ tigerBeliefs :=
  reached_mem _ _ 2 3 2 tiger_stochastic tigerPolicy_fits ⟨by decide, by decide⟩ tiger_start _ (by decide +kernel) (by decide +kernel)

theorem tiger_apart : Apart tigerPolicy tiger 2 := by
  have h : ∀ b ∈ tigerBeliefs, ∀ c ∈ tigerBeliefs, b ≠ c → (1 / 100) ^ 2 ≤ distSq 2 b c := by decide +kernel
  exact fun b c hb hc => h b (tiger_reached b hb) c (tiger_reached c hc)

/-- Non-vacuity: five beliefs can be reached in the tiger problem, and a run of the visited policy. -/
example : ∃ q y, visit tigerPolicy tiger 5 8 = .ok (some (q, y)) ∧ (∀ b, Reached tigerPolicy tiger 2 b ↔ b ∈ q.values) ∧
    BeliefRun tigerPolicy tiger 2 tiger.start [.int 0, .int 1, .int 0, .int 0] [.str "listen", .str "listen", .str "listen", .str "listen", .str "open-right"] none := by
  obtain ⟨q, y, h1, h2, h3, h4, h5⟩ := C107_partial tigerPolicy tiger 2 3 2 tiger_stochastic tigerPolicy_fits ⟨by decide, by decide⟩ tiger_start tiger_apart 5
    tigerBeliefs tiger_reached (by decide)
  obtain ⟨r, k1, k2⟩ := C107_belief tigerPolicy tiger 2 3 2 tiger_stochastic tigerPolicy_fits ⟨by decide, by decide⟩ tiger_start ⟨[], 0⟩
  refine ⟨q, y, h1 8 (by decide), h2, (k2 _ _ _).1 ?_⟩
  have : bReset tigerPolicy tiger.start ⟨[], 0⟩ = (.ok (), ⟨[1 / 2, 1 / 2], 0⟩) := by decide +kernel
  rw [this] at k1
  cases k1
  decide +kernel

end Verif
