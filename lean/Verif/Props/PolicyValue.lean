import Verif.Proof.PolicyValue

/-! Properties of the values of policies, `lib/pomdp.py:380-480` (C98). -/

set_option linter.unusedSectionVars false
set_option linter.unusedSimpArgs false

namespace Verif
open Spec

/-- C98: the expected return of an agent is well defined. -/
theorem C98_unique (p : Pomdp) (nS nO : Nat) (hd : NamesDistinct p) {μ : Type} (A : Agent μ) (k : Nat) (q : μ) (s : Nat) (v w : ℚ)
    (h : ExpectedReturn p nS nO A k q s v) (h' : ExpectedReturn p nS nO A k q s w) : v = w := expectedReturn_unique hd h h'

/-- C98: `GraphPolicyRunner` never fails on a possible observation, and from the node `i` and the state `s` it earns the value of the node in that
state, up to what comes after `k` actions and the error of the values. -/
theorem C98_graph (p : Pomdp) (nS nA nO : Nat) (hp : Stochastic p nS nA nO) (hd : NamesDistinct p) (g : GraphPolicy) (ε B : ℚ)
    (hg : Solves p nS nO g ε) (hγ : 0 ≤ p.discount) (hB : ∀ i < g.actions.length, ∀ s < nS, |nodeValue g i s| ≤ B) (k i s : Nat)
    (hi : i < g.actions.length) (hs : s < nS) :
    ∃ v, ExpectedReturn p nS nO (graphAgent g) k (i : Int) s v ∧ |v - nodeValue g i s| ≤ remainder p ε B k :=
  graph_value hp hd hg hγ hB k i hi s hs

/-- C98: a policy started at a belief (`get_node_from_belief`) earns at least what any of its nodes promises there. -/
theorem C98_start (p : Pomdp) (nS nA nO : Nat) (hp : Stochastic p nS nA nO) (hd : NamesDistinct p) (g : GraphPolicy) (ε B : ℚ)
    (hg : Solves p nS nO g ε) (hγ : 0 ≤ p.discount) (hB : ∀ i < g.actions.length, ∀ s < nS, |nodeValue g i s| ≤ B) (b : List ℚ) (hb : IsDist nS b)
    (k : Nat) : ∃ n : Nat, nodeFromBelief g.values b = .ok n ∧ ∃ v : Nat → ℚ,
      (∀ s < nS, ExpectedReturn p nS nO (graphAgent g) k (n : Int) s (v s)) ∧
      ∀ i < g.actions.length, ∑ s ∈ Finset.range nS, b.getD s 0 * nodeValue g i s - remainder p ε B k ≤ ∑ s ∈ Finset.range nS, b.getD s 0 * v s := by
  obtain ⟨n, h1, h2⟩ := nodeFromBelief_spec g.values b hg.fits.1 (fun v hv => by rw [hg.fits.2.2.1 v hv, hb.1])
  have hn : n < g.actions.length := by rw [← hg.fits.2.1]; exact h2.1
  refine ⟨n, h1, ?_⟩
  have hex : ∀ s, ∃ v, s < nS → ExpectedReturn p nS nO (graphAgent g) k (n : Int) s v ∧ |v - nodeValue g n s| ≤ remainder p ε B k := by
    intro s
    by_cases hs : s < nS
    · obtain ⟨v, h⟩ := graph_value hp hd hg hγ hB k n hn s hs
      exact ⟨v, fun _ => h⟩
    · exact ⟨0, fun h => absurd h hs⟩
  choose v hv using hex
  refine ⟨v, fun s hs => (hv s hs).1, fun i hi => ?_⟩
  have h3 : ∑ s ∈ Finset.range nS, b.getD s 0 * nodeValue g i s ≤ ∑ s ∈ Finset.range nS, b.getD s 0 * nodeValue g n s := by
    rw [← expected_eq g i b hb.1, ← expected_eq g n b hb.1]
    exact (h2.2 i (by rw [hg.fits.2.1]; exact hi)).1
  have h4 : ∑ s ∈ Finset.range nS, b.getD s 0 * nodeValue g n s ≤ ∑ s ∈ Finset.range nS, b.getD s 0 * (v s + remainder p ε B k) := by
    refine Finset.sum_le_sum fun s hs => ?_
    rw [Finset.mem_range] at hs
    exact mul_le_mul_of_nonneg_left (by have := (abs_le.1 (hv s hs).2).1; linarith) (hb.2.1 s hs)
  simp only [mul_add] at h4
  rw [Finset.sum_add_distrib, ← Finset.sum_mul, ← sumRange_eq_sum nS fun s => b.getD s 0, hb.2.2, one_mul] at h4
  linarith

/-- C98: `GraphPolicyBeliefRunner`, which chooses the best node again after every observation, never fails on a possible observation and earns at
least what any of the nodes promises at its belief, up to what comes after `k` actions and the error of the values. -/
theorem C98_belief (p : Pomdp) (nS nA nO : Nat) (hp : Stochastic p nS nA nO) (hd : NamesDistinct p) (g : GraphPolicy) (ε B : ℚ)
    (hg : Solves p nS nO g ε) (hγ : 0 ≤ p.discount) (hB : ∀ i < g.actions.length, ∀ s < nS, |nodeValue g i s| ≤ B) (k : Nat)
    (b : List ℚ) (hb : IsDist nS b) (r0 : BRunner) : ∃ r, bReset g b r0 = (.ok (), r) ∧ ∃ v : Nat → ℚ,
      (∀ s < nS, b.getD s 0 ≠ 0 → ExpectedReturn p nS nO (beliefAgent g p) k r s (v s)) ∧
      ∀ i < g.actions.length, ∑ s ∈ Finset.range nS, b.getD s 0 * nodeValue g i s - remainder p ε B k ≤ ∑ s ∈ Finset.range nS, b.getD s 0 * v s := by
  obtain ⟨n, h1, m, h2, h3⟩ := bReset_ok g p nS hg.fits b hb.1 r0
  exact ⟨_, h1, belief_value hp hd hg hγ hB k ⟨b, n⟩ ⟨hb, m, h2, h3⟩⟩

/-- C98: if no lookahead improves the values then no agent, whatever its memory, earns more than the best of the nodes promises, up to what comes
after `k` actions. -/
theorem C98_bound (p : Pomdp) (nS nA nO : Nat) (hp : Stochastic p nS nA nO) (hd : NamesDistinct p) (g : GraphPolicy) (δ B : ℚ)
    (hu : Unimprovable p nS nA nO g δ) (hγ : 0 ≤ p.discount) (hne : 0 < g.actions.length)
    (hB : ∀ i < g.actions.length, ∀ s < nS, |nodeValue g i s| ≤ B) {μ : Type} (A : Agent μ) (k : Nat) (q : μ) (b : List ℚ) (hb : IsDist nS b)
    (v : Nat → ℚ) (hv : ∀ s < nS, b.getD s 0 ≠ 0 → ExpectedReturn p nS nO A k q s (v s)) : ∃ i < g.actions.length,
      ∑ s ∈ Finset.range nS, b.getD s 0 * v s ≤ ∑ s ∈ Finset.range nS, b.getD s 0 * nodeValue g i s + remainder p δ B k :=
  agent_value hp hd hu hγ hne hB A k q b hb v hv

/-- C98: so `GraphPolicyBeliefRunner` is as good as any other agent, up to the two differences. -/
theorem C98_optimal (p : Pomdp) (nS nA nO : Nat) (hp : Stochastic p nS nA nO) (hd : NamesDistinct p) (g : GraphPolicy) (ε δ B : ℚ)
    (hg : Solves p nS nO g ε) (hu : Unimprovable p nS nA nO g δ) (hγ : 0 ≤ p.discount)
    (hB : ∀ i < g.actions.length, ∀ s < nS, |nodeValue g i s| ≤ B) (k : Nat) (b : List ℚ) (hb : IsDist nS b) (r0 : BRunner) :
    ∃ r, bReset g b r0 = (.ok (), r) ∧ ∃ v : Nat → ℚ,
      (∀ s < nS, b.getD s 0 ≠ 0 → ExpectedReturn p nS nO (beliefAgent g p) k r s (v s)) ∧
      ∀ (μ : Type) (A : Agent μ) (q : μ) (w : Nat → ℚ), (∀ s < nS, b.getD s 0 ≠ 0 → ExpectedReturn p nS nO A k q s (w s)) →
        ∑ s ∈ Finset.range nS, b.getD s 0 * w s ≤ ∑ s ∈ Finset.range nS, b.getD s 0 * v s + remainder p ε B k + remainder p δ B k := by
  obtain ⟨r, h1, v, h2, h3⟩ := C98_belief p nS nA nO hp hd g ε B hg hγ hB k b hb r0
  refine ⟨r, h1, v, h2, fun μ A q w hw => ?_⟩
  have hne : 0 < g.actions.length := by rw [← hg.fits.2.1]; exact List.length_pos_of_ne_nil hg.fits.1
  obtain ⟨i, hi, h4⟩ := agent_value hp hd hu hγ hne hB A k q b hb w hw
  have := h3 i hi
  linarith

/-! ### Non-vacuity -/

/-- The state is drawn again at every step and then observed; it must be guessed. -/
def guessPomdp : Pomdp :=
  ⟨.list [.str "heads", .str "tails"], .list [.str "say-heads", .str "say-tails"], .list [.str "saw-heads", .str "saw-tails"],
    ⟨2, 2, 2, fun _ _ _ => 1 / 2⟩, ⟨2, 2, 2, fun _ s o => if s = o then 1 else 0⟩,
    ⟨2, 2, 2, 2, fun a s _ _ => if a = s then 1 else 0⟩, [3 / 4, 1 / 4], 1 / 2, "pomdp-solve"⟩

/-- Say what was seen. -/
def guessPolicy : GraphPolicy :=
  ⟨[.str "say-heads", .str "say-tails"], [.str "saw-heads", .str "saw-tails"], [[some 0, some 1], [some 0, some 1]], [[2, 1], [1, 2]], 0⟩

theorem guess_stochastic : Stochastic guessPomdp 2 2 2 := by
  refine ⟨⟨rfl, rfl, rfl, rfl, rfl, rfl, rfl, rfl, rfl, rfl, rfl, rfl, rfl, rfl⟩, ?_, ?_⟩
  · intro i _ j hj
    exact ⟨fun k _ => by norm_num [guessPomdp], by norm_num [guessPomdp, sumRange, List.range_succ]⟩
  · intro i _ j hj
    refine ⟨fun k _ => by simp only [guessPomdp]; split_ifs <;> norm_num, ?_⟩
    have hj : j < 2 := hj
    interval_cases j <;> norm_num [guessPomdp, sumRange, List.range_succ]

theorem guess_stepMean (a s : Nat) (f : Nat → Nat → ℚ) : stepMean guessPomdp 2 2 a s f = 1 / 2 * f 0 0 + 1 / 2 * f 1 1 := by
  simp [stepMean, guessPomdp, Finset.sum_range_succ]

theorem guess_value (i s : Nat) (hi : i < 2) (hs : s < 2) : nodeValue guessPolicy i s = if i = s then 2 else 1 := by
  interval_cases i <;> interval_cases s <;> rfl

theorem guess_solves : Solves guessPomdp 2 2 guessPolicy 0 := by
  refine ⟨⟨by simp [guessPolicy], rfl, by decide, by decide⟩, rfl, rfl, ?_⟩
  intro i hi a ha
  have hi : i < 2 := hi
  refine ⟨fun o => o, fun s hs s' hs' o ho _ => ⟨?_, ho⟩, fun s hs => ?_⟩
  · interval_cases i <;> interval_cases o <;> rfl
  · have hai : a = i := by
      have h2 : guessPomdp.actions[i]? = some (guessPolicy.actions.getD i (.int 0)) := by interval_cases i <;> rfl
      exact nodup_index _ (by decide) _ _ _ ha h2
    subst hai
    rw [guess_stepMean, guess_value a s hi hs, guess_value 0 0 (by decide) (by decide), guess_value 1 1 (by decide) (by decide)]
    by_cases h : a = s <;> norm_num [guessPomdp, h]

theorem guess_unimprovable : Unimprovable guessPomdp 2 2 2 guessPolicy 0 := by
  intro b hb a ha next hn
  refine ⟨a, ha, ?_⟩
  have h0 : nodeValue guessPolicy (next 0) 0 ≤ 2 := by
    rw [guess_value _ _ (hn 0) (by decide)]
    split_ifs <;> norm_num
  have h1 : nodeValue guessPolicy (next 1) 1 ≤ 2 := by
    rw [guess_value _ _ (hn 1) (by decide)]
    split_ifs <;> norm_num
  rw [add_zero]
  refine Finset.sum_le_sum fun s hs => ?_
  rw [Finset.mem_range] at hs
  refine mul_le_mul_of_nonneg_left ?_ (hb.2.1 s hs)
  rw [guess_stepMean, guess_value a s ha hs]
  by_cases h : a = s <;> simp only [guessPomdp, h, if_true, if_false] <;> linarith

/-- Non-vacuity of C98: the policy meets the hypotheses without any error, and from the belief [3/4, 1/4] it earns at least
7/4 - 2/2^k. -/
example : NamesDistinct guessPomdp ∧ Unimprovable guessPomdp 2 2 2 guessPolicy 0 ∧ ∀ k, ∃ r, bReset guessPolicy [3 / 4, 1 / 4] ⟨[], 0⟩ = (.ok (), r) ∧ ∃ v : Nat → ℚ,
    (∀ s < 2, ExpectedReturn guessPomdp 2 2 (beliefAgent guessPolicy guessPomdp) k r s (v s)) ∧
    7 / 4 - (1 / 2) ^ k * 2 ≤ 3 / 4 * v 0 + 1 / 4 * v 1 := by
  have hd : NamesDistinct guessPomdp := ⟨by decide, by decide⟩
  refine ⟨hd, guess_unimprovable, fun k => ?_⟩
  have hb : IsDist 2 [3 / 4, 1 / 4] := by
    refine ⟨rfl, fun i hi => ?_, by norm_num [sumRange, List.range_succ]⟩
    interval_cases i <;> norm_num
  obtain ⟨r, h1, v, h2, h3⟩ := C98_belief guessPomdp 2 2 2 guess_stochastic hd guessPolicy 0 2 guess_solves (by norm_num [guessPomdp])
    (fun i hi s hs => by rw [guess_value i s hi hs]; split_ifs <;> norm_num) k [3 / 4, 1 / 4] hb ⟨[], 0⟩
  refine ⟨r, h1, v, fun s hs => h2 s hs (by interval_cases s <;> norm_num), ?_⟩
  have := h3 0 (by decide)
  simp only [Finset.sum_range_succ, Finset.sum_range_zero, guess_value 0 0 (by decide) (by decide), guess_value 0 1 (by decide) (by decide),
    remainder, guessPomdp, zero_mul, add_zero, zero_add] at this
  norm_num at this ⊢
  linarith

end Verif
