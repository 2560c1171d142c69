import Verif.Spec.PolicyValue
import Verif.Props.GraphPolicy
import Verif.Proof.Mean
import Mathlib.Algebra.Order.BigOperators.Group.Finset
import Mathlib.Algebra.Order.BigOperators.Ring.Finset
import Mathlib.Tactic.Linarith

/-! Proofs for the values of policies (C98). -/

set_option linter.unusedSectionVars false
set_option linter.unusedSimpArgs false

namespace Verif
open Spec

theorem expectedReturn_unique {p : Pomdp} {nS nO : Nat} {μ : Type} {A : Agent μ} {k : Nat} {q : μ} {s : Nat} {v w : ℚ}
    (hd : NamesDistinct p) (h : ExpectedReturn p nS nO A k q s v) (h' : ExpectedReturn p nS nO A k q s w) : v = w := by
  induction h generalizing w with
  | stop q s => cases h'; rfl
  | step k q s name a next v h1 h2 h3 h4 ih =>
      cases h' with
      | step _ _ _ name' a' next' v' g1 g2 g3 g4 =>
          rw [h1] at g1
          cases g1
          have ea := nodup_index _ hd.1 _ _ _ h2 g2
          subst ea
          unfold stepMean
          refine Finset.sum_congr rfl fun s' hs' => Finset.sum_congr rfl fun o ho => ?_
          rw [Finset.mem_range] at hs' ho
          by_cases hz : p.T.at_ a s s' * p.O.at_ a s' o = 0
          · rw [hz, zero_mul, zero_mul]
          · have e : next o = next' o := Except.ok.inj ((h3 s' hs' o ho hz).symm.trans (g3 s' hs' o ho hz))
            show _ * (_ + _ * v s' o) = _ * (_ + _ * v' s' o)
            rw [ih s' hs' o ho hz (by rw [e]; exact g4 s' hs' o ho hz)]

section
variable {p : Pomdp} {nS nA nO : Nat}

theorem weight_nonneg (hp : Stochastic p nS nA nO) {a s s' o : Nat} (ha : a < nA) (hs : s < nS) (hs' : s' < nS) (ho : o < nO) :
    0 ≤ p.T.at_ a s s' * p.O.at_ a s' o := by
  obtain ⟨⟨c1, _, c3, _, h0, h1, h2, h3, h4, h5, _⟩, kT, kO⟩ := hp
  exact mul_nonneg ((kT a (by omega) s (by omega)).1 s' (by omega)) ((kO a (by omega) s' (by omega)).1 o (by omega))

theorem row_T (hp : Stochastic p nS nA nO) {a s : Nat} (ha : a < nA) (hs : s < nS) : ∑ s' ∈ Finset.range nS, p.T.at_ a s s' = 1 := by
  obtain ⟨⟨c1, _, c3, _, h0, h1, h2, h3, h4, h5, _⟩, kT, kO⟩ := hp
  rw [← sumRange_eq_sum, ← h2]
  exact (kT a (by omega) s (by omega)).2

theorem row_O (hp : Stochastic p nS nA nO) {a s : Nat} (ha : a < nA) (hs : s < nS) : ∑ o ∈ Finset.range nO, p.O.at_ a s o = 1 := by
  obtain ⟨⟨c1, _, c3, _, h0, h1, h2, h3, h4, h5, _⟩, kT, kO⟩ := hp
  rw [← sumRange_eq_sum, ← h5]
  exact (kO a (by omega) s (by omega)).2

theorem stepMean_const (hp : Stochastic p nS nA nO) {a s : Nat} (ha : a < nA) (hs : s < nS) (c : ℚ) : stepMean p nS nO a s (fun _ _ => c) = c := by
  unfold stepMean
  have e : ∀ s' ∈ Finset.range nS, ∑ o ∈ Finset.range nO, p.T.at_ a s s' * p.O.at_ a s' o * c = p.T.at_ a s s' * c := by
    intro s' hs'
    rw [← Finset.sum_mul, ← Finset.mul_sum, row_O hp ha (Finset.mem_range.1 hs'), mul_one]
  rw [Finset.sum_congr rfl e, ← Finset.sum_mul, row_T hp ha hs, one_mul]

theorem stepMean_add (a s : Nat) (f g : Nat → Nat → ℚ) :
    stepMean p nS nO a s (fun s' o => f s' o + g s' o) = stepMean p nS nO a s f + stepMean p nS nO a s g := by
  unfold stepMean
  rw [← Finset.sum_add_distrib]
  refine Finset.sum_congr rfl fun s' _ => ?_
  rw [← Finset.sum_add_distrib]
  exact Finset.sum_congr rfl fun o _ => by ring

theorem stepMean_mul (a s : Nat) (c : ℚ) (f : Nat → Nat → ℚ) : stepMean p nS nO a s (fun s' o => c * f s' o) = c * stepMean p nS nO a s f := by
  unfold stepMean
  rw [Finset.mul_sum]
  refine Finset.sum_congr rfl fun s' _ => ?_
  rw [Finset.mul_sum]
  exact Finset.sum_congr rfl fun o _ => by ring

/-- `stepMean` only depends on what is possible, and is monotone. -/
theorem stepMean_le (hp : Stochastic p nS nA nO) {a s : Nat} (ha : a < nA) (hs : s < nS) (f g : Nat → Nat → ℚ)
    (h : ∀ s' < nS, ∀ o < nO, p.T.at_ a s s' * p.O.at_ a s' o ≠ 0 → f s' o ≤ g s' o) : stepMean p nS nO a s f ≤ stepMean p nS nO a s g := by
  refine Finset.sum_le_sum fun s' hs' => Finset.sum_le_sum fun o ho => ?_
  rw [Finset.mem_range] at hs' ho
  by_cases hz : p.T.at_ a s s' * p.O.at_ a s' o = 0
  · rw [hz, zero_mul, zero_mul]
  · exact mul_le_mul_of_nonneg_left (h s' hs' o ho hz) (weight_nonneg hp ha hs hs' ho)

theorem remainder_succ (ε B : ℚ) (k : Nat) : remainder p ε B (k + 1) = p.discount * remainder p ε B k + ε := by
  unfold remainder
  rw [Finset.sum_range_succ', pow_succ]
  have : ∑ j ∈ Finset.range k, p.discount ^ (j + 1) = p.discount * ∑ j ∈ Finset.range k, p.discount ^ j := by
    rw [Finset.mul_sum]
    exact Finset.sum_congr rfl fun j _ => by ring
  rw [this]
  ring

theorem graph_action (g : GraphPolicy) (i : Nat) (hi : i < g.actions.length) : g.getAction i = .ok (g.actions.getD i (.int 0)) := by
  rw [getAction_nat g i (g.actions.getD i (.int 0)) (by simp [List.getD_eq_getElem?_getD, hi])]

theorem observation_at (hp : Stochastic p nS nA nO) {o : Nat} (ho : o < nO) : p.observations[o]? = some (p.observations.getD o (.int 0)) := by
  have : p.observations.length = nO := hp.1.2.2.1
  simp [List.getD_eq_getElem?_getD, this, ho]

theorem solves_action (hp : Stochastic p nS nA nO) {g : GraphPolicy} {ε : ℚ} (hg : Solves p nS nO g ε) {i : Nat} (hi : i < g.actions.length) :
    ∃ a, p.actions[a]? = some (g.actions.getD i (.int 0)) ∧ a < nA := by
  have e : g.actions.getD i (.int 0) = g.actions[i] := by simp [List.getD_eq_getElem?_getD, hi]
  obtain ⟨a, h1, h2⟩ := indexOf_spec p.actions (g.actions.getD i (.int 0)) (hg.fits.2.2.2 _ (by rw [e]; exact List.getElem_mem _))
  exact ⟨a, h2, by rw [← hp.1.2.1]; exact (List.getElem?_eq_some_iff.1 h2).1⟩

theorem graph_observe (hp : Stochastic p nS nA nO) (hd : NamesDistinct p) {g : GraphPolicy} {ε : ℚ} (hg : Solves p nS nO g ε) {i o n : Nat}
    (hi : i < g.actions.length) (ho : o < nO) (h : (g.transitions.getD i [])[o]? = some (some (n : Int))) :
    (graphAgent g).observe (p.observations.getD o (.int 0)) i = .ok (n : Int) := by
  have h1 : indexOf g.observations (p.observations.getD o (.int 0)) = .ok o := by
    rw [hg.observations]
    exact indexOf_nodup _ hd.2 _ _ (observation_at hp ho)
  have h2 : pyIndex g.transitions.length (i : Int) = .ok i := by
    unfold pyIndex
    rw [if_pos ⟨by omega, by rw [hg.rows]; omega⟩]
    rfl
  have h3 : listGet g.transitions i = .ok (g.transitions.getD i []) := by
    unfold listGet
    have : i < g.transitions.length := by rw [hg.rows]; exact hi
    simp [List.getD_eq_getElem?_getD, this]
  have h4 : listGet (g.transitions.getD i []) o = .ok (some (n : Int)) := by
    unfold listGet
    rw [h]
  have h5 : g.next i (p.observations.getD o (.int 0)) = .ok (some (n : Int)) := by
    unfold GraphPolicy.next
    simp only [h1, h2, h3, h4, bind, Except.bind]
  show (match runnerStep g i (p.observations.getD o (.int 0)) with
    | (some c', .ok _) => Except.ok c'
    | (none, .ok _) => .error PyErr.impossible
    | (_, .error e) => .error e) = _
  unfold runnerStep
  rw [h5]

theorem graph_value (hp : Stochastic p nS nA nO) (hd : NamesDistinct p) {g : GraphPolicy} {ε B : ℚ} (hg : Solves p nS nO g ε) (hγ : 0 ≤ p.discount)
    (hB : ∀ i < g.actions.length, ∀ s < nS, |nodeValue g i s| ≤ B) (k : Nat) : ∀ i < g.actions.length, ∀ s < nS,
      ∃ v, ExpectedReturn p nS nO (graphAgent g) k (i : Int) s v ∧ |v - nodeValue g i s| ≤ remainder p ε B k := by
  induction k with
  | zero =>
      intro i hi s hs
      refine ⟨0, .stop _ _, ?_⟩
      have := hB i hi s hs
      simp only [remainder, pow_zero, one_mul, Finset.range_zero, Finset.sum_empty, mul_zero, add_zero, zero_sub, abs_neg]
      exact this
  | succ k ih =>
      intro i hi s hs
      obtain ⟨a, ha, haA⟩ := solves_action hp hg hi
      obtain ⟨next, hn, hv⟩ := hg.values i hi a ha
      have hex : ∀ s' o, ∃ v, s' < nS → next o < g.actions.length →
          ExpectedReturn p nS nO (graphAgent g) k (next o : Int) s' v ∧ |v - nodeValue g (next o) s'| ≤ remainder p ε B k := by
        intro s' o
        by_cases h : s' < nS ∧ next o < g.actions.length
        · obtain ⟨v, h1⟩ := ih (next o) h.2 s' h.1
          exact ⟨v, fun _ _ => h1⟩
        · exact ⟨0, fun h1 h2 => absurd ⟨h1, h2⟩ h⟩
      choose v hv' using hex
      refine ⟨_, .step k (i : Int) s _ a (fun o => (next o : Int)) v (graph_action g i hi) ha
        (fun s' hs' o ho hz => graph_observe hp hd hg hi ho (hn s hs s' hs' o ho hz).1)
        (fun s' hs' o ho hz => (hv' s' o hs' (hn s hs s' hs' o ho hz).2).1), ?_⟩
      have h1 := hv s hs
      rw [abs_le] at h1 ⊢
      rw [remainder_succ]
      have hup := stepMean_le hp haA hs (fun s' o => p.R.at_ a s s' o + p.discount * v s' o)
        (fun s' o => (p.R.at_ a s s' o + p.discount * nodeValue g (next o) s') + p.discount * remainder p ε B k) (by
          intro s' hs' o ho hz
          have := (abs_le.1 (hv' s' o hs' (hn s hs s' hs' o ho hz).2).2).2
          nlinarith)
      have hlo := stepMean_le hp haA hs (fun s' o => (p.R.at_ a s s' o + p.discount * nodeValue g (next o) s') + -(p.discount * remainder p ε B k))
        (fun s' o => p.R.at_ a s s' o + p.discount * v s' o) (by
          intro s' hs' o ho hz
          have := (abs_le.1 (hv' s' o hs' (hn s hs s' hs' o ho hz).2).2).1
          nlinarith)
      rw [stepMean_add _ _ _ (fun _ _ => p.discount * remainder p ε B k), stepMean_const hp haA hs] at hup
      rw [stepMean_add _ _ _ (fun _ _ => -(p.discount * remainder p ε B k)), stepMean_const hp haA hs] at hlo
      constructor <;> linarith

/-! ### Beliefs -/

/-- Averaging over a belief first. -/
theorem belief_stepMean (a : Nat) (b : List ℚ) (f : Nat → Nat → ℚ) :
    ∑ s ∈ Finset.range nS, b.getD s 0 * stepMean p nS nO a s f =
      ∑ o ∈ Finset.range nO, ∑ s' ∈ Finset.range nS, jointProb p nS a o b s' * f s' o := by
  unfold stepMean jointProb
  simp only [sumRange_eq_sum, Finset.mul_sum, Finset.sum_mul]
  rw [Finset.sum_comm]
  rw [Finset.sum_congr rfl fun s' _ => Finset.sum_comm]
  rw [Finset.sum_comm]
  refine Finset.sum_congr rfl fun o _ => Finset.sum_congr rfl fun s' _ => Finset.sum_congr rfl fun s _ => ?_
  ring

theorem obs_total (hp : Stochastic p nS nA nO) {a : Nat} (ha : a < nA) (b : List ℚ) (hb : IsDist nS b) :
    ∑ o ∈ Finset.range nO, obsProb p nS a o b = 1 := by
  have h := belief_stepMean (p := p) (nS := nS) (nO := nO) a b (fun _ _ => 1)
  rw [Finset.sum_congr rfl fun s hs => by rw [stepMean_const hp ha (Finset.mem_range.1 hs), mul_one]] at h
  rw [← sumRange_eq_sum, hb.2.2] at h
  rw [h]
  refine Finset.sum_congr rfl fun o _ => ?_
  unfold obsProb
  rw [sumRange_eq_sum]
  exact Finset.sum_congr rfl fun s _ => (mul_one _).symm

theorem joint_zero (hp : Stochastic p nS nA nO) {a o : Nat} (ha : a < nA) (ho : o < nO) (b : List ℚ) (hb : IsDist nS b)
    (hz : obsProb p nS a o b = 0) {s' : Nat} (hs' : s' < nS) : jointProb p nS a o b s' = 0 := by
  have hn := jointProb_nonneg p hp a o ha ho b hb.2.1
  unfold obsProb at hz
  rw [sumRange_eq_sum] at hz
  exact (Finset.sum_eq_zero_iff_of_nonneg (fun i hi => hn i (Finset.mem_range.1 hi))).1 hz s' (Finset.mem_range.2 hs')

theorem joint_pos (hp : Stochastic p nS nA nO) {a o : Nat} (ha : a < nA) (ho : o < nO) (b : List ℚ) (hb : IsDist nS b)
    {s s' : Nat} (hs : s < nS) (hs' : s' < nS) (h1 : b.getD s 0 ≠ 0) (h2 : p.T.at_ a s s' * p.O.at_ a s' o ≠ 0) :
    jointProb p nS a o b s' ≠ 0 := by
  obtain ⟨⟨c1, _, c3, _, h0, h1', h2', h3, h4, h5, _⟩, kT, kO⟩ := hp
  unfold jointProb
  rw [sumRange_eq_sum]
  refine mul_ne_zero (right_ne_zero_of_mul h2) fun h => ?_
  have := (Finset.sum_eq_zero_iff_of_nonneg (fun i hi => mul_nonneg (hb.2.1 i (Finset.mem_range.1 hi))
    ((kT a (by omega) i (by have := Finset.mem_range.1 hi; omega)).1 s' (by omega)))).1 h s (Finset.mem_range.2 hs)
  exact mul_ne_zero h1 (left_ne_zero_of_mul h2) this

theorem expected_eq (g : GraphPolicy) (i : Nat) (b : List ℚ) (hb : b.length = nS) :
    expected (g.values.getD i []) b = ∑ s ∈ Finset.range nS, b.getD s 0 * nodeValue g i s := by
  unfold expected nodeValue
  rw [hb, sumRange_eq_sum]
  exact Finset.sum_congr rfl fun s _ => mul_comm _ _

theorem posterior_mul {a o : Nat} {b b' : List ℚ} (h : IsPosterior p nS a o b b') {s' : Nat} (hs' : s' < nS) :
    jointProb p nS a o b s' = obsProb p nS a o b * b'.getD s' 0 := by
  rw [h.2.2 s' hs']
  have := h.1
  field_simp

theorem joint_sum {a o : Nat} {b b' : List ℚ} (h : IsPosterior p nS a o b b') (f : Nat → ℚ) :
    ∑ s' ∈ Finset.range nS, jointProb p nS a o b s' * f s' = ∑ s' ∈ Finset.range nS, obsProb p nS a o b * (b'.getD s' 0 * f s') :=
  Finset.sum_congr rfl fun s' hs' => by rw [posterior_mul h (Finset.mem_range.1 hs'), mul_assoc]

theorem belief_split (a : Nat) (b : List ℚ) (f : Nat → Nat → ℚ) :
    ∑ s ∈ Finset.range nS, b.getD s 0 * stepMean p nS nO a s (fun s' o => p.R.at_ a s s' o + p.discount * f s' o) =
      ∑ s ∈ Finset.range nS, b.getD s 0 * stepMean p nS nO a s (fun s' o => p.R.at_ a s s' o) +
        p.discount * ∑ s ∈ Finset.range nS, b.getD s 0 * stepMean p nS nO a s f := by
  rw [Finset.mul_sum, ← Finset.sum_add_distrib]
  refine Finset.sum_congr rfl fun s _ => ?_
  rw [stepMean_add, stepMean_mul]
  ring

/-- The posterior, whatever computes it. -/
theorem posterior_exists (hp : Stochastic p nS nA nO) {a o : Nat} (ha : a < nA) (ho : o < nO) (b : List ℚ) (hb : IsDist nS b)
    (hz : obsProb p nS a o b ≠ 0) : ∃ b', IsDist nS b' ∧ IsPosterior p nS a o b b' := by
  have hn := jointProb_nonneg p hp a o ha ho b hb.2.1
  have hpos : 0 ≤ obsProb p nS a o b := sumRange_nonneg _ _ hn
  have hget : ∀ s < nS, ((List.range nS).map fun s => jointProb p nS a o b s / obsProb p nS a o b).getD s 0 =
      jointProb p nS a o b s / obsProb p nS a o b := by
    intro s hs
    simp [List.getD_eq_getElem?_getD, hs]
  refine ⟨(List.range nS).map fun s => jointProb p nS a o b s / obsProb p nS a o b, ⟨by simp, fun s hs => ?_, ?_⟩, hz, by simp, hget⟩
  · rw [hget s hs]
    exact div_nonneg (hn s hs) hpos
  · rw [sumRange_eq_sum, Finset.sum_congr rfl fun s hs => hget s (Finset.mem_range.1 hs), ← Finset.sum_div, ← sumRange_eq_sum]
    exact div_self hz

theorem belief_value (hp : Stochastic p nS nA nO) (hd : NamesDistinct p) {g : GraphPolicy} {ε B : ℚ} (hg : Solves p nS nO g ε) (hγ : 0 ≤ p.discount)
    (hB : ∀ i < g.actions.length, ∀ s < nS, |nodeValue g i s| ≤ B) (k : Nat) : ∀ r : BRunner, BRunner.Valid g nS r →
      ∃ v : Nat → ℚ, (∀ s < nS, r.belief.getD s 0 ≠ 0 → ExpectedReturn p nS nO (beliefAgent g p) k r s (v s)) ∧
        ∀ i < g.actions.length, ∑ s ∈ Finset.range nS, r.belief.getD s 0 * nodeValue g i s - remainder p ε B k ≤
          ∑ s ∈ Finset.range nS, r.belief.getD s 0 * v s := by
  induction k with
  | zero =>
      intro r hr
      refine ⟨fun _ => 0, fun s _ _ => .stop _ _, fun i hi => ?_⟩
      have h : ∑ s ∈ Finset.range nS, r.belief.getD s 0 * nodeValue g i s ≤ ∑ s ∈ Finset.range nS, r.belief.getD s 0 * B := by
        refine Finset.sum_le_sum fun s hs => ?_
        rw [Finset.mem_range] at hs
        exact mul_le_mul_of_nonneg_left (abs_le.1 (hB i hi s hs)).2 (hr.1.2.1 s hs)
      rw [← Finset.sum_mul, ← sumRange_eq_sum nS fun s => r.belief.getD s 0, hr.1.2.2, one_mul] at h
      simp only [remainder, pow_zero, one_mul, Finset.range_zero, Finset.sum_empty, mul_zero, add_zero, Finset.sum_const_zero]
      linarith
  | succ k ih =>
      intro r hr
      obtain ⟨hb, i, hcur, hbest⟩ := hr
      have hi : i < g.actions.length := by rw [← hg.fits.2.1]; exact hbest.1
      obtain ⟨a, ha, haA⟩ := solves_action hp hg hi
      obtain ⟨next, hn, hv⟩ := hg.values i hi a ha
      have hact : (beliefAgent g p).action r = .ok (g.actions.getD i (.int 0)) := by
        show g.getAction r.current = _
        rw [hcur]
        exact graph_action g i hi
      -- the runner after each observation
      have hstep : ∀ o, ∃ r1 : BRunner, ∃ w : Nat → ℚ, o < nO → obsProb p nS a o r.belief ≠ 0 →
          (beliefAgent g p).observe (p.observations.getD o (.int 0)) r = .ok r1 ∧ IsPosterior p nS a o r.belief r1.belief ∧
          (∀ s < nS, r1.belief.getD s 0 ≠ 0 → ExpectedReturn p nS nO (beliefAgent g p) k r1 s (w s)) ∧
          ∀ j < g.actions.length, ∑ s ∈ Finset.range nS, r1.belief.getD s 0 * nodeValue g j s - remainder p ε B k ≤
            ∑ s ∈ Finset.range nS, r1.belief.getD s 0 * w s := by
        intro o
        by_cases h : o < nO ∧ obsProb p nS a o r.belief ≠ 0
        · obtain ⟨ho, hz⟩ := h
          obtain ⟨act, a', o', k1, k2, k3, k4, k5, hc⟩ := bStep_cases g p nS nA nO hp hg.fits r ⟨hb, i, hcur, hbest⟩ _
            (List.mem_of_getElem? (observation_at hp ho))
          have e1 : act = g.actions.getD i (.int 0) := policyAction_unique g r.belief _ _ k1 ⟨i, hbest, by simp [List.getD_eq_getElem?_getD, hi]⟩
          subst e1
          have e2 := nodup_index _ hd.1 _ _ _ ha k2
          subst e2
          have e3 := nodup_index _ hd.2 _ _ _ (observation_at hp ho) k3
          subst e3
          rcases hc with ⟨c1, _⟩ | ⟨r1, c1, c2, _, c4⟩
          · exact absurd c1 hz
          · obtain ⟨w, w1, w2⟩ := ih r1 c2
            refine ⟨r1, w, fun _ _ => ⟨?_, c1, w1, w2⟩⟩
            show (match bStep g p (p.observations.getD o (.int 0)) r with
              | (.ok _, r') => Except.ok r'
              | (.error e, _) => .error e) = _
            rw [c4]
        · exact ⟨r, fun _ => 0, fun h1 h2 => absurd ⟨h1, h2⟩ h⟩
      choose r1 w hw using hstep
      refine ⟨fun s => stepMean p nS nO a s fun s' o => p.R.at_ a s s' o + p.discount * w o s', fun s hs hbs => ?_, fun j hj => ?_⟩
      · have hpos : ∀ s' < nS, ∀ o < nO, p.T.at_ a s s' * p.O.at_ a s' o ≠ 0 →
            obsProb p nS a o r.belief ≠ 0 ∧ jointProb p nS a o r.belief s' ≠ 0 := by
          intro s' hs' o ho hz
          have h1 := joint_pos hp haA ho r.belief hb hs hs' hbs hz
          exact ⟨fun h2 => h1 (joint_zero hp haA ho r.belief hb h2 hs'), h1⟩
        refine .step k r s _ a r1 (fun s' o => w o s') hact ha (fun s' hs' o ho hz => ?_) (fun s' hs' o ho hz => ?_)
        · exact (hw o ho (hpos s' hs' o ho hz).1).1
        · obtain ⟨h1, h2⟩ := hpos s' hs' o ho hz
          refine (hw o ho h1).2.2.1 s' hs' ?_
          rw [posterior_mul (hw o ho h1).2.1 hs'] at h2
          exact right_ne_zero_of_mul h2
      · -- the best node is at least as good as `j`
        have h1 : ∑ s ∈ Finset.range nS, r.belief.getD s 0 * nodeValue g j s ≤ ∑ s ∈ Finset.range nS, r.belief.getD s 0 * nodeValue g i s := by
          rw [← expected_eq g j r.belief hb.1, ← expected_eq g i r.belief hb.1]
          exact (hbest.2 j (by rw [hg.fits.2.1]; exact hj)).1
        -- its value is that of its action and its successors
        have h2 : ∑ s ∈ Finset.range nS, r.belief.getD s 0 * nodeValue g i s ≤
            ∑ s ∈ Finset.range nS, r.belief.getD s 0 * stepMean p nS nO a s (fun s' o => p.R.at_ a s s' o + p.discount * nodeValue g (next o) s') + ε := by
          have : ∑ s ∈ Finset.range nS, r.belief.getD s 0 * nodeValue g i s ≤ ∑ s ∈ Finset.range nS, r.belief.getD s 0 *
              (stepMean p nS nO a s (fun s' o => p.R.at_ a s s' o + p.discount * nodeValue g (next o) s') + ε) := by
            refine Finset.sum_le_sum fun s hs => ?_
            rw [Finset.mem_range] at hs
            exact mul_le_mul_of_nonneg_left (by have := (abs_le.1 (hv s hs)).2; linarith) (hb.2.1 s hs)
          refine this.trans (le_of_eq ?_)
          simp only [mul_add]
          rw [Finset.sum_add_distrib, ← Finset.sum_mul, ← sumRange_eq_sum nS fun s => r.belief.getD s 0, hb.2.2, one_mul]
        -- each successor is worse than the new runner
        have h3 : ∑ o ∈ Finset.range nO, ∑ s' ∈ Finset.range nS, jointProb p nS a o r.belief s' * nodeValue g (next o) s' - remainder p ε B k ≤
            ∑ o ∈ Finset.range nO, ∑ s' ∈ Finset.range nS, jointProb p nS a o r.belief s' * w o s' := by
          have : ∀ o ∈ Finset.range nO, ∑ s' ∈ Finset.range nS, jointProb p nS a o r.belief s' * nodeValue g (next o) s' -
              obsProb p nS a o r.belief * remainder p ε B k ≤ ∑ s' ∈ Finset.range nS, jointProb p nS a o r.belief s' * w o s' := by
            intro o ho
            rw [Finset.mem_range] at ho
            by_cases hz : obsProb p nS a o r.belief = 0
            · rw [hz, zero_mul, sub_zero]
              refine Finset.sum_le_sum fun s' hs' => ?_
              rw [joint_zero hp haA ho r.belief hb hz (Finset.mem_range.1 hs'), zero_mul, zero_mul]
            · obtain ⟨_, q1, _, q3⟩ := hw o ho hz
              have hnext : next o < g.actions.length := by
                by_contra hc
                refine hz ?_
                unfold obsProb
                rw [sumRange_eq_sum]
                refine Finset.sum_eq_zero fun s' hs' => ?_
                unfold jointProb
                rw [sumRange_eq_sum, Finset.mul_sum]
                refine Finset.sum_eq_zero fun s hs => ?_
                by_contra hne
                refine hc (hn s (Finset.mem_range.1 hs) s' (Finset.mem_range.1 hs') o ho fun h => hne ?_).2
                rcases mul_eq_zero.1 h with h | h <;> rw [h] <;> ring
              have hpos : 0 ≤ obsProb p nS a o r.belief := sumRange_nonneg _ _ (jointProb_nonneg p hp a o haA ho r.belief hb.2.1)
              have := mul_le_mul_of_nonneg_left (q3 (next o) hnext) hpos
              rw [mul_sub, Finset.mul_sum, Finset.mul_sum] at this
              rw [joint_sum q1, joint_sum q1]
              exact this
          have hs := Finset.sum_le_sum this
          rw [Finset.sum_sub_distrib, ← Finset.sum_mul, obs_total hp haA r.belief hb, one_mul] at hs
          exact hs
        rw [← belief_stepMean a r.belief (fun s' o => nodeValue g (next o) s'), ← belief_stepMean a r.belief (fun s' o => w o s')] at h3
        rw [belief_split] at h2
        rw [belief_split a r.belief (fun s' o => w o s'), remainder_succ]
        have := mul_le_mul_of_nonneg_left h3 hγ
        rw [mul_sub] at this
        linarith

/-! ### Other agents -/

theorem agent_value (hp : Stochastic p nS nA nO) (hd : NamesDistinct p) {g : GraphPolicy} {δ B : ℚ} (hu : Unimprovable p nS nA nO g δ) (hγ : 0 ≤ p.discount)
    (hne : 0 < g.actions.length) (hB : ∀ i < g.actions.length, ∀ s < nS, |nodeValue g i s| ≤ B) {μ : Type} (A : Agent μ) (k : Nat) :
    ∀ (q : μ) (b : List ℚ), IsDist nS b → ∀ v : Nat → ℚ, (∀ s < nS, b.getD s 0 ≠ 0 → ExpectedReturn p nS nO A k q s (v s)) →
      ∃ i < g.actions.length, ∑ s ∈ Finset.range nS, b.getD s 0 * v s ≤ ∑ s ∈ Finset.range nS, b.getD s 0 * nodeValue g i s + remainder p δ B k := by
  induction k with
  | zero =>
      intro q b hb v hv
      refine ⟨0, hne, ?_⟩
      have h0 : ∑ s ∈ Finset.range nS, b.getD s 0 * v s = 0 := by
        refine Finset.sum_eq_zero fun s hs => ?_
        by_cases hbs : b.getD s 0 = 0
        · rw [hbs, zero_mul]
        · rw [expectedReturn_unique hd (hv s (Finset.mem_range.1 hs) hbs) (.stop q s), mul_zero]
      have h : ∑ s ∈ Finset.range nS, b.getD s 0 * -B ≤ ∑ s ∈ Finset.range nS, b.getD s 0 * nodeValue g 0 s := by
        refine Finset.sum_le_sum fun s hs => ?_
        rw [Finset.mem_range] at hs
        exact mul_le_mul_of_nonneg_left (abs_le.1 (hB 0 hne s hs)).1 (hb.2.1 s hs)
      rw [← Finset.sum_mul, ← sumRange_eq_sum nS fun s => b.getD s 0, hb.2.2, one_mul] at h
      rw [h0]
      simp only [remainder, pow_zero, one_mul, Finset.range_zero, Finset.sum_empty, mul_zero, add_zero]
      linarith
  | succ k ih =>
      intro q b hb v hv
      classical
      -- some state is possible
      obtain ⟨s0, hs0, hb0⟩ : ∃ s < nS, b.getD s 0 ≠ 0 := by
        by_contra hc
        push Not at hc
        have := hb.2.2
        rw [sumRange_eq_sum, Finset.sum_eq_zero fun s hs => hc s (Finset.mem_range.1 hs)] at this
        exact absurd this (by norm_num)
      obtain ⟨name, a, h1, h2⟩ : ∃ name a, A.action q = .ok name ∧ p.actions[a]? = some name := by
        have h0 := hv s0 hs0 hb0
        generalize v s0 = v0 at h0
        cases h0 with
        | step _ _ _ name a _ _ h1 h2 _ _ => exact ⟨name, a, h1, h2⟩
      have haA : a < nA := by
        rw [← hp.1.2.1]
        exact (List.getElem?_eq_some_iff.1 h2).1
      set nx : Nat → μ := fun o => match A.observe (p.observations.getD o (.int 0)) q with
        | .ok r => r
        | .error _ => q with hnx
      set W : Nat → Nat → ℚ := fun s' o => if h : ∃ x, ExpectedReturn p nS nO A k (nx o) s' x then h.choose else 0 with hW
      have hWs : ∀ s' o x, ExpectedReturn p nS nO A k (nx o) s' x → ExpectedReturn p nS nO A k (nx o) s' (W s' o) := by
        intro s' o x hx
        have hex : ∃ x, ExpectedReturn p nS nO A k (nx o) s' x := ⟨x, hx⟩
        simp only [hW, dif_pos hex]
        exact hex.choose_spec
      have hs : ∀ s < nS, b.getD s 0 ≠ 0 →
          (∀ s' < nS, ∀ o < nO, p.T.at_ a s s' * p.O.at_ a s' o ≠ 0 → ExpectedReturn p nS nO A k (nx o) s' (W s' o)) ∧
          v s = stepMean p nS nO a s fun s' o => p.R.at_ a s s' o + p.discount * W s' o := by
        intro s hs hbs
        have h0 := hv s hs hbs
        generalize v s = v0 at h0
        cases h0 with
        | step _ _ _ name' a' next' v' g1 g2 g3 g4 =>
            rw [h1] at g1
            cases g1
            have ea := nodup_index _ hd.1 _ _ _ h2 g2
            subst ea
            have hk : ∀ s' < nS, ∀ o < nO, p.T.at_ a s s' * p.O.at_ a s' o ≠ 0 → ExpectedReturn p nS nO A k (nx o) s' (v' s' o) := by
              intro s' hs' o ho hz
              have : nx o = next' o := by simp only [hnx, g3 s' hs' o ho hz]
              rw [this]
              exact g4 s' hs' o ho hz
            refine ⟨fun s' hs' o ho hz => hWs s' o _ (hk s' hs' o ho hz), ?_⟩
            refine Finset.sum_congr rfl fun s' hs' => Finset.sum_congr rfl fun o ho => ?_
            rw [Finset.mem_range] at hs' ho
            by_cases hz : p.T.at_ a s s' * p.O.at_ a s' o = 0
            · rw [hz, zero_mul, zero_mul]
            · show _ * (_ + _ * v' s' o) = _ * (_ + _ * W s' o)
              rw [expectedReturn_unique hd (hk s' hs' o ho hz) (hWs s' o _ (hk s' hs' o ho hz))]
      have hstep : ∀ o, ∃ i < g.actions.length, o < nO → ∑ s' ∈ Finset.range nS, jointProb p nS a o b s' * W s' o ≤
          ∑ s' ∈ Finset.range nS, jointProb p nS a o b s' * nodeValue g i s' + obsProb p nS a o b * remainder p δ B k := by
        intro o
        by_cases ho : o < nO
        · by_cases hz : obsProb p nS a o b = 0
          · refine ⟨0, hne, fun _ => ?_⟩
            rw [hz, zero_mul, add_zero]
            refine Finset.sum_le_sum fun s' hs' => ?_
            rw [joint_zero hp haA ho b hb hz (Finset.mem_range.1 hs'), zero_mul, zero_mul]
          · obtain ⟨b', hb', hpost⟩ := posterior_exists hp haA ho b hb hz
            obtain ⟨i, hi, hle⟩ := ih (nx o) b' hb' (fun s' => W s' o) (by
              intro s' hs' hbs'
              have hj : jointProb p nS a o b s' ≠ 0 := by
                rw [posterior_mul hpost hs']
                exact mul_ne_zero hz hbs'
              unfold jointProb at hj
              rw [sumRange_eq_sum] at hj
              obtain ⟨s, hsm, hsn⟩ := Finset.exists_ne_zero_of_sum_ne_zero (right_ne_zero_of_mul hj)
              exact (hs s (Finset.mem_range.1 hsm) (left_ne_zero_of_mul hsn)).1 s' hs' o ho
                (mul_ne_zero (right_ne_zero_of_mul hsn) (left_ne_zero_of_mul hj)))
            refine ⟨i, hi, fun _ => ?_⟩
            have hpos : 0 ≤ obsProb p nS a o b := sumRange_nonneg _ _ (jointProb_nonneg p hp a o haA ho b hb.2.1)
            have := mul_le_mul_of_nonneg_left hle hpos
            rw [mul_add, Finset.mul_sum, Finset.mul_sum] at this
            rw [joint_sum hpost, joint_sum hpost]
            exact this
        · exact ⟨0, hne, fun h => absurd h ho⟩
      choose next hn1 hn2 using hstep
      obtain ⟨i, hi, hle⟩ := hu b hb a haA next hn1
      refine ⟨i, hi, ?_⟩
      have e1 : ∑ s ∈ Finset.range nS, b.getD s 0 * v s =
          ∑ s ∈ Finset.range nS, b.getD s 0 * stepMean p nS nO a s fun s' o => p.R.at_ a s s' o + p.discount * W s' o := by
        refine Finset.sum_congr rfl fun s hsm => ?_
        by_cases hbs : b.getD s 0 = 0
        · rw [hbs, zero_mul, zero_mul]
        · rw [(hs s (Finset.mem_range.1 hsm) hbs).2]
      have h3 := Finset.sum_le_sum fun o ho => hn2 o (Finset.mem_range.1 ho)
      rw [Finset.sum_add_distrib, ← Finset.sum_mul, obs_total hp haA b hb, one_mul,
        ← belief_stepMean a b (fun s' o => nodeValue g (next o) s'), ← belief_stepMean a b W] at h3
      rw [belief_split] at hle
      rw [e1, belief_split, remainder_succ]
      have := mul_le_mul_of_nonneg_left h3 hγ
      rw [mul_add] at this
      linarith

end

end Verif
