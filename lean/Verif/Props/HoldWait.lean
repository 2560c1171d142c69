import Verif.Proof.HoldWait

/-! Properties of the costs of holding, `hold_and_release.py:6-33` (C115). -/

set_option linter.unusedSectionVars false
set_option linter.unusedSimpArgs false

namespace Verif
open Spec

/-- C115: if `W` is no more than the cost of any plan then no agent, whatever its memory, expects to pay less than `W` times the probability that it has released by
then. -/
theorem C115_bound (solver : Option String) (wait failure communication finish : ℚ) (p : Pomdp)
    (h : holdRelease solver wait failure communication finish = .ok p) (hf : 0 < finish) (hf1 : finish ≤ 1) (hw : 0 ≤ wait) (hF : 0 ≤ failure)
    (hc : 0 ≤ communication) (W : ℚ) (hW : 0 ≤ W) (hp : ∀ ask n, W ≤ planCost wait failure communication (1 - finish) ask n) {μ : Type} (A : Agent μ)
    (k : Nat) (q : μ) (v u : ℚ) (hv : ExpectedReturn p 3 3 A k q HrState.working.ix v) (hu : EndMean p 3 3 A holding k q HrState.working.ix u) :
    W * (1 - u) ≤ -v := by
  have hr : 0 ≤ 1 - finish := by linarith
  have pos : ∀ n : Nat, 0 < 1 - (1 - finish) ^ (n + 1) := fun n => by
    have : (1 - finish) ^ (n + 1) < 1 := pow_lt_one₀ hr (by linarith) (Nat.succ_ne_zero n)
    linarith
  have h1 : ∀ n : Nat, W * (1 - (1 - finish) ^ (n + 1)) ≤ n * wait + (1 - finish) ^ n * failure := fun n => by
    have := hp false n
    unfold planCost at this
    rw [le_div_iff₀ (pos n)] at this
    simpa using this
  have h2 : ∀ n : Nat, W * (1 - (1 - finish) ^ (n + 1)) ≤ n * wait + communication := fun n => by
    have := hp true n
    unfold planCost at this
    rw [le_div_iff₀ (pos n)] at this
    simpa using this
  have b := cost_bound (A := A) h hf.le hf1 hw hF hc hW h1 h2 k 0 q
  have ev : v = valF p 3 3 A k q 0 := valF_eq (hr_distinct h) hv
  have eu : u = endF p 3 3 A holding k q 0 := endF_eq (hr_distinct h) hu
  rw [ev, eu]
  simp only [Nat.cast_zero, zero_mul, pow_zero, one_mul, sub_self, zero_add, add_zero] at b
  linarith

/-- C115: the plan solves the model, without any error: the values of its nodes are what it earns. -/
theorem C115_solves (solver : Option String) (wait failure communication finish : ℚ) (p : Pomdp)
    (h : holdRelease solver wait failure communication finish = .ok p) (hf : 0 < finish) (hf1 : finish ≤ 1) (ask : Bool) (n : Nat) :
    Solves p 3 3 (holdPlan wait failure communication (1 - finish) ask n) 0 ∧
      nodeValue (holdPlan wait failure communication (1 - finish) ask n) 0 HrState.working.ix = - planCost wait failure communication (1 - finish) ask n := by
  refine ⟨plan_solves h hf hf1, ?_⟩
  show nodeValue _ 0 0 = _
  rw [plan_value 0 (by omega) 0 (by omega), planRest_zero (by linarith) (by linarith)]

/-- C115: `GraphPolicyRunner` with the plan never fails; it expects to pay at most the cost of the plan, however long it runs, and it releases almost surely. -/
theorem C115_plan (solver : Option String) (wait failure communication finish : ℚ) (p : Pomdp)
    (h : holdRelease solver wait failure communication finish = .ok p) (hf : 0 < finish) (hf1 : finish ≤ 1) (hw : 0 ≤ wait) (hF : 0 ≤ failure)
    (hc : 0 ≤ communication) (ask : Bool) (n k : Nat) :
    ∃ v u, ExpectedReturn p 3 3 (graphAgent (holdPlan wait failure communication (1 - finish) ask n)) k 0 HrState.working.ix v ∧
      EndMean p 3 3 (graphAgent (holdPlan wait failure communication (1 - finish) ask n)) holding k 0 HrState.working.ix u ∧
      -v ≤ planCost wait failure communication (1 - finish) ask n ∧ u ≤ (1 - finish) ^ (k - (n + 2)) := by
  obtain ⟨d1, d2⟩ := plan_defined (ask := ask) (n := n) h hf hf1 holding k 0 0 (by omega) (by omega)
  refine ⟨_, _, d1, d2, ?_, (plan_end h hf hf1 k 0 (by omega)).2.2.2⟩
  have := plan_rest (ask := ask) (n := n) h hf hf1 hw hF hc k 0 0 (by omega) (by omega)
  rw [planRest_zero (by linarith) (by linarith)] at this
  linarith

/-- C115: if waiting costs something then one of the plans is the best, and no agent expects to pay less than its cost times the probability that it has released. -/
theorem C115_optimal (solver : Option String) (wait failure communication finish : ℚ) (p : Pomdp)
    (h : holdRelease solver wait failure communication finish = .ok p) (hf : 0 < finish) (hf1 : finish ≤ 1) (hw : 0 < wait) (hF : 0 ≤ failure)
    (hc : 0 ≤ communication) : ∃ ask n, (∀ ask' n', planCost wait failure communication (1 - finish) ask n ≤ planCost wait failure communication (1 - finish) ask' n') ∧
      ∀ (μ : Type) (A : Agent μ) (k : Nat) (q : μ) (v u : ℚ), ExpectedReturn p 3 3 A k q HrState.working.ix v → EndMean p 3 3 A holding k q HrState.working.ix u →
        planCost wait failure communication (1 - finish) ask n * (1 - u) ≤ -v := by
  have hr : 0 ≤ 1 - finish := by linarith
  obtain ⟨ask, n, hm⟩ := plan_best hr (by linarith) hw hF hc
  exact ⟨ask, n, hm, fun μ A k q v u hv hu =>
    C115_bound solver wait failure communication finish p h hf hf1 hw.le hF hc _ (planCost_nonneg hr (by linarith) hw.le hF hc) hm A k q v u hv hu⟩

/-- C115: when one more wait pays. -/
theorem C115_one_more (wait failure communication finish : ℚ) (hf : 0 < finish) (hf1 : finish ≤ 1) (ask : Bool) (n : Nat) :
    planCost wait failure communication (1 - finish) ask (n + 1) < planCost wait failure communication (1 - finish) ask n ↔
      wait * (1 - (1 - finish) ^ (n + 1) * (1 + n * finish)) < (if ask then (1 - finish) * communication else failure) * ((1 - finish) ^ n * finish) := by
  have := plan_more (w := wait) (F := failure) (c := communication) (ask := ask) (n := n) (by linarith : 0 ≤ 1 - finish) (by linarith)
  rwa [sub_sub_cancel] at this

/-- C115: once one more wait does not pay, no longer wait does. -/
theorem C115_stop (wait failure communication finish : ℚ) (hf : 0 < finish) (hf1 : finish ≤ 1) (hw : 0 ≤ wait) (hF : 0 ≤ failure) (hc : 0 ≤ communication)
    (ask : Bool) (n : Nat) (hn : planCost wait failure communication (1 - finish) ask n ≤ planCost wait failure communication (1 - finish) ask (n + 1)) (m : Nat)
    (hm : n ≤ m) : planCost wait failure communication (1 - finish) ask n ≤ planCost wait failure communication (1 - finish) ask m :=
  plan_stop (by linarith) (by linarith) hw hF hc hn m hm

/-- C115: it does not pay to ask if asking costs as much as a failure, however long the plan waits. -/
theorem C115_no_ask (wait failure communication finish : ℚ) (hf : 0 < finish) (hf1 : finish ≤ 1) (hc : 0 ≤ communication) (h : failure ≤ communication) (n : Nat) :
    planCost wait failure communication (1 - finish) false n ≤ planCost wait failure communication (1 - finish) true n := by
  have hr : 0 ≤ 1 - finish := by linarith
  have pos : (1 - finish) ^ (n + 1) < 1 := pow_lt_one₀ hr (by linarith) (Nat.succ_ne_zero n)
  unfold planCost
  apply div_le_div_of_nonneg_right _ (by linarith)
  have p0 : 0 ≤ (1 - finish) ^ n := pow_nonneg hr n
  have p1 : (1 - finish) ^ n ≤ 1 := pow_le_one₀ hr (by linarith)
  simp only [Bool.false_eq_true, if_false, if_true]
  nlinarith [mul_le_mul_of_nonneg_left h p0, mul_le_mul_of_nonneg_right p1 hc]

/-- C115: asking at once is better than acting at once if and only if it costs less. -/
theorem C115_ask (wait failure communication finish : ℚ) (hf : 0 < finish) (hf1 : finish ≤ 1) :
    planCost wait failure communication (1 - finish) true 0 < planCost wait failure communication (1 - finish) false 0 ↔ communication < failure := by
  unfold planCost
  simp only [Bool.false_eq_true, if_false, if_true, Nat.cast_zero, zero_mul, zero_add, pow_zero, one_mul, pow_one, sub_sub_cancel]
  exact div_lt_div_iff_of_pos_right hf

/-- Non-vacuity of C115: with the default probability, waiting at 1, failures at 10 and questions at 2, the model is built and the best plan waits twice and asks: no
agent expects to pay less than 500/61 times the probability that it has released. -/
example : ∃ p, holdRelease (some "pomdp-solve") 1 10 2 hrFinish = .ok p ∧ planCost 1 10 2 (1 - hrFinish) true 2 = 500 / 61 ∧
    ∀ (μ : Type) (A : Agent μ) (k : Nat) (q : μ) (v u : ℚ), ExpectedReturn p 3 3 A k q HrState.working.ix v → EndMean p 3 3 A holding k q HrState.working.ix u →
      500 / 61 * (1 - u) ≤ -v := by
  obtain ⟨p, hp⟩ := C66_accepted "pomdp-solve" 1 10 2 hrFinish
  refine ⟨p, hp, by norm_num [planCost, hrFinish], fun μ A k q v u hv hu => ?_⟩
  have f0 : 0 < hrFinish := by norm_num [hrFinish]
  have f1 : hrFinish ≤ 1 := by norm_num [hrFinish]
  refine C115_bound _ 1 10 2 hrFinish p hp f0 f1 (by norm_num) (by norm_num) (by norm_num) _ (by norm_num) (fun ask n => ?_) A k q v u hv hu
  cases ask
  · have s := C115_stop 1 10 2 hrFinish f0 f1 (by norm_num) (by norm_num) (by norm_num) false 6 (by norm_num [planCost, hrFinish]) n
    rcases Nat.lt_or_ge n 6 with h | h
    · interval_cases n <;> norm_num [planCost, hrFinish]
    · exact le_trans (by norm_num [planCost, hrFinish]) (s h)
  · have s := C115_stop 1 10 2 hrFinish f0 f1 (by norm_num) (by norm_num) (by norm_num) true 2 (by norm_num [planCost, hrFinish]) n
    rcases Nat.lt_or_ge n 2 with h | h
    · interval_cases n <;> norm_num [planCost, hrFinish]
    · exact le_trans (by norm_num [planCost, hrFinish]) (s h)

/-- **C66 (default).**  Without a finish probability, whatever the robot does the human finishes in a fifth of the steps. -/
theorem C66_default (solver : Option String) (wait failure communication : ℚ) (p : Pomdp)
    (h : holdRelease solver wait failure communication hrFinish = .ok p) (a : Nat) :
    p.T.at_ a 0 0 = 4 / 5 ∧ p.T.at_ a 0 1 = 1 / 5 ∧ p.T.at_ a 0 2 = 0 := by
  rw [(holdRelease_eq h).2.2.2.2.2.1]
  norm_num [hrT, hrFinish]

end Verif
