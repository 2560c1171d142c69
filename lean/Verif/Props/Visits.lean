import Verif.Proof.Visits
import Verif.Props.Orders

/-! # C105: plays of a model of `HTMToPOMDP` -/

set_option linter.unusedSimpArgs false

namespace Verif
open Spec

/-- The number of leaves after the replacement of the parallel combinations. -/
local notation "len" n:max => List.length (N2P.leaves n)

/-- The model of a task, by its leaves. -/
theorem visits_model (path : String) (exp : ℚ → ℚ) (radix : String → String) (h : HtmParams) (fuel : Nat) (t : Htm CAction)
    (hb : Built t) (hf : HFull t) (hd : callDepth t ≤ fuel) (hdet : h.deterministic = false) (p : Pomdp)
    (hp : htmToPomdp (some path) exp radix h fuel t = .ok p) :
    ∃ n q, N2P.fromNode CAction.ops fuel t = .ok n ∧
      SameChances (LabelsCopy CAction.ops n) (orderProb 3 (3 * len n) (fun s => p.start.getD s 0) q) (evenChances t) ∧
      VRows exp (actDuration h n) (len n) (fun k => n.leaves[k]?) q p.T.at_ ∧ VCosts h (actDuration h n) (fun k => n.leaves[k]?) p.R.at_ ∧
      ∀ s, p.start.getD s 0 ≠ 0 → ∃ k c, s = 3 * k ∧ n.leaves[k]? = some c := by
  obtain ⟨n, q, h1, hrobot, hhuman⟩ := C83_htm_even_partial path exp radix h fuel t hb hf hd p hp
  obtain ⟨n1, h1', hrows⟩ := C33_transitions path exp radix h fuel t hb hf hd p hp
  obtain ⟨n2, h1'', hcosts, -⟩ := C34_costs path exp radix h fuel t hb hf hd p hp
  obtain rfl : n = n1 := by rw [h1] at h1'; injection h1'
  obtain rfl : n = n2 := by rw [h1] at h1''; injection h1''
  have hh := hhuman hdet
  refine ⟨n, q, h1, hrobot.2, ⟨fun k c hk => (List.getElem?_eq_some_iff.1 hk).1, fun k c hk x z => ?_, fun k c hk x z => ?_,
    fun k c hk x z => (hrobot.1 k c hk).2 x z, fun k c hk z hz => ?_⟩, hcosts, ?_⟩
  · obtain ⟨_, _, _, _, _, hr⟩ := hrows k c hk
    exact (hr x z).1
  · have := (hh.1 k c hk).2 x z
    rw [hdet] at this
    exact this
  · have hnd := (hrobot.1 k c hk).1
    rcases (hnd.2.1 z).1 (lt_of_le_of_ne (hnd.1 z) (Ne.symm hz)) with ⟨j, hj, rfl⟩ | ⟨rfl, -⟩
    · obtain ⟨l1, l2⟩ := followedBy_lt hj
      exact .inl ⟨j, _, rfl, l1, List.getElem?_eq_getElem l2⟩
    · exact .inr rfl
  · obtain ⟨n3, h1''', ⟨hfn, hlang, hleaves⟩, h3⟩ := htmToPomdp_ok (some path) exp radix h fuel t hb hf hd
    obtain rfl : n = n3 := by rw [h1] at h1'''; injection h1'''
    rw [h3] at hp
    obtain ⟨hs, eT, eO, eR, est, _, es, ea, eo, hg⟩ := htmConvert_ok path exp radix h n hfn p hp
    intro s hs0
    have hmem : s ∈ n.init 3 0 := by
      by_contra hm
      apply hs0
      rw [est]
      by_cases hs : s < htmNS h n
      · rw [getD_map_range _ _ _ hs]
        exact scatter_not_mem _ _ _ _ hm
      · rw [List.getD, List.getElem?_eq_none (by simpa using hs)]
        rfl
    obtain ⟨k, hk, e⟩ := N2P.init_range 3 n 0 s hmem
    exact ⟨k, _, by omega, List.getElem?_eq_getElem hk⟩

/-- **C105**, probabilities: whatever the actions, the probability of the states of a play is the probability of the order of its
leaves in the task, times for each leaf a probability that depends only on the action of this leaf and on the actions of its visit. -/
theorem C105_probability (path : String) (exp : ℚ → ℚ) (radix : String → String) (h : HtmParams) (fuel : Nat) (t : Htm CAction)
    (hb : Built t) (hf : HFull t) (hd : callDepth t ≤ fuel) (hdet : h.deterministic = false) (p : Pomdp)
    (hp : htmToPomdp (some path) exp radix h fuel t = .ok p) :
    ∃ n q, N2P.fromNode CAction.ops fuel t = .ok n ∧
      SameChances (LabelsCopy CAction.ops n) (orderProb 3 (3 * len n) (fun s => p.start.getD s 0) q) (evenChances t) ∧
      ∀ vs cs, vs ≠ [] → (∀ v ∈ vs, v.Valid) → ActionsOf n vs cs →
        p.start.getD (firstState (3 * len n) vs) 0 * playProb p.T.at_ (firstState (3 * len n) vs) (playOf (3 * len n) vs) =
          orderProb 3 (3 * len n) (fun s => p.start.getD s 0) q (vs.map Visit.leaf) *
            (List.zipWith (fun v c => visitChance exp (actDuration h n) c v) vs cs).prod := by
  obtain ⟨n, q, h1, h2, h3, -, -⟩ := visits_model path exp radix h fuel t hb hf hd hdet p hp
  refine ⟨n, q, h1, h2, fun vs cs hne hv hc => ?_⟩
  rw [h3.follow vs cs hv hc hne]
  cases vs with
  | nil => exact absurd rfl hne
  | cons v vs => simp only [firstState, List.map_cons, orderProb, mul_assoc]

/-- **C105**, plays: every play of the model, from a start to its first arrival at the end, is made of visits, one leaf after the other
from left to right, and in one way only. -/
theorem C105_plays (path : String) (exp : ℚ → ℚ) (radix : String → String) (h : HtmParams) (fuel : Nat) (t : Htm CAction)
    (hb : Built t) (hf : HFull t) (hd : callDepth t ≤ fuel) (hdet : h.deterministic = false) (p : Pomdp)
    (hp : htmToPomdp (some path) exp radix h fuel t = .ok p) :
    ∃ n, N2P.fromNode CAction.ops fuel t = .ok n ∧ ∀ s w, p.start.getD s 0 * playProb p.T.at_ s w ≠ 0 →
      (w.map Prod.snd).getLast? = some (3 * len n) → (∀ z ∈ (w.map Prod.snd).dropLast, z ≠ 3 * len n) →
      ∃! vs : List Visit, firstState (3 * len n) vs = s ∧ playOf (3 * len n) vs = w ∧ (∀ v ∈ vs, v.Valid ∧ v.leaf < len n) ∧
        (vs.map Visit.leaf).Pairwise (· < ·) ∧ vs ≠ [] := by
  obtain ⟨n, q, h1, h2, h3, -, h5⟩ := visits_model path exp radix h fuel t hb hf hd hdet p hp
  refine ⟨n, h1, fun s w hw hl hdr => ?_⟩
  obtain ⟨hs, hw'⟩ := mul_ne_zero_iff.1 hw
  obtain ⟨k, c, hk, hc⟩ := h5 s hs
  obtain ⟨v, vs, e, hvk, hval, hpw⟩ := (h3.split w s hw' hl hdr).1 k c hc hk
  refine ⟨v :: vs, ⟨by rw [hk, ← hvk]; rfl, e.symm, fun u hu => ⟨(hval u hu).1, ?_⟩, hpw, by simp⟩, ?_⟩
  · obtain ⟨c', hc'⟩ := (hval u hu).2
    exact (List.getElem?_eq_some_iff.1 hc').1
  · rintro vs' ⟨e1, e2, -⟩
    exact playOf_inj _ _ _ (by rw [e1, hk, ← hvk]; rfl) (by rw [e2, e])

/-- **C105**, rewards: whatever is observed, visits of successive leaves earn the reward of a subtask for each leaf, minus the costs of
the actions. -/
theorem C105_rewards (path : String) (exp : ℚ → ℚ) (radix : String → String) (h : HtmParams) (fuel : Nat) (t : Htm CAction)
    (hb : Built t) (hf : HFull t) (hd : callDepth t ≤ fuel) (hdet : h.deterministic = false) (p : Pomdp)
    (hp : htmToPomdp (some path) exp radix h fuel t = .ok p) :
    ∃ n, N2P.fromNode CAction.ops fuel t = .ok n ∧ ∀ vs cs, ActionsOf n vs cs → (vs.map Visit.leaf).IsChain (· ≠ ·) →
      ∀ r, Earns p.R.at_ (firstState (3 * len n) vs) (playOf (3 * len n) vs) r ↔
        r = (List.zipWith (fun v c => h.subtaskReward.getD 0 - visitCost h (actDuration h n) c v) vs cs).sum := by
  obtain ⟨n, q, h1, -, h3, h4, -⟩ := visits_model path exp radix h fuel t hb hf hd hdet p hp
  refine ⟨n, h1, fun vs cs hc hp r => ?_⟩
  have := earns_visits h3.some_lt h4 vs cs hc hp
  exact ⟨fun hr => earns_unique hr this, fun e => e ▸ this⟩

/-- **C105**, time: if the exponential used is exact up to `ε`, the probability that the human is still doing a leaf after some actions
depends, up to `ε` for each action, only on the time that the actions take: it is `exp (- time / t_hum)`. -/
theorem C105_time (path : String) (exp : ℚ → ℚ) (radix : String → String) (h : HtmParams) (fuel : Nat) (t : Htm CAction)
    (hb : Built t) (hf : HFull t) (hd : callDepth t ≤ fuel) (hdet : h.deterministic = false) (p : Pomdp)
    (hp : htmToPomdp (some path) exp radix h fuel t = .ok p) (ε : ℝ)
    (hexp : ∀ x ≤ 0, 0 ≤ exp x ∧ exp x ≤ 1 ∧ |(exp x : ℝ) - Real.exp x| ≤ ε) :
    ∃ n, N2P.fromNode CAction.ops fuel t = .ok n ∧ ∀ k c, n.leaves[k]? = some c → 0 < c.tHum → ∀ xs : List Nat, (∀ x ∈ xs, 0 ≤ actDuration h n x) →
      |(playProb p.T.at_ (3 * k + 1) (xs.map fun x => (x, 3 * k + 1)) : ℝ) -
        Real.exp (-(xs.map fun x => (actDuration h n x : ℝ)).sum / c.tHum)| ≤ xs.length * ε := by
  obtain ⟨n, q, h1, -, h3, -, -⟩ := visits_model path exp radix h fuel t hb hf hd hdet p hp
  refine ⟨n, h1, fun k c hk ht xs hxs => ?_⟩
  have e : playProb p.T.at_ (3 * k + 1) (xs.map fun x => (x, 3 * k + 1)) = (xs.map fun x => notDone exp c (actDuration h n x)).prod := by
    have := playProb_stay (T := p.T.at_) (fun x => notDone exp c (actDuration h n x)) (3 * k + 1) xs (fun x _ => by
      rw [h3.human k c hk, humanRow, h3.off hk (3 * k + 1) (by omega), stay, if_pos rfl, notDone]
      ring) []
    simpa [playProb] using this
  rw [e, ← exp_sum]
  refine (prod_near ε _ _ xs fun x hx => ?_).2.2.2.2
  have hx0 : -actDuration h n x / c.tHum ≤ 0 := div_nonpos_of_nonpos_of_nonneg (by linarith [hxs x hx]) ht.le
  obtain ⟨e1, e2, e3⟩ := hexp _ hx0
  have hx1 : -(actDuration h n x : ℝ) / c.tHum ≤ 0 := by exact_mod_cast hx0
  refine ⟨e1, e2, (Real.exp_pos _).le, Real.exp_le_one_iff.2 hx1, ?_⟩
  rw [notDone]
  push_cast at e3 ⊢
  exact e3

/-- **C105**, attempts: when the robot tells that it does a leaf and repeats the physical action, the leaf is completed within `m` attempts
with probability `1 - fail ^ m`, and the expected cost (of the plays that need at most `m` attempts) tends to the cost of telling and of
`1 / (1 - fail)` attempts. -/
theorem C105_robot (exp : ℚ → ℚ) (h : HtmParams) (n : N2P CAction) (k : Nat) (c : CAction) (hk : n.leaves[k]? = some c) (hc : c.failProba ≠ 1) (m : Nat) :
    (∀ f, (robotVisit k f).Valid) ∧ sumRange m (fun f => visitChance exp (actDuration h n) c (robotVisit k f)) = 1 - c.failProba ^ m ∧
      sumRange m (fun f => visitChance exp (actDuration h n) c (robotVisit k f) * visitCost h (actDuration h n) c (robotVisit k f)) =
        (h.tTell + h.intrCost) * (1 - c.failProba ^ m) +
          (c.tRob + h.intrCost) * ((1 - c.failProba ^ m) / (1 - c.failProba) - m * c.failProba ^ m) := by
  have h1 : ∀ f, visitChance exp (actDuration h n) c (robotVisit k f) = c.failProba ^ f * (1 - c.failProba) := by
    intro f
    simp [visitChance, robotVisit]
  have h2 : ∀ f, visitCost h (actDuration h n) c (robotVisit k f) = (h.tTell + h.intrCost) + ((f : ℚ) + 1) * (c.tRob + h.intrCost) := by
    intro f
    have e : actDuration h n (4 * k + 3) = h.tTell := by
      have e1 : (4 * k + 2) / 4 = k := by omega
      have e2 : (4 * k + 2) % 4 = 2 := by omega
      simp [actDuration, e1, e2, hk]
    simp [visitCost, robotVisit, doingCost, actCost, e]
    ring
  refine ⟨fun f => ⟨by simp [robotVisit], .inr ⟨rfl, rfl⟩, fun _ => rfl⟩, ?_, ?_⟩
  · simp only [h1]
    exact attempts_sum _ _
  · simp only [h1, h2]
    exact attempts_cost _ _ _ hc m

/-- **C105**, waiting: when the human answers that they do a leaf, with probability `1 - no`, and the robot waits, the leaf is completed
within `m` waits with probability `1 - exp (- t_wait / t_hum) ^ m`; the expected cost likewise. -/
theorem C105_human (exp : ℚ → ℚ) (h : HtmParams) (n : N2P CAction) (k : Nat) (c : CAction) (hk : n.leaves[k]? = some c) (e : ℚ)
    (he : e = exp (-h.tWait / c.tHum)) (hc : e ≠ 1) (m : Nat) :
    (∀ f, (humanVisit k f).Valid) ∧ sumRange m (fun f => visitChance exp (actDuration h n) c (humanVisit k f)) = (1 - c.noProba) * (1 - e ^ m) ∧
      sumRange m (fun f => visitChance exp (actDuration h n) c (humanVisit k f) * visitCost h (actDuration h n) c (humanVisit k f)) =
        (1 - c.noProba) * ((h.tAsk + h.intrCost) * (1 - e ^ m) + h.tWait * ((1 - e ^ m) / (1 - e) - m * e ^ m)) := by
  have h1 : ∀ f, visitChance exp (actDuration h n) c (humanVisit k f) = (1 - c.noProba) * (e ^ f * (1 - e)) := by
    intro f
    simp [visitChance, humanVisit, notDone, actDuration, ← he]
  have h2 : ∀ f, visitCost h (actDuration h n) c (humanVisit k f) = (h.tAsk + h.intrCost) + ((f : ℚ) + 1) * h.tWait := by
    intro f
    have e : actDuration h n (4 * k + 2) = h.tAsk := by
      have e1 : (4 * k + 1) / 4 = k := by omega
      have e2 : (4 * k + 1) % 4 = 1 := by omega
      simp [actDuration, e1, e2, hk]
    simp [visitCost, humanVisit, doingCost, actCost, e]
    ring
  refine ⟨fun f => ⟨by simp [humanVisit], .inl rfl, by simp [humanVisit]⟩, ?_, ?_⟩
  · simp only [h1]
    rw [sumRange_mul_left, attempts_sum]
  · simp only [h1, h2, mul_assoc]
    rw [sumRange_mul_left]
    simp only [← mul_assoc]
    rw [attempts_cost _ _ _ hc m]

/-! ### Non-vacuity -/

/-- The legs by the human after a question and two waits, then the seat by the robot after two failures. -/
def demoVisits : List Visit := [humanVisit 0 1, robotVisit 1 2]

/-- The task of the examples is converted, and these visits occur: states, probability given the order and cost. -/
example : (∃ p, htmToPomdp (some "pomdp-solve") (fun _ => 1 / 2) id demoParams 5 demoTask = .ok p) ∧ demoParams.deterministic = false ∧
    (∀ v ∈ demoVisits, v.Valid) ∧ (demoVisits.map Visit.leaf).IsChain (· ≠ ·) ∧
    playOf 18 demoVisits = [(2, 1), (0, 1), (0, 3), (7, 5), (5, 5), (5, 5), (5, 18)] ∧
    visitChance (fun _ => 1 / 2) (fun _ => 1) ⟨"x", 1, 2, 3, 1 / 10, 1 / 20⟩ (humanVisit 0 1) = 9 / 40 ∧
    visitCost demoParams (fun _ => 1) ⟨"x", 1, 2, 3, 1 / 10, 1 / 20⟩ (robotVisit 1 2) = 11 := by
  refine ⟨demo_converts, rfl, ?_, by decide, by decide, by decide +kernel, by decide +kernel⟩
  intro v hv
  simp only [demoVisits, List.mem_cons, List.not_mem_nil, or_false] at hv
  rcases hv with rfl | rfl
  · exact ⟨by simp [humanVisit], .inl rfl, by simp [humanVisit]⟩
  · exact ⟨by simp [robotVisit], .inr ⟨rfl, rfl⟩, fun _ => rfl⟩

/-- An exponential with 53 bits after the point. -/
noncomputable def cutExp (x : ℚ) : ℚ := (⌊Real.exp x * 2 ^ 53⌋ : ℚ) / 2 ^ 53

/-- It meets the hypothesis of `C105_time`. -/
example : ∀ x : ℚ, x ≤ 0 → 0 ≤ cutExp x ∧ cutExp x ≤ 1 ∧ |(cutExp x : ℝ) - Real.exp x| ≤ 1 / 2 ^ 53 := by
  intro x hx
  have h0 := Real.exp_pos (x : ℝ)
  have h1 : Real.exp (x : ℝ) ≤ 1 := Real.exp_le_one_iff.2 (by exact_mod_cast hx)
  have f0 : 0 ≤ ⌊Real.exp (x : ℝ) * 2 ^ 53⌋ := Int.floor_nonneg.2 (by positivity)
  have f1 : ⌊Real.exp (x : ℝ) * 2 ^ 53⌋ ≤ 2 ^ 53 := by
    have : (⌊Real.exp (x : ℝ) * 2 ^ 53⌋ : ℝ) ≤ 2 ^ 53 := (Int.floor_le _).trans (by nlinarith [pow_pos (two_pos (α := ℝ)) 53])
    exact_mod_cast this
  have f2 := Int.floor_le (Real.exp (x : ℝ) * 2 ^ 53)
  have f3 := Int.lt_floor_add_one (Real.exp (x : ℝ) * 2 ^ 53)
  refine ⟨div_nonneg (by exact_mod_cast f0) (by positivity), div_le_one_of_le₀ (by exact_mod_cast f1) (by positivity), ?_⟩
  have e : (cutExp x : ℝ) = (⌊Real.exp (x : ℝ) * 2 ^ 53⌋ : ℝ) / 2 ^ 53 := by
    rw [cutExp]
    push_cast
    rfl
  rw [e]
  generalize (⌊Real.exp (x : ℝ) * 2 ^ 53⌋ : ℝ) = y at *
  generalize Real.exp (x : ℝ) = E at *
  rw [abs_le]
  constructor <;> linarith

end Verif
