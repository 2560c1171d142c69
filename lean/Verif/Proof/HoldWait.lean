import Verif.Spec.HoldWait
import Verif.Proof.PolicyValue
import Verif.Props.HoldRelease
import Mathlib.Tactic.FieldSimp
import Mathlib.Algebra.Order.Archimedean.Basic
import Mathlib.Tactic.LinearCombination
import Mathlib.Algebra.Order.Field.Power

/-! Proofs about the costs of holding (C115). -/

set_option linter.unusedSectionVars false
set_option linter.unusedSimpArgs false

namespace Verif
open Spec

/-! ### Means as functions -/

section
variable {μ : Type}

/-- The index of the action of an agent. -/
def actF (p : Pomdp) (A : Agent μ) (q : μ) : Nat :=
  match A.action q with
  | .ok name => if name ∈ p.actions then p.actions.idxOf name else 0
  | .error _ => 0

/-- The memory of an agent after an observation. -/
def obsF (p : Pomdp) (A : Agent μ) (q : μ) (o : Nat) : μ :=
  match A.observe (p.observations.getD o (.int 0)) q with
  | .ok q' => q'
  | .error _ => q

/-- The expected return as a function. -/
def valF (p : Pomdp) (nS nO : Nat) (A : Agent μ) : Nat → μ → Nat → ℚ
  | 0, _, _ => 0
  | k + 1, q, s => stepMean p nS nO (actF p A q) s fun s' o => p.R.at_ (actF p A q) s s' o + p.discount * valF p nS nO A k (obsF p A q o) s'

/-- The mean at the end as a function. -/
def endF (p : Pomdp) (nS nO : Nat) (A : Agent μ) (f : Nat → ℚ) : Nat → μ → Nat → ℚ
  | 0, _, s => f s
  | k + 1, q, s => stepMean p nS nO (actF p A q) s fun s' o => endF p nS nO A f k (obsF p A q o) s'

theorem stepMean_congr (p : Pomdp) {nS nO a s : Nat} {f g : Nat → Nat → ℚ}
    (h : ∀ s' < nS, ∀ o < nO, p.T.at_ a s s' * p.O.at_ a s' o ≠ 0 → f s' o = g s' o) : stepMean p nS nO a s f = stepMean p nS nO a s g := by
  unfold stepMean
  refine Finset.sum_congr rfl fun s' hs' => Finset.sum_congr rfl fun o ho => ?_
  by_cases hz : p.T.at_ a s s' * p.O.at_ a s' o = 0
  · rw [hz, zero_mul, zero_mul]
  · rw [h s' (Finset.mem_range.1 hs') o (Finset.mem_range.1 ho) hz]

theorem actF_eq {p : Pomdp} (hd : NamesDistinct p) {A : Agent μ} {q : μ} {name : Name} {a : Nat} (h1 : A.action q = .ok name)
    (h2 : p.actions[a]? = some name) : actF p A q = a := by
  unfold actF
  rw [h1]
  obtain ⟨ha, e⟩ := List.getElem?_eq_some_iff.1 h2
  simp only
  rw [if_pos (List.mem_of_getElem? h2), ← e]
  exact hd.1.idxOf_getElem a ha

theorem valF_eq {p : Pomdp} {nS nO : Nat} (hd : NamesDistinct p) {A : Agent μ} {k : Nat} {q : μ} {s : Nat} {v : ℚ}
    (h : ExpectedReturn p nS nO A k q s v) : v = valF p nS nO A k q s := by
  induction h with
  | stop q s => rfl
  | step k q s name a next v h1 h2 h3 h4 ih =>
    unfold valF
    rw [actF_eq hd h1 h2]
    apply stepMean_congr
    intro s' hs' o ho hz
    have e : obsF p A q o = next o := by
      unfold obsF
      rw [h3 s' hs' o ho hz]
    rw [e, ih s' hs' o ho hz]

theorem endF_eq {p : Pomdp} {nS nO : Nat} (hd : NamesDistinct p) {A : Agent μ} {f : Nat → ℚ} {k : Nat} {q : μ} {s : Nat} {v : ℚ}
    (h : EndMean p nS nO A f k q s v) : v = endF p nS nO A f k q s := by
  induction h with
  | stop q s => rfl
  | step k q s name a next v h1 h2 h3 h4 ih =>
    unfold endF
    rw [actF_eq hd h1 h2]
    apply stepMean_congr
    intro s' hs' o ho hz
    have e : obsF p A q o = next o := by
      unfold obsF
      rw [h3 s' hs' o ho hz]
    rw [e, ih s' hs' o ho hz]

end

/-! ### The model -/

section
variable {solver : Option String} {wait failure communication finish : ℚ} {p : Pomdp} {μ : Type} {A : Agent μ}

theorem hr_distinct (h : holdRelease solver wait failure communication finish = .ok p) : NamesDistinct p := by
  obtain ⟨h1, h2, h3, -⟩ := holdRelease_eq h
  unfold NamesDistinct
  rw [h2, h3]
  decide

theorem hr_means (h : holdRelease solver wait failure communication finish = .ok p) (f : Nat → Nat → ℚ) :
    stepMean p 3 3 0 0 f = (1 - finish) * f 0 0 + finish * f 1 0 ∧ stepMean p 3 3 0 1 f = f 1 0 ∧ stepMean p 3 3 0 2 f = f 2 0 ∧
    stepMean p 3 3 1 0 f = (1 - finish) * f 0 1 + finish * f 1 2 ∧ stepMean p 3 3 1 1 f = f 2 0 ∧ stepMean p 3 3 1 2 f = f 2 0 ∧
    stepMean p 3 3 2 0 f = (1 - finish) * f 0 1 + finish * f 1 2 ∧ stepMean p 3 3 2 1 f = f 1 2 ∧ stepMean p 3 3 2 2 f = f 2 0 := by
  obtain ⟨-, -, -, -, -, h6, h7, -, -⟩ := holdRelease_eq h
  unfold stepMean
  rw [h6, h7]
  simp [Finset.sum_range_succ, hrT, hrO]

theorem hr_reward (h : holdRelease solver wait failure communication finish = .ok p) (a s s' o : Nat) :
    p.R.at_ a s s' o = - (if a = 2 then communication else if a = 1 ∧ s = 0 then failure else if a = 0 then wait else 0) := by
  obtain ⟨-, -, -, -, -, -, -, -, h9⟩ := holdRelease_eq h
  rw [h9]
  rfl

theorem actF_lt (h : holdRelease solver wait failure communication finish = .ok p) (q : μ) : actF p A q = 0 ∨ actF p A q = 1 ∨ actF p A q = 2 := by
  obtain ⟨h1, h2, h3, -⟩ := holdRelease_eq h
  have e : p.actions.length = 3 := by rw [h2]; rfl
  unfold actF
  split
  · split
    · rename_i name _ hm
      have := List.idxOf_lt_length_iff.2 hm
      omega
    · omega
  · omega

theorem val_step (h : holdRelease solver wait failure communication finish = .ok p) (k : Nat) (q : μ) :
    (actF p A q = 0 →
      valF p 3 3 A (k + 1) q 0 = - wait + ((1 - finish) * valF p 3 3 A k (obsF p A q 0) 0 + finish * valF p 3 3 A k (obsF p A q 0) 1) ∧
      valF p 3 3 A (k + 1) q 1 = - wait + valF p 3 3 A k (obsF p A q 0) 1 ∧ valF p 3 3 A (k + 1) q 2 = - wait + valF p 3 3 A k (obsF p A q 0) 2) ∧
    (actF p A q = 1 →
      valF p 3 3 A (k + 1) q 0 = - failure + ((1 - finish) * valF p 3 3 A k (obsF p A q 1) 0 + finish * valF p 3 3 A k (obsF p A q 2) 1) ∧
      valF p 3 3 A (k + 1) q 1 = valF p 3 3 A k (obsF p A q 0) 2 ∧ valF p 3 3 A (k + 1) q 2 = valF p 3 3 A k (obsF p A q 0) 2) ∧
    (actF p A q = 2 →
      valF p 3 3 A (k + 1) q 0 = - communication + ((1 - finish) * valF p 3 3 A k (obsF p A q 1) 0 + finish * valF p 3 3 A k (obsF p A q 2) 1) ∧
      valF p 3 3 A (k + 1) q 1 = - communication + valF p 3 3 A k (obsF p A q 2) 1 ∧
      valF p 3 3 A (k + 1) q 2 = - communication + valF p 3 3 A k (obsF p A q 0) 2) := by
  obtain ⟨-, -, -, h4, -⟩ := holdRelease_eq h
  refine ⟨fun ha => ?_, fun ha => ?_, fun ha => ?_⟩ <;>
  · have s := fun f => hr_means h f
    simp only [valF, ha, (s _).1, (s _).2.1, (s _).2.2.1, (s _).2.2.2.1, (s _).2.2.2.2.1, (s _).2.2.2.2.2.1, (s _).2.2.2.2.2.2.1, (s _).2.2.2.2.2.2.2.1,
      (s _).2.2.2.2.2.2.2.2, hr_reward h, h4]
    refine ⟨?_, ?_, ?_⟩ <;> norm_num <;> ring

theorem end_step (h : holdRelease solver wait failure communication finish = .ok p) (f : Nat → ℚ) (k : Nat) (q : μ) :
    (actF p A q = 0 →
      endF p 3 3 A f (k + 1) q 0 = (1 - finish) * endF p 3 3 A f k (obsF p A q 0) 0 + finish * endF p 3 3 A f k (obsF p A q 0) 1 ∧
      endF p 3 3 A f (k + 1) q 1 = endF p 3 3 A f k (obsF p A q 0) 1 ∧ endF p 3 3 A f (k + 1) q 2 = endF p 3 3 A f k (obsF p A q 0) 2) ∧
    (actF p A q = 1 →
      endF p 3 3 A f (k + 1) q 0 = (1 - finish) * endF p 3 3 A f k (obsF p A q 1) 0 + finish * endF p 3 3 A f k (obsF p A q 2) 1 ∧
      endF p 3 3 A f (k + 1) q 1 = endF p 3 3 A f k (obsF p A q 0) 2 ∧ endF p 3 3 A f (k + 1) q 2 = endF p 3 3 A f k (obsF p A q 0) 2) ∧
    (actF p A q = 2 →
      endF p 3 3 A f (k + 1) q 0 = (1 - finish) * endF p 3 3 A f k (obsF p A q 1) 0 + finish * endF p 3 3 A f k (obsF p A q 2) 1 ∧
      endF p 3 3 A f (k + 1) q 1 = endF p 3 3 A f k (obsF p A q 2) 1 ∧
      endF p 3 3 A f (k + 1) q 2 = endF p 3 3 A f k (obsF p A q 0) 2) := by
  refine ⟨fun ha => ?_, fun ha => ?_, fun ha => ?_⟩ <;>
  · have s := fun f => hr_means h f
    simp only [endF, ha, (s _).1, (s _).2.1, (s _).2.2.1, (s _).2.2.2.1, (s _).2.2.2.2.1, (s _).2.2.2.2.2.1, (s _).2.2.2.2.2.2.1, (s _).2.2.2.2.2.2.2.1,
      (s _).2.2.2.2.2.2.2.2]
    exact ⟨trivial, trivial, trivial⟩

/-! ### No agent does better -/

theorem costs_nonneg (h : holdRelease solver wait failure communication finish = .ok p) (hf : 0 ≤ finish) (hf1 : finish ≤ 1) (hw : 0 ≤ wait)
    (hF : 0 ≤ failure) (hc : 0 ≤ communication) : ∀ k (q : μ) (s : Nat), s < 3 → valF p 3 3 A k q s ≤ 0 ∧ 0 ≤ endF p 3 3 A holding k q s := by
  intro k
  induction k with
  | zero =>
    intro q s _
    refine ⟨le_refl _, ?_⟩
    show 0 ≤ holding s
    unfold holding
    split <;> norm_num
  | succ k ih =>
    intro q s hs
    have b := fun q s hs => (ih q s hs).1
    have e := fun q s hs => (ih q s hs).2
    have g : 0 ≤ 1 - finish := by linarith
    obtain ⟨v0, v1, v2⟩ := val_step (A := A) h k q
    obtain ⟨e0, e1, e2⟩ := end_step (A := A) h holding k q
    have z : ∀ x y : ℚ, x ≤ 0 → y ≤ 0 → (1 - finish) * x + finish * y ≤ 0 := fun x y hx hy => by nlinarith [mul_nonneg g (neg_nonneg.2 hx), mul_nonneg hf (neg_nonneg.2 hy)]
    have z' : ∀ x y : ℚ, 0 ≤ x → 0 ≤ y → 0 ≤ (1 - finish) * x + finish * y := fun x y hx hy => add_nonneg (mul_nonneg g hx) (mul_nonneg hf hy)
    rcases actF_lt (A := A) h q with ha | ha | ha
    · obtain ⟨a0, a1, a2⟩ := v0 ha
      obtain ⟨b0, b1, b2⟩ := e0 ha
      rcases lt_three hs with rfl | rfl | rfl
      · rw [a0, b0]
        exact ⟨by linarith [z _ _ (b (obsF p A q 0) 0 (by omega)) (b (obsF p A q 0) 1 (by omega))], z' _ _ (e _ _ (by omega)) (e _ _ (by omega))⟩
      · rw [a1, b1]
        exact ⟨by linarith [b (obsF p A q 0) 1 (by omega)], e _ _ (by omega)⟩
      · rw [a2, b2]
        exact ⟨by linarith [b (obsF p A q 0) 2 (by omega)], e _ _ (by omega)⟩
    · obtain ⟨a0, a1, a2⟩ := v1 ha
      obtain ⟨b0, b1, b2⟩ := e1 ha
      rcases lt_three hs with rfl | rfl | rfl
      · rw [a0, b0]
        exact ⟨by linarith [z _ _ (b (obsF p A q 1) 0 (by omega)) (b (obsF p A q 2) 1 (by omega))], z' _ _ (e _ _ (by omega)) (e _ _ (by omega))⟩
      · rw [a1, b1]
        exact ⟨b _ 2 (by omega), e _ _ (by omega)⟩
      · rw [a2, b2]
        exact ⟨b _ 2 (by omega), e _ _ (by omega)⟩
    · obtain ⟨a0, a1, a2⟩ := v2 ha
      obtain ⟨b0, b1, b2⟩ := e2 ha
      rcases lt_three hs with rfl | rfl | rfl
      · rw [a0, b0]
        exact ⟨by linarith [z _ _ (b (obsF p A q 1) 0 (by omega)) (b (obsF p A q 2) 1 (by omega))], z' _ _ (e _ _ (by omega)) (e _ _ (by omega))⟩
      · rw [a1, b1]
        exact ⟨by linarith [b (obsF p A q 2) 1 (by omega)], e _ _ (by omega)⟩
      · rw [a2, b2]
        exact ⟨by linarith [b (obsF p A q 0) 2 (by omega)], e _ _ (by omega)⟩

theorem cost_bound (h : holdRelease solver wait failure communication finish = .ok p) (hf : 0 ≤ finish) (hf1 : finish ≤ 1) (hw : 0 ≤ wait)
    (hF : 0 ≤ failure) (hc : 0 ≤ communication) {W : ℚ} (hW : 0 ≤ W)
    (h1 : ∀ n : Nat, W * (1 - (1 - finish) ^ (n + 1)) ≤ n * wait + (1 - finish) ^ n * failure)
    (h2 : ∀ n : Nat, W * (1 - (1 - finish) ^ (n + 1)) ≤ n * wait + communication) :
    ∀ k (j : Nat) (q : μ), W ≤ j * wait + (1 - finish) ^ j * (W * endF p 3 3 A holding k q 0 - valF p 3 3 A k q 0) +
      (1 - (1 - finish) ^ j) * (W * endF p 3 3 A holding k q 1 - valF p 3 3 A k q 1) := by
  have g : 0 ≤ 1 - finish := by linarith
  have g1 : 1 - finish ≤ 1 := by linarith
  intro k
  induction k with
  | zero =>
    intro j q
    have : (0 : ℚ) ≤ j * wait := mul_nonneg (by positivity) hw
    simp only [endF, valF, holding, HrState.ix]
    norm_num
    linarith
  | succ k ih =>
    intro j q
    obtain ⟨v0, v1, v2⟩ := val_step (A := A) h k q
    obtain ⟨e0, e1, e2⟩ := end_step (A := A) h holding k q
    have pj : 0 ≤ (1 - finish) ^ j := pow_nonneg g j
    have pj1 : (1 - finish) ^ j ≤ 1 := pow_le_one₀ g g1
    have N := costs_nonneg (A := A) h hf hf1 hw hF hc k
    have N' : ∀ q s, s < 3 → 0 ≤ W * endF p 3 3 A holding k q s - valF p 3 3 A k q s := fun q s hs => by
      have := N q s hs
      nlinarith [mul_nonneg hW this.2, this.1]
    have i0 := ih 0 (obsF p A q 1)
    simp only [Nat.cast_zero, zero_mul, pow_zero, one_mul, sub_self, zero_add, add_zero] at i0
    rcases actF_lt (A := A) h q with ha | ha | ha
    · obtain ⟨a0, a1, -⟩ := v0 ha
      obtain ⟨b0, b1, -⟩ := e0 ha
      rw [a0, a1, b0, b1]
      have := ih (j + 1) (obsF p A q 0)
      rw [pow_succ] at this
      push_cast at this
      linarith
    · obtain ⟨a0, a1, -⟩ := v1 ha
      obtain ⟨b0, b1, -⟩ := e1 ha
      rw [a0, a1, b0, b1]
      have c1 := h1 j
      rw [pow_succ] at c1
      have n1 := mul_nonneg (mul_nonneg pj hf) (N' (obsF p A q 2) 1 (by omega))
      have n2 := mul_nonneg (sub_nonneg.2 pj1) (N' (obsF p A q 0) 2 (by omega))
      have n3 := mul_le_mul_of_nonneg_left i0 (mul_nonneg pj g)
      linarith
    · obtain ⟨a0, a1, -⟩ := v2 ha
      obtain ⟨b0, b1, -⟩ := e2 ha
      rw [a0, a1, b0, b1]
      have c1 := h2 j
      rw [pow_succ] at c1
      have n1 := mul_nonneg (mul_nonneg pj hf) (N' (obsF p A q 2) 1 (by omega))
      have n2 := mul_nonneg (sub_nonneg.2 pj1) (N' (obsF p A q 2) 1 (by omega))
      have n3 := mul_le_mul_of_nonneg_left i0 (mul_nonneg pj g)
      linarith

/-! ### Agents that never fail -/

theorem agent_defined {p : Pomdp} {nS nO : Nat} (hd : NamesDistinct p) {A : Agent μ} {Q : μ → Prop} (H : ∀ q, Q q → ∃ name a, A.action q = .ok name ∧
    p.actions[a]? = some name ∧ ∃ next : Nat → μ, ∀ s < nS, ∀ s' < nS, ∀ o < nO, p.T.at_ a s s' * p.O.at_ a s' o ≠ 0 →
      A.observe (p.observations.getD o (.int 0)) q = .ok (next o) ∧ Q (next o)) (f : Nat → ℚ) :
    ∀ k q s, Q q → s < nS → ExpectedReturn p nS nO A k q s (valF p nS nO A k q s) ∧ EndMean p nS nO A f k q s (endF p nS nO A f k q s) := by
  intro k
  induction k with
  | zero => intro q s _ _; exact ⟨.stop _ _, .stop _ _⟩
  | succ k ih =>
    intro q s hq hs
    obtain ⟨name, a, h1, h2, next, h3⟩ := H q hq
    have r1 : ExpectedReturn p nS nO A (k + 1) q s _ := .step k q s name a next (fun s' o => valF p nS nO A k (next o) s') h1 h2
      (fun s' hs' o ho hz => (h3 s hs s' hs' o ho hz).1) (fun s' hs' o ho hz => (ih (next o) s' (h3 s hs s' hs' o ho hz).2 hs').1)
    have r2 : EndMean p nS nO A f (k + 1) q s _ := .step k q s name a next (fun s' o => endF p nS nO A f k (next o) s') h1 h2
      (fun s' hs' o ho hz => (h3 s hs s' hs' o ho hz).1) (fun s' hs' o ho hz => (ih (next o) s' (h3 s hs s' hs' o ho hz).2 hs').2)
    rw [← valF_eq hd r1, ← endF_eq hd r2]
    exact ⟨r1, r2⟩

/-! ### The plans -/

section
variable {w F c r : ℚ} {ask : Bool} {n : Nat}

theorem planCost_eq (hr : 0 ≤ r) (hr1 : r < 1) :
    planCost w F c r ask n = n * w + r ^ n * ((if ask then c else F) + r * planCost w F c r ask n) + (1 - r ^ n) * (if ask then c else 0) := by
  have hne : 1 - r ^ (n + 1) ≠ 0 := by
    have : r ^ (n + 1) < 1 := pow_lt_one₀ hr hr1 (Nat.succ_ne_zero n)
    linarith
  have e : planCost w F c r ask n * (1 - r ^ (n + 1)) = n * w + if ask then c else r ^ n * F := by
    unfold planCost
    exact div_mul_cancel₀ _ hne
  rw [pow_succ] at e
  cases ask
  · simp only [Bool.false_eq_true, if_false] at e ⊢
    linarith
  · simp only [if_true] at e ⊢
    linarith

theorem planRest_zero (hr : 0 ≤ r) (hr1 : r < 1) : planRest w F c r ask n 0 0 = planCost w F c r ask n := by
  rw [planCost_eq hr hr1]
  simp [planRest]

theorem planRest_wait {i : Nat} (hi : i < n) :
    planRest w F c r ask n i 0 = w + (r * planRest w F c r ask n (i + 1) 0 + (1 - r) * planRest w F c r ask n (i + 1) 1) ∧
      planRest w F c r ask n i 1 = w + planRest w F c r ask n (i + 1) 1 ∧ planRest w F c r ask n i 2 = w + planRest w F c r ask n (i + 1) 2 := by
  obtain ⟨d, hd⟩ : ∃ d, n - i = d + 1 := ⟨n - i - 1, by omega⟩
  have hd' : n - (i + 1) = d := by omega
  have n1 : ¬ i = n + 1 := by omega
  have n2 : ¬ i + 1 = n + 1 := by omega
  simp only [planRest, hd, hd', if_neg n1, if_neg n2]
  refine ⟨?_, ?_, ?_⟩
  · norm_num
    rw [pow_succ]
    split_ifs <;> ring
  · norm_num
    ring
  · norm_num
    ring

theorem planRest_last (hr : 0 ≤ r) (hr1 : r < 1) :
    planRest w F c r ask n n 0 = (if ask then c else F) + (r * planRest w F c r ask n 0 0 + (1 - r) * planRest w F c r ask n (n + 1) 1) ∧
      planRest w F c r ask n n 1 = (if ask then c else 0) ∧ planRest w F c r ask n n 2 = (if ask then c else 0) ∧
      planRest w F c r ask n (n + 1) 0 = F + (r * planRest w F c r ask n 0 0 + (1 - r) * planRest w F c r ask n (n + 1) 1) ∧
      planRest w F c r ask n (n + 1) 1 = 0 ∧ planRest w F c r ask n (n + 1) 2 = 0 := by
  rw [planRest_zero hr hr1]
  simp [planRest]

theorem planCost_nonneg (hr : 0 ≤ r) (hr1 : r < 1) (hw : 0 ≤ w) (hF : 0 ≤ F) (hc : 0 ≤ c) : 0 ≤ planCost w F c r ask n := by
  unfold planCost
  have : r ^ (n + 1) < 1 := pow_lt_one₀ hr hr1 (Nat.succ_ne_zero n)
  apply div_nonneg _ (by linarith)
  apply add_nonneg (mul_nonneg (by positivity) hw)
  split
  · exact hc
  · exact mul_nonneg (pow_nonneg hr n) hF

theorem planRest_nonneg (hr : 0 ≤ r) (hr1 : r < 1) (hw : 0 ≤ w) (hF : 0 ≤ F) (hc : 0 ≤ c) (i s : Nat) : 0 ≤ planRest w F c r ask n i s := by
  have J := planCost_nonneg (ask := ask) (n := n) hr hr1 hw hF hc
  have a1 : 0 ≤ (if ask then c else 0) := by split <;> linarith
  have a2 : 0 ≤ (if ask then c else F) := by split <;> linarith
  have p1 : r ^ (n - i) ≤ 1 := pow_le_one₀ hr hr1.le
  have p0 : 0 ≤ r ^ (n - i) := pow_nonneg hr _
  have q0 : 0 ≤ ((n - i : Nat) : ℚ) * w := mul_nonneg (by positivity) hw
  have j0 := mul_nonneg hr J
  unfold planRest
  simp only
  split
  · split
    · linarith
    · exact le_refl _
  · split
    · have := mul_nonneg p0 (add_nonneg a2 j0)
      have := mul_nonneg (sub_nonneg.2 p1) a1
      linarith
    · linarith

/-! The graph of a plan. -/

theorem plan_length : (holdPlan w F c r ask n).actions.length = n + 2 := by simp [holdPlan]

theorem plan_action (i : Nat) (hi : i < n + 2) :
    (holdPlan w F c r ask n).actions.getD i (.int 0) = .str (if i < n then "wait" else if i = n ∧ ask then "communicate" else "physical") := by
  unfold holdPlan
  simp only [List.getD_eq_getElem?_getD]
  by_cases h : i < n
  · rw [List.getElem?_append_left (by simpa using h)]
    simp [h]
  · rw [List.getElem?_append_right (by simp; omega)]
    have : i = n ∨ i = n + 1 := by omega
    rcases this with rfl | rfl
    · cases ask <;> simp
    · cases ask <;> simp

theorem plan_row (i : Nat) (hi : i < n + 2) : (holdPlan w F c r ask n).transitions.getD i [] =
    if i < n then [some (i + 1 : Int), none, none] else [some (n + 1 : Int), some 0, some (n + 1 : Int)] := by
  unfold holdPlan
  simp only [List.getD_eq_getElem?_getD]
  by_cases h : i < n
  · rw [List.getElem?_append_left (by simpa using h)]
    simp [h]
  · rw [List.getElem?_append_right (by simp; omega)]
    have : i = n ∨ i = n + 1 := by omega
    rcases this with rfl | rfl <;> simp

theorem plan_value (i : Nat) (hi : i < n + 2) (s : Nat) (hs : s < 3) : nodeValue (holdPlan w F c r ask n) i s = - planRest w F c r ask n i s := by
  unfold nodeValue holdPlan
  simp [List.getD_eq_getElem?_getD, List.getElem?_map, List.getElem?_range hi, List.getElem?_range hs]

end

/-! ### The plans solve the model -/

section
variable {solver : Option String} {wait failure communication finish : ℚ} {p : Pomdp} {ask : Bool} {n : Nat}

theorem three {i : Nat} (h : i < 3) : i = 0 ∨ i = 1 ∨ i = 2 := by omega

/-- The action of a step of the plan. -/
def planAct (ask : Bool) (n i : Nat) : Nat := if i < n then 0 else if i = n ∧ ask then 2 else 1

/-- The step after an observation. -/
def planNext (n i o : Nat) : Nat := if i < n then i + 1 else if o = 1 then 0 else n + 1

theorem plan_act (h : holdRelease solver wait failure communication finish = .ok p) (i : Nat) (hi : i < n + 2) :
    p.actions[planAct ask n i]? = some ((holdPlan wait failure communication (1 - finish) ask n).actions.getD i (.int 0)) := by
  obtain ⟨h1, h2, -⟩ := holdRelease_eq h
  rw [plan_action i hi, h2]
  unfold planAct
  split_ifs <;> rfl

theorem plan_next (h : holdRelease solver wait failure communication finish = .ok p) (i : Nat) (hi : i < n + 2) (s s' o : Nat) (ho : o < 3)
    (hz : p.T.at_ (planAct ask n i) s s' * p.O.at_ (planAct ask n i) s' o ≠ 0) :
    ((holdPlan wait failure communication (1 - finish) ask n).transitions.getD i [])[o]? = some (some (planNext n i o : Int)) ∧ planNext n i o < n + 2 := by
  obtain ⟨-, -, -, -, -, h6, h7, -, -⟩ := holdRelease_eq h
  rw [plan_row i hi]
  unfold planNext
  by_cases hin : i < n
  · simp only [if_pos hin]
    have ea : planAct ask n i = 0 := by simp [planAct, hin]
    rw [ea, h7] at hz
    have : o = 0 := by
      rcases three ho with rfl | rfl | rfl
      · rfl
      · exact absurd (by simp [hrO]) hz
      · exact absurd (by simp [hrO]) hz
    subst this
    exact ⟨by simp, by omega⟩
  · simp only [if_neg hin]
    rcases three ho with rfl | rfl | rfl <;> simp

theorem node_cases {i : Nat} (hi : i < n + 2) : i < n ∨ i = n ∨ i = n + 1 := by omega

theorem plan_step (h : holdRelease solver wait failure communication finish = .ok p) (hf : 0 < finish) (hf1 : finish ≤ 1) (i : Nat) (hi : i < n + 2)
    (s : Nat) (hs : s < 3) (f : Nat → Nat → ℚ) (hv : ∀ i < n + 2, ∀ s < 3, f i s = - planRest wait failure communication (1 - finish) ask n i s) :
    stepMean p 3 3 (planAct ask n i) s (fun s' o => p.R.at_ (planAct ask n i) s s' o + p.discount * f (planNext n i o) s') = f i s := by
  obtain ⟨-, -, -, h4, -⟩ := holdRelease_eq h
  have hr : 0 ≤ 1 - finish := by linarith
  have hr1 : 1 - finish < 1 := by linarith
  obtain ⟨l1, l2, l3, l4, l5, l6⟩ := planRest_last (w := wait) (F := failure) (c := communication) (ask := ask) (n := n) hr hr1
  have m := fun f => hr_means h f
  have M := fun f => (m f).1
  rcases node_cases hi with hin | rfl | rfl
  · obtain ⟨w0, w1, w2⟩ := planRest_wait (w := wait) (F := failure) (c := communication) (r := 1 - finish) (ask := ask) hin
    have ea : planAct ask n i = 0 := by simp [planAct, hin]
    have en : ∀ o, planNext n i o = i + 1 := fun o => by simp [planNext, hin]
    rw [ea, hv i hi s hs]
    simp only [en, h4, hr_reward h]
    rcases three hs with rfl | rfl | rfl
    · rw [(m _).1, w0, hv (i + 1) (by omega) 0 (by omega), hv (i + 1) (by omega) 1 (by omega)]
      norm_num
      ring
    · rw [(m _).2.1, w1, hv (i + 1) (by omega) 1 (by omega)]
      norm_num
      ring
    · rw [(m _).2.2.1, w2, hv (i + 1) (by omega) 2 (by omega)]
      norm_num
      ring
  · have e0 : planNext i i 0 = i + 1 := by simp [planNext]
    have e1 : planNext i i 1 = 0 := by simp [planNext]
    have e2 : planNext i i 2 = i + 1 := by simp [planNext]
    rw [hv i hi s hs]
    cases ask
    · have ea : planAct false i i = 1 := by simp [planAct]
      rw [ea]
      simp only [h4, hr_reward h]
      rcases three hs with rfl | rfl | rfl
      · rw [(m _).2.2.2.1, l1, e1, e2, hv 0 (by omega) 0 (by omega), hv (i + 1) (by omega) 1 (by omega)]
        norm_num
        ring
      · rw [(m _).2.2.2.2.1, l2, e0, hv (i + 1) (by omega) 2 (by omega), l6]
        norm_num
      · rw [(m _).2.2.2.2.2.1, l3, e0, hv (i + 1) (by omega) 2 (by omega), l6]
        norm_num
    · have ea : planAct true i i = 2 := by simp [planAct]
      rw [ea]
      simp only [h4, hr_reward h]
      rcases three hs with rfl | rfl | rfl
      · rw [(m _).2.2.2.2.2.2.1, l1, e1, e2, hv 0 (by omega) 0 (by omega), hv (i + 1) (by omega) 1 (by omega)]
        norm_num
        ring
      · rw [(m _).2.2.2.2.2.2.2.1, l2, e2, hv (i + 1) (by omega) 1 (by omega), l5]
        norm_num
      · rw [(m _).2.2.2.2.2.2.2.2, l3, e0, hv (i + 1) (by omega) 2 (by omega), l6]
        norm_num
  · have e0 : planNext n (n + 1) 0 = n + 1 := by simp [planNext]
    have e1 : planNext n (n + 1) 1 = 0 := by simp [planNext]
    have e2 : planNext n (n + 1) 2 = n + 1 := by simp [planNext]
    rw [hv (n + 1) hi s hs]
    have ea : planAct ask n (n + 1) = 1 := by simp [planAct]
    rw [ea]
    simp only [h4, hr_reward h]
    rcases three hs with rfl | rfl | rfl
    · rw [(m _).2.2.2.1, l4, e1, e2, hv 0 (by omega) 0 (by omega), hv (n + 1) (by omega) 1 (by omega)]
      norm_num
      ring
    · rw [(m _).2.2.2.2.1, l5, e0, hv (n + 1) (by omega) 2 (by omega), l6]
      norm_num
    · rw [(m _).2.2.2.2.2.1, l6, e0, hv (n + 1) (by omega) 2 (by omega), l6]
      norm_num

theorem plan_solves (h : holdRelease solver wait failure communication finish = .ok p) (hf : 0 < finish) (hf1 : finish ≤ 1) :
    Solves p 3 3 (holdPlan wait failure communication (1 - finish) ask n) 0 := by
  obtain ⟨h1, h2, h3, -⟩ := holdRelease_eq h
  refine ⟨⟨?_, ?_, ?_, ?_⟩, ?_, ?_, ?_⟩
  · simp [holdPlan]
  · simp [holdPlan]
  · intro v hv
    simp only [holdPlan, List.mem_map] at hv
    obtain ⟨i, _, rfl⟩ := hv
    simp
  · intro a ha
    rw [h2]
    unfold holdPlan at ha
    simp only [List.mem_append, List.mem_replicate, List.mem_cons, List.not_mem_nil, or_false] at ha
    rcases ha with ⟨_, rfl⟩ | rfl | rfl
    · decide
    · cases ask <;> decide
    · decide
  · simp [holdPlan]
  · rw [h3]; rfl
  · intro i hi a ha
    rw [plan_length] at hi ⊢
    have ea : a = planAct ask n i := nodup_index _ (hr_distinct h).1 _ _ _ ha (plan_act h i hi)
    subst ea
    refine ⟨planNext n i, fun s _ s' _ o ho hz => plan_next h i hi s s' o ho hz, fun s hs => ?_⟩
    rw [plan_step h hf hf1 i hi s hs (nodeValue (holdPlan wait failure communication (1 - finish) ask n)) (fun i hi s hs => plan_value i hi s hs), sub_self,
      abs_zero]

/-! ### What the plans cost -/

theorem plan_actF (h : holdRelease solver wait failure communication finish = .ok p) (i : Nat) (hi : i < n + 2) :
    actF p (graphAgent (holdPlan wait failure communication (1 - finish) ask n)) (i : Int) = planAct ask n i :=
  actF_eq (hr_distinct h) (graph_action _ i (by rw [plan_length]; exact hi)) (plan_act h i hi)

theorem plan_obs (h : holdRelease solver wait failure communication finish = .ok p) (hf : 0 < finish) (hf1 : finish ≤ 1) (i : Nat) (hi : i < n + 2)
    (s s' o : Nat) (ho : o < 3) (hz : p.T.at_ (planAct ask n i) s s' * p.O.at_ (planAct ask n i) s' o ≠ 0) :
    (graphAgent (holdPlan wait failure communication (1 - finish) ask n)).observe (p.observations.getD o (.int 0)) (i : Int) =
      .ok ((planNext n i o : Nat) : Int) :=
  graph_observe ((C66_stochastic h).2.2.2 ⟨hf.le, hf1⟩) (hr_distinct h) (plan_solves h hf hf1) (by rw [plan_length]; exact hi) ho
    (plan_next h i hi s s' o ho hz).1

theorem plan_obsF (h : holdRelease solver wait failure communication finish = .ok p) (hf : 0 < finish) (hf1 : finish ≤ 1) (i : Nat) (hi : i < n + 2)
    (s s' o : Nat) (ho : o < 3) (hz : p.T.at_ (planAct ask n i) s s' * p.O.at_ (planAct ask n i) s' o ≠ 0) :
    obsF p (graphAgent (holdPlan wait failure communication (1 - finish) ask n)) (i : Int) o = ((planNext n i o : Nat) : Int) := by
  unfold obsF
  rw [plan_obs h hf hf1 i hi s s' o ho hz]

theorem plan_defined (h : holdRelease solver wait failure communication finish = .ok p) (hf : 0 < finish) (hf1 : finish ≤ 1) (f : Nat → ℚ) (k i s : Nat)
    (hi : i < n + 2) (hs : s < 3) :
    ExpectedReturn p 3 3 (graphAgent (holdPlan wait failure communication (1 - finish) ask n)) k (i : Int) s
        (valF p 3 3 (graphAgent (holdPlan wait failure communication (1 - finish) ask n)) k (i : Int) s) ∧
      EndMean p 3 3 (graphAgent (holdPlan wait failure communication (1 - finish) ask n)) f k (i : Int) s
        (endF p 3 3 (graphAgent (holdPlan wait failure communication (1 - finish) ask n)) f k (i : Int) s) := by
  refine agent_defined (hr_distinct h) (Q := fun q : Int => ∃ i : Nat, i < n + 2 ∧ q = i) ?_ f k i s ⟨i, hi, rfl⟩ hs
  rintro q ⟨i, hi, rfl⟩
  refine ⟨_, planAct ask n i, graph_action _ i (by rw [plan_length]; exact hi), plan_act h i hi, fun o => ((planNext n i o : Nat) : Int), ?_⟩
  intro s _ s' _ o ho hz
  exact ⟨plan_obs h hf hf1 i hi s s' o ho hz, _, (plan_next (failure := failure) h i hi s s' o ho hz).2, rfl⟩

theorem plan_rest (h : holdRelease solver wait failure communication finish = .ok p) (hf : 0 < finish) (hf1 : finish ≤ 1) (hw : 0 ≤ wait) (hF : 0 ≤ failure)
    (hc : 0 ≤ communication) : ∀ k i s, i < n + 2 → s < 3 → - planRest wait failure communication (1 - finish) ask n i s ≤
      valF p 3 3 (graphAgent (holdPlan wait failure communication (1 - finish) ask n)) k (i : Int) s := by
  have hp := (C66_stochastic h).2.2.2 ⟨hf.le, hf1⟩
  obtain ⟨-, -, -, h4, -⟩ := holdRelease_eq h
  intro k
  induction k with
  | zero =>
    intro i s _ _
    have := planRest_nonneg (ask := ask) (n := n) (by linarith : 0 ≤ 1 - finish) (by linarith) hw hF hc i s
    show _ ≤ (0 : ℚ)
    linarith
  | succ k ih =>
    intro i s hi hs
    rw [← plan_step h hf hf1 i hi s hs (fun i s => - planRest wait failure communication (1 - finish) ask n i s) (fun _ _ _ _ => rfl)]
    unfold valF
    rw [plan_actF h i hi]
    refine stepMean_le hp ?_ hs _ _ fun s' hs' o ho hz => ?_
    · unfold planAct
      split_ifs <;> omega
    · rw [plan_obsF h hf hf1 i hi s s' o ho hz, h4]
      have := ih (planNext n i o) s' (plan_next (failure := failure) h i hi s s' o ho hz).2 hs'
      linarith

theorem end_plan (h : holdRelease solver wait failure communication finish = .ok p) (hf : 0 < finish) (hf1 : finish ≤ 1) (f : Nat → ℚ) (k i s : Nat)
    (hi : i < n + 2) : endF p 3 3 (graphAgent (holdPlan wait failure communication (1 - finish) ask n)) f (k + 1) (i : Int) s =
      stepMean p 3 3 (planAct ask n i) s fun s' o =>
        endF p 3 3 (graphAgent (holdPlan wait failure communication (1 - finish) ask n)) f k ((planNext n i o : Nat) : Int) s' := by
  conv_lhs => unfold endF
  rw [plan_actF h i hi]
  exact stepMean_congr p fun s' _ o ho hz => by rw [plan_obsF h hf hf1 i hi s s' o ho hz]

theorem plan_end (h : holdRelease solver wait failure communication finish = .ok p) (hf : 0 < finish) (hf1 : finish ≤ 1) : ∀ k i, i < n + 2 →
    endF p 3 3 (graphAgent (holdPlan wait failure communication (1 - finish) ask n)) holding k (i : Int) 2 = 0 ∧
    endF p 3 3 (graphAgent (holdPlan wait failure communication (1 - finish) ask n)) holding k (i : Int) 1 ≤ 1 ∧
    (n + 2 ≤ k + i → endF p 3 3 (graphAgent (holdPlan wait failure communication (1 - finish) ask n)) holding k (i : Int) 1 = 0) ∧
    endF p 3 3 (graphAgent (holdPlan wait failure communication (1 - finish) ask n)) holding k (i : Int) 0 ≤ (1 - finish) ^ (k - (n + 2)) := by
  have hr : 0 ≤ 1 - finish := by linarith
  intro k
  induction k with
  | zero =>
    intro i hi
    simp only [endF, holding, HrState.ix]
    norm_num
    omega
  | succ k ih =>
    intro i hi
    have m := fun f => hr_means h f
    have p1 : (1 - finish) ^ (k - (n + 2)) ≤ 1 := pow_le_one₀ hr (by linarith)
    have key : ∀ i j, i < n + 2 → j < n + 2 → (k < n + 2 ∨ n + 2 ≤ k + j) →
        (1 - finish) * endF p 3 3 (graphAgent (holdPlan wait failure communication (1 - finish) ask n)) holding k (i : Int) 0 +
        finish * endF p 3 3 (graphAgent (holdPlan wait failure communication (1 - finish) ask n)) holding k (j : Int) 1 ≤ (1 - finish) ^ (k + 1 - (n + 2)) := by
      intro i j hi hj hk
      have a0 := mul_le_mul_of_nonneg_left (ih i hi).2.2.2 hr
      rcases Nat.lt_or_ge k (n + 2) with hlt | hge
      · have z : k + 1 - (n + 2) = 0 := by omega
        have z' : k - (n + 2) = 0 := by omega
        rw [z', pow_zero] at a0
        rw [z, pow_zero]
        have := mul_le_mul_of_nonneg_left (ih j hj).2.1 hf.le
        linarith
      · rw [(ih j hj).2.2.1 (by omega), Nat.sub_add_comm hge, pow_succ]
        linarith
    simp only [end_plan h hf hf1 _ k i _ hi]
    rcases node_cases hi with hin | rfl | rfl
    · have ea : planAct ask n i = 0 := by simp [planAct, hin]
      have en : ∀ o, planNext n i o = i + 1 := fun o => by simp [planNext, hin]
      simp only [ea, en, (m _).1, (m _).2.1, (m _).2.2.1]
      obtain ⟨b1, b2, b3, -⟩ := ih (i + 1) (by omega)
      exact ⟨b1, b2, fun hk => b3 (by omega), key (i + 1) (i + 1) (by omega) (by omega) (by omega)⟩
    · have e0 : planNext i i 0 = i + 1 := by simp [planNext]
      have e1 : planNext i i 1 = 0 := by simp [planNext]
      have e2 : planNext i i 2 = i + 1 := by simp [planNext]
      obtain ⟨b1, b2, b3, -⟩ := ih (i + 1) (by omega)
      cases ask
      · have ea : planAct false i i = 1 := by simp [planAct]
        simp only [ea, (m _).2.2.2.1, (m _).2.2.2.2.1, (m _).2.2.2.2.2.1, e0, e1, e2, b1]
        exact ⟨trivial, zero_le_one, fun _ => trivial, key 0 (i + 1) (by omega) (by omega) (by omega)⟩
      · have ea : planAct true i i = 2 := by simp [planAct]
        simp only [ea, (m _).2.2.2.2.2.2.1, (m _).2.2.2.2.2.2.2.1, (m _).2.2.2.2.2.2.2.2, e0, e1, e2, b1]
        exact ⟨trivial, b2, fun hk => b3 (by omega), key 0 (i + 1) (by omega) (by omega) (by omega)⟩
    · have e0 : planNext n (n + 1) 0 = n + 1 := by simp [planNext]
      have e1 : planNext n (n + 1) 1 = 0 := by simp [planNext]
      have e2 : planNext n (n + 1) 2 = n + 1 := by simp [planNext]
      have ea : planAct ask n (n + 1) = 1 := by simp [planAct]
      obtain ⟨b1, b2, b3, -⟩ := ih (n + 1) (by omega)
      simp only [ea, (m _).2.2.2.1, (m _).2.2.2.2.1, (m _).2.2.2.2.2.1, e0, e1, e2, b1]
      exact ⟨trivial, zero_le_one, fun _ => trivial, key 0 (n + 1) (by omega) (by omega) (by omega)⟩

end

/-! ### The best plan -/

section
variable {w F c r : ℚ} {ask : Bool} {n : Nat}

theorem pow_pos_gap (hr : 0 ≤ r) (hr1 : r < 1) (n : Nat) : 0 < 1 - r ^ (n + 1) := by
  have : r ^ (n + 1) < 1 := pow_lt_one₀ hr hr1 (Nat.succ_ne_zero n)
  linarith

theorem plan_wait_le (hr : 0 ≤ r) (hr1 : r < 1) (hw : 0 ≤ w) (hF : 0 ≤ F) (hc : 0 ≤ c) : n * w ≤ planCost w F c r ask n := by
  unfold planCost
  rw [le_div_iff₀ (pow_pos_gap hr hr1 n)]
  have a : 0 ≤ (if ask then c else r ^ n * F) := by
    split
    · exact hc
    · exact mul_nonneg (pow_nonneg hr n) hF
  have b : 0 ≤ (n : ℚ) * w * r ^ (n + 1) := mul_nonneg (mul_nonneg (by positivity) hw) (pow_nonneg hr _)
  linarith

theorem best_below (f : Bool → Nat → ℚ) (N : Nat) : ∃ ask n, n ≤ N ∧ ∀ ask' n', n' ≤ N → f ask n ≤ f ask' n' := by
  induction N with
  | zero =>
    rcases le_total (f true 0) (f false 0) with h | h
    · exact ⟨true, 0, le_refl _, fun a m hm => by obtain rfl : m = 0 := by omega
                                                  cases a <;> first | exact h | exact le_refl _⟩
    · exact ⟨false, 0, le_refl _, fun a m hm => by obtain rfl : m = 0 := by omega
                                                   cases a <;> first | exact h | exact le_refl _⟩
  | succ N ih =>
    obtain ⟨a, n, hn, hm⟩ := ih
    have step : ∀ (g : ℚ) (a : Bool) (n : Nat), n ≤ N + 1 → (∀ a' n', n' ≤ N → f a n ≤ f a' n') → ∀ b, ∃ a' n', n' ≤ N + 1 ∧ f a' n' ≤ f a n ∧ f a' n' ≤ f b (N + 1) := by
      intro g a n hn _ b
      rcases le_total (f a n) (f b (N + 1)) with h | h
      · exact ⟨a, n, hn, le_refl _, h⟩
      · exact ⟨b, N + 1, le_refl _, h, le_refl _⟩
    obtain ⟨a1, n1, hn1, l1, m1⟩ := step 0 a n (by omega) hm true
    obtain ⟨a2, n2, hn2, l2, m2⟩ := step 0 a1 n1 hn1 (fun a' n' h => le_trans l1 (hm a' n' h)) false
    refine ⟨a2, n2, hn2, fun a' n' hn' => ?_⟩
    rcases Nat.lt_or_ge N n' with h | h
    · obtain rfl : n' = N + 1 := by omega
      cases a'
      · exact m2
      · exact le_trans l2 m1
    · exact le_trans l2 (le_trans l1 (hm a' n' h))

theorem plan_best (hr : 0 ≤ r) (hr1 : r < 1) (hw : 0 < w) (hF : 0 ≤ F) (hc : 0 ≤ c) :
    ∃ ask n, ∀ ask' n', planCost w F c r ask n ≤ planCost w F c r ask' n' := by
  obtain ⟨N, hN⟩ := exists_nat_ge (planCost w F c r false 0 / w)
  rw [div_le_iff₀ hw] at hN
  obtain ⟨ask, n, hn, hm⟩ := best_below (planCost w F c r) N
  refine ⟨ask, n, fun a' n' => ?_⟩
  rcases Nat.lt_or_ge N n' with h | h
  · have e : (N : ℚ) * w ≤ n' * w := mul_le_mul_of_nonneg_right (by exact_mod_cast h.le) hw.le
    exact le_trans (hm false 0 (by omega)) (le_trans hN (le_trans e (plan_wait_le hr hr1 hw.le hF hc)))
  · exact hm a' n' h

theorem plan_more (hr : 0 ≤ r) (hr1 : r < 1) : planCost w F c r ask (n + 1) < planCost w F c r ask n ↔
    w * (1 - r ^ (n + 1) * (1 + n * (1 - r))) < (if ask then r * c else F) * (r ^ n * (1 - r)) := by
  unfold planCost
  rw [div_lt_div_iff₀ (pow_pos_gap hr hr1 (n + 1)) (pow_pos_gap hr hr1 n)]
  have e2 : r ^ (n + 1 + 1) = r ^ n * r * r := by rw [pow_succ, pow_succ]
  have e1 : r ^ (n + 1) = r ^ n * r := pow_succ r n
  rw [e2, e1]
  push_cast
  cases ask
  · simp only [Bool.false_eq_true, if_false]
    constructor <;> intro h <;> linarith
  · simp only [if_true]
    constructor <;> intro h <;> linarith

theorem plan_stop (hr : 0 ≤ r) (hr1 : r < 1) (hw : 0 ≤ w) (hF : 0 ≤ F) (hc : 0 ≤ c) (hn : planCost w F c r ask n ≤ planCost w F c r ask (n + 1)) :
    ∀ m, n ≤ m → planCost w F c r ask n ≤ planCost w F c r ask m := by
  have X : 0 ≤ (if ask then r * c else F) := by
    split
    · exact mul_nonneg hr hc
    · exact hF
  have g : 0 ≤ 1 - r := by linarith
  have grow : ∀ m, planCost w F c r ask m ≤ planCost w F c r ask (m + 1) → planCost w F c r ask (m + 1) ≤ planCost w F c r ask (m + 1 + 1) := by
    intro m h
    rw [← not_lt, plan_more hr hr1, not_lt] at h ⊢
    have a : (if ask then r * c else F) * (r ^ (m + 1) * (1 - r)) ≤ (if ask then r * c else F) * (r ^ m * (1 - r)) := by
      apply mul_le_mul_of_nonneg_left _ X
      apply mul_le_mul_of_nonneg_right _ g
      rw [pow_succ]
      exact mul_le_of_le_one_right (pow_nonneg hr m) hr1.le
    have b : r ^ (m + 1 + 1) * (1 + (m + 1 : Nat) * (1 - r)) ≤ r ^ (m + 1) * (1 + m * (1 - r)) := by
      rw [pow_succ r (m + 1), mul_assoc]
      apply mul_le_mul_of_nonneg_left _ (pow_nonneg hr _)
      push_cast
      have : 0 ≤ (m : ℚ) := by positivity
      nlinarith [mul_nonneg g g, mul_nonneg this (mul_nonneg g g)]
    have := mul_le_mul_of_nonneg_left b hw
    linarith
  have all : ∀ d, planCost w F c r ask (n + d) ≤ planCost w F c r ask (n + d + 1) := by
    intro d
    induction d with
    | zero => exact hn
    | succ d ih => exact grow _ ih
  intro m hm
  obtain ⟨d, rfl⟩ := Nat.exists_eq_add_of_le hm
  induction d with
  | zero => exact le_refl _
  | succ d ih => exact le_trans (ih (by omega)) (all d)

end

end

end Verif
