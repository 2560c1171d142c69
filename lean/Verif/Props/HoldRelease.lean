import Mathlib.Tactic.Ring
import Mathlib.Tactic.Linarith
import Verif.Props.Pomdp
import Verif.Spec.HoldRelease

set_option linter.unusedSectionVars false
set_option linter.unusedSimpArgs false

/-!
# C66: the hold-and-release model
-/

namespace Verif
open Spec

theorem sumRange_three (f : Nat → ℚ) : sumRange 3 f = f 0 + f 1 + f 2 := by
  simp [sumRange, List.range_succ]; ring

theorem lt_three {n : Nat} (h : n < 3) : n = 0 ∨ n = 1 ∨ n = 2 := by omega

theorem hrT_sum (finish : ℚ) (a s : Nat) (ha : a < 3) (hs : s < 3) : sumRange 3 ((hrT finish).at_ a s) = 1 := by
  rw [sumRange_three]
  rcases lt_three ha with rfl | rfl | rfl <;> rcases lt_three hs with rfl | rfl | rfl <;> simp [hrT]

theorem hrO_sum (a s : Nat) (ha : a < 3) (hs : s < 3) : sumRange 3 (hrO.at_ a s) = 1 := by
  rw [sumRange_three]
  rcases lt_three ha with rfl | rfl | rfl <;> rcases lt_three hs with rfl | rfl | rfl <;> simp [hrO]

theorem holdRelease_ok (path : String) (wait failure communication finish : ℚ) :
    ∃ p, holdRelease (some path) wait failure communication finish = .ok p := by
  unfold holdRelease
  rw [C39_accepts]
  refine ⟨.inr rfl, by simp, by norm_num, le_rfl, 3, 3, 3, ?_, ?_, ?_, rfl, ⟨rfl, rfl, rfl⟩, ⟨rfl, rfl, rfl⟩, ⟨rfl, rfl, rfl, rfl⟩,
    ?_, ?_⟩
  · intro l hl; cases hl; exact ⟨rfl, by decide⟩
  · intro l hl; cases hl; exact ⟨rfl, by decide⟩
  · intro l hl; cases hl; exact ⟨rfl, by decide⟩
  · norm_num [NearOne]
  · intro a ha s hs
    rw [hrT_sum finish a s ha hs, hrO_sum a s ha hs]
    norm_num [NearOne]

section
variable {solver : Option String} {wait failure communication finish : ℚ} {p : Pomdp}

theorem holdRelease_eq (h : holdRelease solver wait failure communication finish = .ok p) :
    p.states = ["zero", "one", "final"].map Name.str ∧ p.actions = ["wait", "physical", "communicate"].map Name.str ∧
      p.observations = ["nothing", "doing", "done"].map Name.str ∧ p.discount = 1 ∧ p.start = [1, 0, 0] ∧ p.T = hrT finish ∧
      p.O = hrO ∧ (p.R.n0 = 3 ∧ p.R.n1 = 3 ∧ p.R.n2 = 3 ∧ p.R.n3 = 3) ∧
      ∀ a s s' o, p.R.at_ a s s' o = - (hrR wait failure communication).at_ a s s' o := by
  obtain ⟨h1, h2, h3, h4, -, -, h6, h7, h8, h9⟩ := C39_stored _ _ _ _ _ _ _ _ _ _ _ h
  obtain ⟨r0, r1, r2, r3, r4⟩ := h6 rfl
  exact ⟨h7, h8, h9, h4, h3, h1, h2, ⟨r0, r1, r2, r3⟩, r4⟩

/-- **C66 (construction).**  The constructor accepts the model for all costs and any finish probability, when the solver is
installed. -/
theorem C66_accepted (path : String) (wait failure communication finish : ℚ) :
    ∃ p, holdRelease (some path) wait failure communication finish = .ok p :=
  holdRelease_ok path wait failure communication finish

/-- **C66 (names).**  The states, actions and observations are named in the order used by `HrState.ix`, `HrAct.ix` and
`HrObs.ix`; the discount is 1; the human starts working. -/
theorem C66_names (h : holdRelease solver wait failure communication finish = .ok p) :
    p.states = [.str "zero", .str "one", .str "final"] ∧ p.actions = [.str "wait", .str "physical", .str "communicate"] ∧
    p.observations = [.str "nothing", .str "doing", .str "done"] ∧ p.discount = 1 ∧
    ∀ s : HrState, p.start[s.ix]? = some (if s = .working then 1 else 0) := by
  obtain ⟨h1, h2, h3, h4, h5, -⟩ := holdRelease_eq h
  refine ⟨h1, h2, h3, h4, fun s => ?_⟩
  rw [h5]
  cases s <;> rfl

/-- **C66 (distributions).**  For a finish probability in `[0, 1]` all the rows are probability distributions; for another one
they are not, although the constructor accepts the model. -/
theorem C66_stochastic (h : holdRelease solver wait failure communication finish = .ok p) :
    IsDist 3 p.start ∧ Shaped p 3 3 3 ∧ (Stochastic p 3 3 3 ↔ 0 ≤ finish ∧ finish ≤ 1) := by
  obtain ⟨h1, h2, h3, h4, h5, h6, h7, ⟨r0, r1, r2, r3⟩, h9⟩ := holdRelease_eq h
  have hs : Shaped p 3 3 3 := by
    refine ⟨by rw [h1]; rfl, by rw [h2]; rfl, by rw [h3]; rfl, by rw [h5]; rfl, ?_, ?_, ?_, ?_, ?_, ?_, r0, r1, r2, r3⟩
    · rw [h6]; rfl
    · rw [h6]; rfl
    · rw [h6]; rfl
    · rw [h7]; rfl
    · rw [h7]; rfl
    · rw [h7]; rfl
  refine ⟨?_, hs, ?_, ?_⟩
  · rw [h5]
    refine ⟨rfl, ?_, by norm_num [sumRange_three]⟩
    intro i hi
    rcases lt_three hi with rfl | rfl | rfl <;> norm_num
  · intro hst
    have h0 := (hst.2.1 0 (by rw [h6]; simp [hrT]) 0 (by rw [h6]; simp [hrT])).1
    have e0 := h0 0 (by rw [h6]; simp [hrT])
    have e1 := h0 1 (by rw [h6]; simp [hrT])
    rw [h6] at e0 e1
    simp [hrT] at e0 e1
    exact ⟨e1, e0⟩
  · rintro ⟨hf0, hf1⟩
    refine ⟨hs, ?_, ?_⟩
    · rw [h6]
      intro a ha s hss
      refine ⟨fun k hk => ?_, hrT_sum finish a s ha hss⟩
      rcases lt_three ha with rfl | rfl | rfl <;> rcases lt_three hss with rfl | rfl | rfl <;>
        rcases lt_three hk with rfl | rfl | rfl <;> simp [hrT] <;> assumption
    · rw [h7]
      intro a ha s hss
      refine ⟨fun k hk => ?_, hrO_sum a s ha hss⟩
      rcases lt_three ha with rfl | rfl | rfl <;> rcases lt_three hss with rfl | rfl | rfl <;>
        rcases lt_three hk with rfl | rfl | rfl <;> simp [hrO]

/-- The choice in a row with three entries. -/
theorem choice_three {f : Nat → ℚ} (h0 : 0 ≤ f 0) (h1 : 0 ≤ f 1) (h2 : 0 ≤ f 2) (hs : f 0 + f 1 + f 2 = 1) (u : ℚ) :
    Pomdp.choice 3 ((List.range 3).map f) u =
      .ok (if u < f 0 then 0 else if u < f 0 + f 1 then 1 else if u < 1 then 2 else 3) := by
  have e : (List.range 3).map f = [f 0, f 1, f 2] := rfl
  have hsum : [f 0, f 1, f 2].sum = 1 := by rw [← hs]; simp; ring
  rw [e]
  unfold Pomdp.choice
  rw [if_neg (by simp), if_neg (by simp), if_neg (by simp [h0, h1, h2]), hsum, if_neg (by norm_num)]
  congr 1
  simp only [Pomdp.searchCdf, mul_one, zero_add, hs]
  split
  · rfl
  · split
    · rfl
    · split <;> rfl

/-- **C66 (behaviour).**  For a finish probability in `[0, 1]`, a step of the model is the one of the task: `u` makes the human
finish iff it is at least `1 - finish`, the observation is determined by the action and the new state, and the reward is the
negated cost. -/
theorem C66_transition (h : holdRelease solver wait failure communication finish = .ok p) (hf : 0 ≤ finish) (hf1 : finish ≤ 1)
    (u v : ℚ) (hu : 0 ≤ u) (hu1 : u < 1) (hv : 0 ≤ v) (hv1 : v < 1) (a : HrAct) (s : HrState) :
    p.sampleTransition u v a.ix s.ix = .ok ((hrNext (1 - finish ≤ u) s a).ix, (hrSees a (hrNext (1 - finish ≤ u) s a)).ix,
      - hrCost wait failure communication s a) := by
  obtain ⟨h1, h2, h3, h4, h5, h6, h7, -, h9⟩ := holdRelease_eq h
  obtain ⟨-, hsh, hst⟩ := C66_stochastic h
  obtain ⟨-, hT, hO⟩ := hst.2 ⟨hf, hf1⟩
  have n1 : p.nStates = 3 := hsh.1
  have n2 : p.nObservations = 3 := hsh.2.2.1
  have cT : ∀ a s : Nat, a < 3 → s < 3 → Pomdp.choice 3 ((List.range 3).map (p.T.at_ a s)) u = _ := fun a s ha hs =>
    choice_three ((hT a (by rw [h6]; exact ha) s (by rw [h6]; exact hs)).1 0 (by rw [h6]; exact Nat.zero_lt_succ _))
      ((hT a (by rw [h6]; exact ha) s (by rw [h6]; exact hs)).1 1 (by rw [h6]; exact (by decide : 1 < 3)))
      ((hT a (by rw [h6]; exact ha) s (by rw [h6]; exact hs)).1 2 (by rw [h6]; exact (by decide : 2 < 3)))
      (by rw [← sumRange_three, h6]; exact hrT_sum finish a s ha hs) u
  have cO : ∀ a s : Nat, a < 3 → s < 3 → Pomdp.choice 3 ((List.range 3).map (p.O.at_ a s)) v = _ := fun a s ha hs =>
    choice_three ((hO a (by rw [h7]; exact ha) s (by rw [h7]; exact hs)).1 0 (by rw [h7]; exact Nat.zero_lt_succ _))
      ((hO a (by rw [h7]; exact ha) s (by rw [h7]; exact hs)).1 1 (by rw [h7]; exact (by decide : 1 < 3)))
      ((hO a (by rw [h7]; exact ha) s (by rw [h7]; exact hs)).1 2 (by rw [h7]; exact (by decide : 2 < 3)))
      (by rw [← sumRange_three, h7]; exact hrO_sum a s ha hs) v
  have e0 : p.T.n0 = 3 := by rw [h6]; rfl
  have e1 : p.T.n1 = 3 := by rw [h6]; rfl
  have e2 : p.T.n2 = 3 := by rw [h6]; rfl
  have e3 : p.O.n2 = 3 := by rw [h7]; rfl
  have ha : a.ix < 3 := by cases a <;> decide
  have hs : s.ix < 3 := by cases s <;> decide
  have hu' : ¬ u < 0 := not_lt.2 hu
  have hv' : ¬ v < 0 := not_lt.2 hv
  -- the new state
  have kT : Pomdp.choice p.nStates ((List.range p.T.n2).map (p.T.at_ a.ix s.ix)) u = .ok (hrNext (1 - finish ≤ u) s a).ix := by
    rw [n1, e2, cT _ _ ha hs, h6]
    by_cases hw : 1 - finish ≤ u
    · have hw' : ¬ u < 1 - finish := not_lt.2 hw
      cases a <;> cases s <;> simp [HrAct.ix, HrState.ix, hrT, hrNext, hw, hw', hu', hu1]
    · have hw' : u < 1 - finish := not_le.1 hw
      cases a <;> cases s <;> simp [HrAct.ix, HrState.ix, hrT, hrNext, hw, hw', hu', hu1]
  have hs' : (hrNext (1 - finish ≤ u) s a).ix < 3 := by cases hrNext (1 - finish ≤ u) s a <;> decide
  have kO : Pomdp.choice p.nObservations ((List.range p.O.n2).map (p.O.at_ a.ix (hrNext (1 - finish ≤ u) s a).ix)) v =
      .ok (hrSees a (hrNext (1 - finish ≤ u) s a)).ix := by
    rw [n2, e3, cO _ _ ha hs', h7]
    cases a <;> cases hrNext (1 - finish ≤ u) s _ <;> simp [HrAct.ix, HrState.ix, HrObs.ix, hrO, hrSees, hv', hv1]
  unfold Pomdp.sampleTransition
  rw [if_neg (by omega), kT]
  show (do let o ← Pomdp.choice p.nObservations ((List.range p.O.n2).map (p.O.at_ a.ix (hrNext (1 - finish ≤ u) s a).ix)) v
           return ((hrNext (1 - finish ≤ u) s a).ix, o, p.R.at_ a.ix s.ix (hrNext (1 - finish ≤ u) s a).ix o)) = _
  rw [kO]
  show Except.ok _ = Except.ok _
  rw [h9]
  cases a <;> cases s <;> simp [HrAct.ix, HrState.ix, hrR, hrCost]

/-- The indices of a step. -/
theorem hr_step (h : holdRelease solver wait failure communication finish = .ok p) (hf : 0 ≤ finish) (hf1 : finish ≤ 1)
    {u v r : ℚ} (hu : 0 ≤ u) (hu1 : u < 1) (hv : 0 ≤ v) (hv1 : v < 1) {a s s' o : Nat}
    (hx : p.sampleTransition u v a s = .ok (s', o, r)) :
    ∃ (x : HrAct) (y : HrState), x.ix = a ∧ y.ix = s ∧ s' = (hrNext (1 - finish ≤ u) y x).ix ∧
      o = (hrSees x (hrNext (1 - finish ≤ u) y x)).ix ∧ r = - hrCost wait failure communication y x := by
  obtain ⟨-, -, -, -, -, h6, -⟩ := holdRelease_eq h
  have hb : a < 3 ∧ s < 3 := by
    unfold Pomdp.sampleTransition at hx
    split at hx
    · cases hx
    · rename_i hn
      rw [h6] at hn
      have : ¬ (3 ≤ a ∨ 3 ≤ s) := hn
      omega
  obtain ⟨x, rfl⟩ : ∃ x : HrAct, x.ix = a := by
    rcases lt_three hb.1 with rfl | rfl | rfl
    · exact ⟨.wait, rfl⟩
    · exact ⟨.act, rfl⟩
    · exact ⟨.ask, rfl⟩
  obtain ⟨y, rfl⟩ : ∃ y : HrState, y.ix = s := by
    rcases lt_three hb.2 with rfl | rfl | rfl
    · exact ⟨.working, rfl⟩
    · exact ⟨.finished, rfl⟩
    · exact ⟨.released, rfl⟩
  rw [C66_transition h hf hf1 u v hu hu1 hv hv1 x y] at hx
  cases hx
  exact ⟨x, y, rfl, rfl, rfl, rfl, rfl⟩

/-- **C66 (one step).**  Whatever the action, `final` stays `final`; from another state `final` is reached exactly by the
physical action in `one`; a physical action in `zero` costs `cost_failure` and does not reach `final`; the human does not
resume the work. -/
theorem C66_step (h : holdRelease solver wait failure communication finish = .ok p) (hf : 0 ≤ finish) (hf1 : finish ≤ 1)
    {u v r : ℚ} (hu : 0 ≤ u) (hu1 : u < 1) (hv : 0 ≤ v) (hv1 : v < 1) {a s s' o : Nat}
    (hx : p.sampleTransition u v a s = .ok (s', o, r)) :
    (s' = 2 ↔ s = 2 ∨ (s = 1 ∧ a = 1)) ∧ (s = 0 ∧ a = 1 → r = - failure ∧ s' ≠ 2) ∧ (s' = 0 → s = 0) := by
  obtain ⟨x, y, rfl, rfl, rfl, rfl, rfl⟩ := hr_step h hf hf1 hu hu1 hv hv1 hx
  by_cases hw : 1 - finish ≤ u
  all_goals cases x <;> cases y <;> simp [HrAct.ix, HrState.ix, hrNext, hw, hrCost]

/-- **C66 (reaching final).**  On any trajectory from a state other than `final`, the state after step `k` is `final` iff one of
the steps up to `k` was a physical action in `one`. -/
theorem C66_final (h : holdRelease solver wait failure communication finish = .ok p) (hf : 0 ≤ finish) (hf1 : finish ≤ 1)
    (l : List (Nat × Nat × Nat × ℚ)) :
    ∀ (s : Nat), s ≠ 2 → HrRun p s l → ∀ (k a s' o : Nat) (r : ℚ), l[k]? = some (a, s', o, r) →
      (s' = 2 ↔ ∃ (i : Nat) (x : Nat × Nat × Nat × ℚ), i ≤ k ∧ l[i]? = some x ∧ (hrBefore s l)[i]? = some 1 ∧ x.1 = 1) := by
  induction l with
  | nil => intro s _ _ k a s' o r hk; simp at hk
  | cons y l ih =>
      obtain ⟨b, t, q, w⟩ := y
      intro s hs hrun k a s' o r hk
      obtain ⟨⟨u, v, hu, hu1, hv, hv1, hx⟩, hrun'⟩ := hrun
      obtain ⟨h1, -, -⟩ := C66_step h hf hf1 hu hu1 hv hv1 hx
      cases k with
      | zero =>
          simp only [List.getElem?_cons_zero, Option.some.injEq] at hk
          cases hk
          rw [h1]
          constructor
          · rintro (h | ⟨h, h'⟩)
            · exact absurd h hs
            · exact ⟨0, _, le_rfl, rfl, by simp [hrBefore, h], h'⟩
          · rintro ⟨i, x, hi, g1, g2, g3⟩
            obtain rfl : i = 0 := by omega
            simp only [List.getElem?_cons_zero, Option.some.injEq] at g1
            subst g1
            simp only [hrBefore, List.getElem?_cons_zero, Option.some.injEq] at g2
            exact .inr ⟨g2, g3⟩
      | succ k =>
          simp only [List.getElem?_cons_succ] at hk
          by_cases ht : t = 2
          · -- already final
            have hstay : ∀ (l : List (Nat × Nat × Nat × ℚ)), HrRun p 2 l → ∀ (j a s' o : Nat) (r : ℚ),
                l[j]? = some (a, s', o, r) → s' = 2 := by
              intro l
              induction l with
              | nil => intro _ j a s' o r hj; simp at hj
              | cons y l ih2 =>
                  obtain ⟨b, t', q, w⟩ := y
                  rintro ⟨⟨u, v, hu, hu1, hv, hv1, hx⟩, hr2⟩ j a s' o r hj
                  have := (C66_step h hf hf1 hu hu1 hv hv1 hx).1.2 (.inl rfl)
                  subst this
                  cases j with
                  | zero => simp only [List.getElem?_cons_zero, Option.some.injEq] at hj; cases hj; rfl
                  | succ j => exact ih2 hr2 j a s' o r (by simpa using hj)
            have hs' : s' = 2 := hstay l (ht ▸ hrun') k a s' o r hk
            refine ⟨fun _ => ?_, fun _ => hs'⟩
            rcases h1.1 ht with h | ⟨h, h'⟩
            · exact absurd h hs
            · exact ⟨0, _, by omega, rfl, by simp [hrBefore, h], h'⟩
          · rw [ih t ht hrun' k a s' o r hk]
            constructor
            · rintro ⟨i, x, hi, g1, g2, g3⟩
              exact ⟨i + 1, x, by omega, by simpa using g1, by simpa [hrBefore] using g2, g3⟩
            · rintro ⟨i, x, hi, g1, g2, g3⟩
              cases i with
              | zero =>
                  simp only [List.getElem?_cons_zero, Option.some.injEq] at g1
                  subst g1
                  simp only [hrBefore, List.getElem?_cons_zero, Option.some.injEq] at g2
                  exact absurd (h1.2 (.inr ⟨g2, g3⟩)) ht
              | succ i => exact ⟨i, x, by omega, by simpa using g1, by simpa [hrBefore] using g2, g3⟩

/-- **C66 (absorbing).**  From `final`, every state of every trajectory is `final`. -/
theorem C66_absorbing (h : holdRelease solver wait failure communication finish = .ok p) (hf : 0 ≤ finish) (hf1 : finish ≤ 1)
    (l : List (Nat × Nat × Nat × ℚ)) (hrun : HrRun p 2 l) : ∀ x ∈ l, x.2.1 = 2 := by
  induction l with
  | nil => simp
  | cons y l ih =>
      obtain ⟨b, t', q, w⟩ := y
      obtain ⟨⟨u, v, hu, hu1, hv, hv1, hx⟩, hr2⟩ := hrun
      have := (C66_step h hf hf1 hu hu1 hv hv1 hx).1.2 (.inl rfl)
      subst this
      intro x hxl
      rcases List.mem_cons.1 hxl with rfl | hxl
      · rfl
      · exact ih hr2 x hxl

/-- **C66 (total cost).**  The sum of the rewards of a trajectory is the negated sum of the costs: `cost_wait` for each wait,
`cost_communication` for each communication, and `cost_failure` for each physical action before the human has finished. -/
theorem C66_total (h : holdRelease solver wait failure communication finish = .ok p) (hf : 0 ≤ finish) (hf1 : finish ≤ 1)
    (l : List (Nat × Nat × Nat × ℚ)) : ∀ (s : Nat), HrRun p s l →
      (l.map fun x => x.2.2.2).sum = - (((l.filter fun x => x.1 = 0).length : ℚ) * wait +
        ((l.filter fun x => x.1 = 2).length : ℚ) * communication +
        (((l.zip (hrBefore s l)).filter fun x => x.1.1 = 1 ∧ x.2 = 0).length : ℚ) * failure) := by
  induction l with
  | nil => intro s _; simp
  | cons y l ih =>
      obtain ⟨b, t, q, w⟩ := y
      rintro s ⟨⟨u, v, hu, hu1, hv, hv1, hx⟩, hr2⟩
      have hsum := ih t hr2
      obtain ⟨x, y, rfl, rfl, -, -, rfl⟩ := hr_step h hf hf1 hu hu1 hv hv1 hx
      rw [List.map_cons, List.sum_cons, hsum]
      simp only [hrBefore, List.zip_cons_cons, List.filter_cons]
      cases x <;> cases y <;> simp [HrAct.ix, HrState.ix, hrCost] <;> ring

/-- **C66 (belief).**  After `k` waits the belief that the human still works is `(1 - finish) ^ k`. -/
theorem C66_belief (h : holdRelease solver wait failure communication finish = .ok p) (k : Nat) :
    updates p p.start (List.replicate k (0, 0)) = .ok [(1 - finish) ^ k, 1 - (1 - finish) ^ k, 0] := by
  obtain ⟨h1, h2, h3, h4, h5, h6, h7, -, h9⟩ := holdRelease_eq h
  have key : ∀ (k : Nat) (x : ℚ), updates p [x, 1 - x, 0] (List.replicate k (0, 0)) =
      .ok [x * (1 - finish) ^ k, 1 - x * (1 - finish) ^ k, 0] := by
    intro k
    induction k with
    | zero => intro x; simp [updates]
    | succ k ih =>
        intro x
        have hj : p.joint 0 0 [x, 1 - x, 0] = [x * (1 - finish), 1 - x * (1 - finish), 0] := by
          unfold Pomdp.joint
          rw [h6, h7]
          show [_, _, _] = _
          simp only [show (hrT finish).n1 = 3 from rfl, sumRange_three]
          simp [hrT, hrO]
          ring
        have hb : p.beliefUpdate 0 0 [x, 1 - x, 0] = .ok [x * (1 - finish), 1 - x * (1 - finish), 0] := by
          unfold Pomdp.beliefUpdate
          rw [hj]
          have hs : [x * (1 - finish), 1 - x * (1 - finish), 0].sum = 1 := by simp
          rw [hs, h6, h7]
          simp [hrT, hrO]
        rw [List.replicate_succ, updates, hb]
        show updates p [x * (1 - finish), 1 - x * (1 - finish), 0] _ = _
        rw [ih]
        congr 1
        rw [show x * (1 - finish) * (1 - finish) ^ k = x * (1 - finish) ^ (k + 1) by ring]
  rw [h5, show ([1, 0, 0] : List ℚ) = [1, 1 - 1, 0] by norm_num, key k 1]
  simp

end

/-- The hypotheses hold for the default finish probability, and there is a trajectory that fails once, waits and releases. -/
example : ∃ p, holdRelease (some "pomdp-solve") 1 10 2 hrFinish = .ok p ∧
    HrRun p 0 [(1, 0, 1, -10), (0, 1, 0, -1), (1, 2, 0, 0)] := by
  obtain ⟨p, hp⟩ := C66_accepted "pomdp-solve" 1 10 2 hrFinish
  have hf : (0 : ℚ) ≤ hrFinish := by norm_num [hrFinish]
  have hf1 : hrFinish ≤ 1 := by norm_num [hrFinish]
  refine ⟨p, hp, ⟨0, 0, le_rfl, by norm_num, le_rfl, by norm_num, ?_⟩, ⟨9 / 10, 0, by norm_num, by norm_num, le_rfl, by norm_num, ?_⟩,
    ⟨0, 0, le_rfl, by norm_num, le_rfl, by norm_num, ?_⟩, trivial⟩
  · have := C66_transition hp hf hf1 0 0 le_rfl (by norm_num) le_rfl (by norm_num) .act .working
    have e : ¬ (1 - hrFinish ≤ 0) := by norm_num [hrFinish]
    simpa [hrNext, e, HrAct.ix, HrState.ix, HrObs.ix, hrSees, hrCost] using this
  · have := C66_transition hp hf hf1 (9 / 10) 0 (by norm_num) (by norm_num) le_rfl (by norm_num) .wait .working
    have e : 1 - hrFinish ≤ 9 / 10 := by norm_num [hrFinish]
    simpa [hrNext, e, HrAct.ix, HrState.ix, HrObs.ix, hrSees, hrCost] using this
  · have := C66_transition hp hf hf1 0 0 le_rfl (by norm_num) le_rfl (by norm_num) .act .finished
    simpa [hrNext, HrAct.ix, HrState.ix, HrObs.ix, hrSees, hrCost] using this

end Verif
