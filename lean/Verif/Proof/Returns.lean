import Verif.Props.ClosedLoop
import Verif.Spec.Returns

set_option linter.unusedSectionVars false
set_option linter.unusedSimpArgs false

/-!
# Rewards of the supportive model
-/

namespace Verif
open Spec SupPomdp SupState

/-! ### The outcome of one call -/

/-- The action is the hold that the leaf needs. -/
def GoodHold (needs : Option String) (a : Nat) : Prop := (needs = some "h" ∧ a = 1) ∨ (needs = some "v" ∧ a = 2)

instance (needs : Option String) (a : Nat) : Decidable (GoodHold needs a) := by unfold GoodHold; infer_instance

/-- The cost of the objects to put away at the end. -/
def cleanCost (m : SupPomdp) (x : SupState) : ℚ := ((List.range m.objects.length).map fun o => m.par.costGet * (x.getBit o : ℚ)).sum

/-- The correction of the reward of a subtask. -/
def correction (m : SupPomdp) (x : SupState) : ℚ :=
  if m.par.rewardIndependentPreference = true ∧ x.hasPref 0 = 0 then m.par.rPreference - m.par.costHold else 0

/-- The cost of the action itself. -/
def actCost (m : SupPomdp) (a : Nat) : ℚ := if a = 0 then 0 else m.par.costHold

/-- What a call of `sample_transition` may do, by cases. -/
inductive Outcome (m : SupPomdp) (d : Draws) (a : Nat) (x : SupState) (random : Bool) : SupState × Nat × ℚ → Prop
  | final (ha : a ≤ 2) (h : x.htm = m.htmFinal) : Outcome m d a x random (x, 0, - actCost m a)
  | finish (ha : a = 0) (h : x.htm = m.htmClean) : Outcome m d a x random (x.setHtm m.htmFinal, 0, m.par.rFinal - cleanCost m x)
  | cleanHold (ha : a = 1 ∨ a = 2) (h : x.htm = m.htmClean) : Outcome m d a x random (x, 1, - m.par.costHold)
  | failed (ha : a = 1 ∨ a = 2) (h : x.htm < m.nodes.length) (needs : Option String) (hn : m.needsHold x.htm = .ok needs)
      (hg : ¬ (x.hasPref 0 ≠ 0 ∧ GoodHold needs a)) (hr : random = false ∨ d.hold < 98 / 100) :
      Outcome m d a x random (x, 1, - m.par.costHold)
  | good (h : x.htm < m.nodes.length) (needs : Option String) (hn : m.needsHold x.htm = .ok needs)
      (hp : x.hasPref 0 ≠ 0) (hg : GoodHold needs a) (y : SupState) (c : ℚ) (hu : m.updateForTransition d x x.htm = .ok (y, c)) :
      Outcome m d a x random (y, 0, - m.par.costHold + m.par.rPreference + c + m.par.rSubtask)
  | other (ha : a = 0 ∨ ((a = 1 ∨ a = 2) ∧ random = true ∧ ¬ d.hold < 98 / 100)) (h : x.htm < m.nodes.length)
      (needs : Option String) (hn : m.needsHold x.htm = .ok needs) (hg : ¬ (x.hasPref 0 ≠ 0 ∧ GoodHold needs a))
      (y : SupState) (c : ℚ) (hu : m.updateForTransition d x x.htm = .ok (y, c)) :
      Outcome m d a x random (y, 0, - actCost m a + c + m.par.rSubtask + correction m x)
  | ask (ha : a = 3) (o : Nat) : Outcome m d a x random (x, o, - m.par.costIntrinsic)
  | there (ha : 4 ≤ a) (obj : Nat) (ho : obj < m.objects.length) (hf : m.objFromAction a = .ok obj)
      (hb : x.getBit obj = if m.isBring a then 1 else 0) : Outcome m d a x random (x, 2, - m.par.costIntrinsic)
  | missed (ha : 4 ≤ a) (obj : Nat) (ho : obj < m.objects.length) (hf : m.objFromAction a = .ok obj)
      (hb : x.getBit obj ≠ if m.isBring a then 1 else 0) (hr : random = true ∧ d.fail < m.par.pFail) :
      Outcome m d a x random (x, 1, - m.par.costIntrinsic)
  | moved (ha : 4 ≤ a) (obj : Nat) (ho : obj < m.objects.length) (hf : m.objFromAction a = .ok obj)
      (hb : x.getBit obj ≠ if m.isBring a then 1 else 0) (hr : ¬ (random = true ∧ d.fail < m.par.pFail)) :
      Outcome m d a x random (x.setBit obj (if m.isBring a then 1 else 0), 0, - m.par.costIntrinsic)

theorem foldl_sub_map (f : Nat → ℚ) (l : List Nat) (r : ℚ) : l.foldl (fun r o => r - f o) r = r - (l.map f).sum := by
  induction l generalizing r with
  | nil => simp
  | cons x l ih => rw [List.foldl_cons, ih, List.map_cons, List.sum_cons]; ring

theorem branch_outcome {m : SupPomdp} {css : List (List (Nat × String))} (hw : m.WF css) (d : Draws) (a : Nat) (x : SupState)
    (random : Bool) (hx : SameShape (m.toState 0) x) (hh : x.htm < m.nHtmStates) (ha : a < m.nActions) :
    ∃ y, m.branch d a x x random = .ok y ∧ Outcome m d a x random y := by
  have hn : x.nHtm = m.nodes.length + 2 := hx.2.2.2.symm
  unfold branch
  by_cases ha3 : a = 0 ∨ a = 1 ∨ a = 2
  · rw [if_pos ha3]
    unfold waitStep
    simp only
    have e0 : (if a = 0 then (0 : ℚ) else -m.par.costHold) = - actCost m a := by unfold actCost; split <;> simp
    rw [e0]
    by_cases hf : x.isFinal = true
    · rw [if_pos hf]
      simp only [SupState.isFinal, decide_eq_true_eq] at hf
      exact ⟨_, rfl, .final (by omega) (by unfold htmFinal; omega)⟩
    · rw [if_neg hf]
      simp only [SupState.isFinal, decide_eq_true_eq] at hf
      by_cases hc : x.htm = m.htmClean
      · rw [if_pos hc]
        by_cases h0 : a = 0
        · rw [if_pos h0]
          refine ⟨_, rfl, ?_⟩
          have e1 : (List.range m.objects.length).foldl (fun r o => r - m.costGetOf o * (x.getBit o : ℚ)) (-actCost m a) + m.par.rFinal
              = m.par.rFinal - cleanCost m x := by
            rw [foldl_sub_map]
            simp only [cleanCost, costGetOf, actCost, h0, if_true]
            ring
          rw [e1]
          exact .finish h0 hc
        · rw [if_neg h0]
          have : - actCost m a = - m.par.costHold := by unfold actCost; rw [if_neg h0]
          rw [this]
          exact ⟨_, rfl, .cleanHold (by omega) hc⟩
      · rw [if_neg hc]
        have hlt : x.htm < m.nodes.length := by
          unfold htmClean at hc
          unfold nHtmStates at hh
          omega
        obtain ⟨ac, i, p, b, at', hno, hat⟩ := leaves_conditions css m.nodes hw.conds x.htm hlt
        have hneed : m.needsHold x.htm = .ok at'.1 := by simp [needsHold, hno, hat]
        obtain ⟨y, c, ss, h1, -⟩ := updateForTransition_spec hw d x x.htm hlt hx
        unfold taskStep
        simp only [hneed, bind, Except.bind, pure, Except.pure]
        have eg : (decide (x.hasPref 0 ≠ 0) && ((decide (at'.1 = some "h") && decide (a = 1)) ||
            (decide (at'.1 = some "v") && decide (a = 2)))) = decide (x.hasPref 0 ≠ 0 ∧ GoodHold at'.1 a) := by
          unfold GoodHold
          simp only [Bool.decide_and, Bool.decide_or]
        rw [eg]
        by_cases hg : x.hasPref 0 ≠ 0 ∧ GoodHold at'.1 a
        · have hne : ¬ a = 0 := by rcases hg.2 with ⟨_, h⟩ | ⟨_, h⟩ <;> omega
          have ec : - actCost m a = - m.par.costHold := by unfold actCost; rw [if_neg hne]
          have e1 : decide (x.hasPref 0 ≠ 0 ∧ GoodHold at'.1 a) = true := decide_eq_true hg
          have e2 : (m.par.rewardIndependentPreference && decide (x.hasPref 0 = 0)) = false := by simp [hg.1]
          simp only [e1, e2, ec, Bool.not_true, Bool.false_and, Bool.false_eq_true, if_true, if_false, h1]
          exact ⟨_, rfl, .good hlt _ hneed hg.1 hg.2 y c h1⟩
        · have e1 : decide (x.hasPref 0 ≠ 0 ∧ GoodHold at'.1 a) = false := decide_eq_false hg
          simp only [e1, Bool.not_false, Bool.true_and]
          by_cases hfail : (decide (a = 1 ∨ a = 2) && (!random || decide (d.hold < 98 / 100))) = true
          · rw [if_pos hfail]
            simp only [Bool.and_eq_true, decide_eq_true_eq, Bool.or_eq_true, Bool.not_eq_true'] at hfail
            have ec : - actCost m a = - m.par.costHold := by unfold actCost; rw [if_neg (by omega)]
            simp only [Bool.false_eq_true, if_false, ec]
            exact ⟨_, rfl, .failed hfail.1 hlt _ hneed hg hfail.2⟩
          · rw [if_neg hfail]
            simp only [Bool.and_eq_true, decide_eq_true_eq, Bool.or_eq_true, Bool.not_eq_true', not_and_or, not_or,
              Bool.not_eq_false] at hfail
            simp only [h1, Bool.false_eq_true, if_false]
            refine ⟨_, rfl, ?_⟩
            have e3 : (if (m.par.rewardIndependentPreference && decide (x.hasPref 0 = 0)) = true then
                -actCost m a + c + m.par.rSubtask + (m.par.rPreference - m.par.costHold) else -actCost m a + c + m.par.rSubtask)
                = -actCost m a + c + m.par.rSubtask + correction m x := by
              unfold correction
              simp only [Bool.and_eq_true, decide_eq_true_eq]
              split <;> simp
            rw [e3]
            refine .other ?_ hlt _ hneed hg y c h1
            rcases hfail with hfail | hfail
            · left; omega
            · by_cases h0 : a = 0
              · left; exact h0
              · right; exact ⟨by omega, hfail⟩
  · rw [if_neg ha3]
    by_cases ha4 : a = 3
    · rw [if_pos ha4]
      unfold askStep
      split
      · exact ⟨_, rfl, .ask ha4 _⟩
      · exact ⟨_, rfl, .ask ha4 _⟩
    · rw [if_neg ha4]
      obtain ⟨obj, h1, h2, _⟩ := objFromAction_ok hw a (by omega) ha
      unfold objectStep
      simp only [h1, bind, Except.bind, pure, Except.pure]
      by_cases hb : x.getBit obj = if m.isBring a then 1 else 0
      · rw [if_pos hb]
        exact ⟨_, rfl, .there (by omega) obj h2 h1 hb⟩
      · rw [if_neg hb]
        by_cases hr : (random && decide (d.fail < m.par.pFail)) = true
        · rw [if_pos hr]
          simp only [Bool.and_eq_true, decide_eq_true_eq] at hr
          exact ⟨_, rfl, .missed (by omega) obj h2 h1 hb hr⟩
        · rw [if_neg hr]
          simp only [Bool.and_eq_true, decide_eq_true_eq] at hr
          exact ⟨_, rfl, .moved (by omega) obj h2 h1 hb hr⟩

/-! ### Steps -/

theorem bits_lt {m : SupPomdp} {x : SupState} (hx : SameShape (m.toState 0) x) (o : Nat) (ho : o < m.objects.length) :
    o < x.shiftHtm := by
  rw [← hx.2.2.1]
  show o < m.objects.length + 1 + m.par.nPreferences
  omega

theorem Outcome.shape {m : SupPomdp} {css : List (List (Nat × String))} (hw : m.WF css) {d : Draws} {a : Nat} {x : SupState}
    {random : Bool} {y : SupState × Nat × ℚ} (hx : SameShape (m.toState 0) x) (h : Outcome m d a x random y) :
    SameShape (m.toState 0) y.1 := by
  have ut : ∀ z c, x.htm < m.nodes.length → m.updateForTransition d x x.htm = .ok (z, c) → SameShape (m.toState 0) z := by
    intro z c hl hu
    obtain ⟨y, r, ss, h1, h2, _⟩ := updateForTransition_spec hw d x x.htm hl hx
    rw [hu] at h1
    cases h1
    exact h2
  cases h with
  | final => exact hx
  | finish => exact hx.trans ⟨rfl, rfl, rfl, rfl⟩
  | cleanHold => exact hx
  | failed => exact hx
  | good hl _ _ _ _ y c hu => exact ut y c hl hu
  | other _ hl _ _ _ y c hu => exact ut y c hl hu
  | ask => exact hx
  | there => exact hx
  | missed => exact hx
  | moved => exact hx.trans ⟨rfl, rfl, rfl, rfl⟩

theorem perturb_shape (m : SupPomdp) (d : Draws) (s : Nat) (random : Bool) : SameShape (m.toState 0) (m.perturb d s random) :=
  (perturb_spec m d s random).1

theorem sample_outcome {m : SupPomdp} {css : List (List (Nat × String))} (hw : m.WF css) (d : Draws) (a s : Nat)
    (random : Bool) (hs : s < m.nStates) (ha : a < m.nActions) :
    ∃ y o r, m.sampleTransition d a s random = .ok (y.s, o, r) ∧ Outcome m d a (m.perturb d s random) random (y, o, r) ∧
      SameShape (m.toState 0) y ∧ m.toState y.s = y ∧ y.s < m.nStates := by
  have hx := perturb_shape m d s random
  have hh := (lt_nStates m s).1 hs
  rw [← (perturb_spec m d s random).2.1] at hh
  obtain ⟨⟨y, o, r⟩, h1, h2⟩ := branch_outcome hw d a _ random hx hh ha
  have e : m.sampleTransition d a s random = .ok (y.s, o, r) := by rw [sampleTransition_eq, h1]; rfl
  have h3 := h2.shape hw hx
  obtain ⟨s', o', r', g1, g2, _⟩ := step_spec hw d a s random hs ha
  rw [e] at g1
  cases g1
  exact ⟨y, o, r, e, h2, h3, toState_of_sameShape h3, g2⟩

/-! ### Costs of transitions -/

theorem cond_cost (m : SupPomdp) (hg : 0 ≤ m.par.costGet) (x : SupState) (c o : Nat) (u : ℚ) :
    (m.updateForCondition x c o u).2 ≤ 0 := by
  unfold updateForCondition costGetOf
  split_ifs <;> simp [hg]

theorem conds_cost (m : SupPomdp) (hg : 0 ≤ m.par.costGet) (u : Nat → ℚ) : ∀ (l : List ((Nat × Nat) × Nat)) (x : SupState),
    (m.updateForConditions u l x).2 ≤ 0 := by
  intro l
  induction l with
  | nil => intro x; exact le_refl _
  | cons co l ih =>
      intro x
      have h1 := cond_cost m hg x co.1.1 co.1.2 (u co.2)
      have h2 := ih (m.updateForCondition x co.1.1 co.1.2 (u co.2)).1
      unfold updateForConditions
      simp only
      linarith

theorem trans_cost {m : SupPomdp} (hg : 0 ≤ m.par.costGet) {d : Draws} {x y : SupState} {n : Nat} {c : ℚ}
    (h : m.updateForTransition d x n = .ok (y, c)) : c ≤ 0 := by
  unfold updateForTransition at h
  split at h
  · rename_i ss conds h1 h2
    cases hc : choose ss d.succ with
    | error e => rw [hc] at h; cases h
    | ok z =>
        rw [hc] at h
        simp only [bind, Except.bind, pure, Except.pure] at h
        have := conds_cost m hg d.consume conds.zipIdx (x.setHtm z)
        rw [Except.ok.inj h] at this
        exact this
  · cases h

theorem cleanCost_nonneg {m : SupPomdp} (hg : 0 ≤ m.par.costGet) (x : SupState) : 0 ≤ cleanCost m x := by
  unfold cleanCost
  apply List.sum_nonneg
  intro q hq
  simp only [List.mem_map] at hq
  obtain ⟨o, _, rfl⟩ := hq
  exact mul_nonneg hg (by positivity)

/-! ### Twin states -/

/-- Records with the same shape, HTM value and objects. -/
def Twin (m : SupPomdp) (x y : SupState) : Prop :=
  SameShape (m.toState 0) x ∧ SameShape (m.toState 0) y ∧ x.htm = y.htm ∧ ∀ o < m.objects.length, x.getBit o = y.getBit o

theorem Twin.symm {m : SupPomdp} {x y : SupState} (h : Twin m x y) : Twin m y x :=
  ⟨h.2.1, h.1, h.2.2.1.symm, fun o ho => (h.2.2.2 o ho).symm⟩

theorem Twin.setHtm {m : SupPomdp} {x y : SupState} (h : Twin m x y) (n : Nat) : Twin m (x.setHtm n) (y.setHtm n) := by
  refine ⟨h.1.trans ⟨rfl, rfl, rfl, rfl⟩, h.2.1.trans ⟨rfl, rfl, rfl, rfl⟩, by rw [htm_setHtm, htm_setHtm], ?_⟩
  intro o ho
  rw [getBit_setHtm _ _ _ (bits_lt h.1 o ho), getBit_setHtm _ _ _ (bits_lt h.2.1 o ho)]
  exact h.2.2.2 o ho

theorem Twin.setBit {m : SupPomdp} {x y : SupState} (h : Twin m x y) (o b : Nat) (ho : o < m.objects.length) (hb : b < 2) :
    Twin m (x.setBit o b) (y.setBit o b) := by
  refine ⟨h.1.trans ⟨rfl, rfl, rfl, rfl⟩, h.2.1.trans ⟨rfl, rfl, rfl, rfl⟩, ?_, ?_⟩
  · rw [htm_setBit _ _ _ hb (bits_lt h.1 o ho), htm_setBit _ _ _ hb (bits_lt h.2.1 o ho)]
    exact h.2.2.1
  · intro k hk
    rw [getBit_setBit _ _ _ _ hb, getBit_setBit _ _ _ _ hb, h.2.2.2 k hk]

theorem twin_cond {m : SupPomdp} {x y : SupState} (h : Twin m x y) (c o : Nat) (u : ℚ) (ho : o < m.objects.length) :
    Twin m (m.updateForCondition x c o u).1 (m.updateForCondition y c o u).1 ∧
      (m.updateForCondition x c o u).2 = (m.updateForCondition y c o u).2 := by
  unfold updateForCondition
  rw [h.2.2.2 o ho]
  split_ifs
  all_goals first
    | exact ⟨h.setBit o _ ho (by omega), rfl⟩
    | exact ⟨h, rfl⟩

theorem twin_conds {m : SupPomdp} (u : Nat → ℚ) : ∀ (l : List ((Nat × Nat) × Nat)) (x y : SupState), Twin m x y →
    (∀ co ∈ l, co.1.2 < m.objects.length) →
    Twin m (m.updateForConditions u l x).1 (m.updateForConditions u l y).1 ∧
      (m.updateForConditions u l x).2 = (m.updateForConditions u l y).2 := by
  intro l
  induction l with
  | nil => intro x y h _; exact ⟨h, rfl⟩
  | cons co l ih =>
      intro x y h hl
      obtain ⟨h1, h2⟩ := twin_cond h co.1.1 co.1.2 (u co.2) (hl co (by simp))
      obtain ⟨h3, h4⟩ := ih _ _ h1 (fun co hc => hl co (by simp [hc]))
      refine ⟨h3, ?_⟩
      show _ + _ = _ + _
      rw [h2, h4]

theorem twin_trans {m : SupPomdp} {css : List (List (Nat × String))} (hw : m.WF css) {d : Draws} {x y x' y' : SupState} {c c' : ℚ}
    (h : Twin m x y) (hx : m.updateForTransition d x x.htm = .ok (x', c)) (hy : m.updateForTransition d y y.htm = .ok (y', c')) :
    Twin m x' y' ∧ c = c' := by
  rw [← h.2.2.1] at hy
  unfold updateForTransition at hx hy
  cases hs : m.succs[x.htm]? with
  | none => rw [hs] at hx; cases hx
  | some ss =>
  cases hc : m.conditions[x.htm]? with
  | none => rw [hs, hc] at hx; cases hx
  | some conds =>
  rw [hs, hc] at hx hy
  simp only at hx hy
  cases hz : choose ss d.succ with
  | error e => rw [hz] at hx; cases hx
  | ok z =>
      rw [hz] at hx hy
      simp only [bind, Except.bind, pure, Except.pure, Except.ok.injEq] at hx hy
      obtain ⟨h1, h2⟩ := twin_conds d.consume conds.zipIdx _ _ (h.setHtm z) (by
        intro co hco
        have : co.1 ∈ conds := by
          have := List.mem_zipIdx' hco
          rw [this.2]
          exact List.getElem_mem _
        exact hw.condObj _ _ hc co.1 this)
      rw [hx, hy] at h1 h2
      exact ⟨h1, h2⟩

/-! ### Steps from twin states -/

theorem Outcome.task {m : SupPomdp} {d : Draws} {a : Nat} {x x' : SupState} {random : Bool} {o : Nat} {r : ℚ} {needs : Option String}
    (h : Outcome m d a x random (x', o, r)) (hl : x.htm < m.nodes.length) (ha : a ≤ 2) (hn : m.needsHold x.htm = .ok needs)
    (hc : random = true → d.hold < 98 / 100) :
    (x.hasPref 0 ≠ 0 ∧ GoodHold needs a ∧ ∃ c, m.updateForTransition d x x.htm = .ok (x', c) ∧
        r = - m.par.costHold + m.par.rPreference + c + m.par.rSubtask) ∨
    (a = 0 ∧ ∃ c, m.updateForTransition d x x.htm = .ok (x', c) ∧ r = c + m.par.rSubtask + correction m x) ∨
    (a ≠ 0 ∧ ¬ (x.hasPref 0 ≠ 0 ∧ GoodHold needs a) ∧ x' = x ∧ r = - m.par.costHold) := by
  cases h with
  | final _ h => unfold htmFinal at h; omega
  | finish _ h => unfold htmClean at h; omega
  | cleanHold _ h => unfold htmClean at h; omega
  | failed ha _ needs' hn' hg _ =>
      rw [hn] at hn'
      cases hn'
      exact Or.inr (Or.inr ⟨by omega, hg, rfl, rfl⟩)
  | good _ needs' hn' hp hg _ c hu =>
      rw [hn] at hn'
      cases hn'
      exact Or.inl ⟨hp, hg, c, hu, rfl⟩
  | other ha _ needs' hn' hg _ c hu =>
      rcases ha with ha | ha
      · refine Or.inr (Or.inl ⟨ha, c, hu, ?_⟩)
        simp [actCost, ha]
      · exact absurd (hc ha.2.1) ha.2.2
  | ask ha => omega
  | there ha => omega
  | missed ha => omega
  | moved ha => omega

theorem twin_cleanCost {m : SupPomdp} {x y : SupState} (h : Twin m x y) : cleanCost m x = cleanCost m y := by
  unfold cleanCost
  congr 1
  apply List.map_congr_left
  intro o ho
  rw [h.2.2.2 o (List.mem_range.1 ho)]

theorem twin_rest {m : SupPomdp} {d : Draws} {a : Nat} {x y x' y' : SupState} {random : Bool} {o o' : Nat} {r r' : ℚ} (ht : Twin m x y)
    (hr : m.nodes.length ≤ x.htm ∨ 3 ≤ a) (h : Outcome m d a x random (x', o, r)) (h' : Outcome m d a y random (y', o', r')) :
    Twin m x' y' ∧ r = r' := by
  have he := ht.2.2.1
  cases h with
  | final ha hh =>
      unfold htmFinal at hh
      cases h' with
      | final => exact ⟨ht, rfl⟩
      | finish _ g => unfold htmClean at g; omega
      | cleanHold _ g => unfold htmClean at g; omega
      | failed _ g => omega
      | good g => omega
      | other _ g => omega
      | ask => omega
      | there => omega
      | missed => omega
      | moved => omega
  | finish ha hh =>
      unfold htmClean at hh
      cases h' with
      | final _ g => unfold htmFinal at g; omega
      | finish => exact ⟨ht.setHtm _, by rw [twin_cleanCost ht]⟩
      | cleanHold => omega
      | failed _ g => omega
      | good g => omega
      | other _ g => omega
      | ask => omega
      | there => omega
      | missed => omega
      | moved => omega
  | cleanHold ha hh =>
      unfold htmClean at hh
      cases h' with
      | final _ g => unfold htmFinal at g; omega
      | finish => omega
      | cleanHold => exact ⟨ht, rfl⟩
      | failed _ g => omega
      | good g => omega
      | other _ g => omega
      | ask => omega
      | there => omega
      | missed => omega
      | moved => omega
  | failed ha hl => omega
  | good hl _ _ _ hg =>
      unfold GoodHold at hg
      omega
  | other ha hl => omega
  | ask ha =>
      cases h' with
      | final => omega
      | finish => omega
      | cleanHold => omega
      | failed => omega
      | good _ _ _ _ hg => unfold GoodHold at hg; omega
      | other => omega
      | ask => exact ⟨ht, rfl⟩
      | there => omega
      | missed => omega
      | moved => omega
  | there ha obj ho hf hb =>
      cases h' with
      | final => omega
      | finish => omega
      | cleanHold => omega
      | failed => omega
      | good _ _ _ _ hg => unfold GoodHold at hg; omega
      | other => omega
      | ask => omega
      | there => exact ⟨ht, rfl⟩
      | missed _ obj' _ hf' hb' =>
          rw [hf] at hf'; cases hf'
          exact absurd ((ht.2.2.2 obj ho).symm.trans hb) hb'
      | moved _ obj' _ hf' hb' =>
          rw [hf] at hf'; cases hf'
          exact absurd ((ht.2.2.2 obj ho).symm.trans hb) hb'
  | missed ha obj ho hf hb hr =>
      cases h' with
      | final => omega
      | finish => omega
      | cleanHold => omega
      | failed => omega
      | good _ _ _ _ hg => unfold GoodHold at hg; omega
      | other => omega
      | ask => omega
      | there => exact ⟨ht, rfl⟩
      | missed => exact ⟨ht, rfl⟩
      | moved _ _ _ _ _ hr' => exact absurd hr hr'
  | moved ha obj ho hf hb hr =>
      cases h' with
      | final => omega
      | finish => omega
      | cleanHold => omega
      | failed => omega
      | good _ _ _ _ hg => unfold GoodHold at hg; omega
      | other => omega
      | ask => omega
      | there _ obj' _ hf' hb' =>
          rw [hf] at hf'; cases hf'
          exact absurd ((ht.2.2.2 obj ho).trans hb') hb
      | missed _ _ _ _ _ hr' => exact absurd hr' hr
      | moved _ obj' _ hf' _ _ =>
          rw [hf] at hf'; cases hf'
          exact ⟨ht.setBit obj _ ho (by split <;> omega), rfl⟩

/-- The action to take in a state to do at least as well as with `a` in its twin. -/
def twinAct (needs : Option String) (px py : Prop) [Decidable px] [Decidable py] (a : Nat) : Nat :=
  if (px ↔ py) ∨ 3 ≤ a then a
  else if px then (if GoodHold needs a then 0 else a)
  else if a = 0 then (if needs = some "h" then 1 else 2)
  else if GoodHold needs a then 3 - a else a

theorem twin_task {m : SupPomdp} {css : List (List (Nat × String))} (hw : m.WF css)
    (hflag : m.par.rewardIndependentPreference = true) (hcost : m.par.costHold ≤ m.par.rPreference)
    {d : Draws} {a : Nat} {x y x' y' : SupState} {random : Bool} {o o' : Nat} {r r' : ℚ}
    (ht : Twin m x y) {needs : Option String} (hn : m.needsHold x.htm = .ok needs) (hnn : needs = some "h" ∨ needs = some "v")
    (hl : x.htm < m.nodes.length) (ha : a ≤ 2) (hc : random = true → d.hold < 98 / 100)
    (h : Outcome m d a x random (x', o, r))
    (h' : Outcome m d (twinAct needs (x.hasPref 0 ≠ 0) (y.hasPref 0 ≠ 0) a) y random (y', o', r')) :
    Twin m x' y' ∧ r ≤ r' := by
  have he := ht.2.2.1
  have hg0 : ∀ needs, ¬ GoodHold needs 0 := by intro n hn; unfold GoodHold at hn; omega
  have hx := h.task hl ha hn hc
  have hy := h'.task (by omega) (by unfold twinAct; split_ifs <;> omega) (by rw [← he]; exact hn) hc
  by_cases hpp : x.hasPref 0 ≠ 0 ↔ y.hasPref 0 ≠ 0
  · have e : twinAct needs (x.hasPref 0 ≠ 0) (y.hasPref 0 ≠ 0) a = a := by unfold twinAct; rw [if_pos (Or.inl hpp)]
    rw [e] at hy
    have hcorr : correction m x = correction m y := by
      unfold correction
      have : x.hasPref 0 = 0 ↔ y.hasPref 0 = 0 := not_iff_not.1 hpp
      simp only [this]
    rcases hx with ⟨hp, hg, c, hu, rfl⟩ | ⟨h0, c, hu, rfl⟩ | ⟨h0, hg, rfl, rfl⟩
    · rcases hy with ⟨_, _, c', hu', rfl⟩ | ⟨h0', c', hu', rfl⟩ | ⟨h0', hg', rfl, rfl⟩
      · obtain ⟨h1, rfl⟩ := twin_trans hw ht hu hu'
        exact ⟨h1, le_refl _⟩
      · rw [h0'] at hg; exact absurd hg (hg0 _)
      · exact absurd ⟨hpp.1 hp, hg⟩ hg'
    · rcases hy with ⟨_, hg', c', hu', rfl⟩ | ⟨h0', c', hu', rfl⟩ | ⟨h0', hg', rfl, rfl⟩
      · rw [h0] at hg'; exact absurd hg' (hg0 _)
      · obtain ⟨h1, rfl⟩ := twin_trans hw ht hu hu'
        rw [hcorr]
        exact ⟨h1, le_refl _⟩
      · exact absurd h0 h0'
    · rcases hy with ⟨hp, hg', c', hu', rfl⟩ | ⟨h0', c', hu', rfl⟩ | ⟨h0', hg', rfl, rfl⟩
      · exact absurd ⟨hpp.2 hp, hg'⟩ hg
      · exact absurd h0' h0
      · exact ⟨ht, le_refl _⟩
  · by_cases hp : x.hasPref 0 ≠ 0
    · -- the preference is in `x` only
      have hq : y.hasPref 0 = 0 := by
        by_contra hq
        exact hpp ⟨fun _ => hq, fun _ => hp⟩
      have e : twinAct needs (x.hasPref 0 ≠ 0) (y.hasPref 0 ≠ 0) a = if GoodHold needs a then 0 else a := by
        unfold twinAct
        rw [if_neg (by rintro (h | h); exact hpp h; omega), if_pos hp]
      rw [e] at hy
      have cx : correction m x = 0 := by unfold correction; rw [if_neg (by rintro ⟨_, h⟩; exact hp h)]
      have cy : correction m y = m.par.rPreference - m.par.costHold := by unfold correction; rw [if_pos ⟨hflag, hq⟩]
      rcases hx with ⟨_, hg, c, hu, rfl⟩ | ⟨h0, c, hu, rfl⟩ | ⟨h0, hg, rfl, rfl⟩
      · rw [if_pos hg] at hy
        rcases hy with ⟨hp', _⟩ | ⟨_, c', hu', rfl⟩ | ⟨h0', _⟩
        · exact absurd hq hp'
        · obtain ⟨h1, rfl⟩ := twin_trans hw ht hu hu'
          refine ⟨h1, ?_⟩
          rw [cy]
          linarith
        · exact absurd rfl h0'
      · rw [h0, if_neg (hg0 _)] at hy
        rcases hy with ⟨hp', _⟩ | ⟨_, c', hu', rfl⟩ | ⟨h0', _⟩
        · exact absurd hq hp'
        · obtain ⟨h1, rfl⟩ := twin_trans hw ht hu hu'
          refine ⟨h1, ?_⟩
          rw [cx, cy]
          linarith
        · exact absurd rfl h0'
      · rw [if_neg (fun g => hg ⟨hp, g⟩)] at hy
        rcases hy with ⟨hp', _⟩ | ⟨h0', _⟩ | ⟨_, _, rfl, rfl⟩
        · exact absurd hq hp'
        · exact absurd h0' h0
        · exact ⟨ht, le_refl _⟩
    · -- the preference is in `y` only
      have hq : y.hasPref 0 ≠ 0 := by
        by_contra hq
        exact hpp ⟨fun h => absurd h hp, fun h => absurd hq h⟩
      have hp0 : x.hasPref 0 = 0 := not_not.1 hp
      have e : twinAct needs (x.hasPref 0 ≠ 0) (y.hasPref 0 ≠ 0) a =
          if a = 0 then (if needs = some "h" then 1 else 2) else if GoodHold needs a then 3 - a else a := by
        unfold twinAct
        rw [if_neg (by rintro (h | h); exact hpp h; omega), if_neg hp]
      rw [e] at hy
      have cx : correction m x = m.par.rPreference - m.par.costHold := by unfold correction; rw [if_pos ⟨hflag, hp0⟩]
      rcases hx with ⟨hp', _⟩ | ⟨h0, c, hu, rfl⟩ | ⟨h0, hg, rfl, rfl⟩
      · exact absurd hp' hp
      · rw [if_pos h0] at hy
        have hgood : GoodHold needs (if needs = some "h" then 1 else 2) := by
          rcases hnn with rfl | rfl
          · exact Or.inl ⟨rfl, rfl⟩
          · exact Or.inr ⟨rfl, rfl⟩
        rcases hy with ⟨_, _, c', hu', rfl⟩ | ⟨h0', _⟩ | ⟨_, hg', _⟩
        · obtain ⟨h1, rfl⟩ := twin_trans hw ht hu hu'
          refine ⟨h1, ?_⟩
          rw [cx]
          linarith
        · split at h0' <;> omega
        · exact absurd ⟨hq, hgood⟩ hg'
      · rw [if_neg h0] at hy
        have hbad : ¬ GoodHold needs (if GoodHold needs a then 3 - a else a) := by
          split
          · rename_i hga
            rcases hga with ⟨rfl, rfl⟩ | ⟨rfl, rfl⟩ <;> decide
          · assumption
        rcases hy with ⟨_, hg', _⟩ | ⟨h0', _⟩ | ⟨_, _, rfl, rfl⟩
        · exact absurd hg' hbad
        · split at h0' <;> omega
        · exact ⟨ht, le_refl _⟩

/-! ### Random changes -/

theorem twin_toggles {m : SupPomdp} : ∀ (l : List Nat) (x y : SupState), Twin m x y → (∀ i ∈ l, i < m.objects.length) →
    Twin m (l.foldl (fun x i => x.setBit i (1 - x.getBit i)) x) (l.foldl (fun x i => x.setBit i (1 - x.getBit i)) y) := by
  intro l
  induction l with
  | nil => intro x y h _; exact h
  | cons i l ih =>
      intro x y h hl
      have hi := hl i (by simp)
      rw [List.foldl_cons, List.foldl_cons]
      apply ih _ _ _ (fun j hj => hl j (by simp [hj]))
      rw [h.2.2.2 i hi]
      exact h.setBit i _ hi (by omega)

theorem perturb_calm {m : SupPomdp} {random : Bool} {d : Draws} (hc : Calm m random d) (s : Nat) :
    m.perturb d s random = if random then (m.toState s).randomObjects d.objects m.par.pChangedByHuman else m.toState s := by
  unfold perturb
  split
  · rename_i hr
    have hp := (hc hr).1
    obtain ⟨h1, _, _⟩ := randomObjects_spec (m.toState s) (by
      show m.objects.length ≤ m.objects.length + 1 + m.par.nPreferences
      omega) d.objects m.par.pChangedByHuman
    generalize (m.toState s).randomObjects d.objects m.par.pChangedByHuman = x at *
    have hn : x.nPref = m.par.nPreferences := by
      unfold nPref
      rw [← h1.2.2.1, ← h1.2.1]
      show m.objects.length + 1 + m.par.nPreferences - (m.objects.length + 1) = _
      omega
    unfold randomPrefs
    rw [hn]
    have : ((List.range m.par.nPreferences).filter fun i => decide (d.prefs i < m.par.pChangePreference)) = [] := by
      rw [List.filter_eq_nil_iff]
      intro i hi
      have := hp i (List.mem_range.1 hi)
      simpa using this
    rw [this]
    rfl
  · rfl

theorem perturb_pref {m : SupPomdp} {random : Bool} {d : Draws} (hc : Calm m random d) (s : Nat) :
    (m.perturb d s random).hasPref 0 = (m.toState s).hasPref 0 := by
  rw [perturb_calm hc]
  split
  · obtain ⟨h1, _, h3⟩ := randomObjects_spec (m.toState s) (by
      show m.objects.length ≤ m.objects.length + 1 + m.par.nPreferences
      omega) d.objects m.par.pChangedByHuman
    unfold hasPref
    rw [← h1.2.1]
    apply h3
    show m.objects.length ≤ m.objects.length + 1 + 0
    omega
  · rfl

theorem twin_perturb {m : SupPomdp} {random : Bool} {d : Draws} (hc : Calm m random d) {s s' : Nat}
    (h : Twin m (m.toState s) (m.toState s')) : Twin m (m.perturb d s random) (m.perturb d s' random) := by
  rw [perturb_calm hc, perturb_calm hc]
  split
  · apply twin_toggles _ _ _ h
    intro i hi
    have := List.mem_of_mem_filter hi
    exact List.mem_range.1 this
  · exact h

theorem twin_of_progress {m : SupPomdp} {s s' : Nat} (h : SameProgress m s s') : Twin m (m.toState s) (m.toState s') := by
  refine ⟨⟨rfl, rfl, rfl, rfl⟩, ⟨rfl, rfl, rfl, rfl⟩, h.1, ?_⟩
  intro o ho
  have := h.2 o ho
  unfold present at this
  have h1 := (m.toState s).getBit_lt o
  have h2 := (m.toState s').getBit_lt o
  change (m.toState s).getBit o = 1 ↔ (m.toState s').getBit o = 1 at this
  omega

theorem progress_of_twin {m : SupPomdp} {s s' : Nat} (h : Twin m (m.toState s) (m.toState s')) : SameProgress m s s' := by
  refine ⟨h.2.2.1, ?_⟩
  intro o ho
  show (m.toState s).getBit o = 1 ↔ (m.toState s').getBit o = 1
  rw [h.2.2.2 o ho]

/-! ### The best value -/

theorem le_bestOf (f : Nat → ℚ) (n a : Nat) (ha : a < n) : f a ≤ bestOf f n := by
  unfold bestOf
  suffices key : ∀ (l : List Nat) (b : ℚ), b ≤ l.foldl (fun b a => max b (f a)) b ∧
      ∀ a ∈ l, f a ≤ l.foldl (fun b a => max b (f a)) b from (key _ _).2 a (List.mem_range.2 ha)
  intro l
  induction l with
  | nil => intro b; exact ⟨le_refl _, by simp⟩
  | cons x l ih =>
      intro b
      rw [List.foldl_cons]
      obtain ⟨h1, h2⟩ := ih (max b (f x))
      refine ⟨le_trans (le_max_left _ _) h1, ?_⟩
      intro a ha
      rcases List.mem_cons.1 ha with rfl | ha
      · exact le_trans (le_max_right _ _) h1
      · exact h2 a ha

theorem bestOf_le (f : Nat → ℚ) (n : Nat) (v : ℚ) (hn : 0 < n) (h : ∀ a < n, f a ≤ v) : bestOf f n ≤ v := by
  unfold bestOf
  suffices key : ∀ (l : List Nat) (b : ℚ), b ≤ v → (∀ a ∈ l, f a ≤ v) → l.foldl (fun b a => max b (f a)) b ≤ v from
    key _ _ (h 0 hn) (fun a ha => h a (List.mem_range.1 ha))
  intro l
  induction l with
  | nil => intro b hb _; exact hb
  | cons x l ih =>
      intro b hb hl
      rw [List.foldl_cons]
      exact ih _ (max_le hb (hl x (by simp))) (fun a ha => hl a (by simp [ha]))

theorem four_le_nActions (m : SupPomdp) : 4 ≤ m.nActions := by unfold nActions; omega

theorem best_le_twin {m : SupPomdp} {css : List (List (Nat × String))} (hw : m.WF css)
    (hflag : m.par.rewardIndependentPreference = true) (hcost : m.par.costHold ≤ m.par.rPreference) (hheld : EveryLeafHeld m)
    (E : Nat → (Draws → ℚ) → ℚ) (γ : ℚ) (hγ : 0 ≤ γ) (random : Bool) (hE : ∀ n, MonotoneOn (Calm m random) (E n)) :
    ∀ (n s s' : Nat), s < m.nStates → s' < m.nStates → SameProgress m s s' →
      bestValue m E γ random n s ≤ bestValue m E γ random n s' := by
  intro n
  induction n with
  | zero => intro s s' _ _ _; exact le_refl _
  | succ n ih =>
      intro s s' hs hs' hp
      unfold bestValue
      apply bestOf_le _ _ _ (by have := four_le_nActions m; omega)
      intro a ha
      -- the action in the other state
      have hsp := hp.1
      suffices key : ∃ a' < m.nActions, ∀ d, Calm m random d →
          stepValue γ (bestValue m E γ random n) (m.sampleTransition d a s random) ≤
            stepValue γ (bestValue m E γ random n) (m.sampleTransition d a' s' random) by
        obtain ⟨a', ha', hk⟩ := key
        refine le_trans ?_ (le_bestOf _ _ a' ha')
        exact hE n _ _ hk
      have fin : ∀ a' < m.nActions, (∀ d y o r y' o' r', Calm m random d → Outcome m d a (m.perturb d s random) random (y, o, r) →
          Outcome m d a' (m.perturb d s' random) random (y', o', r') → Twin m y y' ∧ r ≤ r') →
          ∃ a' < m.nActions, ∀ d, Calm m random d →
          stepValue γ (bestValue m E γ random n) (m.sampleTransition d a s random) ≤
            stepValue γ (bestValue m E γ random n) (m.sampleTransition d a' s' random) := by
        intro a' ha' hk
        refine ⟨a', ha', fun d hd => ?_⟩
        obtain ⟨y, o, r, h1, h2, h3, h4, h5⟩ := sample_outcome hw d a s random hs ha
        obtain ⟨y', o', r', g1, g2, g3, g4, g5⟩ := sample_outcome hw d a' s' random hs' ha'
        obtain ⟨k1, k2⟩ := hk d y o r y' o' r' hd h2 g2
        rw [h1, g1]
        simp only [stepValue]
        have := ih y.s y'.s h5 g5 (progress_of_twin (by rw [h4, g4]; exact k1))
        have := mul_le_mul_of_nonneg_left this hγ
        linarith
      have htw := twin_of_progress hp
      by_cases hrest : m.nodes.length ≤ (m.toState s).htm ∨ 3 ≤ a
      · apply fin a ha
        intro d y o r y' o' r' hd h1 h2
        obtain ⟨k1, k2⟩ := twin_rest (twin_perturb hd htw) (by rw [(perturb_spec m d s random).2.1]; exact hrest) h1 h2
        exact ⟨k1, le_of_eq k2⟩
      · push Not at hrest
        obtain ⟨x, i, p, b, hold, cs, hx, hat, hh⟩ := hheld _ (List.getElem_mem hrest.1)
        have hn : m.needsHold (m.toState s).htm = .ok (some hold) := by
          unfold needsHold
          rw [List.getElem?_eq_getElem hrest.1, hx]
          simp only [hat]
        apply fin (twinAct (some hold) ((m.toState s).hasPref 0 ≠ 0) ((m.toState s').hasPref 0 ≠ 0) a) (by
          have := four_le_nActions m
          unfold twinAct
          split_ifs <;> omega)
        intro d y o r y' o' r' hd h1 h2
        have e1 := perturb_pref hd s
        have e2 := perturb_pref hd s'
        have e3 := (perturb_spec m d s random).2.1
        simp only [← e1, ← e2] at h2
        exact twin_task hw hflag hcost (twin_perturb hd htw) (by rw [e3]; exact hn)
          (by rcases hh with rfl | rfl <;> simp) (by rw [e3]; exact hrest.1) (by omega) (fun hr => (hd hr).2) h1 h2

end Verif
