import Verif.Spec.PrefLine
import Verif.Proof.EvalMean
import Verif.Proof.Returns
import Verif.Props.EvalMean

/-! Proofs about the returns as functions of the probability of the preference (C114). -/

set_option linter.unusedSectionVars false
set_option linter.unusedSimpArgs false

namespace Verif
open Spec SupState SupPomdp

/-! ### The model with another probability -/

section
variable {μ : Type} {t : Htm SupAction} {m : SupPomdp} {pol : EvalPolicy μ} {Q : μ → Prop} {D K N : Nat}

theorem updateForConditions_with (p : ℚ) (u : Nat → ℚ) : ∀ (cos : List ((Nat × Nat) × Nat)) (x : SupState),
    (withPreference m p).updateForConditions u cos x = m.updateForConditions u cos x := by
  intro cos
  induction cos with
  | nil => intro x; rfl
  | cons co cos ih =>
    intro x
    simp only [updateForConditions, ih]
    rfl

theorem updateForTransition_with (p : ℚ) (d : Draws) (x : SupState) (node : Nat) :
    (withPreference m p).updateForTransition d x node = m.updateForTransition d x node := by
  unfold updateForTransition
  simp only [updateForConditions_with]
  rfl

theorem sampleTransition_with (p : ℚ) (d : Draws) (a s : Nat) (random : Bool) :
    (withPreference m p).sampleTransition d a s random = m.sampleTransition d a s random := by
  have e1 : ∀ x new r, (withPreference m p).taskStep d a x new random r = m.taskStep d a x new random r := by
    intro x new r
    unfold taskStep
    simp only [updateForTransition_with]
    rfl
  have e2 : ∀ x new, (withPreference m p).waitStep d a x new random = m.waitStep d a x new random := by
    intro x new
    unfold waitStep
    simp only [e1]
    rfl
  have e3 : ∀ x new, (withPreference m p).branch d a x new random = m.branch d a x new random := by
    intro x new
    unfold branch
    simp only [e2]
    rfl
  unfold sampleTransition
  simp only [e3]
  rfl

theorem supMove_with (p : ℚ) (ω : Numbers m D K N) (a s : Nat) : supMove (withPreference m p) (D := D) (K := K) (N := N) ω a s = supMove m ω a s := by
  unfold supMove
  rw [sampleTransition_with]
  rfl

theorem chosenAction_with (p : ℚ) (q : μ) : chosenAction (withPreference m p) pol q = chosenAction m pol q := rfl

theorem constructed_with (h : Constructed t m) (p : ℚ) : Constructed t (withPreference m p) := by
  obtain ⟨h1, h2, par, uniq, limit, h3, h4, h5⟩ := h
  refine ⟨h1, h2, { par with pPreferences := [p] }, uniq, limit, h3, h4, ?_⟩
  unfold mkSupPomdp at h5 ⊢
  cases e1 : htmToDag SupAction.ops uniq limit t with
  | error e => rw [e1] at h5; cases h5
  | ok h2d =>
    rw [e1] at h5
    simp only [bind, Except.bind, pure, Except.pure] at h5 ⊢
    cases e2 : populateConditions h2d.2.nodes ([], []) with
    | error e => rw [e2] at h5; cases h5
    | ok c =>
      rw [e2] at h5
      simp only at h5 ⊢
      cases h5
      rfl

theorem answers_with (h : Answers m pol Q) (p : ℚ) : Answers (withPreference m p) pol Q := by
  refine ⟨h.reset, fun q hq => ?_⟩
  obtain ⟨name, q', h1, h2, h3⟩ := h.action q hq
  refine ⟨name, q', h1, h2, fun d s s' o r hs hr => h3 d s s' o r hs ?_⟩
  rw [← sampleTransition_with p]
  exact hr

theorem lengthWeight_with (p γ : ℚ) : ∀ (k : Nat) (q : μ) (s : Nat),
    lengthWeight (withPreference m p) pol D K N γ k q s = lengthWeight m pol D K N γ k q s := by
  intro k
  induction k with
  | zero => intro q s; rfl
  | succ k ih =>
    intro q s
    unfold lengthWeight
    apply mean_congr
    have e : ∀ (ω : Numbers (withPreference m p) D K N) a s, supMove (withPreference m p) ω a s = supMove m (D := D) (K := K) (N := N) ω a s :=
      supMove_with (m := m) (D := D) (K := K) (N := N) p
    intro ω
    simp only [chosenAction_with, e, ih]
    rfl

theorem lateValue_with (p γ : ℚ) : ∀ (k : Nat) (q : μ) (s : Nat), lateValue (withPreference m p) pol D K N γ k q s = lateValue m pol D K N γ k q s := by
  intro k
  induction k with
  | zero => intro q s; rfl
  | succ k ih =>
    intro q s
    unfold lateValue
    apply mean_congr
    have e : ∀ (ω : Numbers (withPreference m p) D K N) a s, supMove (withPreference m p) ω a s = supMove m (D := D) (K := K) (N := N) ω a s :=
      supMove_with (m := m) (D := D) (K := K) (N := N) p
    intro ω
    simp only [chosenAction_with, e, ih, lengthWeight_with]
    rfl

theorem leavesDone_with (p : ℚ) : ∀ (k : Nat) (q : μ) (s : Nat), leavesDone (withPreference m p) pol D K N k q s = leavesDone m pol D K N k q s := by
  intro k
  induction k with
  | zero => intro q s; rfl
  | succ k ih =>
    intro q s
    unfold leavesDone
    apply mean_congr
    have e : ∀ (ω : Numbers (withPreference m p) D K N) a s, supMove (withPreference m p) ω a s = supMove m (D := D) (K := K) (N := N) ω a s :=
      supMove_with (m := m) (D := D) (K := K) (N := N) p
    intro ω
    simp only [chosenAction_with, e, ih]
    rfl

/-! ### The start -/

/-- The start state if the preference is `b`. -/
def startIf (m : SupPomdp) (b : Nat) (c : Nat) (v : Nat → ℚ) : Nat :=
  match choose m.init c with
  | .ok h => ((((m.toState 0).setHtm h).setPref 0 b).randomObjects v m.par.pChangedByHuman).s
  | .error _ => 0

theorem startOf_with (p : ℚ) (ω : StartNumbers m D K) :
    startOf (withPreference m p) (D := D) (K := K) ω = if numberAt ω.2.1 0 < p then startIf m 1 ω.1 (numberAt ω.2.2) else startIf m 0 ω.1 (numberAt ω.2.2) := by
  unfold startOf sampleStart startIf
  show (match (do
      let h ← choose m.init ω.1
      let x := (m.toState 0).setHtm h
      let y := [p].zipIdx.foldl (fun x pi => x.setPref pi.2 (if numberAt ω.2.1 pi.2 < pi.1 then 1 else 0)) x
      return (y.randomObjects (numberAt ω.2.2) m.par.pChangedByHuman).s : Py Nat) with | .ok s => s | .error _ => 0) = _
  cases choose m.init ω.1 with
  | error e => simp [bind, Except.bind]
  | ok h =>
    simp only [bind, Except.bind, pure, Except.pure, List.zipIdx_cons, List.zipIdx_nil, List.foldl_cons, List.foldl_nil]
    by_cases hp : numberAt ω.2.1 0 < p
    · rw [if_pos hp, if_pos hp]
    · rw [if_neg hp, if_neg hp]

theorem mean_ite {Ω : Type} [Fintype Ω] [Nonempty Ω] (P : Ω → Prop) [DecidablePred P] (a b : ℚ) :
    mean (fun ω => if P ω then a else b) = chance P * a + (1 - chance P) * b := by
  have hc : (Fintype.card Ω : ℚ) ≠ 0 := by exact_mod_cast Fintype.card_ne_zero
  have e : ∀ ω, (if P ω then a else b) = b + (a - b) * (if P ω then 1 else 0) := by intro ω; split <;> ring
  rw [mean_congr e, mean_affine, chance_eq]
  have : mean (fun ω => if P ω then (1 : ℚ) else 0) = ((Finset.univ.filter P).card : ℚ) / Fintype.card Ω := by
    unfold mean
    rw [Finset.sum_boole]
  rw [this]
  ring

theorem chance_numberAt {n D : Nat} (hn : 0 < n) (hD : 0 < D) {p : ℚ} (hp : Multiple D p) (h1 : p ≤ 1) :
    chance (fun u : Fin n → Fin D => numberAt u 0 < p) = p := by
  haveI : Nonempty (Fin D) := ⟨⟨0, hD⟩⟩
  have e : ∀ u : Fin n → Fin D, numberAt u 0 < p ↔ ∀ i, (fun (i : Fin n) (x : Fin D) => (i : Nat) = 0 → equidistant x < p) i (u i) := by
    intro u
    unfold numberAt
    rw [dif_pos hn]
    constructor
    · intro h i hi
      have : i = ⟨0, hn⟩ := Fin.ext hi
      rw [this]; exact h
    · intro h; exact h ⟨0, hn⟩ rfl
  rw [chance_congr e]
  refine (chance_pi (fun (i : Fin n) (x : Fin D) => (i : Nat) = 0 → equidistant x < p)).trans ?_
  rw [Finset.prod_eq_single (⟨0, hn⟩ : Fin n)]
  · rw [chance_congr (Q := fun x : Fin D => equidistant x < p) fun x => ⟨fun h => h rfl, fun h _ => h⟩]
    exact chance_lt hD hp h1
  · intro i _ hi
    apply chance_true
    intro x hx
    exact absurd (Fin.ext hx) hi
  · intro h; exact absurd (Finset.mem_univ _) h

theorem numberAt_range {n D : Nat} (u : Fin n → Fin D) (i : Nat) : 0 ≤ numberAt u i ∧ numberAt u i < 1 := by
  unfold numberAt
  split
  · exact equidistant_range _
  · exact ⟨le_refl _, by norm_num⟩

theorem mean_start (hn : 1 ≤ m.par.nPreferences) (hD : 0 < D) (hK : 0 < K) {p : ℚ} (hp : Multiple D p) (h1 : p ≤ 1) (f : Nat → ℚ) :
    mean (fun ω : StartNumbers m D K => f (startOf (withPreference m p) (D := D) (K := K) ω)) =
      p * mean (fun ω : StartNumbers m D K => f (startIf m 1 ω.1 (numberAt ω.2.2))) +
        (1 - p) * mean (fun ω : StartNumbers m D K => f (startIf m 0 ω.1 (numberAt ω.2.2))) := by
  haveI : Nonempty (Fin D) := ⟨⟨0, hD⟩⟩
  haveI : Nonempty (Fin K) := ⟨⟨0, hK⟩⟩
  rw [mean_prod, mean_prod, mean_prod, ← mean_mul, ← mean_mul, ← mean_add]
  apply mean_congr
  intro c
  rw [mean_prod, mean_prod, mean_prod]
  simp only []
  rw [mean_const (mean fun v : Fin m.objects.length → Fin D => f (startIf m 1 c (numberAt v))),
    mean_const (mean fun v : Fin m.objects.length → Fin D => f (startIf m 0 c (numberAt v)))]
  rw [mean_congr (g := fun u : Fin m.par.nPreferences → Fin D => if numberAt u 0 < p then
      mean (fun v : Fin m.objects.length → Fin D => f (startIf m 1 c (numberAt v))) else mean (fun v : Fin m.objects.length → Fin D => f (startIf m 0 c (numberAt v))))]
  · rw [mean_ite, chance_numberAt hn hD hp h1]
  · intro u
    by_cases hu : numberAt u 0 < p
    · rw [if_pos hu]
      apply mean_congr
      intro v
      rw [startOf_with, if_pos hu]
    · rw [if_neg hu]
      apply mean_congr
      intro v
      rw [startOf_with, if_neg hu]

theorem startOf_one (ω : StartNumbers m D K) : startOf (withPreference m 1) (D := D) (K := K) ω = startIf m 1 ω.1 (numberAt ω.2.2) := by
  rw [startOf_with, if_pos (numberAt_range _ _).2]

theorem startOf_zero (ω : StartNumbers m D K) : startOf (withPreference m 0) (D := D) (K := K) ω = startIf m 0 ω.1 (numberAt ω.2.2) := by
  rw [startOf_with, if_neg (not_lt.2 (numberAt_range _ _).1)]

/-! ### States that differ in their preferences -/

/-- The states have the same objects and HTM value; if `c`, the second one has the preference and the first one does not. -/
def SameButPref (c : Bool) (x y : SupState) : Prop :=
  SameShape x y ∧ x.htm = y.htm ∧ (∀ i < x.shiftBody, x.getBit i = y.getBit i) ∧ (c = true → x.hasPref 0 = 0 ∧ y.hasPref 0 = 1)

/-- The shifts are those of a state with preferences. -/
def Shaped (x : SupState) : Prop := x.shiftBody ≤ x.shiftPref ∧ x.shiftPref < x.shiftHtm

theorem shaped_of {x y : SupState} (h : SameShape x y) (hx : Shaped x) : Shaped y := by
  unfold Shaped at *
  rw [← h.1, ← h.2.1, ← h.2.2.1]
  exact hx

theorem sameButPref_setBit {c : Bool} {x y : SupState} (h : SameButPref c x y) (hx : Shaped x) {i b : Nat} (hb : b < 2) (hi : i < x.shiftBody) :
    SameButPref c (x.setBit i b) (y.setBit i b) := by
  obtain ⟨h1, h2, h3, h4⟩ := h
  refine ⟨h1, ?_, ?_, ?_⟩
  · rw [htm_setBit _ _ _ hb (by have := hx.1; have := hx.2; omega), htm_setBit _ _ _ hb (by have := hx.1; have := hx.2; rw [← h1.2.2.1]; omega)]
    exact h2
  · intro j hj
    rw [getBit_setBit _ _ _ _ hb, getBit_setBit _ _ _ _ hb]
    split
    · rfl
    · exact h3 j hj
  · intro hc
    obtain ⟨h5, h6⟩ := h4 hc
    constructor
    · show (x.setBit i b).getBit (x.shiftPref + 0) = 0
      rw [getBit_setBit _ _ _ _ hb, if_neg (by have := hx.1; omega)]
      exact h5
    · show (y.setBit i b).getBit (y.shiftPref + 0) = 1
      rw [getBit_setBit _ _ _ _ hb, if_neg (by have := hx.1; rw [← h1.2.1]; omega)]
      exact h6

theorem sameButPref_setHtm {c : Bool} {x y : SupState} (h : SameButPref c x y) (hx : Shaped x) (n : Nat) : SameButPref c (x.setHtm n) (y.setHtm n) := by
  obtain ⟨h1, h2, h3, h4⟩ := h
  refine ⟨h1, ?_, ?_, ?_⟩
  · rw [htm_setHtm, htm_setHtm]
  · intro j hj
    have hj' : j < x.shiftBody := hj
    rw [getBit_setHtm _ _ _ (by have := hx.1; have := hx.2; omega), getBit_setHtm _ _ _ (by have := hx.1; have := hx.2; rw [← h1.2.2.1]; omega)]
    exact h3 j hj
  · intro hc
    obtain ⟨h5, h6⟩ := h4 hc
    constructor
    · show (x.setHtm n).getBit (x.shiftPref + 0) = 0
      rw [getBit_setHtm _ _ _ (by have := hx.2; omega)]
      exact h5
    · show (y.setHtm n).getBit (y.shiftPref + 0) = 1
      rw [getBit_setHtm _ _ _ (by have := hx.2; rw [← h1.2.1, ← h1.2.2.1]; omega)]
      exact h6

theorem sameButPref_randomObjects {c : Bool} {x y : SupState} (h : SameButPref c x y) (hx : Shaped x) (u : Nat → ℚ) (p : ℚ) :
    SameButPref c (x.randomObjects u p) (y.randomObjects u p) := by
  obtain ⟨h1, h2, h3, h4⟩ := h
  have hy := shaped_of h1 hx
  obtain ⟨a1, a2, a3⟩ := randomObjects_spec x (by unfold nObjects; have := hx.1; have := hx.2; omega) u p
  obtain ⟨b1, b2, b3⟩ := randomObjects_spec y (by unfold nObjects; have := hy.1; have := hy.2; omega) u p
  refine ⟨a1.symm.trans (h1.trans b1), by rw [a2, b2, h2], ?_, ?_⟩
  · intro i hi
    rw [← a1.1] at hi
    rw [randomObjects_bit, randomObjects_bit, h3 i hi]
    have e : x.nObjects = y.nObjects := h1.1
    rw [e]
  · intro hc
    obtain ⟨h5, h6⟩ := h4 hc
    unfold hasPref at *
    rw [← a1.2.1, ← b1.2.1, a3 _ (by unfold nObjects; have := hx.1; omega), b3 _ (by unfold nObjects; have := hy.1; omega)]
    exact ⟨h5, h6⟩

theorem sameButPref_randomPrefs {c : Bool} {x y : SupState} (h : SameButPref c x y) (hx : Shaped x) (u : Nat → ℚ) (p : ℚ) (hu : c = true → ∀ i, ¬ u i < p) :
    SameButPref c (x.randomPrefs u p) (y.randomPrefs u p) := by
  obtain ⟨h1, h2, h3, h4⟩ := h
  have hy := shaped_of h1 hx
  obtain ⟨a1, a2, a3⟩ := randomPrefs_spec x u p
  obtain ⟨b1, b2, b3⟩ := randomPrefs_spec y u p
  refine ⟨a1.symm.trans (h1.trans b1), by rw [a2, b2, h2], ?_, ?_⟩
  · intro i hi
    rw [← a1.1] at hi
    rw [a3 i (by have := hx.1; omega), b3 i (by have := hx.1; rw [← h1.2.1]; omega), h3 i hi]
  · intro hc
    obtain ⟨h5, h6⟩ := h4 hc
    unfold hasPref at *
    rw [← a1.2.1, ← b1.2.1, randomPrefs_bit, randomPrefs_bit, if_neg fun hh => hu hc _ hh.2.2, if_neg fun hh => hu hc _ hh.2.2]
    exact ⟨h5, h6⟩

theorem shaped_toState (hn : 1 ≤ m.par.nPreferences) (s : Nat) : Shaped (m.toState s) := by
  constructor
  · show m.objects.length ≤ m.objects.length + 1
    omega
  · show m.objects.length + 1 < m.objects.length + 1 + m.par.nPreferences
    omega

theorem sameButPref_perturb (hn : 1 ≤ m.par.nPreferences) {c : Bool} {s s' : Nat} (h : SameButPref c (m.toState s) (m.toState s')) (d : Draws)
    (hu : c = true → ∀ i, ¬ d.prefs i < m.par.pChangePreference) : SameButPref c (m.perturb d s true) (m.perturb d s' true) := by
  unfold perturb
  rw [if_pos rfl, if_pos rfl]
  have h1 := sameButPref_randomObjects h (shaped_toState hn s) d.objects m.par.pChangedByHuman
  refine sameButPref_randomPrefs h1 ?_ _ _ hu
  refine shaped_of (randomObjects_spec (m.toState s) ?_ _ _).1 (shaped_toState hn s)
  show m.objects.length ≤ m.objects.length + 1 + m.par.nPreferences
  omega

theorem sameButPref_conditions {c : Bool} (u : Nat → ℚ) : ∀ (cos : List ((Nat × Nat) × Nat)) (x y : SupState), SameButPref c x y → Shaped x →
    (∀ co ∈ cos, co.1.2 < x.shiftBody) →
    SameButPref c (m.updateForConditions u cos x).1 (m.updateForConditions u cos y).1 ∧ (m.updateForConditions u cos x).2 = (m.updateForConditions u cos y).2 := by
  intro cos
  induction cos with
  | nil => intro x y h _ _; exact ⟨h, rfl⟩
  | cons co cos ih =>
    intro x y h hx hc
    have h0 := hc co (by simp)
    have key : SameButPref c (m.updateForCondition x co.1.1 co.1.2 (u co.2)).1 (m.updateForCondition y co.1.1 co.1.2 (u co.2)).1 ∧
        (m.updateForCondition x co.1.1 co.1.2 (u co.2)).2 = (m.updateForCondition y co.1.1 co.1.2 (u co.2)).2 ∧
        SameShape x (m.updateForCondition x co.1.1 co.1.2 (u co.2)).1 := by
      unfold updateForCondition
      simp only [h.2.2.1 _ h0]
      split
      · exact ⟨sameButPref_setBit h hx (by omega) h0, rfl, rfl, rfl, rfl, rfl⟩
      · split
        · exact ⟨sameButPref_setBit h hx (by split <;> omega) h0, rfl, rfl, rfl, rfl, rfl⟩
        · split
          · exact ⟨sameButPref_setBit h hx (by omega) h0, rfl, rfl, rfl, rfl, rfl⟩
          · exact ⟨h, rfl, rfl, rfl, rfl, rfl⟩
    obtain ⟨k1, k2, k3⟩ := key
    obtain ⟨i1, i2⟩ := ih _ _ k1 (shaped_of k3 hx) (fun co' hco' => by rw [← k3.1]; exact hc co' (by simp [hco']))
    simp only [updateForConditions]
    exact ⟨i1, by rw [k2, i2]⟩

theorem sameButPref_transition {css : List (List (Nat × String))} (hw : m.WF css) {c : Bool} {x y : SupState} (h : SameButPref c x y) (hx : Shaped x)
    (hs : SameShape (m.toState 0) x) (d : Draws) (node : Nat) {x' y' : SupState} {r r' : ℚ} (e1 : m.updateForTransition d x node = .ok (x', r))
    (e2 : m.updateForTransition d y node = .ok (y', r')) : SameButPref c x' y' ∧ r = r' := by
  unfold updateForTransition at e1 e2
  split at e1
  · rename_i ss conds hss hco
    rw [hss, hco] at e2
    simp only [bind, Except.bind, pure, Except.pure] at e1 e2
    cases hch : choose ss d.succ with
    | error e => rw [hch] at e1; cases e1
    | ok n =>
      rw [hch] at e1 e2
      simp only at e1 e2
      have := sameButPref_conditions (m := m) d.consume conds.zipIdx _ _ (sameButPref_setHtm h hx n) (shaped_of ⟨rfl, rfl, rfl, rfl⟩ hx) (by
        intro co hmem
        have hm := hw.condObj node conds hco co.1 (by
          obtain ⟨⟨a, b⟩, i⟩ := co
          exact (List.mem_zipIdx hmem).2.2 ▸ List.getElem_mem _)
        have e : (x.setHtm n).shiftBody = m.objects.length := hs.1.symm
        rw [e]; exact hm)
      have e1' := Except.ok.inj e1
      have e2' := Except.ok.inj e2
      rw [e1', e2'] at this
      exact this
  · cases e1

theorem sameButPref_branch {css : List (List (Nat × String))} (hw : m.WF css) {c : Bool} {x y : SupState} (h : SameButPref c x y) (hx : Shaped x)
    (hs : SameShape (m.toState 0) x) (hh : x.htm < m.nHtmStates) (d : Draws) {a : Nat} (ha : a = 0 ∨ 4 ≤ a) (han : a < m.nActions) :
    ∃ r r' : SupState × Nat × ℚ, m.branch d a x x true = .ok r ∧ m.branch d a y y true = .ok r' ∧ SameButPref c r.1 r'.1 ∧ r.2.1 = r'.2.1 ∧
      r.2.2 - r'.2.2 = (if a = 0 ∧ x.htm < m.nodes.length then correction m x - correction m y else 0) ∧
      ((x.htm < m.nodes.length ∧ r.1.htm ≠ x.htm) ↔ (a = 0 ∧ x.htm < m.nodes.length)) ∧ SameShape (m.toState 0) r.1 := by
  obtain ⟨r, e1, o1⟩ := branch_outcome hw d a x true hs hh han
  obtain ⟨r', e2, o2⟩ := branch_outcome hw d a y true (hs.trans h.1) (by rw [← h.2.1]; exact hh) han
  refine ⟨r, r', e1, e2, ?_⟩
  suffices SameButPref c r.1 r'.1 ∧ r.2.1 = r'.2.1 ∧
      r.2.2 - r'.2.2 = (if a = 0 ∧ x.htm < m.nodes.length then correction m x - correction m y else 0) ∧
      ((x.htm < m.nodes.length ∧ r.1.htm ≠ x.htm) ↔ (a = 0 ∧ x.htm < m.nodes.length)) from
    ⟨this.1, this.2.1, this.2.2.1, this.2.2.2, o1.shape hw hs⟩
  have hsb : x.shiftBody = m.objects.length := hs.1.symm
  have hcl : cleanCost m x = cleanCost m y := by
    unfold cleanCost
    congr 1
    apply List.map_congr_left
    intro o ho
    rw [h.2.2.1 o (by rw [hsb]; exact List.mem_range.1 ho)]
  have hhtm := h.2.1
  have hF : m.htmFinal = m.nodes.length + 1 := rfl
  have hC : m.htmClean = m.nodes.length := rfl
  cases o1 with
  | final ha1 h1 =>
    cases o2 with
    | final ha2 h2 => exact ⟨h, rfl, by rw [if_neg (by omega)]; simp, by omega⟩
    | finish ha2 h2 => exfalso; omega
    | cleanHold ha2 h2 => exfalso; omega
    | failed ha2 h2 => exfalso; omega
    | good h2 => exfalso; omega
    | other ha2 h2 => exfalso; omega
    | ask ha2 => exfalso; omega
    | there ha2 => exfalso; omega
    | missed ha2 => exfalso; omega
    | moved ha2 => exfalso; omega
  | finish ha1 h1 =>
    cases o2 with
    | final ha2 h2 => exfalso; omega
    | finish ha2 h2 => exact ⟨sameButPref_setHtm h hx _, rfl, by rw [if_neg (by omega), hcl]; simp, by omega⟩
    | cleanHold ha2 h2 => exfalso; omega
    | failed ha2 h2 => exfalso; omega
    | good h2 => exfalso; omega
    | other ha2 h2 => exfalso; omega
    | ask ha2 => exfalso; omega
    | there ha2 => exfalso; omega
    | missed ha2 => exfalso; omega
    | moved ha2 => exfalso; omega
  | cleanHold ha1 h1 => exfalso; omega
  | failed ha1 h1 => exfalso; omega
  | good h1 needs hn hp hg => exfalso; rcases hg with ⟨_, hg⟩ | ⟨_, hg⟩ <;> omega
  | other ha1 h1 needs hn hg x' c1 hu =>
    have ha0 : a = 0 := by omega
    cases o2 with
    | final ha2 h2 => exfalso; omega
    | finish ha2 h2 => exfalso; omega
    | cleanHold ha2 h2 => exfalso; omega
    | failed ha2 h2 => exfalso; omega
    | good h2 needs' hn' hp' hg' => exfalso; rcases hg' with ⟨_, hg'⟩ | ⟨_, hg'⟩ <;> omega
    | other ha2 h2 needs' hn' hg' y' c2 hu' =>
      rw [← hhtm] at hu'
      obtain ⟨k1, k2⟩ := sameButPref_transition hw h hx hs d _ hu hu'
      refine ⟨k1, rfl, ?_, ?_⟩
      · rw [if_pos ⟨ha0, h1⟩, k2]
        ring
      · refine ⟨fun _ => ⟨ha0, h1⟩, fun _ => ⟨h1, ?_⟩⟩
        obtain ⟨z, c3, ss, g1, g2, g3, g4, g5⟩ := updateForTransition_spec hw d x x.htm h1 hs
        rw [hu] at g1
        cases g1
        have := (hw.succs_ok _ _ g3).2 _ g4
        show x'.htm ≠ x.htm
        omega
    | ask ha2 => exfalso; omega
    | there ha2 => exfalso; omega
    | missed ha2 => exfalso; omega
    | moved ha2 => exfalso; omega
  | ask ha1 => exfalso; omega
  | there ha1 obj ho hf hb =>
    have hne : ¬ (a = 0 ∧ x.htm < m.nodes.length) := by omega
    cases o2 with
    | final ha2 h2 => exfalso; omega
    | finish ha2 h2 => exfalso; omega
    | cleanHold ha2 h2 => exfalso; omega
    | failed ha2 h2 => exfalso; omega
    | good h2 needs' hn' hp' hg' => exfalso; rcases hg' with ⟨_, hg'⟩ | ⟨_, hg'⟩ <;> omega
    | other ha2 h2 => exfalso; omega
    | ask ha2 => exfalso; omega
    | there ha2 => exact ⟨h, rfl, by rw [if_neg hne]; simp, by simp; omega⟩
    | missed ha2 obj' ho' hf' hb' => rw [hf] at hf'; cases hf'; rw [← h.2.2.1 obj (by omega)] at hb'; exact absurd hb hb'
    | moved ha2 obj' ho' hf' hb' => rw [hf] at hf'; cases hf'; rw [← h.2.2.1 obj (by omega)] at hb'; exact absurd hb hb'
  | missed ha1 obj ho hf hb hr =>
    have hne : ¬ (a = 0 ∧ x.htm < m.nodes.length) := by omega
    cases o2 with
    | final ha2 h2 => exfalso; omega
    | finish ha2 h2 => exfalso; omega
    | cleanHold ha2 h2 => exfalso; omega
    | failed ha2 h2 => exfalso; omega
    | good h2 needs' hn' hp' hg' => exfalso; rcases hg' with ⟨_, hg'⟩ | ⟨_, hg'⟩ <;> omega
    | other ha2 h2 => exfalso; omega
    | ask ha2 => exfalso; omega
    | there ha2 obj' ho' hf' hb' => rw [hf] at hf'; cases hf'; rw [← h.2.2.1 obj (by omega)] at hb'; exact absurd hb' hb
    | missed ha2 => exact ⟨h, rfl, by rw [if_neg hne]; simp, by simp; omega⟩
    | moved ha2 obj' ho' hf' hb' hr' => exact absurd hr hr'
  | moved ha1 obj ho hf hb hr =>
    have hne : ¬ (a = 0 ∧ x.htm < m.nodes.length) := by omega
    cases o2 with
    | final ha2 h2 => exfalso; omega
    | finish ha2 h2 => exfalso; omega
    | cleanHold ha2 h2 => exfalso; omega
    | failed ha2 h2 => exfalso; omega
    | good h2 needs' hn' hp' hg' => exfalso; rcases hg' with ⟨_, hg'⟩ | ⟨_, hg'⟩ <;> omega
    | other ha2 h2 => exfalso; omega
    | ask ha2 => exfalso; omega
    | there ha2 obj' ho' hf' hb' => rw [hf] at hf'; cases hf'; rw [← h.2.2.1 obj (by omega)] at hb'; exact absurd hb' hb
    | missed ha2 obj' ho' hf' hb' hr' => exact absurd hr' hr
    | moved ha2 obj' ho' hf' hb' hr' =>
      rw [hf] at hf'
      cases hf'
      have hb2 : (if m.isBring a = true then 1 else 0) < 2 := by split <;> omega
      refine ⟨sameButPref_setBit h hx hb2 (by omega), rfl, by rw [if_neg hne]; simp, ?_⟩
      refine ⟨fun hh => absurd ?_ hh.2, fun hh => absurd hh hne⟩
      exact htm_setBit _ _ _ hb2 (by have := hx.1; have := hx.2; omega)

/-- What the difference of the preferences changes in the reward of a completed leaf. -/
def prefGap (m : SupPomdp) (c : Bool) : ℚ := if c then m.par.rPreference - m.par.costHold else 0

/-- The two cases: the rewards do not take the preference into account, or they do and the preference does not change. -/
def GapCase (m : SupPomdp) (c : Bool) : Prop :=
  (c = false ∧ m.par.rewardIndependentPreference = false) ∨
    (c = true ∧ m.par.rewardIndependentPreference = true ∧ m.par.pChangePreference ≤ 0)

theorem sameButPref_move (hm : Constructed t m) (hn : 1 ≤ m.par.nPreferences) {c : Bool} (hc : GapCase m c) {s s' : Nat}
    (h : SameButPref c (m.toState s) (m.toState s')) (hs : s < m.nStates) (ω : Numbers m D K N) {a : Nat} (ha : a = 0 ∨ 4 ≤ a)
    (han : a < m.nActions) :
    SameButPref c (m.toState (supMove m ω a s).1) (m.toState (supMove m ω a s').1) ∧ (supMove m ω a s).2.1 = (supMove m ω a s').2.1 ∧
      (supMove m ω a s).2.2 - (supMove m ω a s').2.2 =
        prefGap m c * (if htmOf m s < m.nodes.length ∧ htmOf m (supMove m ω a s).1 ≠ htmOf m s then 1 else 0) := by
  obtain ⟨css, hw⟩ := constructed_wf hm
  have h0 := sameButPref_perturb hn h (drawsOf ω) (by
    intro hcc i
    rcases hc with ⟨hc, _⟩ | ⟨_, _, hc⟩
    · rw [hc] at hcc; cases hcc
    · exact not_lt.2 (le_trans hc (numberAt_range _ _).1))
  have hsp := (perturb_spec m (drawsOf ω) s true).1
  have hhp := (perturb_spec m (drawsOf ω) s true).2.1
  have hsh : SameShape (m.toState 0) (m.perturb (drawsOf ω) s true) := perturb_shape _ _ _ _
  obtain ⟨r, r', e1, e2, k1, k2, k3, k4, k5⟩ := sameButPref_branch hw h0 (shaped_of hsp (shaped_toState hn s)) hsh
    (by rw [hhp]; exact (lt_nStates m s).1 hs) (drawsOf ω) ha han
  have m1 : supMove m ω a s = (r.1.s, r.2.1, r.2.2) := by
    unfold supMove
    rw [sampleTransition_eq, e1]
    rfl
  have m2 : supMove m ω a s' = (r'.1.s, r'.2.1, r'.2.2) := by
    unfold supMove
    rw [sampleTransition_eq, e2]
    rfl
  have t1 : m.toState r.1.s = r.1 := toState_of_sameShape k5
  have t2 : m.toState r'.1.s = r'.1 := toState_of_sameShape (k5.trans k1.1)
  rw [m1, m2]
  refine ⟨by rw [t1, t2]; exact k1, k2, ?_⟩
  have eq : (htmOf m s < m.nodes.length ∧ htmOf m r.1.s ≠ htmOf m s) ↔ (a = 0 ∧ (m.perturb (drawsOf ω) s true).htm < m.nodes.length) := by
    rw [← k4, hhp]
    have q1 : htmOf m s = (m.toState s).htm := rfl
    have q2 : htmOf m r.1.s = (m.toState r.1.s).htm := rfl
    rw [q1, q2, t1]
  simp only [eq]
  show r.2.2 - r'.2.2 = _
  rw [k3]
  have gap : correction m (m.perturb (drawsOf ω) s true) - correction m (m.perturb (drawsOf ω) s' true) = prefGap m c := by
    unfold correction prefGap
    rcases hc with ⟨rfl, hr⟩ | ⟨rfl, hr, _⟩
    · simp [hr]
    · obtain ⟨g1, g2⟩ := h0.2.2.2 rfl
      simp [hr, g1, g2]
  rw [gap]
  split <;> simp

theorem isFinal_sameButPref {c : Bool} {s s' : Nat} (h : SameButPref c (m.toState s) (m.toState s')) : m.isFinal s = m.isFinal s' := by
  unfold SupPomdp.isFinal SupState.isFinal
  rw [h.2.1, h.1.2.2.2]

theorem values_sameButPref (hm : Constructed t m) (hn : 1 ≤ m.par.nPreferences) (hp : Answers m pol Q) (hh : NeverHolds m pol Q) {c : Bool}
    (hc : GapCase m c) (γ : ℚ) (hD : 0 < D) (hK : 0 < K) : ∀ (k : Nat) (q : μ) (s s' : Nat), Q q → s < m.nStates → s' < m.nStates →
    SameButPref c (m.toState s) (m.toState s') →
      lengthWeight m pol D K N γ k q s = lengthWeight m pol D K N γ k q s' ∧
      (c = false → lateValue m pol D K N γ k q s = lateValue m pol D K N γ k q s') ∧
      policyValue m pol D K N k q s = policyValue m pol D K N k q s' + prefGap m c * leavesDone m pol D K N k q s := by
  haveI : Nonempty (Fin D) := ⟨⟨0, hD⟩⟩
  haveI : Nonempty (Fin K) := ⟨⟨0, hK⟩⟩
  intro k
  induction k with
  | zero =>
    intro q s s' _ _ _ _
    refine ⟨rfl, fun _ => rfl, ?_⟩
    simp [policyValue, leavesDone]
  | succ k ih =>
    intro q s s' hq hs hs' h
    obtain ⟨_, _, _, han⟩ := indexOfName_chosen hm hp hq
    have mv := fun ω : Numbers m D K N => sameButPref_move hm hn hc h hs ω (hh q hq) han
    have fin := fun ω : Numbers m D K N => isFinal_sameButPref (mv ω).1
    have rec_ := fun ω : Numbers m D K N =>
      ih (afterStep pol q (supMove m ω (chosenAction m pol q) s).2.1) _ _ (afterStep_ok hm hp hq ω hs).choose_spec.2.2
        (supMove_ok hm ω han hs).2.1 (supMove_ok hm ω han hs').2.1 (mv ω).1
    refine ⟨?_, ?_, ?_⟩
    · unfold lengthWeight
      apply mean_congr
      intro ω
      rw [← fin ω, ← (mv ω).2.1, (rec_ ω).1]
    · intro hcf
      unfold lateValue
      apply mean_congr
      intro ω
      have hr : (supMove m ω (chosenAction m pol q) s).2.2 = (supMove m ω (chosenAction m pol q) s').2.2 := by
        have := (mv ω).2.2
        rw [hcf] at this
        simp only [prefGap, Bool.false_eq_true, if_false, zero_mul] at this
        linarith
      rw [← fin ω, ← (mv ω).2.1, (rec_ ω).1, (rec_ ω).2.1 hcf, hr]
    · unfold policyValue leavesDone
      rw [← mean_mul, ← mean_add]
      apply mean_congr
      intro ω
      have h1 := (mv ω).2.2
      have h2 := (rec_ ω).2.2
      rw [← fin ω, ← (mv ω).2.1]
      split
      · linarith
      · linarith

theorem sameButPref_start (hm : Constructed t m) (hn : 1 ≤ m.par.nPreferences) (c : Nat) (v : Nat → ℚ) :
    SameButPref true (m.toState (startIf m 0 c v)) (m.toState (startIf m 1 c v)) ∧ startIf m 0 c v < m.nStates ∧ startIf m 1 c v < m.nStates := by
  obtain ⟨css, hw⟩ := constructed_wf hm
  obtain ⟨h, h1, h2⟩ := choose_mem m.init c hw.init_ne
  have e : ∀ b, startIf m b c v = ((((m.toState 0).setHtm h).setPref 0 b).randomObjects v m.par.pChangedByHuman).s := by
    intro b
    unfold startIf
    rw [h2]
  have hx0 : Shaped (((m.toState 0).setHtm h).setPref 0 0) := shaped_toState hn 0
  have lt : ((m.toState 0).setHtm h).shiftPref + 0 < ((m.toState 0).setHtm h).shiftHtm := (shaped_toState hn 0).2
  have ltb : ((m.toState 0).setHtm h).shiftBody < ((m.toState 0).setHtm h).shiftPref + 0 := by
    show m.objects.length < m.objects.length + 1 + 0
    omega
  have A : SameButPref true (((m.toState 0).setHtm h).setPref 0 0) (((m.toState 0).setHtm h).setPref 0 1) := by
    refine ⟨⟨rfl, rfl, rfl, rfl⟩, ?_, ?_, fun _ => ⟨?_, ?_⟩⟩
    · unfold setPref
      rw [htm_setBit _ _ _ (by omega) lt, htm_setBit _ _ _ (by omega) lt]
    · intro i hi
      have hi' : i < ((m.toState 0).setHtm h).shiftBody := hi
      unfold setPref
      rw [getBit_setBit _ _ _ _ (by omega), getBit_setBit _ _ _ _ (by omega), if_neg (by omega), if_neg (by omega)]
    · show (((m.toState 0).setHtm h).setBit _ 0).getBit (((m.toState 0).setHtm h).shiftPref + 0) = 0
      rw [getBit_setBit _ _ _ _ (by omega), if_pos rfl]
    · show (((m.toState 0).setHtm h).setBit _ 1).getBit (((m.toState 0).setHtm h).shiftPref + 0) = 1
      rw [getBit_setBit _ _ _ _ (by omega), if_pos rfl]
  have B := sameButPref_randomObjects A hx0 v m.par.pChangedByHuman
  obtain ⟨g1, g2, g3⟩ := randomObjects_spec _ (by unfold nObjects; have := hx0.1; have := hx0.2; omega : (((m.toState 0).setHtm h).setPref 0 0).nObjects ≤ _)
    v m.par.pChangedByHuman
  have s0 : SameShape (m.toState 0) (((((m.toState 0).setHtm h).setPref 0 0).randomObjects v m.par.pChangedByHuman)) :=
    SameShape.trans ⟨rfl, rfl, rfl, rfl⟩ g1
  have s1 := s0.trans B.1
  have hh : (((((m.toState 0).setHtm h).setPref 0 0).randomObjects v m.par.pChangedByHuman)).htm = h := by
    rw [g2]
    unfold setPref
    rw [htm_setBit _ _ _ (by omega) lt, htm_setHtm]
  have hlt : h < m.nHtmStates := by
    have := hw.init_ok h h1
    unfold nHtmStates
    omega
  rw [e, e, lt_nStates, lt_nStates, toState_of_sameShape s0, toState_of_sameShape s1]
  exact ⟨B, by rw [hh]; exact hlt, by rw [← B.2.1, hh]; exact hlt⟩

theorem sameButPref_mono {c : Bool} {x y : SupState} (h : SameButPref true x y) : SameButPref c x y := ⟨h.1, h.2.1, h.2.2.1, fun _ => h.2.2.2 rfl⟩

end

end Verif
