import Verif.Model.Supportive
import Verif.Proof.SupState
import Verif.Proof.Dag

/-! Lemmas on the supportive POMDP. -/

set_option linter.unusedSectionVars false
set_option linter.unusedSimpArgs false

namespace Verif
open Spec SupState

/-! ### Construction -/

/-- `(objects, clearable)` after reading the conditions `conds`. -/
structure OInv (oc : List String × List Bool) (conds : List (Nat × String)) : Prop where
  nodup : oc.1.Nodup
  len : oc.2.length = oc.1.length
  mem : ∀ n, n ∈ oc.1 ↔ ∃ c, (c, n) ∈ conds
  clr : ∀ (k : Nat) (n : String), oc.1[k]? = some n → (oc.2[k]? = some true ↔ ∃ c, (c, n) ∈ conds ∧ (c = cUSES ∨ c = cCONSUMES_SOME))

theorem getObjectId_spec (oc : List String × List Bool) (name : String) (hn : oc.1.Nodup)
    (hl : oc.2.length = oc.1.length) :
    (getObjectId oc name).2.1[(getObjectId oc name).1]? = some name ∧ oc.1 <+: (getObjectId oc name).2.1 ∧
    (getObjectId oc name).2.1.Nodup ∧ (getObjectId oc name).2.2.length = (getObjectId oc name).2.1.length ∧
    (∀ n, n ∈ (getObjectId oc name).2.1 ↔ n ∈ oc.1 ∨ n = name) ∧
    (∀ k, k < oc.1.length → (getObjectId oc name).2.2[k]? = oc.2[k]?) ∧
    (∀ k, oc.1.length ≤ k → (getObjectId oc name).2.2[k]? ≠ some true) := by
  unfold getObjectId
  by_cases h : name ∈ oc.1
  · rw [if_pos h]
    refine ⟨List.getElem?_idxOf h, List.prefix_refl _, hn, hl, ?_, fun _ _ => rfl, ?_⟩
    · intro n
      constructor
      · exact Or.inl
      · rintro (h' | rfl)
        · exact h'
        · exact h
    · intro k hk
      simp only
      rw [List.getElem?_eq_none (by omega)]
      simp
  · rw [if_neg h]
    refine ⟨List.getElem?_idxOf (by simp), List.prefix_append _ _, ?_, by simp [hl], by simp, ?_, ?_⟩
    · simp only
      rw [List.nodup_append]
      refine ⟨hn, by simp, ?_⟩
      intro x hx y hy
      simp only [List.mem_singleton] at hy
      subst hy
      rintro rfl
      exact h hx
    · intro k hk
      simp only
      rw [List.getElem?_append_left (by omega)]
    · intro k hk
      simp only
      rw [List.getElem?_append_right (by omega)]
      rcases Nat.eq_zero_or_pos (k - oc.2.length) with h0 | h0
      · simp [h0]
      · rw [List.getElem?_eq_none (by simp; omega)]
        simp

theorem nodup_getElem? {α : Type} {l : List α} (hn : l.Nodup) {i j : Nat} {x : α} (hi : l[i]? = some x)
    (hj : l[j]? = some x) : i = j := by
  rw [List.getElem?_eq_some_iff] at hi hj
  obtain ⟨h1, h2⟩ := hi
  obtain ⟨h3, h4⟩ := hj
  exact (List.Nodup.getElem_inj_iff hn).1 (h2.trans h4.symm)

theorem prefix_getElem? {α : Type} {l l' : List α} (h : l <+: l') {i : Nat} {x : α} (hi : l[i]? = some x) :
    l'[i]? = some x := by
  obtain ⟨t, rfl⟩ := h
  rw [List.getElem?_append_left (List.getElem?_eq_some_iff.1 hi).1]
  exact hi

theorem populateOne_spec (oc : List String × List Bool) (acc : List (Nat × Nat)) (conds : List (Nat × String))
    (co : Nat × String) (h : OInv oc conds) :
    OInv (populateOne (oc, acc) co).1 (conds ++ [co]) ∧ oc.1 <+: (populateOne (oc, acc) co).1.1 ∧
    ∃ i, (populateOne (oc, acc) co).2 = acc ++ [(co.1, i)] ∧ (populateOne (oc, acc) co).1.1[i]? = some co.2 := by
  obtain ⟨h1, h2, h3, h4, h5, h6, h7⟩ := getObjectId_spec oc co.2 h.nodup h.len
  refine ⟨⟨h3, ?_, ?_, ?_⟩, h2, _, rfl, h1⟩
  · simp only [populateOne]
    split
    · simp [h4]
    · exact h4
  · intro n
    simp only [populateOne, h5, h.mem, List.mem_append, List.mem_singleton]
    constructor
    · rintro (⟨c, hc⟩ | rfl)
      · exact ⟨c, Or.inl hc⟩
      · exact ⟨co.1, Or.inr rfl⟩
    · rintro ⟨c, hc | hc⟩
      · exact Or.inl ⟨c, hc⟩
      · right; rw [← hc]
  · intro k n hk
    simp only [populateOne] at hk ⊢
    have hkl := (List.getElem?_eq_some_iff.1 hk).1
    -- old value
    have hold : (getObjectId oc co.2).2.2[k]? = some true ↔ ∃ c, (c, n) ∈ conds ∧ (c = cUSES ∨ c = cCONSUMES_SOME) := by
      by_cases hkc : k < oc.1.length
      · rw [h6 k hkc]
        have : oc.1[k]? = some n := by
          obtain ⟨t, ht⟩ := h2
          rw [← ht, List.getElem?_append_left hkc] at hk
          exact hk
        exact h.clr k n this
      · refine ⟨fun h' => absurd h' (h7 k (by omega)), ?_⟩
        rintro ⟨c, hc, _⟩
        have : n ∈ oc.1 := (h.mem n).2 ⟨c, hc⟩
        obtain ⟨k', hk', he⟩ := List.getElem_of_mem this
        have := prefix_getElem? h2 (List.getElem?_eq_some_iff.2 ⟨hk', he⟩)
        have := nodup_getElem? h3 hk this
        omega
    have hmem : (∃ c, (c, n) ∈ conds ++ [co] ∧ (c = cUSES ∨ c = cCONSUMES_SOME)) ↔
        (∃ c, (c, n) ∈ conds ∧ (c = cUSES ∨ c = cCONSUMES_SOME)) ∨ (n = co.2 ∧ (co.1 = cUSES ∨ co.1 = cCONSUMES_SOME)) := by
      simp only [List.mem_append, List.mem_singleton]
      constructor
      · rintro ⟨c, hc | hc, hc'⟩
        · exact Or.inl ⟨c, hc, hc'⟩
        · right; rw [← hc]; exact ⟨rfl, hc'⟩
      · rintro (⟨c, hc, hc'⟩ | ⟨rfl, hc'⟩)
        · exact ⟨c, Or.inl hc, hc'⟩
        · exact ⟨co.1, Or.inr rfl, hc'⟩
    rw [hmem]
    split
    · rename_i hc
      rw [List.getElem?_set]
      by_cases hki : (getObjectId oc co.2).1 = k
      · rw [if_pos hki]
        have : n = co.2 := by
          rw [hki, hk] at h1
          simpa using h1
        rw [if_pos (by rw [h4, hki]; exact hkl)]
        simp [this, hc]
      · rw [if_neg hki, hold]
        refine ⟨Or.inl, ?_⟩
        rintro (h' | ⟨rfl, _⟩)
        · exact h'
        · exact absurd (nodup_getElem? h3 h1 hk) hki
    · rename_i hc
      rw [hold]
      simp [hc]

theorem foldl_populateOne (cs : List (Nat × String)) : ∀ (oc : List String × List Bool) (acc : List (Nat × Nat))
    (conds : List (Nat × String)), OInv oc conds →
    OInv (cs.foldl populateOne (oc, acc)).1 (conds ++ cs) ∧ oc.1 <+: (cs.foldl populateOne (oc, acc)).1.1 ∧
    ∃ l, (cs.foldl populateOne (oc, acc)).2 = acc ++ l ∧
      List.Forall₂ (fun co ci => ci.1 = co.1 ∧ (cs.foldl populateOne (oc, acc)).1.1[ci.2]? = some co.2) cs l := by
  induction cs with
  | nil => intro oc acc conds h; exact ⟨by simpa using h, List.prefix_refl _, [], by simp, .nil⟩
  | cons co cs ih =>
    intro oc acc conds h
    obtain ⟨h1, h2, i, h3, h4⟩ := populateOne_spec oc acc conds co h
    obtain ⟨h5, h6, l, h7, h8⟩ := ih (populateOne (oc, acc) co).1 (populateOne (oc, acc) co).2 _ h1
    simp only [List.foldl_cons]
    refine ⟨by simpa using h5, h2.trans h6, (co.1, i) :: l, ?_, ?_⟩
    · rw [show populateOne (oc, acc) co = ((populateOne (oc, acc) co).1, (populateOne (oc, acc) co).2) from rfl, h7, h3]
      simp
    · exact .cons ⟨rfl, prefix_getElem? h6 h4⟩ h8

theorem populateConditions_spec (ns : List (Htm SupAction)) : ∀ (oc : List String × List Bool)
    (conds : List (Nat × String)) (r : List (List (Nat × Nat)) × (List String × List Bool)), OInv oc conds →
    populateConditions ns oc = .ok r →
    ∃ css, List.Forall₂ (fun n cs => conditionsOf n = .ok cs) ns css ∧ OInv r.2 (conds ++ css.flatten) ∧ oc.1 <+: r.2.1 ∧
      List.Forall₂ (fun cs l => List.Forall₂ (fun (co : Nat × String) (ci : Nat × Nat) =>
        ci.1 = co.1 ∧ r.2.1[ci.2]? = some co.2) cs l) css r.1 := by
  induction ns with
  | nil =>
    intro oc conds r h hr
    simp only [populateConditions, Except.ok.injEq] at hr
    subst hr
    exact ⟨[], .nil, by simpa using h, List.prefix_refl _, .nil⟩
  | cons n ns ih =>
    intro oc conds r h hr
    simp only [populateConditions, bind, Except.bind] at hr
    split at hr
    · cases hr
    · rename_i cs hcs
      obtain ⟨h1, h2, l, h3, h4⟩ := foldl_populateOne cs oc [] conds h
      simp only [List.nil_append] at h3
      split at hr
      · cases hr
      · rename_i rs hrs
        obtain ⟨css, h5, h6, h7, h8⟩ := ih _ _ rs h1 hrs
        simp only [pure, Except.pure, Except.ok.injEq] at hr
        subst hr
        refine ⟨cs :: css, .cons hcs h5, by simpa using h6, h2.trans h7, .cons ?_ h8⟩
        simp only
        rw [h3]
        exact h4.imp (fun co ci hx => ⟨hx.1, prefix_getElem? h7 hx.2⟩)

/-- Number of set flags. -/
def trues (cs : List Bool) : Nat := (cs.map fun c => if c then 1 else 0).sum

theorem objectActions_spec (cs : List Bool) : ∀ j,
    (objectActions cs j).1.length = cs.length ∧ (objectActions cs j).2.length = cs.length ∧
    (objectActions cs j).1.Pairwise (· < ·) ∧
    (∀ a ∈ (objectActions cs j).1, j ≤ a ∧ a < j + cs.length + trues cs ∧ some a ∉ (objectActions cs j).2) ∧
    (∀ a, some a ∈ (objectActions cs j).2 → j ≤ a ∧ a < j + cs.length + trues cs) ∧
    (∀ (k k' a : Nat), (objectActions cs j).2[k]? = some (some a) → (objectActions cs j).2[k']? = some (some a) → k = k') ∧
    (∀ a, j ≤ a → a < j + cs.length + trues cs → a ∈ (objectActions cs j).1 ∨ some a ∈ (objectActions cs j).2) ∧
    (∀ (k : Nat) (c : Bool), cs[k]? = some c → (c = true ↔ ∃ a, (objectActions cs j).2[k]? = some (some a))) := by
  induction cs with
  | nil => intro j; simp [objectActions, trues]
  | cons c cs ih =>
    intro j
    obtain ⟨h1, h2, h3, h4, h5, h6, h7, h8⟩ := ih (if c then j + 2 else j + 1)
    have ht : trues (c :: cs) = (if c then 1 else 0) + trues cs := by simp [trues]
    simp only [objectActions, List.length_cons, h1, h2, ht]
    generalize objectActions cs (if c then j + 2 else j + 1) = r at *
    refine ⟨trivial, trivial, ?_, ?_, ?_, ?_, ?_, ?_⟩
    · refine List.Pairwise.cons ?_ h3
      intro a ha
      have := (h4 a ha).1
      cases c <;> simp at this <;> omega
    · intro a ha
      rcases List.mem_cons.1 ha with rfl | ha
      · refine ⟨Nat.le_refl _, by omega, ?_⟩
        intro h
        rcases List.mem_cons.1 h with h | h
        · cases c <;> simp at h
        · have := (h5 _ h).1
          cases c <;> simp at this
      · obtain ⟨g1, g2, g3⟩ := h4 a ha
        refine ⟨by cases c <;> simp at g1 <;> omega, by cases c <;> simp at g2 ⊢ <;> omega, ?_⟩
        intro h
        rcases List.mem_cons.1 h with h | h
        · cases c <;> simp at h g1
          omega
        · exact g3 h
    · intro a ha
      rcases List.mem_cons.1 ha with h | h
      · cases c <;> simp at h ⊢
        omega
      · obtain ⟨g1, g2⟩ := h5 a h
        cases c <;> simp at g1 g2 ⊢ <;> omega
    · intro k k' a hk hk'
      cases k with
      | zero =>
        cases k' with
        | zero => rfl
        | succ k' =>
          simp only [List.getElem?_cons_zero, List.getElem?_cons_succ] at hk hk'
          have := (h5 a (List.mem_of_getElem? hk')).1
          cases c <;> simp at hk this
          omega
      | succ k =>
        cases k' with
        | zero =>
          simp only [List.getElem?_cons_zero, List.getElem?_cons_succ] at hk hk'
          have := (h5 a (List.mem_of_getElem? hk)).1
          cases c <;> simp at hk' this
          omega
        | succ k' =>
          simp only [List.getElem?_cons_succ] at hk hk'
          rw [h6 k k' a hk hk']
    · intro a ha1 ha2
      by_cases hj : a = j
      · left; simp [hj]
      · cases c with
        | false =>
          simp only [Bool.false_eq_true, if_false] at h7 ha2
          rcases h7 a (by omega) (by omega) with h | h
          · left; simp [h]
          · right; simp [h]
        | true =>
          simp only [if_true] at h7 ha2
          by_cases hj' : a = j + 1
          · right; simp [hj']
          · rcases h7 a (by omega) (by omega) with h | h
            · left; simp [h]
            · right; simp [h]
    · intro k c' hk
      cases k with
      | zero =>
        simp only [List.getElem?_cons_zero, Option.some.injEq] at hk ⊢
        subst hk
        cases c <;> simp
      | succ k =>
        simp only [List.getElem?_cons_succ] at hk ⊢
        exact h8 k c' hk

/-- What the constructor guarantees.  `css` are the condition lists of the leaves. -/
structure SupPomdp.WF (m : SupPomdp) (css : List (List (Nat × String))) : Prop where
  conds : List.Forall₂ (fun n cs => conditionsOf n = .ok cs) m.nodes css
  oinv : OInv (m.objects, m.clearable) css.flatten
  condIds : List.Forall₂ (fun cs l => List.Forall₂ (fun (co : Nat × String) (ci : Nat × Nat) =>
    ci.1 = co.1 ∧ m.objects[ci.2]? = some co.2) cs l) css m.conditions
  acts : (m.aBring, m.aClear) = objectActions m.clearable 4
  succs_len : m.succs.length = m.nodes.length
  succs_ok : ∀ (i : Nat) (ss : List Nat), m.succs[i]? = some ss → ss ≠ [] ∧ ∀ j ∈ ss, i < j ∧ j ≤ m.nodes.length
  init_ne : m.init ≠ []
  init_ok : ∀ i ∈ m.init, i < m.nodes.length

theorem leaves_conditions (css : List (List (Nat × String))) (ns : List (Htm SupAction))
    (h : List.Forall₂ (fun n cs => conditionsOf n = .ok cs) ns css) (k : Nat) (hk : k < ns.length) :
    ∃ a i p hh at', ns[k]? = some (.leaf a i p hh) ∧ a.attrs = some at' := by
  rw [List.forall₂_iff_get] at h
  have := h.2 k hk (by rw [← h.1]; exact hk)
  simp only [List.get_eq_getElem] at this
  rw [List.getElem?_eq_getElem hk]
  match hn : ns[k], this with
  | .leaf a i p hh, this =>
    simp only [conditionsOf] at this
    split at this
    · rename_i x hx
      exact ⟨a, i, p, hh, x, rfl, hx⟩
    · cases this
  | .comb .., this => simp [conditionsOf] at this

/-! ### Steps -/

namespace SupPomdp
variable {m : SupPomdp} {css : List (List (Nat × String))}

theorem shiftHtm_toState (m : SupPomdp) (s : Nat) : (m.toState s).shiftHtm = m.objects.length + 1 + m.par.nPreferences := rfl

theorem toState_of_sameShape {s : Nat} {x : SupState} (h : SameShape (m.toState s) x) : m.toState x.s = x := by
  obtain ⟨h1, h2, h3, h4⟩ := h
  cases x with
  | mk a b c d e =>
    simp only [toState, mkSupState] at h1 h2 h3 h4 ⊢
    subst h1 h2 h3 h4
    rfl

theorem nStates_eq (m : SupPomdp) (s : Nat) : m.nStates = (m.toState s).nStates := by
  show m.nHtmStates * 2 ^ (m.par.nPreferences + 1 + m.objects.length) =
    m.nHtmStates * 2 ^ (m.objects.length + 1 + m.par.nPreferences)
  congr 2
  omega

theorem lt_nStates (m : SupPomdp) (s : Nat) : s < m.nStates ↔ (m.toState s).htm < m.nHtmStates := by
  rw [nStates_eq m s]
  exact lt_nStates_iff (m.toState s)

theorem randomObjects_spec (x : SupState) (hx : x.nObjects ≤ x.shiftHtm) (u : Nat → ℚ) (p : ℚ) :
    SameShape x (x.randomObjects u p) ∧ (x.randomObjects u p).htm = x.htm ∧
      ∀ k, x.nObjects ≤ k → (x.randomObjects u p).getBit k = x.getBit k := by
  obtain ⟨h1, h2, h3⟩ := foldl_setBit ((List.range x.nObjects).filter fun i => decide (u i < p))
    (fun x i => x.setBit i (1 - x.getBit i)) x (fun j => j < x.nObjects) (by
      intro y i hy hi
      have : i < x.nObjects := by simpa using List.mem_of_mem_filter hi
      exact ⟨i, _, rfl, by omega, by omega, this⟩)
  exact ⟨h1, h2, fun k hk => h3 k (by omega)⟩

theorem randomPrefs_spec (x : SupState) (u : Nat → ℚ) (p : ℚ) :
    SameShape x (x.randomPrefs u p) ∧ (x.randomPrefs u p).htm = x.htm ∧
      ∀ k, k < x.shiftPref → (x.randomPrefs u p).getBit k = x.getBit k := by
  obtain ⟨h1, h2, h3⟩ := foldl_setBit ((List.range x.nPref).filter fun i => decide (u i < p))
    (fun x i => x.setPref i (1 - x.hasPref i)) x (fun j => x.shiftPref ≤ j) (by
      intro y i hy hi
      have hi' : i < x.nPref := by simpa using List.mem_of_mem_filter hi
      unfold SupState.nPref at hi'
      have := y.getBit_lt (y.shiftPref + i)
      refine ⟨y.shiftPref + i, _, rfl, by omega, ?_, ?_⟩
      · rw [← hy.2.1]; omega
      · rw [← hy.2.1]; omega)
  exact ⟨h1, h2, fun k hk => h3 k (by omega)⟩

theorem perturb_spec (m : SupPomdp) (d : Draws) (s : Nat) (random : Bool) :
    SameShape (m.toState s) (m.perturb d s random) ∧ (m.perturb d s random).htm = (m.toState s).htm ∧
      m.toState (m.perturb d s random).s = m.perturb d s random ∧
      (random = false → m.perturb d s random = m.toState s) := by
  have key : SameShape (m.toState s) (m.perturb d s random) ∧ (m.perturb d s random).htm = (m.toState s).htm := by
    unfold perturb
    split
    · obtain ⟨h1, h2, _⟩ := randomObjects_spec (m.toState s) (by
        show m.objects.length ≤ m.objects.length + 1 + m.par.nPreferences
        omega) d.objects m.par.pChangedByHuman
      obtain ⟨h3, h4, _⟩ := randomPrefs_spec ((m.toState s).randomObjects d.objects m.par.pChangedByHuman) d.prefs
        m.par.pChangePreference
      exact ⟨h1.trans h3, h4.trans h2⟩
    · exact ⟨.refl _, rfl⟩
  refine ⟨key.1, key.2, toState_of_sameShape key.1, ?_⟩
  intro h
  simp [perturb, h]

theorem updateForCondition_spec (m : SupPomdp) (x : SupState) (c obj : Nat) (u : ℚ) (ho : obj < x.shiftHtm) :
    SameShape x (m.updateForCondition x c obj u).1 ∧ (m.updateForCondition x c obj u).1.htm = x.htm ∧
      ∀ k, k ≠ obj → (m.updateForCondition x c obj u).1.getBit k = x.getBit k := by
  have key : ∀ b, b < 2 → SameShape x (x.setBit obj b) ∧ (x.setBit obj b).htm = x.htm ∧
      ∀ k, k ≠ obj → (x.setBit obj b).getBit k = x.getBit k := by
    intro b hb
    refine ⟨⟨rfl, rfl, rfl, rfl⟩, htm_setBit x obj b hb ho, ?_⟩
    intro k hk
    rw [getBit_setBit x obj b k hb, if_neg hk]
  unfold updateForCondition
  simp only
  split
  · exact key 0 (by omega)
  · split
    · refine key _ ?_
      split <;> omega
    · split
      · exact key 1 (by omega)
      · exact ⟨.refl _, rfl, fun _ _ => rfl⟩

theorem updateForConditions_spec (m : SupPomdp) (u : Nat → ℚ) (cos : List ((Nat × Nat) × Nat)) :
    ∀ x : SupState, (∀ co ∈ cos, co.1.2 < m.objects.length) → m.objects.length ≤ x.shiftHtm →
    SameShape x (m.updateForConditions u cos x).1 ∧ (m.updateForConditions u cos x).1.htm = x.htm ∧
      ∀ k, m.objects.length ≤ k → (m.updateForConditions u cos x).1.getBit k = x.getBit k := by
  induction cos with
  | nil => intro x _ _; exact ⟨.refl _, rfl, fun _ _ => rfl⟩
  | cons co cos ih =>
    intro x hco hx
    have h0 := hco co (by simp)
    obtain ⟨h1, h2, h3⟩ := updateForCondition_spec m x co.1.1 co.1.2 (u co.2) (by omega)
    obtain ⟨h4, h5, h6⟩ := ih (m.updateForCondition x co.1.1 co.1.2 (u co.2)).1 (fun co hc => hco co (by simp [hc]))
      (by rw [← h1.2.2.1]; exact hx)
    refine ⟨h1.trans h4, h5.trans h2, ?_⟩
    intro k hk
    exact (h6 k hk).trans (h3 k (by omega))

theorem choose_mem (l : List Nat) (c : Nat) (hl : l ≠ []) : ∃ x ∈ l, choose l c = .ok x := by
  have : 0 < l.length := List.length_pos_iff.2 hl
  have h := Nat.mod_lt c this
  refine ⟨l[c % l.length], List.getElem_mem _, ?_⟩
  simp [choose, h]

theorem WF.condObj (hw : m.WF css) (k : Nat) (l : List (Nat × Nat)) (hk : m.conditions[k]? = some l) :
    ∀ co ∈ l, co.2 < m.objects.length := by
  have h := hw.condIds
  rw [List.forall₂_iff_get] at h
  obtain ⟨hk1, hk2⟩ := List.getElem?_eq_some_iff.1 hk
  have := h.2 k (by rw [h.1]; exact hk1) hk1
  simp only [List.get_eq_getElem] at this
  rw [hk2] at this
  intro co hco
  obtain ⟨i, hi, rfl⟩ := List.getElem_of_mem hco
  rw [List.forall₂_iff_get] at this
  have h2 := this.2 i (by rw [this.1]; exact hi) hi
  exact (List.getElem?_eq_some_iff.1 h2.2).1

theorem WF.conditions_len (hw : m.WF css) : m.conditions.length = m.nodes.length := by
  rw [← hw.condIds.length_eq, ← hw.conds.length_eq]

theorem updateForTransition_spec (hw : m.WF css) (d : Draws) (x : SupState) (node : Nat) (hn : node < m.nodes.length)
    (hx : SameShape (m.toState 0) x) :
    ∃ y r ss, m.updateForTransition d x node = .ok (y, r) ∧ SameShape (m.toState 0) y ∧
      m.succs[node]? = some ss ∧ y.htm ∈ ss ∧
      ∀ k, m.objects.length ≤ k → k < x.shiftHtm → y.getBit k = x.getBit k := by
  obtain ⟨ss, hss⟩ : ∃ ss, m.succs[node]? = some ss :=
    ⟨_, List.getElem?_eq_getElem (by rw [hw.succs_len]; exact hn)⟩
  obtain ⟨l, hl⟩ : ∃ l, m.conditions[node]? = some l :=
    ⟨_, List.getElem?_eq_getElem (by rw [hw.conditions_len]; exact hn)⟩
  obtain ⟨h, hh, hc⟩ := choose_mem ss d.succ (hw.succs_ok node ss hss).1
  have hsx : m.objects.length ≤ x.shiftHtm := by
    rw [← hx.2.2.1]
    show m.objects.length ≤ m.objects.length + 1 + m.par.nPreferences
    omega
  obtain ⟨h1, h2, h3⟩ := updateForConditions_spec m d.consume l.zipIdx (x.setHtm h) (by
    intro co hco
    exact hw.condObj node l hl co.1 (List.fst_mem_of_mem_zipIdx hco)) hsx
  refine ⟨(m.updateForConditions d.consume l.zipIdx (x.setHtm h)).1,
    (m.updateForConditions d.consume l.zipIdx (x.setHtm h)).2, ss, ?_, ?_, hss, ?_, ?_⟩
  · simp [updateForTransition, hss, hl, hc, bind, Except.bind, pure, Except.pure]
  · exact (hx.trans ⟨rfl, rfl, rfl, rfl⟩).trans h1
  · rw [h2, htm_setHtm]; exact hh
  · intro k hk hk'
    rw [h3 k hk, getBit_setHtm x h k hk']

/-- How the HTM value may change in one step. -/
def Edge (m : SupPomdp) (a h h' : Nat) : Prop :=
  h' = h ∨ ((a = 0 ∨ a = 1 ∨ a = 2) ∧ h < m.nodes.length ∧ ∃ ss, m.succs[h]? = some ss ∧ h' ∈ ss) ∨
    (a = 0 ∧ h = m.htmClean ∧ h' = m.htmFinal)

theorem mem_acts_iff (hw : m.WF css) (a : Nat) :
    (a ∈ m.aBring ∨ some a ∈ m.aClear) ↔ 4 ≤ a ∧ a < m.nActions := by
  obtain ⟨_, _, _, h4, h5, _, h7, _⟩ := objectActions_spec m.clearable 4
  rw [← hw.acts] at h4 h5 h7
  have e : m.nActions = 4 + m.clearable.length + trues m.clearable := by
    unfold nActions trues
    rw [show m.clearable.length = m.objects.length from hw.oinv.len]
  rw [e]
  constructor
  · rintro (h | h)
    · exact ⟨(h4 a h).1, (h4 a h).2.1⟩
    · exact h5 a h
  · rintro ⟨h, h'⟩
    exact h7 a h h'

/-- The object of a bring or clear action. -/
theorem objFromAction_ok (hw : m.WF css) (a : Nat) (h : 4 ≤ a) (h' : a < m.nActions) :
    ∃ o, m.objFromAction a = .ok o ∧ o < m.objects.length ∧
      ((m.isBring a = true ∧ m.aBring[o]? = some a) ∨ (m.isBring a = false ∧ m.aClear[o]? = some (some a))) := by
  obtain ⟨h1, h2, _⟩ := objectActions_spec m.clearable 4
  rw [← hw.acts] at h1 h2
  have hl : m.clearable.length = m.objects.length := hw.oinv.len
  unfold objFromAction isBring
  by_cases hb : a ∈ m.aBring
  · have hi := List.idxOf_lt_length_of_mem hb
    refine ⟨m.aBring.idxOf a, by rw [if_pos hb], by simp only at h1; omega, Or.inl ⟨by simpa using hb, ?_⟩⟩
    exact List.getElem?_idxOf hb
  · have hc : some a ∈ m.aClear := ((mem_acts_iff hw a).2 ⟨h, h'⟩).resolve_left hb
    have hi := List.idxOf_lt_length_of_mem hc
    refine ⟨m.aClear.idxOf (some a), by rw [if_neg hb, if_pos hc], by simp only at h2; omega,
      Or.inr ⟨by simpa using hb, ?_⟩⟩
    exact List.getElem?_idxOf hc

theorem objFromAction_error (hw : m.WF css) (a : Nat) (h : a < 4 ∨ m.nActions ≤ a) :
    m.objFromAction a = .error .valueError := by
  have := (not_congr (mem_acts_iff hw a)).2 (by omega)
  rw [not_or] at this
  unfold objFromAction
  rw [if_neg this.1, if_neg this.2]

theorem sampleTransition_eq (m : SupPomdp) (d : Draws) (a s : Nat) (random : Bool) :
    m.sampleTransition d a s random = (do
      let r ← m.branch d a (m.perturb d s random) (m.perturb d s random) random
      return (r.1.s, r.2.1, r.2.2)) := by
  unfold sampleTransition
  simp only
  rw [(perturb_spec m d s random).2.2.1]

/-- One step of the simulator from a state in range with an action in range. -/
theorem step_spec (hw : m.WF css) (d : Draws) (a s : Nat) (random : Bool) (hs : s < m.nStates) (ha : a < m.nActions) :
    ∃ s' o r, m.sampleTransition d a s random = .ok (s', o, r) ∧ s' < m.nStates ∧ o < nObservations ∧
      m.Edge a (m.toState s).htm (m.toState s').htm := by
  obtain ⟨hp1, hp2, hp3, _⟩ := perturb_spec m d s random
  rw [sampleTransition_eq]
  generalize m.perturb d s random = x at *
  have hh := (lt_nStates m s).1 hs
  -- it is enough to find the new state in the form of a record
  suffices ∃ y o r, m.branch d a x x random = .ok (y, o, r) ∧
      SameShape (m.toState s) y ∧ y.htm < m.nHtmStates ∧ o < nObservations ∧ m.Edge a (m.toState s).htm y.htm by
    obtain ⟨y, o, r, h1, h2, h3, h4, h5⟩ := this
    refine ⟨y.s, o, r, by rw [h1]; rfl, ?_, h4, ?_⟩
    · rw [lt_nStates, toState_of_sameShape h2]
      exact h3
    · rw [toState_of_sameShape h2]
      exact h5
  unfold branch
  by_cases ha3 : a = 0 ∨ a = 1 ∨ a = 2
  · rw [if_pos ha3]
    unfold waitStep
    simp only
    split
    · exact ⟨x, oNONE, _, rfl, hp1, by rw [hp2]; exact hh, by decide, Or.inl hp2⟩
    · rename_i hfin
      split
      · rename_i hcl
        split
        · rename_i ha0
          refine ⟨x.setHtm m.htmFinal, oNONE, _, rfl, hp1.trans ⟨rfl, rfl, rfl, rfl⟩, ?_, by decide, ?_⟩
          · rw [htm_setHtm]
            show m.nodes.length + 1 < m.nodes.length + 2
            omega
          · rw [htm_setHtm]
            exact Or.inr (Or.inr ⟨ha0, by rw [← hp2]; exact hcl, rfl⟩)
        · exact ⟨x, oFAIL, _, rfl, hp1, by rw [hp2]; exact hh, by decide, Or.inl hp2⟩
      · rename_i hcl
        have hlt : x.htm < m.nodes.length := by
          have h1 : ¬ x.htm + 1 = x.nHtm := by
            intro h
            apply hfin
            simp [SupState.isFinal, h]
          have h2 : x.nHtm = m.nodes.length + 2 := hp1.2.2.2.symm
          have h3 : ¬ x.htm = m.nodes.length := hcl
          have h4 : x.htm < m.nodes.length + 2 := by rw [hp2]; exact hh
          omega
        obtain ⟨ac, i, p, b, at', hn, hat⟩ := leaves_conditions css m.nodes hw.conds x.htm hlt
        have hneed : m.needsHold x.htm = .ok at'.1 := by simp [needsHold, hn, hat]
        obtain ⟨y, r, ss, h1, h2, h3, h4, _⟩ := updateForTransition_spec hw d x x.htm hlt (by
          exact SameShape.trans ⟨rfl, rfl, rfl, rfl⟩ hp1)
        unfold taskStep
        simp only [hneed, bind, Except.bind, pure, Except.pure]
        split
        · exact ⟨x, oFAIL, _, rfl, hp1, by rw [hp2]; exact hh, by decide, Or.inl hp2⟩
        · simp only [h1]
          refine ⟨y, oNONE, _, rfl, SameShape.trans ⟨rfl, rfl, rfl, rfl⟩ h2, ?_, by decide, ?_⟩
          · have := (hw.succs_ok _ _ h3).2 _ h4
            show y.htm < m.nodes.length + 2
            omega
          · refine Or.inr (Or.inl ⟨ha3, by rw [← hp2]; exact hlt, ss, by rw [← hp2]; exact h3, h4⟩)
  · rw [if_neg ha3]
    by_cases ha4 : a = 3
    · rw [if_pos ha4]
      unfold askStep
      have ho : ∀ b : Bool, ∀ o, (o = oYES ∨ o = oNO) → (if b = true then o else oNONE) < nObservations := by
        intro b o ho
        rcases ho with rfl | rfl <;> cases b <;> decide
      split
      · exact ⟨x, _, _, rfl, hp1, by rw [hp2]; exact hh, ho _ _ (Or.inl rfl), Or.inl hp2⟩
      · exact ⟨x, _, _, rfl, hp1, by rw [hp2]; exact hh, ho _ _ (Or.inr rfl), Or.inl hp2⟩
    · rw [if_neg ha4]
      obtain ⟨obj, h1, h2, _⟩ := objFromAction_ok hw a (by omega) ha
      unfold objectStep
      simp only [h1, bind, Except.bind, pure, Except.pure]
      have hb : (if m.isBring a then 1 else 0) < 2 := by split <;> omega
      generalize (if m.isBring a then 1 else 0) = b at *
      split
      · exact ⟨x, oNOT_FOUND, _, rfl, hp1, by rw [hp2]; exact hh, by decide, Or.inl hp2⟩
      · split
        · exact ⟨x, oFAIL, _, rfl, hp1, by rw [hp2]; exact hh, by decide, Or.inl hp2⟩
        · have hlt : obj < x.shiftHtm := by
            rw [← hp1.2.2.1]
            show obj < m.objects.length + 1 + m.par.nPreferences
            omega
          refine ⟨x.setBit obj b, oNONE, _, rfl, hp1.trans ⟨rfl, rfl, rfl, rfl⟩, ?_, by decide, Or.inl ?_⟩
          · rw [htm_setBit x obj _ hb hlt, hp2]; exact hh
          · rw [htm_setBit x obj _ hb hlt, hp2]

/-! ### The constructed model -/

theorem mk_wf (par : SupParams) (uniq : List Nat → List Nat) (huniq : ∀ l x, x ∈ uniq l ↔ x ∈ l) (limit : Nat)
    (t : Htm SupAction) (hne : NonEmpty t) (hb : Built t) (hl : nesting t ≤ limit) (m : SupPomdp)
    (hm : mkSupPomdp par uniq limit t = .ok m) :
    (∃ css, m.WF css) ∧ m.par = par ∧
    ∃ d : Dag SupAction, htmToDag SupAction.ops uniq limit t = .ok (m.init, d) ∧ m.nodes = d.nodes ∧
      m.succs = d.succs.map (fun s => if s.length = 0 then [d.nodes.length] else s) ∧
      ∃ last, Extends SupAction.ops ⟨[], []⟩ d m.init last (lin SupAction.ops orderRen (fun s => s) t) := by
  obtain ⟨first, last, d, h1, h2⟩ := getInitialFinal_spec SupAction.ops uniq huniq (fun i a => ⟨_, rfl, rfl⟩) limit t hne hb
    hl ⟨[], []⟩ rfl
  have hd : htmToDag SupAction.ops uniq limit t = .ok (first, d) := by
    simp [htmToDag, h1, bind, Except.bind, pure, Except.pure]
  simp only [mkSupPomdp, hd, bind, Except.bind] at hm
  split at hm
  · cases hm
  · rename_i c hc
    simp only [pure, Except.pure, Except.ok.injEq] at hm
    obtain ⟨css, g1, g2, g3, g4⟩ := populateConditions_spec d.nodes ([], []) [] c
      ⟨by simp, rfl, by simp, by simp⟩ hc
    subst hm
    refine ⟨⟨css, ⟨g1, by simpa using g2, g4, rfl, by simp [h2.wf], ?_, h2.frag.first_ne, ?_⟩⟩, rfl, d, hd, rfl, rfl,
      last, h2⟩
    · intro i ss hss
      simp only [List.getElem?_map, Option.map_eq_some_iff] at hss
      obtain ⟨s0, hs0, rfl⟩ := hss
      have hi : i < d.nodes.length := by
        rw [← h2.wf]
        exact (List.getElem?_eq_some_iff.1 hs0).1
      split
      · refine ⟨by simp, ?_⟩
        intro j hj
        simp only [List.mem_singleton] at hj
        subst hj
        exact ⟨hi, Nat.le_refl _⟩
      · rename_i hne0
        refine ⟨by intro h0; apply hne0; simp [h0], ?_⟩
        intro j hj
        by_cases hil : i ∈ last
        · rw [h2.last_empty i hil] at hs0
          cases hs0
          simp at hj
        · obtain ⟨ss', h5, _, h6⟩ := h2.frag.succ_ok i (Nat.zero_le _) hi hil
          rw [hs0] at h5
          cases h5
          have := h6 j hj
          simp only
          omega
    · intro i hi
      exact (h2.frag.first_sub i hi).2

end SupPomdp
end Verif
