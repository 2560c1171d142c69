import Verif.Proof.PomcpSim
import Mathlib.Tactic.Linarith

/-! The choice of an action during the search. -/

set_option linter.unusedSectionVars false
set_option linter.unusedSimpArgs false

namespace Verif
open Spec
variable {σ β η : Type}

theorem foldl_max_spec : ∀ (l : List ℚ) (x : ℚ), (l.foldl max x = x ∨ l.foldl max x ∈ l) ∧ x ≤ l.foldl max x ∧ ∀ y ∈ l, y ≤ l.foldl max x
  | [], x => by simp
  | y :: l, x => by
      obtain ⟨h1, h2, h3⟩ := foldl_max_spec l (max x y)
      rw [List.foldl_cons]
      refine ⟨?_, le_trans (le_max_left _ _) h2, ?_⟩
      · rcases h1 with h1 | h1
        · rcases max_choice x y with h | h
          · rw [h] at h1 ⊢; exact .inl h1
          · rw [h] at h1 ⊢; rw [h1]; simp
        · exact .inr (List.mem_cons_of_mem _ h1)
      · intro z hz
        rcases List.mem_cons.1 hz with rfl | hz
        · exact le_trans (le_max_right _ _) h2
        · exact h3 z hz

theorem foldl_min_spec : ∀ (l : List ℚ) (x : ℚ), (l.foldl min x = x ∨ l.foldl min x ∈ l) ∧ l.foldl min x ≤ x ∧ ∀ y ∈ l, l.foldl min x ≤ y
  | [], x => by simp
  | y :: l, x => by
      obtain ⟨h1, h2, h3⟩ := foldl_min_spec l (min x y)
      rw [List.foldl_cons]
      refine ⟨?_, le_trans h2 (min_le_left _ _), ?_⟩
      · rcases h1 with h1 | h1
        · rcases min_choice x y with h | h
          · rw [h] at h1 ⊢; exact .inl h1
          · rw [h] at h1 ⊢; rw [h1]; simp
        · exact .inr (List.mem_cons_of_mem _ h1)
      · intro z hz
        rcases List.mem_cons.1 hz with rfl | hz
        · exact le_trans h2 (min_le_right _ _)
        · exact h3 z hz

theorem maxOf_spec {l : List ℚ} (h : l ≠ []) : maxOf l ∈ l ∧ ∀ y ∈ l, y ≤ maxOf l := by
  cases l with
  | nil => exact absurd rfl h
  | cons x l =>
      obtain ⟨h1, h2, h3⟩ := foldl_max_spec (x :: l) x
      refine ⟨?_, h3⟩
      rcases h1 with h1 | h1
      · show List.foldl max x (x :: l) ∈ _
        rw [h1]; simp
      · exact h1

theorem minOf_spec {l : List ℚ} (h : l ≠ []) : minOf l ∈ l ∧ ∀ y ∈ l, minOf l ≤ y := by
  cases l with
  | nil => exact absurd rfl h
  | cons x l =>
      obtain ⟨h1, h2, h3⟩ := foldl_min_spec (x :: l) x
      refine ⟨?_, h3⟩
      rcases h1 with h1 | h1
      · show List.foldl min x (x :: l) ∈ _
        rw [h1]; simp
      · exact h1

/-- The values of the children, if they all exist. -/
theorem childValues_eq {t : Tree β} {i : Nat} (hall : ∀ x < (t.nodes i).children.length, actionVisits t i x ≠ 0) :
    (t.nodes i).children.filterMap (fun c => c.map fun c => c.avg.value) =
      (List.range (t.nodes i).children.length).map (actionValue t i) := by
  have h1 : (t.nodes i).children.filterMap (fun c => c.map fun c => c.avg.value) =
      (t.nodes i).children.map fun c => (c.map fun c => c.avg.value).getD 0 := by
    have : ∀ c ∈ (t.nodes i).children, c ≠ none := by
      intro c hc hn
      obtain ⟨k, hk, rfl⟩ := List.mem_iff_getElem.1 hc
      have := hall k hk
      unfold actionVisits Tree.anode at this
      rw [List.getElem?_eq_getElem hk, hn] at this
      exact this rfl
    generalize (t.nodes i).children = l at this
    induction l with
    | nil => rfl
    | cons c l ih =>
        rcases c with _ | c
        · exact absurd rfl (this none (by simp))
        · simp [ih fun c hc => this c (List.mem_cons_of_mem _ hc)]
  rw [h1]
  apply List.ext_getElem
  · simp
  · intro k hk1 hk2
    have hk : k < (t.nodes i).children.length := by simpa using hk1
    rw [List.getElem_map, List.getElem_map, List.getElem_range]
    unfold actionValue Tree.anode
    rw [List.getElem?_eq_getElem hk, Option.join_some]

/-- The greedy choice obeys UCT. -/
theorem greedy_uct {S : Search σ β η} {t : Tree β} {i a : Nat} (hall : ∀ x < (t.nodes i).children.length, actionVisits t i x ≠ 0)
    (h : greedyAction S.bonus S.exploration S.relative (t.nodes i) = .ok a) :
    ∃ c, IsWeight S t i c ∧ (∀ b < (t.nodes i).children.length, uctScore S t i c b ≤ uctScore S t i c a) ∧
      ∀ b < a, uctScore S t i c b < uctScore S t i c a := by
  have hlt := greedy_lt h
  obtain ⟨vals, hvals⟩ : ∃ v, v = (List.range (t.nodes i).children.length).map (actionValue t i) := ⟨_, rfl⟩
  obtain ⟨c, hc⟩ : ∃ c, c = if S.exploration > 0 ∧ S.relative then S.exploration * (maxOf vals - minOf vals) else S.exploration := ⟨_, rfl⟩
  have hget : ∀ x, x < (t.nodes i).children.length →
      ((augmentedValues S.bonus S.exploration S.relative (t.nodes i)).map (·.getD 0))[x]? = some (uctScore S t i c x) := by
    intro x hx
    have hv := hall x hx
    unfold augmentedValues
    simp only []
    rw [childValues_eq hall, ← hvals, ← hc]
    unfold uctScore actionValue
    unfold actionVisits Tree.anode at *
    rw [List.getElem?_eq_getElem hx] at *
    rcases hcx : (t.nodes i).children[x] with _ | d
    · rw [hcx] at hv; exact absurd rfl hv
    · simp only [List.map_map, List.getElem?_map, List.getElem?_eq_getElem hx, hcx, Option.map_some, Function.comp, Option.join_some,
        Option.getD_some]
      rfl
  refine ⟨c, ?_, ?_⟩
  · unfold IsWeight
    by_cases hcond : S.exploration > 0 ∧ S.relative = true
    · rw [if_pos ⟨hcond.2, hcond.1⟩]
      rw [if_pos hcond] at hc
      refine ⟨_, ?_, hc⟩
      have hne : vals ≠ [] := by
        intro he
        rw [he] at hvals
        have := congrArg List.length hvals
        simp at this
        omega
      obtain ⟨m1, m2⟩ := maxOf_spec hne
      obtain ⟨m3, m4⟩ := minOf_spec hne
      have m1' := m1
      have m3' := m3
      rw [hvals, List.mem_map] at m1 m3
      obtain ⟨x, hx, ex⟩ := m1
      obtain ⟨y, hy, ey⟩ := m3
      refine ⟨x, List.mem_range.1 hx, y, List.mem_range.1 hy, fun z hz => ?_, ?_⟩
      · have hm : actionValue t i z ∈ vals := by rw [hvals]; exact List.mem_map.2 ⟨z, List.mem_range.2 hz, rfl⟩
        rw [ex, ey, ← hvals]
        exact ⟨m4 _ hm, m2 _ hm⟩
      · rw [ex, ey, ← hvals]
    · rw [if_neg (fun h => hcond ⟨h.2, h.1⟩)]
      rw [if_neg hcond] at hc
      exact hc
  · unfold greedyAction at h
    split at h
    · obtain ⟨m, v, h1, h2, h3⟩ := argmax_spec ((augmentedValues S.bonus S.exploration S.relative (t.nodes i)).map (·.getD 0))
        (by
          intro hc
          have := hget a hlt
          rw [hc] at this
          simp at this)
      rw [h1] at h
      cases h
      rw [hget a hlt] at h2
      cases h2
      exact ⟨fun x hx => (h3 x _ (hget x hx)).1, fun x hx => (h3 x _ (hget x (by omega))).2 hx⟩
    · cases h

/-- What `get_best_action` chooses during the search. -/
theorem getBest_uct (S : Search σ β η) (i : Nat) (st : SearchState σ β) :
    M.Post (getBestAction S.sim S.bonus S.exploration S.relative i) st (fun a _ => UctChoice S st.tree i a) (fun _ _ => True) := by
  refine M.post_mono (getBest_post S.sim S.bonus S.exploration S.relative i st) ?_ (fun _ _ _ => trivial)
  rintro a st' ⟨_, h1, h2, h3⟩
  rw [← unexplored_eq] at h2 h3
  refine ⟨h1, h2, fun he => ?_⟩
  apply greedy_uct ?_ (h3 he)
  intro x hx h0
  have : x ∈ unexplored st.tree i := List.mem_filter.2 ⟨List.mem_range.2 hx, by simpa using h0⟩
  rw [he] at this
  cases this

/-- The choice only depends on the counts and the values. -/
theorem UctChoice.congr {S : Search σ β η} {t t' : Tree β} {i a : Nat} (h : UctChoice S t' i a)
    (hl : (t'.nodes i).children.length = (t.nodes i).children.length) (hc : SameCounts t t')
    (hv : ∀ b, actionValue t' i b = actionValue t i b) : UctChoice S t i a := by
  have hu : unexplored t' i = unexplored t i := by unfold unexplored; simp [hl, hc.2]
  have hs : ∀ c b, uctScore S t' i c b = uctScore S t i c b := fun c b => by unfold uctScore; rw [hv, hc.1, hc.2]
  have hw : ∀ c, IsWeight S t' i c → IsWeight S t i c := by
    intro c h
    unfold IsWeight at *
    split_ifs with hcond
    · rw [if_pos hcond] at h
      obtain ⟨d, ⟨x, hx, y, hy, h1, h2⟩, h3⟩ := h
      simp only [hl, hv] at *
      exact ⟨d, ⟨x, hx, y, hy, h1, h2⟩, h3⟩
    · rw [if_neg hcond] at h
      exact h
  obtain ⟨h1, h2, h3⟩ := h
  rw [hl] at h1 h3
  rw [hu] at h2 h3
  refine ⟨h1, h2, fun he => ?_⟩
  obtain ⟨c, h4, h5, h6⟩ := h3 he
  simp only [hs] at h5 h6
  exact ⟨c, hw c h4, h5, h6⟩

/-- `safe_get_child` changes no value. -/
theorem safeGetChild_values (i a : Nat) (st : SearchState σ β) :
    M.Post (safeGetChild i a) st (fun _ st' => ∀ j b, actionValue st'.tree j b = actionValue st.tree j b) (fun _ _ => True) := by
  have hrun : safeGetChild i a st = match (st.tree.nodes i).children[a]? with
      | none => (.error .indexError, st)
      | some none => (.ok (), { st with tree := st.tree.ensure i a })
      | some (some _) => (.ok (), st) := rfl
  rcases h : (st.tree.nodes i).children[a]? with _ | _ | c
  · rw [M.post_of_error (e := .indexError) (s' := st) (by rw [hrun, h])]
    trivial
  · rw [M.post_of_ok (a := ()) (s' := { st with tree := st.tree.ensure i a }) (by rw [hrun, h])]
    intro j b
    show actionValue (st.tree.ensure i a) j b = _
    unfold actionValue
    rw [Tree.ensure_anode h]
    split
    · rename_i hjb
      obtain ⟨rfl, rfl⟩ := hjb
      have : st.tree.anode j b = none := by unfold Tree.anode; rw [h]; rfl
      rw [this]
      rfl
    · rfl
  · rw [M.post_of_ok (a := ()) (s' := st) (by rw [hrun, h])]
    exact fun _ _ => rfl

end Verif
