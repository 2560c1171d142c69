import Verif.Spec.HeatMap
import Verif.Proof.SolverFile
import Mathlib.Tactic.Linarith
import Mathlib.Tactic.FieldSimp

/-! Proofs about heat maps (C112). -/

set_option linter.unusedSectionVars false
set_option linter.unusedSimpArgs false

namespace Verif
open Spec

theorem foldl_min_least (l : List ℚ) : ∀ a : ℚ, LeastIn (l.foldl min a) (a :: l) := by
  induction l with
  | nil => intro a; exact ⟨by simp, by simp⟩
  | cons x l ih =>
    intro a
    obtain ⟨h1, h2⟩ := ih (min a x)
    rw [List.foldl_cons]
    refine ⟨?_, ?_⟩
    · rcases List.mem_cons.1 h1 with h | h
      · rw [h]
        rcases min_choice a x with h' | h' <;> rw [h'] <;> simp
      · simp [h]
    · intro y hy
      have hm := h2 (min a x) (by simp)
      rcases List.mem_cons.1 hy with rfl | hy
      · exact hm.trans (min_le_left _ _)
      · rcases List.mem_cons.1 hy with rfl | hy
        · exact hm.trans (min_le_right _ _)
        · exact h2 y (by simp [hy])

theorem foldl_max_greatest (l : List ℚ) : ∀ a : ℚ, GreatestIn (l.foldl max a) (a :: l) := by
  induction l with
  | nil => intro a; exact ⟨by simp, by simp⟩
  | cons x l ih =>
    intro a
    obtain ⟨h1, h2⟩ := ih (max a x)
    rw [List.foldl_cons]
    refine ⟨?_, ?_⟩
    · rcases List.mem_cons.1 h1 with h | h
      · rw [h]
        rcases max_choice a x with h' | h' <;> rw [h'] <;> simp
      · simp [h]
    · intro y hy
      have hm := h2 (max a x) (by simp)
      rcases List.mem_cons.1 hy with rfl | hy
      · exact (le_max_left _ _).trans hm
      · rcases List.mem_cons.1 hy with rfl | hy
        · exact (le_max_right _ _).trans hm
        · exact h2 y (by simp [hy])

theorem leastOf_ok {l : List ℚ} (h : l ≠ []) : ∃ m, leastOf l = .ok m ∧ LeastIn m l := by
  cases l with
  | nil => exact absurd rfl h
  | cons x l => exact ⟨_, rfl, foldl_min_least l x⟩

theorem greatestOf_ok {l : List ℚ} (h : l ≠ []) : ∃ m, greatestOf l = .ok m ∧ GreatestIn m l := by
  cases l with
  | nil => exact absurd rfl h
  | cons x l => exact ⟨_, rfl, foldl_max_greatest l x⟩

theorem greatestIn_unique {l : List ℚ} {a b : ℚ} (ha : GreatestIn a l) (hb : GreatestIn b l) : a = b := le_antisymm (hb.2 a ha.1) (ha.2 b hb.1)

theorem leastIn_unique {l : List ℚ} {a b : ℚ} (ha : LeastIn a l) (hb : LeastIn b l) : a = b := le_antisymm (ha.2 b hb.1) (hb.2 a ha.1)

/-- A row after the subtraction and the division. -/
theorem scaleRow_ok {r : List ℚ} (h : r ≠ []) (m : ℚ) : ∃ M, GreatestIn M r ∧
    scaleRow (r.map fun x => x - m) = .ok (r.map fun v => if M = m then none else some ((v - m) / (M - m))) := by
  obtain ⟨N, h1, h2⟩ := greatestOf_ok (l := r.map fun x => x - m) (by simpa using h)
  obtain ⟨M, hM, hN⟩ := List.mem_map.1 h2.1
  refine ⟨M, ⟨hM, ?_⟩, ?_⟩
  · intro x hx
    have := h2.2 (x - m) (List.mem_map.2 ⟨x, hx, rfl⟩)
    rw [← hN] at this
    linarith
  · unfold scaleRow
    rw [h1]
    show Except.ok _ = _
    rw [List.map_map]
    congr 1
    apply List.map_congr_left
    intro v _
    show (if N = 0 then none else some ((v - m) / N)) = _
    rw [← hN]
    by_cases hMm : M = m
    · rw [if_pos (by linarith), if_pos hMm]
    · rw [if_neg (by intro h; exact hMm (by linarith)), if_neg hMm]

theorem ticksAt_labelled {n : Nat} {l : List (List Char)} (h : l.length = n) : LabelledBy ((ticksAt n).zip l) l := by
  unfold ticksAt
  refine ⟨by simp [h], ?_⟩
  intro k t hk
  obtain ⟨hlt, rfl⟩ := List.getElem?_eq_some_iff.1 hk
  rw [List.getElem?_eq_some_iff]
  refine ⟨by simp; omega, ?_⟩
  rw [List.getElem_zip, List.getElem_map, List.getElem_range]
  congr 1
  ring

/-- The rows after scaling. -/
theorem scaleRows_ok (values : List (List ℚ)) (m : ℚ) (hne : ∀ r ∈ values, r ≠ []) : ∃ rows,
    (values.map fun r => r.map fun x => x - m).mapM scaleRow = .ok rows ∧ rows.length = values.length ∧
      ∀ (i : Nat) r, values[i]? = some r → ∃ M, GreatestIn M r ∧ rows[i]? = some (r.map fun v => if M = m then none else some ((v - m) / (M - m))) := by
  induction values with
  | nil => exact ⟨[], rfl, rfl, by simp⟩
  | cons r values ih =>
    obtain ⟨rows, h1, h2, h3⟩ := ih fun r' hr' => hne r' (by simp [hr'])
    obtain ⟨M, hM, hs⟩ := scaleRow_ok (hne r (by simp)) m
    refine ⟨(r.map fun v => if M = m then none else some ((v - m) / (M - m))) :: rows, ?_, by simp [h2], ?_⟩
    · rw [List.map_cons, List.mapM_cons, hs, h1]
      rfl
    · intro i r' hi
      cases i with
      | zero => cases hi; exact ⟨M, hM, rfl⟩
      | succ i => exact h3 i r' hi

/-! ### Spines -/

theorem hideSpines_ok (spines : List String) : ∀ f : Frame, (∀ n ∈ spines, ∃ s ∈ f.spines, s.name = n) →
    spines.foldlM hideSpine f = .ok { f with spines := f.spines.map fun s => if s.name ∈ spines then { s with visible := false } else s } := by
  induction spines with
  | nil => intro f _; simp [pure, Except.pure]
  | cons n spines ih =>
    intro f h
    rw [List.foldlM_cons]
    have h1 : hideSpine f n = .ok { f with spines := f.spines.map fun s => if s.name = n then { s with visible := false } else s } := by
      unfold hideSpine
      rw [if_pos]
      obtain ⟨s, hs, hn⟩ := h n (by simp)
      exact List.any_eq_true.2 ⟨s, hs, by simpa using hn⟩
    rw [h1]
    show spines.foldlM hideSpine _ = _
    rw [ih]
    · simp only [List.map_map]
      congr 1
      congr 1
      apply List.map_congr_left
      intro s _
      simp only [Function.comp]
      by_cases h2 : s.name = n <;> by_cases h3 : s.name ∈ spines <;> simp [h2, h3]
    · intro n' hn'
      obtain ⟨s, hs, he⟩ := h n' (by simp [hn'])
      refine ⟨_, List.mem_map.2 ⟨s, hs, rfl⟩, ?_⟩
      split <;> exact he

theorem thin_ok (spines : List String) (l : List String) : ∀ f : Frame, (∀ n ∈ l, ∃ s ∈ f.spines, s.name = n) →
    l.foldlM (fun (f : Frame) name =>
      if name ∈ spines then (.ok f : Py Frame)
      else if f.spines.any (fun s => decide (s.name = name)) then
        .ok { f with spines := f.spines.map fun s => if s.name = name then { s with width := 1 / 2 } else s }
      else .error .keyError) f =
      .ok { f with spines := f.spines.map fun s => if s.name ∈ l ∧ s.name ∉ spines then { s with width := 1 / 2 } else s } := by
  induction l with
  | nil => intro f _; simp [pure, Except.pure]
  | cons n l ih =>
    intro f h
    rw [List.foldlM_cons]
    by_cases hn : n ∈ spines
    · rw [if_pos hn]
      show l.foldlM _ f = _
      rw [ih f fun n' hn' => h n' (by simp [hn'])]
      congr 1
      congr 1
      apply List.map_congr_left
      intro s _
      by_cases h2 : s.name = n
      · rw [if_neg (by rw [h2]; simp [hn]), if_neg (by rw [h2]; simp [hn])]
      · simp [h2]
    · rw [if_neg hn]
      obtain ⟨s0, hs0, hn0⟩ := h n (by simp)
      rw [if_pos (List.any_eq_true.2 ⟨s0, hs0, by simpa using hn0⟩)]
      show l.foldlM _ _ = _
      rw [ih]
      · simp only [List.map_map]
        congr 1
        congr 1
        apply List.map_congr_left
        intro s _
        simp only [Function.comp]
        by_cases h2 : s.name = n
        · subst h2
          by_cases h3 : s.name ∈ l <;> simp [h3, hn]
        · simp [h2]
      · intro n' hn'
        obtain ⟨s, hs, he⟩ := h n' (by simp [hn'])
        refine ⟨_, List.mem_map.2 ⟨s, hs, rfl⟩, ?_⟩
        split <;> exact he

end Verif
