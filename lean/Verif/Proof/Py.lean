import Verif.Py
import Mathlib.Data.List.Basic
import Mathlib.Data.List.Nodup
import Mathlib.Data.List.Perm.Basic

/-! Lemmas about the Python containers of `Verif.Py`. -/

namespace Verif
variable {α κ ν : Type} [DecidableEq α] [DecidableEq κ]

@[simp] theorem mem_setAdd (l : List α) (x y : α) : y ∈ setAdd l x ↔ y ∈ l ∨ y = x := by
  unfold setAdd
  split
  · rename_i h
    constructor
    · exact Or.inl
    · rintro (h' | rfl) <;> assumption
  · simp

theorem nodup_setAdd {l : List α} (h : l.Nodup) (x : α) : (setAdd l x).Nodup := by
  unfold setAdd
  split
  · exact h
  · rename_i hx
    rw [List.nodup_append]
    refine ⟨h, by simp, ?_⟩
    intro a ha b hb
    simp at hb
    rintro rfl
    exact hx (hb ▸ ha)

theorem mem_foldl_setAdd (l acc : List α) (y : α) : y ∈ l.foldl setAdd acc ↔ y ∈ acc ∨ y ∈ l := by
  induction l generalizing acc with
  | nil => simp
  | cons x l ih => rw [List.foldl_cons, ih, mem_setAdd, List.mem_cons, or_assoc]

theorem nodup_foldl_setAdd (l acc : List α) (h : acc.Nodup) : (l.foldl setAdd acc).Nodup := by
  induction l generalizing acc with
  | nil => exact h
  | cons x l ih => exact ih _ (nodup_setAdd h x)

@[simp] theorem mem_setOf (l : List α) (y : α) : y ∈ setOf l ↔ y ∈ l := by
  simp [setOf, mem_foldl_setAdd]

theorem nodup_setOf (l : List α) : (setOf l).Nodup := nodup_foldl_setAdd l [] List.nodup_nil

@[simp] theorem setEq_iff (a b : List α) : setEq a b = true ↔ ∀ x, x ∈ a ↔ x ∈ b := by
  unfold setEq
  simp only [Bool.and_eq_true, List.all_eq_true, decide_eq_true_eq]
  constructor
  · rintro ⟨h1, h2⟩ x
    exact ⟨h1 x, h2 x⟩
  · intro h
    exact ⟨fun x hx => (h x).1 hx, fun x hx => (h x).2 hx⟩

@[simp] theorem dget_nil (k : κ) : dget ([] : List (κ × ν)) k = none := rfl

theorem dget_dset (d : List (κ × ν)) (k k' : κ) (v : ν) :
    dget (dset d k v) k' = if k = k' then some v else dget d k' := by
  induction d with
  | nil => simp [dset, dget]
  | cons kv d ih =>
    obtain ⟨k0, v0⟩ := kv
    by_cases h : k0 = k
    · subst h
      by_cases h2 : k0 = k' <;> simp [dset, dget, h2]
    · by_cases h2 : k0 = k'
      · subst h2
        simp [dset, dget, h, Ne.symm h]
      · simp [dset, dget, h, h2, ih]

theorem mem_keys_dset (d : List (κ × ν)) (k k' : κ) (v : ν) :
    k' ∈ (dset d k v).map Prod.fst ↔ k' ∈ d.map Prod.fst ∨ k' = k := by
  induction d with
  | nil => simp [dset]
  | cons kv d ih =>
    obtain ⟨k0, v0⟩ := kv
    by_cases h : k0 = k
    · subst h
      simp only [dset, if_true, List.map_cons, List.mem_cons]
      tauto
    · simp only [dset, h, if_false, List.map_cons, List.mem_cons, ih]
      tauto

theorem nodup_keys_dset {d : List (κ × ν)} (h : (d.map Prod.fst).Nodup) (k : κ) (v : ν) :
    ((dset d k v).map Prod.fst).Nodup := by
  induction d with
  | nil => simp [dset]
  | cons kv d ih =>
    obtain ⟨k0, v0⟩ := kv
    by_cases hk : k0 = k
    · subst hk
      simpa [dset] using h
    · simp only [dset, hk, if_false, List.map_cons, List.nodup_cons] at h ⊢
      refine ⟨?_, ih h.2⟩
      rw [mem_keys_dset]
      rintro (h1 | h1)
      · exact h.1 h1
      · exact hk h1

theorem dget_eq_none {d : List (κ × ν)} {k : κ} : dget d k = none ↔ k ∉ d.map Prod.fst := by
  induction d with
  | nil => simp
  | cons kv d ih =>
    obtain ⟨k0, v0⟩ := kv
    by_cases hk : k0 = k
    · simp [dget, hk]
    · simp only [dget, hk, if_false, ih, List.map_cons, List.mem_cons, not_or]
      exact ⟨fun h => ⟨fun h' => hk h'.symm, h⟩, fun h => h.2⟩

theorem dget_mem {d : List (κ × ν)} {k : κ} {v : ν} (h : dget d k = some v) : (k, v) ∈ d := by
  induction d with
  | nil => simp at h
  | cons kv d ih =>
    obtain ⟨k0, v0⟩ := kv
    by_cases hk : k0 = k
    · subst hk
      simp [dget] at h
      simp [h]
    · simp only [dget, hk, if_false] at h
      exact List.mem_cons_of_mem _ (ih h)

theorem dget_of_mem {d : List (κ × ν)} (hn : (d.map Prod.fst).Nodup) {k : κ} {v : ν} (h : (k, v) ∈ d) :
    dget d k = some v := by
  induction d with
  | nil => simp at h
  | cons kv d ih =>
    obtain ⟨k0, v0⟩ := kv
    simp only [List.map_cons, List.nodup_cons] at hn
    rcases List.mem_cons.1 h with h | h
    · cases h
      simp [dget]
    · have : k0 ≠ k := by
        rintro rfl
        exact hn.1 (List.mem_map.2 ⟨_, h, rfl⟩)
      simp [dget, this, ih hn.2 h]

theorem dget_iff_mem {d : List (κ × ν)} (hn : (d.map Prod.fst).Nodup) {k : κ} {v : ν} :
    dget d k = some v ↔ (k, v) ∈ d := ⟨dget_mem, dget_of_mem hn⟩

theorem mem_dset {d : List (κ × ν)} (hn : (d.map Prod.fst).Nodup) (k : κ) (v : ν) (x : κ × ν) :
    x ∈ dset d k v ↔ (x.1 ≠ k ∧ x ∈ d) ∨ x = (k, v) := by
  obtain ⟨k', v'⟩ := x
  rw [← dget_iff_mem (nodup_keys_dset hn k v), dget_dset]
  by_cases h : k = k'
  · subst h
    simp
    exact eq_comm
  · rw [if_neg h, dget_iff_mem hn]
    simp [h, Ne.symm h]

/-- `mapM` of a function that returns on every element. -/
theorem mapM_ok {α β : Type} {f : α → Py β} {R : α → β → Prop} (l : List α)
    (h : ∀ x ∈ l, ∃ y, f x = .ok y ∧ R x y) : ∃ ys, l.mapM f = .ok ys ∧ List.Forall₂ R l ys := by
  induction l with
  | nil => exact ⟨[], rfl, .nil⟩
  | cons x xs ih =>
    obtain ⟨y, h1, h2⟩ := h x (by simp)
    obtain ⟨ys, h3, h4⟩ := ih (fun z hz => h z (by simp [hz]))
    refine ⟨y :: ys, ?_, .cons h2 h4⟩
    simp [List.mapM_cons, h1, h3, bind, Except.bind, pure, Except.pure]

end Verif
