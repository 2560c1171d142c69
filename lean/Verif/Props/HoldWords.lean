import Verif.Spec.HoldWords

/-! Property C81 (the tasks of the multitask job). -/

set_option linter.unusedSectionVars false
set_option linter.unusedSimpArgs false

namespace Verif
open Spec

theorem holdWords_spec (n : Nat) : (holdWords n).Pairwise WordBefore ∧ (holdWords n).length = 2 ^ n ∧
    ∀ w, w ∈ holdWords n ↔ w.length = n ∧ ∀ h ∈ w, h = "h" ∨ h = "v" := by
  induction n with
  | zero =>
    refine ⟨by simp [holdWords], by simp [holdWords], fun w => ?_⟩
    simp only [holdWords, List.mem_singleton, List.length_eq_zero_iff]
    exact ⟨fun h => ⟨h, by simp [h]⟩, fun h => h.1⟩
  | succ n ih =>
    obtain ⟨h1, h2, h3⟩ := ih
    have e : holdWords (n + 1) = (holdWords n).map (fun w => "h" :: w) ++ (holdWords n).map (fun w => "v" :: w) := by
      simp [holdWords]
    have up : ∀ a : String, ((holdWords n).map (fun w => a :: w)).Pairwise WordBefore := by
      intro a
      rw [List.pairwise_map]
      refine h1.imp ?_
      rintro u w ⟨c, x, y, rfl, rfl⟩
      exact ⟨a :: c, x, y, rfl, rfl⟩
    refine ⟨?_, ?_, fun w => ?_⟩
    · rw [e, List.pairwise_append]
      refine ⟨up _, up _, ?_⟩
      intro u hu w hw
      obtain ⟨u', -, rfl⟩ := List.mem_map.1 hu
      obtain ⟨w', -, rfl⟩ := List.mem_map.1 hw
      exact ⟨[], u', w', rfl, rfl⟩
    · rw [e, List.length_append, List.length_map, List.length_map, h2]
      omega
    · rw [e, List.mem_append, List.mem_map, List.mem_map]
      constructor
      · rintro (⟨u, hu, rfl⟩ | ⟨u, hu, rfl⟩)
        · have := (h3 u).1 hu
          exact ⟨by simp [this.1], by simpa using this.2⟩
        · have := (h3 u).1 hu
          exact ⟨by simp [this.1], by simpa using this.2⟩
      · rintro ⟨hl, ha⟩
        cases w with
        | nil => simp at hl
        | cons a w =>
          have hw : w ∈ holdWords n := (h3 w).2 ⟨by simpa using hl, fun h hh => ha h (by simp [hh])⟩
          rcases ha a (by simp) with rfl | rfl
          · exact Or.inl ⟨w, hw, rfl⟩
          · exact Or.inr ⟨w, hw, rfl⟩

theorem taskChoice_spec (ws : List (List String)) : LegChoice ws (taskChoice ws) := by
  refine ⟨ws.map taskSeq, rfl, ?_⟩
  rw [List.forall₂_map_right_iff, List.forall₂_same]
  intro w _
  simp only [LegSequence, taskSeq, List.map_map, Function.comp_def]
  rfl

/-- **C81 (the tasks of the multitask job).**  `sequence` assembles the legs `leg-0`, ..., in this order, horizontally held;
`uniform` is an alternative of all the words of four holds, each once, in alphabetical order; `alternative` one of the four
words of the script; the alternatives are all as likely.  The length that the policies get is that of the sequences. -/
theorem C81_tasks (p : Params) (n : Int) (t : Htm SupAction) (h : multitaskTask p = .ok (n, t)) :
    (p.read "task" = .ok (.str "sequence") ∧ (∃ v, p.read "n_subtasks" = .ok v ∧ v.asInt = .ok n) ∧
      LegSequence ((List.range n.toNat).map fun i => ("leg-" ++ toString i, "h")) t) ∨
    (p.read "task" = .ok (.str "uniform") ∧ n = 4 ∧ ∃ words, LegChoice words t ∧ words.length = 16 ∧ words.Pairwise WordBefore ∧
      ∀ w, w ∈ words ↔ w.length = 4 ∧ ∀ x ∈ w, x = "h" ∨ x = "v") ∨
    (p.read "task" = .ok (.str "alternative") ∧ n = 4 ∧
      LegChoice (["hvvv", "hhhh", "vhhv", "vvhv"].map fun s => s.toList.map String.singleton) t) := by
  unfold multitaskTask at h
  cases ht : p.read "task" with
  | error e => simp [ht, bind, Except.bind] at h
  | ok task =>
    simp only [ht, bind, Except.bind] at h
    split at h
    · rename_i h1
      subst h1
      cases hn : p.read "n_subtasks" with
      | error e => simp [hn] at h
      | ok v =>
        cases hv : v.asInt with
        | error e => simp [hn, hv] at h
        | ok k =>
          simp only [hn, hv, pure, Except.pure, Except.ok.injEq, Prod.mk.injEq] at h
          obtain ⟨rfl, rfl⟩ := h
          refine Or.inl ⟨rfl, ⟨v, rfl, hv⟩, ?_⟩
          simp only [LegSequence, taskLongSequence, List.map_map, Function.comp_def]
          rfl
    · split at h
      · rename_i h1 h2
        subst h2
        simp only [pure, Except.pure, Except.ok.injEq, Prod.mk.injEq] at h
        obtain ⟨rfl, rfl⟩ := h
        exact Or.inr (Or.inl ⟨rfl, rfl, holdWords 4, taskChoice_spec _, (holdWords_spec 4).2.1, (holdWords_spec 4).1,
          (holdWords_spec 4).2.2⟩)
      · split at h
        · rename_i h1 h2 h3
          subst h3
          simp only [pure, Except.pure, Except.ok.injEq, Prod.mk.injEq] at h
          obtain ⟨rfl, rfl⟩ := h
          refine Or.inr (Or.inr ⟨rfl, rfl, ?_⟩)
          have : (["hvvv", "hhhh", "vhhv", "vvhv"].map fun s : String => s.toList.map String.singleton) = alternativeWords := by
            decide +kernel
          rw [this]
          exact taskChoice_spec _
        · split at h <;> cases h

/-- Non-vacuity: the three tasks. -/
example : (∃ t, multitaskTask [("task", .str "sequence"), ("n_subtasks", .num 3)] = .ok (3, t)) ∧
    (∃ t, multitaskTask [("task", .str "uniform")] = .ok (4, t)) ∧
    ∃ t, multitaskTask [("task", .str "alternative")] = .ok (4, t) :=
  ⟨⟨_, rfl⟩, ⟨_, rfl⟩, ⟨_, rfl⟩⟩

end Verif
