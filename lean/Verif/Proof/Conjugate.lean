import Verif.Proof.TaskGraph

/-! Lemmas about `TaskGraph.conjugate`. -/

set_option linter.unusedSectionVars false
set_option linter.unusedSimpArgs false

namespace Verif
namespace TaskGraph
variable {S A : Type} [DecidableEq S] [DecidableEq A]
open BaseGraph

theorem checkDetFrom_spec (out : List (A × S)) (seen : List A) :
    (checkDetFrom seen out = .ok () ∧ (out.map Prod.fst).Nodup ∧ ∀ x ∈ out, x.1 ∉ seen) ∨
    (checkDetFrom seen out = .error .valueError ∧ ¬ ((out.map Prod.fst).Nodup ∧ ∀ x ∈ out, x.1 ∉ seen)) := by
  induction out generalizing seen with
  | nil => left; simp [checkDetFrom]
  | cons x out ih =>
    obtain ⟨a, s⟩ := x
    unfold checkDetFrom
    by_cases h : a ∈ seen
    · right
      simp [h]
    · rw [if_neg h]
      rcases ih (seen ++ [a]) with ⟨h1, h2, h3⟩ | ⟨h1, h2⟩
      · left
        refine ⟨h1, ?_, ?_⟩
        · simp only [List.map_cons, List.nodup_cons]
          refine ⟨?_, h2⟩
          intro hm
          obtain ⟨y, hy, hya⟩ := List.mem_map.1 hm
          have := h3 y hy
          simp [hya] at this
        · intro x hx
          rcases List.mem_cons.1 hx with rfl | hx
          · exact h
          · have := h3 x hx
            simp only [List.mem_append, not_or] at this
            exact this.1
      · right
        refine ⟨h1, ?_⟩
        rintro ⟨h3, h4⟩
        apply h2
        simp only [List.map_cons, List.nodup_cons] at h3
        refine ⟨h3.2, ?_⟩
        intro x hx
        simp only [List.mem_append, List.mem_singleton, not_or]
        refine ⟨h4 x (List.mem_cons_of_mem _ hx), ?_⟩
        rintro rfl
        exact h3.1 (List.mem_map.2 ⟨x, hx, rfl⟩)

/-- Two transitions from the same state by the same action lead to different states. -/
def NonDet (g : TaskGraph S A) : Prop :=
  ∃ s a s₁ s₂, s₁ ≠ s₂ ∧ g.hasTransition s a s₁ = true ∧ g.hasTransition s a s₂ = true

theorem forM_checkDet (ordT : List (A × S) → List (A × S)) (kvs : List (S × List (A × S))) :
    (kvs.forM (fun kv => checkDetFrom [] (ordT kv.2)) = Except.ok () ∧
      ∀ kv ∈ kvs, ((ordT kv.2).map Prod.fst).Nodup) ∨
    (kvs.forM (fun kv => checkDetFrom [] (ordT kv.2)) = Except.error PyErr.valueError ∧
      ∃ kv ∈ kvs, ¬ ((ordT kv.2).map Prod.fst).Nodup) := by
  induction kvs with
  | nil => left; exact ⟨rfl, by simp⟩
  | cons kv kvs ih =>
    rw [show (kv :: kvs).forM (fun kv => checkDetFrom [] (ordT kv.2)) =
      (do checkDetFrom [] (ordT kv.2); kvs.forM (fun kv => checkDetFrom [] (ordT kv.2))) from rfl]
    rcases checkDetFrom_spec (ordT kv.2) [] with ⟨h1, h2, _⟩ | ⟨h1, h2⟩
    · rw [h1]
      rcases ih with ⟨h3, h4⟩ | ⟨h3, kv', hk, h4⟩
      · left
        refine ⟨h3, ?_⟩
        intro x hx
        rcases List.mem_cons.1 hx with rfl | hx
        · exact h2
        · exact h4 x hx
      · right
        exact ⟨h3, kv', List.mem_cons_of_mem _ hk, h4⟩
    · right
      rw [h1]
      refine ⟨rfl, kv, List.mem_cons_self .., ?_⟩
      intro h3
      exact h2 ⟨h3, by simp⟩

theorem checkDeterministic_spec (ordT : List (A × S) → List (A × S)) (hT : ∀ l, (ordT l).Perm l) (g : TaskGraph S A)
    (hw : WF g.toBaseGraph) :
    (g.checkDeterministic ordT = .ok () ∧ ¬ NonDet g) ∨
    (g.checkDeterministic ordT = .error .valueError ∧ NonDet g) := by
  unfold checkDeterministic
  rcases forM_checkDet ordT g.transitions with ⟨h1, h2⟩ | ⟨h1, kv, hk, h2⟩
  · left
    refine ⟨h1, ?_⟩
    rintro ⟨s, a, s₁, s₂, hne, ha, hb⟩
    obtain ⟨out, ho, hm⟩ := has_iff.1 ha
    obtain ⟨out', ho', hm'⟩ := has_iff.1 hb
    rw [ho] at ho'
    cases ho'
    have hn := h2 _ (dget_mem ho)
    have hn' : (out.map Prod.fst).Nodup := ((hT out).map _).nodup_iff.1 hn
    have := List.inj_on_of_nodup_map hn' hm hm' rfl
    simp only [Prod.mk.injEq, true_and] at this
    exact hne this
  · right
    refine ⟨h1, ?_⟩
    have hn : ¬ (kv.2.map Prod.fst).Nodup := fun h => h2 (((hT kv.2).map _).nodup_iff.2 h)
    have hnd := hw.sets kv hk
    rw [List.nodup_map_iff_inj_on hnd] at hn
    simp only [not_forall] at hn
    obtain ⟨x, hx, y, hy, he, hne⟩ := hn
    have hg := dget_of_mem hw.keys hk
    refine ⟨kv.1, x.1, x.2, y.2, ?_, has_iff.2 ⟨kv.2, hg, hx⟩, has_iff.2 ⟨kv.2, hg, ?_⟩⟩
    · intro h
      exact hne (Prod.ext he h)
    · rw [he]
      exact hy

theorem foldl_addC (f : A × S → A × S × A) (ts : List (A × S)) (c : BaseGraph A S) (u : A) (l : S) (v : A) :
    (ts.foldl (fun c as => c.addTransition (f as).1 (f as).2.1 (f as).2.2) c).hasTransition u l v = true ↔
      c.hasTransition u l v = true ∨ ∃ t ∈ ts, (u, l, v) = f t := by
  induction ts generalizing c with
  | nil => simp
  | cons t ts ih =>
    rw [List.foldl_cons, ih, has_add]
    simp only [List.mem_cons, exists_eq_or_imp, or_assoc]

/-- Edges added by the first loop. -/
theorem conjInitial_spec (ordT : List (A × S) → List (A × S)) (hT : ∀ l, (ordT l).Perm l) (ini : A)
    (g : TaskGraph S A) (ss : List S) (c : BaseGraph A S) :
    (∃ c', ss.foldlM (conjInitial ordT ini g) c = .ok c' ∧ (∀ s ∈ ss, s ∈ g.transitions.map Prod.fst) ∧
      ∀ u l v, c'.hasTransition u l v = true ↔ c.hasTransition u l v = true ∨
        (u = ini ∧ l ∈ ss ∧ ∃ s', g.hasTransition l v s' = true)) ∨
    (ss.foldlM (conjInitial ordT ini g) c = .error .keyError ∧ ∃ s ∈ ss, s ∉ g.transitions.map Prod.fst) := by
  induction ss generalizing c with
  | nil => left; exact ⟨c, rfl, by simp, by simp⟩
  | cons s ss ih =>
    rw [List.foldlM_cons]
    unfold conjInitial
    rcases hg : dget g.transitions s with _ | out
    · right
      exact ⟨rfl, s, List.mem_cons_self .., dget_eq_none.1 hg⟩
    · simp only
      have hfold := foldl_addC (fun as => (ini, s, as.1)) (ordT out) c
      have hkey : s ∈ g.transitions.map Prod.fst := List.mem_map.2 ⟨_, dget_mem hg, rfl⟩
      rcases ih ((ordT out).foldl (fun c as => c.addTransition ini s as.1) c) with ⟨c', h1, h2, h3⟩ | ⟨h1, s', hs', h2⟩
      · left
        refine ⟨c', h1, ?_, ?_⟩
        · intro x hx
          rcases List.mem_cons.1 hx with rfl | hx
          · exact hkey
          · exact h2 x hx
        · intro u l v
          rw [h3, hfold, or_assoc]
          refine or_congr Iff.rfl ?_
          constructor
          · rintro (⟨t, ht, he⟩ | ⟨h, hl, h'⟩)
            · simp only [Prod.mk.injEq] at he
              obtain ⟨rfl, rfl, rfl⟩ := he
              exact ⟨rfl, List.mem_cons_self .., t.2, has_iff.2 ⟨out, hg, (hT out).mem_iff.1 ht⟩⟩
            · exact ⟨h, List.mem_cons_of_mem _ hl, h'⟩
          · rintro ⟨rfl, hl, s', hs'⟩
            rcases List.mem_cons.1 hl with rfl | hl
            · left
              obtain ⟨out', ho', hm⟩ := has_iff.1 hs'
              rw [hg] at ho'
              cases ho'
              exact ⟨(v, s'), (hT out).mem_iff.2 hm, rfl⟩
            · exact Or.inr ⟨rfl, hl, s', hs'⟩
      · right
        exact ⟨h1, s', List.mem_cons_of_mem _ hs', h2⟩

/-- Edges that one transition with action `a` and destination `s'` gives in the conjugate. -/
def ConjEdge (ter : A) (g : TaskGraph S A) (as : A × S) (u : A) (l : S) (v : A) : Prop :=
  u = as.1 ∧ l = as.2 ∧
    ((as.2 ∈ g.terminal ∧ v = ter) ∨ (as.2 ∉ g.terminal ∧ ∃ s', g.hasTransition as.2 v s' = true))

theorem conjStep_spec (ordT : List (A × S) → List (A × S)) (hT : ∀ l, (ordT l).Perm l) (ter : A)
    (g : TaskGraph S A) (ts : List (A × S)) (c : BaseGraph A S) :
    (∃ c', ts.foldlM (conjStep ordT ter g) c = .ok c' ∧
      (∀ t ∈ ts, t.2 ∉ g.terminal → t.2 ∈ g.transitions.map Prod.fst) ∧
      ∀ u l v, c'.hasTransition u l v = true ↔ c.hasTransition u l v = true ∨ ∃ t ∈ ts, ConjEdge ter g t u l v) ∨
    (ts.foldlM (conjStep ordT ter g) c = .error .keyError ∧
      ∃ t ∈ ts, t.2 ∉ g.terminal ∧ t.2 ∉ g.transitions.map Prod.fst) := by
  induction ts generalizing c with
  | nil => left; exact ⟨c, rfl, by simp, by simp⟩
  | cons t ts ih =>
    rw [List.foldlM_cons]
    have key : (∃ c1, conjStep ordT ter g c t = .ok c1 ∧ (t.2 ∉ g.terminal → t.2 ∈ g.transitions.map Prod.fst) ∧
        ∀ u l v, c1.hasTransition u l v = true ↔ c.hasTransition u l v = true ∨ ConjEdge ter g t u l v) ∨
        (conjStep ordT ter g c t = .error .keyError ∧ t.2 ∉ g.terminal ∧ t.2 ∉ g.transitions.map Prod.fst) := by
      unfold conjStep
      by_cases ht : t.2 ∈ g.terminal
      · left
        rw [if_pos ht]
        refine ⟨_, rfl, fun h => absurd ht h, ?_⟩
        intro u l v
        rw [has_add]
        simp [ConjEdge, ht]
      · rw [if_neg ht]
        rcases hg : dget g.transitions t.2 with _ | out
        · right
          exact ⟨rfl, ht, dget_eq_none.1 hg⟩
        · left
          refine ⟨_, rfl, fun _ => List.mem_map.2 ⟨_, dget_mem hg, rfl⟩, ?_⟩
          intro u l v
          have hfold := foldl_addC (fun as => (t.1, t.2, as.1)) (ordT out) c u l v
          rw [hfold]
          refine or_congr Iff.rfl ?_
          simp only [ConjEdge, ht, false_and, false_or, not_false_eq_true, true_and, Prod.mk.injEq]
          constructor
          · rintro ⟨t', ht', rfl, rfl, rfl⟩
            exact ⟨rfl, rfl, t'.2, has_iff.2 ⟨out, hg, (hT out).mem_iff.1 ht'⟩⟩
          · rintro ⟨rfl, rfl, s', hs'⟩
            obtain ⟨out', ho', hm⟩ := has_iff.1 hs'
            rw [hg] at ho'
            cases ho'
            exact ⟨(v, s'), (hT out).mem_iff.2 hm, rfl, rfl, rfl⟩
    rcases key with ⟨c1, h1, h2, h3⟩ | ⟨h1, h2⟩
    · rw [h1]
      rcases ih c1 with ⟨c', h4, h5, h6⟩ | ⟨h4, t', ht', h5⟩
      · left
        refine ⟨c', h4, ?_, ?_⟩
        · intro x hx
          rcases List.mem_cons.1 hx with rfl | hx
          · exact h2
          · exact h5 x hx
        · intro u l v
          rw [h6, h3]
          simp only [List.mem_cons, exists_eq_or_imp, or_assoc]
      · right
        exact ⟨h4, t', List.mem_cons_of_mem _ ht', h5⟩
    · right
      rw [h1]
      exact ⟨rfl, t, List.mem_cons_self .., h2⟩

theorem conjSteps_spec (ordT : List (A × S) → List (A × S)) (hT : ∀ l, (ordT l).Perm l) (ter : A)
    (g : TaskGraph S A) (kvs : List (S × List (A × S))) (c : BaseGraph A S) :
    (∃ c', kvs.foldlM (fun c kv => (ordT kv.2).foldlM (conjStep ordT ter g) c) c = .ok c' ∧
      (∀ kv ∈ kvs, ∀ t ∈ kv.2, t.2 ∉ g.terminal → t.2 ∈ g.transitions.map Prod.fst) ∧
      ∀ u l v, c'.hasTransition u l v = true ↔
        c.hasTransition u l v = true ∨ ∃ kv ∈ kvs, ∃ t ∈ kv.2, ConjEdge ter g t u l v) ∨
    (kvs.foldlM (fun c kv => (ordT kv.2).foldlM (conjStep ordT ter g) c) c = .error .keyError ∧
      ∃ kv ∈ kvs, ∃ t ∈ kv.2, t.2 ∉ g.terminal ∧ t.2 ∉ g.transitions.map Prod.fst) := by
  induction kvs generalizing c with
  | nil => left; exact ⟨c, rfl, by simp, by simp⟩
  | cons kv kvs ih =>
    rw [List.foldlM_cons]
    rcases conjStep_spec ordT hT ter g (ordT kv.2) c with ⟨c1, h1, h2, h3⟩ | ⟨h1, t, ht, h2⟩
    · rw [h1]
      have h3' : ∀ u l v, c1.hasTransition u l v = true ↔
          c.hasTransition u l v = true ∨ ∃ t ∈ kv.2, ConjEdge ter g t u l v := by
        intro u l v
        rw [h3]
        simp only [(hT kv.2).mem_iff]
      rcases ih c1 with ⟨c', h4, h5, h6⟩ | ⟨h4, kv', hk, h5⟩
      · left
        refine ⟨c', h4, ?_, ?_⟩
        · intro x hx
          rcases List.mem_cons.1 hx with rfl | hx
          · intro t ht
            exact h2 t ((hT _).mem_iff.2 ht)
          · exact h5 x hx
        · intro u l v
          rw [h6, h3']
          simp only [List.mem_cons, exists_eq_or_imp, or_assoc]
      · right
        exact ⟨h4, kv', List.mem_cons_of_mem _ hk, h5⟩
    · right
      rw [h1]
      exact ⟨rfl, kv, List.mem_cons_self .., t, (hT _).mem_iff.1 ht, h2⟩

/-- The transitions the conjugate is meant to have. -/
def ConjSpec (ini ter : A) (g : TaskGraph S A) (u : A) (l : S) (v : A) : Prop :=
  (u = ini ∧ l ∈ g.initial ∧ ∃ s', g.hasTransition l v s' = true) ∨
  (l ∉ g.terminal ∧ (∃ s, g.hasTransition s u l = true) ∧ ∃ s', g.hasTransition l v s' = true) ∨
  (v = ter ∧ l ∈ g.terminal ∧ ∃ s, g.hasTransition s u l = true)

theorem conjugate_spec (ordS : List S → List S) (ordT : List (A × S) → List (A × S)) (hS : ∀ l, (ordS l).Perm l)
    (hT : ∀ l, (ordT l).Perm l) (ini ter : A) (g : TaskGraph S A) (hw : WF g.toBaseGraph) :
    (NonDet g ∧ g.conjugate ordS ordT ini ter = .error .valueError) ∨
    (¬ NonDet g ∧ g.conjugate ordS ordT ini ter = .error .keyError ∧
      ((∃ s ∈ g.initial, s ∉ g.transitions.map Prod.fst) ∨
        ∃ s a s', g.hasTransition s a s' = true ∧ s' ∉ g.terminal ∧ s' ∉ g.transitions.map Prod.fst)) ∨
    (¬ NonDet g ∧ ¬ ((∃ s ∈ g.initial, s ∉ g.transitions.map Prod.fst) ∨
        ∃ s a s', g.hasTransition s a s' = true ∧ s' ∉ g.terminal ∧ s' ∉ g.transitions.map Prod.fst) ∧
      ∃ c, g.conjugate ordS ordT ini ter = .ok c ∧
        ∀ u l v, c.hasTransition u l v = true ↔ ConjSpec ini ter g u l v) := by
  unfold conjugate
  rcases checkDeterministic_spec ordT hT g hw with ⟨h1, hd⟩ | ⟨h1, hd⟩
  · right
    rw [h1]
    rcases conjInitial_spec ordT hT ini g (ordS g.initial) {} with ⟨c1, h2, h3, h4⟩ | ⟨h2, s, hs, h3⟩
    · rcases conjSteps_spec ordT hT ter g g.transitions c1 with ⟨c2, h5, h6, h7⟩ | ⟨h5, kv, hk, t, ht, h6⟩
      · right
        refine ⟨hd, ?_, c2, ?_, ?_⟩
        · rintro (⟨s, hs, hn⟩ | ⟨s, a, s', hh, hn, hk⟩)
          · exact hn (h3 s ((hS _).mem_iff.2 hs))
          · obtain ⟨out, ho, hm⟩ := has_iff.1 hh
            exact hk (h6 _ (dget_mem ho) _ hm hn)
        · simp only [h2, h5, bind, Except.bind]
        · intro u l v
          rw [h7, h4]
          have hemp : ({} : BaseGraph A S).hasTransition u l v = false := rfl
          simp only [hemp, Bool.false_eq_true, false_or, (hS _).mem_iff, ConjSpec]
          refine or_congr Iff.rfl ?_
          constructor
          · rintro ⟨kv, hk, t, ht, rfl, rfl, h⟩
            have : g.hasTransition kv.1 t.1 t.2 = true := has_iff.2 ⟨kv.2, dget_of_mem hw.keys hk, ht⟩
            rcases h with ⟨ha, rfl⟩ | ⟨ha, hb⟩
            · exact Or.inr ⟨rfl, ha, kv.1, this⟩
            · exact Or.inl ⟨ha, ⟨kv.1, this⟩, hb⟩
          · rintro (⟨ha, ⟨s, hs⟩, hb⟩ | ⟨rfl, ha, s, hs⟩)
            · obtain ⟨out, ho, hm⟩ := has_iff.1 hs
              exact ⟨_, dget_mem ho, _, hm, rfl, rfl, Or.inr ⟨ha, hb⟩⟩
            · obtain ⟨out, ho, hm⟩ := has_iff.1 hs
              exact ⟨_, dget_mem ho, _, hm, rfl, rfl, Or.inl ⟨ha, rfl⟩⟩
      · left
        refine ⟨hd, ?_, Or.inr ⟨kv.1, t.1, t.2, has_iff.2 ⟨kv.2, dget_of_mem hw.keys hk, ht⟩, h6⟩⟩
        simp only [h2, h5, bind, Except.bind]
    · left
      refine ⟨hd, ?_, Or.inl ⟨s, (hS _).mem_iff.1 hs, h3⟩⟩
      simp only [h2, bind, Except.bind]
  · left
    refine ⟨hd, ?_⟩
    rw [h1]
    rfl

end TaskGraph
end Verif
