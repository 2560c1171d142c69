import Verif.Spec.TaskGraph
import Verif.Proof.TaskGraph
import Mathlib.Data.List.Induction

/-! Properties C01–C06 of task graphs. -/

set_option linter.unusedSectionVars false
set_option linter.unusedSimpArgs false

namespace Verif
open Spec BaseGraph TaskGraph

section
variable {S A : Type}

/-- **C01.**  `check_path` accepts exactly the well-formed paths (and is total: it never raises). -/
theorem C01_checkPath (chk : A → S → S → Bool) (p : List (Elem S A)) :
    checkPath chk p = true ↔ IsPath chk p := by
  induction p using splitPath.induct with
  | case1 x y z r ih =>
    rw [checkPath_cons3]
    constructor
    · rintro ⟨s, a, s', rfl, rfl, rfl, hc, hp⟩
      right
      rcases ih.1 hp with h | ⟨h1, h2, h3, h4⟩
      · cases h
      · refine ⟨?_, ?_, ?_, ?_⟩
        · simp only [List.length_cons] at h1 ⊢
          omega
        · intro i hi he
          match i, hi, he with
          | 0, _, _ => exact ⟨s, rfl⟩
          | 1, _, he => omega
          | i + 2, hi, he =>
            simpa using h2 i (by simpa using hi) (by omega)
        · intro i hi he
          match i, hi, he with
          | 0, _, he => omega
          | 1, _, _ => exact ⟨a, rfl⟩
          | i + 2, hi, he =>
            simpa using h3 i (by simpa using hi) (by omega)
        · intro i t b t' he e1 e2 e3
          match i, he, e1, e2, e3 with
          | 0, _, e1, e2, e3 =>
            simp at e1 e2 e3
            subst e1 e2 e3
            exact hc
          | 1, he, _, _, _ => omega
          | i + 2, he, e1, e2, e3 =>
            exact h4 i t b t' (by omega) (by simpa using e1) (by simpa using e2) (by simpa using e3)
    · rintro (h | ⟨h1, h2, h3, h4⟩)
      · cases h
      · obtain ⟨s, hs⟩ := h2 0 (by simp) rfl
        obtain ⟨a, ha⟩ := h3 1 (by simp) rfl
        obtain ⟨s', hs'⟩ := h2 2 (by simp) rfl
        have hc := h4 0 s a s' rfl hs ha hs'
        simp at hs ha hs'
        refine ⟨s, a, s', hs, ha, hs', hc, ih.2 (Or.inr ⟨?_, ?_, ?_, ?_⟩)⟩
        · simp only [List.length_cons] at h1 ⊢
          omega
        · intro i hi he
          simpa using h2 (i + 2) (by simpa using hi) (by omega)
        · intro i hi he
          simpa using h3 (i + 2) (by simpa using hi) (by omega)
        · intro i t b t' he e1 e2 e3
          exact h4 (i + 2) t b t' (by omega) (by simpa using e1) (by simpa using e2) (by simpa using e3)
  | case2 p hp =>
    match p, hp with
    | [], _ => simp [checkPath, IsPath]
    | [x], _ =>
      rw [checkPath_one]
      constructor
      · rintro ⟨s, rfl⟩
        right
        refine ⟨rfl, ?_, ?_, ?_⟩
        · intro i hi _
          simp at hi
          subst hi
          exact ⟨s, rfl⟩
        · intro i hi he
          simp at hi
          omega
        · intro i s a s' _ _ h2 _
          simp at h2
      · rintro (h | ⟨_, h2, _, _⟩)
        · cases h
        · obtain ⟨s, hs⟩ := h2 0 (by simp) rfl
          exact ⟨s, by simpa using hs⟩
    | [x, y], _ =>
      rw [checkPath_two]
      simp [IsPath]
    | x :: y :: z :: r, hp => exact absurd rfl (hp x y z r)

/-- Non-vacuity of C01: a path of two steps is accepted, and rejected when one check fails or it ends with an action. -/
example : checkPath (fun a s s' => decide (s' = s + a)) [.state 0, .action 2, .state 2, .action 1, .state 3] = true ∧
    checkPath (fun a s s' => decide (s' = s + a)) [.state 0, .action 2, .state 2, .action 1, .state 4] = false ∧
    checkPath (fun a s s' => decide (s' = s + a)) [.state 0, .action 2, .state 2, .action 1] = false ∧
    checkPath (fun a s s' => decide (s' = s + a)) [.state 0, .other, .state 2] = false := by decide

end

section
variable {S A : Type} [DecidableEq S] [DecidableEq A]

theorem mem_typedSteps_iff_stepOf (p : List (Elem S A)) (s : S) (a : A) (s' : S) :
    (s, a, s') ∈ typedSteps p ↔ StepOf p s a s' := by
  rw [mem_typedSteps]
  constructor
  · rintro ⟨k, h⟩
    exact ⟨2 * k, by omega, h⟩
  · rintro ⟨i, hi, h⟩
    refine ⟨i / 2, ?_⟩
    rw [show 2 * (i / 2) = i by omega]
    exact h

theorem addAll_append (chk : A → S → S → Bool) (ps : List (List (Elem S A))) (p : List (Elem S A)) :
    addAll chk (ps ++ [p]) = caught ((addAll chk ps).addPath chk p) (addAll chk ps) := by
  simp [addAll, List.foldl_append]

/-- What the graph built by a sequence of `add_path` calls contains. -/
theorem addAll_spec (chk : A → S → S → Bool) (ps : List (List (Elem S A))) :
    WF (addAll chk ps).toBaseGraph ∧
    (∀ s, s ∈ (addAll chk ps).initial ↔ ∃ p ∈ ps, IsPath chk p ∧ Starts p s) ∧
    (∀ s, s ∈ (addAll chk ps).terminal ↔ ∃ p ∈ ps, IsPath chk p ∧ Ends p s) ∧
    (∀ s a s', (addAll chk ps).hasTransition s a s' = true ↔ ∃ p ∈ ps, IsPath chk p ∧ StepOf p s a s') ∧
    (∀ s, s ∈ (addAll chk ps).transitions.map Prod.fst ↔
      ∃ a s', (addAll chk ps).hasTransition s a s' = true) := by
  induction ps using List.reverseRecOn with
  | nil =>
    refine ⟨wf_empty, ?_, ?_, ?_, ?_⟩ <;> simp [addAll, hasTransition]
  | append_singleton ps p ih =>
    obtain ⟨hw, h1, h2, h3, h4⟩ := ih
    rw [addAll_append]
    by_cases hp : checkPath chk p = true
    · have hp' := (C01_checkPath chk p).1 hp
      have hf := foldl_add (typedSteps p) (addAll chk ps).toBaseGraph hw
      have he := fun s => mem_addEnds_initial (addAll chk ps) chk p hp s
      simp only [addPath, hp, if_true, addEnds_base, caught]
      refine ⟨hf.1, ?_, ?_, ?_, ?_⟩
      · intro s
        rw [(he s).1, h1]
        simp only [List.mem_append, List.mem_singleton, Starts]
        constructor
        · rintro (⟨q, hq, h⟩ | h)
          · exact ⟨q, Or.inl hq, h⟩
          · exact ⟨p, Or.inr rfl, hp', h⟩
        · rintro ⟨q, hq | rfl, h⟩
          · exact Or.inl ⟨q, hq, h⟩
          · exact Or.inr h.2
      · intro s
        rw [(he s).2, h2]
        simp only [List.mem_append, List.mem_singleton, Ends]
        constructor
        · rintro (⟨q, hq, h⟩ | h)
          · exact ⟨q, Or.inl hq, h⟩
          · exact ⟨p, Or.inr rfl, hp', h⟩
        · rintro ⟨q, hq | rfl, h⟩
          · exact Or.inl ⟨q, hq, h⟩
          · exact Or.inr h.2
      · intro s a s'
        rw [hf.2.1, h3, mem_typedSteps_iff_stepOf]
        simp only [List.mem_append, List.mem_singleton]
        constructor
        · rintro (⟨q, hq, h⟩ | h)
          · exact ⟨q, Or.inl hq, h⟩
          · exact ⟨p, Or.inr rfl, hp', h⟩
        · rintro ⟨q, hq | rfl, h⟩
          · exact Or.inl ⟨q, hq, h⟩
          · exact Or.inr h.2
      · intro s
        rw [hf.2.2, h4]
        simp only [hf.2.1]
        constructor
        · rintro (⟨a, s', h⟩ | ⟨t, ht, rfl⟩)
          · exact ⟨a, s', Or.inl h⟩
          · exact ⟨t.2.1, t.2.2, Or.inr ht⟩
        · rintro ⟨a, s', h | h⟩
          · exact Or.inl ⟨a, s', h⟩
          · exact Or.inr ⟨_, h, rfl⟩
    · have hp' : ¬ IsPath chk p := fun h => hp ((C01_checkPath chk p).2 h)
      simp only [addPath, hp, caught, if_false, Bool.false_eq_true]
      refine ⟨hw, ?_, ?_, ?_, h4⟩
      · intro s
        rw [h1]
        simp only [List.mem_append, List.mem_singleton]
        constructor
        · rintro ⟨q, hq, h⟩
          exact ⟨q, Or.inl hq, h⟩
        · rintro ⟨q, hq | rfl, h⟩
          · exact ⟨q, hq, h⟩
          · exact absurd h.1 hp'
      · intro s
        rw [h2]
        simp only [List.mem_append, List.mem_singleton]
        constructor
        · rintro ⟨q, hq, h⟩
          exact ⟨q, Or.inl hq, h⟩
        · rintro ⟨q, hq | rfl, h⟩
          · exact ⟨q, hq, h⟩
          · exact absurd h.1 hp'
      · intro s a s'
        show (addAll chk ps).hasTransition s a s' = true ↔ _
        rw [h3]
        simp only [List.mem_append, List.mem_singleton]
        constructor
        · rintro ⟨q, hq, h⟩
          exact ⟨q, Or.inl hq, h⟩
        · rintro ⟨q, hq | rfl, h⟩
          · exact ⟨q, hq, h⟩
          · exact absurd h.1 hp'

/-- **C02 (validity).**  On a list that is no path, both `add_path` and `has_path` raise `ValueError`; on a path
neither raises; the empty path is always recognised. -/
theorem C02_errors (chk : A → S → S → Bool) (g : TaskGraph S A) (q : List (Elem S A)) :
    (¬ IsPath chk q → g.addPath chk q = .error .valueError ∧ g.hasPath chk q = .error .valueError) ∧
    (IsPath chk q → (∃ g', g.addPath chk q = .ok g') ∧ ∃ b, g.hasPath chk q = .ok b) ∧
    g.hasPath chk [] = .ok true := by
  refine ⟨fun h => ?_, fun h => ?_, ?_⟩
  · have : ¬ checkPath chk q = true := fun h' => h ((C01_checkPath chk q).1 h')
    simp [addPath, hasPath, this]
  · have := (C01_checkPath chk q).2 h
    simp [addPath, hasPath, this]
  · simp [hasPath, checkPath]

/-- **C02.**  After any sequence of `add_path` calls (some of them possibly raising), `has_path q` of a non-empty path
is true iff `q` starts like an added path, ends like an added path, and each of its steps is a step of an added one. -/
theorem C02_hasPath (chk : A → S → S → Bool) (ps : List (List (Elem S A))) (q : List (Elem S A))
    (hq : IsPath chk q) (hne : q ≠ []) :
    (addAll chk ps).hasPath chk q = .ok true ↔
      (∃ p ∈ ps, IsPath chk p ∧ ∃ s, Starts p s ∧ Starts q s) ∧
      (∃ p ∈ ps, IsPath chk p ∧ ∃ s, Ends p s ∧ Ends q s) ∧
      (∀ s a s', StepOf q s a s' → ∃ p ∈ ps, IsPath chk p ∧ StepOf p s a s') := by
  obtain ⟨_, h1, h2, h3, _⟩ := addAll_spec chk ps
  have hc := (C01_checkPath chk q).2 hq
  obtain ⟨s0, hs0⟩ := checkPath_head hc hne
  obtain ⟨sn, hsn⟩ := checkPath_last q hc hne
  have he : q.isEmpty = false := by simpa using hne
  simp only [hasPath, hc, if_true, he, Bool.false_or, hs0, hsn, Except.ok.injEq, Bool.and_eq_true, decide_eq_true_eq,
    List.all_eq_true, and_assoc]
  refine and_congr ?_ (and_congr ?_ ?_)
  · rw [h1]
    constructor
    · rintro ⟨p, hp, hv, hs⟩
      exact ⟨p, hp, hv, s0, hs, hs0⟩
    · rintro ⟨p, hp, hv, s, hs, hs'⟩
      have : s = s0 := by simpa [Starts, hs0, eq_comm] using hs'
      exact ⟨p, hp, hv, this ▸ hs⟩
  · rw [h2]
    constructor
    · rintro ⟨p, hp, hv, hs⟩
      exact ⟨p, hp, hv, sn, hs, hsn⟩
    · rintro ⟨p, hp, hv, s, hs, hs'⟩
      have : s = sn := by simpa [Ends, hsn, eq_comm] using hs'
      exact ⟨p, hp, hv, this ▸ hs⟩
  · constructor
    · intro h s a s' hst
      exact (h3 s a s').1 (h _ ((mem_typedSteps_iff_stepOf q s a s').2 hst))
    · rintro h ⟨s, a, s'⟩ hm
      exact (h3 s a s').2 (h s a s' ((mem_typedSteps_iff_stepOf q s a s').1 hm))

/-- **C02 (corollary).**  Every added path is recognised after any further calls. -/
theorem C02_added (chk : A → S → S → Bool) (ps : List (List (Elem S A))) (p : List (Elem S A)) (hp : p ∈ ps)
    (hv : IsPath chk p) : (addAll chk ps).hasPath chk p = .ok true := by
  rcases eq_or_ne p [] with rfl | hne
  · exact (C02_errors chk _ []).2.2
  · have hc := (C01_checkPath chk p).2 hv
    obtain ⟨s0, hs0⟩ := checkPath_head hc hne
    obtain ⟨sn, hsn⟩ := checkPath_last p hc hne
    exact (C02_hasPath chk ps p hv hne).2
      ⟨⟨p, hp, hv, s0, hs0, hs0⟩, ⟨p, hp, hv, sn, hsn, hsn⟩, fun s a s' h => ⟨p, hp, hv, h⟩⟩

/-- Non-vacuity of C02: stitching two demonstrations gives a recognised path that was not added; a path that starts in
the middle is refused. -/
example :
    let ps : List (List (Elem Nat Nat)) :=
      [[.state 0, .action 1, .state 1, .action 1, .state 2], [.state 5, .action 1, .state 1, .action 2, .state 3]]
    (addAll (fun _ _ _ => true) ps).hasPath (fun _ _ _ => true)
      [.state 0, .action 1, .state 1, .action 2, .state 3] = .ok true ∧
    (addAll (fun _ _ _ => true) ps).hasPath (fun _ _ _ => true) [.state 1, .action 2, .state 3] = .ok false ∧
    (addAll (fun _ _ _ => true) ps).hasPath (fun _ _ _ => true) [.state 1, .action 2] = .error .valueError := by
  decide

/-- **C03.**  Two task graphs built from lists with the same valid paths (any order, any repetition) are `==`. -/
theorem C03_order_independent (chk : A → S → S → Bool) (ps qs : List (List (Elem S A)))
    (h : ∀ p, IsPath chk p → (p ∈ ps ↔ p ∈ qs)) : (addAll chk ps).eq (addAll chk qs) = true := by
  obtain ⟨w, h1, h2, h3, h4⟩ := addAll_spec chk ps
  obtain ⟨w', h1', h2', h3', h4'⟩ := addAll_spec chk qs
  have key : ∀ P : List (Elem S A) → Prop,
      (∃ p ∈ ps, IsPath chk p ∧ P p) ↔ (∃ p ∈ qs, IsPath chk p ∧ P p) := by
    intro P
    constructor
    · rintro ⟨p, hp, hv, hP⟩
      exact ⟨p, (h p hv).1 hp, hv, hP⟩
    · rintro ⟨p, hp, hv, hP⟩
      exact ⟨p, (h p hv).2 hp, hv, hP⟩
  have ht : ∀ s a s', (addAll chk ps).hasTransition s a s' = true ↔ (addAll chk qs).hasTransition s a s' = true := by
    intro s a s'
    rw [h3, h3', key]
  simp only [TaskGraph.eq, Bool.and_eq_true, setEq_iff]
  refine ⟨⟨(eq_iff w w').2 ⟨?_, ht⟩, ?_⟩, ?_⟩
  · intro k
    rw [h4, h4']
    simp only [ht]
  · intro s
    rw [h1, h1', key]
  · intro s
    rw [h2, h2', key]

/-- `==` is not trivially true: graphs built from different paths differ. -/
example : (addAll (fun _ _ _ => true) [[Elem.state 0, .action 1, .state 1]]).eq
    (addAll (fun _ _ _ => true) [[Elem.state 0, .action 1, .state 2]]) = false := by decide

example : (addAll (fun _ _ _ => true) [[Elem.state 0, .action 1, .state 1], [Elem.state 5, .action 1, .state 1]]).eq
    (addAll (fun _ _ _ => true) [[Elem.state 5, .action 1, .state 1], [Elem.state 0, .action 1, .state 1],
      [Elem.state 0, .action 1, .state 1]]) = true := by decide

end

section
variable {N L : Type} [DecidableEq N] [DecidableEq L]

theorem runOps_wf (g : BaseGraph N L) (hw : WF g) (ops : List (GraphOp N L)) : WF (runOps g ops) := by
  induction ops using List.reverseRecOn with
  | nil => exact hw
  | append_singleton ops op ih =>
    have : runOps g (ops ++ [op]) = runOp (runOps g ops) op := by simp [runOps]
    rw [this]
    cases op with
    | add s l d => exact wf_add ih _ _ _
    | remove s l d =>
      simp only [runOp, caught]
      split
      · rename_i hr
        exact wf_remove ih hr
      · exact ih

/-- **C04.**  After any sequence of `add_transition`/`remove_transition` calls on a fresh graph, a triple is present
iff some call added it and no later call removed it. -/
theorem C04_has (ops : List (GraphOp N L)) (s : N) (l : L) (d : N) :
    (runOps {} ops).hasTransition s l d = true ↔
      ∃ pre post, ops = pre ++ .add s l d :: post ∧ .remove s l d ∉ post := by
  induction ops using List.reverseRecOn with
  | nil => simp [runOps, hasTransition]
  | append_singleton ops op ih =>
    have hw := runOps_wf ({} : BaseGraph N L) wf_empty ops
    have hstep : runOps {} (ops ++ [op]) = runOp (runOps {} ops) op := by simp [runOps]
    have hlast : (∃ pre post, ops ++ [op] = pre ++ GraphOp.add s l d :: post ∧ GraphOp.remove s l d ∉ post) ↔
        op = .add s l d ∨
          (op ≠ .remove s l d ∧ ∃ pre post, ops = pre ++ .add s l d :: post ∧ .remove s l d ∉ post) := by
      constructor
      · rintro ⟨pre, post, he, hn⟩
        rcases List.eq_nil_or_concat post with rfl | ⟨post', x, rfl⟩
        · left
          have := List.append_inj_right' he rfl
          simpa using this
        · right
          rw [List.concat_eq_append, ← List.cons_append, ← List.append_assoc] at he
          have h1 := List.append_inj_left' he rfl
          have h2 := List.append_inj_right' he rfl
          simp only [List.cons.injEq, and_true] at h2
          simp only [List.concat_eq_append, List.mem_append, List.mem_singleton, not_or] at hn
          exact ⟨fun h => hn.2 (h2 ▸ h.symm), pre, post', h1, hn.1⟩
      · rintro (rfl | ⟨hne, pre, post, rfl, hn⟩)
        · exact ⟨ops, [], rfl, by simp⟩
        · refine ⟨pre, post ++ [op], by simp, ?_⟩
          simp only [List.mem_append, List.mem_singleton, not_or]
          exact ⟨hn, fun h => hne h.symm⟩
    rw [hlast, hstep, ← ih]
    cases op with
    | add s' l' d' =>
      simp only [runOp, has_add, GraphOp.add.injEq, ne_eq, reduceCtorEq, not_false_eq_true, true_and, Prod.mk.injEq]
      constructor
      · rintro (h | ⟨rfl, rfl, rfl⟩)
        · exact Or.inr h
        · exact Or.inl ⟨rfl, rfl, rfl⟩
      · rintro (⟨rfl, rfl, rfl⟩ | h)
        · exact Or.inr ⟨rfl, rfl, rfl⟩
        · exact Or.inl h
    | remove s' l' d' =>
      simp only [runOp, GraphOp.remove.injEq, ne_eq, reduceCtorEq, false_or]
      rcases hr : (runOps {} ops).removeTransition s' l' d' with e | g'
      · simp only [caught]
        have : ¬ (runOps {} ops).hasTransition s' l' d' = true := by
          rw [← remove_ok_iff, hr]
          simp
        constructor
        · intro h
          refine ⟨?_, h⟩
          rintro ⟨rfl, rfl, rfl⟩
          exact this h
        · exact fun h => h.2
      · simp only [caught, has_remove hw hr, ne_eq, Prod.mk.injEq]
        constructor
        · rintro ⟨h, hne⟩
          exact ⟨fun ⟨a, b, c⟩ => hne ⟨a.symm, b.symm, c.symm⟩, h⟩
        · rintro ⟨hne, h⟩
          exact ⟨h, fun ⟨a, b, c⟩ => hne ⟨a.symm, b.symm, c.symm⟩⟩

/-- **C04 (enumeration).**  On every reachable graph `all_transitions` yields each present triple exactly once and
nothing else. -/
theorem C04_all (ops : List (GraphOp N L)) :
    (runOps {} ops : BaseGraph N L).allTransitions.Nodup ∧
    ∀ s l d, (s, l, d) ∈ (runOps {} ops : BaseGraph N L).allTransitions ↔
      (runOps {} ops : BaseGraph N L).hasTransition s l d = true :=
  ⟨nodup_all (runOps_wf _ wf_empty ops), mem_all (runOps_wf _ wf_empty ops)⟩

/-- **C04 (removal).**  `remove_transition` raises `KeyError` iff the triple is absent. -/
theorem C04_remove (g : BaseGraph N L) (s : N) (l : L) (d : N) :
    (g.hasTransition s l d = false ↔ g.removeTransition s l d = .error .keyError) ∧
    (g.hasTransition s l d = true ↔ ∃ g', g.removeTransition s l d = .ok g') := by
  refine ⟨⟨remove_error g s l d, fun h => ?_⟩, (remove_ok_iff g s l d).symm⟩
  by_contra hc
  obtain ⟨g', hg'⟩ := (remove_ok_iff g s l d).2 (by simpa using hc)
  rw [h] at hg'
  cases hg'

/-- Non-vacuity of C04. -/
example : (runOps {} [GraphOp.add 0 'a' 1, .add 0 'b' 1, .remove 0 'a' 1, .remove 7 'a' 1, .add 0 'b' 1]
    : BaseGraph Nat Char).allTransitions = [(0, 'b', 1)] := by decide

/-- `as_dictionary` of a graph whose dictionary has no key twice. -/
theorem asDictionary_wf (strN : N → String) (strL : L → String) (name : String) {g : BaseGraph N L} (hw : WF g)
    (order : List (N × L × N)) (nodeOrder : List N)
    (ho : order.Perm g.allTransitions) (hno : nodeOrder.Perm (allNodes order)) :
    nodeOrder.Nodup ∧
    (∀ n, n ∈ nodeOrder ↔
      ∃ s l d, g.hasTransition s l d = true ∧ (n = s ∨ n = d)) ∧
    ∃ dict, asDictionary strN strL nodeOrder order name = .ok dict ∧ dict.name = name ∧
      dict.nodes.length = nodeOrder.length ∧
      (∀ (i : Nat) n, nodeOrder[i]? = some n → dict.nodes[i]? = some (i, strN n)) ∧
      dict.links.length = order.length ∧
      (∀ (k : Nat) s l d, order[k]? = some (s, l, d) →
        ∃ u v, dict.links[k]? = some (u, v, strL l) ∧ nodeOrder[u]? = some s ∧ nodeOrder[v]? = some d) := by
  have hnd : nodeOrder.Nodup := hno.nodup_iff.2 (nodup_allNodes order [] List.nodup_nil)
  have hmem : ∀ n, n ∈ nodeOrder ↔ ∃ t ∈ order, n = t.1 ∨ n = t.2.2 := by
    intro n
    rw [hno.mem_iff, allNodes, mem_allNodes]
    simp
  refine ⟨hnd, ?_, ?_⟩
  · intro n
    rw [hmem]
    constructor
    · rintro ⟨⟨s, l, d⟩, ht, h⟩
      exact ⟨s, l, d, (mem_all hw s l d).1 (ho.mem_iff.1 ht), h⟩
    · rintro ⟨s, l, d, ht, h⟩
      exact ⟨(s, l, d), ho.mem_iff.2 ((mem_all hw s l d).2 ht), h⟩
  · have hid := fun n => dget_ids nodeOrder 0 [] hnd n
    have hlinks : ∀ ts : List (N × L × N), (∀ t ∈ ts, t.1 ∈ nodeOrder ∧ t.2.2 ∈ nodeOrder) →
        ts.mapM (linkOf strL (nodeIds nodeOrder)) =
        Except.ok (ts.map fun t => (nodeOrder.idxOf t.1, nodeOrder.idxOf t.2.2, strL t.2.1)) := by
      intro ts hts
      induction ts with
      | nil => rfl
      | cons t ts ih =>
        have ht := hts t (List.mem_cons_self ..)
        rw [List.mapM_cons, ih (fun t' ht' => hts t' (List.mem_cons_of_mem _ ht')), linkOf, nodeIds, hid, hid]
        simp [ht.1, ht.2]
        rfl
    refine ⟨{ name := name, nodes := nodeOrder.zipIdx.map (fun ni => (ni.2, strN ni.1)),
              links := order.map fun t => (nodeOrder.idxOf t.1, nodeOrder.idxOf t.2.2, strL t.2.1) },
      ?_, rfl, ?_, ?_, ?_, ?_⟩
    · unfold asDictionary
      rw [hlinks order (fun t ht => ⟨(hmem _).2 ⟨t, ht, Or.inl rfl⟩, (hmem _).2 ⟨t, ht, Or.inr rfl⟩⟩)]
      rfl
    · simp
    · intro i n h
      simp [h]
    · simp
    · intro k s l d h
      refine ⟨nodeOrder.idxOf s, nodeOrder.idxOf d, by simp [h], ?_, ?_⟩
      · exact List.getElem?_idxOf ((hmem s).2 ⟨_, List.mem_of_getElem? h, Or.inl rfl⟩)
      · exact List.getElem?_idxOf ((hmem d).2 ⟨_, List.mem_of_getElem? h, Or.inr rfl⟩)

/-- **C05.**  On every reachable graph, for every iteration order of the nodes and of the transitions, `as_dictionary`
returns a faithful numbering: there is a list of the nodes that occur in transitions, without repetition, such that the
`nodes` entry is that list with ids `0, 1, ...`, and the links are the transitions, in order, with ends given by the
positions of their nodes in the list. -/
theorem C05_asDictionary (strN : N → String) (strL : L → String) (name : String) (ops : List (GraphOp N L))
    (order : List (N × L × N)) (nodeOrder : List N)
    (ho : order.Perm (runOps {} ops : BaseGraph N L).allTransitions) (hno : nodeOrder.Perm (allNodes order)) :
    nodeOrder.Nodup ∧
    (∀ n, n ∈ nodeOrder ↔
      ∃ s l d, (runOps {} ops : BaseGraph N L).hasTransition s l d = true ∧ (n = s ∨ n = d)) ∧
    ∃ dict, asDictionary strN strL nodeOrder order name = .ok dict ∧ dict.name = name ∧
      dict.nodes.length = nodeOrder.length ∧
      (∀ (i : Nat) n, nodeOrder[i]? = some n → dict.nodes[i]? = some (i, strN n)) ∧
      dict.links.length = order.length ∧
      (∀ (k : Nat) s l d, order[k]? = some (s, l, d) →
        ∃ u v, dict.links[k]? = some (u, v, strL l) ∧ nodeOrder[u]? = some s ∧ nodeOrder[v]? = some d) :=
  asDictionary_wf strN strL name (runOps_wf ({} : BaseGraph N L) wf_empty ops) order nodeOrder ho hno

/-- Non-vacuity of C05: a concrete dictionary. -/
example : (asDictionary (fun n : Nat => toString n) (fun c : Char => c.toString) [2, 1]
    [(1, 'a', 2), (2, 'b', 2)] "g").map (fun d => (d.nodes.map Prod.fst, d.links.map fun l => (l.1, l.2.1))) =
    .ok ([0, 1], [(1, 0), (0, 0)]) := by decide

/-- **C06.**  On every reachable graph and for every iteration order, `compact` does not raise, and afterwards the
transitions are exactly the old ones that touch no selected node and the old boundary ones with the selected end
replaced by the new node and the label erased. -/
theorem C06_compact (emp : L) (ops : List (GraphOp N L)) (snapshot : List (N × L × N)) (nodes : List N) (new : N)
    (hs : snapshot.Perm (runOps {} ops : BaseGraph N L).allTransitions) :
    let g : BaseGraph N L := runOps {} ops
    ∃ g', g.compact emp snapshot nodes new = .ok g' ∧
      (∀ s l d, g'.hasTransition s l d = true ↔
        (g.hasTransition s l d = true ∧ s ∉ nodes ∧ d ∉ nodes) ∨
        (l = emp ∧ s = new ∧ d ∉ nodes ∧ ∃ s₀ l₀, s₀ ∈ nodes ∧ g.hasTransition s₀ l₀ d = true) ∨
        (l = emp ∧ d = new ∧ s ∉ nodes ∧ ∃ d₀ l₀, d₀ ∈ nodes ∧ g.hasTransition s l₀ d₀ = true)) ∧
      (new ∉ nodes → ∀ s l d, g'.hasTransition s l d = true → s ∉ nodes ∧ d ∉ nodes) := by
  intro g
  have hw : WF g := runOps_wf ({} : BaseGraph N L) wf_empty ops
  have hmem : ∀ u : N × L × N, u ∈ snapshot ↔ g.hasTransition u.1 u.2.1 u.2.2 = true := by
    rintro ⟨s, l, d⟩
    rw [hs.mem_iff]
    exact mem_all hw s l d
  obtain ⟨g', h1, _, h3⟩ := foldlM_compact emp nodes new snapshot [] g hw
    (by simpa using hs.nodup_iff.2 (nodup_all hw)) (fun u => by simp [hmem])
  have hspec : ∀ s l d, g'.hasTransition s l d = true ↔
        (g.hasTransition s l d = true ∧ s ∉ nodes ∧ d ∉ nodes) ∨
        (l = emp ∧ s = new ∧ d ∉ nodes ∧ ∃ s₀ l₀, s₀ ∈ nodes ∧ g.hasTransition s₀ l₀ d = true) ∨
        (l = emp ∧ d = new ∧ s ∉ nodes ∧ ∃ d₀ l₀, d₀ ∈ nodes ∧ g.hasTransition s l₀ d₀ = true) := by
    intro s l d
    rw [h3 (s, l, d)]
    simp only [List.nil_append, hmem]
    refine or_congr Iff.rfl ?_
    constructor
    · rintro ⟨⟨s₀, l₀, d₀⟩, ht, hx, he⟩
      simp only [contract, Prod.mk.injEq] at he ht hx
      obtain ⟨rfl, rfl, rfl⟩ := he
      by_cases a : s₀ ∈ nodes <;> by_cases b : d₀ ∈ nodes <;> simp [a, b] at hx ⊢
      · exact Or.inl ⟨s₀, a, l₀, ht⟩
      · exact Or.inr ⟨d₀, b, l₀, ht⟩
    · rintro (⟨rfl, rfl, hd, s₀, l₀, hs₀, ht⟩ | ⟨rfl, rfl, hd, d₀, l₀, hd₀, ht⟩)
      · exact ⟨(s₀, l₀, d), ht, by simp [hs₀, hd], by simp [contract, hs₀, hd]⟩
      · exact ⟨(s, l₀, d₀), ht, by simp [hd₀, hd], by simp [contract, hd₀, hd]⟩
  refine ⟨g', h1, hspec, ?_⟩
  intro hnew s l d h
  rcases (hspec s l d).1 h with ⟨_, h⟩ | ⟨_, rfl, hd, _⟩ | ⟨_, rfl, hd, _⟩
  · exact h
  · exact ⟨hnew, hd⟩
  · exact ⟨hd, hnew⟩

/-- **C06 (conjugate graphs).**  `ConjugateTaskGraph.compact` contracts the same way, and replaces `initial` and
`terminal` by the new node iff they were selected. -/
theorem C06_conj_compact (emp : L) (c : ConjGraph N L) (snapshot : List (N × L × N)) (nodes : List N) (new : N)
    (g' : BaseGraph N L) (h : c.toBaseGraph.compact emp snapshot nodes new = .ok g') :
    ∃ c', c.compact emp snapshot nodes new = .ok c' ∧ c'.toBaseGraph = g' ∧
      (c.initial ∈ nodes → c'.initial = new) ∧ (c.initial ∉ nodes → c'.initial = c.initial) ∧
      (c.terminal ∈ nodes → c'.terminal = new) ∧ (c.terminal ∉ nodes → c'.terminal = c.terminal) := by
  refine ⟨⟨g', if c.initial ∈ nodes then new else c.initial, if c.terminal ∈ nodes then new else c.terminal⟩,
    ?_, rfl, ?_, ?_, ?_, ?_⟩
  · rw [ConjGraph.compact, h]
    rfl
  all_goals
    intro hm
    simp [hm]

/-- Non-vacuity of C06: contracting `{1, 2}` to the existing node `2`. -/
example : ((runOps {} [GraphOp.add 0 'a' 1, .add 1 'b' 2, .add 2 'c' 3, .add 3 'd' 0] : BaseGraph Nat Char).compact
    ' ' [(3, 'd', 0), (2, 'c', 3), (0, 'a', 1), (1, 'b', 2)] [1, 2] 2).map allTransitions =
    .ok [(0, ' ', 2), (2, ' ', 3), (3, 'd', 0)] := by decide

end
end Verif
