import Verif.Spec.LostRunner
import Verif.Props.GraphPolicy

/-! Property C122: a runner of a policy after an unexpected observation. -/

set_option linter.unusedSectionVars false
set_option linter.unusedSimpArgs false

namespace Verif
open Verif.Spec

theorem indexOf_absent (l : List Name) (o : Name) (h : o ∉ l) : indexOf l o = .error .valueError := by
  unfold indexOf
  have : l.findIdx? (fun x => decide (x = o)) = none := by
    rw [List.findIdx?_eq_none_iff]
    intro x hx
    simp only [decide_eq_false_iff_not]
    rintro rfl
    exact h hx
  rw [this]

theorem row_run (g : GraphPolicy) (k : Nat) : ∀ os : List Name, (posRun g os (.row k)).2 = .row k ∧ ∀ (i : Nat) (o : Name), os[i]? = some o → ∃ x : Py Unit,
    (posRun g os (.row k)).1[i]? = some (x, .error .typeError) ∧ x = if o ∈ g.observations then .error .indexError else .error .valueError := by
  intro os
  induction os with
  | nil => exact ⟨rfl, by simp⟩
  | cons o os ih =>
      by_cases ho : o ∈ g.observations
      · obtain ⟨j, -, hj⟩ := firstAt_exists _ _ ho
        have hs : posStep g o (.row k) = (.error .indexError, .row k) := by
          simp only [posStep, indexOf_first _ _ _ hj]
        refine ⟨by simp only [posRun, hs]; exact ih.1, ?_⟩
        intro i o' hi
        cases i with
        | zero =>
            simp only [List.getElem?_cons_zero, Option.some.injEq] at hi
            subst hi
            exact ⟨.error .indexError, by simp only [posRun, hs, List.getElem?_cons_zero, posAction], by rw [if_pos ho]⟩
        | succ i =>
            obtain ⟨x, h1, h2⟩ := ih.2 i o' hi
            exact ⟨x, by simp only [posRun, hs, List.getElem?_cons_succ]; exact h1, h2⟩
      · have hs : posStep g o (.row k) = (.error .valueError, .row k) := by
          simp only [posStep, indexOf_absent _ _ ho]
        refine ⟨by simp only [posRun, hs]; exact ih.1, ?_⟩
        intro i o' hi
        cases i with
        | zero =>
            simp only [List.getElem?_cons_zero, Option.some.injEq] at hi
            subst hi
            exact ⟨.error .valueError, by simp only [posRun, hs, List.getElem?_cons_zero, posAction], by rw [if_neg ho]⟩
        | succ i =>
            obtain ⟨x, h1, h2⟩ := ih.2 i o' hi
            exact ⟨x, by simp only [posRun, hs, List.getElem?_cons_succ]; exact h1, h2⟩

theorem lost_run (g : GraphPolicy) (hl : g.transitions.length = g.actions.length) : ∀ (os : List Name) (i : Nat) (o : Name), os[i]? = some o → ∃ x : Py Unit,
    (posRun g os .lost).1[i]? = some (x, .error .typeError) ∧ AfterLost g os i o x := by
  intro os
  induction os with
  | nil => intro i o h; simp at h
  | cons o os ih =>
      intro i o' hi
      by_cases hsil : Silent g o
      · obtain ⟨j, hj, hjn⟩ := hsil
        have hs : posStep g o .lost = (.ok (), .row j) := by
          simp only [posStep, indexOf_first _ _ _ hj]
          rw [if_pos (by omega)]
        cases i with
        | zero =>
            simp only [List.getElem?_cons_zero, Option.some.injEq] at hi
            subst hi
            refine ⟨.ok (), by simp only [posRun, hs, List.getElem?_cons_zero, posAction], ?_⟩
            unfold AfterLost
            rw [if_neg (by simp only [not_not]; exact List.mem_of_getElem? hj.1)]
            exact .inl ⟨rfl, ⟨j, hj, hjn⟩, fun i' h => absurd h (Nat.not_lt_zero _)⟩
        | succ i =>
            obtain ⟨x, h1, h2⟩ := (row_run g j os).2 i o' hi
            refine ⟨x, by simp only [posRun, hs, List.getElem?_cons_succ]; exact h1, ?_⟩
            unfold AfterLost
            by_cases ho : o' ∈ g.observations
            · rw [if_neg (by simpa using ho)]
              rw [if_pos ho] at h2
              exact .inr ⟨h2, fun h => h.2 0 (by omega) o rfl ⟨j, hj, hjn⟩⟩
            · rw [if_pos ho]
              rw [if_neg ho] at h2
              exact h2
      · have hs : ∃ e, posStep g o .lost = (.error e, .lost) ∧ e = if o ∈ g.observations then .indexError else .valueError := by
          by_cases ho : o ∈ g.observations
          · obtain ⟨j, -, hj⟩ := firstAt_exists _ _ ho
            refine ⟨.indexError, ?_, by rw [if_pos ho]⟩
            simp only [posStep, indexOf_first _ _ _ hj]
            rw [if_neg (fun h => hsil ⟨j, hj, by omega⟩)]
          · exact ⟨.valueError, by simp only [posStep, indexOf_absent _ _ ho], by rw [if_neg ho]⟩
        obtain ⟨e, hs, he⟩ := hs
        cases i with
        | zero =>
            simp only [List.getElem?_cons_zero, Option.some.injEq] at hi
            subst hi
            refine ⟨.error e, by simp only [posRun, hs, List.getElem?_cons_zero, posAction], ?_⟩
            unfold AfterLost
            by_cases ho : o ∈ g.observations
            · rw [if_neg (by simpa using ho)]
              rw [if_pos ho] at he
              exact .inr ⟨by rw [he], fun h => hsil h.1⟩
            · rw [if_pos ho]
              rw [if_neg ho] at he
              rw [he]
        | succ i =>
            obtain ⟨x, h1, h2⟩ := ih i o' hi
            refine ⟨x, by simp only [posRun, hs, List.getElem?_cons_succ]; exact h1, ?_⟩
            have hiff : (∀ i' < i + 1, ∀ o', (o :: os)[i']? = some o' → ¬ Silent g o') ↔ (∀ i' < i, ∀ o', os[i']? = some o' → ¬ Silent g o') := by
              constructor
              · intro h i' hi' o1 h1
                exact h (i' + 1) (by omega) o1 (by simpa using h1)
              · intro h i' hi' o1 h1
                cases i' with
                | zero =>
                    simp only [List.getElem?_cons_zero, Option.some.injEq] at h1
                    subst h1
                    exact hsil
                | succ i' => exact h i' (by omega) o1 (by simpa using h1)
            unfold AfterLost at h2 ⊢
            rw [hiff]
            exact h2

/-- **C122.**  After an unexpected observation, whatever observations follow, `get_action` raises `TypeError` until the runner is reset.  The steps raise
`ValueError` for unknown observations and `IndexError` for the others, but for the first one whose position among the observations is less than the
number of nodes: this one is taken without any exception. -/
theorem C122_partial (as os : List Name) (ts : List (List (Option Int))) (vs : List (List ℚ)) (start : Option (List ℚ)) (init : Option Int)
    (g : GraphPolicy) (h : mkGraphPolicy as os ts vs start init = .ok g) (c : Int) (o : Name) (r : RunPos)
    (hlost : posStep g o (.node c) = (.error .impossible, r)) (obs : List Name) :
    posAction g r = .error .typeError ∧ ∀ (i : Nat) o', obs[i]? = some o' → ∃ x, (posRun g obs r).1[i]? = some (x, .error .typeError) ∧ AfterLost g obs i o' x := by
  obtain ⟨⟨c1, -, -⟩, k1, -, k3, -, -⟩ := mkGraphPolicy_ok _ _ _ _ _ _ _ h
  have hr : r = .lost := by
    have hst := C44_stopped g c o
    simp only [posStep] at hlost
    split at hlost
    · rename_i e he
      obtain ⟨rfl⟩ : e = .impossible := by cases hlost; rfl
      have := hst (some c) .impossible (by simp only [runnerStep, he])
      simp at this
    · cases hlost; rfl
    · cases hlost
  subst hr
  exact ⟨rfl, lost_run g (by rw [k1, k3]; exact c1) obs⟩

/-- **C122 is false of the code**, for every policy: after an unexpected observation the runner takes the first of the observations of the policy
without any exception, although it has no current node. -/
theorem C122_false_silent (as os : List Name) (ts : List (List (Option Int))) (vs : List (List ℚ)) (start : Option (List ℚ)) (init : Option Int)
    (g : GraphPolicy) (h : mkGraphPolicy as os ts vs start init = .ok g) (o : Name) (ho : os.head? = some o) :
    ∃ r, posStep g o .lost = (.ok (), r) ∧ posAction g r = .error .typeError := by
  obtain ⟨⟨c1, c2, -⟩, k1, k2, k3, -, -⟩ := mkGraphPolicy_ok _ _ _ _ _ _ _ h
  have hf : FirstAt g.observations o 0 := by
    rw [k2]
    refine ⟨by rw [← List.head?_eq_getElem?]; exact ho, fun i hi => absurd hi (Nat.not_lt_zero _)⟩
  refine ⟨.row 0, ?_, rfl⟩
  simp only [posStep, indexOf_first _ _ _ hf]
  rw [if_pos]
  rw [k3]
  exact List.length_pos_iff.2 c2

/-- **C122 (reset).**  A reset gives a runner its first node, or the first node of the best value for the belief, whatever happened before; before an
unexpected observation the runner is the one of C44. -/
theorem C122_reset (g : GraphPolicy) (r : RunPos) :
    posReset g none r = (.ok (), .node g.init) ∧
    (∀ b, g.values ≠ [] → (∀ v ∈ g.values, v.length = b.length) → ∃ k, posReset g (some b) r = (.ok (), .node (k : Nat)) ∧ BestNode g.values b k) ∧
    ∀ c o, posStep g o (.node c) = ((runnerStep g c o).2, match (runnerStep g c o).1 with | none => .lost | some c' => .node c') := by
  refine ⟨rfl, ?_, ?_⟩
  · intro b hv hlen
    obtain ⟨k, hk, hb, -⟩ := C44_best g.values b hv hlen
    exact ⟨k, by simp only [posReset, hk], hb⟩
  · intro c o
    simp only [posStep, runnerStep]
    split <;> simp_all

/-! ### The hypotheses hold -/

/-- A policy in which one observation is not expected: then `Impossible`, no exception for the same observation again, and then `IndexError`. -/
example : ∃ g, mkGraphPolicy [.str "listen"] [.int 0, .int 1] [[some 0, none]] [[1, 1]] none (some 0) = .ok g ∧
    posRun g [.int 0, .int 1, .int 1, .int 0, .int 0, .str "noise"] (.node 0) = ([(.ok (), .ok (.str "listen")), (.error .impossible, .error .typeError),
      (.error .indexError, .error .typeError), (.ok (), .error .typeError), (.error .indexError, .error .typeError),
      (.error .valueError, .error .typeError)], .row 0) := by
  refine ⟨⟨[.str "listen"], [.int 0, .int 1], [[some 0, none]], [[1, 1]], 0⟩, by decide +kernel, by decide +kernel⟩

end Verif
