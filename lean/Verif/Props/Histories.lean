import Verif.Props.Hierarchy
import Verif.Props.Conjugate

/-! Property C80 (task graphs made of histories, as in `samples/test_hierarchies.py`). -/

set_option linter.unusedSectionVars false
set_option linter.unusedSimpArgs false

namespace Verif
open Spec BaseGraph TaskGraph Hierarchy Chains

theorem pairs_get {E : Type} (f : Nat → E) (g : String → E) (z : E) : ∀ (l : List String) (k i : Nat),
    (((l.zipIdx k).flatMap (fun hi => [f hi.2, g hi.1]) ++ [z])[2 * i]? =
      if i < l.length then some (f (k + i)) else if i = l.length then some z else none) ∧
    ((l.zipIdx k).flatMap (fun hi => [f hi.2, g hi.1]) ++ [z])[2 * i + 1]? = (l[i]?).map g
  | [], k, i => by
      cases i with
      | zero => simp
      | succ i => simp [Nat.mul_succ]
  | x :: l, k, i => by
      cases i with
      | zero => simp
      | succ i =>
        obtain ⟨h1, h2⟩ := pairs_get f g z l (k + 1) i
        constructor
        · simp only [List.zipIdx_cons, List.flatMap_cons, List.cons_append, List.nil_append, Nat.mul_succ,
            List.getElem?_cons_succ, List.length_cons, Nat.add_lt_add_iff_right, Nat.add_right_cancel_iff]
          rw [h1]
          simp only [Nat.add_assoc, Nat.add_comm 1 i]
        · simp only [List.zipIdx_cons, List.flatMap_cons, List.cons_append, List.nil_append, Nat.mul_succ,
            List.getElem?_cons_succ]
          exact h2

/-- The state after some actions. -/
theorem historyPath_get (h : List String) (i : Nat) :
    ((historyPath h)[2 * i]? = if i ≤ h.length then some (.state (String.intercalate ":" (h.take i))) else none) ∧
    (historyPath h)[2 * i + 1]? = (h[i]?).map fun a => .action (.plain a) := by
  obtain ⟨h1, h2⟩ := pairs_get (E := Elem String Act) (fun i => .state (String.intercalate ":" (h.take i)))
    (fun a => .action (.plain a)) (.state (String.intercalate ":" h)) h 0 i
  refine ⟨?_, h2⟩
  unfold historyPath
  rw [h1, Nat.zero_add]
  rcases Nat.lt_trichotomy i h.length with hi | hi | hi
  · rw [if_pos hi, if_pos hi.le]
  · subst hi; simp
  · rw [if_neg (by omega), if_neg (by omega), if_neg (by omega)]

theorem historyPath_length (h : List String) : (historyPath h).length = 2 * h.length + 1 := by
  have key : ∀ (l : List String) (k : Nat), ((l.zipIdx k).flatMap (fun hi =>
      [Elem.state (String.intercalate ":" (h.take hi.2)), Elem.action (Act.plain hi.1)])).length = 2 * l.length := by
    intro l
    induction l with
    | nil => intro k; simp
    | cons x l ih => intro k; simp only [List.zipIdx_cons, List.flatMap_cons, List.length_append, ih]; simp; omega
  unfold historyPath
  rw [List.length_append, key]
  rfl

theorem historyPath_step (h : List String) (s : String) (a : Act) (s' : String) :
    StepOf (historyPath h) s a s' ↔ ∃ (i : Nat) (n : String), h[i]? = some n ∧ a = .plain n ∧
      s = String.intercalate ":" (h.take i) ∧ s' = String.intercalate ":" (h.take (i + 1)) := by
  constructor
  · rintro ⟨j, hj, h1, h2, h3⟩
    obtain ⟨i, rfl⟩ : ∃ i, j = 2 * i := ⟨j / 2, by omega⟩
    rw [(historyPath_get h i).1] at h1
    rw [(historyPath_get h i).2] at h2
    rw [show 2 * i + 2 = 2 * (i + 1) by omega, (historyPath_get h (i + 1)).1] at h3
    split_ifs at h1 h3 with c1 c2
    · cases hn : h[i]? with
      | none => rw [hn] at h2; cases h2
      | some n =>
        rw [hn] at h2
        simp only [Option.map_some, Option.some.injEq, Elem.action.injEq] at h2
        simp only [Option.some.injEq, Elem.state.injEq] at h1 h3
        exact ⟨i, n, hn, h2.symm, h1.symm, h3.symm⟩
  · rintro ⟨i, n, hn, rfl, rfl, rfl⟩
    obtain ⟨hi, _⟩ := List.getElem?_eq_some_iff.1 hn
    refine ⟨2 * i, by omega, ?_, ?_, ?_⟩
    · rw [(historyPath_get h i).1, if_pos hi.le]
    · rw [(historyPath_get h i).2, hn]; rfl
    · rw [show 2 * i + 2 = 2 * (i + 1) by omega, (historyPath_get h (i + 1)).1, if_pos (by omega)]

theorem historyPath_isPath (h : List String) : IsPath (fun _ _ _ => true) (historyPath h) := by
  right
  have hl := historyPath_length h
  refine ⟨by omega, ?_, ?_, fun _ _ _ _ _ _ _ _ => rfl⟩
  · intro j hj h2
    obtain ⟨i, rfl⟩ : ∃ i, j = 2 * i := ⟨j / 2, by omega⟩
    exact ⟨_, by rw [(historyPath_get h i).1, if_pos (by omega)]⟩
  · intro j hj h2
    obtain ⟨i, rfl⟩ : ∃ i, j = 2 * i + 1 := ⟨j / 2, by omega⟩
    have hi : i < h.length := by omega
    exact ⟨.plain h[i], by rw [(historyPath_get h i).2, List.getElem?_eq_getElem hi]; rfl⟩

theorem intercalate_concat (l : List String) (x : String) : String.intercalate ":" (l ++ [x]) =
    if l = [] then x else String.intercalate ":" l ++ ":" ++ x := by
  induction l with
  | nil => rfl
  | cons y l ih =>
    cases l with
    | nil => rfl
    | cons z l =>
      have e : (y :: z :: l) ++ [x] = y :: z :: (l ++ [x]) := rfl
      rw [if_neg (by simp)] at ih
      rw [if_neg (by simp), e, String.intercalate_cons_cons, String.intercalate_cons_cons]
      have e' : z :: (l ++ [x]) = (z :: l) ++ [x] := rfl
      rw [e', ih]
      simp only [String.append_assoc]

theorem intercalate_ne_empty (l : List String) (hl : l ≠ []) (h : ∀ x ∈ l, x ≠ "") : String.intercalate ":" l ≠ "" := by
  rcases List.eq_nil_or_concat l with rfl | ⟨l', x, rfl⟩
  · exact absurd rfl hl
  · rw [List.concat_eq_append] at h ⊢
    rw [intercalate_concat]
    split_ifs
    · exact h x (by simp)
    · intro he
      have := congrArg String.length he
      simp only [String.length_append] at this
      have h1 : (":" : String).length = 1 := rfl
      have h2 : ("" : String).length = 0 := rfl
      omega

/-- **C80 (histories).**  Histories whose names are neither empty nor reserved always give a task graph whose conjugate
can be computed and that meets the hypotheses of the extraction: every path is accepted, and no state has two
successors for one action.  The transitions of the graph are the steps of the histories. -/
theorem C80_histories (hs : List (List String)) (hne : ∀ h ∈ hs, h ≠ [])
    (hnames : ∀ h ∈ hs, ∀ n ∈ h, n ≠ "" ∧ n ≠ "initial" ∧ n ≠ "terminal") (ordS : List String → List String)
    (ordT : List (Act × String) → List (Act × String)) (hS : ∀ l, (ordS l).Perm l) (hT : ∀ l, (ordT l).Perm l) :
    (∀ h ∈ hs, IsPath (fun _ _ _ => true) (historyPath h)) ∧
    PlainActions (fun _ _ _ => true) (hs.map historyPath) ∧
    (∀ s a s', (addAll (fun _ _ _ => true) (hs.map historyPath)).hasTransition s a s' = true ↔
      ∃ h ∈ hs, ∃ (pre : List String) (n : String), (pre ++ [n]).IsPrefix h ∧ a = .plain n ∧
        s = String.intercalate ":" pre ∧ s' = String.intercalate ":" (pre ++ [n])) ∧
    ∃ c0, conjGraph ordS ordT (addAll (fun _ _ _ => true) (hs.map historyPath)) = .ok c0 := by
  obtain ⟨hw, h1, h2, h3, h4⟩ := addAll_spec (fun _ _ _ => true) (hs.map historyPath)
  have hstep : ∀ h : List String, ∀ s a s', StepOf (historyPath h) s a s' ↔
      ∃ (pre : List String) (n : String), (pre ++ [n]).IsPrefix h ∧ a = Act.plain n ∧
        s = String.intercalate ":" pre ∧ s' = String.intercalate ":" (pre ++ [n]) := by
    intro h s a s'
    rw [historyPath_step]
    constructor
    · rintro ⟨i, n, hn, ha, hs1, hs2⟩
      refine ⟨h.take i, n, ?_, ha, hs1, ?_⟩
      · have : h.take i ++ [n] = h.take (i + 1) := by rw [List.take_add_one, hn]; rfl
        rw [this]
        exact List.take_prefix _ _
      · rw [hs2, List.take_add_one, hn]; rfl
    · rintro ⟨pre, n, ⟨t, rfl⟩, ha, hs1, hs2⟩
      refine ⟨pre.length, n, by simp, ha, by simp [hs1], ?_⟩
      rw [hs2]
      congr 1
      rw [List.take_append_of_le_length (by simp)]
      simp
  have htr : ∀ s a s', (addAll (fun _ _ _ => true) (hs.map historyPath)).hasTransition s a s' = true ↔
      ∃ h ∈ hs, ∃ (pre : List String) (n : String), (pre ++ [n]).IsPrefix h ∧ a = .plain n ∧
        s = String.intercalate ":" pre ∧ s' = String.intercalate ":" (pre ++ [n]) := by
    intro s a s'
    rw [h3]
    constructor
    · rintro ⟨p, hp, _, hst⟩
      obtain ⟨h, hh, rfl⟩ := List.mem_map.1 hp
      exact ⟨h, hh, (hstep h s a s').1 hst⟩
    · rintro ⟨h, hh, hst⟩
      exact ⟨_, List.mem_map_of_mem hh, historyPath_isPath h, (hstep h s a s').2 hst⟩
  refine ⟨fun h _ => historyPath_isPath h, ?_, htr, ?_⟩
  · intro p hp _ s a s' hst
    obtain ⟨h, hh, rfl⟩ := List.mem_map.1 hp
    obtain ⟨pre, n, hpre, ha, _⟩ := (hstep h s a s').1 hst
    have := hnames h hh n (hpre.subset (by simp))
    exact ⟨n, ha, this.2.1, this.2.2⟩
  · have hdet : ∀ s a s₁ s₂, (addAll (fun _ _ _ => true) (hs.map historyPath)).hasTransition s a s₁ = true →
        (addAll (fun _ _ _ => true) (hs.map historyPath)).hasTransition s a s₂ = true → s₁ = s₂ := by
      have key : ∀ s a s', (addAll (fun _ _ _ => true) (hs.map historyPath)).hasTransition s a s' = true →
          ∃ n, a = Act.plain n ∧ s' = if s = "" then n else s ++ ":" ++ n := by
        intro s a s' h
        obtain ⟨h, hh, pre, n, hpre, ha, hs1, hs2⟩ := (htr s a s').1 h
        refine ⟨n, ha, ?_⟩
        rw [hs2, intercalate_concat, hs1]
        by_cases hp : pre = []
        · subst hp; rfl
        · rw [if_neg hp, if_neg]
          exact intercalate_ne_empty pre hp fun x hx => (hnames h hh x (hpre.subset (by simp [hx]))).1
      intro s a s₁ s₂ ha hb
      obtain ⟨n, hn, e1⟩ := key _ _ _ ha
      obtain ⟨n', hn', e2⟩ := key _ _ _ hb
      rw [hn] at hn'
      cases hn'
      rw [e1, e2]
    rcases conjugate_spec ordS ordT hS hT initialAct terminalAct _ hw with ⟨⟨s, a, s₁, s₂, hne', ha, hb⟩, _⟩ | ⟨_, hk, _⟩ | ⟨_, _, c, hc, _⟩
    · exact absurd (hdet s a s₁ s₂ ha hb) hne'
    · exfalso
      obtain ⟨s, hs', _⟩ := (C07_addPath ordS ordT hS hT initialAct terminalAct (fun _ _ _ => true) _ hdet).1 hk
      obtain ⟨h, hh, he⟩ := List.mem_map.1 hs'
      have hl := historyPath_length h
      rw [he] at hl
      have : h.length = 0 := by simp only [List.length_cons, List.length_nil] at hl; omega
      exact hne h hh (List.length_eq_zero_iff.1 this)
    · exact ⟨⟨c, initialAct, terminalAct⟩, by simp only [conjGraph, hc, bind, Except.bind, pure, Except.pure]⟩

/-- The names must not be empty: the histories `a` and `:a` (the split of the latter is `["", "a"]`) lead from the state
`""` by the action `a` to two states, and `conjugate` refuses the graph. -/
theorem C80_histories_empty : conjGraph id id (addAll (fun _ _ _ => true) ([["a"], ["", "a"]].map historyPath)) =
    .error .valueError := by
  decide +kernel

/-- Non-vacuity of `C80_histories`: the histories of the script. -/
example : sampleHistories = [["b1", "b2", "b3", "c1", "c2"], ["c1", "c2", "b1", "b2", "b3"]].map historyPath ∧
    ∀ h ∈ [["b1", "b2", "b3", "c1", "c2"], ["c1", "c2", "b1", "b2", "b3"]], ∀ n ∈ h,
      n ≠ "" ∧ n ≠ "initial" ∧ n ≠ "terminal" := ⟨rfl, by decide⟩

end Verif
