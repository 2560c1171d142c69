import Verif.Proof.Hierarchy

/-! The invariant of the extraction of hierarchies holds of the conjugate of a graph made of paths. -/

set_option linter.unusedSectionVars false
set_option linter.unusedSimpArgs false

namespace Verif.Hierarchy
open Verif Verif.Spec BaseGraph TaskGraph Chains
variable {S : Type} [DecidableEq S]

theorem wf_foldl {N L X : Type} [DecidableEq N] [DecidableEq L] (f : X → N × L × N) (xs : List X) (c : BaseGraph N L)
    (h : WF c) : WF (xs.foldl (fun c x => c.addTransition (f x).1 (f x).2.1 (f x).2.2) c) := by
  induction xs generalizing c with
  | nil => exact h
  | cons x xs ih => exact ih _ (wf_add h _ _ _)

theorem wf_foldlM {N L X : Type} (f : BaseGraph N L → X → Py (BaseGraph N L))
    (hf : ∀ c x c', WF c → f c x = .ok c' → WF c') (xs : List X) (c c' : BaseGraph N L) (h : WF c)
    (hx : xs.foldlM f c = .ok c') : WF c' := by
  induction xs generalizing c with
  | nil => exact Except.ok.inj hx ▸ h
  | cons x xs ih =>
    rw [List.foldlM_cons] at hx
    rcases hy : f c x with e | c1
    · rw [hy] at hx; cases hx
    · rw [hy] at hx
      exact ih c1 (hf _ _ _ h hy) hx

variable {A : Type} [DecidableEq A]

theorem wf_conjugate (ordS : List S → List S) (ordT : List (A × S) → List (A × S)) (ini ter : A) (g : TaskGraph S A)
    (c : BaseGraph A S) (h : g.conjugate ordS ordT ini ter = .ok c) : WF c := by
  unfold TaskGraph.conjugate at h
  rcases h1 : g.checkDeterministic ordT with e | u
  · rw [h1] at h; cases h
  · rcases h2 : (ordS g.initial).foldlM (conjInitial ordT ini g) {} with e | c1
    · simp only [h1, h2, bind, Except.bind] at h; cases h
    · simp only [h1, h2, bind, Except.bind] at h
      have w1 : WF c1 := by
        refine wf_foldlM _ ?_ _ _ _ wf_empty h2
        intro c x c' hc hx
        unfold conjInitial at hx
        split at hx
        · cases hx
        · exact Except.ok.inj hx ▸ wf_foldl (fun as : A × S => (ini, x, as.1)) _ _ hc
      refine wf_foldlM _ ?_ _ _ _ w1 h
      intro c kv c' hc hx
      refine wf_foldlM _ ?_ _ _ _ hc hx
      intro c as c' hc hx
      unfold conjStep at hx
      split at hx
      · exact Except.ok.inj hx ▸ wf_add hc _ _ _
      · split at hx
        · cases hx
        · exact Except.ok.inj hx ▸ wf_foldl (fun as' : A × S => (as.1, as.2, as'.1)) _ _ hc

section base
variable {chk : Act → S → S → Bool} {ps : List (List (Elem S Act))} {ordS : List S → List S}
  {ordT : List (Act × S) → List (Act × S)} {c : ConjGraph Act S}

theorem conj_facts (hS : ∀ l, (ordS l).Perm l) (hT : ∀ l, (ordT l).Perm l)
    (hc : conjGraph ordS ordT (addAll chk ps) = .ok c) :
    WF c.toBaseGraph ∧ c.initial = initialAct ∧ c.terminal = terminalAct ∧
    ∀ u l v, c.hasTransition u l v = true ↔ ConjSpec initialAct terminalAct (addAll chk ps) u l v := by
  unfold conjGraph at hc
  rcases conjugate_spec ordS ordT hS hT initialAct terminalAct (addAll chk ps) (addAll_spec chk ps).1 with
    ⟨_, h⟩ | ⟨_, h, _⟩ | ⟨_, _, b, h, h'⟩
  · rw [h] at hc; cases hc
  · rw [h] at hc; cases hc
  · rw [h] at hc
    have := Except.ok.inj hc
    subst this
    exact ⟨wf_conjugate _ _ _ _ _ _ h, rfl, rfl, h'⟩

/-- Every action of a path leads to the end. -/
theorem action_reaches (hsp : ∀ u l v, c.hasTransition u l v = true ↔
      ConjSpec initialAct terminalAct (addAll chk ps) u l v) {s : S} {a : Act} {s' : S}
    (h : (addAll chk ps).hasTransition s a s' = true) : Reachable c.toBaseGraph a terminalAct := by
  obtain ⟨_, _, _, h3, _⟩ := addAll_spec chk ps
  obtain ⟨p, hp, hv, i, hi, e0, e1, e2⟩ := (h3 s a s').1 h
  have key : ∀ k i s a s', i % 2 = 0 → p[i]? = some (.state s) → p[i + 1]? = some (.action a) →
      p[i + 2]? = some (.state s') → p.length - i = k → Reachable c.toBaseGraph a terminalAct := by
    intro k
    induction k using Nat.strong_induction_on with
    | _ k ih =>
      intro i s a s' hi e0 e1 e2 hk
      have ht : (addAll chk ps).hasTransition s a s' = true := (h3 _ _ _).2 ⟨p, hp, hv, i, hi, e0, e1, e2⟩
      have hlt : i + 2 < p.length := (List.getElem?_eq_some_iff.1 e2).1
      by_cases hterm : s' ∈ (addAll chk ps).terminal
      · exact .tail .refl ⟨s', (hsp _ _ _).2 (Or.inr (Or.inr ⟨rfl, hterm, s, ht⟩))⟩
      · rcases hv with rfl | ⟨hl, he, ho, _⟩
        · simp at e0
        · by_cases hend : i + 3 = p.length
          · exfalso
            refine hterm (((addAll_spec chk ps).2.2.1 s').2 ⟨p, hp, Or.inr ⟨hl, he, ho, by assumption⟩, ?_⟩)
            unfold Ends
            rw [List.getLast?_eq_getElem?, ← hend]
            exact e2
          · obtain ⟨a', ha'⟩ := ho (i + 3) (by omega) (by omega)
            obtain ⟨s'', hs''⟩ := he (i + 4) (by omega) (by omega)
            have hr := ih (p.length - (i + 2)) (by omega) (i + 2) s' a' s'' (by omega) e2 ha' hs'' rfl
            have ht' : (addAll chk ps).hasTransition s' a' s'' = true :=
              (h3 _ _ _).2 ⟨p, hp, Or.inr ⟨hl, he, ho, by assumption⟩, i + 2, by omega, e2, ha', hs''⟩
            exact Reachable.trans' (.tail .refl ⟨s', (hsp _ _ _).2 (Or.inr (Or.inl ⟨hterm, ⟨s, ht⟩, s'', ht'⟩))⟩) hr
  exact key _ i s a s' hi e0 e1 e2 rfl

theorem conj_reaches (hS : ∀ l, (ordS l).Perm l) (hT : ∀ l, (ordT l).Perm l)
    (hc : conjGraph ordS ordT (addAll chk ps) = .ok c) (hne : allNodes c.toBaseGraph.allTransitions ≠ []) :
    ∀ u ∈ nodesOf c, Reachable c.toBaseGraph u c.terminal := by
  obtain ⟨hw, hi, ht, hsp⟩ := conj_facts hS hT hc
  obtain ⟨_, h1, _, h3, _⟩ := addAll_spec chk ps
  have hex : ∃ s a s', (addAll chk ps).hasTransition s a s' = true := by
    obtain ⟨u, hu⟩ := List.exists_mem_of_ne_nil _ hne
    have key : ∀ u v, Edge c.toBaseGraph u v → ∃ s a s', (addAll chk ps).hasTransition s a s' = true := by
      rintro u v ⟨l, hl⟩
      rcases (hsp u l v).1 hl with ⟨_, _, s', h⟩ | ⟨_, _, s', h⟩ | ⟨_, _, s, h⟩
      · exact ⟨_, _, _, h⟩
      · exact ⟨_, _, _, h⟩
      · exact ⟨_, _, _, h⟩
    obtain ⟨v, h | h⟩ := (mem_nodeOrder hw (List.Perm.refl _) (List.Perm.refl _) u).1 hu
    · exact key _ _ h
    · exact key _ _ h
  have hini : Reachable c.toBaseGraph initialAct terminalAct := by
    obtain ⟨s, a, s', h⟩ := hex
    obtain ⟨p, hp, hv, i, hpar, e0, e1, e2⟩ := (h3 s a s').1 h
    have hv' := hv
    have hlt : i + 2 < p.length := (List.getElem?_eq_some_iff.1 e2).1
    rcases hv with rfl | ⟨hl, he, ho, _⟩
    · simp at e0
    · obtain ⟨s0, hs0⟩ := he 0 (by omega) rfl
      obtain ⟨a0, ha0⟩ := ho 1 (by omega) rfl
      obtain ⟨s1, hs1⟩ := he 2 (by omega) rfl
      have ht0 : (addAll chk ps).hasTransition s0 a0 s1 = true := (h3 _ _ _).2 ⟨p, hp, hv', 0, rfl, hs0, ha0, hs1⟩
      have hin : s0 ∈ (addAll chk ps).initial := by
        refine (h1 s0).2 ⟨p, hp, hv', ?_⟩
        unfold Starts
        rw [List.head?_eq_getElem?]
        exact hs0
      exact Reachable.trans' (.tail .refl ⟨s0, (hsp _ _ _).2 (Or.inl ⟨rfl, hin, s1, ht0⟩)⟩) (action_reaches hsp ht0)
  intro u hu
  rw [ht]
  rcases (mem_nodesOf hw u).1 hu with ⟨v, ⟨l, h⟩ | ⟨l, h⟩⟩ | rfl | rfl
  · rcases (hsp _ _ _).1 h with ⟨rfl, _⟩ | ⟨_, ⟨s, hs⟩, _⟩ | ⟨_, _, s, hs⟩
    · exact hini
    · exact action_reaches hsp hs
    · exact action_reaches hsp hs
  · rcases (hsp _ _ _).1 h with ⟨_, _, s, hs⟩ | ⟨_, _, s, hs⟩ | ⟨rfl, _⟩
    · exact action_reaches hsp hs
    · exact action_reaches hsp hs
    · exact .refl
  · rw [hi]; exact hini
  · rw [ht]; exact .refl

/-- The invariant holds at the start. -/
theorem conj_inv (hS : ∀ l, (ordS l).Perm l) (hT : ∀ l, (ordT l).Perm l) (hres : PlainActions chk ps)
    (hc : conjGraph ordS ordT (addAll chk ps) = .ok c) : HInv c (nodesOf c) c (nodesOf c) := by
  obtain ⟨hw, hi, ht, hsp⟩ := conj_facts hS hT hc
  obtain ⟨_, h1, _, h3, _⟩ := addAll_spec chk ps
  have hact : ∀ {s a s'}, (addAll chk ps).hasTransition s a s' = true →
      ∃ n, a = .plain n ∧ n ≠ "initial" ∧ n ≠ "terminal" := by
    intro s a s' h
    obtain ⟨p, hp, hv, hst⟩ := (h3 s a s').1 h
    exact hres p hp hv s a s' hst
  have hplain : ∀ u ∈ nodesOf c, ∃ n, u = .plain n := by
    intro u hu
    rcases (mem_nodesOf hw u).1 hu with ⟨v, ⟨l, h⟩ | ⟨l, h⟩⟩ | rfl | rfl
    · rcases (hsp _ _ _).1 h with ⟨rfl, _⟩ | ⟨_, ⟨s, hs⟩, _⟩ | ⟨_, _, s, hs⟩
      · exact ⟨_, rfl⟩
      · obtain ⟨n, hn, _⟩ := hact hs; exact ⟨n, hn⟩
      · obtain ⟨n, hn, _⟩ := hact hs; exact ⟨n, hn⟩
    · rcases (hsp _ _ _).1 h with ⟨_, _, s, hs⟩ | ⟨_, _, s, hs⟩ | ⟨rfl, _⟩
      · obtain ⟨n, hn, _⟩ := hact hs; exact ⟨n, hn⟩
      · obtain ⟨n, hn, _⟩ := hact hs; exact ⟨n, hn⟩
      · exact ⟨_, rfl⟩
    · rw [hi]; exact ⟨_, rfl⟩
    · rw [ht]; exact ⟨_, rfl⟩
  have hleaf : ∀ u ∈ nodesOf c, atomsOf u = [u] := by
    intro u hu
    obtain ⟨n, rfl⟩ := hplain u hu
    exact atomsOf_plain n
  have hdom : ∀ u v, Edge c.toBaseGraph u v → u ∈ nodesOf c ∧ v ∈ nodesOf c := fun u v h =>
    ⟨(mem_nodesOf hw u).2 (Or.inl ⟨v, Or.inl h⟩), (mem_nodesOf hw v).2 (Or.inl ⟨u, Or.inr h⟩)⟩
  have hiniM : c.initial ∈ nodesOf c := (mem_nodesOf hw _).2 (Or.inr (Or.inl rfl))
  have hterM : c.terminal ∈ nodesOf c := (mem_nodesOf hw _).2 (Or.inr (Or.inr rfl))
  have hnd : (nodesOf c).Nodup := nodup_setOf _
  refine ⟨hw, hnd, hnd, hplain, hdom, ?_, ?_, hiniM, hterM, ?_, ?_, ?_, ?_, ?_⟩
  · have : ∀ l : List Act, (∀ u ∈ l, atomsOf u = [u]) → l.flatMap atomsOf = l := by
      intro l
      induction l with
      | nil => intro _; rfl
      | cons a l ih =>
        intro h
        rw [List.flatMap_cons, h a (by simp), ih (fun u hu => h u (by simp [hu]))]
        rfl
    rw [this _ hleaf]
  · intro U V
    constructor
    · intro h
      obtain ⟨hU, hV⟩ := hdom _ _ h
      exact ⟨hU, hV, Or.inr hU, U, by rw [hleaf U hU]; simp, V, by rw [hleaf V hV]; simp, h⟩
    · rintro ⟨hU, hV, _, u, hu, v, hv, he⟩
      rw [hleaf U hU] at hu
      rw [hleaf V hV] at hv
      simp only [List.mem_singleton] at hu hv
      subst hu hv
      exact he
  · rw [hleaf _ hiniM]; simp
  · rw [hleaf _ hterM]; simp
  · intro U hU
    obtain ⟨n, rfl⟩ := hplain U hU
    exact .plain n
  · rintro V ⟨l, h⟩
    rw [ht] at h
    rcases (hsp _ _ _).1 h with ⟨e, _⟩ | ⟨_, ⟨s, hs⟩, _⟩ | ⟨_, _, s, hs⟩
    · simp [terminalAct, initialAct] at e
    · obtain ⟨n, hn, _, hn'⟩ := hact hs
      exact hn' (by simpa [terminalAct] using hn.symm)
    · obtain ⟨n, hn, _, hn'⟩ := hact hs
      exact hn' (by simpa [terminalAct] using hn.symm)
  · rintro U ⟨l, h⟩
    rw [hi] at h
    rcases (hsp _ _ _).1 h with ⟨_, _, s, hs⟩ | ⟨_, _, s, hs⟩ | ⟨e, _⟩
    · obtain ⟨n, hn, hn', _⟩ := hact hs
      exact hn' (by simpa [initialAct] using hn.symm)
    · obtain ⟨n, hn, hn', _⟩ := hact hs
      exact hn' (by simpa [initialAct] using hn.symm)
    · simp [terminalAct, initialAct] at e

end base

end Verif.Hierarchy
