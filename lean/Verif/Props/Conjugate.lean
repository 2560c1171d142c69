import Verif.Props.TaskGraph
import Verif.Proof.Conjugate

/-! Properties C07 and C08 (conjugate graphs). -/

set_option linter.unusedSectionVars false
set_option linter.unusedSimpArgs false

namespace Verif
open Spec BaseGraph TaskGraph
variable {S A : Type} [DecidableEq S] [DecidableEq A]

theorem keys_runOps (ops : List (GraphOp S A)) (s : S) :
    s ∈ (runOps {} ops : BaseGraph S A).transitions.map Prod.fst ↔ ∃ a d, GraphOp.add s a d ∈ ops := by
  induction ops using List.reverseRecOn with
  | nil => simp [runOps]
  | append_singleton ops op ih =>
    have : runOps {} (ops ++ [op]) = runOp (runOps {} ops : BaseGraph S A) op := by simp [runOps]
    rw [this]
    cases op with
    | add s' a d =>
      simp only [runOp, addTransition, mem_keys_dset, ih, List.mem_append, List.mem_singleton, GraphOp.add.injEq]
      constructor
      · rintro (⟨a', d', h⟩ | rfl)
        · exact ⟨a', d', Or.inl h⟩
        · exact ⟨a, d, Or.inr ⟨rfl, rfl, rfl⟩⟩
      · rintro ⟨a', d', h | ⟨rfl, rfl, rfl⟩⟩
        · exact Or.inl ⟨a', d', h⟩
        · exact Or.inr rfl
    | remove s' a d =>
      have hk : s ∈ (caught ((runOps {} ops : BaseGraph S A).removeTransition s' a d) (runOps {} ops)).transitions.map
          Prod.fst ↔ s ∈ (runOps {} ops : BaseGraph S A).transitions.map Prod.fst := by
        unfold removeTransition
        rcases hg : dget (runOps {} ops : BaseGraph S A).transitions s' with _ | out
        · simp [caught]
        · by_cases hm : (a, d) ∈ out
          · simp only [hm, if_true, caught, mem_keys_dset]
            constructor
            · rintro (h | rfl)
              · exact h
              · exact List.mem_map.2 ⟨_, dget_mem hg, rfl⟩
            · exact Or.inl
          · simp [hm, caught]
      rw [runOp, hk, ih]
      simp

/-- **C07.**  For every task graph reachable by transition operations, with any sets of initial and terminal states and
for every iteration order: `conjugate()` raises `ValueError` iff some state has two transitions with the same action and
different destinations. -/
theorem C07_valueError (ordS : List S → List S) (ordT : List (A × S) → List (A × S)) (hS : ∀ l, (ordS l).Perm l)
    (hT : ∀ l, (ordT l).Perm l) (ini ter : A) (g : TaskGraph S A) (ops : List (GraphOp S A))
    (hg : g.toBaseGraph = runOps {} ops) :
    g.conjugate ordS ordT ini ter = .error .valueError ↔
      ∃ s a s₁ s₂, s₁ ≠ s₂ ∧ g.hasTransition s a s₁ = true ∧ g.hasTransition s a s₂ = true := by
  have hw : WF g.toBaseGraph := hg ▸ runOps_wf _ wf_empty ops
  rcases conjugate_spec ordS ordT hS hT ini ter g hw with ⟨h1, h2⟩ | ⟨h1, h2, _⟩ | ⟨h1, _, c, h2, _⟩
  · exact ⟨fun _ => h1, fun _ => h2⟩
  · exact ⟨fun h => (by rw [h2] at h; cases h), fun h => absurd h h1⟩
  · exact ⟨fun h => (by rw [h2] at h; cases h), fun h => absurd h h1⟩

/-- **C07.**  On a deterministic graph, `conjugate()` raises `KeyError` iff an initial state, or the non-terminal
destination of a transition, never had an outgoing transition added. -/
theorem C07_keyError (ordS : List S → List S) (ordT : List (A × S) → List (A × S)) (hS : ∀ l, (ordS l).Perm l)
    (hT : ∀ l, (ordT l).Perm l) (ini ter : A) (g : TaskGraph S A) (ops : List (GraphOp S A))
    (hg : g.toBaseGraph = runOps {} ops)
    (hdet : ∀ s a s₁ s₂, g.hasTransition s a s₁ = true → g.hasTransition s a s₂ = true → s₁ = s₂) :
    g.conjugate ordS ordT ini ter = .error .keyError ↔
      (∃ s ∈ g.initial, ¬ ∃ a d, GraphOp.add s a d ∈ ops) ∨
      (∃ s a s', g.hasTransition s a s' = true ∧ s' ∉ g.terminal ∧ ¬ ∃ a d, GraphOp.add s' a d ∈ ops) := by
  have hw : WF g.toBaseGraph := hg ▸ runOps_wf _ wf_empty ops
  have hk : ∀ s, s ∈ g.transitions.map Prod.fst ↔ ∃ a d, GraphOp.add s a d ∈ ops := by
    intro s
    rw [hg]
    exact keys_runOps ops s
  simp only [← hk]
  rcases conjugate_spec ordS ordT hS hT ini ter g hw with ⟨⟨s, a, s₁, s₂, hne, ha, hb⟩, _⟩ | ⟨_, h2, h3⟩ | ⟨_, h3, c, h2, _⟩
  · exact absurd (hdet s a s₁ s₂ ha hb) hne
  · exact ⟨fun _ => h3, fun _ => h2⟩
  · exact ⟨fun h => (by rw [h2] at h; cases h), fun h => absurd h h3⟩

/-- **C07.**  Otherwise `conjugate()` returns a graph, and its transitions are exactly
`initial --s--> a` for `s` initial with a transition `(s, a, _)`; `a --s'--> a'` for `(_, a, s')` with `s'` not terminal
and `(s', a', _)`; and `a --s'--> terminal` for `(_, a, s')` with `s'` terminal. -/
theorem C07_transitions (ordS : List S → List S) (ordT : List (A × S) → List (A × S)) (hS : ∀ l, (ordS l).Perm l)
    (hT : ∀ l, (ordT l).Perm l) (ini ter : A) (g : TaskGraph S A) (ops : List (GraphOp S A))
    (hg : g.toBaseGraph = runOps {} ops)
    (h1 : g.conjugate ordS ordT ini ter ≠ .error .valueError) (h2 : g.conjugate ordS ordT ini ter ≠ .error .keyError) :
    ∃ c, g.conjugate ordS ordT ini ter = .ok c ∧ ∀ u l v, c.hasTransition u l v = true ↔
      (u = ini ∧ l ∈ g.initial ∧ ∃ s', g.hasTransition l v s' = true) ∨
      (l ∉ g.terminal ∧ (∃ s, g.hasTransition s u l = true) ∧ ∃ s', g.hasTransition l v s' = true) ∨
      (v = ter ∧ l ∈ g.terminal ∧ ∃ s, g.hasTransition s u l = true) := by
  have hw : WF g.toBaseGraph := hg ▸ runOps_wf _ wf_empty ops
  rcases conjugate_spec ordS ordT hS hT ini ter g hw with ⟨_, h⟩ | ⟨_, h, _⟩ | ⟨_, _, c, h, h'⟩
  · exact absurd h h1
  · exact absurd h h2
  · exact ⟨c, h, h'⟩

theorem lastElem_step {chk : A → S → S → Bool} (p : List (Elem S A)) (hp : checkPath chk p = true) (s : S) (a : A)
    (s' : S) (h : StepOf p s a s') : Ends p s' ∨ ∃ a' s'', StepOf p s' a' s'' := by
  obtain ⟨i, hi, h0, h1, h2⟩ := h
  rcases (C01_checkPath chk p).1 hp with rfl | ⟨hl, he, ho, _⟩
  · simp at h0
  · have hlt : i + 2 < p.length := by
      rcases List.getElem?_eq_some_iff.1 h2 with ⟨h, _⟩
      exact h
    by_cases hend : i + 3 = p.length
    · left
      unfold Ends
      rw [List.getLast?_eq_getElem?, ← hend]
      exact h2
    · right
      obtain ⟨a', ha'⟩ := ho (i + 3) (by omega) (by omega)
      obtain ⟨s'', hs''⟩ := he (i + 4) (by omega) (by omega)
      exact ⟨a', s'', i + 2, by omega, h2, ha', hs''⟩

theorem addAll_dest {chk : A → S → S → Bool} (ps : List (List (Elem S A))) (s : S) (a : A) (s' : S)
    (h : (addAll chk ps).hasTransition s a s' = true) :
    s' ∈ (addAll chk ps).terminal ∨ ∃ a' s'', (addAll chk ps).hasTransition s' a' s'' = true := by
  obtain ⟨_, h1, h2, h3, _⟩ := addAll_spec chk ps
  obtain ⟨p, hp, hv, hst⟩ := (h3 s a s').1 h
  rcases lastElem_step p ((C01_checkPath chk p).2 hv) s a s' hst with he | ⟨a', s'', hst'⟩
  · exact Or.inl ((h2 s').2 ⟨p, hp, hv, he⟩)
  · exact Or.inr ⟨a', s'', (h3 s' a' s'').2 ⟨p, hp, hv, hst'⟩⟩

/-- **C07.**  For graphs built by `add_path` alone, `KeyError` happens (on a deterministic graph) iff some added path
consists of a single state from which no added path has a step. -/
theorem C07_addPath (ordS : List S → List S) (ordT : List (A × S) → List (A × S)) (hS : ∀ l, (ordS l).Perm l)
    (hT : ∀ l, (ordT l).Perm l) (ini ter : A) (chk : A → S → S → Bool) (ps : List (List (Elem S A)))
    (hdet : ∀ s a s₁ s₂, (addAll chk ps).hasTransition s a s₁ = true → (addAll chk ps).hasTransition s a s₂ = true →
      s₁ = s₂) :
    (addAll chk ps).conjugate ordS ordT ini ter = .error .keyError ↔
      ∃ s, [.state s] ∈ ps ∧ ∀ p ∈ ps, IsPath chk p → ∀ a s', ¬ StepOf p s a s' := by
  obtain ⟨hw, h1, h2, h3, h4⟩ := addAll_spec chk ps
  have hinit : (∃ s ∈ (addAll chk ps).initial, s ∉ (addAll chk ps).transitions.map Prod.fst) ↔
      ∃ s, [.state s] ∈ ps ∧ ∀ p ∈ ps, IsPath chk p → ∀ a s', ¬ StepOf p s a s' := by
    constructor
    · rintro ⟨s, hs, hk⟩
      rw [h4] at hk
      obtain ⟨p, hp, hv, hst⟩ := (h1 s).1 hs
      have hno : ∀ p ∈ ps, IsPath chk p → ∀ a s', ¬ StepOf p s a s' :=
        fun q hq hqv a s' hstep => hk ⟨a, s', (h3 s a s').2 ⟨q, hq, hqv, hstep⟩⟩
      refine ⟨s, ?_, hno⟩
      have hp0 : p[0]? = some (.state s) := by
        rw [← List.head?_eq_getElem?]
        exact hst
      rcases hv' : hv with rfl | ⟨hl, he, ho, _⟩
      · simp at hp0
      · by_cases hlen : p.length = 1
        · obtain ⟨x, rfl⟩ := List.length_eq_one_iff.1 hlen
          simp at hp0
          rw [← hp0]
          exact hp
        · exfalso
          obtain ⟨a, ha⟩ := ho 1 (by omega) rfl
          obtain ⟨s', hs'⟩ := he 2 (by omega) rfl
          exact hno p hp hv a s' ⟨0, rfl, hp0, ha, hs'⟩
    · rintro ⟨s, hp, hno⟩
      have hv : IsPath chk [Elem.state s] := (C01_checkPath chk [.state s]).1 ((checkPath_one chk _).2 ⟨s, rfl⟩)
      refine ⟨s, (h1 s).2 ⟨_, hp, hv, rfl⟩, ?_⟩
      rw [h4]
      rintro ⟨a, s', h⟩
      obtain ⟨p, hp, hv, hst⟩ := (h3 s a s').1 h
      exact hno p hp hv a s' hst
  rw [← hinit]
  rcases conjugate_spec ordS ordT hS hT ini ter (addAll chk ps) hw with
    ⟨⟨s, a, s₁, s₂, hne, ha, hb⟩, _⟩ | ⟨_, hk, h | ⟨s, a, s', ha, hb, hc⟩⟩ | ⟨_, h, c, hk, _⟩
  · exact absurd (hdet s a s₁ s₂ ha hb) hne
  · exact ⟨fun _ => h, fun _ => hk⟩
  · exfalso
    rcases addAll_dest ps s a s' ha with h | h
    · exact hb h
    · exact hc ((h4 s').2 h)
  · exact ⟨fun h' => (by rw [hk] at h'; cases h'), fun h' => absurd (Or.inl h') h⟩

/-- Non-vacuity of C07: a conjugate, a non-deterministic graph, and a single-state demonstration. -/
example :
    ((addAll (fun _ _ _ => true) [[Elem.state 0, .action 1, .state 1, .action 2, .state 2]]).conjugate id id 100 200).map
      allTransitions = .ok [(100, 0, 1), (1, 1, 2), (2, 2, 200)] ∧
    ((addAll (fun _ _ _ => true) [[Elem.state 0, .action 1, .state 1], [Elem.state 0, .action 1, .state 2]]).conjugate
      id id 100 200).map allTransitions = .error .valueError ∧
    ((addAll (fun _ _ _ => true) [[Elem.state 0, .action 1, .state 1], [Elem.state 5]]).conjugate
      id id 100 200).map allTransitions = .error .keyError := by decide

/-! ### C08 -/

theorem head_mkPath (s0 : S) (steps : List (A × S)) : (mkPath s0 steps).head? = some (.state s0) := rfl

/-- Last state of a path given by its start and its (action, state) pairs. -/
def lastState (s0 : S) : List (A × S) → S
  | [] => s0
  | (_, s) :: rest => lastState s rest

theorem getLast_mkPath (s0 : S) (steps : List (A × S)) :
    (mkPath s0 steps).getLast? = some (.state (lastState s0 steps)) := by
  induction steps generalizing s0 with
  | nil => rfl
  | cons t steps ih =>
    have : mkPath s0 (t :: steps) = .state s0 :: .action t.1 :: mkPath t.2 steps := rfl
    rw [this, List.getLast?_cons_cons]
    have hne : mkPath t.2 steps ≠ [] := by simp [mkPath]
    rw [List.getLast?_cons_of_ne_nil hne, ih]
    rfl

theorem mkPath_cons (s0 : S) (t : A × S) (steps : List (A × S)) :
    mkPath s0 (t :: steps) = .state s0 :: .action t.1 :: mkPath t.2 steps := rfl

/-- Steps of a path given by its start and its (action, state) pairs. -/
def stepsFrom (s0 : S) : List (A × S) → List (S × A × S)
  | [] => []
  | (a, s) :: rest => (s0, a, s) :: stepsFrom s rest

theorem typedSteps_mkPath (s0 : S) (steps : List (A × S)) :
    typedSteps (mkPath s0 steps) = stepsFrom s0 steps := by
  induction steps generalizing s0 with
  | nil => rfl
  | cons t steps ih =>
    have := ih t.2
    rw [mkPath_cons]
    unfold typedSteps at this ⊢
    rw [show mkPath t.2 steps = .state t.2 :: (mkPath t.2 steps).tail from rfl, splitPath, List.filterMap_cons]
    simp only [stepsFrom, List.cons.injEq, true_and]
    exact this

theorem checkPath_mkPath (chk : A → S → S → Bool) (s0 : S) (steps : List (A × S)) :
    checkPath chk (mkPath s0 steps) = true ↔ ∀ t ∈ stepsFrom s0 steps, chk t.2.1 t.1 t.2.2 = true := by
  induction steps generalizing s0 with
  | nil => simp [mkPath, checkPath, stepsFrom]
  | cons t steps ih =>
    rw [mkPath_cons, show mkPath t.2 steps = .state t.2 :: (mkPath t.2 steps).tail from rfl]
    rw [checkPath, Bool.and_eq_true]
    rw [show .state t.2 :: (mkPath t.2 steps).tail = mkPath t.2 steps from rfl, ih]
    simp [stepsFrom]

theorem hasPath_mkPath (chk : A → S → S → Bool) (g : TaskGraph S A) (s0 : S) (steps : List (A × S)) :
    g.hasPath chk (mkPath s0 steps) = .ok true ↔
      (∀ t ∈ stepsFrom s0 steps, chk t.2.1 t.1 t.2.2 = true) ∧ s0 ∈ g.initial ∧
      lastState s0 steps ∈ g.terminal ∧
      ∀ t ∈ stepsFrom s0 steps, g.hasTransition t.1 t.2.1 t.2.2 = true := by
  unfold hasPath
  by_cases h : checkPath chk (mkPath s0 steps) = true
  · have he : (mkPath s0 steps).isEmpty = false := rfl
    rw [if_pos h, he, head_mkPath, getLast_mkPath, typedSteps_mkPath, ← checkPath_mkPath]
    simp [h, and_assoc]
  · rw [if_neg h, ← checkPath_mkPath]
    simp [h]

/-- **C08 (partial, paths to walks).**  If no intermediate state of the path is terminal in the graph, a recognised
path `s0 a1 s1 ... an sn` with at least one action gives the walk `initial -s0-> a1 -s1-> ... an -sn-> terminal` of the
conjugate. Without the hypothesis this is false (`C08_false_forward`). -/
theorem C08_forward_partial (ordS : List S → List S) (ordT : List (A × S) → List (A × S)) (hS : ∀ l, (ordS l).Perm l)
    (hT : ∀ l, (ordT l).Perm l) (ini ter : A) (chk : A → S → S → Bool) (ps : List (List (Elem S A)))
    (c : BaseGraph A S) (hc : (addAll chk ps).conjugate ordS ordT ini ter = .ok c)
    (s0 : S) (steps : List (A × S)) (hne : steps ≠ [])
    (hint : ∀ t ∈ steps.dropLast, t.2 ∉ (addAll chk ps).terminal)
    (hp : (addAll chk ps).hasPath chk (mkPath s0 steps) = .ok true) : Walk c ter ini s0 steps := by
  obtain ⟨hw, _⟩ := addAll_spec chk ps
  have hsp : ∀ u l v, c.hasTransition u l v = true ↔ ConjSpec ini ter (addAll chk ps) u l v := by
    rcases conjugate_spec ordS ordT hS hT ini ter (addAll chk ps) hw with ⟨_, h⟩ | ⟨_, h, _⟩ | ⟨_, _, c', h, h'⟩
    · rw [hc] at h; cases h
    · rw [hc] at h; cases h
    · rw [hc] at h
      cases h
      exact h'
  obtain ⟨_, hi, ht, htr⟩ := (hasPath_mkPath chk _ s0 steps).1 hp
  generalize addAll chk ps = g at *
  -- walks that start after a transition into a state
  have aux : ∀ (steps : List (A × S)) (u : A) (s : S), (∃ x, g.hasTransition x u s = true) →
      (steps ≠ [] → s ∉ g.terminal) → (∀ t ∈ steps.dropLast, t.2 ∉ g.terminal) →
      lastState s steps ∈ g.terminal →
      (∀ t ∈ stepsFrom s steps, g.hasTransition t.1 t.2.1 t.2.2 = true) → Walk c ter u s steps := by
    intro steps
    induction steps with
    | nil =>
      rintro u s ⟨x, hx⟩ _ _ hend _
      exact (hsp u s ter).2 (Or.inr (Or.inr ⟨rfl, hend, x, hx⟩))
    | cons t steps ih =>
      rintro u s ⟨x, hx⟩ hs hin hend htr
      have h1 := htr (s, t.1, t.2) (by simp [stepsFrom])
      refine ⟨(hsp _ _ _).2 (Or.inr (Or.inl ⟨hs (by simp), ⟨x, hx⟩, t.2, h1⟩)), ih t.1 t.2 ⟨s, h1⟩ ?_ ?_ ?_ ?_⟩
      · intro hne
        apply hin t
        cases steps with
        | nil => exact absurd rfl hne
        | cons y ys => simp [List.dropLast]
      · intro t' ht'
        apply hin t'
        cases steps with
        | nil => simp at ht'
        | cons y ys => simp [List.dropLast] at ht' ⊢; exact Or.inr ht'
      · exact hend
      · intro t' ht'
        exact htr t' (by simp [stepsFrom, ht'])
  cases steps with
  | nil => exact absurd rfl hne
  | cons t steps =>
    have h1 := htr (s0, t.1, t.2) (by simp [stepsFrom])
    refine ⟨(hsp _ _ _).2 (Or.inl ⟨rfl, hi, t.2, h1⟩), aux steps t.1 t.2 ⟨s0, h1⟩ ?_ ?_ ?_ ?_⟩
    · intro hne
      apply hint t
      cases steps with
      | nil => exact absurd rfl hne
      | cons y ys => simp [List.dropLast]
    · intro t' ht'
      apply hint t'
      cases steps with
      | nil => simp at ht'
      | cons y ys => simp [List.dropLast] at ht' ⊢; exact Or.inr ht'
    · exact ht
    · intro t' ht'
      exact htr t' (by simp [stepsFrom, ht'])

/-- **C08 (partial, walks to paths).**  If every action always leads to the same state, and no demonstrated action is
the conjugate's own initial or terminal node, a walk `initial -s0-> a1 ... an -sn-> terminal` of the conjugate is a
recognised path.  Without the first hypothesis this is false (`C08_false_backward`). -/
theorem C08_backward_partial (ordS : List S → List S) (ordT : List (A × S) → List (A × S))
    (hS : ∀ l, (ordS l).Perm l) (hT : ∀ l, (ordT l).Perm l) (ini ter : A) (hit : ini ≠ ter)
    (chk : A → S → S → Bool) (ps : List (List (Elem S A))) (c : BaseGraph A S)
    (hc : (addAll chk ps).conjugate ordS ordT ini ter = .ok c)
    (hini : ∀ s s', (addAll chk ps).hasTransition s ini s' = false)
    (hter : ∀ s s', (addAll chk ps).hasTransition s ter s' = false)
    (hfun : ∀ a s₁ s₁' s₂ s₂', (addAll chk ps).hasTransition s₁ a s₁' = true →
      (addAll chk ps).hasTransition s₂ a s₂' = true → s₁' = s₂')
    (s0 : S) (steps : List (A × S)) (hne : steps ≠ []) (h : Walk c ter ini s0 steps) :
    (addAll chk ps).hasPath chk (mkPath s0 steps) = .ok true := by
  obtain ⟨hw, _, _, h3, _⟩ := addAll_spec chk ps
  have hchk : ∀ s a s', (addAll chk ps).hasTransition s a s' = true → chk a s s' = true := by
    intro s a s' hh
    obtain ⟨p, _, hv, i, hi, e1, e2, e3⟩ := (h3 s a s').1 hh
    rcases hv with rfl | ⟨_, _, _, h4⟩
    · simp at e1
    · exact h4 i s a s' hi e1 e2 e3
  have hsp : ∀ u l v, c.hasTransition u l v = true ↔ ConjSpec ini ter (addAll chk ps) u l v := by
    rcases conjugate_spec ordS ordT hS hT ini ter (addAll chk ps) hw with ⟨_, h⟩ | ⟨_, h, _⟩ | ⟨_, _, c', h, h'⟩
    · rw [hc] at h; cases h
    · rw [hc] at h; cases h
    · rw [hc] at h
      cases h
      exact h'
  rw [hasPath_mkPath]
  generalize addAll chk ps = g at *
  have aux : ∀ (steps : List (A × S)) (u : A) (s x y : S), g.hasTransition x u y = true →
      Walk c ter u s steps → y = s ∧ lastState s steps ∈ g.terminal ∧
        ∀ t ∈ stepsFrom s steps, g.hasTransition t.1 t.2.1 t.2.2 = true := by
    intro steps
    induction steps with
    | nil =>
      intro u s x y hx hwalk
      rcases (hsp u s ter).1 hwalk with ⟨rfl, _⟩ | ⟨_, _, s', hs'⟩ | ⟨_, hs, s', hs'⟩
      · rw [hini] at hx; cases hx
      · rw [hter] at hs'; cases hs'
      · exact ⟨hfun u x y s' s hx hs', hs, by simp [stepsFrom]⟩
    | cons t steps ih =>
      rintro u s x y hx ⟨he, hwalk⟩
      rcases (hsp u s t.1).1 he with ⟨rfl, _⟩ | ⟨_, ⟨z, hz⟩, s', hs'⟩ | ⟨hv, _⟩
      · rw [hini] at hx; cases hx
      · obtain ⟨rfl, h2, h3⟩ := ih t.1 t.2 s s' hs' hwalk
        refine ⟨hfun u x y z s hx hz, ?_, ?_⟩
        · exact h2
        · intro t' ht'
          simp only [stepsFrom, List.mem_cons] at ht'
          rcases ht' with rfl | ht'
          · exact hs'
          · exact h3 t' ht'
      · -- the walk goes on from `ter`, which has no outgoing edge
        exfalso
        have hout : ∀ l v, ¬ c.hasTransition ter l v = true := by
          intro l v hlv
          rcases (hsp ter l v).1 hlv with ⟨h', _⟩ | ⟨_, ⟨_, h'⟩, _⟩ | ⟨_, _, _, h'⟩
          · exact hit h'.symm
          · rw [hter] at h'; cases h'
          · rw [hter] at h'; cases h'
        obtain ⟨ta, ts⟩ := t
        simp only at hv hwalk
        subst hv
        cases steps with
        | nil => exact hout _ _ hwalk
        | cons y ys => exact hout _ _ hwalk.1
  cases steps with
  | nil => exact absurd rfl hne
  | cons t steps =>
    obtain ⟨he, hwalk⟩ := h
    rcases (hsp ini s0 t.1).1 he with ⟨_, hs0, s', hs'⟩ | ⟨_, ⟨_, h'⟩, _⟩ | ⟨_, _, _, h'⟩
    · obtain ⟨rfl, h2, h3⟩ := aux steps t.1 t.2 s0 s' hs' hwalk
      have hall : ∀ t' ∈ stepsFrom s0 (t :: steps), g.hasTransition t'.1 t'.2.1 t'.2.2 = true := by
        intro t' ht'
        simp only [stepsFrom, List.mem_cons] at ht'
        rcases ht' with rfl | ht'
        · exact hs'
        · exact h3 t' ht'
      refine ⟨fun t' ht' => hchk _ _ _ (hall t' ht'), hs0, ?_, hall⟩
      exact h2
    · rw [hini] at h'; cases h'
    · rw [hini] at h'; cases h'

instance decWalk (c : BaseGraph A S) (ter : A) : ∀ (steps : List (A × S)) (u : A) (l : S),
    Decidable (Walk c ter u l steps)
  | [], u, l => inferInstanceAs (Decidable (c.hasTransition u l ter = true))
  | (a, s) :: rest, u, l =>
    have := decWalk c ter rest a s
    inferInstanceAs (Decidable (c.hasTransition u l a = true ∧ Walk c ter a s rest))

/-- **C08 is false of the code, paths to walks.**  With the demonstrations `0 -1-> 1` and `0 -1-> 1 -2-> 2`, the second
one is recognised, but the conjugate has no walk for it: state 1 is terminal, so the edge `1 -1-> 2` is dropped. -/
theorem C08_false_forward :
    ∃ (ps : List (List (Elem Nat Nat))) (c : BaseGraph Nat Nat) (steps : List (Nat × Nat)),
      (addAll (fun _ _ _ => true) ps).conjugate id id 100 200 = .ok c ∧
      (addAll (fun _ _ _ => true) ps).hasPath (fun _ _ _ => true) (mkPath 0 steps) = .ok true ∧
      ¬ Walk c 200 100 0 steps := by
  refine ⟨[[.state 0, .action 1, .state 1], [.state 0, .action 1, .state 1, .action 2, .state 2]],
    ⟨[(100, [(0, 1)]), (1, [(1, 200)]), (2, [(2, 200)])]⟩, [(1, 1), (2, 2)], ?_, ?_, ?_⟩
  · rfl
  · decide
  · decide

/-- **C08 is false of the code, walks to paths.**  With `0 -1-> 1` and `5 -1-> 6`, the conjugate has the walk
`initial -0-> 1 -6-> terminal`, but `0 -1-> 6` is not recognised. -/
theorem C08_false_backward :
    ∃ (ps : List (List (Elem Nat Nat))) (c : BaseGraph Nat Nat) (steps : List (Nat × Nat)),
      (addAll (fun _ _ _ => true) ps).conjugate id id 100 200 = .ok c ∧
      Walk c 200 100 0 steps ∧
      (addAll (fun _ _ _ => true) ps).hasPath (fun _ _ _ => true) (mkPath 0 steps) = .ok false := by
  refine ⟨[[.state 0, .action 1, .state 1], [.state 5, .action 1, .state 6]],
    ⟨[(100, [(0, 1), (5, 1)]), (1, [(1, 200), (6, 200)])]⟩, [(1, 6)], ?_, ?_, ?_⟩
  · rfl
  · decide
  · decide

/-- Non-vacuity of the C08 partial theorems: a graph that meets all hypotheses, with a two-step path. -/
example : ∃ c : BaseGraph Nat Nat,
    (addAll (fun _ _ _ => true) [[Elem.state 0, .action 1, .state 1, .action 2, .state 2]]).conjugate id id 100 200
      = .ok c ∧ Walk c 200 100 0 [(1, 1), (2, 2)] ∧
    (∀ t ∈ ([(1, 1), (2, 2)] : List (Nat × Nat)).dropLast, t.2 ∉
      (addAll (fun (_ _ _ : Nat) => true) [[Elem.state 0, .action 1, .state 1, .action 2, .state 2]]).terminal) ∧
    (addAll (fun _ _ _ => true) [[Elem.state 0, .action 1, .state 1, .action 2, .state 2]]).hasPath
      (fun _ _ _ => true) (mkPath 0 [(1, 1), (2, 2)]) = .ok true :=
  ⟨⟨[(100, [(0, 1)]), (1, [(1, 2)]), (2, [(2, 200)])]⟩, rfl, by decide, by decide, by decide⟩

end Verif
