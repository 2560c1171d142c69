import Verif.Proof.VecState

/-! Property C113: task graphs whose states are vectors. -/

set_option linter.unusedSectionVars false
set_option linter.unusedSimpArgs false

namespace Verif
open Spec

section
variable {A : Type} [DecidableEq A] {h : List ℚ → Nat} {ph : A → Nat → Nat}

/-- **C113.**  The features of a state are its vector, and `n_dim` its length; the methods of the base classes raise `TypeError` (not `NotImplementedError`). -/
theorem C113_base (s : VecState) : s.getFeatures = s.features ∧ s.nDim = s.getFeatures.length ∧ baseFeatures = .error .typeError ∧ baseHash = .error .typeError ∧
    baseEq = .error .typeError ∧ baseSample = .error .typeError ∧ baseSuccessor = .error .typeError :=
  ⟨rfl, rfl, rfl, rfl, rfl, rfl, rfl⟩

/-- **C113.**  If every object is the only one with its hash, `add_path` and `has_path` do what they do for states that can be compared. -/
theorem C113_unique (chk : A → VecState → VecState → Bool) (g : TaskGraph VecState A) (p : List (Elem VecState A))
    (hU : NoClash h ph (graphStates g ++ pathStates p)) :
    vAddPath h ph chk p g = (match g.addPath chk p with | .ok g' => (.ok (), g') | .error e => (.error e, g)) ∧
    vHasPath h ph chk g p = g.hasPath chk p :=
  have hg := gWithin_states g (l := graphStates g ++ pathStates p) fun s hs => by simp [hs]
  ⟨(vAddPath_of hU hg (fun s hs => by simp [hs]) chk).1, vHasPath_of hU hg (fun s hs => by simp [hs]) chk⟩

theorem vAddAll_of (chk : A → VecState → VecState → Bool) (ps : List (List (Elem VecState A))) {U : List VecState} (hU : NoClash h ph U)
    (hs : ∀ p ∈ ps, ∀ s ∈ pathStates p, s ∈ U) : vAddAll h ph chk ps = addAll chk ps ∧ GWithin U (addAll chk ps) := by
  induction ps using List.reverseRecOn with
  | nil => exact ⟨rfl, by simp [GWithin, BWithin, addAll]⟩
  | append_singleton ps p ih =>
    obtain ⟨h1, h2⟩ := ih fun q hq => hs q (by simp [hq])
    obtain ⟨h3, h4⟩ := vAddPath_of hU h2 (hs p (by simp)) chk
    rw [addAll_append]
    refine ⟨?_, h4⟩
    have e : vAddAll h ph chk (ps ++ [p]) = (vAddPath h ph chk p (vAddAll h ph chk ps)).2 := by simp [vAddAll, List.foldl_append]
    rw [e, h1, h3]
    cases (addAll chk ps).addPath chk p <;> rfl

/-- **C113.**  So when demonstrations are recorded with one object for each vector, the graph has exactly their initial states, terminal states and transitions. -/
theorem C113_demonstrations (chk : A → VecState → VecState → Bool) (ps : List (List (Elem VecState A))) (hU : NoClash h ph (ps.flatMap pathStates)) :
    (∀ s, s ∈ (vAddAll h ph chk ps).initial ↔ ∃ p ∈ ps, IsPath chk p ∧ Starts p s) ∧
    (∀ s, s ∈ (vAddAll h ph chk ps).terminal ↔ ∃ p ∈ ps, IsPath chk p ∧ Ends p s) ∧
    (∀ s a s', (vAddAll h ph chk ps).hasTransition s a s' = true ↔ ∃ p ∈ ps, IsPath chk p ∧ StepOf p s a s') ∧
    ∀ p ∈ ps, IsPath chk p → vHasPath h ph chk (vAddAll h ph chk ps) p = .ok true := by
  have hs : ∀ p ∈ ps, ∀ s ∈ pathStates p, s ∈ ps.flatMap pathStates := fun p hp s hs => List.mem_flatMap.2 ⟨p, hp, hs⟩
  obtain ⟨h1, h2⟩ := vAddAll_of chk ps hU hs
  rw [h1]
  obtain ⟨_, a, b, c, _⟩ := addAll_spec chk ps
  refine ⟨a, b, c, ?_⟩
  intro p hp hpath
  rw [vHasPath_of hU h2 (hs p hp)]
  have hc := (C01_checkPath chk p).2 hpath
  unfold TaskGraph.hasPath
  rw [if_pos hc]
  by_cases hne : p = []
  · subst hne; rfl
  · obtain ⟨x, h0⟩ := checkPath_head hc hne
    obtain ⟨z, hn⟩ := checkPath_last p hc hne
    rw [h0, hn]
    have m0 := (a x).2 ⟨p, hp, hpath, h0⟩
    have mn := (b z).2 ⟨p, hp, hpath, hn⟩
    have mt : (typedSteps p).all (fun t => (addAll chk ps).hasTransition t.1 t.2.1 t.2.2) = true := by
      rw [List.all_eq_true]
      intro t ht
      exact (c _ _ _).2 ⟨p, hp, hpath, (mem_typedSteps_iff_stepOf p _ _ _).1 ht⟩
    simp [m0, mn, mt]

/-- **C113.**  In every graph made with `add_path`, whatever the states are, the initial states have different hashes, and so have the terminal states and the
states with transitions. -/
theorem C113_reachable (chk : A → VecState → VecState → Bool) (ps : List (List (Elem VecState A))) : Distinct h (vAddAll h ph chk ps) := by
  induction ps using List.reverseRecOn with
  | nil => simp [vAddAll, Distinct, HashDistinct]
  | append_singleton ps p ih =>
    have e : vAddAll h ph chk (ps ++ [p]) = (vAddPath h ph chk p (vAddAll h ph chk ps)).2 := by simp [vAddAll, List.foldl_append]
    rw [e]
    exact vAddPath_distinct ih chk p

/-- **C113.**  `add_path` raises `ValueError` exactly for what is not a path, and then changes nothing; the only other exception is `TypeError`. -/
theorem C113_errors (chk : A → VecState → VecState → Bool) (ps : List (List (Elem VecState A))) (p : List (Elem VecState A)) :
    (¬ IsPath chk p → vAddPath h ph chk p (vAddAll h ph chk ps) = (.error .valueError, vAddAll h ph chk ps)) ∧
    (IsPath chk p → (vAddPath h ph chk p (vAddAll h ph chk ps)).1 = .ok () ∨ (vAddPath h ph chk p (vAddAll h ph chk ps)).1 = .error .typeError) := by
  have hg := C113_reachable (h := h) (ph := ph) chk ps
  rw [← C01_checkPath]
  refine ⟨fun hc => vAddPath_bad hc _, fun hc => ?_⟩
  by_cases hne : p = []
  · subst hne; exact Or.inl rfl
  · obtain ⟨x, z, _, _, ⟨_, h1⟩ | ⟨_, _, h1, h2⟩ | ⟨_, _, h2, _⟩⟩ := vAddPath_cases (ph := ph) hg chk hc hne
    · right; rw [h1]
    · right; rw [h1]
    · exact h2

theorem vHasPath_clash {g : TaskGraph VecState A} (hg : Distinct h g) {chk : A → VecState → VecState → Bool} {q : List (Elem VecState A)}
    (hc : checkPath chk q = true) {x y : VecState} (hs : Starts q y) (hx : x ∈ g.initial) (hne : x ≠ y) (he : h x.features = h y.features) :
    vHasPath h ph chk g q = .error .typeError := by
  have hq : q ≠ [] := by rintro rfl; cases hs
  obtain ⟨z, hn⟩ := checkPath_last q hc hq
  have hy : y ∉ g.initial := fun hy => hashDistinct_forall hg.1 hx hy hne he
  unfold vHasPath
  rw [if_pos hc, (show q.head? = some (.state y) from hs), hn]
  show vHasEnds h ph g y z (typedSteps q) = _
  unfold vHasEnds
  rw [rIn_state_error hy ⟨x, hx, he⟩]

/-- **C113, false of the code.**  A path that starts in another object with the same vector as an initial state can be neither added nor looked up: after any
successful `add_path` both raise `TypeError` for every path whose first state is a copy of the first one, and nothing is added. -/
theorem C113_false_copies (chk : A → VecState → VecState → Bool) (ps : List (List (Elem VecState A))) (p q : List (Elem VecState A)) (x y : VecState)
    (hp : (vAddPath h ph chk p (vAddAll h ph chk ps)).1 = .ok ()) (hx : Starts p x) (hq : IsPath chk q) (hy : Starts q y) (hxy : IsCopy x y) :
    vAddPath h ph chk q (vAddAll h ph chk (ps ++ [p])) = (.error .typeError, vAddAll h ph chk (ps ++ [p])) ∧
    vHasPath h ph chk (vAddAll h ph chk (ps ++ [p])) q = .error .typeError := by
  have hg := C113_reachable (h := h) (ph := ph) chk ps
  have hg' := C113_reachable (h := h) (ph := ph) chk (ps ++ [p])
  have e : vAddAll h ph chk (ps ++ [p]) = (vAddPath h ph chk p (vAddAll h ph chk ps)).2 := by simp [vAddAll, List.foldl_append]
  have hc : checkPath chk p = true := by
    by_contra hc
    rw [vAddPath_bad hc] at hp
    cases hp
  have hpne : p ≠ [] := by rintro rfl; cases hx
  have hmem : x ∈ (vAddAll h ph chk (ps ++ [p])).initial := by
    rw [e]
    obtain ⟨x', z, hx', _, ⟨_, h1⟩ | ⟨_, _, h1, h2⟩ | ⟨_, _, _, _, h3, _⟩⟩ := vAddPath_cases (ph := ph) hg chk hc hpne
    · rw [h1] at hp; cases hp
    · rw [h1] at hp; cases hp
    · rw [h3]
      have : x' = x := by
        have hh := hx'.symm.trans hx
        injection hh with hh
        injection hh
      subst this
      simp
  have he : h x.features = h y.features := by rw [hxy.2]
  have hcq := (C01_checkPath chk q).2 hq
  refine ⟨?_, vHasPath_clash hg' hcq hy hmem hxy.1 he⟩
  have hqne : q ≠ [] := by rintro rfl; cases hy
  obtain ⟨y', z, hy', _, hcase⟩ := vAddPath_cases (ph := ph) hg' chk hcq hqne
  have hyy : y' = y := by
    have hh := hy'.symm.trans hy
    injection hh with hh
    injection hh
  subst hyy
  rcases hcase with ⟨_, h1⟩ | ⟨h1, _⟩ | ⟨h1, _⟩
  · exact h1
  · exact absurd (h1 x hmem he) hxy.1
  · exact absurd (h1 x hmem he) hxy.1

/-- **C113, false of the code.**  `add_path` is not atomic: when the last state of a path clashes with a terminal state, `TypeError` is raised after the first
state has become an initial one, and no transition has been added. -/
theorem C113_false_atomic (chk : A → VecState → VecState → Bool) (ps : List (List (Elem VecState A))) (p : List (Elem VecState A)) (x z z' : VecState)
    (hp : IsPath chk p) (hx : Starts p x) (hz : Ends p z) (hx' : ∀ y ∈ (vAddAll h ph chk ps).initial, h y.features = h x.features → y = x)
    (hz' : z' ∈ (vAddAll h ph chk ps).terminal) (hc : IsCopy z' z) :
    (vAddPath h ph chk p (vAddAll h ph chk ps)).1 = .error .typeError ∧
    x ∈ (vAddPath h ph chk p (vAddAll h ph chk ps)).2.initial ∧
    (vAddPath h ph chk p (vAddAll h ph chk ps)).2.terminal = (vAddAll h ph chk ps).terminal ∧
    (vAddPath h ph chk p (vAddAll h ph chk ps)).2.transitions = (vAddAll h ph chk ps).transitions := by
  have hg := C113_reachable (h := h) (ph := ph) chk ps
  have hpne : p ≠ [] := by rintro rfl; cases hx
  obtain ⟨x1, z1, h0, hn, hcase⟩ := vAddPath_cases (ph := ph) hg chk ((C01_checkPath chk p).2 hp) hpne
  have e1 : x1 = x := by
    have hh := h0.symm.trans hx
    injection hh with hh
    injection hh
  have e2 : z1 = z := by
    have hh := hn.symm.trans hz
    injection hh with hh
    injection hh
  subst e1 e2
  rcases hcase with ⟨⟨y, hy, hne, he⟩, _⟩ | ⟨_, _, h1, _⟩ | ⟨_, h1, _⟩
  · exact absurd (hx' y hy he) hne
  · rw [h1]
    exact ⟨rfl, by simp, rfl, rfl⟩
  · exact absurd (h1 z' hz' (by rw [hc.2])) hc.1

/-- **C113.**  A transition from another object with the hash of a state that has transitions cannot be added or looked up. -/
theorem C113_transition (chk : A → VecState → VecState → Bool) (ps : List (List (Elem VecState A))) (s s' d : VecState) (l : A)
    (hk : s' ∈ (vAddAll h ph chk ps).transitions.map Prod.fst) (hne : s' ≠ s) (he : h s'.features = h s.features) :
    vAddTransition h ph s l d (vAddAll h ph chk ps).toBaseGraph = .error .typeError ∧
    vHasTransition h ph (vAddAll h ph chk ps).toBaseGraph s l d = .error .typeError := by
  have hg := C113_reachable (h := h) (ph := ph) chk ps
  unfold vAddTransition vHasTransition
  rcases rGet_state hg.2.2 s with ⟨_, h1⟩ | ⟨h1, _⟩
  · rw [h1]; exact ⟨rfl, rfl⟩
  · exact absurd (h1 s' hk he) hne

/-- **C113.**  `all_nodes` returns the states of the transitions if all of them have different hashes, and raises `TypeError` if two of them have the same one. -/
theorem C113_nodes (order : List (VecState × A × VecState)) :
    ((∃ x y, x ≠ y ∧ h x.features = h y.features ∧ (∃ t ∈ order, x = t.1 ∨ x = t.2.2) ∧ ∃ t ∈ order, y = t.1 ∨ y = t.2.2) ∧
      vAllNodes h order = .error .typeError) ∨
    ((∀ x y, (∃ t ∈ order, x = t.1 ∨ x = t.2.2) → (∃ t ∈ order, y = t.1 ∨ y = t.2.2) → h x.features = h y.features → x = y) ∧
      ∃ r, vAllNodes h order = .ok r ∧ r.Nodup ∧ ∀ x, x ∈ r ↔ ∃ t ∈ order, x = t.1 ∨ x = t.2.2) := by
  have hm : ∀ x, x ∈ [] ++ order.flatMap (fun t => [t.1, t.2.2]) ↔ ∃ t ∈ order, x = t.1 ∨ x = t.2.2 := by
    intro x
    simp [List.mem_flatMap]
  unfold vAllNodes
  rcases foldlM_rAdd (h := h) (order.flatMap fun t => [t.1, t.2.2]) [] (by simp [HashDistinct]) with ⟨⟨x, hx, y, hy, h1, h2⟩, h3⟩ | ⟨h1, r, h2, h3, h4⟩
  · left
    exact ⟨⟨x, y, h1, h2, (hm x).1 hx, (hm y).1 hy⟩, h3⟩
  · right
    exact ⟨fun x y hx hy => h1 x ((hm x).2 hx) y ((hm y).2 hy), r, h2, h3, fun x => (h4 x).trans (hm x)⟩

end

/-- The states of the examples: object `i` with the vector `[v]`. -/
def exVec (i : Nat) (v : ℚ) : VecState := ⟨i, [v]⟩

/-- A hash of the examples. -/
def exHash (l : List ℚ) : Nat := (l.map fun q => q.num.toNat).sum

/-- Non-vacuity of C113: two paths that share their objects are added and found. -/
example :
    let p : List (Elem VecState Nat) := [.state (exVec 0 0), .action 5, .state (exVec 1 1)]
    let q : List (Elem VecState Nat) := [.state (exVec 0 0), .action 6, .state (exVec 2 2)]
    let g := vAddAll exHash (fun a n => 10 * a + n) (fun _ _ _ => true) [p, q]
    vHasPath exHash (fun a n => 10 * a + n) (fun _ _ _ => true) g q = .ok true ∧ g.terminal = [exVec 1 1, exVec 2 2] ∧
    NoClash exHash (fun (a n : Nat) => 10 * a + n) [exVec 0 0, exVec 1 1, exVec 2 2] := by
  refine ⟨by decide +kernel, by decide +kernel, ?_⟩
  intro x hx y hy
  simp only [List.mem_cons, List.not_mem_nil, or_false] at hx hy
  have e0 : exHash (exVec 0 0).features = 0 := by decide +kernel
  have e1 : exHash (exVec 1 1).features = 1 := by decide +kernel
  have e2 : exHash (exVec 2 2).features = 2 := by decide +kernel
  rcases hx with rfl | rfl | rfl <;> rcases hy with rfl | rfl | rfl <;> simp [e0, e1, e2]

/-- Non-vacuity of C113: the same demonstration, recorded again with new objects, raises; a path whose last state is a copy of its first one is added, but
`all_nodes` raises for it. -/
example :
    let p : List (Elem VecState Nat) := [.state (exVec 0 0), .action 5, .state (exVec 1 1)]
    let p' : List (Elem VecState Nat) := [.state (exVec 2 0), .action 5, .state (exVec 3 1)]
    let g := vAddAll exHash (fun a n => 10 * a + n) (fun _ _ _ => true) [p]
    (vAddPath exHash (fun a n => 10 * a + n) (fun _ _ _ => true) p' g).1 = .error .typeError ∧
    vHasPath exHash (fun a n => 10 * a + n) (fun _ _ _ => true) g p' = .error .typeError ∧
    (vAddPath exHash (fun a n => 10 * a + n) (fun _ _ _ => true) [.state (exVec 0 0), .action 5, .state (exVec 2 0)] ({} : TaskGraph VecState Nat)).1 = .ok () ∧
    vAllNodes exHash [(exVec 0 0, 5, exVec 2 0)] = .error .typeError := by
  decide +kernel

end Verif
