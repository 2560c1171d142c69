import Verif.Spec.VecState
import Verif.Proof.TaskGraph
import Verif.Props.TaskGraph
import Mathlib.Data.List.Pairwise

/-! Proofs about graphs on vector states (C113). -/

set_option linter.unusedSectionVars false
set_option linter.unusedSimpArgs false

namespace Verif
open Spec

theorem rIn_of {κ : Type} [DecidableEq κ] {same : κ → κ → Py Bool} {l : List κ} {x : κ} (h : ∀ y ∈ l, same y x = .ok (decide (y = x))) :
    rIn same l x = .ok (decide (x ∈ l)) := by
  induction l with
  | nil => simp [rIn]
  | cons y l ih =>
    rw [rIn, h y (by simp)]
    by_cases e : y = x
    · subst e; simp
    · have e' : x ≠ y := fun h => e h.symm
      simp only [e, decide_false]
      rw [ih fun z hz => h z (by simp [hz])]
      simp [e']

theorem rAdd_of {κ : Type} [DecidableEq κ] {same : κ → κ → Py Bool} {l : List κ} {x : κ} (h : ∀ y ∈ l, same y x = .ok (decide (y = x))) :
    rAdd same l x = .ok (setAdd l x) := by
  unfold rAdd setAdd
  rw [rIn_of h]
  by_cases e : x ∈ l <;> simp [e]

theorem rGet_of {κ ν : Type} [DecidableEq κ] {same : κ → κ → Py Bool} {l : List (κ × ν)} {x : κ}
    (h : ∀ y ∈ l, same y.1 x = .ok (decide (y.1 = x))) : rGet same l x = .ok (dget l x) := by
  induction l with
  | nil => simp [rGet, dget]
  | cons y l ih =>
    obtain ⟨k, v⟩ := y
    rw [rGet, h _ (List.mem_cons_self ..), dget]
    by_cases e : k = x
    · simp [e]
    · simp only [e, decide_false, if_false]
      exact ih fun z hz => h z (by simp [hz])

section
variable {A : Type} [DecidableEq A] {h : List ℚ → Nat} {ph : A → Nat → Nat} {U : List VecState}

theorem sameState_of (hU : NoClash h ph U) {x y : VecState} (hx : x ∈ U) (hy : y ∈ U) : sameState h y x = .ok (decide (y = x)) := by
  unfold sameState
  by_cases e : y = x
  · simp [e]
  · rw [if_neg e, if_neg fun hh => e ((hU y hy x hx).1 hh)]
    simp [e]

theorem samePair_of (hU : NoClash h ph U) {x y : A × VecState} (hx : x.2 ∈ U) (hy : y.2 ∈ U) : samePair h ph y x = .ok (decide (y = x)) := by
  obtain ⟨a, s⟩ := x
  obtain ⟨b, t⟩ := y
  unfold samePair
  by_cases e1 : b = a
  · subst e1
    by_cases e2 : t = s
    · subst e2; simp
    · rw [if_neg fun hh => e2 ((hU t hy s hx).2 b hh)]
      simp [e2]
  · by_cases e : ph b (h t.features) = ph a (h s.features)
    · rw [if_pos e, if_neg e1]; simp [e1]
    · rw [if_neg e]; simp [e1]

/-- The states of a base graph are among `U`. -/
def BWithin (U : List VecState) (b : BaseGraph VecState A) : Prop := ∀ kv ∈ b.transitions, kv.1 ∈ U ∧ ∀ x ∈ kv.2, x.2 ∈ U

/-- The states of a graph are among `U`. -/
def GWithin (U : List VecState) (g : TaskGraph VecState A) : Prop :=
  (∀ s ∈ g.initial, s ∈ U) ∧ (∀ s ∈ g.terminal, s ∈ U) ∧ BWithin U g.toBaseGraph

theorem gWithin_states (g : TaskGraph VecState A) {l : List VecState} (hl : ∀ s ∈ graphStates g, s ∈ l) : GWithin l g := by
  unfold graphStates at hl
  refine ⟨fun s hs => hl s (by simp [hs]), fun s hs => hl s (by simp [hs]), fun kv hkv => ⟨hl _ ?_, fun x hx => hl _ ?_⟩⟩
  · rw [List.mem_append]; right; rw [List.mem_flatMap]
    exact ⟨kv, hkv, by simp⟩
  · rw [List.mem_append]; right; rw [List.mem_flatMap]
    exact ⟨kv, hkv, List.mem_cons_of_mem _ (List.mem_map.2 ⟨x, hx, rfl⟩)⟩

theorem dget_mem_pair {κ ν : Type} [DecidableEq κ] {l : List (κ × ν)} {k : κ} {v : ν} (hk : dget l k = some v) : (k, v) ∈ l := by
  induction l with
  | nil => simp [dget] at hk
  | cons y l ih =>
    obtain ⟨k', v'⟩ := y
    rw [dget] at hk
    by_cases e : k' = k
    · rw [if_pos e] at hk; cases hk; subst e; simp
    · rw [if_neg e] at hk; exact List.mem_cons_of_mem _ (ih hk)

theorem mem_dset_cases {κ ν : Type} [DecidableEq κ] {l : List (κ × ν)} {k : κ} {v : ν} {x : κ × ν} (hx : x ∈ dset l k v) : x ∈ l ∨ x = (k, v) := by
  induction l with
  | nil => rw [dset] at hx; right; simpa using hx
  | cons y l ih =>
    obtain ⟨k', v'⟩ := y
    rw [dset] at hx
    by_cases e : k' = k
    · rw [if_pos e] at hx
      rcases List.mem_cons.1 hx with h1 | h1
      · right; rw [h1, e]
      · left; exact List.mem_cons_of_mem _ h1
    · rw [if_neg e] at hx
      rcases List.mem_cons.1 hx with h1 | h1
      · left; rw [h1]; simp
      · rcases ih h1 with h2 | h2
        · left; exact List.mem_cons_of_mem _ h2
        · right; exact h2

theorem bWithin_out {b : BaseGraph VecState A} (hb : BWithin U b) (s : VecState) : ∀ x ∈ (dget b.transitions s).getD [], x.2 ∈ U := by
  cases e : dget b.transitions s with
  | none => simp
  | some out => exact (hb _ (dget_mem_pair e)).2

theorem vAddTransition_of (hU : NoClash h ph U) {b : BaseGraph VecState A} (hb : BWithin U b) {s d : VecState} (l : A) (hs : s ∈ U) (hd : d ∈ U) :
    vAddTransition h ph s l d b = .ok (b.addTransition s l d) ∧ BWithin U (b.addTransition s l d) := by
  constructor
  · unfold vAddTransition
    rw [rGet_of fun y hy => sameState_of hU hs (hb y hy).1]
    simp only
    rw [rAdd_of fun y hy => samePair_of hU (x := (l, d)) hd (bWithin_out hb s y hy)]
    rfl
  · intro kv hkv
    rcases mem_dset_cases hkv with h1 | h1
    · exact hb kv h1
    · subst h1
      refine ⟨hs, ?_⟩
      intro x hx
      rcases (mem_setAdd _ _ _).1 hx with h2 | h2
      · exact bWithin_out hb s x h2
      · rw [h2]; exact hd

theorem vHasTransition_of (hU : NoClash h ph U) {b : BaseGraph VecState A} (hb : BWithin U b) {s d : VecState} (l : A) (hs : s ∈ U) (hd : d ∈ U) :
    vHasTransition h ph b s l d = .ok (b.hasTransition s l d) := by
  unfold vHasTransition BaseGraph.hasTransition
  rw [rGet_of fun y hy => sameState_of hU hs (hb y hy).1]
  cases e : dget b.transitions s with
  | none => rfl
  | some out =>
    show rIn (samePair h ph) out (l, d) = .ok (decide ((l, d) ∈ out))
    have := rIn_of (l := out) fun y hy => samePair_of hU (x := (l, d)) hd ((hb _ (dget_mem_pair e)).2 y hy)
    rw [this]
    congr 1
    exact decide_eq_decide.2 Iff.rfl

theorem vAddSteps_of (hU : NoClash h ph U) (ts : List (VecState × A × VecState)) : ∀ g : TaskGraph VecState A, BWithin U g.toBaseGraph →
    (∀ t ∈ ts, t.1 ∈ U ∧ t.2.2 ∈ U) →
    vAddSteps h ph ts g = (.ok (), { g with toBaseGraph := ts.foldl (fun b t => b.addTransition t.1 t.2.1 t.2.2) g.toBaseGraph }) ∧
      BWithin U (ts.foldl (fun b t => b.addTransition t.1 t.2.1 t.2.2) g.toBaseGraph) := by
  induction ts with
  | nil => intro g hg _; exact ⟨rfl, hg⟩
  | cons t ts ih =>
    intro g hg ht
    obtain ⟨h1, h2⟩ := vAddTransition_of hU hg t.2.1 (ht t (by simp)).1 (ht t (by simp)).2
    obtain ⟨h3, h4⟩ := ih { g with toBaseGraph := g.toBaseGraph.addTransition t.1 t.2.1 t.2.2 } h2 fun t' ht' => ht t' (by simp [ht'])
    rw [vAddSteps, h1]
    exact ⟨h3, h4⟩

theorem vHasSteps_of (hU : NoClash h ph U) {b : BaseGraph VecState A} (hb : BWithin U b) (ts : List (VecState × A × VecState))
    (ht : ∀ t ∈ ts, t.1 ∈ U ∧ t.2.2 ∈ U) : vHasSteps h ph b ts = .ok (ts.all fun t => b.hasTransition t.1 t.2.1 t.2.2) := by
  induction ts with
  | nil => rfl
  | cons t ts ih =>
    rw [vHasSteps, vHasTransition_of hU hb t.2.1 (ht t (by simp)).1 (ht t (by simp)).2, ih fun t' ht' => ht t' (by simp [ht'])]
    rfl

theorem steps_within {p : List (Elem VecState A)} (hp : ∀ s ∈ pathStates p, s ∈ U) : ∀ t ∈ typedSteps p, t.1 ∈ U ∧ t.2.2 ∈ U := by
  intro t ht
  obtain ⟨s, a, s'⟩ := t
  obtain ⟨k, h1, _, h3⟩ := (mem_typedSteps p s a s').1 ht
  exact ⟨hp _ (List.mem_filterMap.2 ⟨_, List.mem_of_getElem? h1, rfl⟩), hp _ (List.mem_filterMap.2 ⟨_, List.mem_of_getElem? h3, rfl⟩)⟩

theorem head_within {p : List (Elem VecState A)} (hp : ∀ s ∈ pathStates p, s ∈ U) {s : VecState} (h0 : p.head? = some (.state s)) : s ∈ U :=
  hp _ (List.mem_filterMap.2 ⟨_, List.mem_of_mem_head? h0, rfl⟩)

theorem last_within {p : List (Elem VecState A)} (hp : ∀ s ∈ pathStates p, s ∈ U) {s : VecState} (h0 : p.getLast? = some (.state s)) : s ∈ U :=
  hp _ (List.mem_filterMap.2 ⟨_, List.mem_of_mem_getLast? h0, rfl⟩)

theorem vAddEnds_of (hU : NoClash h ph U) {g : TaskGraph VecState A} (hg : GWithin U g) {p : List (Elem VecState A)} (hp : ∀ s ∈ pathStates p, s ∈ U) :
    vAddEnds h p g = (.ok (), g.addEnds p) ∧ GWithin U (g.addEnds p) := by
  by_cases hy : ∃ s0 sn, p.head? = some (.state s0) ∧ p.getLast? = some (.state sn)
  · obtain ⟨s0, sn, h0, hn⟩ := hy
    have m0 := head_within hp h0
    have mn := last_within hp hn
    have e0 : g.addEnds p = { g with initial := setAdd g.initial s0, terminal := setAdd g.terminal sn } := by
      unfold TaskGraph.addEnds; rw [h0, hn]
    have ev : vAddEnds h p = (vAddInitial h s0 >>= fun _ => vAddTerminal h sn : M (TaskGraph VecState A) Unit) := by
      unfold vAddEnds; rw [h0, hn]
    rw [e0, ev]
    constructor
    · rw [M.bind_run]
      have e1 : vAddInitial h s0 g = (.ok (), { g with initial := setAdd g.initial s0 }) := by
        unfold vAddInitial
        rw [rAdd_of fun y hy => sameState_of hU m0 (hg.1 y hy)]
      rw [e1]
      show vAddTerminal h sn _ = _
      unfold vAddTerminal
      simp only
      rw [rAdd_of fun y hy => sameState_of hU mn (hg.2.1 y hy)]
    · refine ⟨?_, ?_, hg.2.2⟩
      · intro s hs
        rcases (mem_setAdd _ _ _).1 hs with h1 | h1
        · exact hg.1 s h1
        · rw [h1]; exact m0
      · intro s hs
        rcases (mem_setAdd _ _ _).1 hs with h1 | h1
        · exact hg.2.1 s h1
        · rw [h1]; exact mn
  · have e0 : g.addEnds p = g := by
      unfold TaskGraph.addEnds
      split
      · rename_i s0 sn h0 hn; exact absurd ⟨s0, sn, h0, hn⟩ hy
      · rfl
    have ev : vAddEnds h p = (pure () : M (TaskGraph VecState A) Unit) := by
      unfold vAddEnds
      split
      · rename_i s0 sn h0 hn; exact absurd ⟨s0, sn, h0, hn⟩ hy
      · rfl
    rw [e0, ev]
    exact ⟨rfl, hg⟩

theorem vAddPath_of (hU : NoClash h ph U) {g : TaskGraph VecState A} (hg : GWithin U g) {p : List (Elem VecState A)} (hp : ∀ s ∈ pathStates p, s ∈ U)
    (chk : A → VecState → VecState → Bool) :
    (vAddPath h ph chk p g = match g.addPath chk p with | .ok g' => (.ok (), g') | .error e => (.error e, g)) ∧
      GWithin U (caught (g.addPath chk p) g) := by
  unfold vAddPath TaskGraph.addPath
  by_cases hc : checkPath chk p = true
  · rw [if_pos hc, if_pos hc]
    obtain ⟨h1, h2⟩ := vAddEnds_of hU hg hp
    obtain ⟨h3, h4⟩ := vAddSteps_of hU (typedSteps p) (g.addEnds p) h2.2.2 (steps_within hp)
    refine ⟨?_, h2.1, h2.2.1, h4⟩
    rw [M.bind_run, h1]
    exact h3
  · rw [if_neg hc, if_neg hc]
    exact ⟨rfl, hg⟩

theorem vHasPath_of (hU : NoClash h ph U) {g : TaskGraph VecState A} (hg : GWithin U g) {p : List (Elem VecState A)} (hp : ∀ s ∈ pathStates p, s ∈ U)
    (chk : A → VecState → VecState → Bool) : vHasPath h ph chk g p = g.hasPath chk p := by
  unfold vHasPath TaskGraph.hasPath
  by_cases hc : checkPath chk p = true
  · rw [if_pos hc, if_pos hc]
    by_cases hne : p = []
    · subst hne; rfl
    · obtain ⟨s0, h0⟩ := checkPath_head hc hne
      obtain ⟨sn, hn⟩ := checkPath_last p hc hne
      have he : p.isEmpty = false := by simpa using hne
      rw [h0, hn, he]
      simp only [Bool.false_or]
      unfold vHasEnds
      rw [rIn_of fun y hy => sameState_of hU (head_within hp h0) (hg.1 y hy), rIn_of fun y hy => sameState_of hU (last_within hp hn) (hg.2.1 y hy),
        vHasSteps_of hU hg.2.2 _ (steps_within hp)]
      by_cases a : s0 ∈ g.initial <;> by_cases b : sn ∈ g.terminal <;> simp [a, b]
  · rw [if_neg hc, if_neg hc]

end

/-! ## Exceptions -/

/-- No two of the objects have the same hash. -/
def HashDistinct (h : List ℚ → Nat) (l : List VecState) : Prop := l.Pairwise fun x y => h x.features ≠ h y.features

theorem hashDistinct_forall {h : List ℚ → Nat} {l : List VecState} (hl : HashDistinct h l) {x y : VecState} (hx : x ∈ l) (hy : y ∈ l) (hne : x ≠ y) :
    h x.features ≠ h y.features := by
  have : Std.Symm fun x y : VecState => h x.features ≠ h y.features := ⟨fun _ _ hab => hab.symm⟩
  exact List.Pairwise.forall hl hx hy hne

theorem rIn_state_error {h : List ℚ → Nat} {l : List VecState} {x : VecState} (hx : x ∉ l) (hc : ∃ y ∈ l, h y.features = h x.features) :
    rIn (sameState h) l x = .error .typeError := by
  induction l with
  | nil => obtain ⟨y, hy, _⟩ := hc; simp at hy
  | cons z l ih =>
    have hz : z ≠ x := fun e => hx (by simp [e])
    rw [rIn, sameState, if_neg hz]
    by_cases e : h z.features = h x.features
    · rw [if_pos e]; rfl
    · rw [if_neg e]
      refine ih (fun hh => hx (by simp [hh])) ?_
      obtain ⟨y, hy, hyx⟩ := hc
      rcases List.mem_cons.1 hy with rfl | hy
      · exact absurd hyx e
      · exact ⟨y, hy, hyx⟩

theorem rIn_state_ok {h : List ℚ → Nat} {l : List VecState} {x : VecState} (hc : ∀ y ∈ l, h y.features = h x.features → y = x) :
    rIn (sameState h) l x = .ok (decide (x ∈ l)) := by
  apply rIn_of
  intro y hy
  unfold sameState
  by_cases e : y = x
  · simp [e]
  · rw [if_neg e, if_neg fun hh => e (hc y hy hh)]; simp [e]

theorem rAdd_state {h : List ℚ → Nat} {l : List VecState} (hl : HashDistinct h l) (x : VecState) :
    ((∃ y ∈ l, y ≠ x ∧ h y.features = h x.features) ∧ rAdd (sameState h) l x = .error .typeError) ∨
      ((∀ y ∈ l, h y.features = h x.features → y = x) ∧ rAdd (sameState h) l x = .ok (setAdd l x) ∧ HashDistinct h (setAdd l x)) := by
  by_cases hc : ∃ y ∈ l, y ≠ x ∧ h y.features = h x.features
  · left
    refine ⟨hc, ?_⟩
    obtain ⟨y, hy, hne, he⟩ := hc
    have hx : x ∉ l := by
      intro hx
      exact hashDistinct_forall hl hy hx hne he
    unfold rAdd
    rw [rIn_state_error hx ⟨y, hy, he⟩]
  · right
    have hc' : ∀ y ∈ l, h y.features = h x.features → y = x := fun y hy he => by
      by_contra hne
      exact hc ⟨y, hy, hne, he⟩
    refine ⟨hc', ?_, ?_⟩
    · unfold rAdd setAdd
      rw [rIn_state_ok hc']
      by_cases e : x ∈ l <;> simp [e]
    · unfold setAdd
      by_cases e : x ∈ l
      · rw [if_pos e]; exact hl
      · rw [if_neg e]
        refine List.pairwise_append.2 ⟨hl, by simp, ?_⟩
        intro y hy z hz
        rw [List.mem_singleton] at hz
        subst hz
        intro hh
        exact e (hc' y hy hh ▸ hy)

theorem rGet_state {ν : Type} {h : List ℚ → Nat} {l : List (VecState × ν)} (hl : HashDistinct h (l.map Prod.fst)) (x : VecState) :
    ((∃ y ∈ l.map Prod.fst, y ≠ x ∧ h y.features = h x.features) ∧ rGet (sameState h) l x = .error .typeError) ∨
      ((∀ y ∈ l.map Prod.fst, h y.features = h x.features → y = x) ∧ rGet (sameState h) l x = .ok (dget l x)) := by
  induction l with
  | nil => right; simp [rGet, dget]
  | cons z l ih =>
    obtain ⟨k, v⟩ := z
    have hl' := List.pairwise_cons.1 (show HashDistinct h (k :: l.map Prod.fst) from hl)
    rw [rGet, dget, sameState]
    by_cases e : k = x
    · subst e
      right
      refine ⟨?_, by simp⟩
      intro y hy he
      rcases List.mem_cons.1 (show y ∈ k :: l.map Prod.fst from hy) with h1 | h1
      · exact h1
      · exact absurd he.symm (hl'.1 y h1)
    · rw [if_neg e, if_neg e]
      by_cases eh : h k.features = h x.features
      · left
        rw [if_pos eh]
        exact ⟨⟨k, by simp, e, eh⟩, rfl⟩
      · rw [if_neg eh]
        rcases ih hl'.2 with ⟨⟨y, hy, h1, h2⟩, h3⟩ | ⟨h1, h2⟩
        · left
          exact ⟨⟨y, List.mem_cons_of_mem _ hy, h1, h2⟩, h3⟩
        · right
          refine ⟨?_, h2⟩
          intro y hy he
          rcases List.mem_cons.1 (show y ∈ k :: l.map Prod.fst from hy) with h3 | h3
          · subst h3; exact absurd he eh
          · exact h1 y h3 he

theorem keys_dset_setAdd {κ ν : Type} [DecidableEq κ] (l : List (κ × ν)) (k : κ) (v : ν) : (dset l k v).map Prod.fst = setAdd (l.map Prod.fst) k := by
  induction l with
  | nil => rfl
  | cons y l ih =>
    obtain ⟨k', v'⟩ := y
    rw [dset]
    unfold setAdd at ih ⊢
    by_cases e : k' = k
    · subst e; simp
    · have e' : k ≠ k' := fun h => e h.symm
      rw [if_neg e, List.map_cons, ih]
      by_cases m : k ∈ l.map Prod.fst
      · rw [if_pos m, if_pos (by simp [m] : k ∈ ((k', v') :: l).map Prod.fst)]; rfl
      · rw [if_neg m, if_neg (by simpa [e'] using m : k ∉ ((k', v') :: l).map Prod.fst)]; rfl

section
variable {A : Type} [DecidableEq A] {h : List ℚ → Nat} {ph : A → Nat → Nat}

theorem samePair_error {y x : A × VecState} {e : PyErr} (he : samePair h ph y x = .error e) : e = .typeError := by
  unfold samePair at he
  split at he
  · split at he
    · split at he
      · cases he
      · cases he; rfl
    · cases he
  · cases he

theorem rIn_error {κ : Type} {same : κ → κ → Py Bool} (hs : ∀ y x e, same y x = .error e → e = .typeError) {l : List κ} {x : κ} {e : PyErr}
    (he : rIn same l x = .error e) : e = .typeError := by
  induction l with
  | nil => cases he
  | cons y l ih =>
    rw [rIn] at he
    cases hy : same y x with
    | error e' => rw [hy] at he; cases he; exact hs _ _ _ hy
    | ok b =>
      rw [hy] at he
      cases b
      · exact ih he
      · cases he

theorem rAdd_error {κ : Type} {same : κ → κ → Py Bool} (hs : ∀ y x e, same y x = .error e → e = .typeError) {l : List κ} {x : κ} {e : PyErr}
    (he : rAdd same l x = .error e) : e = .typeError := by
  unfold rAdd at he
  cases hy : rIn same l x with
  | error e' => rw [hy] at he; cases he; exact rIn_error hs hy
  | ok b => rw [hy] at he; cases b <;> cases he

/-- The initial states, the terminal ones and the states with transitions have different hashes. -/
def Distinct (h : List ℚ → Nat) (g : TaskGraph VecState A) : Prop :=
  HashDistinct h g.initial ∧ HashDistinct h g.terminal ∧ HashDistinct h (g.transitions.map Prod.fst)

theorem vAddTransition_cases {b : BaseGraph VecState A} (hb : HashDistinct h (b.transitions.map Prod.fst)) (s : VecState) (l : A) (d : VecState) :
    vAddTransition h ph s l d b = .error .typeError ∨
      ∃ b', vAddTransition h ph s l d b = .ok b' ∧ HashDistinct h (b'.transitions.map Prod.fst) := by
  unfold vAddTransition
  rcases rGet_state hb s with ⟨_, h1⟩ | ⟨h0, h1⟩
  · left; rw [h1]
  · rw [h1]
    simp only
    cases e : rAdd (samePair h ph) ((dget b.transitions s).getD []) (l, d) with
    | error e' => left; rw [rAdd_error (fun _ _ _ => samePair_error) e]
    | ok out =>
      right
      refine ⟨_, rfl, ?_⟩
      show HashDistinct h ((dset b.transitions s out).map Prod.fst)
      rw [keys_dset_setAdd]
      rcases rAdd_state hb s with ⟨⟨y, hy, hne, he⟩, _⟩ | ⟨_, _, h2⟩
      · exact absurd (h0 y hy he) hne
      · exact h2

theorem vAddSteps_cases (ts : List (VecState × A × VecState)) : ∀ g : TaskGraph VecState A, Distinct h g →
    ((vAddSteps h ph ts g).1 = .ok () ∨ (vAddSteps h ph ts g).1 = .error .typeError) ∧ Distinct h (vAddSteps h ph ts g).2 ∧
      (vAddSteps h ph ts g).2.initial = g.initial ∧ (vAddSteps h ph ts g).2.terminal = g.terminal := by
  induction ts with
  | nil => intro g hg; exact ⟨Or.inl rfl, hg, rfl, rfl⟩
  | cons t ts ih =>
    intro g hg
    rw [vAddSteps]
    rcases vAddTransition_cases (ph := ph) hg.2.2 t.1 t.2.1 t.2.2 with h1 | ⟨b', h1, h2⟩
    · rw [h1]; exact ⟨Or.inr rfl, hg, rfl, rfl⟩
    · rw [h1]; exact ih { g with toBaseGraph := b' } ⟨hg.1, hg.2.1, h2⟩

theorem vAddPath_some {chk : A → VecState → VecState → Bool} {p : List (Elem VecState A)} (hc : checkPath chk p = true) {x z : VecState}
    (h0 : p.head? = some (.state x)) (hn : p.getLast? = some (.state z)) (g : TaskGraph VecState A) :
    vAddPath h ph chk p g = ((vAddInitial h x >>= fun _ => vAddTerminal h z : M (TaskGraph VecState A) Unit) >>= fun _ => vAddSteps h ph (typedSteps p)) g := by
  unfold vAddPath vAddEnds
  rw [if_pos hc, h0, hn]

theorem vAddInitial_cases {g : TaskGraph VecState A} (hg : Distinct h g) (x : VecState) :
    ((∃ y ∈ g.initial, y ≠ x ∧ h y.features = h x.features) ∧ vAddInitial h x g = (.error .typeError, g)) ∨
      ((∀ y ∈ g.initial, h y.features = h x.features → y = x) ∧ vAddInitial h x g = (.ok (), { g with initial := setAdd g.initial x }) ∧
        Distinct h { g with initial := setAdd g.initial x }) := by
  unfold vAddInitial
  rcases rAdd_state hg.1 x with ⟨h1, h2⟩ | ⟨h1, h2, h3⟩
  · left; rw [h2]; exact ⟨h1, rfl⟩
  · right; rw [h2]; exact ⟨h1, rfl, h3, hg.2⟩

theorem vAddTerminal_cases {g : TaskGraph VecState A} (hg : Distinct h g) (x : VecState) :
    ((∃ y ∈ g.terminal, y ≠ x ∧ h y.features = h x.features) ∧ vAddTerminal h x g = (.error .typeError, g)) ∨
      ((∀ y ∈ g.terminal, h y.features = h x.features → y = x) ∧ vAddTerminal h x g = (.ok (), { g with terminal := setAdd g.terminal x }) ∧
        Distinct h { g with terminal := setAdd g.terminal x }) := by
  unfold vAddTerminal
  rcases rAdd_state hg.2.1 x with ⟨h1, h2⟩ | ⟨h1, h2, h3⟩
  · left; rw [h2]; exact ⟨h1, rfl⟩
  · right; rw [h2]; exact ⟨h1, rfl, hg.1, h3, hg.2.2⟩

/-- What `add_path` can do to a graph whose sets have different hashes. -/
theorem vAddPath_cases {g : TaskGraph VecState A} (hg : Distinct h g) (chk : A → VecState → VecState → Bool) {p : List (Elem VecState A)}
    (hc : checkPath chk p = true) (hne : p ≠ []) : ∃ x z, Starts p x ∧ Ends p z ∧
    (((∃ y ∈ g.initial, y ≠ x ∧ h y.features = h x.features) ∧ vAddPath h ph chk p g = (.error .typeError, g)) ∨
     ((∀ y ∈ g.initial, h y.features = h x.features → y = x) ∧ (∃ y ∈ g.terminal, y ≠ z ∧ h y.features = h z.features) ∧
        vAddPath h ph chk p g = (.error .typeError, { g with initial := setAdd g.initial x }) ∧ Distinct h { g with initial := setAdd g.initial x }) ∨
     ((∀ y ∈ g.initial, h y.features = h x.features → y = x) ∧ (∀ y ∈ g.terminal, h y.features = h z.features → y = z) ∧
        ((vAddPath h ph chk p g).1 = .ok () ∨ (vAddPath h ph chk p g).1 = .error .typeError) ∧ Distinct h (vAddPath h ph chk p g).2 ∧
        (vAddPath h ph chk p g).2.initial = setAdd g.initial x ∧ (vAddPath h ph chk p g).2.terminal = setAdd g.terminal z)) := by
  obtain ⟨x, h0⟩ := checkPath_head hc hne
  obtain ⟨z, hn⟩ := checkPath_last p hc hne
  refine ⟨x, z, h0, hn, ?_⟩
  rw [vAddPath_some hc h0 hn, M.bind_run, M.bind_run]
  rcases vAddInitial_cases hg x with ⟨h1, h2⟩ | ⟨h1, h2, h3⟩
  · left; rw [h2]; exact ⟨h1, rfl⟩
  · right
    rw [h2]
    simp only
    rcases vAddTerminal_cases h3 z with ⟨h4, h5⟩ | ⟨h4, h5, h6⟩
    · left; rw [h5]; exact ⟨h1, h4, rfl, h3⟩
    · right
      rw [h5]
      obtain ⟨a, b, c, d⟩ := vAddSteps_cases (ph := ph) (typedSteps p) _ h6
      exact ⟨h1, h4, a, b, c, d⟩

theorem vAddPath_nil (chk : A → VecState → VecState → Bool) (g : TaskGraph VecState A) : vAddPath h ph chk [] g = (.ok (), g) := rfl

theorem vAddPath_bad {chk : A → VecState → VecState → Bool} {p : List (Elem VecState A)} (hc : ¬ checkPath chk p = true) (g : TaskGraph VecState A) :
    vAddPath h ph chk p g = (.error .valueError, g) := by
  unfold vAddPath; rw [if_neg hc]; rfl

theorem vAddPath_distinct {g : TaskGraph VecState A} (hg : Distinct h g) (chk : A → VecState → VecState → Bool) (p : List (Elem VecState A)) :
    Distinct h (vAddPath h ph chk p g).2 := by
  by_cases hc : checkPath chk p = true
  · by_cases hne : p = []
    · subst hne; exact hg
    · obtain ⟨x, z, _, _, ⟨_, h1⟩ | ⟨_, _, h1, h2⟩ | ⟨_, _, _, h2, _⟩⟩ := vAddPath_cases (ph := ph) hg chk hc hne
      · rw [h1]; exact hg
      · rw [h1]; exact h2
      · exact h2
  · rw [vAddPath_bad hc]; exact hg

theorem foldlM_rAdd (l : List VecState) : ∀ acc : List VecState, HashDistinct h acc →
    ((∃ x ∈ acc ++ l, ∃ y ∈ acc ++ l, x ≠ y ∧ h x.features = h y.features) ∧ l.foldlM (rAdd (sameState h)) acc = .error .typeError) ∨
      ((∀ x ∈ acc ++ l, ∀ y ∈ acc ++ l, h x.features = h y.features → x = y) ∧ ∃ r, l.foldlM (rAdd (sameState h)) acc = .ok r ∧ r.Nodup ∧ ∀ x, x ∈ r ↔ x ∈ acc ++ l) := by
  induction l with
  | nil =>
    intro acc ha
    right
    refine ⟨?_, acc, rfl, ha.imp fun hab e => hab (by rw [e]), by simp⟩
    intro x hx y hy he
    rw [List.append_nil] at hx hy
    by_contra hne
    exact hashDistinct_forall ha hx hy hne he
  | cons z l ih =>
    intro acc ha
    rw [List.foldlM_cons]
    rcases rAdd_state ha z with ⟨⟨y, hy, hne, he⟩, h2⟩ | ⟨h1, h2, h3⟩
    · left
      rw [h2]
      exact ⟨⟨y, by simp [hy], z, by simp, hne, he⟩, rfl⟩
    · rw [h2]
      have hm : ∀ x, x ∈ setAdd acc z ++ l ↔ x ∈ acc ++ z :: l := by
        intro x
        simp only [List.mem_append, mem_setAdd, List.mem_cons]
        tauto
      rcases ih _ h3 with ⟨⟨x, hx, y, hy, h4, h5⟩, h6⟩ | ⟨h4, r, h5, h6, h7⟩
      · left
        exact ⟨⟨x, (hm x).1 hx, y, (hm y).1 hy, h4, h5⟩, h6⟩
      · right
        refine ⟨fun x hx y hy => h4 x ((hm x).2 hx) y ((hm y).2 hy), r, h5, h6, fun x => (h7 x).trans (hm x)⟩

end

end Verif
