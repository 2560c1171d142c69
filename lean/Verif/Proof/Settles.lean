import Verif.Props.Experiment

/-! Searches whose rollouts end, without a bound known in advance. -/

set_option linter.unusedSectionVars false
set_option linter.unusedSimpArgs false

namespace Verif
open Spec

namespace M
variable {S α β : Type}

/-- As soon as the bound is large enough, the computation does not depend on it, and its result satisfies `Q` or `E`. -/
def Settles (x : Nat → M S α) (s : S) (Q : α → S → Prop) (E : PyErr → S → Prop) : Prop :=
  ∃ B, (∀ B' ≥ B, x B' s = x B s) ∧ Post (x B) s Q E

theorem settles_const {x : M S α} {s : S} {Q : α → S → Prop} {E : PyErr → S → Prop} (h : Post x s Q E) : Settles (fun _ => x) s Q E :=
  ⟨0, fun _ _ => rfl, h⟩

theorem settles_mono {x : Nat → M S α} {s : S} {Q Q' : α → S → Prop} {E E' : PyErr → S → Prop} (h : Settles x s Q E)
    (hq : ∀ a s', Q a s' → Q' a s') (he : ∀ e s', E e s' → E' e s') : Settles x s Q' E' := by
  obtain ⟨B, h1, h2⟩ := h
  exact ⟨B, h1, post_mono h2 hq he⟩

/-- With what holds for every bound. -/
theorem settles_and {x : Nat → M S α} {s : S} {Q Q2 : α → S → Prop} {E E2 : PyErr → S → Prop} {Q' : Nat → α → S → Prop}
    {E' : Nat → PyErr → S → Prop} (h : Settles x s Q E) (h' : ∀ B, Post (x B) s (Q' B) (E' B))
    (hq : ∀ B a s', Q a s' → Q' B a s' → Q2 a s') (he : ∀ B e s', E e s' → E' B e s' → E2 e s') :
    Settles x s Q2 E2 := by
  obtain ⟨B, h1, h2⟩ := h
  have h3 := h' B
  rw [post_iff] at h2 h3
  exact ⟨B, h1, post_iff.2 ⟨fun a s' h => hq B a s' (h2.1 a s' h) (h3.1 a s' h), fun e s' h => he B e s' (h2.2 e s' h) (h3.2 e s' h)⟩⟩

theorem settles_of_eq {x y : Nat → M S α} {s : S} {Q : α → S → Prop} {E : PyErr → S → Prop} (B0 : Nat) (he : ∀ B ≥ B0, x B s = y B s)
    (h : Settles y s Q E) : Settles x s Q E := by
  obtain ⟨B, h1, h2⟩ := h
  refine ⟨max B B0, fun B' hB => ?_, ?_⟩
  · rw [he B' (by omega), he (max B B0) (by omega), h1 B' (by omega), h1 (max B B0) (by omega)]
  · unfold Post at *
    rw [he (max B B0) (by omega), h1 (max B B0) (by omega)]
    exact h2

theorem settles_bind {x : Nat → M S α} {f : Nat → α → M S β} {s : S} {Q1 : α → S → Prop} {E1 E : PyErr → S → Prop} {Q : β → S → Prop}
    (hx : Settles x s Q1 E1) (he : ∀ e s1, E1 e s1 → E e s1) (hf : ∀ a s1, Q1 a s1 → Settles (fun B => f B a) s1 Q E) :
    Settles (fun B => x B >>= f B) s Q E := by
  obtain ⟨B, h1, h2⟩ := hx
  rcases h3 : x B s with ⟨r, s1⟩
  cases r with
  | ok a =>
      have hq : Q1 a s1 := (post_of_ok h3).1 h2
      obtain ⟨B1, g1, g2⟩ := hf a s1 hq
      have e : ∀ B' ≥ max B B1, (x B' >>= f B') s = f B1 a s1 := by
        intro B' hB
        rw [bind_of_ok (show x B' s = (.ok a, s1) by rw [h1 B' (by omega), h3])]
        exact g1 B' (by omega)
      refine ⟨max B B1, fun B' hB => (e B' hB).trans (e _ (le_refl _)).symm, ?_⟩
      have g3 : Post (f B1 a) s1 Q E := g2
      show Post (x (max B B1) >>= f (max B B1)) s Q E
      unfold Post at g3 ⊢
      rw [e _ (le_refl _)]
      exact g3
  | error er =>
      have e : ∀ B' ≥ B, (x B' >>= f B') s = (.error er, s1) := by
        intro B' hB
        exact bind_of_error (by rw [h1 B' hB, h3])
      refine ⟨B, fun B' hB => (e B' hB).trans (e _ (le_refl _)).symm, ?_⟩
      exact (post_of_error (e B (le_refl _))).2 (he _ _ ((post_of_error h3).1 h2))

/-- A computation that does not depend on the bound, and another one. -/
theorem settles_post_bind {x : M S α} {f : Nat → α → M S β} {s : S} {Q1 : α → S → Prop} {E1 E : PyErr → S → Prop} {Q : β → S → Prop}
    (hx : Post x s Q1 E1) (he : ∀ e s1, E1 e s1 → E e s1) (hf : ∀ a s1, Q1 a s1 → Settles (fun B => f B a) s1 Q E) :
    Settles (fun B => x >>= f B) s Q E := settles_bind (settles_const hx) he hf

theorem settles_ok_bind {x : M S α} {f : Nat → α → M S β} {s s1 : S} {a : α} {Q : β → S → Prop} {E : PyErr → S → Prop}
    (hx : x s = (.ok a, s1)) (h : Settles (fun B => f B a) s1 Q E) : Settles (fun B => x >>= f B) s Q E :=
  settles_post_bind (Q1 := fun b s2 => b = a ∧ s2 = s1) (E1 := fun _ _ => False) ((post_of_ok hx).2 ⟨rfl, rfl⟩) (fun _ _ h => h.elim)
    (fun b s2 h2 => by obtain ⟨rfl, rfl⟩ := h2; exact h)

theorem settles_read_bind {g : S → α} {f : Nat → α → M S β} {s : S} {Q : β → S → Prop} {E : PyErr → S → Prop}
    (h : Settles (fun B => f B (g s)) s Q E) : Settles (fun B => read g >>= f B) s Q E := settles_ok_bind (s1 := s) rfl h

theorem settles_ite {c : Prop} [Decidable c] {x y : Nat → M S α} {s : S} {Q : α → S → Prop} {E : PyErr → S → Prop}
    (hx : c → Settles x s Q E) (hy : ¬ c → Settles y s Q E) : Settles (fun B => if c then x B else y B) s Q E := by
  by_cases h : c
  · simp only [if_pos h]; exact hx h
  · simp only [if_neg h]; exact hy h

theorem settles_try {x : Nat → M S α} {y : M S α} {e : PyErr} {s : S} {Q : α → S → Prop} {E E1 : PyErr → S → Prop}
    (hx : Settles x s Q E1) (he : ∀ e' s1, e' ≠ e → E1 e' s1 → E e' s1) (hy : ∀ s1, E1 e s1 → Post y s1 Q E) :
    Settles (fun B => tryExcept (x B) e y) s Q E := by
  obtain ⟨B, h1, h2⟩ := hx
  refine ⟨B, fun B' hB => ?_, post_try h2 (fun _ _ _ h => h) he (fun s1 _ h => hy s1 h)⟩
  show tryExcept (x B') e y s = tryExcept (x B) e y s
  unfold tryExcept
  rw [h1 B' hB]

end M

variable {σ β η : Type}

theorem onRng_settles {α : Type} {m : Nat → M σ α} {st : SearchState σ β} {Q : α → SearchState σ β → Prop} {E : PyErr → SearchState σ β → Prop}
    (h : M.Settles m st.rng (fun a g => Q a ⟨st.tree, g⟩) (fun e g => E e ⟨st.tree, g⟩)) : M.Settles (fun B => onRng (m B)) st Q E := by
  obtain ⟨B, h1, h2⟩ := h
  refine ⟨B, fun B' hB => ?_, onRng_post _ _ h2⟩
  show onRng (m B') st = onRng (m B) st
  unfold onRng
  rw [h1 B' hB]

theorem onSearch_settles [DecidableEq β] {α : Type} {m : Nat → M (SearchState σ β) α} {rs : SearchRunner σ β} {Q : α → SearchRunner σ β → Prop}
    {E : PyErr → SearchRunner σ β → Prop}
    (h : M.Settles m rs.search (fun a s => Q a { rs with search := s }) (fun e s => E e { rs with search := s })) :
    M.Settles (fun B => onSearch (m B)) rs Q E := by
  obtain ⟨B, h1, h2⟩ := h
  refine ⟨B, fun B' hB => ?_, onSearch_post _ _ h2⟩
  show onSearch (m B') rs = onSearch (m B) rs
  unfold onSearch
  rw [h1 B' hB]

/-- The search with another bound of the loops. -/
def Search.withBound (S : Search σ β η) (B : Nat) : Search σ β η := { S with bound := B }

/-- The rollouts end. -/
def RolloutsEnd (sim : Sim σ β) (hor : HorizonOps η) (state : Nat → Prop) : Prop :=
  ∀ (s : Nat) (h : η) (gamma full : ℚ) (g : σ), state s →
    M.Settles (fun B => rolloutLoop sim hor B s h gamma full) g (fun _ _ => True) (fun _ _ => False)

section
variable {ok : β → Prop} {inside : β → Nat → Prop} {state : Nat → Prop} {S : Search σ β η}

theorem rollouts_settles (hs : SafeSim S.sim ok inside state) (hr : RolloutsEnd S.sim S.hor state) (b : β) (hb : ok b) (h : η) :
    ∀ (k : Nat) (total : ℚ) (g : σ), M.Settles (fun B => rollouts (S.withBound B) b h k total) g (fun _ _ => True) (fun _ _ => False) := by
  intro k
  induction k with
  | zero => intro total g; exact M.settles_const (M.post_pure.2 trivial)
  | succ k ih =>
      intro total g
      obtain ⟨s, g1, h1, _, h2⟩ := hs.sample b hb g
      unfold rollouts
      refine M.settles_ok_bind (f := fun B s => do
        let x ← rolloutLoop S.sim S.hor B s (S.hor.copy h) 1 0
        rollouts (S.withBound B) b h k (total + x)) h1 ?_
      exact M.settles_bind (hr s (S.hor.copy h) 1 0 g1 h2) (fun _ _ h => h) (fun x g2 _ => ih _ _)

theorem rolloutFromNode_settles (hs : SafeSim S.sim ok inside state) (hr : RolloutsEnd S.sim S.hor state) (hit : 0 < S.rolloutIt)
    (i : Nat) (h : η) (st : SearchState σ β) (hb : ok (st.tree.nodes i).belief) :
    M.Settles (fun B => rolloutFromNode (S.withBound B) i h) st (fun _ _ => True) (fun _ _ => False) := by
  unfold rolloutFromNode
  refine M.settles_ite (c := S.hor.isReached h = true) (x := fun _ => pure 0) (y := fun B => do
    let b ← M.read fun st => (st.tree.nodes i).belief
    let x ← onRng (rollouts (S.withBound B) b h S.rolloutIt 0)
    let y ← M.lift (if S.rolloutIt = 0 then .error .zeroDivisionError else .ok (x / S.rolloutIt))
    updateNode S.alpha i y
    pure y) (fun _ => M.settles_const (M.post_pure.2 trivial)) (fun _ => ?_)
  refine M.settles_read_bind (f := fun B b => do
    let x ← onRng (rollouts (S.withBound B) b h S.rolloutIt 0)
    let y ← M.lift (if S.rolloutIt = 0 then .error .zeroDivisionError else .ok (x / S.rolloutIt))
    updateNode S.alpha i y
    pure y) ?_
  refine M.settles_bind (Q1 := fun _ _ => True) (E1 := fun _ _ => False) (onRng_settles (rollouts_settles hs hr _ hb h _ _ _)) (fun _ _ h => h) ?_
  intro x s1 _
  refine M.settles_const (x := do
    let y ← M.lift (if S.rolloutIt = 0 then .error .zeroDivisionError else .ok (x / S.rolloutIt))
    updateNode S.alpha i y
    pure y) ?_
  rw [if_neg (by omega)]
  exact M.post_ok_bind (a := x / S.rolloutIt) (s1 := s1) rfl trivial

variable [DecidableEq β] {b0 : β}

theorem TInv.withBound {t : Tree β} (h : TInv S b0 t) (B : Nat) : TInv (S.withBound B) b0 t :=
  ⟨h.pos, h.root, h.len, h.fresh, h.range, h.succ, h.look, h.reach, h.sum, h.plainRoot, h.plain, h.keys⟩

theorem TInv.ofBound {t : Tree β} {B : Nat} (h : TInv (S.withBound B) b0 t) : TInv S b0 t :=
  ⟨h.pos, h.root, h.len, h.fresh, h.range, h.succ, h.look, h.reach, h.sum, h.plainRoot, h.plain, h.keys⟩

theorem RInv.withBound {rs : SearchRunner σ β} {k : Known} (h : RInv S b0 rs k) (B : Nat) : RInv (S.withBound B) b0 rs k :=
  ⟨h.tree.withBound B, h.node, h.follow, h.names, h.last, h.known⟩

theorem RInv.ofBound {rs : SearchRunner σ β} {k : Known} {B : Nat} (h : RInv (S.withBound B) b0 rs k) : RInv S b0 rs k :=
  ⟨h.tree.ofBound, h.node, h.follow, h.names, h.last, h.known⟩

theorem expand_settles (hs : SafeSim S.sim ok inside state) (hr : RolloutsEnd S.sim S.hor state) (hit : 0 < S.rolloutIt) (h0 : ok b0)
    {i a o : Nat} {h : η} {st : SearchState σ β} (ht : TInv S b0 st.tree) (hi : i < st.tree.size)
    (ha : st.tree.anode i a ≠ none) (hn : st.tree.next i a o = none)
    (hre : ∀ g2 e g3, S.sim.successor (st.tree.nodes i).belief a o g2 = (.error e, g3) → e = .maxSamplesReached) :
    M.Settles (fun B => expand (S.withBound B) i a o h) st (fun _ _ => True) (fun _ _ => False) := by
  unfold expand
  refine M.settles_try (E1 := fun e _ => e = .maxSamplesReached) ?_ (fun _ _ h h' => h h') (fun s1 _ => M.post_pure.2 trivial)
  refine M.settles_post_bind (x := createChild S i a o) (f := fun B j => rolloutFromNode (S.withBound B) j h)
    (createChild_post ht hi ha hn) ?_ ?_
  · rintro e s1 ⟨_, h1⟩
    exact hre _ _ _ h1
  · rintro j s1 ⟨g1, _, _, g4, _⟩
    exact M.settles_mono (rolloutFromNode_settles hs hr hit j h s1 ((g1.reach j g4).holds hs h0)) (fun _ _ h => h) (fun _ _ h => h.elim)

/-- A simulation ends; it may exceed the recursion limit. -/
theorem simulate_settles (hs : SafeSim S.sim ok inside state) (hr : RolloutsEnd S.sim S.hor state) (hit : 0 < S.rolloutIt) (h0 : ok b0) :
    ∀ (fuel i s : Nat) (h : η) (act : Option Nat) (st : SearchState σ β), TInv S b0 st.tree →
    i < st.tree.size → inside (st.tree.nodes i).belief s → state s → (∀ a, act = some a → a < S.sim.nActions) →
    M.Settles (fun B => simulate (S.withBound B) fuel i s h act) st (fun _ _ => True) (fun e _ => e = .runtimeError) := by
  intro fuel
  induction fuel with
  | zero => intro i s h act st _ _ _ _ _; exact M.settles_const (M.post_raise.2 rfl)
  | succ fuel ih =>
      intro i s h act st ht hi hin hst hact
      unfold simulate
      refine M.settles_ite (c := S.hor.isReached h = true) (x := fun _ => M.read fun st => (st.tree.nodes i).avg.value) (y := fun B => do
        let a ← chooseAction S i act
        safeGetChild i a
        let x ← onRng (S.sim.sampleTransition a s)
        let j ← M.read fun st => st.tree.next i a x.2.1
        let y ← proceed (S.withBound B) i a x.2.1 (S.hor.decrement a s x.1 x.2.1 h)
          (fun j => simulate (S.withBound B) fuel j x.1 (S.hor.decrement a s x.1 x.2.1 h) none) j
        updateBoth S.alpha i a (x.2.2 + S.sim.discount * y)) (fun _ => M.settles_const (M.post_read.2 trivial)) (fun hre => ?_)
      have hc : M.Post (chooseAction S i act) st (fun a s1 => s1.tree = st.tree ∧ a < S.sim.nActions) (fun _ _ => False) := by
        cases act with
        | some a => exact M.post_pure.2 ⟨rfl, hact a rfl⟩
        | none =>
            have p1 := getBest_post S.sim S.bonus S.exploration S.relative i st
            have p2 := getBest_safe hs S.bonus S.exploration S.relative i st (ht.len i) (ht.sum i)
            rw [M.post_iff] at p1 p2
            show M.Post (getBestAction _ _ _ _ _) st _ _
            rw [M.post_iff]
            refine ⟨fun a s1 h1 => ?_, fun e s1 h1 => p2.2 e s1 h1⟩
            obtain ⟨q1, q2, _⟩ := p1.1 a s1 h1
            rw [ht.len] at q2
            exact ⟨q1, q2⟩
      refine M.settles_post_bind (x := chooseAction S i act) (f := fun B a => do
        safeGetChild i a
        let x ← onRng (S.sim.sampleTransition a s)
        let j ← M.read fun st => st.tree.next i a x.2.1
        let y ← proceed (S.withBound B) i a x.2.1 (S.hor.decrement a s x.1 x.2.1 h)
          (fun j => simulate (S.withBound B) fuel j x.1 (S.hor.decrement a s x.1 x.2.1 h) none) j
        updateBoth S.alpha i a (x.2.2 + S.sim.discount * y)) hc (fun _ _ h => h.elim) ?_
      rintro a s1 ⟨h1, ha⟩
      have ht1 : TInv S b0 s1.tree := by rw [h1]; exact ht
      have hi1 : i < s1.tree.size := by rw [h1]; exact hi
      refine M.settles_post_bind (f := fun B _ => do
        let x ← onRng (S.sim.sampleTransition a s)
        let j ← M.read fun st => st.tree.next i a x.2.1
        let y ← proceed (S.withBound B) i a x.2.1 (S.hor.decrement a s x.1 x.2.1 h)
          (fun j => simulate (S.withBound B) fuel j x.1 (S.hor.decrement a s x.1 x.2.1 h) none) j
        updateBoth S.alpha i a (x.2.2 + S.sim.discount * y)) (safeGetChild_post (a := a) ht1 hi1) (fun e s2 h2 => by have := h2.2.2; omega) ?_
      rintro _ s2 ⟨_, ht2, hg2, _, ha2, _, _, hs2, _, _⟩
      have hbel : (s2.tree.nodes i).belief = (st.tree.nodes i).belief := by rw [hg2.belief i hi1, h1]
      obtain ⟨x, g, hx, hxs⟩ := hs.trans a s ha hst s2.rng
      refine M.settles_ok_bind (f := fun B (x : Nat × Nat × ℚ) => do
        let j ← M.read fun st => st.tree.next i a x.2.1
        let y ← proceed (S.withBound B) i a x.2.1 (S.hor.decrement a s x.1 x.2.1 h)
          (fun j => simulate (S.withBound B) fuel j x.1 (S.hor.decrement a s x.1 x.2.1 h) none) j
        updateBoth S.alpha i a (x.2.2 + S.sim.discount * y)) (a := x) (s1 := ⟨s2.tree, g⟩)
        (by show onRng _ _ = _; unfold onRng; rw [hx]) ?_
      refine M.settles_read_bind (f := fun B j => do
        let y ← proceed (S.withBound B) i a x.2.1 (S.hor.decrement a s x.1 x.2.1 h)
          (fun j => simulate (S.withBound B) fuel j x.1 (S.hor.decrement a s x.1 x.2.1 h) none) j
        updateBoth S.alpha i a (x.2.2 + S.sim.discount * y)) ?_
      have hi3 : i < s2.tree.size := by rw [hs2]; exact hi1
      have hok : ok (st.tree.nodes i).belief := (ht.reach i hi).holds hs h0
      refine M.settles_bind (Q1 := fun _ _ => True) (E1 := fun e _ => e = .runtimeError) ?_ (fun _ _ h => h) ?_
      · rcases hj : s2.tree.next i a x.2.1 with _ | j
        · refine M.settles_mono (expand_settles hs hr hit h0 ht2 hi3 ha2 hj ?_) (fun _ _ h => h) (fun _ _ h => h.elim)
          rw [show ((⟨s2.tree, g⟩ : SearchState σ β).tree.nodes i).belief = _ from hbel]
          exact hs.noRaise _ s a x _ _ hok hin ha hx
        · refine ih j _ _ _ _ ht2 (ht2.range i a _ j hj).1 ?_ hxs (fun a h => by cases h)
          have := ht2.succ i a _ j hj
          rw [hbel] at this
          exact hs.follows _ s a x _ _ hok hin ha hx _ this
      · intro y s5 _
        refine M.settles_const (x := updateBoth S.alpha i a (x.2.2 + S.sim.discount * y)) ?_
        rw [M.post_of_ok (updateBoth_run ..)]
        trivial

theorem simulateFromNode_settles (hs : SafeSim S.sim ok inside state) (hr : RolloutsEnd S.sim S.hor state) (hit : 0 < S.rolloutIt) (h0 : ok b0)
    (i : Nat) (act : Option Nat) (hact : ∀ a, act = some a → a < S.sim.nActions) (st : SearchState σ β) (ht : TInv S b0 st.tree)
    (hi : i < st.tree.size) :
    M.Settles (fun B => simulateFromNode (S.withBound B) i act) st (fun _ _ => True) (fun e _ => e = .runtimeError) := by
  unfold simulateFromNode
  refine M.settles_read_bind (f := fun B b => do
    let s ← onRng (S.sim.sampleBelief b)
    let _ ← simulate (S.withBound B) S.fuel i s S.horizon act
    pure ()) ?_
  obtain ⟨s, g, h1, h2, h3⟩ := hs.sample _ ((ht.reach i hi).holds hs h0) st.rng
  refine M.settles_ok_bind (f := fun B s => do
    let _ ← simulate (S.withBound B) S.fuel i s S.horizon act
    pure ()) (a := s) (s1 := ⟨st.tree, g⟩) (by show onRng _ _ = _; unfold onRng; rw [h1]) ?_
  exact M.settles_bind (simulate_settles hs hr hit h0 S.fuel i s S.horizon act _ ht hi h2 h3 hact) (fun _ _ h => h)
    (fun x s3 _ => M.settles_const (M.post_pure.2 trivial))

theorem simulateMany_settles (hs : SafeSim S.sim ok inside state) (hr : RolloutsEnd S.sim S.hor state) (hit : 0 < S.rolloutIt) (h0 : ok b0)
    (i : Nat) : ∀ (k : Nat) (st : SearchState σ β), TInv S b0 st.tree → i < st.tree.size →
    M.Settles (fun B => simulateMany (S.withBound B) i k) st (fun _ st' => TInv S b0 st'.tree) (fun e _ => e = .runtimeError) := by
  intro k
  induction k with
  | zero => intro st ht _; exact M.settles_const (M.post_pure.2 ht)
  | succ k ih =>
      intro st ht hi
      unfold simulateMany
      refine M.settles_bind (Q1 := fun _ s1 => TInv S b0 s1.tree ∧ i < s1.tree.size) (E1 := fun e _ => e = .runtimeError) ?_ (fun _ _ h => h) ?_
      · refine M.settles_and (simulateFromNode_settles hs hr hit h0 i none (by simp) st ht hi)
          (fun B => simulateFromNode_post (S := S.withBound B) i none st (ht.withBound B) hi) ?_ (fun _ _ _ h _ => h)
        rintro B _ s1 _ ⟨q1, q2⟩
        exact ⟨q1.ofBound, lt_of_lt_of_le hi q2.size⟩
      · rintro _ s1 ⟨h1, h2⟩
        exact ih s1 h1 h2

/-- `get_action` ends; it may exceed the recursion limit. -/
theorem searchGetAction_settles (hs : SafeSim S.sim ok inside state) (hr : RolloutsEnd S.sim S.hor state) (hit : 0 < S.rolloutIt) (h0 : ok b0)
    (n : Nat) (rs : SearchRunner σ β) (k : Known) (h : RInv S b0 rs k) :
    M.Settles (fun B => searchGetAction (S.withBound B) n) rs
      (fun name rs' => ∃ a, RInv S b0 rs' { k with last := some name } ∧ rs'.history = rs.history ∧ rs'.last = some a ∧
        a < S.sim.nActions ∧ S.sim.actions[a]? = some name) (fun e _ => e = .runtimeError) := by
  have hset : M.Settles (fun B => searchGetAction (S.withBound B) n) rs (fun _ rs' => ∃ a, rs'.last = some a) (fun e _ => e = .runtimeError) := by
    unfold searchGetAction
    refine M.settles_read_bind (f := fun B i => do
      onSearch (simulateMany (S.withBound B) i n)
      let a ← onSearch (getBestAction S.sim S.bonus 0 false i)
      M.modify fun st => { st with last := some a }
      M.lift (match S.sim.actions[a]? with | some n => .ok n | none => .error .indexError)) ?_
    refine M.settles_bind (Q1 := fun _ rs1 => TInv S b0 rs1.search.tree) (E1 := fun e _ => e = .runtimeError)
      (onSearch_settles (simulateMany_settles hs hr hit h0 rs.node n rs.search h.tree h.node)) (fun _ _ h => h) ?_
    intro _ rs1 h1
    refine M.settles_const (x := do
      let a ← onSearch (getBestAction S.sim S.bonus 0 false rs.node)
      M.modify fun st => { st with last := some a }
      M.lift (match S.sim.actions[a]? with | some n => .ok n | none => .error .indexError)) ?_
    have r1 := M.post_iff.1 (getBest_post S.sim S.bonus 0 false rs.node rs1.search)
    have r2 := M.post_iff.1 (getBest_safe hs S.bonus 0 false rs.node rs1.search (h1.len _) (h1.sum _))
    refine M.post_bind (Q1 := fun a _ => a < S.sim.nActions) (E1 := fun _ _ => False) (onSearch_post _ _ ?_) (fun _ _ h => h.elim) ?_
    · rw [M.post_iff]
      refine ⟨fun u s1 h2 => ?_, fun e s1 h1 => r2.2 e s1 h1⟩
      have := (r1.1 u s1 h2).2.1
      rw [h1.len] at this
      exact this
    · intro a rs2 _ ha
      refine M.post_ok_bind (a := ()) (s1 := { rs2 with last := some a }) rfl ?_
      have hlt : a < S.sim.actions.length := ha
      rw [List.getElem?_eq_getElem hlt]
      exact (M.post_lift).2 ⟨fun _ _ => ⟨a, rfl⟩, fun _ he => by cases he⟩
  refine M.settles_and hset (fun B => getAction_post (S.withBound B) n rs k (h.withBound B)) ?_ (fun _ _ _ h _ => h)
  rintro B name rs' ⟨a, ha⟩ ⟨i1, i2, _⟩
  have i1' := i1.ofBound
  refine ⟨a, i1', i2, ha, i1'.last a ha, ?_⟩
  have := i1'.known
  rw [ha] at this
  exact this.symm

/-- The loop of the evaluation does not depend on its bound, if it is large enough. -/
theorem evalLoop_bound {τ : Type} (mo : EvalModel τ) (pol : EvalPolicy τ) (gamma : ℚ) : ∀ (n : Nat) (bound : Nat) (hz : FinHorizon) (ep : Episode) (st : τ),
    hz.n.toNat ≤ n → n ≤ bound → evalLoop mo pol gamma bound hz ep st = evalLoop mo pol gamma n hz ep st := by
  intro n
  induction n with
  | zero =>
      intro bound hz ep st h1 _
      have hr : (finishedOrN mo.isFinal).isReached hz = true := by
        simp only [finishedOrN, Bool.or_eq_true, decide_eq_true_eq]; left; omega
      unfold evalLoop
      rw [if_pos hr, if_pos hr]
  | succ n ih =>
      intro bound hz ep st h1 h2
      obtain ⟨k, rfl⟩ : ∃ k, bound = k + 1 := ⟨bound - 1, by omega⟩
      unfold evalLoop
      by_cases hr : (finishedOrN mo.isFinal).isReached hz = true
      · rw [if_pos hr, if_pos hr]
      · rw [if_neg hr, if_neg hr]
        simp only
        rw [M.bind_run, M.bind_run]
        rcases M.lift (lastOf ep.states) st with ⟨r, s1⟩
        cases r with
        | error e => rfl
        | ok s =>
            simp only
            rw [M.bind_run, M.bind_run]
            rcases evalStep mo pol s s1 with ⟨r, s2⟩
            cases r with
            | error e => rfl
            | ok y =>
                simp only
                refine ih k _ _ _ ?_ (by omega)
                simp only [finishedOrN]
                omega

theorem getNodeFrom_withBound (B : Nat) : ∀ (h : List (Nat × Nat)) (i : Nat), getNodeFrom (S.withBound B) i h = getNodeFrom S i h := by
  intro h
  induction h with
  | nil => intro i; rfl
  | cons ao h ih =>
      intro i
      obtain ⟨a, o⟩ := ao
      unfold getNodeFrom
      have e : getNodeStep (S.withBound B) i a o = getNodeStep S i a o := rfl
      rw [e]
      congr 1
      funext j
      exact ih j

theorem searchStep_withBound (B : Nat) (o : Name) : searchStep (S.withBound B) o = searchStep S o := by
  unfold searchStep searchMove getNode
  simp only [getNodeFrom_withBound]
  rfl

/-- The evaluation of a search policy on its own model ends: it returns an episode, or raises `MaxSamplesReached` or `RecursionError`. -/
theorem evaluation_settles (hs : SafeSim S.sim ok inside state) (hr : RolloutsEnd S.sim S.hor state) (hit : 0 < S.rolloutIt) (h0 : ok b0)
    (hnA : S.sim.actions.Nodup) (hnO : S.sim.observations.Nodup)
    (hfine : ∀ a s g x g', a < S.sim.nActions → state s → S.sim.sampleTransition a s g = (.ok x, g') →
      x.2.1 < S.sim.observations.length ∧ Fine S.sim ok (a, x.2.1))
    (isFinal : Nat → Bool) (calls : SearchRunner σ β → Int) (start : M σ Nat)
    (hstart : ∀ g, ∃ s g', start g = (.ok s, g') ∧ state s) (iterations : Nat)
    (maxHorizon : Int) (discount : Bool) (rs : SearchRunner σ β) (k : Known) (h : RInv S b0 rs k) :
    M.Settles (fun B => simulateOneEvaluation (searchModel S.sim isFinal calls start) (searchPolicy (S.withBound B) iterations) maxHorizon discount B) rs
      (fun _ rs' => ∃ k', RInv S b0 rs' k') (fun e _ => e = .maxSamplesReached ∨ e = .runtimeError) := by
  have hstep : ∀ (s : Nat) (rs : SearchRunner σ β) (k : Known), state s → RInv S b0 rs k → (∀ ao ∈ rs.history, Fine S.sim ok ao) →
      M.Settles (fun B => evalStep (searchModel S.sim isFinal calls start) (searchPolicy (S.withBound B) iterations) s) rs
        (fun y rs' => state y.2.1 ∧ (∃ k', RInv S b0 rs' k') ∧ ∀ ao ∈ rs'.history, Fine S.sim ok ao)
        (fun e _ => e = .maxSamplesReached ∨ e = .runtimeError) := by
    intro s rs k hst hinv hh
    have e : (fun B => evalStep (searchModel S.sim isFinal calls start) (searchPolicy (S.withBound B) iterations) s) = fun B => (do
        let name ← searchGetAction (S.withBound B) iterations
        let a ← M.lift (indexOfName (searchModel S.sim isFinal calls start).actions name)
        let x ← (searchModel S.sim isFinal calls start).sampleTransition a s
        let o ← M.lift (nameAt (searchModel S.sim isFinal calls start).observations x.2.1)
        searchStep S o
        pure (a, x)) := by
      funext B
      simp only [evalStep, searchPolicy, searchStep_withBound]
    rw [e]
    refine M.settles_bind (f := fun _ name => do
      let a ← M.lift (indexOfName (searchModel S.sim isFinal calls start).actions name)
      let x ← (searchModel S.sim isFinal calls start).sampleTransition a s
      let o ← M.lift (nameAt (searchModel S.sim isFinal calls start).observations x.2.1)
      searchStep S o
      pure (a, x)) (searchGetAction_settles hs hr hit h0 iterations rs k hinv) (fun _ _ h => .inr h) ?_
    rintro name rs1 ⟨a, i1, i2, i3, i4, i5⟩
    refine M.settles_const (x := do
      let a ← M.lift (indexOfName (searchModel S.sim isFinal calls start).actions name)
      let x ← (searchModel S.sim isFinal calls start).sampleTransition a s
      let o ← M.lift (nameAt (searchModel S.sim isFinal calls start).observations x.2.1)
      searchStep S o
      pure (a, x)) ?_
    have hmem : name ∈ S.sim.actions := List.mem_of_getElem? i5
    have hidx : S.sim.actions.idxOf name = a := by
      have h1 := (List.getElem?_eq_some_iff.1 i5)
      obtain ⟨hlt, rfl⟩ := h1
      exact hnA.idxOf_getElem a hlt
    have hia : indexOfName (searchModel S.sim isFinal calls start).actions name = .ok a := by
      show (if name ∈ S.sim.actions then Except.ok (S.sim.actions.idxOf name) else _) = _
      rw [if_pos hmem, hidx]
    rw [hia]
    refine M.post_ok_bind (a := a) (s1 := rs1) rfl ?_
    obtain ⟨x, g, hx, hxs⟩ := hs.trans a s i4 hst rs1.search.rng
    have hx' : (searchModel S.sim isFinal calls start).sampleTransition a s rs1 = (.ok x, { rs1 with search := ⟨rs1.search.tree, g⟩ }) := by
      show onSearch (onRng _) rs1 = _
      unfold onSearch onRng
      rw [hx]
    refine M.post_ok_bind hx' ?_
    obtain ⟨f1, f2⟩ := hfine a s _ x _ i4 hst hx
    have hno : nameAt (searchModel S.sim isFinal calls start).observations x.2.1 = .ok S.sim.observations[x.2.1] := by
      show (match S.sim.observations[x.2.1]? with | some name => Except.ok name | none => _) = _
      rw [List.getElem?_eq_getElem f1]
    rw [hno]
    refine M.post_ok_bind (a := S.sim.observations[x.2.1]) (s1 := { rs1 with search := ⟨rs1.search.tree, g⟩ }) rfl ?_
    have hinv2 := i1.grow (s := ⟨rs1.search.tree, g⟩) i1.tree (.refl _)
    refine M.post_bind (searchStep_safe hs h0 _ _ hinv2 _ (List.getElem_mem _) a i3 (by rw [show _ = rs.history from i2]; exact hh)
      (by rw [hnO.idxOf_getElem]; exact f2)) (fun _ _ h => .inl h) ?_
    rintro _ rs3 _ ⟨j1, j2⟩
    exact M.post_pure.2 ⟨hxs, j1, j2⟩
  have hloop : ∀ (n : Nat) (hz : FinHorizon) (ep : Episode) (s : Nat) (rs : SearchRunner σ β) (k : Known), hz.n.toNat ≤ n →
      ep.states.getLast? = some s → state s → RInv S b0 rs k → (∀ ao ∈ rs.history, Fine S.sim ok ao) →
      M.Settles (fun B => evalLoop (searchModel S.sim isFinal calls start) (searchPolicy (S.withBound B) iterations)
        (if discount then (searchModel S.sim isFinal calls start).discount else 1) n hz ep) rs
        (fun _ rs' => ∃ k', RInv S b0 rs' k') (fun e _ => e = .maxSamplesReached ∨ e = .runtimeError) := by
    intro n
    induction n with
    | zero =>
        intro hz ep s rs k hn hl hst hinv hh
        have hre : (finishedOrN isFinal).isReached hz = true := by
          simp only [finishedOrN, Bool.or_eq_true, decide_eq_true_eq]; left; omega
        refine M.settles_of_eq (y := fun _ => pure ep) 0 (fun B _ => ?_) (M.settles_const (M.post_pure.2 ⟨k, hinv⟩))
        show evalLoop _ _ _ 0 hz ep rs = _
        unfold evalLoop
        rw [show (searchModel S.sim isFinal calls start).isFinal = isFinal from rfl, if_pos hre]
    | succ j ih =>
        intro hz ep s rs k hn hl hst hinv hh
        unfold evalLoop
        refine M.settles_ite (c := (finishedOrN isFinal).isReached hz = true) (x := fun _ => pure ep) (y := fun B => do
          let s ← M.lift (lastOf ep.states)
          let y ← evalStep (searchModel S.sim isFinal calls start) (searchPolicy (S.withBound B) iterations) s
          evalLoop (searchModel S.sim isFinal calls start) (searchPolicy (S.withBound B) iterations)
            (if discount then (searchModel S.sim isFinal calls start).discount else 1) j
            ((finishedOrN isFinal).decrement y.1 s y.2.1 y.2.2.1 hz)
            (ep.add (if discount then (searchModel S.sim isFinal calls start).discount else 1) y))
          (fun _ => M.settles_const (M.post_pure.2 ⟨k, hinv⟩)) (fun _ => ?_)
        have : lastOf ep.states = .ok s := by unfold lastOf; rw [hl]
        rw [this]
        refine M.settles_ok_bind (f := fun B s => do
          let y ← evalStep (searchModel S.sim isFinal calls start) (searchPolicy (S.withBound B) iterations) s
          evalLoop (searchModel S.sim isFinal calls start) (searchPolicy (S.withBound B) iterations)
            (if discount then (searchModel S.sim isFinal calls start).discount else 1) j
            ((finishedOrN isFinal).decrement y.1 s y.2.1 y.2.2.1 hz)
            (ep.add (if discount then (searchModel S.sim isFinal calls start).discount else 1) y)) (a := s) (s1 := rs) rfl ?_
        refine M.settles_bind (hstep s rs k hst hinv hh) (fun _ _ h => h) ?_
        rintro y rs1 ⟨h1, ⟨k', h2⟩, h3⟩
        refine ih _ _ y.2.1 rs1 k' ?_ (by simp [Episode.add]) h1 h2 h3
        simp only [finishedOrN]
        omega
  obtain ⟨s, g, hs1, hs2⟩ := hstart rs.search.rng
  have hinv : RInv S b0 ⟨⟨rs.search.tree, g⟩, [], 0, none⟩ ⟨none, []⟩ :=
    ⟨h.tree, h.tree.pos, rfl, rfl, fun a ha => (by cases ha), rfl⟩
  unfold simulateOneEvaluation
  refine M.settles_read_bind (f := fun B init => do
    (searchPolicy (S.withBound B) iterations).reset
    let s ← (searchModel S.sim isFinal calls start).sampleStart
    let ep ← evalLoop (searchModel S.sim isFinal calls start) (searchPolicy (S.withBound B) iterations)
      (if discount then (searchModel S.sim isFinal calls start).discount else 1) B ⟨maxHorizon, false⟩ ⟨0, [s], [], [], [], 0⟩
    let n ← M.read (searchModel S.sim isFinal calls start).calls
    pure { ep with calls := n - init }) ?_
  refine M.settles_ok_bind (x := searchReset false) (f := fun B _ => do
    let s ← (searchModel S.sim isFinal calls start).sampleStart
    let ep ← evalLoop (searchModel S.sim isFinal calls start) (searchPolicy (S.withBound B) iterations)
      (if discount then (searchModel S.sim isFinal calls start).discount else 1) B ⟨maxHorizon, false⟩ ⟨0, [s], [], [], [], 0⟩
    let n ← M.read (searchModel S.sim isFinal calls start).calls
    pure { ep with calls := n - (searchModel S.sim isFinal calls start).calls rs }) (a := ()) (s1 := ⟨rs.search, [], 0, none⟩) rfl ?_
  refine M.settles_ok_bind (s := (⟨rs.search, [], 0, none⟩ : SearchRunner σ β)) (f := fun B s => do
    let ep ← evalLoop (searchModel S.sim isFinal calls start) (searchPolicy (S.withBound B) iterations)
      (if discount then (searchModel S.sim isFinal calls start).discount else 1) B ⟨maxHorizon, false⟩ ⟨0, [s], [], [], [], 0⟩
    let n ← M.read (searchModel S.sim isFinal calls start).calls
    pure { ep with calls := n - (searchModel S.sim isFinal calls start).calls rs }) (a := s) (s1 := ⟨⟨rs.search.tree, g⟩, [], 0, none⟩) (by
    show onSearch (onRng start) _ = _
    unfold onSearch onRng
    simp only [hs1]) ?_
  refine M.settles_bind (Q1 := fun _ rs' => ∃ k', RInv S b0 rs' k') (E1 := fun e _ => e = .maxSamplesReached ∨ e = .runtimeError)
    (M.settles_of_eq maxHorizon.toNat (fun B hB => evalLoop_bound _ _ _ maxHorizon.toNat B _ _ _ (le_refl _) hB)
      (hloop maxHorizon.toNat ⟨maxHorizon, false⟩ _ s _ _ (le_refl _) rfl hs2 hinv (by simp))) (fun _ _ h => h) ?_
  rintro ep rs1 hk
  exact M.settles_const hk

end
end Verif
