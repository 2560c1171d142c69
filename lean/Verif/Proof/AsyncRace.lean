import Verif.Props.AsyncStop

/-! Rely-guarantee reasoning: what the accesses of the two threads to the tree preserve, however they are interleaved. -/

set_option linter.unusedSectionVars false
set_option linter.unusedSimpArgs false

namespace Verif
open Spec
variable {σ β η : Type}

/-- `b'` is obtained from `b` by taking successors along a history. -/
def Along (sim : Sim σ β) : β → List (Nat × Nat) → β → Prop
  | b, [], b' => b' = b
  | b, (a, o) :: h, b' => ∃ c, Succ sim b a o c ∧ Along sim c h b'

/-- The tree keeps its nodes and their beliefs. -/
structure Ext (t t' : Tree β) : Prop where
  size : t.size ≤ t'.size
  belief : ∀ i, i < t.size → (t'.nodes i).belief = (t.nodes i).belief

theorem Ext.refl (t : Tree β) : Ext t t := ⟨le_rfl, fun _ _ => rfl⟩

theorem Ext.trans {t1 t2 t3 : Tree β} (h : Ext t1 t2) (h' : Ext t2 t3) : Ext t1 t3 :=
  ⟨le_trans h.size h'.size, fun i hi => by rw [h'.belief i (lt_of_lt_of_le hi h.size), h.belief i hi]⟩

variable [DecidableEq β] {S : Search σ β η} {b0 : β}

/-- The invariant of the tree that holds between any two accesses. -/
structure WInv (S : Search σ β η) (b0 : β) (t : Tree β) : Prop where
  pos : 0 < t.size
  root : (t.nodes 0).belief = b0
  len : ∀ i, (t.nodes i).children.length = S.sim.nActions
  range : ∀ i a o j, t.next i a o = some j → j < t.size
  succ : ∀ i a o j, t.next i a o = some j → Succ S.sim (t.nodes i).belief a o (t.nodes j).belief
  look : ∀ b j, dget t.lookup b = some j → j < t.size ∧ (t.nodes j).belief = b

theorem TInv.weak {t : Tree β} (h : TInv S b0 t) : WInv S b0 t :=
  ⟨h.pos, h.root, h.len, fun i a o j hj => (h.range i a o j hj).1, h.succ, h.look⟩

/-- A change that does not concern beliefs, links and the lookup table. -/
theorem WInv.same {t t' : Tree β} (h : WInv S b0 t) (h1 : t'.size = t.size) (h2 : ∀ i, (t'.nodes i).belief = (t.nodes i).belief)
    (h3 : ∀ i, (t'.nodes i).children.length = (t.nodes i).children.length) (h4 : ∀ i a o, t'.next i a o = t.next i a o)
    (h5 : t'.lookup = t.lookup) : WInv S b0 t' ∧ Ext t t' := by
  refine ⟨⟨by rw [h1]; exact h.pos, by rw [h2]; exact h.root, fun i => by rw [h3]; exact h.len i, fun i a o j hj => ?_, fun i a o j hj => ?_,
    fun b j hj => ?_⟩, ⟨h1.ge, fun i _ => h2 i⟩⟩
  · rw [h4] at hj; rw [h1]; exact h.range i a o j hj
  · rw [h4] at hj; rw [h2, h2]; exact h.succ i a o j hj
  · rw [h5] at hj; rw [h1, h2]; exact h.look b j hj

theorem WInv.ensure {t : Tree β} (h : WInv S b0 t) {i a : Nat} (hc : (t.nodes i).children[a]? = some none) :
    WInv S b0 (t.ensure i a) ∧ Ext t (t.ensure i a) :=
  h.same rfl (Tree.ensure_belief t i a) (Tree.ensure_length t i a) (Tree.ensure_next hc) rfl

theorem WInv.bump {t : Tree β} (h : WInv S b0 t) (alpha : ℚ) (i : Nat) (x : ℚ) : WInv S b0 (t.bump alpha i x) ∧ Ext t (t.bump alpha i x) :=
  h.same rfl (Tree.bump_belief t alpha i x) (fun j => by rw [Tree.bump_children]) (Tree.bump_next t alpha i x) rfl

theorem WInv.bumpA {t : Tree β} (h : WInv S b0 t) (alpha : ℚ) (i a : Nat) (x : ℚ) :
    WInv S b0 (t.bumpA alpha i a x) ∧ Ext t (t.bumpA alpha i a x) :=
  h.same rfl (Tree.updA_belief t i a _) (Tree.updA_length t i a _) (Tree.bumpA_next t alpha i a x) rfl

theorem WInv.link {t : Tree β} (h : WInv S b0 t) {i a o k : Nat} (hk : k < t.size)
    (hs : Succ S.sim (t.nodes i).belief a o (t.nodes k).belief) : WInv S b0 (t.link i a o k) ∧ Ext t (t.link i a o k) := by
  have hb : ∀ j, ((t.link i a o k).nodes j).belief = (t.nodes j).belief := Tree.updA_belief t i a _
  have hn : ∀ j b o' m, (t.link i a o k).next j b o' = some m → (j = i ∧ b = a ∧ o' = o ∧ m = k) ∨ t.next j b o' = some m := by
    intro j b o' m hm
    by_cases ha : t.anode i a = none
    · right
      unfold Tree.next at hm ⊢
      rw [Tree.link_anode] at hm
      split at hm
      · next hx => obtain ⟨rfl, rfl⟩ := hx; rw [ha] at hm; cases hm
      · exact hm
    · rw [Tree.link_next ha] at hm
      split at hm
      · next hx => left; cases hm; exact ⟨hx.1, hx.2.1, hx.2.2, rfl⟩
      · right; exact hm
  refine ⟨⟨h.pos, by rw [hb]; exact h.root, fun j => ?_, fun j b o' m hm => ?_, fun j b o' m hm => ?_, fun b j hj => ?_⟩, ⟨le_rfl, fun j _ => hb j⟩⟩
  · rw [show ((t.link i a o k).nodes j).children.length = _ from Tree.updA_length t i a _ j]; exact h.len j
  · rcases hn j b o' m hm with ⟨_, _, _, rfl⟩ | hm
    · exact hk
    · exact h.range j b o' m hm
  · rw [hb, hb]
    rcases hn j b o' m hm with ⟨rfl, rfl, rfl, rfl⟩ | hm
    · exact hs
    · exact h.succ j b o' m hm
  · rw [hb]; exact h.look b j hj

theorem WInv.alloc {t : Tree β} (h : WInv S b0 t) (b : β) (l : List (β × Nat))
    (hl : ∀ b' j, dget l b' = some j → dget t.lookup b' = some j ∨ b' = b ∧ j = t.size) :
    WInv S b0 { t.alloc S.sim.nActions b with lookup := l } ∧ Ext t { t.alloc S.sim.nActions b with lookup := l } ∧
    (({ t.alloc S.sim.nActions b with lookup := l } : Tree β).nodes t.size).belief = b := by
  have hold : ∀ i, i < t.size → (t.alloc S.sim.nActions b).nodes i = t.nodes i := fun i hi => Tree.alloc_other _ _ _ (by omega)
  have hnew : ((t.alloc S.sim.nActions b).nodes t.size).belief = b := by rw [Tree.alloc_same]; rfl
  refine ⟨⟨Nat.succ_pos _, ?_, fun i => ?_, fun i a o j hj => ?_, fun i a o j hj => ?_, fun b' j hj => ?_⟩,
    ⟨Nat.le_succ _, fun i hi => ?_⟩, hnew⟩
  · show ((t.alloc S.sim.nActions b).nodes 0).belief = b0
    rw [hold 0 h.pos]; exact h.root
  · show ((t.alloc S.sim.nActions b).nodes i).children.length = _
    by_cases hi : i = t.size
    · subst hi; rw [Tree.alloc_same]; simp [ONode.new]
    · rw [Tree.alloc_other _ _ _ hi]; exact h.len i
  · have hj' : (t.alloc S.sim.nActions b).next i a o = some j := hj
    rw [Tree.alloc_next] at hj'
    split at hj'
    · cases hj'
    · exact Nat.lt_succ_of_lt (h.range i a o j hj')
  · have hj' : (t.alloc S.sim.nActions b).next i a o = some j := hj
    rw [Tree.alloc_next] at hj'
    split at hj'
    · cases hj'
    · next hi =>
        show Succ S.sim ((t.alloc S.sim.nActions b).nodes i).belief a o ((t.alloc S.sim.nActions b).nodes j).belief
        rw [Tree.alloc_other _ _ _ hi, hold j (h.range i a o j hj')]
        exact h.succ i a o j hj'
  · show j < t.size + 1 ∧ ((t.alloc S.sim.nActions b).nodes j).belief = b'
    rcases hl b' j hj with hl | ⟨rfl, rfl⟩
    · obtain ⟨h1, h2⟩ := h.look b' j hl
      exact ⟨Nat.lt_succ_of_lt h1, by rw [hold j h1]; exact h2⟩
    · exact ⟨Nat.lt_succ_self _, hnew⟩
  · show ((t.alloc S.sim.nActions b).nodes i).belief = _
    rw [hold i hi]

theorem WInv.nodeFor {t : Tree β} (h : WInv S b0 t) (b : β) :
    WInv S b0 (t.nodeFor S.shared S.sim.nActions b).2 ∧ Ext t (t.nodeFor S.shared S.sim.nActions b).2 ∧
    (t.nodeFor S.shared S.sim.nActions b).1 < (t.nodeFor S.shared S.sim.nActions b).2.size ∧
    ((t.nodeFor S.shared S.sim.nActions b).2.nodes (t.nodeFor S.shared S.sim.nActions b).1).belief = b := by
  unfold Tree.nodeFor
  split
  · rcases hl : dget t.lookup b with _ | i
    · simp only
      obtain ⟨h1, h2, h3⟩ := h.alloc b (dset t.lookup b t.size) (by
        intro b' j hj
        rw [dget_dset] at hj
        split at hj
        · next hb => right; cases hj; exact ⟨hb.symm, rfl⟩
        · left; exact hj)
      exact ⟨h1, h2, Nat.lt_succ_self _, h3⟩
    · simp only
      obtain ⟨h1, h2⟩ := h.look b i hl
      exact ⟨h, Ext.refl t, h1, h2⟩
  · obtain ⟨h1, h2, h3⟩ := h.alloc b t.lookup (fun b' j hj => .inl hj)
    exact ⟨h1, h2, Nat.lt_succ_self _, h3⟩

/-! ### Programs on the tree -/

/-- The program preserves the invariant of the tree and ends with `Q`, when the tree may be extended between its accesses; `t` is the
tree after its last access. -/
def Safe (S : Search σ β η) (b0 : β) {α : Type} : Res (SearchState σ β) α → Tree β → (α → Tree β → Prop) → Prop
  | .done (.ok a), t, Q => Q a t
  | .done (.error _), _, _ => True
  | .act m k, t, Q => ∀ st, Ext t st.tree → WInv S b0 st.tree →
      WInv S b0 (m st).2.tree ∧ Ext st.tree (m st).2.tree ∧ Safe S b0 (k (m st).1) (m st).2.tree Q

theorem Safe.mono {α : Type} {p : Res (SearchState σ β) α} : ∀ {t : Tree β} {Q Q' : α → Tree β → Prop}, Safe S b0 p t Q →
    (∀ a t', Ext t t' → Q a t' → Q' a t') → Safe S b0 p t Q' := by
  induction p with
  | done r =>
      intro t Q Q' h hq
      cases r with
      | ok a => exact hq a t (Ext.refl t) h
      | error e => trivial
  | act m k ih =>
      intro t Q Q' h hq st h1 h2
      obtain ⟨i1, i2, i3⟩ := h st h1 h2
      exact ⟨i1, i2, ih _ i3 fun a t' ht' hq' => hq a t' (h1.trans (i2.trans ht')) hq'⟩

theorem Safe.bind {α γ : Type} {p : Res (SearchState σ β) α} {g : α → Res (SearchState σ β) γ} {Q1 : α → Tree β → Prop}
    {Q : γ → Tree β → Prop} : ∀ {t : Tree β}, Safe S b0 p t Q1 → (∀ a t', Ext t t' → Q1 a t' → Safe S b0 (g a) t' Q) →
    Safe S b0 (p >>= g) t Q := by
  show ∀ {t : Tree β}, Safe S b0 p t Q1 → (∀ a t', Ext t t' → Q1 a t' → Safe S b0 (g a) t' Q) → Safe S b0 (p.andThen g) t Q
  induction p with
  | done r =>
      intro t h hg
      cases r with
      | ok a => exact hg a t (Ext.refl t) h
      | error e => trivial
  | act m k ih =>
      intro t h hg st h1 h2
      obtain ⟨i1, i2, i3⟩ := h st h1 h2
      exact ⟨i1, i2, ih _ i3 fun a t' ht' hq' => hg a t' (h1.trans (i2.trans ht')) hq'⟩

theorem Safe.tryExcept {α : Type} {e : PyErr} {q p : Res (SearchState σ β) α} {Q : α → Tree β → Prop} :
    ∀ {t : Tree β}, Safe S b0 p t Q → (∀ t, Safe S b0 q t Q) → Safe S b0 (Res.tryExcept e q p) t Q := by
  induction p with
  | done r =>
      intro t h hq
      cases r with
      | ok a => exact h
      | error e' =>
          unfold Res.tryExcept
          split
          · exact hq t
          · trivial
  | act m k ih =>
      intro t h hq st h1 h2
      obtain ⟨i1, i2, i3⟩ := h st h1 h2
      exact ⟨i1, i2, ih _ i3 hq⟩

theorem Safe.atom {α : Type} {m : M (SearchState σ β) α} {t : Tree β} {Q : α → Tree β → Prop}
    (h : ∀ st, Ext t st.tree → WInv S b0 st.tree → WInv S b0 (m st).2.tree ∧ Ext st.tree (m st).2.tree ∧
      ∀ a, (m st).1 = .ok a → Q a (m st).2.tree) : Safe S b0 (Res.atom m) t Q := by
  intro st h1 h2
  obtain ⟨i1, i2, i3⟩ := h st h1 h2
  refine ⟨i1, i2, ?_⟩
  rcases hr : (m st).1 with e | a
  · trivial
  · exact i3 a hr

/-- An access that does not change the tree. -/
theorem Safe.look {α : Type} {m : M (SearchState σ β) α} {t : Tree β} {Q : α → Tree β → Prop} (hm : ∀ st, (m st).2.tree = st.tree)
    (h : ∀ st, Ext t st.tree → WInv S b0 st.tree → ∀ a, (m st).1 = .ok a → Q a st.tree) : Safe S b0 (Res.atom m) t Q := by
  refine Safe.atom fun st h1 h2 => ?_
  rw [hm st]
  exact ⟨h2, Ext.refl _, h st h1 h2⟩

theorem getBest_tree (sim : Sim σ β) (bonus : Nat → Nat → ℚ) (e : ℚ) (rel : Bool) (i : Nat) (st : SearchState σ β) :
    (getBestAction sim bonus e rel i st).2.tree = st.tree ∧
    ∀ a, (getBestAction sim bonus e rel i st).1 = .ok a → a < (st.tree.nodes i).children.length := by
  have h := M.post_iff.1 (getBest_post sim bonus e rel i st)
  rcases hr : getBestAction sim bonus e rel i st with ⟨r, st'⟩
  cases r with
  | error e =>
      have := h.2 _ _ hr
      exact ⟨this, fun a ha => by cases ha⟩
  | ok a =>
      have := h.1 _ _ hr
      exact ⟨this.1, fun a' ha => by cases ha; exact this.2.1⟩

theorem safeGetChild_safe {i a : Nat} {t : Tree β} : Safe S b0 (Res.atom (safeGetChild i a)) t (fun _ _ => True) := by
  refine Safe.atom fun st h1 h2 => ?_
  unfold safeGetChild
  rcases hc : (st.tree.nodes i).children[a]? with _ | _ | _
  · exact ⟨h2, Ext.refl _, fun _ _ => trivial⟩
  · obtain ⟨i1, i2⟩ := h2.ensure hc
    exact ⟨i1, i2, fun _ _ => trivial⟩
  · exact ⟨h2, Ext.refl _, fun _ _ => trivial⟩

theorem rolloutR_safe {i : Nat} {h : η} {t : Tree β} : Safe S b0 (rolloutR S i h) t (fun _ _ => True) := by
  unfold rolloutR
  split
  · trivial
  · refine Safe.bind (Q1 := fun _ _ => True) (Safe.look (fun _ => rfl) fun _ _ _ _ _ => trivial) fun b t1 _ _ => ?_
    refine Safe.bind (Q1 := fun _ _ => True) (Safe.look (fun _ => rfl) fun _ _ _ _ _ => trivial) fun x t2 _ _ => ?_
    refine Safe.bind (Q1 := fun _ _ => True) (Safe.look (fun _ => rfl) fun _ _ _ _ _ => trivial) fun y t3 _ _ => ?_
    refine Safe.bind (Q1 := fun _ _ => True) (Safe.atom fun st _ h2 => ?_) fun _ t4 _ _ => trivial
    obtain ⟨i1, i2⟩ := h2.bump S.alpha i y
    exact ⟨i1, i2, fun _ _ => trivial⟩

theorem createChildR_safe {i a o : Nat} {t : Tree β} (hi : i < t.size) :
    Safe S b0 (createChildR S i a o) t (fun j t' => j < t'.size ∧ Succ S.sim (t.nodes i).belief a o (t'.nodes j).belief) := by
  unfold createChildR
  refine Safe.bind (Q1 := fun b _ => b = (t.nodes i).belief) (Safe.look (fun _ => rfl) fun st h1 _ b hb => ?_) fun b t1 e1 hb => ?_
  · cases hb; exact h1.belief i hi
  subst hb
  refine Safe.bind (Q1 := fun b' _ => Succ S.sim (t.nodes i).belief a o b') (Safe.look (fun _ => rfl) fun st _ _ b' hb' => ?_) fun b' t2 e2 hb' => ?_
  · exact ⟨st.rng, _, Prod.ext hb' rfl⟩
  refine Safe.bind (Q1 := fun j t' => j < t'.size ∧ (t'.nodes j).belief = b') (Safe.atom fun st _ h2 => ?_) fun j t3 e3 hj => ?_
  · obtain ⟨i1, i2, i3, i4⟩ := h2.nodeFor b'
    refine ⟨i1, i2, fun j hj => ?_⟩
    cases hj
    exact ⟨i3, i4⟩
  refine Safe.bind (Q1 := fun _ _ => True) (Safe.atom fun st h1 h2 => ?_) fun _ t4 e4 _ => ?_
  · have hb : (st.tree.nodes i).belief = (t.nodes i).belief := ((e1.trans e2).trans (e3.trans h1)).belief i hi
    obtain ⟨i1, i2⟩ := h2.link (i := i) (a := a) (o := o) (lt_of_lt_of_le hj.1 h1.size) (by rw [hb, h1.belief j hj.1, hj.2]; exact hb')
    exact ⟨i1, i2, fun _ _ => trivial⟩
  refine Safe.look (fun st => rfl) fun st h1 h2 k hk => ?_
  have hn : st.tree.next i a o = some k := by
    unfold readChild at hk
    rcases hx : st.tree.next i a o with _ | k'
    · rw [hx] at hk; cases hk
    · rw [hx] at hk; cases hk; rfl
  have hb : (st.tree.nodes i).belief = (t.nodes i).belief := ((e1.trans e2).trans (e3.trans (e4.trans h1))).belief i hi
  exact ⟨h2.range i a o k hn, by rw [← hb]; exact h2.succ i a o k hn⟩

theorem simulateR_safe : ∀ (fuel i s : Nat) (h : η) (act : Option Nat) (t : Tree β), i < t.size →
    Safe S b0 (simulateR S fuel i s h act) t (fun _ _ => True) := by
  intro fuel
  induction fuel with
  | zero => intro i s h act t _; trivial
  | succ fuel ih =>
      intro i s h act t hi
      unfold simulateR
      split
      · exact Safe.look (fun _ => rfl) fun _ _ _ _ _ => trivial
      refine Safe.bind (Q1 := fun _ _ => True) ?_ fun a t1 e1 _ => ?_
      · cases act with
        | some a => trivial
        | none => exact Safe.look (fun st => (getBest_tree _ _ _ _ _ st).1) fun _ _ _ _ _ => trivial
      refine Safe.bind (Q1 := fun _ _ => True) safeGetChild_safe fun _ t2 e2 _ => ?_
      refine Safe.bind (Q1 := fun _ _ => True) (Safe.look (fun _ => rfl) fun _ _ _ _ _ => trivial) fun x t3 e3 _ => ?_
      have hi3 : i < t3.size := lt_of_lt_of_le hi ((e1.trans e2).trans e3).size
      refine Safe.bind (Q1 := fun j t' => ∀ k, j = some k → k < t'.size) (Safe.look (fun _ => rfl) fun st _ h2 j hj k hk => ?_) fun j t4 e4 hj => ?_
      · cases hj; exact h2.range _ _ _ _ hk
      refine Safe.bind (Q1 := fun _ _ => True) ?_ fun y t5 e5 _ => ?_
      · cases j with
        | some k => exact ih k _ _ _ t4 (hj k rfl)
        | none =>
            refine Safe.tryExcept ?_ fun _ => trivial
            exact Safe.bind (createChildR_safe (lt_of_lt_of_le hi3 e4.size)) fun j t' _ _ => rolloutR_safe
      refine Safe.bind (Q1 := fun _ _ => True) (Safe.atom fun st _ h2 => ?_) fun _ t6 _ _ => ?_
      · obtain ⟨i1, i2⟩ := h2.bumpA S.alpha i a (x.2.2 + S.sim.discount * y)
        exact ⟨i1, i2, fun _ _ => trivial⟩
      refine Safe.bind (Q1 := fun _ _ => True) (Safe.atom fun st _ h2 => ?_) fun _ t7 _ _ => trivial
      obtain ⟨i1, i2⟩ := h2.bump S.alpha i (x.2.2 + S.sim.discount * y)
      exact ⟨i1, i2, fun _ _ => trivial⟩

theorem simulateFromNodeR_safe {i : Nat} {act : Option Nat} {t : Tree β} (hi : i < t.size) :
    Safe S b0 (simulateFromNodeR S i act) t (fun _ _ => True) := by
  unfold simulateFromNodeR
  refine Safe.bind (Q1 := fun _ _ => True) (Safe.look (fun _ => rfl) fun _ _ _ _ _ => trivial) fun b t1 e1 _ => ?_
  refine Safe.bind (Q1 := fun _ _ => True) (Safe.look (fun _ => rfl) fun _ _ _ _ _ => trivial) fun s t2 e2 _ => ?_
  exact Safe.bind (simulateR_safe _ _ _ _ _ _ (lt_of_lt_of_le hi (e1.trans e2).size)) fun _ _ _ _ => trivial

theorem simulateManyR_safe {i : Nat} : ∀ (k : Nat) {t : Tree β}, i < t.size → Safe S b0 (simulateManyR S i k) t (fun _ _ => True) := by
  intro k
  induction k with
  | zero => intro t _; trivial
  | succ k ih =>
      intro t hi
      exact Safe.bind (simulateFromNodeR_safe hi) fun _ t' e _ => ih (lt_of_lt_of_le hi e.size)

theorem getNodeStepR_safe {i a o : Nat} {t : Tree β} (hi : i < t.size) :
    Safe S b0 (getNodeStepR S i a o) t (fun j t' => j < t'.size ∧ Succ S.sim (t.nodes i).belief a o (t'.nodes j).belief) := by
  unfold getNodeStepR
  refine Safe.bind (Q1 := fun _ _ => True) safeGetChild_safe fun _ t1 e1 _ => ?_
  refine Safe.bind (Q1 := fun j t' => ∀ k, j = some k → k < t'.size ∧ Succ S.sim (t.nodes i).belief a o (t'.nodes k).belief)
    (Safe.look (fun _ => rfl) fun st h1 h2 j hj k hk => ?_) fun j t2 e2 hj => ?_
  · cases hj
    refine ⟨h2.range _ _ _ _ hk, ?_⟩
    rw [← (e1.trans h1).belief i hi]
    exact h2.succ _ _ _ _ hk
  · cases j with
    | some k => exact hj k rfl
    | none =>
        refine Safe.mono (createChildR_safe (lt_of_lt_of_le hi (e1.trans e2).size)) fun k t3 e3 hk => ?_
        rw [← (e1.trans e2).belief i hi]
        exact hk

theorem getNodeFromR_safe : ∀ (h : List (Nat × Nat)) (i : Nat) (t : Tree β), i < t.size →
    Safe S b0 (getNodeFromR S i h) t (fun j t' => j < t'.size ∧ Along S.sim (t.nodes i).belief h (t'.nodes j).belief) := by
  intro h
  induction h with
  | nil => intro i t hi; exact ⟨hi, rfl⟩
  | cons ao h ih =>
      intro i t hi
      obtain ⟨a, o⟩ := ao
      unfold getNodeFromR
      refine Safe.bind (getNodeStepR_safe hi) fun j t' e hj => ?_
      exact Safe.mono (ih j t' hj.1) fun k t'' e' hk => ⟨hk.1, _, hj.2, hk.2⟩

/-! ### Programs of the threads -/

/-- The invariant of the shared state. -/
structure Glob (S : Search σ β η) (b0 : β) (s : AsyncState σ β) : Prop where
  tree : WInv S b0 s.runner.search.tree
  tnode : s.tnode < s.runner.search.tree.size
  node : s.runner.node < s.runner.search.tree.size
  belief : Along S.sim b0 s.runner.history (s.runner.search.tree.nodes s.runner.node).belief

theorem Glob.search {s : AsyncState σ β} (h : Glob S b0 s) {t : SearchState σ β} (hw : WInv S b0 t.tree) (he : Ext s.runner.search.tree t.tree) :
    Glob S b0 { s with runner := { s.runner with search := t } } :=
  ⟨hw, lt_of_lt_of_le h.tnode he.size, lt_of_lt_of_le h.node he.size, by
    show Along S.sim b0 s.runner.history (t.tree.nodes s.runner.node).belief
    rw [he.belief _ h.node]
    exact h.belief⟩

/-- What the caller may do between two accesses of the exploration thread. -/
def CallerMay (s s' : AsyncState σ β) : Prop := Ext s.runner.search.tree s'.runner.search.tree

/-- What the exploration thread may do between two accesses of the caller. -/
def ExplorerMay (s s' : AsyncState σ β) : Prop := Ext s.runner.search.tree s'.runner.search.tree ∧ callerView s' = callerView s

/-- What the other thread may do. -/
def OtherMay : Who → AsyncState σ β → AsyncState σ β → Prop
  | .explorer => CallerMay
  | .caller => ExplorerMay

/-- What the thread itself does. -/
def SelfMay : Who → AsyncState σ β → AsyncState σ β → Prop
  | .explorer => ExplorerMay
  | .caller => CallerMay

theorem OtherMay.refl (w : Who) (s : AsyncState σ β) : OtherMay w s s := by
  cases w with
  | explorer => exact Ext.refl _
  | caller => exact ⟨Ext.refl _, rfl⟩

theorem OtherMay.trans {w : Who} {s s' s'' : AsyncState σ β} (h : OtherMay w s s') (h' : OtherMay w s' s'') : OtherMay w s s'' := by
  cases w with
  | explorer => exact Ext.trans h h'
  | caller => exact ⟨h.1.trans h'.1, h'.2.trans h.2⟩

theorem SelfMay.other {w v : Who} {s s' : AsyncState σ β} (h : SelfMay w s s') (hv : v ≠ w) : OtherMay v s s' := by
  cases w <;> cases v <;> first | exact absurd rfl hv | exact h

theorem SelfMay.refl (w : Who) (s : AsyncState σ β) : SelfMay w s s := by
  cases w with
  | explorer => exact ⟨Ext.refl _, rfl⟩
  | caller => exact Ext.refl _

theorem OtherMay.ext {w : Who} {s s' : AsyncState σ β} (h : OtherMay w s s') : Ext s.runner.search.tree s'.runner.search.tree := by
  cases w with
  | explorer => exact h
  | caller => exact h.1

/-- A program of a thread preserves the invariant, does only what it may do, and ends with `Q`. -/
def SafeRG (S : Search σ β η) (b0 : β) (w : Who) {α : Type} : Res (AsyncState σ β) α → AsyncState σ β → (Py α → AsyncState σ β → Prop) → Prop
  | .done r, s, Q => ∀ s', OtherMay w s s' → Glob S b0 s' → Q r s'
  | .act m k, s, Q => ∀ s', OtherMay w s s' → Glob S b0 s' →
      Glob S b0 (m s').2 ∧ SelfMay w s' (m s').2 ∧ SafeRG S b0 w (k (m s').1) (m s').2 Q

theorem SafeRG.weaken {w : Who} {α : Type} {p : Res (AsyncState σ β) α} {s s1 : AsyncState σ β} {Q : Py α → AsyncState σ β → Prop}
    (h : SafeRG S b0 w p s Q) (h1 : OtherMay w s s1) : SafeRG S b0 w p s1 Q := by
  cases p with
  | done r => intro s' h2 h3; exact h s' (h1.trans h2) h3
  | act m k => intro s' h2 h3; exact h s' (h1.trans h2) h3

theorem SafeRG.bind {w : Who} {α γ : Type} {p : Res (AsyncState σ β) α} {g : α → Res (AsyncState σ β) γ} {Q : Py γ → AsyncState σ β → Prop} :
    ∀ {s : AsyncState σ β}, SafeRG S b0 w p s (fun r s' => match r with
      | .ok a => SafeRG S b0 w (g a) s' Q
      | .error e => Q (.error e) s') → SafeRG S b0 w (p >>= g) s Q := by
  show ∀ {s : AsyncState σ β}, _ → SafeRG S b0 w (p.andThen g) s Q
  induction p with
  | done r =>
      intro s h
      cases r with
      | ok a =>
          show SafeRG S b0 w (g a) s Q
          cases hg : g a with
          | done r =>
              intro s' h1 h2
              have := h s' h1 h2
              simp only [hg] at this
              exact this s' (OtherMay.refl w s') h2
          | act m k =>
              intro s' h1 h2
              have := h s' h1 h2
              simp only [hg] at this
              exact this s' (OtherMay.refl w s') h2
      | error e => intro s' h1 h2; exact h s' h1 h2
  | act m k ih =>
      intro s h s' h1 h2
      obtain ⟨i1, i2, i3⟩ := h s' h1 h2
      exact ⟨i1, i2, ih _ i3⟩

/-- An access. -/
theorem SafeRG.atom {w : Who} {α : Type} {m : M (AsyncState σ β) α} {s : AsyncState σ β} {Q : Py α → AsyncState σ β → Prop}
    (h : ∀ s', OtherMay w s s' → Glob S b0 s' → Glob S b0 (m s').2 ∧ SelfMay w s' (m s').2 ∧
      ∀ s'', OtherMay w (m s').2 s'' → Glob S b0 s'' → Q (m s').1 s'') : SafeRG S b0 w (Res.atom m) s Q := h

/-- A program on the tree; `f` is a part of the state that only this thread changes. -/
theorem SafeRG.tree {w : Who} {V α : Type} {f : AsyncState σ β → V} (hf : ∀ s t, f { s with runner := { s.runner with search := t } } = f s)
    (hw : ∀ s s', OtherMay w s s' → f s' = f s) {p : Res (SearchState σ β) α} {Q' : α → Tree β → Prop} {Q : Py α → AsyncState σ β → Prop} :
    ∀ {s : AsyncState σ β}, Safe S b0 p s.runner.search.tree Q' →
      (∀ a t s', f s' = f s → Ext t s'.runner.search.tree → Glob S b0 s' → Q' a t → Q (.ok a) s') →
      (∀ e s', f s' = f s → Glob S b0 s' → Q (.error e) s') → SafeRG S b0 w (treeR p) s Q := by
  induction p with
  | done r =>
      intro s h h1 h2
      cases r with
      | ok a => intro s' h3 h4; exact h1 a s.runner.search.tree s' (hw _ _ h3) h3.ext h4 h
      | error e => intro s' h3 h4; exact h2 e s' (hw _ _ h3) h4
  | act m k ih =>
      intro s h h1 h2 s' h3 h4
      obtain ⟨i1, i2, i3⟩ := h s'.runner.search h3.ext h4.tree
      have hfs : f { s' with runner := { s'.runner with search := (m s'.runner.search).2 } } = f s := by rw [hf, hw _ _ h3]
      refine ⟨h4.search i1 i2, ?_, ?_⟩
      · cases w with
        | explorer => exact ⟨i2, rfl⟩
        | caller => exact i2
      · exact ih _ (s := { s' with runner := { s'.runner with search := (m s'.runner.search).2 } }) i3
          (fun a t s'' h5 => h1 a t s'' (h5.trans hfs)) (fun e s'' h5 => h2 e s'' (h5.trans hfs))

/-! ### The bodies -/

/-- What the caller knows agrees with the state of the runner. -/
structure Agrees (S : Search σ β η) (k : Known) (v : CallerView) : Prop where
  names : namesOf S.sim v.history = k.history.map fun x => (some x.1, some x.2)
  last : ∀ a, v.last = some a → a < S.sim.nActions
  known : k.last = v.last.bind fun a => S.sim.actions[a]?

theorem ExplorerMay.view {s s' : AsyncState σ β} (h : OtherMay .caller s s') : callerView s' = callerView s := h.2

theorem SafeRG.read {w : Who} {α : Type} {g : AsyncState σ β → α} {s : AsyncState σ β} {Q : Py α → AsyncState σ β → Prop}
    (h : ∀ s' s'', OtherMay w s s' → Glob S b0 s' → OtherMay w s' s'' → Glob S b0 s'' → Q (.ok (g s')) s'') :
    SafeRG S b0 w (Res.atom (M.read g)) s Q :=
  SafeRG.atom fun s' h1 h2 => ⟨h2, SelfMay.refl w s', fun s'' h3 h4 => h s' s'' h1 h2 h3 h4⟩

theorem SafeRG.lift {w : Who} {α : Type} {x : Py α} {s : AsyncState σ β} {Q : Py α → AsyncState σ β → Prop}
    (h : ∀ s', OtherMay w s s' → Glob S b0 s' → Q x s') : SafeRG S b0 w (Res.atom (M.lift x)) s Q :=
  SafeRG.atom fun s' h1 h2 => ⟨h2, SelfMay.refl w s', fun s'' h3 h4 => h s'' (h1.trans h3) h4⟩

theorem SafeRG.pure {w : Who} {α : Type} {a : α} {s : AsyncState σ β} {Q : Py α → AsyncState σ β → Prop}
    (h : ∀ s', OtherMay w s s' → Glob S b0 s' → Q (.ok a) s') : SafeRG S b0 w (Pure.pure a) s Q := h

theorem explore_safe (S : Search σ β η) (it : Nat) (s : AsyncState σ β) :
    SafeRG S b0 .explorer (Body.explore.prog S it) s (fun _ _ => True) := by
  apply SafeRG.bind
  refine SafeRG.read fun s1 s2 h1 g1 h2 g2 => ?_
  apply SafeRG.bind
  refine SafeRG.read fun s3 s4 h3 g3 h4 g4 => ?_
  apply SafeRG.bind
  have hi : s1.tnode < s4.runner.search.tree.size := lt_of_lt_of_le g1.tnode (Ext.trans h2 (Ext.trans h3 h4)).size
  exact SafeRG.tree (f := fun _ => ()) (fun _ _ => rfl) (fun _ _ _ => rfl) (simulateFromNodeR_safe hi) (fun _ _ _ _ _ _ _ => fun _ _ _ => trivial)
    (fun _ _ _ _ => trivial)

theorem readDone_safe (S : Search σ β η) (it : Nat) (s : AsyncState σ β) :
    SafeRG S b0 .explorer (Body.readDone.prog S it) s (fun _ _ => True) := by
  apply SafeRG.bind
  exact SafeRG.read fun _ _ _ _ _ _ _ _ _ => trivial

theorem getAction_safe {S : Search σ β η} (it : Nat) {s : AsyncState σ β} {Q : Py Out → AsyncState σ β → Prop}
    (he : ∀ e s', callerView s' = callerView s → Glob S b0 s' → Q (.error e) s')
    (hq : ∀ a n s', S.sim.actions[a]? = some n → a < S.sim.nActions → callerView s' = { callerView s with last := some a } → Glob S b0 s' →
      Q (.ok (.name n)) s') : SafeRG S b0 .caller (getActionR S it) s Q := by
  unfold getActionR
  apply SafeRG.bind
  refine SafeRG.read fun s1 s2 h1 g1 h2 g2 => ?_
  have hv : callerView s2 = callerView s := (ExplorerMay.view h2).trans (ExplorerMay.view h1)
  have hi : s1.runner.node < s2.runner.search.tree.size := lt_of_lt_of_le g1.node h2.1.size
  apply SafeRG.bind
  refine SafeRG.tree (f := callerView) callerView_search (fun _ _ h => ExplorerMay.view h)
    (simulateManyR_safe it hi) (fun _ t3 s3 v3 e3 g3 _ => ?_) (fun e s3 v3 g3 => he e s3 (v3.trans hv) g3)
  apply SafeRG.bind
  refine SafeRG.tree (f := callerView) (Q' := fun a _ => a < S.sim.nActions) callerView_search (fun _ _ h => ExplorerMay.view h)
    (Safe.look (fun st => (getBest_tree _ _ _ _ _ st).1) fun st _ w a ha => ?_)
    (fun a t4 s4 v4 e4 g4 ha => ?_) (fun e s4 v4 g4 => he e s4 (v4.trans (v3.trans hv)) g4)
  · rw [← w.len s1.runner.node]; exact (getBest_tree _ _ _ _ _ st).2 a ha
  apply SafeRG.bind
  refine SafeRG.atom fun s5 h5 g5 => ⟨⟨g5.tree, g5.tnode, g5.node, g5.belief⟩, Ext.refl _, fun s6 h6 g6 => ?_⟩
  show SafeRG S b0 .caller _ _ Q
  apply SafeRG.bind
  have hn : S.sim.actions[a]? = some (S.sim.actions[a]'ha) := List.getElem?_eq_getElem ha
  rw [hn]
  refine SafeRG.lift fun s7 h7 g7 => ?_
  refine SafeRG.pure fun s8 h8 g8 => hq a _ s8 hn ha ?_ g8
  have h56 : callerView s6 = { callerView s5 with last := some a } := ExplorerMay.view h6
  rw [ExplorerMay.view h8, ExplorerMay.view h7, h56, ExplorerMay.view h5, v4, v3, hv]

theorem step_safe {S : Search σ β η} (o : Name) {s : AsyncState σ β} {Q : Py Out → AsyncState σ β → Prop}
    (he : ∀ e s', callerView s' = callerView s → Glob S b0 s' → Q (.error e) s')
    (hq : ∀ a i s', (callerView s).last = some a → o ∈ S.sim.observations →
      callerView s' = { callerView s with node := i, history := (callerView s).history ++ [(a, S.sim.observations.idxOf o)] } → Glob S b0 s' →
      Q (.ok .unit) s') : SafeRG S b0 .caller (stepR S o) s Q := by
  unfold stepR
  apply SafeRG.bind
  refine SafeRG.read fun s1 s2 h1 g1 h2 g2 => ?_
  have hl : s1.runner.last = (callerView s).last := congrArg CallerView.last (ExplorerMay.view h1)
  have hv : callerView s2 = callerView s := (ExplorerMay.view h2).trans (ExplorerMay.view h1)
  apply SafeRG.bind
  refine SafeRG.lift fun s3 h3 g3 => ?_
  have hv3 := (ExplorerMay.view h3).trans hv
  rcases hx : s1.runner.last with _ | a
  · exact he _ _ hv3 g3
  rw [hx] at hl
  show SafeRG S b0 .caller _ _ Q
  apply SafeRG.bind
  refine SafeRG.lift fun s4 h4 g4 => ?_
  have hv4 := (ExplorerMay.view h4).trans hv3
  unfold Sim.obsIndex
  by_cases ho : o ∈ S.sim.observations
  swap
  · rw [if_neg ho]; exact he _ _ hv4 g4
  rw [if_pos ho]
  show SafeRG S b0 .caller _ _ Q
  apply SafeRG.bind
  refine SafeRG.read fun s5 s6 h5 g5 h6 g6 => ?_
  have hh : s5.runner.history = (callerView s).history := congrArg CallerView.history ((ExplorerMay.view h5).trans hv4)
  have hv6 := (ExplorerMay.view h6).trans ((ExplorerMay.view h5).trans hv4)
  apply SafeRG.bind
  refine SafeRG.tree (f := callerView) callerView_search (fun _ _ h => ExplorerMay.view h)
    (getNodeFromR_safe (b0 := b0) _ 0 _ g6.tree.pos) (fun i t7 s7 v7 e7 g7 hi => ?_) (fun e s7 v7 g7 => he e s7 (v7.trans hv6) g7)
  apply SafeRG.bind
  refine SafeRG.atom fun s8 h8 g8 => ?_
  have e8 := e7.trans h8.1
  refine ⟨⟨g8.tree, g8.tnode, lt_of_lt_of_le hi.1 e8.size, ?_⟩, Ext.refl _, fun s9 h9 g9 => ?_⟩
  · show Along S.sim b0 (s5.runner.history ++ [(a, S.sim.observations.idxOf o)]) (s8.runner.search.tree.nodes i).belief
    rw [e8.belief i hi.1, ← g6.tree.root]
    exact hi.2
  · show SafeRG S b0 .caller _ _ Q
    refine SafeRG.pure fun s10 h10 g10 => hq a i s10 hl.symm ho ?_ g10
    have h89 : callerView s9 = { callerView s8 with node := i, history := s5.runner.history ++ [(a, S.sim.observations.idxOf o)] } := ExplorerMay.view h9
    rw [ExplorerMay.view h10, h89, ExplorerMay.view h8, v7, hv6, hh]

theorem reset_safe {S : Search σ β η} (it : Nat) (given : Bool) {s : AsyncState σ β} {Q : Py Out → AsyncState σ β → Prop}
    (he : ∀ e s', callerView s' = callerView s → Glob S b0 s' → Q (.error e) s')
    (hq : ∀ s', callerView s' = { callerView s with node := 0, history := [], last := none } → Glob S b0 s' → Q (.ok .unit) s') :
    SafeRG S b0 .caller ((Body.reset given).prog S it) s Q := by
  apply SafeRG.bind
  refine SafeRG.atom fun s1 h1 g1 => ?_
  cases given with
  | true =>
      refine ⟨g1, Ext.refl _, fun s2 h2 g2 => he _ s2 ?_ g2⟩
      exact (ExplorerMay.view h2).trans (ExplorerMay.view h1)
  | false =>
      refine ⟨⟨g1.tree, g1.tnode, g1.tree.pos, g1.tree.root⟩, Ext.refl _, fun s2 h2 g2 => ?_⟩
      refine SafeRG.pure fun s3 h3 g3 => hq s3 ?_ g3
      have h12 : callerView s2 = { callerView s1 with node := 0, history := [], last := none } := ExplorerMay.view h2
      rw [ExplorerMay.view h3, h12, ExplorerMay.view h1]

theorem setNode_safe {S : Search σ β η} (it : Nat) {s : AsyncState σ β} {Q : Py Out → AsyncState σ β → Prop}
    (hq : ∀ s', callerView s' = { callerView s with tnode := (callerView s).node, taction := none } → Glob S b0 s' → Q (.ok .unit) s') :
    SafeRG S b0 .caller (Body.setNode.prog S it) s Q := by
  apply SafeRG.bind
  refine SafeRG.atom fun s1 h1 g1 => ⟨⟨g1.tree, g1.node, g1.node, g1.belief⟩, Ext.refl _, fun s2 h2 g2 => ?_⟩
  refine SafeRG.pure fun s3 h3 g3 => hq s3 ?_ g3
  have h12 : callerView s2 = { callerView s1 with tnode := (callerView s1).node, taction := none } := ExplorerMay.view h2
  rw [ExplorerMay.view h3, h12, ExplorerMay.view h1]

theorem setAction_safe {S : Search σ β η} (it : Nat) {s : AsyncState σ β} {Q : Py Out → AsyncState σ β → Prop}
    (hq : ∀ s', callerView s' = { callerView s with taction := (callerView s).last } → Glob S b0 s' → Q (.ok .unit) s') :
    SafeRG S b0 .caller (Body.setAction.prog S it) s Q := by
  apply SafeRG.bind
  refine SafeRG.atom fun s1 h1 g1 => ⟨⟨g1.tree, g1.tnode, g1.node, g1.belief⟩, Ext.refl _, fun s2 h2 g2 => ?_⟩
  refine SafeRG.pure fun s3 h3 g3 => hq s3 ?_ g3
  have h12 : callerView s2 = { callerView s1 with taction := (callerView s1).last } := ExplorerMay.view h2
  rw [ExplorerMay.view h3, h12, ExplorerMay.view h1]

theorem setDone_safe {S : Search σ β η} (it : Nat) {s : AsyncState σ β} {Q : Py Out → AsyncState σ β → Prop}
    (hq : ∀ s', callerView s' = callerView s → Glob S b0 s' → Q (.ok .unit) s') :
    SafeRG S b0 .caller (Body.setDone.prog S it) s Q := by
  apply SafeRG.bind
  refine SafeRG.atom fun s1 h1 g1 => ⟨⟨g1.tree, g1.tnode, g1.node, g1.belief⟩, Ext.refl _, fun s2 h2 g2 => ?_⟩
  refine SafeRG.pure fun s3 h3 g3 => hq s3 ?_ g3
  have h12 : callerView s2 = callerView s1 := ExplorerMay.view h2
  rw [ExplorerMay.view h3, h12, ExplorerMay.view h1]

/-! ### The threads -/

/-- The commands preserve the invariant and end with `Q`. -/
def SafeCmds (S : Search σ β η) (it : Nat) (b0 : β) (w : Who) : List Cmd → AsyncState σ β → Py Out → (Py Out → AsyncState σ β → Prop) → Prop
  | [], s, out, Q => ∀ s', OtherMay w s s' → Glob S b0 s' → Q out s'
  | .body b :: rest, s, out, Q => SafeRG S b0 w (b.prog S it) s fun r s' =>
      match r with
      | .ok _ => SafeCmds S it b0 w rest s' (Out.after r out) Q
      | .error _ => ∀ s'', OtherMay w s' s'' → Glob S b0 s'' → Q (Out.after r out) s''
  | _ :: rest, s, out, Q => SafeCmds S it b0 w rest s out Q

/-- The thread preserves the invariant and ends with `Q`. -/
def SafeStrand (S : Search σ β η) (it : Nat) (b0 : β) (w : Who) (th : Strand σ β) (s : AsyncState σ β) (Q : Py Out → AsyncState σ β → Prop) : Prop :=
  match th.cur with
  | none => SafeCmds S it b0 w th.todo s th.out Q
  | some (_, p) => SafeRG S b0 w p s fun r s' =>
      match r with
      | .ok _ => SafeCmds S it b0 w th.todo s' (Out.after r th.out) Q
      | .error _ => ∀ s'', OtherMay w s' s'' → Glob S b0 s'' → Q (Out.after r th.out) s''

theorem SafeCmds.weaken {S : Search σ β η} {it : Nat} {w : Who} : ∀ {cs : List Cmd} {s s1 : AsyncState σ β} {out : Py Out}
    {Q : Py Out → AsyncState σ β → Prop}, SafeCmds S it b0 w cs s out Q → OtherMay w s s1 → SafeCmds S it b0 w cs s1 out Q := by
  intro cs
  induction cs with
  | nil => intro s s1 out Q h h1 s' h2 h3; exact h s' (h1.trans h2) h3
  | cons c cs ih =>
      intro s s1 out Q h h1
      cases c with
      | body b => exact SafeRG.weaken h h1
      | acquire => exact ih (s := s) h h1
      | release => exact ih (s := s) h h1
      | join => exact ih (s := s) h h1

theorem SafeStrand.weaken {S : Search σ β η} {it : Nat} {w : Who} {th : Strand σ β} {s s1 : AsyncState σ β} {Q : Py Out → AsyncState σ β → Prop}
    (h : SafeStrand S it b0 w th s Q) (h1 : OtherMay w s s1) : SafeStrand S it b0 w th s1 Q := by
  unfold SafeStrand at h ⊢
  rcases hc : th.cur with _ | ⟨b, p⟩
  · rw [hc] at h; exact SafeCmds.weaken h h1
  · rw [hc] at h; exact SafeRG.weaken h h1

/-- The invariant of the system; `k` is what the caller knows. -/
structure RaceInv (S : Search σ β η) (it : Nat) (b0 : β) (m : Mach σ β) (k : Known) : Prop where
  glob : Glob S b0 m.sh
  exp : SafeStrand S it b0 .explorer m.exp m.sh (fun _ _ => True)
  caller : match m.op with
    | none => Agrees S k (callerView m.sh)
    | some op => SafeStrand S it b0 .caller m.caller m.sh (fun r s => Agrees S (k.afterAsync op r) (callerView s))

theorem loop_safe (S : Search σ β η) (it : Nat) (s : AsyncState σ β) (out : Py Out) :
    SafeCmds S it b0 .explorer loopScript s out (fun _ _ => True) := by
  show SafeRG S b0 .explorer _ s _
  have mono : ∀ {p : Res (AsyncState σ β) Out} {s : AsyncState σ β} {Q Q' : Py Out → AsyncState σ β → Prop},
      SafeRG S b0 .explorer p s Q → (∀ r s, Q r s → Q' r s) → SafeRG S b0 .explorer p s Q' := by
    intro p
    induction p with
    | done r => intro s Q Q' h hq s' h1 h2; exact hq _ _ (h s' h1 h2)
    | act m k ih => intro s Q Q' h hq s' h1 h2; obtain ⟨i1, i2, i3⟩ := h s' h1 h2; exact ⟨i1, i2, ih _ i3 hq⟩
  refine mono (explore_safe S it s) fun r s' _ => ?_
  cases r with
  | error e => intro _ _ _; trivial
  | ok a =>
      show SafeRG S b0 .explorer _ s' _
      refine mono (readDone_safe S it s') fun r s'' _ => ?_
      cases r with
      | error e => intro _ _ _; trivial
      | ok a => intro _ _ _; trivial

theorem Agrees.view {S : Search σ β η} {k : Known} {v v' : CallerView} (h : Agrees S k v) (h1 : v'.history = v.history) (h2 : v'.last = v.last) :
    Agrees S k v' := ⟨by rw [h1]; exact h.names, by rw [h2]; exact h.last, by rw [h2]; exact h.known⟩

theorem Known.afterAsync_error (k : Known) (op : AsyncOp) (e : PyErr) : k.afterAsync op (.error e) = k := by
  unfold Known.afterAsync
  cases op <;> rfl

theorem script_safe (S : Search σ β η) (it : Nat) (op : AsyncOp) (s : AsyncState σ β) (k : Known) (h : Agrees S k (callerView s)) :
    SafeCmds S it b0 .caller op.script s (.ok .unit) (fun r s => Agrees S (k.afterAsync op r) (callerView s)) := by
  cases op with
  | getAction n =>
      refine getAction_safe it (fun e s1 v1 g1 s2 h2 g2 => ?_) fun a n s1 hn ha v1 g1 => ?_
      · show Agrees S (k.afterAsync _ (.error e)) _
        rw [Known.afterAsync_error, ExplorerMay.view h2, v1]; exact h
      · refine setAction_safe it fun s2 v2 g2 => ?_
        intro s3 h3 g3
        rw [ExplorerMay.view h3, v2, v1]
        exact ⟨h.names, fun a' ha' => by cases ha'; exact ha, hn.symm⟩
  | step o =>
      refine step_safe o (fun e s1 v1 g1 s2 h2 g2 => ?_) fun a i s1 hl ho v1 g1 => ?_
      · show Agrees S (k.afterAsync _ (.error e)) _
        rw [Known.afterAsync_error, ExplorerMay.view h2, v1]; exact h
      · refine setNode_safe it fun s2 v2 g2 => ?_
        intro s3 h3 g3
        rw [ExplorerMay.view h3, v2, v1]
        have hlt : a < S.sim.actions.length := h.last a hl
        have hk : k.last = some S.sim.actions[a] := by
          rw [h.known, hl]
          exact List.getElem?_eq_getElem hlt
        have hk' : k.afterAsync (.step o) (.ok .unit) = { k with history := k.history ++ [(S.sim.actions[a], o)] } := by
          unfold Known.afterAsync
          rw [hk]
        show Agrees S (k.afterAsync (.step o) (.ok .unit)) _
        rw [hk']
        refine ⟨?_, h.last, h.known⟩
        show namesOf S.sim ((callerView s).history ++ _) = _
        have h5 := h.names
        unfold namesOf at *
        rw [List.map_append, h5, List.map_append]
        congr 1
        simp only [List.map_cons, List.map_nil]
        rw [List.getElem?_eq_getElem hlt]
        have : S.sim.observations[S.sim.observations.idxOf o]? = some o := by
          rw [List.getElem?_eq_getElem (List.idxOf_lt_length_iff.2 ho)]
          simp
        rw [this]
  | reset given =>
      refine reset_safe it given (fun e s1 v1 g1 s2 h2 g2 => ?_) fun s1 v1 g1 => ?_
      · show Agrees S (k.afterAsync _ (.error e)) _
        rw [Known.afterAsync_error, ExplorerMay.view h2, v1]; exact h
      · refine setNode_safe it fun s2 v2 g2 => ?_
        intro s3 h3 g3
        rw [ExplorerMay.view h3, v2, v1]
        exact ⟨rfl, fun a ha => (by cases ha), rfl⟩
  | stop =>
      refine setDone_safe it fun s1 v1 g1 => ?_
      intro s2 h2 g2
      rw [ExplorerMay.view h2, v1]
      exact h

theorem asyncKnown_append : ∀ (t u : AsyncTrace σ β) (k : Known), asyncKnown k (t ++ u) = asyncKnown (asyncKnown k t) u := by
  intro t
  induction t with
  | nil => intro u k; rfl
  | cons x t ih =>
      intro u k
      obtain ⟨w, e, s⟩ := x
      cases e <;> exact ih u _

/-- A move of a thread that is not at its end. -/
theorem SafeStrand.move {S : Search σ β η} {it : Nat} {m m' : Mach σ β} {w : Who} {es : List Happening} {Q : Py Out → AsyncState σ β → Prop}
    (hm : Move S it m w m' es) (hg : Glob S b0 m.sh) (h : SafeStrand S it b0 w (m.strand w) m.sh Q)
    (hcall : ∀ op, es ≠ [.called op]) :
    Glob S b0 m'.sh ∧ SelfMay w m.sh m'.sh ∧ (m'.strand w = m.strand w ∧ m'.sh = m.sh ∨ SafeStrand S it b0 w (m'.strand w) m'.sh Q ∨
      w = .explorer ∧ m'.exp = { m.exp with todo := loopScript } ∧ m.exp.cur = none ∧ m'.sh = m.sh) ∧
      (∀ v, v ≠ w → m'.strand v = m.strand v) := by
  have other : ∀ (w : Who) (th : Strand σ β) (l : Option Who) (sh : AsyncState σ β) (v : Who), v ≠ w → (m.put w th l sh).strand v = m.strand v := by
    intro w th l sh v hv
    rw [put_strand, if_neg hv]
  have skip : ∀ {c : Cmd} {rest : List Cmd} {w : Who}, (m.strand w).cur = none → (m.strand w).todo = c :: rest → (∀ b, c ≠ .body b) →
      SafeStrand S it b0 w (m.strand w) m.sh Q → SafeStrand S it b0 w { m.strand w with todo := rest } m.sh Q := by
    intro c rest w hc ht hb h
    unfold SafeStrand at h ⊢
    simp only [hc] at h ⊢
    rw [ht] at h
    cases c with
    | body b => exact absurd rfl (hb b)
    | _ => exact h
  cases hm with
  | act w b x k ha hc =>
      have h' := h
      unfold SafeStrand at h'
      rw [hc] at h'
      obtain ⟨i1, i2, i3⟩ := h' m.sh (OtherMay.refl w _) hg
      rw [put_sh]
      refine ⟨i1, i2, .inr (.inl ?_), other w _ _ _⟩
      rw [put_strand, if_pos rfl]
      exact i3
  | finish w b r ha hc =>
      rw [put_sh]
      refine ⟨hg, SelfMay.refl _ _, .inr (.inl ?_), other w _ _ _⟩
      rw [put_strand, if_pos rfl]
      unfold SafeStrand at h ⊢
      rw [hc] at h
      have := h m.sh (OtherMay.refl w _) hg
      cases r with
      | ok a => exact this
      | error e =>
          by_cases hd : m.lock = some w
          · simp only [afterBody, hd, decide_true, if_true]
            exact fun s' => this s'
          · simp only [afterBody, hd, decide_false]
            exact fun s' => this s'
  | acquire w rest ha hc ht hl =>
      rw [put_sh]
      refine ⟨hg, SelfMay.refl _ _, .inr (.inl ?_), other w _ _ _⟩
      rw [put_strand, if_pos rfl]
      exact skip hc ht (fun _ h => by cases h) h
  | release w rest ha hc ht =>
      rw [put_sh]
      refine ⟨hg, SelfMay.refl _ _, .inr (.inl ?_), other w _ _ _⟩
      rw [put_strand, if_pos rfl]
      exact skip hc ht (fun _ h => by cases h) h
  | join w rest ha hc ht he =>
      rw [put_sh]
      refine ⟨hg, SelfMay.refl _ _, .inr (.inl ?_), other w _ _ _⟩
      rw [put_strand, if_pos rfl]
      exact skip hc ht (fun _ h => by cases h) h
  | start w b rest ha hc ht =>
      rw [put_sh]
      refine ⟨hg, SelfMay.refl _ _, .inr (.inl ?_), other w _ _ _⟩
      rw [put_strand, if_pos rfl]
      unfold SafeStrand at h ⊢
      simp only [hc] at h
      rw [ht] at h
      exact h
  | restart ha hc ht ho =>
      refine ⟨hg, SelfMay.refl _ _, .inr (.inr ⟨rfl, rfl, hc, rfl⟩), fun v hv => ?_⟩
      cases v with
      | explorer => exact absurd rfl hv
      | caller => rfl
  | stops ha hc ht ho =>
      refine ⟨hg, SelfMay.refl _ _, .inl ⟨rfl, rfl⟩, fun v hv => ?_⟩
      cases v <;> rfl
  | returns op ho hc ht =>
      refine ⟨hg, SelfMay.refl _ _, .inl ⟨rfl, rfl⟩, fun v hv => ?_⟩
      cases v <;> rfl
  | call op ho => exact absurd rfl (hcall op)

theorem RaceInv.move {S : Search σ β η} {it : Nat} {m m' : Mach σ β} {w : Who} {es : List Happening} {k : Known}
    (hl : LockInv m) (h : RaceInv S it b0 m k) (hm : Move S it m w m' es) :
    RaceInv S it b0 m' (asyncKnown k (es.map fun e => (w, e, m'.sh))) := by
  cases w with
  | explorer =>
      have hes : asyncKnown k (es.map fun e => (Who.explorer, e, m'.sh)) = k := by cases hm <;> rfl
      have hop : m'.op = m.op := by cases hm <;> rfl
      have hcall : ∀ op, es ≠ [Happening.called op] := by cases hm <;> intro op h <;> cases h
      obtain ⟨h1, h2, h3, h4⟩ := SafeStrand.move hm h.glob h.exp hcall
      rw [hes]
      refine ⟨h1, ?_, ?_⟩
      · rcases h3 with h3 | h3 | ⟨_, h3, h5, h6⟩
        · have h3' : m'.exp = m.exp := h3.1
          rw [h3', h3.2]
          exact h.exp
        · exact h3
        · rw [h3]
          unfold SafeStrand
          simp only [h5]
          exact loop_safe S it _ _
      · have hc : m'.caller = m.caller := h4 .caller (by simp)
        rw [hop, hc]
        have h5 := h.caller
        rcases ho : m.op with _ | op
        · rw [ho] at h5
          simp only at h5 ⊢
          rw [h2.2]
          exact h5
        · rw [ho] at h5
          exact SafeStrand.weaken h5 h2
  | caller =>
      rcases ho : m.op with _ | op
      · have hna : ¬ m.active .caller := fun hx => hx ho
        have h5 := h.caller
        rw [ho] at h5
        cases hm with
        | act w b x k ha hc => exact absurd ha hna
        | finish w b r ha hc => exact absurd ha hna
        | acquire w rest ha hc ht hl => exact absurd ha hna
        | release w rest ha hc ht => exact absurd ha hna
        | join w rest ha hc ht he => exact absurd ha hna
        | start w b rest ha hc ht => exact absurd ha hna
        | returns op ho' hc ht => rw [ho] at ho'; cases ho'
        | call op ho' => exact ⟨h.glob, h.exp, script_safe S it op _ _ h5⟩
      · have h5 := h.caller
        rw [ho] at h5
        have hcall : ∀ op, es ≠ [Happening.called op] := by
          intro op' he
          subst he
          cases hm with
          | call op ho' => rw [ho] at ho'; cases ho'
        obtain ⟨h1, h2, h3, h4⟩ := SafeStrand.move hm h.glob h5 hcall
        have he : m'.exp = m.exp := h4 .explorer (by simp)
        have hexp : SafeStrand S it b0 .explorer m'.exp m'.sh (fun _ _ => True) := by
          rw [he]
          exact h.exp.weaken h2
        refine ⟨h1, hexp, ?_⟩
        have keep : m'.op = m.op → asyncKnown k (es.map fun e => (Who.caller, e, m'.sh)) = k →
            match m'.op with
            | none => Agrees S (asyncKnown k (es.map fun e => (Who.caller, e, m'.sh))) (callerView m'.sh)
            | some op => SafeStrand S it b0 .caller m'.caller m'.sh
                (fun r s => Agrees S ((asyncKnown k (es.map fun e => (Who.caller, e, m'.sh))).afterAsync op r) (callerView s)) := by
          intro k1 k3
          rw [k1, ho, k3]
          rcases h3 with h3 | h3 | ⟨h3, _⟩
          · have h3' : m'.caller = m.caller := h3.1
            simp only
            rw [h3', h3.2]
            exact h5
          · exact h3
          · cases h3
        cases hm with
        | act w b x k' ha hc => exact keep rfl rfl
        | finish w b r ha hc => exact keep rfl rfl
        | acquire w rest ha hc ht hl => exact keep rfl rfl
        | release w rest ha hc ht => exact keep rfl rfl
        | join w rest ha hc ht he => exact keep rfl rfl
        | start w b rest ha hc ht => exact keep rfl rfl
        | returns op' ho' hc ht =>
            rw [ho] at ho'
            cases ho'
            unfold SafeStrand at h5
            simp only [hc] at h5
            rw [ht] at h5
            exact h5 m.sh (OtherMay.refl _ _) h.glob
        | call op ho' => rw [ho] at ho'; cases ho'

end Verif
