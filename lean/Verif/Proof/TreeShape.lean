import Verif.Proof.PomcpSim

/-! Properties of a search tree that every operation of a search preserves, and its shape: the histories that lead to a node. -/

set_option linter.unusedSectionVars false
set_option linter.unusedSimpArgs false

namespace Verif
open Spec
variable {σ β η : Type} [DecidableEq β] {S : Search σ β η} {b0 : β}

/-- The changes of a tree made by a search preserve `P`. -/
structure Stable (S : Search σ β η) (b0 : β) (P : Tree β → Prop) : Prop where
  ensure : ∀ t i a, TInv S b0 t → P t → i < t.size → (t.nodes i).children[a]? = some none → P (t.ensure i a)
  bump : ∀ t i x, P t → P (t.bump S.alpha i x)
  bumpA : ∀ t i a x, P t → P (t.bumpA S.alpha i a x)
  child : ∀ t i a o b j t1, TInv S b0 t → P t → i < t.size → t.anode i a ≠ none → t.next i a o = none →
    Succ S.sim (t.nodes i).belief a o b → Tree.nodeFor S.shared S.sim.nActions b t = (j, t1) → P (t1.link i a o j)

variable {P : Tree β → Prop}

theorem safeGetChild_stable (hP : Stable S b0 P) {i a : Nat} {st : SearchState σ β} (ht : TInv S b0 st.tree) (hi : i < st.tree.size)
    (hp : P st.tree) : M.Post (safeGetChild i a) st (fun _ st' => P st'.tree) (fun _ st' => P st'.tree) := by
  have hrun : safeGetChild i a st = match (st.tree.nodes i).children[a]? with
      | none => (.error .indexError, st)
      | some none => (.ok (), { st with tree := st.tree.ensure i a })
      | some (some _) => (.ok (), st) := rfl
  rcases h : (st.tree.nodes i).children[a]? with _ | _ | c
  · rw [M.post_of_error (e := .indexError) (s' := st) (by rw [hrun, h])]
    exact hp
  · rw [M.post_of_ok (a := ()) (s' := { st with tree := st.tree.ensure i a }) (by rw [hrun, h])]
    exact hP.ensure _ _ _ ht hp hi h
  · rw [M.post_of_ok (a := ()) (s' := st) (by rw [hrun, h])]
    exact hp

theorem createChild_stable (hP : Stable S b0 P) {i a o : Nat} {st : SearchState σ β} (ht : TInv S b0 st.tree) (hi : i < st.tree.size)
    (ha : st.tree.anode i a ≠ none) (hn : st.tree.next i a o = none) (hp : P st.tree) :
    M.Post (createChild S i a o) st (fun _ st' => P st'.tree) (fun _ st' => P st'.tree) := by
  unfold createChild
  apply M.post_read_bind
  generalize st = s1 at *
  refine M.post_bind (Q1 := fun b' s2 => s2.tree = s1.tree ∧ S.sim.successor (s1.tree.nodes i).belief a o s1.rng = (.ok b', s2.rng))
    (E1 := fun e s2 => s2.tree = s1.tree)
    (onRng_tree _ _ (fun b' g h => ⟨rfl, h⟩) (fun e g h => rfl)) (fun _ _ h => by rw [h]; exact hp) ?_
  rintro b' s2 _ ⟨htr, hsucc⟩
  rcases hnf : Tree.nodeFor S.shared S.sim.nActions b' s1.tree with ⟨j, t1⟩
  have hrun : onTree (σ := σ) (Tree.nodeFor S.shared S.sim.nActions b') s2 = (.ok j, ⟨t1, s2.rng⟩) := by
    unfold onTree; rw [htr, hnf]
  refine M.post_ok_bind hrun ?_
  refine M.post_ok_bind (show linkNode i a o j ⟨t1, s2.rng⟩ = (.ok (), ⟨t1.link i a o j, s2.rng⟩) from rfl) ?_
  rw [M.post_pure]
  exact hP.child _ _ _ _ _ _ _ ht hp hi ha hn ⟨_, _, hsucc⟩ hnf

theorem rollout_stable (hP : Stable S b0 P) {i : Nat} {h : η} {st : SearchState σ β} (hp : P st.tree) :
    M.Post (rolloutFromNode S i h) st (fun _ st' => P st'.tree) (fun _ st' => P st'.tree) := by
  refine M.post_mono (rolloutFromNode_post (S := S) i h st) ?_ ?_
  · rintro y s2 (⟨_, _, rfl⟩ | ⟨_, _, x, _, _, hb⟩)
    · exact hp
    · rw [hb]; exact hP.bump _ _ _ hp
  · rintro e s2 ⟨htr, _⟩
    rw [htr]; exact hp

theorem expand_stable (hP : Stable S b0 P) {i a o : Nat} {h : η} {st : SearchState σ β} (ht : TInv S b0 st.tree) (hi : i < st.tree.size)
    (ha : st.tree.anode i a ≠ none) (hn : st.tree.next i a o = none) (hp : P st.tree) :
    M.Post (expand S i a o h) st (fun _ st' => P st'.tree) (fun _ st' => P st'.tree) := by
  unfold expand
  refine M.post_try (Q1 := fun _ st' => P st'.tree) (E1 := fun _ st' => P st'.tree) ?_ (fun _ _ _ h => h) (fun _ _ _ h => h) ?_
  · refine M.post_bind (createChild_stable hP ht hi ha hn hp) (fun _ _ h => h) ?_
    intro j s1 _ h1
    exact rollout_stable hP h1
  · intro s1 _ h1
    exact M.post_pure.2 h1

theorem simulate_stable (hP : Stable S b0 P) : ∀ (fuel i s : Nat) (h : η) (act : Option Nat) (st : SearchState σ β), TInv S b0 st.tree →
    i < st.tree.size → P st.tree → M.Post (simulate S fuel i s h act) st (fun _ st' => P st'.tree) (fun _ st' => P st'.tree) := by
  intro fuel
  induction fuel with
  | zero => intro i s h act st ht hi hp; exact M.post_raise.2 hp
  | succ fuel ih =>
      intro i s h act st ht hi hp
      unfold simulate
      apply M.post_ite
      · intro _
        rw [M.post_read]
        exact hp
      · intro _
        refine M.post_bind chooseAction_post (fun e s1 h1 => by rw [h1]; exact hp) ?_
        intro a s1 _ h1
        have ht1 : TInv S b0 s1.tree := by rw [h1]; exact ht
        have hi1 : i < s1.tree.size := by rw [h1]; exact hi
        have hp1 : P s1.tree := by rw [h1]; exact hp
        refine M.post_bind (safeGetChild_stable hP (a := a) ht1 hi1 hp1) (fun e s2 h2 => h2) ?_
        intro u s2 h2 hp2
        obtain ⟨_, ht2, _, _, ha2, _, _, hs2, _⟩ := (M.post_of_ok h2).1 (safeGetChild_post (a := a) ht1 hi1)
        refine M.post_bind (Q1 := fun _ s3 => s3.tree = s2.tree) (E1 := fun _ s3 => s3.tree = s2.tree)
          (onRng_tree _ _ (fun _ _ _ => rfl) (fun _ _ _ => rfl)) (fun e s3 h3 => by rw [h3]; exact hp2) ?_
        intro x s3 _ h3
        apply M.post_read_bind
        generalize s3 = s4 at *
        have ht3 : TInv S b0 s4.tree := by rw [h3]; exact ht2
        have hi3 : i < s4.tree.size := by rw [h3, hs2]; exact hi1
        have ha3 : s4.tree.anode i a ≠ none := by rw [h3]; exact ha2
        have hp3 : P s4.tree := by rw [h3]; exact hp2
        refine M.post_bind (Q1 := fun _ s5 => P s5.tree) (E1 := fun _ s5 => P s5.tree) ?_ (fun _ _ h => h) ?_
        · rcases hj : s4.tree.next i a x.2.1 with _ | j
          · exact expand_stable hP ht3 hi3 ha3 hj hp3
          · exact ih j _ _ _ _ ht3 (ht3.range i a _ j hj).1 hp3
        · intro y s5 _ hp5
          rw [M.post_of_ok (updateBoth_run ..)]
          exact hP.bump _ _ _ (hP.bumpA _ _ _ _ hp5)

theorem simulateFromNode_stable (hP : Stable S b0 P) (i : Nat) (act : Option Nat) (st : SearchState σ β) (ht : TInv S b0 st.tree)
    (hi : i < st.tree.size) (hp : P st.tree) :
    M.Post (simulateFromNode S i act) st (fun _ st' => P st'.tree) (fun _ st' => P st'.tree) := by
  unfold simulateFromNode
  apply M.post_read_bind
  generalize st = s1 at *
  refine M.post_bind (Q1 := fun _ s3 => s3.tree = s1.tree) (E1 := fun _ s3 => s3.tree = s1.tree)
    (onRng_tree _ _ (fun _ _ _ => rfl) (fun _ _ _ => rfl)) (fun e s3 h3 => by rw [h3]; exact hp) ?_
  intro s s2 _ h2
  refine M.post_bind (simulate_stable hP S.fuel i s S.horizon act s2 (by rw [h2]; exact ht) (by rw [h2]; exact hi) (by rw [h2]; exact hp))
    (fun e s3 h3 => h3) ?_
  intro x s3 _ h3
  exact M.post_pure.2 h3

theorem getNodeStep_stable (hP : Stable S b0 P) (i a o : Nat) (st : SearchState σ β) (ht : TInv S b0 st.tree) (hi : i < st.tree.size)
    (hp : P st.tree) : M.Post (getNodeStep S i a o) st (fun _ st' => P st'.tree) (fun _ st' => P st'.tree) := by
  unfold getNodeStep
  refine M.post_bind (safeGetChild_stable hP (a := a) ht hi hp) (fun e s2 h2 => h2) ?_
  intro u s2 h2 hp2
  obtain ⟨_, ht2, _, _, ha2, _, _, hs2, _⟩ := (M.post_of_ok h2).1 (safeGetChild_post (a := a) ht hi)
  apply M.post_read_bind
  generalize s2 = s3 at *
  rcases hj : s3.tree.next i a o with _ | j
  · exact createChild_stable hP ht2 (by rw [hs2]; exact hi) ha2 hj hp2
  · exact M.post_pure.2 hp2

theorem getNodeFrom_stable (hP : Stable S b0 P) : ∀ (h : List (Nat × Nat)) (i : Nat) (st : SearchState σ β), TInv S b0 st.tree →
    i < st.tree.size → P st.tree → M.Post (getNodeFrom S i h) st (fun _ st' => P st'.tree) (fun _ st' => P st'.tree) := by
  intro h
  induction h with
  | nil => intro i st ht hi hp; exact M.post_pure.2 hp
  | cons ao h ih =>
      intro i st ht hi hp
      obtain ⟨a, o⟩ := ao
      unfold getNodeFrom
      refine M.post_bind (getNodeStep_stable hP i a o st ht hi hp) (fun _ _ h => h) ?_
      intro j s1 h1 hp1
      obtain ⟨ht1, _, _, _, hlt, _⟩ := (M.post_of_ok h1).1 (getNodeStep_post i a o st ht hi)
      exact ih j s1 ht1 hlt hp1

theorem runTreeOps_stable (hP : Stable S b0 P) (ops : List TreeOp) : ∀ (st : SearchState σ β), TInv S b0 st.tree → P st.tree →
    P (runTreeOps S st ops).tree := by
  induction ops with
  | nil => intro st _ hp; exact hp
  | cons op ops ih =>
      intro st ht hp
      refine ih _ (runTreeOp_inv op st ht).1 ?_
      cases op with
      | simulate i a =>
          show P (if i < st.tree.size then (simulateFromNode S i a st).2 else st).tree
          split
          · rename_i hi
            exact post_state (P := fun s' : SearchState σ β => P s'.tree) (simulateFromNode_stable hP i a st ht hi hp)
          · exact hp
      | getNode h => exact post_state (P := fun s' : SearchState σ β => P s'.tree) (getNodeFrom_stable hP h 0 st ht ht.pos hp)

/-! ### The shape of a tree -/

/-- With shared nodes every node is registered for its belief; every node is reached by a history; without shared nodes a node has
one parent at most. -/
structure Shape (S : Search σ β η) (t : Tree β) : Prop where
  share : S.shared = true → ∀ i, i < t.size → dget t.lookup (t.nodes i).belief = some i
  conn : ∀ j, j < t.size → ∃ h, follow t 0 h = some j
  parent : S.shared = false → ∀ i a o i' a' o' j, t.next i a o = some j → t.next i' a' o' = some j → i = i' ∧ a = a' ∧ o = o'

omit [DecidableEq β] in
theorem follow_congr {t t' : Tree β} (h : ∀ i a o, t'.next i a o = t.next i a o) : ∀ (l : List (Nat × Nat)) (i : Nat),
    follow t' i l = follow t i l := by
  intro l
  induction l with
  | nil => intro i; rfl
  | cons ao l ih =>
      intro i
      obtain ⟨a, o⟩ := ao
      unfold follow
      rw [h]
      congr 1
      funext j
      exact ih j

omit [DecidableEq β] in
theorem follow_append {t : Tree β} : ∀ (l l' : List (Nat × Nat)) (i : Nat),
    follow t i (l ++ l') = (follow t i l).bind fun j => follow t j l' := by
  intro l
  induction l with
  | nil => intro l' i; rfl
  | cons ao l ih =>
      intro l' i
      obtain ⟨a, o⟩ := ao
      simp only [List.cons_append, follow]
      rcases t.next i a o with _ | j
      · rfl
      · simp only [Option.bind_some]
        exact ih l' j

theorem follow_more {t t' : Tree β} (ht : TInv S b0 t) (hg : Tree.Grows t t') : ∀ (h : List (Nat × Nat)) (i j : Nat),
    i < t.size → follow t i h = some j → follow t' i h = some j := by
  intro h
  induction h with
  | nil => intro i j _ h; exact h
  | cons ao h ih =>
      intro i j hi hf
      obtain ⟨a, o⟩ := ao
      obtain ⟨k, h1, h2⟩ := Option.bind_eq_some_iff.1 hf
      unfold follow
      rw [hg.next i a o k hi h1]
      exact ih k j (ht.range i a o k h1).1 h2

theorem Shape.same {t t' : Tree β} (h : Shape S t) (hs : t'.size = t.size) (hl : t'.lookup = t.lookup)
    (hb : ∀ i, (t'.nodes i).belief = (t.nodes i).belief) (hn : ∀ i a o, t'.next i a o = t.next i a o) : Shape S t' where
  share hsh i hi := by rw [hl, hb]; exact h.share hsh i (by rw [← hs]; exact hi)
  conn j hj := by
    obtain ⟨l, hl⟩ := h.conn j (by rw [← hs]; exact hj)
    exact ⟨l, by rw [follow_congr hn]; exact hl⟩
  parent hsh i a o i' a' o' j h1 h2 := by
    rw [hn] at h1 h2
    exact h.parent hsh i a o i' a' o' j h1 h2

theorem shape_stable : Stable S b0 (Shape S) where
  ensure t i a _ hp _ h := hp.same rfl rfl (fun j => Tree.ensure_belief ..) (fun j b o => Tree.ensure_next h j b o)
  bump t i x hp := hp.same rfl rfl (fun j => Tree.bump_belief ..) (fun j b o => Tree.bump_next ..)
  bumpA t i a x hp := hp.same rfl rfl (fun j => Tree.updA_belief ..) (fun j b o => Tree.bumpA_next ..)
  child t i a o b j t1 ht hp hi ha hn hsucc hnf := by
    obtain ⟨g1, g2, g3, g4, g5, g6, g7, _⟩ := nodeFor_spec ht ((ht.reach i hi).step hsucc) hnf
    have ha1 : t1.anode i a ≠ none := g2.anode i a hi ha
    have hnext : ∀ j' b' o', (t1.link i a o j).next j' b' o' = if j' = i ∧ b' = a ∧ o' = o then some j else t.next j' b' o' := by
      intro j' b' o'
      rw [Tree.link_next ha1, g6]
    have hgrow : Tree.Grows t (t1.link i a o j) := g2.trans (link_grows ha1 (by rw [g6]; exact hn))
    have hsize : ∀ k, k < t1.size → k < t.size ∨ k = j := by
      intro k hk
      unfold Tree.nodeFor at hnf
      split at hnf
      · rcases hd : dget t.lookup b with _ | m
        · rw [hd] at hnf
          simp only [Prod.mk.injEq] at hnf
          obtain ⟨rfl, rfl⟩ := hnf
          have : k < t.size + 1 := hk
          omega
        · rw [hd] at hnf
          simp only [Prod.mk.injEq] at hnf
          obtain ⟨rfl, rfl⟩ := hnf
          exact .inl hk
      · simp only [Prod.mk.injEq] at hnf
        obtain ⟨rfl, rfl⟩ := hnf
        have : k < t.size + 1 := hk
        omega
    refine ⟨?_, ?_, ?_⟩
    · intro hs k hk
      have hk1 : k < t1.size := hk
      show dget t1.lookup ((t1.link i a o j).nodes k).belief = some k
      unfold Tree.link
      rw [Tree.updA_belief]
      unfold Tree.nodeFor at hnf
      rw [if_pos hs] at hnf
      rcases hd : dget t.lookup b with _ | m
      · rw [hd] at hnf
        simp only [Prod.mk.injEq] at hnf
        obtain ⟨rfl, rfl⟩ := hnf
        show dget (dset t.lookup b t.size) ((t.alloc S.sim.nActions b).nodes k).belief = some k
        rw [dget_dset]
        by_cases hkj : k = t.size
        · rw [hkj, Tree.alloc_same]
          exact if_pos rfl
        · rw [Tree.alloc_other _ _ _ hkj]
          have h1 := hp.share hs k (by have : k < t.size + 1 := hk1; omega)
          rw [if_neg, h1]
          intro he
          rw [← he, hd] at h1
          cases h1
      · rw [hd] at hnf
        simp only [Prod.mk.injEq] at hnf
        obtain ⟨rfl, rfl⟩ := hnf
        exact hp.share hs k hk1
    · intro k hk
      rcases hsize k hk with h1 | rfl
      · obtain ⟨l, hl⟩ := hp.conn k h1
        exact ⟨l, follow_more ht hgrow l 0 k ht.pos hl⟩
      · obtain ⟨l, hl⟩ := hp.conn i hi
        refine ⟨l ++ [(a, o)], ?_⟩
        rw [follow_append, follow_more ht hgrow l 0 i ht.pos hl]
        simp only [Option.bind_some, follow]
        rw [hnext, if_pos ⟨rfl, rfl, rfl⟩]
        rfl
    · intro hs i1 a1 o1 i2 a2 o2 k h1 h2
      rw [hnext] at h1 h2
      have hj := g7 hs
      have hold : ∀ i1 a1 o1, t.next i1 a1 o1 = some j → False := by
        intro i1 a1 o1 h
        have := (ht.range i1 a1 o1 j h).1
        omega
      by_cases c1 : i1 = i ∧ a1 = a ∧ o1 = o
      · rw [if_pos c1] at h1
        cases h1
        by_cases c2 : i2 = i ∧ a2 = a ∧ o2 = o
        · obtain ⟨rfl, rfl, rfl⟩ := c1
          obtain ⟨rfl, rfl, rfl⟩ := c2
          exact ⟨rfl, rfl, rfl⟩
        · rw [if_neg c2] at h2
          exact (hold _ _ _ h2).elim
      · rw [if_neg c1] at h1
        by_cases c2 : i2 = i ∧ a2 = a ∧ o2 = o
        · rw [if_pos c2] at h2
          cases h2
          exact (hold _ _ _ h1).elim
        · rw [if_neg c2] at h2
          exact hp.parent hs _ _ _ _ _ _ _ h1 h2

theorem Shape.init (b : β) : Shape S (Tree.init S.shared S.sim.nActions b) := by
  have hn : ∀ (t : Tree β), t.nodes = (fun _ => ONode.new b S.sim.nActions) → ∀ i a o, t.next i a o = none := by
    intro t hn i a o
    unfold Tree.next
    rw [Tree.new_anode (b := b) (n := S.sim.nActions) (by rw [hn]) a]
    rfl
  have hnodes : (Tree.init S.shared S.sim.nActions b).nodes = fun _ => ONode.new b S.sim.nActions := by
    unfold Tree.init Tree.nodeFor
    split <;> (funext j; simp [Tree.alloc, dget])
  have hsize : (Tree.init S.shared S.sim.nActions b).size = 1 := by
    unfold Tree.init Tree.nodeFor
    split <;> rfl
  refine ⟨?_, ?_, ?_⟩
  · intro hs i hi
    rw [hsize] at hi
    obtain rfl : i = 0 := by omega
    rw [hnodes]
    unfold Tree.init Tree.nodeFor
    rw [if_pos hs]
    simp [dget, dset, ONode.new]
  · intro j hj
    rw [hsize] at hj
    obtain rfl : j = 0 := by omega
    exact ⟨[], rfl⟩
  · intro _ i a o i' a' o' j h
    rw [hn _ hnodes] at h
    cases h

theorem Shape.inj {t : Tree β} (h : Shape S t) (hs : S.shared = true) {i j : Nat} (hi : i < t.size) (hj : j < t.size)
    (hb : (t.nodes i).belief = (t.nodes j).belief) : i = j := by
  have h1 := h.share hs i hi
  rw [hb, h.share hs j hj] at h1
  exact (Option.some.inj h1).symm

theorem follow_lt {t : Tree β} (ht : TInv S b0 t) : ∀ {l : List (Nat × Nat)} {i j : Nat}, i < t.size → follow t i l = some j → j < t.size := by
  intro l
  induction l with
  | nil => intro i j hi h; cases h; exact hi
  | cons ao l ih =>
      intro i j _ h
      obtain ⟨a, o⟩ := ao
      obtain ⟨k, h1, h2⟩ := Option.bind_eq_some_iff.1 h
      exact ih (ht.range i a o k h1).1 h2

theorem follow_snoc {t : Tree β} {l : List (Nat × Nat)} {a o i j : Nat} (h : follow t i (l ++ [(a, o)]) = some j) :
    ∃ k, follow t i l = some k ∧ t.next k a o = some j := by
  rw [follow_append] at h
  obtain ⟨k, h1, h2⟩ := Option.bind_eq_some_iff.1 h
  obtain ⟨m, h3, h4⟩ := Option.bind_eq_some_iff.1 h2
  cases h4
  exact ⟨k, h1, h3⟩

/-- Without shared nodes a node is reached by one history only. -/
theorem Shape.unique {t : Tree β} (h : Shape S t) (ht : TInv S b0 t) (hs : S.shared = false) : ∀ (l l' : List (Nat × Nat)) (j : Nat),
    follow t 0 l = some j → follow t 0 l' = some j → l = l' := by
  have hz : ∀ (l : List (Nat × Nat)) a o, follow t 0 (l ++ [(a, o)]) = some 0 → False := by
    intro l a o hf
    obtain ⟨k, _, h2⟩ := follow_snoc hf
    have := (ht.range _ _ _ _ h2).2 hs
    omega
  intro l
  induction l using List.reverseRecOn with
  | nil =>
      intro l' j h1 h2
      cases h1
      rcases List.eq_nil_or_concat l' with rfl | ⟨m, ⟨a, o⟩, rfl⟩
      · rfl
      · rw [List.concat_eq_append] at h2
        exact (hz _ _ _ h2).elim
  | append_singleton l ao ih =>
      intro l' j h1 h2
      obtain ⟨a, o⟩ := ao
      rcases List.eq_nil_or_concat l' with rfl | ⟨m, ⟨a', o'⟩, rfl⟩
      · cases h2
        exact (hz _ _ _ h1).elim
      · rw [List.concat_eq_append] at h2 ⊢
        obtain ⟨k, k1, k2⟩ := follow_snoc h1
        obtain ⟨k', k3, k4⟩ := follow_snoc h2
        obtain ⟨rfl, rfl, rfl⟩ := h.parent hs _ _ _ _ _ _ _ k2 k4
        rw [ih m k k1 k3]

end Verif
