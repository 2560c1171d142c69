import Verif.Proof.PomcpTree
import Verif.Proof.Pomdp

/-! Simulations keep the invariant of the tree. -/

set_option linter.unusedSectionVars false
set_option linter.unusedSimpArgs false

namespace Verif
open Spec
variable {σ β η : Type}

/-- The visit counts are the same. -/
def SameCounts (t t' : Tree β) : Prop :=
  (∀ i, nodeVisits t' i = nodeVisits t i) ∧ ∀ i a, actionVisits t' i a = actionVisits t i a

theorem SameCounts.refl (t : Tree β) : SameCounts t t := ⟨fun _ => rfl, fun _ _ => rfl⟩
theorem SameCounts.trans {t1 t2 t3 : Tree β} (h : SameCounts t1 t2) (h' : SameCounts t2 t3) : SameCounts t1 t3 :=
  ⟨fun i => by rw [h'.1, h.1], fun i a => by rw [h'.2, h.2]⟩

theorem onRng_post {α : Type} (m : M σ α) (st : SearchState σ β) {Q : α → SearchState σ β → Prop} {E : PyErr → SearchState σ β → Prop}
    (h : M.Post m st.rng (fun a g => Q a ⟨st.tree, g⟩) (fun e g => E e ⟨st.tree, g⟩)) : M.Post (onRng m) st Q E := by
  unfold M.Post onRng at *
  rcases hm : m st.rng with ⟨r, g⟩
  rw [hm] at h
  cases r <;> exact h

theorem onRng_tree {α : Type} (m : M σ α) (st : SearchState σ β) {Q : α → SearchState σ β → Prop} {E : PyErr → SearchState σ β → Prop}
    (hq : ∀ a g, m st.rng = (.ok a, g) → Q a ⟨st.tree, g⟩) (he : ∀ e g, m st.rng = (.error e, g) → E e ⟨st.tree, g⟩) :
    M.Post (onRng m) st Q E := by
  apply onRng_post
  rw [M.post_iff]
  exact ⟨hq, he⟩

theorem mem_notInit {l : List (Option ANode)} {a : Nat} : a ∈ notInit l ↔ a < l.length ∧ visitsOf (l[a]?).join = 0 := by
  unfold notInit
  rw [List.mem_filter, List.mem_range]
  constructor
  · rintro ⟨h1, h2⟩
    refine ⟨h1, ?_⟩
    rcases h : (l[a]?).join with _ | c
    · rfl
    · rw [h] at h2; simpa [visitsOf] using h2
  · rintro ⟨h1, h2⟩
    refine ⟨h1, ?_⟩
    rcases h : (l[a]?).join with _ | c
    · rfl
    · rw [h] at h2; simpa [visitsOf] using h2

theorem greedy_lt {bonus : Nat → Nat → ℚ} {e : ℚ} {rel : Bool} {nd : ONode β} {a : Nat}
    (h : greedyAction bonus e rel nd = .ok a) : a < nd.children.length := by
  unfold greedyAction at h
  split at h
  · by_cases hne : nd.children = []
    · simp [augmentedValues, hne, argmax] at h
    · obtain ⟨m, v, h1, h2, _⟩ := argmax_spec ((augmentedValues bonus e rel nd).map (·.getD 0))
        (by simpa [augmentedValues] using hne)
      rw [h1] at h
      simp only [Except.ok.injEq] at h
      subst h
      have := (List.getElem?_eq_some_iff.1 h2).1
      simpa [augmentedValues] using this
  · simp at h

theorem unexplored_eq (t : Tree β) (i : Nat) : unexplored t i = notInit (t.nodes i).children := by
  unfold unexplored notInit
  apply List.filter_congr
  intro a _
  unfold actionVisits Tree.anode
  rcases ((t.nodes i).children[a]?).join with _ | c
  · rfl
  · rfl

/-- What `get_best_action` does. -/
theorem getBest_post (sim : Sim σ β) (bonus : Nat → Nat → ℚ) (e : ℚ) (rel : Bool) (i : Nat) (st : SearchState σ β) :
    M.Post (getBestAction sim bonus e rel i) st
      (fun a st' => st'.tree = st.tree ∧ a < (st.tree.nodes i).children.length ∧
        (notInit (st.tree.nodes i).children ≠ [] → a ∈ notInit (st.tree.nodes i).children) ∧
        (notInit (st.tree.nodes i).children = [] → greedyAction bonus e rel (st.tree.nodes i) = .ok a))
      (fun _ st' => st'.tree = st.tree) := by
  unfold getBestAction
  apply M.post_read_bind
  generalize st = s1 at *
  apply M.post_ite
  · intro h0
    have h0' := List.length_eq_zero_iff.1 h0
    rw [M.post_lift]
    refine ⟨fun a ha => ⟨rfl, greedy_lt ha, fun h => absurd h0' h, fun _ => ha⟩, fun e _ => rfl⟩
  · intro h0
    apply onRng_post
    unfold pickFrom
    refine M.post_bind (Q1 := fun _ _ => True) (E1 := fun _ _ => True) (by rw [M.post_iff]; simp) (fun _ _ _ => rfl) ?_
    intro c g _ _
    rw [M.post_lift]
    refine ⟨fun a ha => ?_, fun e _ => rfl⟩
    rcases hc : (notInit (s1.tree.nodes i).children)[c % (notInit (s1.tree.nodes i).children).length]? with _ | a'
    · rw [hc] at ha; cases ha
    · rw [hc] at ha
      simp only [Except.ok.injEq] at ha
      subst ha
      have hm := List.mem_of_getElem? hc
      exact ⟨rfl, (mem_notInit.1 hm).1, fun _ => hm, fun h => absurd (by simp [h]) h0⟩

section
variable [DecidableEq β] {S : Search σ β η} {b0 : β}

theorem SameCounts.ensure {t : Tree β} {i a : Nat} (h : (t.nodes i).children[a]? = some none) : SameCounts t (t.ensure i a) :=
  ⟨fun j => Tree.ensure_nodeVisits t i a j, fun j b => Tree.ensure_actionVisits h j b⟩

theorem safeGetChild_post {i a : Nat} {st : SearchState σ β} (ht : TInv S b0 st.tree) (hi : i < st.tree.size) :
    M.Post (safeGetChild i a) st
      (fun _ st' => st'.rng = st.rng ∧ TInv S b0 st'.tree ∧ Tree.Grows st.tree st'.tree ∧ SameCounts st.tree st'.tree ∧
        st'.tree.anode i a ≠ none ∧ (∀ j b o, st'.tree.next j b o = st.tree.next j b o) ∧
        (∀ j, (st'.tree.nodes j).avg = (st.tree.nodes j).avg) ∧ st'.tree.size = st.tree.size ∧ a < S.sim.nActions ∧
        (∀ j b c, st'.tree.anode j b = some c → st.tree.anode j b = some c ∨ c.avg = .new))
      (fun e st' => st' = st ∧ e = .indexError ∧ S.sim.nActions ≤ a) := by
  have hrun : safeGetChild i a st = match (st.tree.nodes i).children[a]? with
      | none => (.error .indexError, st)
      | some none => (.ok (), { st with tree := st.tree.ensure i a })
      | some (some _) => (.ok (), st) := rfl
  rcases h : (st.tree.nodes i).children[a]? with _ | _ | c
  · rw [M.post_of_error (e := .indexError) (s' := st) (by rw [hrun, h])]
    refine ⟨rfl, rfl, ?_⟩
    rw [List.getElem?_eq_none_iff, ht.len] at h
    exact h
  · rw [M.post_of_ok (a := ()) (s' := { st with tree := st.tree.ensure i a }) (by rw [hrun, h])]
    have hl := (List.getElem?_eq_some_iff.1 h).1
    rw [ht.len] at hl
    refine ⟨rfl, ht.ensure hi h, Tree.ensure_grows h, SameCounts.ensure h, ?_, fun j b o => Tree.ensure_next h j b o,
      fun j => Tree.ensure_avg _ _ _ j, rfl, hl, ?_⟩
    · show (st.tree.ensure i a).anode i a ≠ none
      rw [Tree.ensure_anode h]; simp
    · intro j b c hc
      change (st.tree.ensure i a).anode j b = some c at hc
      rw [Tree.ensure_anode h] at hc
      split at hc
      · simp only [Option.some.injEq] at hc
        right; rw [← hc]
      · exact .inl hc
  · rw [M.post_of_ok (a := ()) (s' := st) (by rw [hrun, h])]
    have hl := (List.getElem?_eq_some_iff.1 h).1
    rw [ht.len] at hl
    refine ⟨rfl, ht, .refl _, .refl _, ?_, fun _ _ _ => rfl, fun _ => rfl, rfl, hl, fun _ _ _ h => .inl h⟩
    unfold Tree.anode
    simp [h]

/-- The node made or found for a belief. -/
theorem nodeFor_spec {t : Tree β} (ht : TInv S b0 t) {b : β} (hreach : Reach S.sim b0 b) {j : Nat} {t1 : Tree β}
    (h : Tree.nodeFor S.shared S.sim.nActions b t = (j, t1)) :
    TInv S b0 t1 ∧ Tree.Grows t t1 ∧ SameCounts t t1 ∧ j < t1.size ∧ (t1.nodes j).belief = b ∧
      (∀ i a o, t1.next i a o = t.next i a o) ∧ (S.shared = false → j = t.size) ∧
      (∀ i, (t1.nodes i).avg = (t.nodes i).avg ∨ (t1.nodes i).avg = .new) ∧
      (∀ i, i < t.size → (t1.nodes i).avg = (t.nodes i).avg) ∧
      (∀ i a c, t1.anode i a = some c → t.anode i a = some c) := by
  have halloc : ∀ t2 : Tree β, t2.nodes = (t.alloc S.sim.nActions b).nodes → SameCounts t t2 ∧ (∀ i a o, t2.next i a o = t.next i a o) ∧
      (∀ i, (t2.nodes i).avg = (t.nodes i).avg ∨ (t2.nodes i).avg = .new) ∧
      (∀ i, i < t.size → (t2.nodes i).avg = (t.nodes i).avg) ∧
      (∀ i a c, t2.anode i a = some c → t.anode i a = some c) := by
    intro t2 h2
    have e1 : ∀ i, nodeVisits t2 i = nodeVisits (t.alloc S.sim.nActions b) i := fun i => by unfold nodeVisits; rw [h2]
    have e2 : ∀ i a, t2.anode i a = (t.alloc S.sim.nActions b).anode i a := fun i a => by unfold Tree.anode; rw [h2]
    refine ⟨⟨fun i => ?_, fun i a => ?_⟩, fun i a o => ?_, fun i => ?_, fun i hi => ?_, fun i a c => ?_⟩
    · rw [e1, Tree.alloc_nodeVisits]
      split
      · rename_i hi; rw [(ht.fresh i (by omega)).1]
      · rfl
    · unfold actionVisits
      rw [e2, Tree.alloc_anode]
      split
      · rename_i hi; rw [(ht.fresh i (by omega)).2]
      · rfl
    · unfold Tree.next
      rw [e2, Tree.alloc_anode]
      split
      · rename_i hi; rw [(ht.fresh i (by omega)).2]
      · rfl
    · rw [h2]
      by_cases hi : i = t.size
      · subst hi; rw [Tree.alloc_same]; exact .inr rfl
      · rw [Tree.alloc_other _ _ _ hi]; exact .inl rfl
    · rw [h2, Tree.alloc_other _ _ _ (by omega)]
    · rw [e2, Tree.alloc_anode]
      split
      · simp
      · exact id
  unfold Tree.nodeFor at h
  split at h
  · rename_i hs
    rcases hd : dget t.lookup b with _ | k
    · rw [hd] at h
      simp only [Prod.mk.injEq] at h
      obtain ⟨rfl, rfl⟩ := h
      have hb : ((t.alloc S.sim.nActions b).nodes t.size).belief = b := by rw [Tree.alloc_same]; rfl
      obtain ⟨s1, s2, s3, s4, s5⟩ := halloc { t.alloc S.sim.nActions b with lookup := dset t.lookup b t.size } rfl
      have hinv := (ht.alloc hreach).register (j := t.size) (b := b) (Nat.lt_succ_self _) hb
      have hg := Tree.alloc_grows t S.sim.nActions b
      exact ⟨hinv, ⟨hg.size, hg.belief, hg.anode, hg.next, hg.visits, hg.avisits⟩, s1, Nat.lt_succ_self _, hb, s2,
        fun hc => by simp [hs] at hc, s3, s4, s5⟩
    · rw [hd] at h
      simp only [Prod.mk.injEq] at h
      obtain ⟨rfl, rfl⟩ := h
      obtain ⟨h1, h2⟩ := ht.look b k hd
      exact ⟨ht, .refl _, .refl _, h1, h2, fun _ _ _ => rfl, fun hc => by simp [hs] at hc, fun _ => .inl rfl, fun _ _ => rfl,
        fun _ _ _ h => h⟩
  · simp only [Prod.mk.injEq] at h
    obtain ⟨rfl, rfl⟩ := h
    obtain ⟨s1, s2, s3, s4, s5⟩ := halloc (t.alloc S.sim.nActions b) rfl
    exact ⟨ht.alloc hreach, Tree.alloc_grows _ _ _, s1, Nat.lt_succ_self _, by rw [Tree.alloc_same]; rfl, s2, fun _ => rfl, s3, s4, s5⟩

theorem link_grows {t : Tree β} {i a o k : Nat} (ha : t.anode i a ≠ none) (hn : t.next i a o = none) :
    Tree.Grows t (t.link i a o k) where
  size := le_rfl
  belief j _ := Tree.updA_belief ..
  anode j b _ hb := by rw [Tree.link_anode]; split <;> simp_all
  next j b o' m _ hm := by
    rw [Tree.link_next ha]
    split
    · rename_i h
      obtain ⟨rfl, rfl, rfl⟩ := h
      rw [hn] at hm; cases hm
    · exact hm
  visits j _ := by rw [Tree.link_nodeVisits]
  avisits j b _ := by rw [Tree.link_actionVisits]

theorem createChild_post {i a o : Nat} {st : SearchState σ β} (ht : TInv S b0 st.tree) (hi : i < st.tree.size)
    (ha : st.tree.anode i a ≠ none) (hn : st.tree.next i a o = none) :
    M.Post (createChild S i a o) st
      (fun j st' => TInv S b0 st'.tree ∧ Tree.Grows st.tree st'.tree ∧ SameCounts st.tree st'.tree ∧
        j < st'.tree.size ∧ (S.shared = false → j = st.tree.size) ∧
        (∀ j' b o', st'.tree.next j' b o' = if j' = i ∧ b = a ∧ o' = o then some j else st.tree.next j' b o') ∧
        (∀ k, (st'.tree.nodes k).avg = (st.tree.nodes k).avg ∨ (st'.tree.nodes k).avg = .new) ∧
        (∀ k, k < st.tree.size → (st'.tree.nodes k).avg = (st.tree.nodes k).avg) ∧
        (∀ k b c, st'.tree.anode k b = some c → ∃ c', st.tree.anode k b = some c' ∧ c.avg = c'.avg) ∧
        S.sim.successor (st.tree.nodes i).belief a o st.rng = (.ok (st'.tree.nodes j).belief, st'.rng))
      (fun e st' => st'.tree = st.tree ∧ S.sim.successor (st.tree.nodes i).belief a o st.rng = (.error e, st'.rng)) := by
  unfold createChild
  apply M.post_read_bind
  generalize st = s1 at *
  refine M.post_bind (Q1 := fun b' s2 => s2.tree = s1.tree ∧ S.sim.successor (s1.tree.nodes i).belief a o s1.rng = (.ok b', s2.rng))
    (E1 := fun e s2 => s2.tree = s1.tree ∧ S.sim.successor (s1.tree.nodes i).belief a o s1.rng = (.error e, s2.rng))
    (onRng_tree _ _ (fun b' g h => ⟨rfl, h⟩) (fun e g h => ⟨rfl, h⟩)) (fun _ _ h => h) ?_
  rintro b' s2 _ ⟨htr, hsucc⟩
  rcases hnf : Tree.nodeFor S.shared S.sim.nActions b' s1.tree with ⟨j, t1⟩
  obtain ⟨g1, g2, g3, g4, g5, g6, g7, g8, g8', g9⟩ := nodeFor_spec ht ((ht.reach i hi).step ⟨_, _, hsucc⟩) hnf
  have hrun : onTree (σ := σ) (Tree.nodeFor S.shared S.sim.nActions b') s2 = (.ok j, ⟨t1, s2.rng⟩) := by
    unfold onTree; rw [htr, hnf]
  refine M.post_bind (Q1 := fun k s3 => k = j ∧ s3 = ⟨t1, s2.rng⟩) (E1 := fun _ _ => False) ((M.post_of_ok hrun).2 ⟨rfl, rfl⟩)
    (fun _ _ h => h.elim) ?_
  rintro k s3 _ ⟨rfl, rfl⟩
  have ha1 : t1.anode i a ≠ none := g2.anode i a hi ha
  refine M.post_ok_bind (show linkNode i a o k ⟨t1, s2.rng⟩ = (.ok (), ⟨t1.link i a o k, s2.rng⟩) from rfl) ?_
  rw [M.post_pure]
  have hbi : (t1.nodes i).belief = (s1.tree.nodes i).belief := g2.belief i hi
  have hrel : Succ S.sim (t1.nodes i).belief a o (t1.nodes k).belief := by
    rw [hbi, g5]; exact ⟨_, _, hsucc⟩
  refine ⟨g1.link (lt_of_lt_of_le hi g2.size) ha1 g4 (fun hs => by rw [g7 hs]; exact hi) hrel,
    g2.trans (link_grows ha1 (by rw [g6]; exact hn)), g3.trans ⟨fun j' => Tree.link_nodeVisits .., fun j' b => Tree.link_actionVisits ..⟩, g4, g7,
    ?_, ?_, ?_, ?_, ?_⟩
  · intro j' b o'
    show (t1.link i a o k).next j' b o' = _
    rw [Tree.link_next ha1, g6]
  · intro m
    show ((t1.link i a o k).nodes m).avg = _ ∨ ((t1.link i a o k).nodes m).avg = _
    unfold Tree.link
    rw [Tree.updA_avg]
    exact g8 m
  · intro m hm
    show ((t1.link i a o k).nodes m).avg = _
    unfold Tree.link
    rw [Tree.updA_avg]
    exact g8' m hm
  · intro m b c hc
    change (t1.link i a o k).anode m b = some c at hc
    rw [Tree.link_anode] at hc
    split at hc
    · obtain ⟨c', hc', rfl⟩ := Option.map_eq_some_iff.1 hc
      exact ⟨c', g9 m b c' hc', rfl⟩
    · exact ⟨c, g9 m b c hc, rfl⟩
  · show _ = (Except.ok ((t1.link i a o k).nodes k).belief, s2.rng)
    unfold Tree.link
    rw [Tree.updA_belief, g5, hsucc]

/-- What `rollout_from_node` does. -/
theorem rolloutFromNode_post (i : Nat) (h : η) (st : SearchState σ β) :
    M.Post (rolloutFromNode S i h) st
      (fun y st' => (S.hor.isReached h = true ∧ y = 0 ∧ st' = st) ∨
        (S.hor.isReached h = false ∧ S.rolloutIt ≠ 0 ∧ ∃ x, rollouts S (st.tree.nodes i).belief h S.rolloutIt 0 st.rng = (.ok x, st'.rng) ∧
          y = x / S.rolloutIt ∧ st'.tree = st.tree.bump S.alpha i y))
      (fun e st' => st'.tree = st.tree ∧ S.hor.isReached h = false ∧
        (rollouts S (st.tree.nodes i).belief h S.rolloutIt 0 st.rng = (.error e, st'.rng) ∨
          (e = .zeroDivisionError ∧ S.rolloutIt = 0))) := by
  unfold rolloutFromNode
  apply M.post_ite
  · intro h1
    rw [M.post_pure]
    exact .inl ⟨h1, rfl, rfl⟩
  · intro h1
    have h1' : S.hor.isReached h = false := by simpa using h1
    apply M.post_read_bind
    generalize st = s1 at *
    refine M.post_bind (Q1 := fun x s2 => s2.tree = s1.tree ∧ rollouts S (s1.tree.nodes i).belief h S.rolloutIt 0 s1.rng = (.ok x, s2.rng))
      (E1 := fun e s2 => s2.tree = s1.tree ∧ rollouts S (s1.tree.nodes i).belief h S.rolloutIt 0 s1.rng = (.error e, s2.rng))
      (onRng_tree _ _ (fun x g hx => ⟨rfl, hx⟩) (fun e g hx => ⟨rfl, hx⟩)) (fun e s2 h => ⟨h.1, h1', .inl h.2⟩) ?_
    rintro x s2 _ ⟨htr, hx⟩
    refine M.post_bind (Q1 := fun y s3 => s3 = s2 ∧ S.rolloutIt ≠ 0 ∧ y = x / S.rolloutIt)
      (E1 := fun e s3 => s3 = s2 ∧ e = .zeroDivisionError ∧ S.rolloutIt = 0) ?_
      (fun e s3 h => ⟨by rw [h.1, htr], h1', .inr h.2⟩) ?_
    · rw [M.post_lift]
      by_cases h0 : S.rolloutIt = 0
      · simp [h0]
      · simp [h0, eq_comm]
    · rintro y s3 _ ⟨rfl, h0, rfl⟩
      refine M.post_ok_bind (show updateNode S.alpha i (x / S.rolloutIt) s3 =
        (.ok (), ⟨s3.tree.bump S.alpha i (x / S.rolloutIt), s3.rng⟩) from rfl) ?_
      rw [M.post_pure]
      exact .inr ⟨h1', h0, x, hx, rfl, by rw [htr]⟩

theorem expand_post {i a o : Nat} {h : η} {st : SearchState σ β} (ht : TInv S b0 st.tree) (hi : i < st.tree.size)
    (ha : st.tree.anode i a ≠ none) (hn : st.tree.next i a o = none) :
    M.Post (expand S i a o h) st
      (fun _ st' => TInv S b0 st'.tree ∧ Tree.Grows st.tree st'.tree)
      (fun _ st' => TInv S b0 st'.tree ∧ Tree.Grows st.tree st'.tree ∧ SameCounts st.tree st'.tree) := by
  unfold expand
  refine M.post_try (Q1 := fun _ st' => TInv S b0 st'.tree ∧ Tree.Grows st.tree st'.tree)
      (E1 := fun _ st' => TInv S b0 st'.tree ∧ Tree.Grows st.tree st'.tree ∧ SameCounts st.tree st'.tree) ?_ (fun _ _ _ h => h)
      (fun _ _ _ h => h) ?_
  · refine M.post_bind (createChild_post ht hi ha hn) ?_ ?_
    · rintro e s1 ⟨h1, _⟩
      rw [h1]; exact ⟨ht, .refl _, .refl _⟩
    · rintro j s1 _ ⟨g1, g2, g3, g4, g5, _⟩
      refine M.post_mono (rolloutFromNode_post (S := S) j h s1) ?_ ?_
      · rintro y s2 (⟨_, _, rfl⟩ | ⟨_, _, x, _, _, hb⟩)
        · exact ⟨g1, g2⟩
        · rw [hb]
          refine ⟨g1.bump g4 (fun hs => ?_) _, g2.trans (Tree.bump_grows _ _ _ _)⟩
          have hj := g5 hs
          refine ⟨by have := ht.pos; omega, ?_⟩
          have h0 : nodeVisits s1.tree j = 0 := by rw [g3.1, (ht.fresh j (by omega)).1]
          have := g1.sum j
          omega
      · rintro e s2 ⟨htr, _⟩
        rw [htr]; exact ⟨g1, g2, g3⟩
  · rintro s1 _ ⟨h1, h2, _⟩
    rw [M.post_pure]
    exact ⟨h1, h2⟩

theorem chooseAction_post {i : Nat} {act : Option Nat} {st : SearchState σ β} :
    M.Post (chooseAction S i act) st (fun _ st' => st'.tree = st.tree) (fun _ st' => st'.tree = st.tree) := by
  cases act with
  | some a => exact M.post_pure.2 rfl
  | none => exact M.post_mono (getBest_post ..) (fun _ _ h => h.1) (fun _ _ h => h)

theorem updateBoth_run (alpha : ℚ) (i a : Nat) (x : ℚ) (st : SearchState σ β) :
    updateBoth alpha i a x st = (.ok x, ⟨(st.tree.bumpA alpha i a x).bump alpha i x, st.rng⟩) := rfl

theorem simulate_post : ∀ (fuel i s : Nat) (h : η) (act : Option Nat) (st : SearchState σ β), TInv S b0 st.tree →
    i < st.tree.size →
    M.Post (simulate S fuel i s h act) st
      (fun _ st' => TInv S b0 st'.tree ∧ Tree.Grows st.tree st'.tree)
      (fun _ st' => TInv S b0 st'.tree ∧ Tree.Grows st.tree st'.tree ∧ SameCounts st.tree st'.tree) := by
  intro fuel
  induction fuel with
  | zero => intro i s h act st ht hi; exact M.post_raise.2 ⟨ht, .refl _, .refl _⟩
  | succ fuel ih =>
      intro i s h act st ht hi
      unfold simulate
      apply M.post_ite
      · intro _
        rw [M.post_read]
        exact ⟨ht, .refl _⟩
      · intro _
        refine M.post_bind chooseAction_post (fun e s1 h1 => by rw [h1]; exact ⟨ht, .refl _, .refl _⟩) ?_
        intro a s1 _ h1
        have ht1 : TInv S b0 s1.tree := by rw [h1]; exact ht
        have hi1 : i < s1.tree.size := by rw [h1]; exact hi
        refine M.post_bind (safeGetChild_post (a := a) ht1 hi1) (fun e s2 h2 => by rw [h2.1, h1]; exact ⟨ht, .refl _, .refl _⟩) ?_
        rintro _ s2 _ ⟨_, ht2, g2, c2, ha2, _, _, hs2, _⟩
        rw [h1] at g2 c2 hs2
        refine M.post_bind (Q1 := fun _ s3 => s3.tree = s2.tree) (E1 := fun _ s3 => s3.tree = s2.tree)
          (onRng_tree _ _ (fun _ _ _ => rfl) (fun _ _ _ => rfl)) (fun e s3 h3 => by rw [h3]; exact ⟨ht2, g2, c2⟩) ?_
        intro x s3 _ h3
        apply M.post_read_bind
        generalize s3 = s4 at *
        have ht3 : TInv S b0 s4.tree := by rw [h3]; exact ht2
        have hi3 : i < s4.tree.size := by rw [h3, hs2]; exact hi
        have ha3 : s4.tree.anode i a ≠ none := by rw [h3]; exact ha2
        have g3 : Tree.Grows st.tree s4.tree := by rw [h3]; exact g2
        have c3 : SameCounts st.tree s4.tree := by rw [h3]; exact c2
        refine M.post_bind (Q1 := fun _ s5 => TInv S b0 s5.tree ∧ Tree.Grows s4.tree s5.tree)
          (E1 := fun _ s5 => TInv S b0 s5.tree ∧ Tree.Grows s4.tree s5.tree ∧ SameCounts s4.tree s5.tree) ?_
          (fun e s5 h5 => ⟨h5.1, g3.trans h5.2.1, c3.trans h5.2.2⟩) ?_
        · rcases hj : s4.tree.next i a x.2.1 with _ | j
          · exact expand_post ht3 hi3 ha3 hj
          · exact ih j _ _ _ _ ht3 (ht3.range i a _ j hj).1
        · rintro y s5 _ ⟨ht5, g5⟩
          rw [M.post_of_ok (updateBoth_run ..)]
          have hi5 := lt_of_lt_of_le hi3 g5.size
          have ha5 := g5.anode i a hi3 ha3
          exact ⟨ht5.both hi5 ha5 _, (g3.trans g5).trans ((Tree.bumpA_grows ha5 _ _).trans (Tree.bump_grows _ _ _ _))⟩

theorem simulateFromNode_post (i : Nat) (act : Option Nat) (st : SearchState σ β) (ht : TInv S b0 st.tree)
    (hi : i < st.tree.size) :
    M.Post (simulateFromNode S i act) st
      (fun _ st' => TInv S b0 st'.tree ∧ Tree.Grows st.tree st'.tree)
      (fun _ st' => TInv S b0 st'.tree ∧ Tree.Grows st.tree st'.tree ∧ SameCounts st.tree st'.tree) := by
  unfold simulateFromNode
  apply M.post_read_bind
  generalize st = s1 at *
  refine M.post_bind (Q1 := fun _ s3 => s3.tree = s1.tree) (E1 := fun _ s3 => s3.tree = s1.tree)
    (onRng_tree _ _ (fun _ _ _ => rfl) (fun _ _ _ => rfl)) (fun e s3 h3 => by rw [h3]; exact ⟨ht, .refl _, .refl _⟩) ?_
  intro s s2 _ h2
  refine M.post_bind (simulate_post S.fuel i s S.horizon act s2 (by rw [h2]; exact ht) (by rw [h2]; exact hi))
    (fun e s3 h3 => by rw [h2] at h3; exact h3) ?_
  intro x s3 _ h3
  rw [M.post_pure]
  rw [h2] at h3
  exact h3

theorem getNodeStep_post (i a o : Nat) (st : SearchState σ β) (ht : TInv S b0 st.tree) (hi : i < st.tree.size) :
    M.Post (getNodeStep S i a o) st
      (fun j st' => TInv S b0 st'.tree ∧ Tree.Grows st.tree st'.tree ∧ SameCounts st.tree st'.tree ∧ st'.tree.next i a o = some j ∧
        j < st'.tree.size ∧ a < S.sim.nActions)
      (fun _ st' => TInv S b0 st'.tree ∧ Tree.Grows st.tree st'.tree ∧ SameCounts st.tree st'.tree) := by
  unfold getNodeStep
  refine M.post_bind (safeGetChild_post (a := a) ht hi) (fun e s2 h2 => by rw [h2.1]; exact ⟨ht, .refl _, .refl _⟩) ?_
  rintro _ s2 _ ⟨_, ht2, g2, c2, ha2, _, _, hs2, hlt, _⟩
  apply M.post_read_bind
  generalize s2 = s3 at *
  rcases hj : s3.tree.next i a o with _ | j
  · refine M.post_mono (createChild_post ht2 (by rw [hs2]; exact hi) ha2 hj) ?_ ?_
    · rintro j s4 ⟨h1, h2, h3, h4, _, h5, _⟩
      exact ⟨h1, g2.trans h2, c2.trans h3, by rw [h5]; simp, h4, hlt⟩
    · rintro e s4 ⟨h1, _⟩
      rw [h1]; exact ⟨ht2, g2, c2⟩
  · exact M.post_pure.2 ⟨ht2, g2, c2, hj, (ht2.range _ _ _ _ hj).1, hlt⟩

theorem getNodeFrom_post : ∀ (h : List (Nat × Nat)) (i : Nat) (st : SearchState σ β), TInv S b0 st.tree → i < st.tree.size →
    M.Post (getNodeFrom S i h) st
      (fun j st' => TInv S b0 st'.tree ∧ Tree.Grows st.tree st'.tree ∧ SameCounts st.tree st'.tree ∧
        follow st'.tree i h = some j ∧ j < st'.tree.size ∧ ∀ ao ∈ h, ao.1 < S.sim.nActions)
      (fun _ st' => TInv S b0 st'.tree ∧ Tree.Grows st.tree st'.tree ∧ SameCounts st.tree st'.tree) := by
  intro h
  induction h with
  | nil => intro i st ht hi; exact M.post_pure.2 ⟨ht, .refl _, .refl _, rfl, hi, by simp⟩
  | cons ao h ih =>
      intro i st ht hi
      obtain ⟨a, o⟩ := ao
      unfold getNodeFrom
      refine M.post_bind (getNodeStep_post i a o st ht hi) (fun _ _ h => h) ?_
      rintro j s1 _ ⟨ht1, g1, c1, hj, hlt, ha⟩
      refine M.post_mono (ih j s1 ht1 hlt) ?_ ?_
      · rintro k s2 ⟨h1, h2, h3, h4, h5, h6⟩
        refine ⟨h1, g1.trans h2, c1.trans h3, ?_, h5, ?_⟩
        · unfold follow
          rw [h2.next i a o j (lt_of_lt_of_le hi g1.size) hj]
          exact h4
        · intro ao hao
          rcases List.mem_cons.1 hao with rfl | hao
          · exact ha
          · exact h6 ao hao
      · rintro e s2 ⟨h1, h2, h3⟩
        exact ⟨h1, g1.trans h2, c1.trans h3⟩

theorem getNode_post (h : List (Nat × Nat)) (st : SearchState σ β) (ht : TInv S b0 st.tree) :
    M.Post (getNode S h) st
      (fun j st' => TInv S b0 st'.tree ∧ Tree.Grows st.tree st'.tree ∧ SameCounts st.tree st'.tree ∧
        follow st'.tree 0 h = some j ∧ j < st'.tree.size ∧ ∀ ao ∈ h, ao.1 < S.sim.nActions)
      (fun _ st' => TInv S b0 st'.tree ∧ Tree.Grows st.tree st'.tree ∧ SameCounts st.tree st'.tree) :=
  getNodeFrom_post h 0 st ht ht.pos

theorem post_state {α : Type} {τ : Type} {m : M τ α} {s : τ} {P : τ → Prop} (h : M.Post m s (fun _ s' => P s') (fun _ s' => P s')) :
    P (m s).2 := by
  unfold M.Post at h
  rcases hm : m s with ⟨r, s1⟩
  rw [hm] at h
  cases r <;> exact h

theorem runTreeOp_inv (op : TreeOp) (st : SearchState σ β) (ht : TInv S b0 st.tree) :
    TInv S b0 (runTreeOp S st op).tree ∧ Tree.Grows st.tree (runTreeOp S st op).tree := by
  cases op with
  | simulate i a =>
      show TInv S b0 (if i < st.tree.size then (simulateFromNode S i a st).2 else st).tree ∧
        Tree.Grows st.tree (if i < st.tree.size then (simulateFromNode S i a st).2 else st).tree
      split
      · rename_i hi
        exact post_state (P := fun s' => TInv S b0 s'.tree ∧ Tree.Grows st.tree s'.tree)
          (M.post_mono (simulateFromNode_post i a st ht hi) (fun _ _ h => h) (fun _ _ h => ⟨h.1, h.2.1⟩))
      · exact ⟨ht, .refl _⟩
  | getNode h =>
      exact post_state (P := fun s' => TInv S b0 s'.tree ∧ Tree.Grows st.tree s'.tree)
          (M.post_mono (getNode_post h st ht) (fun _ _ h => ⟨h.1, h.2.1⟩) (fun _ _ h => ⟨h.1, h.2.1⟩))

theorem runTreeOps_inv (ops : List TreeOp) : ∀ (st : SearchState σ β), TInv S b0 st.tree →
    TInv S b0 (runTreeOps S st ops).tree ∧ Tree.Grows st.tree (runTreeOps S st ops).tree := by
  induction ops with
  | nil => intro st ht; exact ⟨ht, .refl _⟩
  | cons op ops ih =>
      intro st ht
      obtain ⟨h1, h2⟩ := runTreeOp_inv op st ht
      obtain ⟨h3, h4⟩ := ih _ h1
      exact ⟨h3, h2.trans h4⟩

end
end Verif
