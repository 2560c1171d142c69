import Verif.Proof.ConvergeLimit

/-! The trees of a search in a model without randomness. -/

set_option linter.unusedSectionVars false
set_option linter.unusedSimpArgs false

namespace Verif.Uct
open Spec
variable {σ β : Type} [DecidableEq β]
variable {S : Search σ β Int} {b0 : β} {nx ob : Nat → Nat → Nat} {rew : Nat → Nat → ℚ} {lo up L H : ℚ} {n s0 : Nat}

theorem list_sum_range (f : Nat → Nat) (n : Nat) : ((List.range n).map f).sum = ∑ a ∈ Finset.range n, f a := by
  induction n with
  | zero => rfl
  | succ n ih => rw [List.range_succ, List.map_append, List.sum_append, ih, Finset.sum_range_succ]; simp

theorem base_of {t : Tree β} (ht : TInv S b0 t) (hb : BInv L H t) (hs : S.shared = false) (hL0 : L ≤ 0) (hH0 : 0 ≤ H) : Base S L H t where
  wf := ht.wf hs
  pos := ht.pos
  vals i a := by
    unfold actionValue
    rcases hx : t.anode i a with _ | d
    · exact ⟨hL0, hH0⟩
    · exact (hb.2 i a d hx).value hL0 hH0
  sum i := by rw [← list_sum_range, ← actionSum_eq ht]; exact ht.sum i
  plain i := by rw [← list_sum_range, ← actionSum_eq ht]; exact ht.plain hs i

section
variable (hr : RewardsIn S.sim lo up) (hL0 : L ≤ 0) (hH0 : 0 ≤ H) (hd : 0 ≤ S.sim.discount)
variable (hL : L ≤ lo + S.sim.discount * L) (hH : up + S.sim.discount * H ≤ H)
variable (hα0 : 0 ≤ S.alpha) (hα1 : S.alpha ≤ 1)
variable (hq : QuietSim S.sim) (hdet : Determined S.sim nx ob rew) (hfind : Finds S.sim) (hhor : S.hor = nTransitions) (hs : S.shared = false)
variable (hh : S.horizon = (n : Int)) (hs0 : StartsIn S.sim b0 s0)

include hr hL0 hH0 hd hL hH hα0 hα1 hq hdet hfind hhor hs hh hs0

/-- A simulation from the root is a run. -/
theorem one {st st' : SearchState σ β} (ht : TInv S b0 st.tree) (hb : BInv L H st.tree) (hf : FreshNew st.tree)
    (h : simulateFromNode S 0 none st = (.ok (), st')) :
    (∃ x, Run S nx ob rew L H 0 s0 n st.tree st'.tree x) ∧ TInv S b0 st'.tree ∧ BInv L H st'.tree ∧ FreshNew st'.tree := by
  have ht' := (M.post_iff.1 (simulateFromNode_post 0 none st ht ht.pos)).1 _ _ h
  have hb' := (M.post_iff.1 (simulateFromNode_bounds hr hL0 hH0 hd hL hH hα0 hα1 0 none st ht ht.pos hb)).1 _ _ h
  unfold simulateFromNode at h
  obtain ⟨b, s1, h1, h⟩ := M.bind_ok h
  obtain ⟨s, s2, h2, h⟩ := M.bind_ok h
  obtain ⟨x, s3, h3, h⟩ := M.bind_ok h
  cases h
  cases h1
  have htree : s2.tree = st.tree := by
    have := congrArg (fun p => p.2.tree) h2
    exact this.symm
  have hstate : s = s0 := by
    have e : S.sim.sampleBelief b0 st.rng = (.ok s, s2.rng) := by
      rw [← ht.root]
      unfold onRng at h2
      have e1 := congrArg Prod.fst h2
      have e2 := congrArg (fun p => p.2.rng) h2
      exact Prod.ext e1 e2
    exact hs0 _ _ _ e
  subst hstate
  rw [hh] at h3
  obtain ⟨r1, r2⟩ := simulate_run hr hL0 hH0 hd hL hH hq hdet hfind hhor hs S.fuel 0 s n s2 _ x (by rw [htree]; exact ht)
    (by rw [htree]; exact ht.pos) (by rw [htree]; exact hf) h3
  rw [htree] at r1
  exact ⟨⟨x, r1⟩, ht'.1, hb', r2⟩

/-- The trees after a number of simulations from the root. -/
theorem many (hα : S.alpha = 0) (hn : 0 < n) : ∀ (k : Nat) (st st' : SearchState σ β) (lab : Nat → Nat × Nat),
    Reached S nx ob rew L H n s0 (Facts S nx ob rew L H) lab st.tree → lab 0 = (n, s0) →
    TInv S b0 st.tree → BInv L H st.tree → FreshNew st.tree → simulateMany S 0 k st = (.ok (), st') →
    ∃ lab', Reached S nx ob rew L H n s0 (Facts S nx ob rew L H) lab' st'.tree ∧ lab' 0 = (n, s0) ∧ TInv S b0 st'.tree ∧
      nodeVisits st'.tree 0 = nodeVisits st.tree 0 + k := by
  intro k
  induction k with
  | zero => intro st st' lab h1 h2 h3 _ _ h; cases h; exact ⟨lab, h1, h2, h3, rfl⟩
  | succ k ih =>
      intro st st' lab h1 h2 h3 h4 h5 h
      obtain ⟨_, st1, e1, e2⟩ := M.bind_ok h
      obtain ⟨⟨x, hrun⟩, k1, k2, k3⟩ := one hr hL0 hH0 hd hL hH hα0 hα1 hq hdet hfind hhor hs hh hs0 h3 h4 h5 e1
      obtain ⟨lab', l1, l2, _, l4⟩ := hrun.keeps hα (h3.wf hs) h3.pos lab h2 h1.facts.avg h5
      have hfull : DInv S nx ob rew L H lab' (fun _ => False) st1.tree :=
        ⟨l2.edge, l2.uniq, l2.lower, l2.upper, l2.zero, fun i a _ => l2.arc i a fun o j hj he => by
          have := (k1.range i a o j hj).2 hs
          omega⟩
      have hlab0 : lab' 0 = (n, s0) := by rw [l1 0 h3.pos, h2]
      obtain ⟨lab2, m1, m2, m3, m4⟩ := ih st1 st' lab' (.step lab lab' _ _ x h1 hrun l1 ⟨base_of k1 k2 hs hL0 hH0, hfull⟩) hlab0 k1 k2 k3 e2
      refine ⟨lab2, m1, m2, m3, ?_⟩
      rw [m4]
      rw [if_neg (by omega)] at l4
      rw [nodeVisits_eq, nodeVisits_eq, l4]
      omega

omit hr hd hL hH hα0 hα1 hq hdet hfind hhor hs hh hs0 hL0 hH0 in
theorem start_new (rng : σ) : (∀ i, nodeAvg (S.start b0 rng).tree i = .new) ∧ (∀ i a, actAvg (S.start b0 rng).tree i a = .new) ∧
    ∀ i a o, (S.start b0 rng).tree.next i a o = none := by
  have h0 : ∀ t : Tree β, t.nodes = (fun _ => ONode.new b0 S.sim.nActions) →
      (∀ i, nodeAvg t i = .new) ∧ (∀ i a, actAvg t i a = .new) ∧ ∀ i a o, t.next i a o = none := by
    intro t hn
    have ha : ∀ i a, t.anode i a = none := fun i a => Tree.new_anode (b := b0) (n := S.sim.nActions) (by rw [hn]) a
    refine ⟨fun i => by unfold nodeAvg; rw [hn]; rfl, fun i a => by unfold actAvg; rw [ha]; rfl, fun i a o => by unfold Tree.next; rw [ha]; rfl⟩
  unfold Search.start Tree.init Tree.nodeFor
  split
  · simp only [dget]
    refine h0 _ ?_
    funext j; simp [Tree.alloc]
  · refine h0 _ ?_
    funext j; simp [Tree.alloc]

omit hr hd hL hH hα0 hα1 hq hdet hfind hhor hh hs0 in
theorem start_reached (hn : 0 < n) (rng : σ) :
    Reached S nx ob rew L H n s0 (Facts S nx ob rew L H) (fun _ => (n, s0)) (S.start b0 rng).tree := by
  have ht : TInv S b0 (S.start b0 rng).tree := TInv.init b0
  obtain ⟨h1, h2, h3⟩ := start_new (S := S) (b0 := b0) rng
  refine .init _ _ (fun i a => by rw [actionVisits_eq, h2]; rfl) ⟨base_of ht (BInv.init b0) hs hL0 hH0, ?_⟩
  refine ⟨fun i a o j h => (by rw [h3] at h; cases h), fun i a o i' a' o' k h => (by rw [h3] at h; cases h), fun i => ?_, fun i => ?_,
    fun i h => h1 i, fun i a _ => ⟨fun j h => (by rw [h3] at h; cases h), fun _ => h2 i a⟩⟩
  · simp [h1, h2, Avg.new]
  · simp [h1, h2, Avg.new]

omit hα0 hα1 in
/-- The tree of a search after `k` simulations from the root. -/
theorem tree_after (hα : S.alpha = 0) (hn : 0 < n) (k : Nat) (rng : σ) (st' : SearchState σ β)
    (h : simulateMany S 0 k (S.start b0 rng) = (.ok (), st')) :
    ∃ lab', Reached S nx ob rew L H n s0 (Facts S nx ob rew L H) lab' st'.tree ∧ lab' 0 = (n, s0) ∧ TInv S b0 st'.tree ∧
      nodeVisits st'.tree 0 = k := by
  obtain ⟨h1, _, _⟩ := start_new (S := S) (b0 := b0) rng
  obtain ⟨lab', r1, r2, r3, r4⟩ := many hr hL0 hH0 hd hL hH (by rw [hα]) (by rw [hα]; norm_num) hq hdet hfind hhor hs hh hs0 hα hn k _ st' (fun _ => (n, s0))
    (start_reached (nx := nx) (ob := ob) (rew := rew) hL0 hH0 hs hn rng) rfl (TInv.init b0) (BInv.init b0) (fun i _ => h1 i) h
  refine ⟨lab', r1, r2, r3, ?_⟩
  rw [r4, nodeVisits_eq, h1]
  simp [Avg.new]

end

/-- The action returned by `get_action` has the largest value, if all the actions have been tried. -/
theorem best_value {i a : Nat} {st st' : SearchState σ β} (hall : ∀ x < (st.tree.nodes i).children.length, actionVisits st.tree i x ≠ 0)
    (h : getBestAction S.sim S.bonus 0 false i st = (.ok a, st')) :
    a < (st.tree.nodes i).children.length ∧ ∀ b < (st.tree.nodes i).children.length, actionValue st.tree i b ≤ actionValue st.tree i a := by
  obtain ⟨_, p1, _, p3⟩ := (M.post_iff.1 (getBest_post S.sim S.bonus 0 false i st)).1 _ _ h
  refine ⟨p1, ?_⟩
  have hu : notInit (st.tree.nodes i).children = [] := by
    rw [← unexplored_eq]
    unfold unexplored
    rw [List.filter_eq_nil_iff]
    intro x hx
    simpa using hall x (List.mem_range.1 hx)
  obtain ⟨c, hc, hbest, _⟩ := greedy_uct (S := { S with exploration := 0, relative := false }) hall (p3 hu)
  unfold IsWeight at hc
  rw [if_neg (by simp)] at hc
  subst hc
  intro b hb
  have := hbest b hb
  unfold uctScore at this
  simpa using this

/-- The parts of `get_action`. -/
theorem getAction_parts {k : Nat} {r r' : SearchRunner σ β} {nm : Name} (h : searchGetAction S k r = (.ok nm, r')) :
    ∃ st1 a, simulateMany S r.node k r.search = (.ok (), st1) ∧ (getBestAction S.sim S.bonus 0 false r.node st1).1 = .ok a ∧
      S.sim.actions[a]? = some nm := by
  unfold searchGetAction at h
  obtain ⟨i, s1, h1, h'⟩ := M.bind_ok h
  obtain ⟨_, s2, h2, h''⟩ := M.bind_ok h'
  obtain ⟨a, s3, h3, h4⟩ := M.bind_ok h''
  obtain ⟨_, s4, _, h5⟩ := M.bind_ok h4
  cases h1
  refine ⟨s2.search, a, ?_, ?_, ?_⟩
  · unfold onSearch at h2
    have e1 := congrArg Prod.fst h2
    have e2 := congrArg (fun p => p.2.search) h2
    exact Prod.ext e1 e2
  · exact congrArg Prod.fst h3
  · have e := congrArg Prod.fst h5
    simp only [M.lift] at e
    split at e
    · rename_i n hn
      cases e
      exact hn
    · cases e

end Verif.Uct
