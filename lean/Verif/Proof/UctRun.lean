import Verif.Spec.Converge
import Verif.Proof.Explore

/-! Simulations in models without randomness, as a relation between the averages before and after. -/

set_option linter.unusedSectionVars false
set_option linter.unusedSimpArgs false

namespace Verif.Uct
open Spec
variable {σ β : Type} [DecidableEq β]

/-- The average of a node. -/
def nodeAvg (t : Tree β) (i : Nat) : Avg := (t.nodes i).avg

/-- The average of an action. -/
def actAvg (t : Tree β) (i a : Nat) : Avg := ((t.anode i a).map ANode.avg).getD .new

theorem nodeVisits_eq (t : Tree β) (i : Nat) : nodeVisits t i = (nodeAvg t i).n := rfl

theorem actionVisits_eq (t : Tree β) (i a : Nat) : actionVisits t i a = (actAvg t i a).n := by
  unfold actionVisits actAvg
  rcases t.anode i a with _ | c <;> rfl

theorem actionValue_eq (t : Tree β) (i a : Nat) : actionValue t i a = (actAvg t i a).value := by
  unfold actionValue actAvg
  rcases t.anode i a with _ | c
  · simp [Avg.value, Avg.new]
  · rfl

/-- The nodes that do not exist have no value. -/
def FreshNew (t : Tree β) : Prop := ∀ k, t.size ≤ k → nodeAvg t k = .new

section
variable (S : Search σ β Int) (nx ob : Nat → Nat → Nat) (rew : Nat → Nat → ℚ) (L H : ℚ)

/-- A simulation from the node `i`, the state `s` and with the horizon `h`. -/
inductive Run : Nat → Nat → Nat → Tree β → Tree β → ℚ → Prop
  | stop (i s : Nat) (t : Tree β) : Run i s 0 t t (nodeAvg t i).value
  | grow (i s h a : Nat) (t t' : Tree β) (y : ℚ) (hch : UctChoice S t i a) (hn : t.next i a (ob a s) = none)
      (hy : (h = 0 ∧ y = 0) ∨ (0 < h ∧ L ≤ y ∧ y ≤ H)) (hsize : t.size < t'.size)
      (hnext : ∀ k b o, t'.next k b o = if k = i ∧ b = a ∧ o = ob a s then some t.size else t.next k b o)
      (hnode : ∀ k, nodeAvg t' k = if k = i then (nodeAvg t i).update S.alpha (rew a s + S.sim.discount * y)
        else if k = t.size then (if h = 0 then .new else Avg.update S.alpha .new y) else nodeAvg t k)
      (hact : ∀ k b, actAvg t' k b = if k = i ∧ b = a then (actAvg t i a).update S.alpha (rew a s + S.sim.discount * y) else actAvg t k b) :
      Run i s (h + 1) t t' (rew a s + S.sim.discount * y)
  | down (i s h a j : Nat) (t t1 t' : Tree β) (y : ℚ) (hch : UctChoice S t i a) (hn : t.next i a (ob a s) = some j)
      (hrun : Run j (nx a s) h t t1 y) (hsize : t'.size = t1.size) (hnext : ∀ k b o, t'.next k b o = t1.next k b o)
      (hnode : ∀ k, nodeAvg t' k = if k = i then (nodeAvg t1 i).update S.alpha (rew a s + S.sim.discount * y) else nodeAvg t1 k)
      (hact : ∀ k b, actAvg t' k b = if k = i ∧ b = a then (actAvg t1 i a).update S.alpha (rew a s + S.sim.discount * y) else actAvg t1 k b) :
      Run i s (h + 1) t t' (rew a s + S.sim.discount * y)

end

section
variable {S : Search σ β Int} {b0 : β} {nx ob : Nat → Nat → Nat} {rew : Nat → Nat → ℚ} {lo up L H : ℚ}

theorem safeGetChild_view {i a : Nat} {st st' : SearchState σ β} (h : safeGetChild i a st = (.ok (), st')) :
    (∀ k b, actAvg st'.tree k b = actAvg st.tree k b) ∧ (st.tree.anode i a ≠ none → st' = st) := by
  have hrun : safeGetChild i a st = match (st.tree.nodes i).children[a]? with
      | none => (.error .indexError, st)
      | some none => (.ok (), { st with tree := st.tree.ensure i a })
      | some (some _) => (.ok (), st) := rfl
  rw [hrun] at h
  rcases hc : (st.tree.nodes i).children[a]? with _ | _ | c
  · rw [hc] at h; cases h
  · rw [hc] at h
    simp only [Prod.mk.injEq, true_and] at h
    subst h
    have hnone : st.tree.anode i a = none := by unfold Tree.anode; rw [hc]; rfl
    refine ⟨fun k b => ?_, fun hne => absurd hnone hne⟩
    show actAvg (st.tree.ensure i a) k b = _
    unfold actAvg
    rw [Tree.ensure_anode hc]
    split
    · rename_i hk
      obtain ⟨rfl, rfl⟩ := hk
      rw [hnone]
      rfl
    · rfl
  · rw [hc] at h
    simp only [Prod.mk.injEq, true_and] at h
    subst h
    exact ⟨fun _ _ => rfl, fun _ => rfl⟩

theorem bump_view (t : Tree β) (alpha : ℚ) (i : Nat) (x : ℚ) :
    (∀ k, nodeAvg (t.bump alpha i x) k = if k = i then (nodeAvg t i).update alpha x else nodeAvg t k) ∧
    (∀ k b, actAvg (t.bump alpha i x) k b = actAvg t k b) ∧ (∀ k b o, (t.bump alpha i x).next k b o = t.next k b o) := by
  refine ⟨fun k => ?_, fun k b => ?_, fun k b o => Tree.bump_next ..⟩
  · unfold nodeAvg
    rw [Tree.bump_avg]
    split
    · rename_i h; rw [h]
    · rfl
  · unfold actAvg; rw [Tree.bump_anode]

theorem bumpA_view {t : Tree β} {i a : Nat} (h : t.anode i a ≠ none) (alpha x : ℚ) :
    (∀ k, nodeAvg (t.bumpA alpha i a x) k = nodeAvg t k) ∧
    (∀ k b, actAvg (t.bumpA alpha i a x) k b = if k = i ∧ b = a then (actAvg t i a).update alpha x else actAvg t k b) ∧
    (∀ k b o, (t.bumpA alpha i a x).next k b o = t.next k b o) := by
  refine ⟨fun k => ?_, fun k b => ?_, fun k b o => Tree.bumpA_next ..⟩
  · unfold nodeAvg Tree.bumpA; rw [Tree.updA_avg]
  · unfold actAvg
    rw [Tree.bumpA_anode]
    split
    · rename_i hk
      obtain ⟨rfl, rfl⟩ := hk
      rcases hc : t.anode k b with _ | c
      · exact absurd hc h
      · rfl
    · rfl

theorem createChild_view {i a o j : Nat} {st st' : SearchState σ β} (ht : TInv S b0 st.tree) (hi : i < st.tree.size)
    (hf : FreshNew st.tree) (hs : S.shared = false) (ha : st.tree.anode i a ≠ none) (hn : st.tree.next i a o = none)
    (h : createChild S i a o st = (.ok j, st')) :
    j = st.tree.size ∧ st.tree.size < st'.tree.size ∧ (∀ k, nodeAvg st'.tree k = nodeAvg st.tree k) ∧
    (∀ k b, actAvg st'.tree k b = actAvg st.tree k b) ∧ TInv S b0 st'.tree ∧
    (∀ k b o', st'.tree.next k b o' = if k = i ∧ b = a ∧ o' = o then some j else st.tree.next k b o') := by
  obtain ⟨g1, g2, g3, g4, g5, g6, g7, g8, g9, g10⟩ := (M.post_iff.1 (createChild_post ht hi ha hn)).1 _ _ h
  have hj := g5 hs
  refine ⟨hj, by omega, fun k => ?_, fun k b => ?_, g1, g6⟩
  · by_cases hk : k < st.tree.size
    · exact g8 k hk
    · have hnew := hf k (not_lt.1 hk)
      rcases g7 k with h | h
      · exact h
      · rw [hnew]; exact h
  · unfold actAvg
    rcases hc : st'.tree.anode k b with _ | c
    · rcases hc' : st.tree.anode k b with _ | c'
      · rfl
      · by_cases hk : k < st.tree.size
        · exact absurd hc (g2.anode k b hk (by rw [hc']; simp))
        · have := (ht.fresh k (not_lt.1 hk)).2 b
          rw [hc'] at this; cases this
    · obtain ⟨c', h1, h2⟩ := g9 k b c hc
      rw [h1]
      simpa using h2

variable (hr : RewardsIn S.sim lo up) (hL0 : L ≤ 0) (hH0 : 0 ≤ H) (hd : 0 ≤ S.sim.discount)
variable (hL : L ≤ lo + S.sim.discount * L) (hH : up + S.sim.discount * H ≤ H)
variable (hq : QuietSim S.sim) (hdet : Determined S.sim nx ob rew) (hfind : Finds S.sim) (hhor : S.hor = nTransitions) (hs : S.shared = false)
include hr hL0 hH0 hd hL hH hq hdet hfind hhor hs

theorem simulate_run : ∀ (fuel i s h : Nat) (st st' : SearchState σ β) (x : ℚ), TInv S b0 st.tree → i < st.tree.size → FreshNew st.tree →
    simulate S fuel i s (h : Int) none st = (.ok x, st') → Run S nx ob rew L H i s h st.tree st'.tree x ∧ FreshNew st'.tree := by
  intro fuel
  induction fuel with
  | zero => intro i s h st st' x _ _ _ hrun; cases hrun
  | succ fuel ih =>
      intro i s h st st' x ht hi hf hrun
      unfold simulate at hrun
      rw [hhor] at hrun
      cases h with
      | zero =>
          rw [if_pos (by simp [nTransitions])] at hrun
          cases hrun
          exact ⟨.stop _ _ _, hf⟩
      | succ h =>
          rw [if_neg (by simp [nTransitions])] at hrun
          obtain ⟨a, s1, h1, hrun⟩ := M.bind_ok hrun
          obtain ⟨_, s2, h2, hrun⟩ := M.bind_ok hrun
          obtain ⟨x1, s3, h3, hrun⟩ := M.bind_ok hrun
          obtain ⟨jo, s4, h4, hrun⟩ := M.bind_ok hrun
          obtain ⟨y, s5, h5, hrun⟩ := M.bind_ok hrun
          rw [updateBoth_run] at hrun
          simp only [Prod.mk.injEq, Except.ok.injEq] at hrun
          obtain ⟨hx, rfl⟩ := hrun
          have e1 : s1.tree = st.tree := (M.post_iff.1 (chooseAction_post (S := S) (i := i) (act := none) (st := st))).1 _ _ h1
          have hch : UctChoice S st.tree i a := (M.post_iff.1 (getBest_uct S i st)).1 _ _ h1
          obtain ⟨_, ht2, g2, _, ha2, hnx2, hav2, hsz2, _⟩ := (M.post_iff.1 (safeGetChild_post (a := a) (st := s1) (by rw [e1]; exact ht) (by rw [e1]; exact hi))).1 _ _ h2
          obtain ⟨hact2, hsame2⟩ := safeGetChild_view h2
          rw [e1] at g2 hnx2 hav2 hsz2 hact2 hsame2
          have h3' : s3.tree = s2.tree ∧ S.sim.sampleTransition a s s2.rng = (.ok x1, s3.rng) := by
            unfold onRng at h3
            simp only [Prod.mk.injEq] at h3
            obtain ⟨k1, k2⟩ := h3
            rw [← k2]
            exact ⟨rfl, by rw [← k1]⟩
          obtain ⟨e3, k3⟩ := h3'
          have hx1 := hdet a s _ _ _ k3
          subst hx1
          cases h4
          have e3' : s3.tree.next i a (ob a s) = st.tree.next i a (ob a s) := by rw [e3, hnx2]
          have ht3 : TInv S b0 s3.tree := by rw [e3]; exact ht2
          have hi3 : i < s3.tree.size := by rw [e3, hsz2]; exact hi
          have ha3 : s3.tree.anode i a ≠ none := by rw [e3]; exact ha2
          have hf3 : FreshNew s3.tree := by
            intro k hk
            rw [e3, hsz2] at hk
            show (s3.tree.nodes k).avg = _
            rw [e3, hav2]
            exact hf k hk
          have hdec : (nTransitions.decrement a s (nx a s) (ob a s) ((h + 1 : Nat) : Int)) = (h : Int) := by
            simp [nTransitions]
          simp only [] at h5 hx
          rw [hdec] at h5
          rcases hj : s3.tree.next i a (ob a s) with _ | j
          · rw [hj] at h5
            rw [e3'] at hj
            change expand S i a (ob a s) (h : Int) s3 = _ at h5
            unfold expand at h5
            have h5' : (createChild S i a (ob a s) >>= fun j => rolloutFromNode S j (h : Int)) s3 = (.ok y, s5) := by
              unfold M.tryExcept at h5
              rcases hb : (createChild S i a (ob a s) >>= fun j => rolloutFromNode S j (h : Int)) s3 with ⟨r, s6⟩
              rw [hb] at h5
              cases r with
              | ok v => exact h5
              | error e =>
                  exfalso
                  simp only at h5
                  split at h5
                  · rename_i he
                    subst he
                    rcases M.bind_error hb with hb | ⟨j, s7, _, hb⟩
                    · have := (M.post_iff.1 (createChild_post ht3 hi3 ha3 (by rw [e3', hj]))).2 _ _ hb
                      exact hfind _ _ _ _ (congrArg Prod.fst this.2)
                    · obtain ⟨_, _, hx | ⟨h0, _⟩⟩ := (M.post_iff.1 (rolloutFromNode_post (S := S) j (h : Int) s7)).2 _ _ hb
                      · have hp := rollouts_proj S (s7.tree.nodes j).belief (h : Int) S.rolloutIt 0 (s7.rng, [])
                        rw [show eraseG ((s7.rng, []) : σ × List Ev) = s7.rng from rfl, hx] at hp
                        rcases hl : rollouts (loggedSearch S) (s7.tree.nodes j).belief (h : Int) S.rolloutIt 0 (s7.rng, []) with ⟨r, g⟩
                        rw [hl] at hp
                        simp only [Prod.mk.injEq] at hp
                        obtain ⟨rfl, _⟩ := hp
                        exact (M.post_iff.1 (rollouts_post S _ (h : Int) S.rolloutIt 0 (s7.rng, []))).2 _ _ hl hq rfl
                      · cases h0
                  · cases h5
            obtain ⟨j, s6, h6, h7⟩ := M.bind_ok h5'
            obtain ⟨rfl, c1, c2, c3, c4, c5⟩ := createChild_view ht3 hi3 hf3 hs ha3 (by rw [e3', hj]) h6
            have e6 : s3.tree.size = st.tree.size := by rw [e3, hsz2]
            have hav3 : ∀ k, nodeAvg s3.tree k = nodeAvg st.tree k := fun k => by
              show (s3.tree.nodes k).avg = (st.tree.nodes k).avg
              rw [e3, hav2]
            have hact3 : ∀ k b, actAvg s3.tree k b = actAvg st.tree k b := fun k b => by rw [e3, hact2]
            have hnx3 : ∀ k b o, s3.tree.next k b o = st.tree.next k b o := fun k b o => by rw [e3, hnx2]
            rw [e6] at c1 c5 h7
            simp only [hav3] at c2
            simp only [hact3] at c3
            simp only [hnx3] at c5
            have hroll : ((h = 0 ∧ y = 0) ∨ (0 < h ∧ L ≤ y ∧ y ≤ H)) ∧ s5.tree.size = s6.tree.size ∧
                (∀ k b o, s5.tree.next k b o = s6.tree.next k b o) ∧ (∀ k b, actAvg s5.tree k b = actAvg s6.tree k b) ∧
                (∀ k, nodeAvg s5.tree k = if k = st.tree.size then (if h = 0 then .new else Avg.update S.alpha .new y) else nodeAvg s6.tree k) ∧
                (∀ k b, s6.tree.anode k b ≠ none → s5.tree.anode k b ≠ none) := by
              rcases (M.post_iff.1 (rolloutFromNode_post (S := S) st.tree.size (h : Int) s6)).1 _ _ h7 with ⟨k1, k2, k3⟩ | ⟨k1, k2, z, k3, k4, k5⟩
              · rw [hhor] at k1
                have h0 : h = 0 := by simpa [nTransitions] using k1
                subst k3
                refine ⟨.inl ⟨h0, k2⟩, rfl, fun _ _ _ => rfl, fun _ _ => rfl, fun k => ?_, fun _ _ h => h⟩
                by_cases hk : k = st.tree.size
                · rw [if_pos hk, if_pos h0, c2, hk]
                  exact hf _ le_rfl
                · rw [if_neg hk]
              · rw [hhor] at k1
                have h0 : 0 < h := by
                  have : ¬ (h : Int) ≤ 0 := by simpa [nTransitions] using k1
                  omega
                obtain ⟨h1, h2⟩ := (M.post_iff.1 (rollouts_bounds hr hL0 hH0 hd hL hH _ (h : Int) S.rolloutIt 0 s6.rng)).1 _ _ k3
                have hpos : (0 : ℚ) < S.rolloutIt := by exact_mod_cast Nat.pos_of_ne_zero k2
                obtain ⟨v1, v2, v3⟩ := bump_view s6.tree S.alpha st.tree.size y
                refine ⟨.inr ⟨h0, ?_, ?_⟩, by rw [k5]; rfl, by rw [k5]; exact v3, by rw [k5]; exact v2, fun k => ?_, fun k b hne => by rw [k5, Tree.bump_anode]; exact hne⟩
                · rw [k4, le_div_iff₀ hpos]; linarith
                · rw [k4, div_le_iff₀ hpos]; linarith
                · rw [k5, v1, if_neg (by omega : ¬ h = 0)]
                  have : nodeAvg s6.tree st.tree.size = .new := by rw [c2]; exact hf _ le_rfl
                  rw [this]
            obtain ⟨r1, r2, r3, r4, r5, r6⟩ := hroll
            have ha6 : s6.tree.anode i a ≠ none := by
              have := ((M.post_iff.1 (createChild_post ht3 hi3 ha3 (by rw [e3', hj]))).1 _ _ h6).2.1
              exact this.anode i a hi3 ha3
            have ha5 := r6 i a ha6
            subst hx
            obtain ⟨v1, v2, v3⟩ := bumpA_view ha5 S.alpha (rew a s + S.sim.discount * y)
            obtain ⟨w1, w2, w3⟩ := bump_view (s5.tree.bumpA S.alpha i a (rew a s + S.sim.discount * y)) S.alpha i (rew a s + S.sim.discount * y)
            have hnode : ∀ k, nodeAvg ((s5.tree.bumpA S.alpha i a (rew a s + S.sim.discount * y)).bump S.alpha i (rew a s + S.sim.discount * y)) k =
                if k = i then (nodeAvg st.tree i).update S.alpha (rew a s + S.sim.discount * y)
                else if k = st.tree.size then (if h = 0 then .new else Avg.update S.alpha .new y) else nodeAvg st.tree k := by
              intro k
              rw [w1, v1, v1, r5, r5, c2, c2]
              by_cases hk : k = i
              · rw [if_pos hk, if_pos hk, if_neg (by omega)]
              · rw [if_neg hk, if_neg hk]
            refine ⟨.grow i s h a _ _ y hch hj r1 ?_ ?_ hnode ?_, ?_⟩
            · show st.tree.size < s5.tree.size
              rw [r2]; exact c1
            · intro k b o
              show (Tree.bump _ _ _ _).next k b o = _
              rw [w3, v3, r3, c5]
            · intro k b
              show actAvg (Tree.bump _ _ _ _) k b = _
              rw [w2, v2, r4, c3, r4, c3]
            · intro k hk
              have hk' : s5.tree.size ≤ k := hk
              rw [r2] at hk'
              show nodeAvg (Tree.bump _ _ _ _) k = _
              rw [hnode, if_neg (by omega), if_neg (by omega)]
              exact hf k (by omega)
          · rw [hj] at h5
            rw [e3'] at hj
            change simulate S fuel j (nx a s) (h : Int) none s3 = _ at h5
            have hane : st.tree.anode i a ≠ none := by
              intro hc
              unfold Tree.next at hj
              rw [hc] at hj
              cases hj
            have e2 := hsame2 hane
            have e3'' : s3.tree = st.tree := by rw [e3, e2, e1]
            obtain ⟨q1, q2⟩ := ih j (nx a s) h s3 s5 y ht3 (ht3.range i a (ob a s) j (by rw [e3', hj])).1 hf3 h5
            obtain ⟨ht5, g5⟩ := (M.post_iff.1 (simulate_post fuel j (nx a s) (h : Int) none s3 ht3 (ht3.range i a (ob a s) j (by rw [e3', hj])).1)).1 _ _ h5
            rw [e3''] at q1
            have ha5 := g5.anode i a hi3 ha3
            subst hx
            obtain ⟨v1, v2, v3⟩ := bumpA_view ha5 S.alpha (rew a s + S.sim.discount * y)
            obtain ⟨w1, w2, w3⟩ := bump_view (s5.tree.bumpA S.alpha i a (rew a s + S.sim.discount * y)) S.alpha i (rew a s + S.sim.discount * y)
            refine ⟨.down i s h a j _ _ _ y hch hj q1 rfl ?_ ?_ ?_, ?_⟩
            · intro k b o
              show (Tree.bump _ _ _ _).next k b o = _
              rw [w3, v3]
            · intro k
              show nodeAvg (Tree.bump _ _ _ _) k = _
              rw [w1, v1, v1]
            · intro k b
              show actAvg (Tree.bump _ _ _ _) k b = _
              rw [w2, v2]
            · intro k hk
              have hk' : s5.tree.size ≤ k := hk
              have hi5 := lt_of_lt_of_le hi3 g5.size
              show nodeAvg (Tree.bump _ _ _ _) k = _
              rw [w1, v1, if_neg (by omega), v1]
              exact q2 k hk'

end

end Verif.Uct
