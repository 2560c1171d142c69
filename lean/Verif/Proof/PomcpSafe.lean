import Verif.Proof.PomcpSim

/-! Simulations that do not raise. -/

set_option linter.unusedSectionVars false
set_option linter.unusedSimpArgs false

namespace Verif
open Spec
variable {σ β η : Type}

/-- Conditions for a search to raise no exception: `ok` holds of the beliefs in the tree, `inside b s` tells that the simulated
state `s` can be met in a node with the belief `b`, and `state` holds of all the states met. -/
structure SafeSim (sim : Sim σ β) (ok : β → Prop) (inside : β → Nat → Prop) (state : Nat → Prop) : Prop where
  actions : 0 < sim.nActions
  rand : ∀ g, ∃ c g', sim.rand g = (.ok c, g')
  sample : ∀ b, ok b → ∀ g, ∃ s g', sim.sampleBelief b g = (.ok s, g') ∧ inside b s ∧ state s
  trans : ∀ a s, a < sim.nActions → state s → ∀ g, ∃ x g', sim.sampleTransition a s g = (.ok x, g') ∧ state x.1
  closed : ∀ b a o b', ok b → Succ sim b a o b' → ok b'
  follows : ∀ b s a x g g', ok b → inside b s → a < sim.nActions → sim.sampleTransition a s g = (.ok x, g') →
    ∀ b', Succ sim b a x.2.1 b' → inside b' x.1
  noRaise : ∀ b s a x g g', ok b → inside b s → a < sim.nActions → sim.sampleTransition a s g = (.ok x, g') →
    ∀ g2 e g3, sim.successor b a x.2.1 g2 = (.error e, g3) → e = .maxSamplesReached

theorem nTransitions_bounded : BoundedHor nTransitions Int.toNat where
  step h hr a s s' o := by
    simp only [nTransitions, decide_eq_false_iff_not] at hr ⊢
    omega
  copy h := le_rfl

section
variable {sim : Sim σ β} {ok : β → Prop} {inside : β → Nat → Prop} {state : Nat → Prop}

theorem Reach.holds (hs : SafeSim sim ok inside state) {b0 b : β} (h : Reach sim b0 b) (h0 : ok b0) : ok b := by
  induction h with
  | base => exact h0
  | step _ h ih => exact hs.closed _ _ _ _ ih h

theorem randomAction_safe (hs : SafeSim sim ok inside state) (g : σ) :
    M.Post (randomAction sim) g (fun a _ => a < sim.nActions) (fun _ _ => False) := by
  unfold randomAction
  obtain ⟨c, g', h⟩ := hs.rand g
  apply M.post_ok_bind h
  rw [M.post_lift]
  have := hs.actions
  rw [if_neg (by omega)]
  refine ⟨fun a ha => ?_, fun e he => by cases he⟩
  simp only [Except.ok.injEq] at ha
  subst ha
  exact Nat.mod_lt _ this

theorem rolloutLoop_safe (hs : SafeSim sim ok inside state) {hor : HorizonOps η} {m : η → Nat} (hm : BoundedHor hor m) :
    ∀ (bound s : Nat) (h : η) (gamma full : ℚ) (g : σ), state s → m h ≤ bound →
    M.Post (rolloutLoop sim hor bound s h gamma full) g (fun _ _ => True) (fun _ _ => False) := by
  intro bound
  induction bound with
  | zero =>
      intro s h gamma full g _ hb
      unfold rolloutLoop
      apply M.post_ite
      · intro _
        exact M.post_pure.2 trivial
      · intro hr
        have := hm.step h (by simpa using hr) 0 0 0 0
        omega
  | succ k ih =>
      intro s h gamma full g hst hb
      unfold rolloutLoop
      apply M.post_ite
      · intro _
        exact M.post_pure.2 trivial
      · intro hr
        refine M.post_bind (randomAction_safe hs g) (fun _ _ h => h) ?_
        intro a g1 _ ha
        obtain ⟨x, g2, hx, hx2⟩ := hs.trans a s ha hst g1
        apply M.post_ok_bind hx
        have := hm.step h (by simpa using hr) a s x.1 x.2.1
        exact ih _ _ _ _ _ hx2 (by omega)

variable {S : Search σ β η}

theorem rollouts_safe (hs : SafeSim S.sim ok inside state) {m : η → Nat} (hm : BoundedHor S.hor m) (b : β) (hb : ok b) (h : η)
    (hh : m h ≤ S.bound) : ∀ (k : Nat) (total : ℚ) (g : σ),
    M.Post (rollouts S b h k total) g (fun _ _ => True) (fun _ _ => False) := by
  intro k
  induction k with
  | zero => intro total g; exact M.post_pure.2 trivial
  | succ k ih =>
      intro total g
      unfold rollouts
      obtain ⟨s, g1, h1, _, h2⟩ := hs.sample b hb g
      apply M.post_ok_bind h1
      refine M.post_bind (rolloutLoop_safe hs hm S.bound s (S.hor.copy h) 1 0 g1 h2 (le_trans (hm.copy h) hh)) (fun _ _ h => h) ?_
      intro x g2 _ _
      exact ih _ _

theorem rolloutFromNode_safe (hs : SafeSim S.sim ok inside state) {m : η → Nat} (hm : BoundedHor S.hor m) (hit : 0 < S.rolloutIt)
    (i : Nat) (h : η) (hh : m h ≤ S.bound) (st : SearchState σ β) (hb : ok (st.tree.nodes i).belief) :
    M.Post (rolloutFromNode S i h) st (fun _ _ => True) (fun _ _ => False) := by
  unfold rolloutFromNode
  apply M.post_ite
  · intro _; exact M.post_pure.2 trivial
  · intro _
    apply M.post_read_bind
    refine M.post_bind (Q1 := fun _ _ => True) (E1 := fun _ _ => False) (onRng_post _ _ (rollouts_safe hs hm _ hb h hh _ _ _)) (fun _ _ h => h) ?_
    intro x s1 _ _
    rw [if_neg (by omega)]
    exact M.post_ok_bind (a := x / S.rolloutIt) (s1 := s1) rfl trivial

theorem getBest_safe (hs : SafeSim sim ok inside state) (bonus : Nat → Nat → ℚ) (e : ℚ) (rel : Bool) (i : Nat) (st : SearchState σ β)
    (hl : (st.tree.nodes i).children.length = sim.nActions) (hn : actionSum st.tree i ≤ nodeVisits st.tree i) :
    M.Post (getBestAction sim bonus e rel i) st (fun _ _ => True) (fun _ _ => False) := by
  unfold getBestAction
  apply M.post_read_bind
  have hpos := hs.actions
  apply M.post_ite
  · intro h0
    have h0' := List.length_eq_zero_iff.1 h0
    have hv : 0 < (st.tree.nodes i).avg.n := by
      have hm : 0 ∉ notInit (st.tree.nodes i).children := by rw [h0']; simp
      rw [mem_notInit, hl] at hm
      have h1 : visitsOf ((st.tree.nodes i).children[0]?).join ≠ 0 := fun h => hm ⟨hpos, h⟩
      have h2 : (st.tree.nodes i).children[0]? = some (st.tree.nodes i).children[0] := List.getElem?_eq_getElem (by omega)
      rw [h2] at h1
      have h3 : visitsOf (st.tree.nodes i).children[0] ≤ actionSum st.tree i := by
        unfold actionSum
        exact List.single_le_sum (by simp) _ (List.mem_map.2 ⟨_, List.getElem_mem _, rfl⟩)
      simp only [Option.join_some] at h1
      have : 0 < nodeVisits st.tree i := by omega
      exact this
    rw [M.post_lift]
    refine ⟨fun _ _ => trivial, fun e' he => ?_⟩
    unfold greedyAction at he
    rw [if_pos hv] at he
    obtain ⟨k, v, h1, _⟩ := argmax_spec ((augmentedValues bonus e rel (st.tree.nodes i)).map (·.getD 0))
      (by
        intro hc
        have := congrArg List.length hc
        simp [augmentedValues] at this
        rw [this] at hl
        simp at hl; omega)
    rw [h1] at he
    cases he
  · intro h0
    apply onRng_post
    unfold pickFrom
    obtain ⟨c, g', h⟩ := hs.rand st.rng
    apply M.post_ok_bind h
    rw [M.post_lift]
    refine ⟨fun _ _ => trivial, fun e' he => ?_⟩
    rw [List.getElem?_eq_getElem (Nat.mod_lt _ (Nat.pos_of_ne_zero h0))] at he
    cases he

variable [DecidableEq β] {b0 : β}

theorem expand_safe (hs : SafeSim S.sim ok inside state) {m : η → Nat} (hm : BoundedHor S.hor m) (hit : 0 < S.rolloutIt) (h0 : ok b0)
    {i a o : Nat} {h : η} (hh : m h ≤ S.bound) {st : SearchState σ β} (ht : TInv S b0 st.tree) (hi : i < st.tree.size)
    (ha : st.tree.anode i a ≠ none) (hn : st.tree.next i a o = none)
    (hr : ∀ g2 e g3, S.sim.successor (st.tree.nodes i).belief a o g2 = (.error e, g3) → e = .maxSamplesReached) :
    M.Post (expand S i a o h) st (fun _ _ => True) (fun _ _ => False) := by
  unfold expand
  refine M.post_try (Q1 := fun _ _ => True) (E1 := fun e _ => e = .maxSamplesReached) ?_ (fun _ _ _ h => h) (fun _ _ h h' => h h') ?_
  · refine M.post_bind (createChild_post ht hi ha hn) ?_ ?_
    · rintro e s1 ⟨_, h1⟩
      exact hr _ _ _ h1
    · rintro j s1 _ ⟨g1, _, _, g4, _⟩
      exact M.post_mono (rolloutFromNode_safe hs hm hit j h hh s1 ((g1.reach j g4).holds hs h0)) (fun _ _ h => h) (fun _ _ h => h.elim)
  · intro s1 _ _
    exact M.post_pure.2 trivial

theorem simulate_safe (hs : SafeSim S.sim ok inside state) {m : η → Nat} (hm : BoundedHor S.hor m) (hit : 0 < S.rolloutIt) (h0 : ok b0) :
    ∀ (fuel i s : Nat) (h : η) (act : Option Nat) (st : SearchState σ β), TInv S b0 st.tree →
    i < st.tree.size → inside (st.tree.nodes i).belief s → state s → m h < fuel → m h ≤ S.bound →
    (∀ a, act = some a → a < S.sim.nActions) →
    M.Post (simulate S fuel i s h act) st (fun _ _ => True) (fun _ _ => False) := by
  intro fuel
  induction fuel with
  | zero => intro i s h act st _ _ _ _ hf; omega
  | succ fuel ih =>
      intro i s h act st ht hi hin hst hf hb hact
      unfold simulate
      apply M.post_ite
      · intro _; exact M.post_read.2 trivial
      · intro hr
        have hc : M.Post (chooseAction S i act) st (fun a s1 => s1.tree = st.tree ∧ a < S.sim.nActions) (fun _ _ => False) := by
          cases act with
          | some a => exact M.post_pure.2 ⟨rfl, hact a rfl⟩
          | none =>
              have p1 := getBest_post S.sim S.bonus S.exploration S.relative i st
              have p2 := getBest_safe hs S.bonus S.exploration S.relative i st (ht.len i) (ht.sum i)
              rw [M.post_iff] at p1 p2
              show M.Post (getBestAction _ _ _ _ _) st _ _
              rw [M.post_iff]
              refine ⟨fun a s1 h1 => ?_, fun e s1 h1 => p2.2 e s1 h1⟩
              obtain ⟨q1, q2, _⟩ := p1.1 a s1 h1
              rw [ht.len] at q2
              exact ⟨q1, q2⟩
        refine M.post_bind hc (fun _ _ h => h) ?_
        rintro a s1 _ ⟨h1, ha⟩
        have ht1 : TInv S b0 s1.tree := by rw [h1]; exact ht
        have hi1 : i < s1.tree.size := by rw [h1]; exact hi
        refine M.post_bind (safeGetChild_post (a := a) ht1 hi1) (fun e s2 h2 => by have := h2.2.2; omega) ?_
        rintro _ s2 _ ⟨_, ht2, hg2, _, ha2, _, _, hs2, _, _⟩
        have hbel : (s2.tree.nodes i).belief = (st.tree.nodes i).belief := by rw [hg2.belief i hi1, h1]
        obtain ⟨x, g, hx, hxs⟩ := hs.trans a s ha hst s2.rng
        refine M.post_ok_bind (a := x) (s1 := ⟨s2.tree, g⟩) (by show onRng _ _ = _; unfold onRng; rw [hx]) ?_
        apply M.post_read_bind
        have hi3 : i < s2.tree.size := by rw [hs2]; exact hi1
        have hd := hm.step h (by simpa using hr) a s x.1 x.2.1
        have hok : ok (st.tree.nodes i).belief := (ht.reach i hi).holds hs h0
        refine M.post_bind (Q1 := fun _ _ => True) (E1 := fun _ _ => False) ?_ (fun _ _ h => h) ?_
        · rcases hj : s2.tree.next i a x.2.1 with _ | j
          · refine expand_safe hs hm hit h0 (by omega) ht2 hi3 ha2 hj ?_
            rw [show ((⟨s2.tree, g⟩ : SearchState σ β).tree.nodes i).belief = _ from hbel]
            exact hs.noRaise _ s a x _ _ hok hin ha hx
          · refine ih j _ _ _ _ ht2 (ht2.range i a _ j hj).1 ?_ hxs (by omega) (by omega) (fun a h => by cases h)
            have := ht2.succ i a _ j hj
            rw [hbel] at this
            exact hs.follows _ s a x _ _ hok hin ha hx _ this
        · intro y s5 _ _
          rw [M.post_of_ok (updateBoth_run ..)]
          trivial

theorem simulateFromNode_safe (hs : SafeSim S.sim ok inside state) {m : η → Nat} (hm : BoundedHor S.hor m) (hit : 0 < S.rolloutIt) (h0 : ok b0)
    (hf : m S.horizon < S.fuel) (hb : m S.horizon ≤ S.bound) (i : Nat) (act : Option Nat) (hact : ∀ a, act = some a → a < S.sim.nActions)
    (st : SearchState σ β) (ht : TInv S b0 st.tree) (hi : i < st.tree.size) :
    M.Post (simulateFromNode S i act) st (fun _ _ => True) (fun _ _ => False) := by
  unfold simulateFromNode
  apply M.post_read_bind
  obtain ⟨s, g, h1, h2, h3⟩ := hs.sample _ ((ht.reach i hi).holds hs h0) st.rng
  refine M.post_ok_bind (a := s) (s1 := ⟨st.tree, g⟩) (by show onRng _ _ = _; unfold onRng; rw [h1]) ?_
  refine M.post_bind (simulate_safe hs hm hit h0 S.fuel i s S.horizon act _ ht hi h2 h3 hf hb hact) (fun _ _ h => h) ?_
  intro x s3 _ _
  exact M.post_pure.2 trivial

end
end Verif
