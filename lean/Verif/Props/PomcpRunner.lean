import Verif.Props.Pomcp
import Verif.Props.Pomdp
import Verif.Props.Belief
import Verif.Proof.PomcpSafe

/-! Properties of the beliefs in the search tree and of the runner: C54, C56 and C57. -/

set_option linter.unusedSectionVars false
set_option linter.unusedSimpArgs false

namespace Verif
open Spec
variable {σ β η : Type}

/-! ### C54: beliefs -/

theorem dist_normal {n : Nat} {b : List ℚ} (h : IsDist n b) : arrayBelief b = .ok b := by
  unfold arrayBelief
  have : b.sum = 1 := by
    rw [← h.2.2]
    unfold sumRange
    congr 1
    apply List.ext_getElem
    · simp [h.1]
    · intro i h1 h2
      simp [h1]
  rw [if_pos]
  unfold normal1 closeToOne
  rw [this]
  norm_num

theorem exact_succ {p : Pomdp} {u : Nat → ℚ} {c : Nat → Nat} {b b' : List ℚ} {a o : Nat} (h : Succ (exactSim p u c) b a o b') :
    p.beliefUpdate a o b = .ok b' := by
  obtain ⟨g, g', h⟩ := h
  have h1 : (do let b' ← p.beliefUpdate a o b; arrayBelief b') = Except.ok b' := congrArg Prod.fst h
  rcases h2 : p.beliefUpdate a o b with e | b2
  · rw [h2] at h1; cases h1
  · rw [h2] at h1
    change arrayBelief b2 = .ok b' at h1
    unfold arrayBelief at h1
    split at h1
    · cases h1; rfl
    · cases h1

theorem beliefUpdate_range {p : Pomdp} {nS nA nO : Nat} (hp : Shaped p nS nA nO) {a o : Nat} {b b' : List ℚ}
    (h : p.beliefUpdate a o b = .ok b') : a < nA ∧ o < nO := by
  obtain ⟨_, _, _, _, h0, h1, h2, h3, h4, h5, _⟩ := hp
  unfold Pomdp.beliefUpdate at h
  split at h
  · cases h
  · split at h
    · cases h
    · split at h
      · cases h
      · constructor <;> omega

section exact
variable {p : Pomdp} {nS nA nO : Nat} {u : Nat → ℚ} {c : Nat → Nat}

theorem updates_range (hp : Shaped p nS nA nO) : ∀ (h : List (Nat × Nat)) (b b' : List ℚ), updates p b h = .ok b' →
    ∀ ao ∈ h, ao.1 < nA ∧ ao.2 < nO := by
  intro h
  induction h with
  | nil => intro _ _ _; simp
  | cons ao h ih =>
      intro b b' hu
      obtain ⟨a, o⟩ := ao
      rcases h2 : p.beliefUpdate a o b with e | b2
      · unfold updates at hu; rw [h2] at hu; cases hu
      · unfold updates at hu
        rw [h2] at hu
        intro x hx
        rcases List.mem_cons.1 hx with rfl | hx
        · exact beliefUpdate_range hp h2
        · exact ih b2 b' hu x hx

theorem updates_append (b b1 b2 : List ℚ) (h h' : List (Nat × Nat)) (e1 : updates p b h = .ok b1) (e2 : updates p b1 h' = .ok b2) :
    updates p b (h ++ h') = .ok b2 := by
  induction h generalizing b with
  | nil => cases e1; exact e2
  | cons ao h ih =>
      obtain ⟨a, o⟩ := ao
      rcases h3 : p.beliefUpdate a o b with e | b3
      · unfold updates at e1; rw [h3] at e1; cases e1
      · unfold updates at e1
        rw [h3] at e1
        show updates p b ((a, o) :: (h ++ h')) = _
        unfold updates
        rw [h3]
        exact ih b3 e1

theorem follow_updates [DecidableEq (List ℚ)] {S : Search Nat (List ℚ) η} (hS : S.sim = exactSim p u c) {b0 : List ℚ}
    {t : Tree (List ℚ)} (ht : TInv S b0 t) : ∀ (h : List (Nat × Nat)) (i j : Nat), follow t i h = some j →
    updates p (t.nodes i).belief h = .ok (t.nodes j).belief := by
  intro h
  induction h with
  | nil => intro i j h; cases h; rfl
  | cons ao h ih =>
      intro i j hf
      obtain ⟨a, o⟩ := ao
      obtain ⟨k, h1, h2⟩ := Option.bind_eq_some_iff.1 hf
      have hs := ht.succ i a o k h1
      rw [hS] at hs
      unfold updates
      rw [exact_succ hs]
      exact ih k j h2

theorem reach_updates {b0 b : List ℚ} (h : Reach (exactSim p u c) b0 b) : ∃ h, updates p b0 h = .ok b := by
  induction h with
  | base => exact ⟨[], rfl⟩
  | @step b a o b' _ hs ih =>
      obtain ⟨h, ih⟩ := ih
      refine ⟨h ++ [(a, o)], updates_append _ _ _ _ _ ih ?_⟩
      unfold updates
      rw [exact_succ hs]
      rfl

/-- With exact beliefs, after any calls, a node reached from the root by a history carries the posterior of this history, which
has a positive probability; and every node carries the posterior of some history. -/
theorem C54_posterior (hp : Stochastic p nS nA nO) (S : Search Nat (List ℚ) η) (hS : S.sim = exactSim p u c) (b : List ℚ)
    (hb : IsDist nS b) (rng : Nat) (ops : List TreeOp) :
    (∀ h j, follow (runTreeOps S (S.start b rng) ops).tree 0 h = some j →
      (∀ ao ∈ h, ao.1 < nA ∧ ao.2 < nO) ∧ updates p b h = .ok ((runTreeOps S (S.start b rng) ops).tree.nodes j).belief ∧
      0 < histProb p nS b h ∧ IsDist nS ((runTreeOps S (S.start b rng) ops).tree.nodes j).belief ∧
      ∀ s < nS, ((runTreeOps S (S.start b rng) ops).tree.nodes j).belief.getD s 0 = endProb p nS b h s / histProb p nS b h) ∧
    ∀ j < (runTreeOps S (S.start b rng) ops).tree.size, ∃ h,
      updates p b h = .ok ((runTreeOps S (S.start b rng) ops).tree.nodes j).belief := by
  obtain ⟨ht, _⟩ := runTreeOps_inv ops (S.start b rng) (TInv.init b)
  refine ⟨fun h j hf => ?_, fun j hj => ?_⟩
  · have hu := follow_updates hS ht h 0 j hf
    rw [ht.root] at hu
    have hr := updates_range hp.1 h _ _ hu
    obtain ⟨h1, h2⟩ := C38_posterior p nS nA nO hp h hr b hb
    have hne : histProb p nS b h ≠ 0 := fun h0 => by rw [h1 h0] at hu; cases hu
    obtain ⟨h3, b', h4, h5, h6⟩ := h2 hne
    rw [hu] at h4
    cases h4
    exact ⟨hr, hu, h3, h5, h6⟩
  · have := ht.reach j hj
    rw [hS] at this
    exact reach_updates this

theorem exact_safe (hp : Stochastic p nS nA nO) (hA : 0 < nA) (hu : ∀ k, 0 ≤ u k ∧ u k < 1) :
    SafeSim (exactSim p u c) (IsDist nS) (fun b s => s < nS ∧ 0 < b.getD s 0) (fun s => s < nS) := by
  have hn : (exactSim p u c).nActions = nA := hp.1.2.1
  have htr : ∀ a s x g g', a < (exactSim p u c).nActions → s < nS → (exactSim p u c).sampleTransition a s g = (.ok x, g') →
      x.1 < nS ∧ x.2.1 < nO ∧ 0 < p.T.at_ a s x.1 ∧ 0 < p.O.at_ a x.1 x.2.1 := by
    intro a s x g g' ha hs h
    rw [hn] at ha
    obtain ⟨s', o, r, h1, h2, h3, h4, h5, _⟩ := (C71_transition p nS nA nO hp a s ha hs).1 (u g) (u (g + 1)) (hu g).1 (hu g).2 (hu _).1 (hu _).2
    have h' : p.sampleTransition (u g) (u (g + 1)) a s = .ok x := congrArg Prod.fst h
    rw [h1] at h'
    cases h'
    exact ⟨h2, h3, h4, h5⟩
  have hpos : ∀ (b : List ℚ) s a x g g', IsDist nS b → s < nS ∧ 0 < b.getD s 0 → a < (exactSim p u c).nActions →
      (exactSim p u c).sampleTransition a s g = (.ok x, g') →
      ∃ b', p.beliefUpdate a x.2.1 b = .ok b' ∧ IsDist nS b' ∧ 0 < b'.getD x.1 0 := by
    intro b s a x g g' hb hin ha h
    obtain ⟨h1, h2, h3, h4⟩ := htr a s x g g' ha hin.1 h
    rw [hn] at ha
    have hz : obsProb p nS a x.2.1 b ≠ 0 := by
      intro h0
      have hnn := jointProb_nonneg p hp a x.2.1 ha h2 b hb.2.1
      have hj : 0 < jointProb p nS a x.2.1 b x.1 := by
        unfold jointProb
        apply mul_pos h4
        refine lt_of_lt_of_le (mul_pos hin.2 h3) ?_
        exact sumRange_single_le nS (fun s => b.getD s 0 * p.T.at_ a s x.1) (fun i hi =>
          mul_nonneg (hb.2.1 i hi) ((hp.2.1 a (by rw [hp.1.2.2.2.2.1]; exact ha) i (by rw [hp.1.2.2.2.2.2.1]; exact hi)).1 x.1
            (by rw [hp.1.2.2.2.2.2.2.1]; exact h1))) s hin.1
      have := sumRange_single_le nS (jointProb p nS a x.2.1 b) hnn x.1 h1
      unfold obsProb at h0
      rw [h0] at this
      linarith
    obtain ⟨b', e1, e2, _, e4⟩ := C37_posterior p nS nA nO hp a x.2.1 ha h2 b hb hz
    exact ⟨b', e1, e2, (e4 x.1 h1).2 ⟨h4, s, hin.1, hin.2, h3⟩⟩
  refine ⟨by rw [hn]; exact hA, fun g => ⟨_, _, rfl⟩, ?_, ?_, ?_, ?_, ?_⟩
  · intro b hb g
    have hl : b = (List.range nS).map (fun i => b.getD i 0) := by
      apply List.ext_getElem
      · simp [hb.1]
      · intro i h1 h2
        simp [h1]
    obtain ⟨i, h1, h2, h3⟩ := (choice_spec nS (fun i => b.getD i 0) hb.2.1 hb.2.2).1 (u g) (hu g).1 (hu g).2
    rw [← hl] at h1
    refine ⟨i, g + 1, ?_, ⟨h2, h3⟩, h2⟩
    show (Pomdp.choice b.length b (u g), g + 1) = _
    rw [hb.1, h1]
  · intro a s ha hs g
    have ha' := ha
    rw [hn] at ha
    obtain ⟨s', o, r, h1, h2, _⟩ := (C71_transition p nS nA nO hp a s ha hs).1 (u g) (u (g + 1)) (hu g).1 (hu g).2 (hu _).1 (hu _).2
    refine ⟨(s', o, r), g + 2, ?_, h2⟩
    show (p.sampleTransition (u g) (u (g + 1)) a s, g + 2) = _
    rw [h1]
  · intro b a o b' hb hs
    have h1 := exact_succ hs
    obtain ⟨ha, ho⟩ := beliefUpdate_range hp.1 h1
    have hz : obsProb p nS a o b ≠ 0 := by
      intro h0
      rw [(C37_impossible p nS nA nO hp a o ha ho b hb).2 h0] at h1
      cases h1
    obtain ⟨b2, e1, e2, _⟩ := C37_posterior p nS nA nO hp a o ha ho b hb hz
    rw [h1] at e1
    cases e1
    exact e2
  · intro b s a x g g' hb hin ha h b' hs
    obtain ⟨b2, e1, _, e3⟩ := hpos b s a x g g' hb hin ha h
    rw [exact_succ hs] at e1
    cases e1
    exact ⟨(htr a s x g g' ha hin.1 h).1, e3⟩
  · intro b s a x g g' hb hin ha h g2 e g3 hs
    obtain ⟨b2, e1, e2, _⟩ := hpos b s a x g g' hb hin ha h
    have : (do let b' ← p.beliefUpdate a x.2.1 b; arrayBelief b') = Except.error e := congrArg Prod.fst hs
    rw [e1] at this
    change arrayBelief b2 = .error e at this
    rw [dist_normal e2] at this
    cases this

/-- With exact beliefs and random numbers in `[0, 1)`, a simulation from a node of the tree does not raise any exception, whatever
has been done before. -/
theorem C54_never_raises (hp : Stochastic p nS nA nO) (hA : 0 < nA) (hu : ∀ k, 0 ≤ u k ∧ u k < 1) (S : Search Nat (List ℚ) η)
    (hS : S.sim = exactSim p u c) (m : η → Nat) (hm : BoundedHor S.hor m) (hit : 0 < S.rolloutIt) (hf : m S.horizon < S.fuel)
    (hbd : m S.horizon ≤ S.bound) (b : List ℚ) (hb : IsDist nS b) (rng : Nat) (ops : List TreeOp) (i : Nat)
    (hi : i < (runTreeOps S (S.start b rng) ops).tree.size) (act : Option Nat) (hact : ∀ a, act = some a → a < nA) :
    ∃ st', simulateFromNode S i act (runTreeOps S (S.start b rng) ops) = (.ok (), st') := by
  obtain ⟨ht, _⟩ := runTreeOps_inv ops (S.start b rng) (TInv.init b)
  have hs := exact_safe (c := c) hp hA hu
  rw [← hS] at hs
  have hn : S.sim.nActions = nA := by rw [hS]; exact hp.1.2.1
  have h := simulateFromNode_safe hs hm hit hb hf hbd i act (by rw [hn]; exact hact) _ ht hi
  rcases hr : simulateFromNode S i act (runTreeOps S (S.start b rng) ops) with ⟨r, st'⟩
  cases r with
  | ok v => exact ⟨st', rfl⟩
  | error e => exact ((M.post_of_error hr).1 h).elim

end exact

section particle
variable {p : Pomdp} {nS nA nO : Nat} {n : Nat} {u : Nat → Nat → ℚ} {c : Nat → Nat → Nat}

/-- `n` particles that are states. -/
def ParticlesOk (nS n : Nat) (ps : List Nat) : Prop := ps.length = n ∧ ∀ s ∈ ps, s < nS

theorem particlesOver_safe {actions observations : List Name} {discount : ℚ} {trans : Nat → Nat → Nat → Nat → Py (Nat × Nat × ℚ)}
    (hA : 0 < actions.length) (hn0 : 0 < n)
    (htr : ∀ k j a s, a < actions.length → s < nS → ∃ x, trans k j a s = .ok x ∧ x.1 < nS)
    (herr : ∀ k j a s x, trans k j a s = .ok x → a < actions.length) :
    SafeSim (particlesOver actions observations discount trans n c) (ParticlesOk nS n) (fun _ s => s < nS) (fun s => s < nS) := by
  have hn : (particlesOver actions observations discount trans n c).nActions = actions.length := rfl
  refine ⟨hA, fun g => ⟨_, _, rfl⟩, ?_, ?_, ?_, ?_, ?_⟩
  · intro b hb g
    have hm : c g 0 % n < b.length := by rw [hb.1]; exact Nat.mod_lt _ hn0
    refine ⟨b[c g 0 % n], g + 1, ?_, hb.2 _ (List.getElem_mem _), hb.2 _ (List.getElem_mem _)⟩
    show (particleSample b n (c g 0), g + 1) = _
    unfold particleSample
    rw [if_neg (by omega), List.getElem?_eq_getElem hm]
  · intro a s ha hs g
    obtain ⟨x, h1, h2⟩ := htr g 0 a s ha hs
    refine ⟨x, g + 1, ?_, h2⟩
    show (trans g 0 a s, g + 1) = _
    rw [h1]
  · intro b a o b' hb hs
    obtain ⟨g, g', hs⟩ := hs
    obtain ⟨h1, h2⟩ := C51_consistent _ _ _ _ _ _ _ _ (congrArg Prod.fst hs)
    refine ⟨h1, fun s' hs' => ?_⟩
    obtain ⟨k, _, s, hsb, r, hr⟩ := h2 s' hs'
    obtain ⟨x, e1, e2⟩ := htr g k a s (herr _ _ _ _ _ hr) (hb.2 s hsb)
    rw [e1] at hr
    cases hr
    exact e2
  · intro b s a x g g' hb hin ha h b' hs
    obtain ⟨y, h1, h2⟩ := htr g 0 a s ha hin
    have h' : trans g 0 a s = .ok x := congrArg Prod.fst h
    rw [h1] at h'
    cases h'
    exact h2
  · intro b s a x g g' hb hin ha h g2 e g3 hs
    have hs' := congrArg Prod.fst hs
    have hex := C51_exact b n (fun j => c g2 (2 * j)) (fun j => c g2 (2 * j + 1)) (trans g2) a x.2.1
      (fun k => match trans g2 k a (b.getD (c g2 (2 * k) % n) 0) with | .ok y => y | .error _ => (0, 0, 0))
      hn0 hb.1 (by
        intro k _ s' hs'
        obtain ⟨y, h1, _⟩ := htr g2 k a s' ha (hb.2 s' (List.mem_of_getElem? hs'))
        have : b.getD (c g2 (2 * k) % n) 0 = s' := by rw [List.getD_eq_getElem?_getD, hs']; rfl
        simp only [this, h1])
    by_contra hne
    obtain ⟨f1, f2⟩ := hex
    have hs2 : (particleSuccessor b n (fun j => c g2 (2 * j)) (fun j => c g2 (2 * j + 1)) (trans g2) a x.2.1).1 = .error e := hs'
    rw [hs2] at f1 f2
    by_cases hall : ∃ k < 100 * n, ((fun k => match trans g2 k a (b.getD (c g2 (2 * k) % n) 0) with
        | .ok y => y | .error _ => ((0, 0, 0) : Nat × Nat × ℚ)) k).2.1 = x.2.1
    · obtain ⟨ps, h1, _⟩ := f2 hall
      cases h1
    · have := f1.2 (fun k hk he => hall ⟨k, hk, he⟩)
      cases this
      exact hne rfl

theorem particle_safe (hp : Stochastic p nS nA nO) (hA : 0 < nA) (hn0 : 0 < n) (hu : ∀ k j, 0 ≤ u k j ∧ u k j < 1) :
    SafeSim (particleSim p n u c) (ParticlesOk nS n) (fun _ s => s < nS) (fun s => s < nS) := by
  have hn : p.actions.length = nA := hp.1.2.1
  refine particlesOver_safe (by rw [hn]; exact hA) hn0 ?_ ?_
  · intro k j a s ha hs
    rw [hn] at ha
    obtain ⟨s', o, r, h1, h2, _⟩ := (C71_transition p nS nA nO hp a s ha hs).1 _ _ (hu k (2 * j)).1 (hu k (2 * j)).2
      (hu k (2 * j + 1)).1 (hu k (2 * j + 1)).2
    exact ⟨_, h1, h2⟩
  · intro k j a s x hr
    by_contra hc
    rw [hn] at hc
    unfold Pomdp.sampleTransition at hr
    rw [if_pos (.inl (by have := hp.1.2.2.2.2.1; omega))] at hr
    cases hr

/-- The same with particle beliefs: when no particle is consistent with the observation, the search goes on. -/
theorem C54_particles_never_raise (hp : Stochastic p nS nA nO) (hA : 0 < nA) (hn0 : 0 < n) (hu : ∀ k j, 0 ≤ u k j ∧ u k j < 1)
    (S : Search Nat (List Nat) η) (hS : S.sim = particleSim p n u c) (m : η → Nat) (hm : BoundedHor S.hor m) (hit : 0 < S.rolloutIt)
    (hf : m S.horizon < S.fuel) (hbd : m S.horizon ≤ S.bound) (b : List Nat) (hb : ParticlesOk nS n b) (rng : Nat) (ops : List TreeOp) (i : Nat)
    (hi : i < (runTreeOps S (S.start b rng) ops).tree.size) (act : Option Nat) (hact : ∀ a, act = some a → a < nA) :
    ∃ st', simulateFromNode S i act (runTreeOps S (S.start b rng) ops) = (.ok (), st') := by
  obtain ⟨ht, _⟩ := runTreeOps_inv ops (S.start b rng) (TInv.init b)
  have hs := particle_safe (c := c) hp hA hn0 hu
  rw [← hS] at hs
  have hn : S.sim.nActions = nA := by rw [hS]; exact hp.1.2.1
  have h := simulateFromNode_safe hs hm hit hb hf hbd i act (by rw [hn]; exact hact) _ ht hi
  rcases hr : simulateFromNode S i act (runTreeOps S (S.start b rng) ops) with ⟨r, st'⟩
  cases r with
  | ok v => exact ⟨st', rfl⟩
  | error e => exact ((M.post_of_error hr).1 h).elim

/-- The belief at the start has `n` particles, all of positive probability. -/
theorem C54_particle_start (hp : Shaped p nS nA nO) (hb : IsDist nS p.start) (v : Nat → ℚ) (hv : ∀ k, 0 ≤ v k ∧ v k < 1) :
    ∃ ps, particleStart p n v = .ok ps ∧ ParticlesOk nS n ps ∧ ∀ s ∈ ps, 0 < p.start.getD s 0 := by
  have hk : ∀ k, ∃ s, p.sampleStart (v k) = .ok s ∧ s < nS ∧ 0 < p.start.getD s 0 := fun k =>
    (C71_start p nS nA nO hp hb).1 (v k) (hv k).1 (hv k).2
  have hfill : ∀ n k, ∃ ps k', fillParticles (fun k => (p.sampleStart (v k), k + 1)) n k = (ps, none, k') ∧ ps.length = n ∧
      ∀ s ∈ ps, s < nS ∧ 0 < p.start.getD s 0 := by
    intro n
    induction n with
    | zero => intro k; exact ⟨[], k, rfl, rfl, by simp⟩
    | succ n ih =>
        intro k
        obtain ⟨s, h1, h2⟩ := hk k
        obtain ⟨ps, k', h3, h4, h5⟩ := ih (k + 1)
        refine ⟨s :: ps, k', ?_, by simp [h4], ?_⟩
        · unfold fillParticles
          rw [h1]
          simp only [h3]
        · intro x hx
          rcases List.mem_cons.1 hx with rfl | hx
          · exact h2
          · exact h5 x hx
  obtain ⟨ps, k', h1, h2, h3⟩ := hfill n 0
  refine ⟨ps, ?_, ⟨h2, fun s hs => (h3 s hs).1⟩, fun s hs => (h3 s hs).2⟩
  unfold particleStart mkParticles
  rw [h1]

end particle

/-- The one-state model satisfies the hypotheses. -/
theorem loop_stochastic : Stochastic loopPomdp 1 1 1 := by
  refine ⟨by simp [Shaped, loopPomdp, Pomdp.states, Pomdp.actions, Pomdp.observations, Names.asList], ?_, ?_⟩ <;>
    (intro i _ j _; exact ⟨fun _ _ => by norm_num [loopPomdp], by simp [loopPomdp, sumRange, List.range_succ]⟩)

example : ∃ st', simulateFromNode (loopSearch true 5) 0 none
    (runTreeOps (loopSearch true 5) ((loopSearch true 5).start [1] 0) [.simulate 0 none, .getNode [(0, 0)]]) = (.ok (), st') :=
  C54_never_raises (c := fun _ => 0) loop_stochastic (by omega) (u := fun _ => 0) (fun _ => by norm_num) _ rfl Int.toNat nTransitions_bounded
    (by decide) (by decide) (by decide) [1] ⟨rfl, by intro i hi; interval_cases i; norm_num, by simp [sumRange, List.range_succ]⟩ 0 _ 0
    (runTreeOps_inv _ _ (TInv.init _)).1.pos none (by simp)

/-! ### C56: exploration -/

section
variable [DecidableEq β]

theorem unexplored_step (S : Search σ β η) (hq : QuietSim S.sim) {b0 : β} {st st' : SearchState σ β} (ht : TInv S b0 st.tree) {i : Nat}
    (hi : i < st.tree.size) (hh : S.hor.isReached S.horizon = false) (h : simulateFromNode S i none st = (.ok (), st')) :
    (unexplored st'.tree i).length ≤ (unexplored st.tree i).length - 1 ∧
    (S.shared = false → (unexplored st'.tree i).length = (unexplored st.tree i).length - 1) := by
  obtain ⟨ht', _⟩ := (M.post_iff.1 (simulateFromNode_post i none st ht hi)).1 _ _ h
  obtain ⟨path, extra, p1, _, p3, p4, p5, _, p7⟩ := simulateFromNode_counts hq ht hi h
  obtain ⟨a, p, rfl, q1, _⟩ := p7 hh
  have hu : unexplored st'.tree i = (unexplored st.tree i).filter fun a' => decide (((i, a) :: p).count (i, a') = 0) := by
    unfold unexplored
    rw [ht.len, ht'.len, List.filter_filter]
    apply List.filter_congr
    intro x _
    rw [p5]
    by_cases h1 : actionVisits st.tree i x = 0
    · simp [h1]
    · simp [h1]
  have hnd : (unexplored st.tree i).Nodup := List.nodup_range.filter _
  by_cases hne : unexplored st.tree i = []
  · rw [hu, hne]; simp
  · have ha := q1 rfl hne
    constructor
    · have : (unexplored st'.tree i).length < (unexplored st.tree i).length := by
        rw [hu, List.length_filter_lt_length_iff_exists]
        exact ⟨a, ha, by simp⟩
      omega
    · intro hs
      have hinc := isPath_increasing ht' hs p1
      rw [List.map_cons, List.pairwise_cons] at hinc
      have hni : ∀ x, (i, x) ∉ p := fun x hm => by
        have := hinc.1 i (List.mem_map.2 ⟨_, hm, rfl⟩)
        omega
      rw [hu, ← List.length_erase_of_mem ha, hnd.erase_eq_filter]
      congr 1
      apply List.filter_congr
      intro x _
      rw [List.count_cons, List.count_eq_zero_of_not_mem (hni x)]
      by_cases e : x = a
      · simp [e]
      · simp [e, Ne.symm e]

theorem simulateMany_inv (S : Search σ β η) {b0 : β} (i : Nat) : ∀ (k : Nat) (st : SearchState σ β), TInv S b0 st.tree → i < st.tree.size →
    M.Post (simulateMany S i k) st (fun _ st' => TInv S b0 st'.tree ∧ Tree.Grows st.tree st'.tree)
      (fun _ st' => TInv S b0 st'.tree ∧ Tree.Grows st.tree st'.tree) := by
  intro k
  induction k with
  | zero => intro st ht _; exact M.post_pure.2 ⟨ht, .refl _⟩
  | succ k ih =>
      intro st ht hi
      unfold simulateMany
      refine M.post_bind (simulateFromNode_post i none st ht hi) (fun _ _ h => ⟨h.1, h.2.1⟩) ?_
      rintro _ s1 _ ⟨h1, h2⟩
      exact M.post_mono (ih s1 h1 (lt_of_lt_of_le hi h2.size)) (fun _ _ h => ⟨h.1, h2.trans h.2⟩) (fun _ _ h => ⟨h.1, h2.trans h.2⟩)

theorem simulateMany_unexplored (S : Search σ β η) (hq : QuietSim S.sim) (hh : S.hor.isReached S.horizon = false) {b0 : β} (i : Nat) :
    ∀ (k : Nat) (st st' : SearchState σ β), TInv S b0 st.tree → i < st.tree.size → simulateMany S i k st = (.ok (), st') →
    (unexplored st'.tree i).length ≤ (unexplored st.tree i).length - k ∧
    (S.shared = false → (unexplored st'.tree i).length = (unexplored st.tree i).length - k) := by
  intro k
  induction k with
  | zero => intro st st' _ _ h; cases h; simp
  | succ k ih =>
      intro st st' ht hi h
      obtain ⟨_, s1, h1, h2⟩ := M.bind_ok h
      obtain ⟨ht1, hg⟩ := (M.post_iff.1 (simulateFromNode_post i none st ht hi)).1 _ _ h1
      obtain ⟨a1, a2⟩ := unexplored_step S hq ht hi hh h1
      obtain ⟨b1, b2⟩ := ih s1 st' ht1 (lt_of_lt_of_le hi hg.size) h2
      refine ⟨by omega, fun hs => ?_⟩
      have := a2 hs
      have := b2 hs
      omega

/-- From any node, `k` simulations with a positive horizon leave `max (0, u - k)` of the `u` unexplored actions unexplored; if nodes
are shared, at most that number. -/
theorem C56_explores (S : Search σ β η) (hq : QuietSim S.sim) (hh : S.hor.isReached S.horizon = false) (b : β) (rng : σ)
    (ops : List TreeOp) (i k : Nat) (hi : i < (runTreeOps S (S.start b rng) ops).tree.size) (st' : SearchState σ β)
    (h : simulateMany S i k (runTreeOps S (S.start b rng) ops) = (.ok (), st')) :
    (unexplored st'.tree i).length ≤ (unexplored (runTreeOps S (S.start b rng) ops).tree i).length - k ∧
    (S.shared = false → (unexplored st'.tree i).length = (unexplored (runTreeOps S (S.start b rng) ops).tree i).length - k) := by
  obtain ⟨ht, _⟩ := runTreeOps_inv ops (S.start b rng) (TInv.init b)
  exact simulateMany_unexplored S hq hh i k _ st' ht hi h

/-! ### The invariant of a runner -/

theorem follow_grows {S : Search σ β η} {b0 : β} {t t' : Tree β} (ht : TInv S b0 t) (hg : Tree.Grows t t') : ∀ (h : List (Nat × Nat)) (i j : Nat),
    i < t.size → follow t i h = some j → follow t' i h = some j := by
  intro h
  induction h with
  | nil => intro i j _ h; exact h
  | cons ao h ih =>
      intro i j hi hf
      obtain ⟨a, o⟩ := ao
      obtain ⟨k, h1, h2⟩ := Option.bind_eq_some_iff.1 hf
      unfold follow
      rw [hg.next i a o k hi h1]
      exact ih k j (ht.range i a o k h1).1 h2

/-- The names of the pairs of a history. -/
def namesOf (sim : Sim σ β) (h : List (Nat × Nat)) : List (Option Name × Option Name) :=
  h.map fun ao => (sim.actions[ao.1]?, sim.observations[ao.2]?)

/-- The invariant of a runner, with what its caller knows. -/
structure RInv (S : Search σ β η) (b0 : β) (rs : SearchRunner σ β) (k : Known) : Prop where
  tree : TInv S b0 rs.search.tree
  node : rs.node < rs.search.tree.size
  follow : Spec.follow rs.search.tree 0 rs.history = some rs.node
  names : namesOf S.sim rs.history = k.history.map fun x => (some x.1, some x.2)
  last : ∀ a, rs.last = some a → a < S.sim.nActions
  known : k.last = rs.last.bind fun a => S.sim.actions[a]?

theorem RInv.grow {S : Search σ β η} {b0 : β} {rs : SearchRunner σ β} {k : Known} (h : RInv S b0 rs k) {s : SearchState σ β}
    (ht : TInv S b0 s.tree) (hg : Tree.Grows rs.search.tree s.tree) : RInv S b0 { rs with search := s } k :=
  ⟨ht, lt_of_lt_of_le h.node hg.size, follow_grows h.tree hg _ _ _ h.tree.pos h.follow, h.names, h.last, h.known⟩

theorem onSearch_post {α : Type} (m : M (SearchState σ β) α) (rs : SearchRunner σ β) {Q : α → SearchRunner σ β → Prop}
    {E : PyErr → SearchRunner σ β → Prop}
    (h : M.Post m rs.search (fun a s => Q a { rs with search := s }) (fun e s => E e { rs with search := s })) : M.Post (onSearch m) rs Q E := by
  unfold M.Post onSearch at *
  rcases hm : m rs.search with ⟨r, g⟩
  rw [hm] at h
  cases r <;> exact h

/-- `get_action`. -/
theorem getAction_post (S : Search σ β η) {b0 : β} (n : Nat) (rs : SearchRunner σ β) (k : Known) (h : RInv S b0 rs k) :
    M.Post (searchGetAction S n) rs
      (fun name rs' => RInv S b0 rs' { k with last := some name } ∧ rs'.history = rs.history ∧ rs'.node = rs.node ∧
        Tree.Grows rs.search.tree rs'.search.tree)
      (fun _ rs' => RInv S b0 rs' k ∧ rs'.history = rs.history ∧ rs'.node = rs.node ∧ rs'.last = rs.last ∧
        Tree.Grows rs.search.tree rs'.search.tree) := by
  unfold searchGetAction
  apply M.post_read_bind
  refine M.post_bind (Q1 := fun _ rs1 => ∃ s, rs1 = { rs with search := s } ∧ TInv S b0 s.tree ∧ Tree.Grows rs.search.tree s.tree)
    (E1 := fun _ rs1 => ∃ s, rs1 = { rs with search := s } ∧ TInv S b0 s.tree ∧ Tree.Grows rs.search.tree s.tree)
    (onSearch_post _ _ (M.post_mono (simulateMany_inv S rs.node n rs.search h.tree h.node) (fun _ s h => ⟨s, rfl, h⟩) (fun _ s h => ⟨s, rfl, h⟩))) ?_ ?_
  · rintro e _ ⟨s, rfl, h1, h2⟩
    exact ⟨h.grow h1 h2, rfl, rfl, rfl, h2⟩
  · rintro _ _ _ ⟨s, rfl, h1, h2⟩
    refine M.post_bind (Q1 := fun a rs1 => ∃ s', rs1 = { rs with search := s' } ∧ s'.tree = s.tree ∧ a < S.sim.nActions)
      (E1 := fun _ rs1 => ∃ s', rs1 = { rs with search := s' } ∧ s'.tree = s.tree)
      (onSearch_post _ _ (M.post_mono (getBest_post S.sim S.bonus 0 false rs.node s) (fun a s' h' => ⟨s', rfl, h'.1, by have := h'.2.1; rw [h1.len] at this; exact this⟩)
        (fun e s' h' => ⟨s', rfl, h'⟩))) ?_ ?_
    · rintro e _ ⟨s', rfl, h3⟩
      exact ⟨h.grow (by rw [h3]; exact h1) (by rw [h3]; exact h2), rfl, rfl, rfl, by rw [h3]; exact h2⟩
    · rintro a _ _ ⟨s', rfl, h3, h4⟩
      refine M.post_ok_bind (a := ()) (s1 := { rs with search := s', last := some a }) rfl ?_
      have hlt : a < S.sim.actions.length := h4
      rw [List.getElem?_eq_getElem hlt]
      refine (M.post_lift).2 ⟨fun name hn => ?_, fun e he => by cases he⟩
      cases hn
      have hg := h.grow (s := s') (by rw [h3]; exact h1) (by rw [h3]; exact h2)
      refine ⟨⟨hg.tree, hg.node, hg.follow, hg.names, ?_, ?_⟩, rfl, rfl, by rw [h3]; exact h2⟩
      · intro a' ha'; cases ha'; exact h4
      · show some _ = S.sim.actions[a]?
        rw [List.getElem?_eq_getElem hlt]

/-- `step`. -/
theorem step_post (S : Search σ β η) {b0 : β} (o : Name) (rs : SearchRunner σ β) (k : Known) (h : RInv S b0 rs k) :
    M.Post (searchStep S o) rs
      (fun _ rs' => ∃ a name, k.last = some name ∧ rs.last = some a ∧ RInv S b0 rs' { k with history := k.history ++ [(name, o)] } ∧
        rs'.last = rs.last ∧ rs'.history = rs.history ++ [(a, S.sim.observations.idxOf o)] ∧ Tree.Grows rs.search.tree rs'.search.tree)
      (fun e rs' => RInv S b0 rs' k ∧ rs'.history = rs.history ∧ rs'.node = rs.node ∧ rs'.last = rs.last ∧
        Tree.Grows rs.search.tree rs'.search.tree ∧ (rs.last = none → e = .valueError)) := by
  unfold searchStep
  apply M.post_read_bind
  rcases hl : rs.last with _ | a
  · refine M.post_bind (Q1 := fun _ _ => False) (E1 := fun e rs1 => e = .valueError ∧ rs1 = rs) ?_ ?_ (fun _ _ _ h => h.elim)
    · exact (M.post_lift).2 ⟨fun _ h => (by cases h), fun e he => (by cases he; exact ⟨rfl, rfl⟩)⟩
    · rintro e _ ⟨rfl, rfl⟩
      exact ⟨h, rfl, rfl, hl, .refl _, fun _ => rfl⟩
  · refine M.post_ok_bind (a := a) (s1 := rs) rfl ?_
    unfold searchMove
    unfold Sim.obsIndex
    have ha := h.last a hl
    by_cases ho : o ∈ S.sim.observations
    · rw [if_pos ho]
      refine M.post_ok_bind (a := S.sim.observations.idxOf o) (s1 := rs) rfl ?_
      apply M.post_read_bind
      refine M.post_bind (Q1 := fun j rs1 => ∃ s, rs1 = { rs with search := s } ∧ TInv S b0 s.tree ∧ Tree.Grows rs.search.tree s.tree ∧
          Spec.follow s.tree 0 (rs.history ++ [(a, S.sim.observations.idxOf o)]) = some j ∧ j < s.tree.size)
        (E1 := fun _ rs1 => ∃ s, rs1 = { rs with search := s } ∧ TInv S b0 s.tree ∧ Tree.Grows rs.search.tree s.tree)
        (onSearch_post _ _ (M.post_mono (getNode_post _ rs.search h.tree) (fun _ s h => ⟨s, rfl, h.1, h.2.1, h.2.2.2.1, h.2.2.2.2.1⟩) (fun _ s h => ⟨s, rfl, h.1, h.2.1⟩))) ?_ ?_
      · rintro e _ ⟨s, rfl, h1, h2⟩
        exact ⟨h.grow h1 h2, rfl, rfl, hl, h2, fun hc => by cases hc⟩
      · rintro j _ _ ⟨s, rfl, h1, h2, h3, h4⟩
        have hlt : a < S.sim.actions.length := ha
        have hk : k.last = some S.sim.actions[a] := by
          rw [h.known, hl]
          exact List.getElem?_eq_getElem hlt
        refine M.post_modify.2 ⟨a, S.sim.actions[a], hk, rfl, ⟨h1, h4, h3, ?_, ?_, ?_⟩, hl, rfl, h2⟩
        · show namesOf S.sim (rs.history ++ _) = _
          have h5 := h.names
          unfold namesOf at *
          rw [List.map_append, h5, List.map_append]
          congr 1
          simp only [List.map_cons, List.map_nil]
          rw [List.getElem?_eq_getElem hlt]
          have : S.sim.observations[S.sim.observations.idxOf o]? = some o := by
            rw [List.getElem?_eq_getElem (List.idxOf_lt_length_iff.2 ho)]
            simp
          rw [this]
        · intro a' ha'; exact h.last a' ha'
        · exact h.known
    · rw [if_neg ho]
      refine M.post_bind (Q1 := fun _ _ => False) (E1 := fun e rs1 => e = .valueError ∧ rs1 = rs) ?_ ?_ (fun _ _ _ h => h.elim)
      · exact (M.post_lift).2 ⟨fun _ h => (by cases h), fun e he => (by cases he; exact ⟨rfl, rfl⟩)⟩
      · rintro e _ ⟨rfl, rfl⟩
        exact ⟨h, rfl, rfl, hl, .refl _, fun _ => rfl⟩

theorem runRunnerOp_inv (S : Search σ β η) {b0 : β} (op : RunnerOp) (rs : SearchRunner σ β) (k : Known) (h : RInv S b0 rs k) :
    RInv S b0 (runRunnerOp S rs op).2 (k.after op (runRunnerOp S rs op).1) := by
  cases op with
  | getAction n =>
      have hp := M.post_iff.1 (getAction_post S n rs k h)
      rcases hr : searchGetAction S n rs with ⟨r, rs'⟩
      have h1 : runRunnerOp S rs (.getAction n) = (r.map some, rs') := by show (_, _) = _; rw [hr]
      rw [h1]
      cases r with
      | ok name => exact (hp.1 _ _ hr).1
      | error e => exact (hp.2 _ _ hr).1
  | step o =>
      have hp := M.post_iff.1 (step_post S o rs k h)
      rcases hr : searchStep S o rs with ⟨r, rs'⟩
      have h1 : runRunnerOp S rs (.step o) = (r.map fun _ => none, rs') := by show (_, _) = _; rw [hr]
      rw [h1]
      cases r with
      | ok u =>
          obtain ⟨a, name, e1, e2, e3, _⟩ := hp.1 _ _ hr
          unfold Known.after
          simp only [Except.map]
          rw [e1]
          simp only
          rw [e1] at e3
          exact e3
      | error e =>
          have := (hp.2 _ _ hr).1
          unfold Known.after
          simp only [Except.map]
          exact this
  | reset g =>
      cases g with
      | true => exact h
      | false => exact ⟨h.tree, h.tree.pos, rfl, rfl, fun a ha => (by cases ha), rfl⟩

theorem runRunnerOps_inv (S : Search σ β η) {b0 : β} (ops : List RunnerOp) : ∀ (rs : SearchRunner σ β) (k : Known), RInv S b0 rs k →
    RInv S b0 (runRunnerOps S rs k ops).1 (runRunnerOps S rs k ops).2 := by
  induction ops with
  | nil => intro rs k h; exact h
  | cons op ops ih =>
      intro rs k h
      exact ih _ _ (runRunnerOp_inv S op rs k h)

theorem runner_inv (S : Search σ β η) (b : β) (rng : σ) : RInv S b (S.runner b rng) ⟨none, []⟩ :=
  ⟨TInv.init b, (TInv.init (S := S) b).pos, rfl, rfl, fun a ha => (by cases ha), rfl⟩

/-! ### C56: the greedy choice -/

theorem greedy_value {bonus : Nat → Nat → ℚ} {t : Tree β} {i a : Nat} (hall : ∀ x < (t.nodes i).children.length, actionVisits t i x ≠ 0)
    (h : greedyAction bonus 0 false (t.nodes i) = .ok a) :
    (∀ x < (t.nodes i).children.length, actionValue t i x ≤ actionValue t i a) ∧ ∀ x < a, actionValue t i x < actionValue t i a := by
  have hlt := greedy_lt h
  have hget : ∀ x, x < (t.nodes i).children.length →
      ((augmentedValues bonus 0 false (t.nodes i)).map (·.getD 0))[x]? = some (actionValue t i x) := by
    intro x hx
    have hv := hall x hx
    unfold actionVisits Tree.anode at hv
    unfold actionValue Tree.anode augmentedValues
    rw [List.getElem?_eq_getElem hx] at *
    rcases hc : (t.nodes i).children[x] with _ | c
    · rw [hc] at hv; exact absurd rfl hv
    · simp only [List.map_map, List.getElem?_map, List.getElem?_eq_getElem hx, hc, Option.map_some, Function.comp, Option.join_some,
        Option.getD_some]
      simp
  unfold greedyAction at h
  split at h
  · obtain ⟨m, v, h1, h2, h3⟩ := argmax_spec ((augmentedValues bonus 0 false (t.nodes i)).map (·.getD 0))
      (by
        intro hc
        have := hget a hlt
        rw [hc] at this
        simp at this)
    rw [h1] at h
    cases h
    rw [hget a hlt] at h2
    cases h2
    exact ⟨fun x hx => (h3 x _ (hget x hx)).1, fun x hx => (h3 x _ (hget x (by omega))).2 hx⟩
  · cases h

/-- With at least as many iterations as there are actions, and a positive horizon, `get_action` returns an action with the largest
estimated value, the first such, and all the actions of the current node have been explored. -/
theorem C56_greedy (S : Search σ β η) (hq : QuietSim S.sim) (hh : S.hor.isReached S.horizon = false) (b : β) (rng : σ)
    (ops : List RunnerOp) (rs rs' : SearchRunner σ β) (hrs : rs = (runRunnerOps S (S.runner b rng) ⟨none, []⟩ ops).1) (k : Nat)
    (hk : S.sim.nActions ≤ k) (name : Name) (h : searchGetAction S k rs = (.ok name, rs')) :
    ∃ a < S.sim.nActions, rs'.last = some a ∧ S.sim.actions[a]? = some name ∧
      (∀ x < S.sim.nActions, 0 < actionVisits rs'.search.tree rs.node x ∧
        actionValue rs'.search.tree rs.node x ≤ actionValue rs'.search.tree rs.node a) ∧
      ∀ x < a, actionValue rs'.search.tree rs.node x < actionValue rs'.search.tree rs.node a := by
  have hinv := runRunnerOps_inv S ops (S.runner b rng) ⟨none, []⟩ (runner_inv S b rng)
  rw [← hrs] at hinv
  unfold searchGetAction at h
  obtain ⟨i, s0, h0, h⟩ := M.bind_ok h
  cases h0
  obtain ⟨u, rs1, h1, h⟩ := M.bind_ok h
  obtain ⟨a, rs2, h2, h⟩ := M.bind_ok h
  obtain ⟨_, rs3, h3, h⟩ := M.bind_ok h
  cases h3
  have hs1 : simulateMany S rs.node k rs.search = (.ok (), rs1.search) ∧ rs1 = { rs with search := rs1.search } := by
    unfold onSearch at h1
    rcases hm : simulateMany S rs.node k rs.search with ⟨r, s⟩
    rw [hm] at h1
    cases h1
    exact ⟨rfl, rfl⟩
  obtain ⟨hm, hrs1⟩ := hs1
  have hs2 : getBestAction S.sim S.bonus 0 false rs.node rs1.search = (.ok a, rs2.search) := by
    unfold onSearch at h2
    rcases hm' : getBestAction S.sim S.bonus 0 false rs.node rs1.search with ⟨r, s⟩
    rw [hm'] at h2
    cases h2
    rfl
  obtain ⟨ht1, hg1⟩ := (M.post_iff.1 (simulateMany_inv S rs.node k rs.search hinv.tree hinv.node)).1 _ _ hm
  obtain ⟨e1, _⟩ := simulateMany_unexplored S hq hh rs.node k _ _ hinv.tree hinv.node hm
  have hle : (unexplored rs.search.tree rs.node).length ≤ S.sim.nActions := by
    refine le_trans (List.length_filter_le _ _) ?_
    simp [hinv.tree.len]
  have hemp : unexplored rs1.search.tree rs.node = [] := List.length_eq_zero_iff.1 (by omega)
  obtain ⟨g1, g2, _, g4⟩ := (M.post_iff.1 (getBest_post S.sim S.bonus 0 false rs.node rs1.search)).1 _ _ hs2
  have hg := g4 (by rw [← unexplored_eq]; exact hemp)
  have hall : ∀ x < (rs1.search.tree.nodes rs.node).children.length, actionVisits rs1.search.tree rs.node x ≠ 0 := by
    intro x hx h0
    have : x ∈ unexplored rs1.search.tree rs.node := List.mem_filter.2 ⟨List.mem_range.2 hx, by simp [h0]⟩
    rw [hemp] at this
    cases this
  obtain ⟨v1, v2⟩ := greedy_value hall hg
  rw [ht1.len] at v1 g2 hall
  have hlt : a < S.sim.actions.length := g2
  have hrs' : rs' = { rs2 with last := some a } ∧ S.sim.actions[a]? = some name := by
    rw [List.getElem?_eq_getElem hlt] at h ⊢
    cases h
    exact ⟨rfl, rfl⟩
  obtain ⟨rfl, hname⟩ := hrs'
  refine ⟨a, g2, rfl, hname, fun x hx => ?_, fun x hx => ?_⟩
  · show 0 < actionVisits rs2.search.tree _ _ ∧ actionValue rs2.search.tree _ _ ≤ actionValue rs2.search.tree _ _
    rw [g1]
    exact ⟨Nat.pos_of_ne_zero (hall x hx), v1 x hx⟩
  · show actionValue rs2.search.tree _ _ < actionValue rs2.search.tree _ _
    rw [g1]
    exact v2 x hx

/-! ### C57: the runner -/

/-- After any calls, the history of the runner is the list of the actions returned and of the observations given since the last
reset, as its caller knows them, and the current node is the one reached from the root by this history. -/
theorem C57_history (S : Search σ β η) (b : β) (rng : σ) (ops : List RunnerOp) (rs : SearchRunner σ β) (k : Known)
    (h : (rs, k) = runRunnerOps S (S.runner b rng) ⟨none, []⟩ ops) :
    (rs.history.map fun ao => (S.sim.actions[ao.1]?, S.sim.observations[ao.2]?)) = (k.history.map fun x => (some x.1, some x.2)) ∧
    k.last = (rs.last.bind fun a => S.sim.actions[a]?) ∧ rs.node < rs.search.tree.size ∧
    follow rs.search.tree 0 rs.history = some rs.node := by
  have hinv := runRunnerOps_inv S ops (S.runner b rng) ⟨none, []⟩ (runner_inv S b rng)
  rw [← h] at hinv
  exact ⟨hinv.names, hinv.known, hinv.node, hinv.follow⟩

/-- With exact beliefs, the belief of the runner is the posterior of the history. -/
theorem C57_belief {p : Pomdp} {nS nA nO : Nat} {u : Nat → ℚ} {c : Nat → Nat} (hp : Stochastic p nS nA nO) (S : Search Nat (List ℚ) η)
    (hS : S.sim = exactSim p u c) (b : List ℚ) (hb : IsDist nS b) (rng : Nat) (ops : List RunnerOp) (rs : SearchRunner Nat (List ℚ)) (k : Known)
    (h : (rs, k) = runRunnerOps S (S.runner b rng) ⟨none, []⟩ ops) :
    updates p b rs.history = .ok (rs.search.tree.nodes rs.node).belief ∧ 0 < histProb p nS b rs.history ∧
    ∀ s < nS, (rs.search.tree.nodes rs.node).belief.getD s 0 = endProb p nS b rs.history s / histProb p nS b rs.history := by
  have hinv := runRunnerOps_inv S ops (S.runner b rng) ⟨none, []⟩ (runner_inv S b rng)
  rw [← h] at hinv
  have hu := follow_updates hS hinv.tree rs.history 0 rs.node hinv.follow
  rw [hinv.tree.root] at hu
  have hr := updates_range hp.1 rs.history _ _ hu
  obtain ⟨h1, h2⟩ := C38_posterior p nS nA nO hp rs.history hr b hb
  have hne : histProb p nS b rs.history ≠ 0 := fun h0 => by rw [h1 h0] at hu; cases hu
  obtain ⟨h3, b', h4, h5, h6⟩ := h2 hne
  rw [hu] at h4
  cases h4
  exact ⟨hu, h3, h6⟩

/-- `step` before any action has been returned raises `ValueError` and changes nothing; a `step` that raises leaves the history, the
current node, its belief and the last action unchanged; `get_action` leaves the history, the node and its belief unchanged. -/
theorem C57_errors (S : Search σ β η) (b : β) (rng : σ) (ops : List RunnerOp) (rs : SearchRunner σ β) (k : Known)
    (h : (rs, k) = runRunnerOps S (S.runner b rng) ⟨none, []⟩ ops) :
    (rs.last = none ↔ k.last = none) ∧ (∀ o, rs.last = none → searchStep S o rs = (.error .valueError, rs)) ∧
    (∀ o e rs', searchStep S o rs = (.error e, rs') → rs'.history = rs.history ∧ rs'.node = rs.node ∧ rs'.last = rs.last ∧
      (rs'.search.tree.nodes rs'.node).belief = (rs.search.tree.nodes rs.node).belief) ∧
    (∀ n r rs', searchGetAction S n rs = (r, rs') → rs'.history = rs.history ∧ rs'.node = rs.node ∧
      (rs'.search.tree.nodes rs'.node).belief = (rs.search.tree.nodes rs.node).belief) := by
  have hinv := runRunnerOps_inv S ops (S.runner b rng) ⟨none, []⟩ (runner_inv S b rng)
  rw [← h] at hinv
  refine ⟨?_, ?_, ?_, ?_⟩
  · have hk : k.last = rs.last.bind fun a => S.sim.actions[a]? := hinv.known
    rcases hl : rs.last with _ | a
    · simp [hk, hl]
    · have := hinv.last a hl
      simp only [hk, hl, Option.bind_some, reduceCtorEq, false_iff]
      rw [List.getElem?_eq_getElem (show a < S.sim.actions.length from this)]
      simp
  · intro o hl
    unfold searchStep
    rw [M.bind_run]
    show (M.lift (match rs.last with | none => Except.error PyErr.valueError | some a => Except.ok a) >>= _) rs = _
    rw [hl]
    rfl
  · intro o e rs' hr
    obtain ⟨_, h1, h2, h3, h4, _⟩ := (M.post_iff.1 (step_post S o rs k hinv)).2 _ _ hr
    exact ⟨h1, h2, h3, by rw [h2]; exact h4.belief _ hinv.node⟩
  · intro n r rs' hr
    cases r with
    | ok name =>
        obtain ⟨_, h1, h2, h4⟩ := (M.post_iff.1 (getAction_post S n rs k hinv)).1 _ _ hr
        exact ⟨h1, h2, by rw [h2]; exact h4.belief _ hinv.node⟩
    | error e =>
        obtain ⟨_, h1, h2, _, h4⟩ := (M.post_iff.1 (getAction_post S n rs k hinv)).2 _ _ hr
        exact ⟨h1, h2, by rw [h2]; exact h4.belief _ hinv.node⟩

/-- `reset` with a belief raises `NotImplementedError`; without, it goes back to the root and keeps the tree. -/
theorem C57_reset (rs : SearchRunner σ β) :
    searchReset true rs = (.error .notImplementedError, rs) ∧
    searchReset false rs = (.ok (), ⟨rs.search, [], 0, none⟩) := ⟨rfl, rfl⟩

/-- Calls of a runner: the first and the third are refused. -/
def loopOps : List RunnerOp :=
  [.step (.str "o"), .getAction 2, .step (.str "x"), .step (.str "o"), .getAction 1, .step (.str "o")]

/-- The runner of the one-state model after these calls. -/
def loopRun : SearchRunner Nat (List ℚ) × Known := runRunnerOps (loopSearch false 3) ((loopSearch false 3).runner [1] 0) ⟨none, []⟩ loopOps

example : loopRun.1.history = [(0, 0), (0, 0)] ∧ loopRun.1.node = 2 ∧ loopRun.2.last = some (.str "a") ∧
    loopRun.2.history = [(.str "a", .str "o"), (.str "a", .str "o")] := by decide +kernel

example : (loopSearch false 3).hor.isReached (loopSearch false 3).horizon = false ∧ (loopSearch false 3).sim.nActions ≤ 2 ∧
    (searchGetAction (loopSearch false 3) 2 loopRun.1).1 = .ok (.str "a") := by decide +kernel

example : (unexplored ((loopSearch false 3).runner [1] 0).search.tree 0).length = 1 ∧
    (simulateMany (loopSearch false 3) 0 1 ((loopSearch false 3).runner [1] 0).search).1 = .ok () := by decide +kernel

end
end Verif
