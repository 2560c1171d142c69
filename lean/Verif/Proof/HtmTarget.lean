import Verif.Proof.HtmHorizon
import Verif.Proof.Settles

/-! The evaluations of a search with a horizon of completed subtasks. -/

set_option linter.unusedSectionVars false
set_option linter.unusedSimpArgs false

namespace Verif
open Spec SupState SupPomdp

theorem sup_rolloutsEnd {t : Htm SupAction} {m : SupPomdp} (hc : Constructed t m) (discount : ℚ) (np : Nat) (d : Nat → Nat → Draws)
    {c : Nat → Nat → Nat} (hw : WaitsForever c m.nActions) : RolloutsEnd (supSim m discount np d c) (nHtm m) (fun s => s < m.nStates) := by
  intro s h gamma full g hs
  obtain ⟨B, hB⟩ := waits_forever hw h.n.toNat g
  obtain ⟨x, g', hx⟩ := rollout_ends hc discount np d c B s h gamma full g hs (by omega)
  refine ⟨B, fun B' hB' => ?_, ?_⟩
  · show rolloutLoop _ _ B' _ _ _ _ g = rolloutLoop _ _ B _ _ _ _ g
    rw [hx B' hB', hx B (le_refl _)]
  · exact (M.post_of_ok (hx B (le_refl _))).2 trivial

/-- The warm-up ends, and so does every evaluation. -/
theorem htmTarget_settles {t : Htm SupAction} {m : SupPomdp} (ht : Constructed t m) (hp : m.par.pPreferences.length ≤ m.par.nPreferences)
    (W : ExpWorld) (c : PomcpConfig) (hn : 0 < c.nParticles) (hit : 0 < c.rolloutIt) (hwf : WaitsForever W.choices m.nActions)
    (warmup maxHorizon : Int) :
    (∃ B0, ∀ B ≥ B0, searchTarget (W.withBound B) m c (expSearch (W.withBound B) m c (nHtm m) ⟨c.length⟩) warmup maxHorizon =
      .error .runtimeError) ∨
    ∃ (targets : Nat → Nat → Py Episode) (B0 : Nat),
      (∀ B ≥ B0, searchTarget (W.withBound B) m c (expSearch (W.withBound B) m c (nHtm m) ⟨c.length⟩) warmup maxHorizon = .ok (targets B)) ∧
      ∀ seed, ∃ r, Eventually (fun B => targets B seed) r ∧
        ((∃ ep, r = .ok ep) ∨ r = .error .maxSamplesReached ∨ r = .error .runtimeError) := by
  set S := expSearch W m c (nHtm m) ⟨c.length⟩ with hSd
  have hS : S.sim = supSim m 1 c.nParticles.toNat W.sim W.choices := rfl
  have hSB : ∀ B, expSearch (W.withBound B) m c (nHtm m) ⟨c.length⟩ = S.withBound B := fun B => rfl
  have hlen : m.actions.length = m.nActions := (C27_names ht).1
  have hsafe : SafeSim S.sim (ParticlesOk m.nStates c.nParticles.toNat) (fun _ s => s < m.nStates) (fun s => s < m.nStates) := by
    rw [hS]
    refine particlesOver_safe (by simp [SupPomdp.actions]) (by omega) ?_ ?_
    · intro k j a s ha hs
      obtain ⟨s', o, r, h1, h2, _⟩ := C25_transition ht (W.sim k j) a s true hs (by rw [← hlen]; simpa using ha)
      exact ⟨_, h1, h2⟩
    · intro k j a s x hx
      by_contra hc
      rw [C25_unknownAction ht (W.sim k j) a s true (by rw [← hlen]; simpa using hc)] at hx
      cases hx
  have hnA : S.sim.nActions = m.nActions := by rw [hS, ← hlen]; exact List.length_map ..
  have hstart : ∀ k, ∃ s, (startSampler W m k).1 = .ok s ∧ s < m.nStates := by
    intro k
    obtain ⟨s, h1, h2, _⟩ := C25_start ht hp (W.starts k).1 (W.starts k).2.1 (W.starts k).2.2
    exact ⟨s, h1, h2⟩
  obtain ⟨b, rng, e1, e2, e3⟩ := mkParticles_total (startSampler W m) (fun s => s < m.nStates) hstart (fun _ => 0) c.nParticles.toNat 0
  have h0 : ParticlesOk m.nStates c.nParticles.toNat b := ⟨e2, e3⟩
  have hit' : 0 < S.rolloutIt := by show 0 < c.rolloutIt.toNat; omega
  have hr : RolloutsEnd S.sim S.hor (fun s => s < m.nStates) := sup_rolloutsEnd ht 1 _ _ hwf
  obtain ⟨B0, f1, hpost⟩ := searchGetAction_settles hsafe hr hit' h0 warmup.toNat (S.runner b rng) ⟨none, []⟩ (runner_inv S b rng)
  have hT : ∀ B ≥ B0, searchTarget (W.withBound B) m c (expSearch (W.withBound B) m c (nHtm m) ⟨c.length⟩) warmup maxHorizon =
      match searchGetAction (S.withBound B0) warmup.toNat (S.runner b rng) with
      | (.error e, _) => .error e
      | (.ok _, st) => .ok (searchEvaluation (W.withBound B) m (S.withBound B) c.iterations.toNat maxHorizon st) := by
    intro B hB
    have e1' : mkParticles (startSampler (W.withBound B) m) (fun _ => 0) c.nParticles.toNat 0 = (.ok b, rng) := e1
    unfold searchTarget
    rw [e1', hSB]
    have := f1 B hB
    simp only at this ⊢
    show (match searchGetAction (S.withBound B) warmup.toNat (S.runner b rng) with
      | (.error e, _) => Except.error e
      | (.ok _, st) => Except.ok (searchEvaluation (W.withBound B) m (S.withBound B) c.iterations.toNat maxHorizon st)) = _
    rw [this]
  unfold M.Post at hpost
  rcases hst : searchGetAction (S.withBound B0) warmup.toNat (S.runner b rng) with ⟨r, st⟩
  simp only [hst] at hpost hT
  cases r with
  | error e =>
      simp only at hpost hT
      subst hpost
      exact .inl ⟨B0, hT⟩
  | ok name =>
      simp only at hpost hT
      obtain ⟨a, hinv, -⟩ := hpost
      refine .inr ⟨fun B => searchEvaluation (W.withBound B) m (S.withBound B) c.iterations.toNat maxHorizon st, B0, hT, fun seed => ?_⟩
      obtain ⟨B1, g1, hev⟩ := evaluation_settles hsafe hr hit' h0
        (by
          rw [hS]
          exact (C27_names ht).2.map (fun a b h => by cases h; rfl))
        (by rw [hS]; show supObservations.Nodup; decide)
        (by
          intro a s g x g' ha hs hx
          have ha' : a < m.nActions := by rw [← hnA]; exact ha
          rw [hS] at hx
          obtain ⟨s', o, r, h1, h2, h3⟩ := C25_transition ht (W.sim g 0) a s true hs ha'
          have hx' : m.sampleTransition (W.sim g 0) a s = .ok x := congrArg Prod.fst hx
          rw [h1] at hx'
          cases hx'
          refine ⟨by rw [hS]; exact h3, ha, fun b hb g2 e g3 he => ?_⟩
          rw [← hS] at hx
          exact hsafe.noRaise b s a _ g g' hb hs ha hx g2 e g3 he)
        m.isFinal W.calls (startSampler W m)
        (by
          intro g
          obtain ⟨s, h1, h2⟩ := hstart g
          exact ⟨s, g + 1, by rw [← h1]; rfl, h2⟩)
        c.iterations.toNat maxHorizon true _ _ (hinv.reseed seed)
      refine ⟨searchEvaluation (W.withBound B1) m (S.withBound B1) c.iterations.toNat maxHorizon st seed, ⟨B1, fun B' hB' => ?_⟩, ?_⟩
      · exact congrArg Prod.fst (g1 B' hB')
      · have hev' := M.post_iff.1 hev
        rcases hx : simulateOneEvaluation (searchModel S.sim m.isFinal W.calls (startSampler W m)) (searchPolicy (S.withBound B1) c.iterations.toNat)
            maxHorizon true B1 (reseed seed st) with ⟨r, st'⟩
        have hx' : searchEvaluation (W.withBound B1) m (S.withBound B1) c.iterations.toNat maxHorizon st seed = r := congrArg Prod.fst hx
        rw [hx']
        cases r with
        | ok ep => exact .inl ⟨ep, rfl⟩
        | error e =>
            rcases hev'.2 _ _ hx with rfl | rfl
            · exact .inr (.inl rfl)
            · exact .inr (.inr rfl)

/-! ### The pool of processes only uses the results of the workers -/

theorem pool_congr {R : Type} {res res' : Nat → R} {seed : Nat → Nat} : ∀ (es : List PoolEvent) (p : Pool R),
    (∀ w, .put w ∈ es → res (seed w) = res' (seed w)) → p.run res seed es = p.run res' seed es := by
  intro es
  induction es with
  | nil => intro p _; rfl
  | cons e es ih =>
      intro p h
      have h1 : p.step res seed e = p.step res' seed e := by
        cases e with
        | put w => simp only [Pool.step, h w List.mem_cons_self]
        | _ => rfl
      show (p.step res seed e).run res seed es = (p.step res' seed e).run res' seed es
      rw [h1]
      exact ih _ fun w hw => h w (List.mem_cons_of_mem _ hw)

/-- The worker of an event. -/
def eventWorker : PoolEvent → Nat
  | .put w => w
  | .fail w _ => w
  | _ => 0

theorem workerEvent_congr {target target' : Nat → Py Episode} {seeds : Nat → Nat} {e : PoolEvent}
    (h : target (seeds (eventWorker e)) = target' (seeds (eventWorker e))) : workerEvent target seeds e = workerEvent target' seeds e := by
  cases e <;> simp_all [workerEvent, eventWorker]

theorem evaluateAll_congr {W W' : ExpWorld} (h1 : W.cpus = W'.cpus) (h2 : W.events = W'.events) (h3 : W.seeds = W'.seeds)
    {target target' : Nat → Py Episode} {n : Int}
    (h : ∀ e ∈ W.events, target (W.seeds (eventWorker e)) = target' (W.seeds (eventWorker e))) :
    evaluateAll W target n = evaluateAll W' target' n := by
  unfold evaluateAll
  rw [← h1, ← h2, ← h3, List.filter_congr (q := workerEvent target' W.seeds) fun e he => workerEvent_congr (h e he),
    pool_congr (res := fun seed => episodeOr (target seed)) (res' := fun seed => episodeOr (target' seed)) _ _ fun w hw => by
      simp only [show target (W.seeds w) = target' (W.seeds w) from h _ (List.mem_filter.1 hw).1]]

theorem eventually_list {α ι : Type} {f : Nat → ι → α} {g : ι → α} : ∀ (l : List ι), (∀ i, Eventually (fun B => f B i) (g i)) →
    ∃ B0, ∀ B ≥ B0, ∀ i ∈ l, f B i = g i := by
  intro l h
  induction l with
  | nil => exact ⟨0, by simp⟩
  | cons i l ih =>
      obtain ⟨B1, h1⟩ := ih
      obtain ⟨B2, h2⟩ := h i
      refine ⟨max B1 B2, fun B hB j hj => ?_⟩
      rcases List.mem_cons.1 hj with rfl | hj
      · exact h2 B (by omega)
      · exact h1 B (by omega) j hj

end Verif
