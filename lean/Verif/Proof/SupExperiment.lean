import Verif.Spec.SupExperiment
import Verif.Props.ClosedLoop
import Verif.Props.Experiment
import Verif.Props.RepeatPool

/-! Proofs about the experiments (C81). -/

set_option linter.unusedSectionVars false
set_option linter.unusedSimpArgs false

namespace Verif
open Spec SupPomdp

/-! ### Parameters -/

theorem dget_update (e d : Params) (hn : (e.map Prod.fst).Nodup) (k : String) : dget (d.update e) k = (dget e k).or (dget d k) := by
  unfold Params.update
  induction e generalizing d with
  | nil => simp
  | cons kv e ih =>
      obtain ⟨k0, v⟩ := kv
      simp only [List.map_cons, List.nodup_cons] at hn
      rw [List.foldl_cons, ih _ hn.2, dget_dset]
      by_cases h : k0 = k
      · subst h
        have : dget e k0 = none := dget_eq_none.2 hn.1
        simp [dget, this]
      · simp [dget, h]

theorem read_some {p : Params} {k : String} {v : ParamValue} (h : dget p k = some v) : p.read k = .ok v := by
  unfold Params.read; rw [h]

theorem asInt_int (z : Int) : (ParamValue.num (z : ℚ)).asInt = .ok z := by simp [ParamValue.asInt]

/-! ### The pool -/

/-- The exit codes tell whether the evaluations raise. -/
def Honest (target : Nat → Py Episode) (seeds : Nat → Nat) (p : Pool Episode) : Prop :=
  ∀ (w : Nat) (st : WorkerState), p.procs[w]? = some st → match st with
    | .running => True
    | .pushed => (target (seeds w)).isOk = true
    | .exited code put => (code = 0 ∧ put = true ∧ (target (seeds w)).isOk = true) ∨ (0 < code ∧ put = false ∧ (target (seeds w)).isOk = false)

theorem parent_procs {R : Type} (p : Pool R) : p.parent.procs = p.procs ∨ p.parent.procs = p.procs ++ [.running] := by
  unfold Pool.parent
  split
  · split <;> exact .inl rfl
  · unfold Pool.cleanSlot
    split
    · exact .inl rfl
    · exact .inl rfl
    · split
      · split <;> exact .inl rfl
      · exact .inl rfl
  · unfold Pool.fillSlot
    split
    · exact .inl rfl
    · exact .inl rfl
    · split
      · exact .inr rfl
      · exact .inl rfl
  · unfold Pool.getOne
    split <;> exact .inl rfl
  · next k _ =>
      cases k with
      | zero => exact .inl rfl
      | succ k =>
          unfold Pool.collectOne
          simp only
          split <;> exact .inl rfl
  · exact .inl rfl

theorem honest_step {target : Nat → Py Episode} {seeds : Nat → Nat} {res : Nat → Episode} {p : Pool Episode} (e : PoolEvent)
    (he : workerEvent target seeds e = true) (hk : ∀ w s, e ≠ .kill w s) (h : Honest target seeds p) :
    Honest target seeds (p.step res seeds e) := by
  intro w st hw
  cases e with
  | kill v s => exact absurd rfl (hk v s)
  | parent =>
      rcases parent_procs p with hp | hp
      · rw [show (p.step res seeds .parent).procs = p.procs from hp] at hw
        exact h w st hw
      · rw [show (p.step res seeds .parent).procs = p.procs ++ [.running] from hp] at hw
        by_cases hlt : w < p.procs.length
        · rw [List.getElem?_append_left hlt] at hw
          exact h w st hw
        · rw [List.getElem?_append_right (by omega)] at hw
          rcases hx : w - p.procs.length with _ | k <;> rw [hx] at hw <;> simp at hw
          subst hw
          trivial
  | put v =>
      unfold Pool.step at hw
      simp only at hw
      split at hw
      · simp only [List.getElem?_set] at hw
        split at hw
        · next hv =>
            split at hw
            · cases hw; subst hv; exact he
            · cases hw
        · exact h w st hw
      · exact h w st hw
  | exit v =>
      unfold Pool.step at hw
      simp only at hw
      split at hw
      · next hr =>
          simp only [List.getElem?_set] at hw
          split at hw
          · next hv =>
              split at hw
              · cases hw; subst hv
                exact .inl ⟨rfl, rfl, h _ _ hr⟩
              · cases hw
          · exact h w st hw
      · exact h w st hw
  | fail v c =>
      unfold Pool.step at hw
      simp only at hw
      split at hw
      · simp only [List.getElem?_set] at hw
        split at hw
        · next hv =>
            split at hw
            · cases hw; subst hv
              refine .inr ⟨by omega, rfl, ?_⟩
              simpa [workerEvent] using he
            · cases hw
        · exact h w st hw
      · exact h w st hw

theorem honest_run {target : Nat → Py Episode} {seeds : Nat → Nat} {res : Nat → Episode} : ∀ (es : List PoolEvent) (p : Pool Episode),
    (∀ e ∈ es, workerEvent target seeds e = true) → NoKill es → Honest target seeds p → Honest target seeds (p.run res seeds es) := by
  intro es
  induction es with
  | nil => intro p _ _ h; exact h
  | cons e es ih =>
      intro p he hk h
      exact ih _ (fun x hx => he x (List.mem_cons_of_mem _ hx)) (fun x hx => hk x (List.mem_cons_of_mem _ hx))
        (honest_step e (he e List.mem_cons_self) (hk e List.mem_cons_self) h)

/-- The evaluations: all their results, or the failure of one of them. -/
theorem evaluateAll_cases (W : ExpWorld) (target : Nat → Py Episode) (n : Int) (hk : NoKill W.events) :
    evaluateAll W target n = .error .unfinished ∨
    (∃ rs, evaluateAll W target n = .ok rs ∧ rs.Perm ((List.range n.toNat).map fun w => episodeOr (target (W.seeds w))) ∧
      ∀ w < n.toNat, (target (W.seeds w)).isOk = true) ∨
    (evaluateAll W target n = .error .runtimeError ∧ ∃ w < n.toNat, (target (W.seeds w)).isOk = false) := by
  have hh := honest_run (target := target) (seeds := W.seeds) (res := fun seed => episodeOr (target seed))
    (W.events.filter (workerEvent target W.seeds)) (poolStart W.cpus n.toNat) (fun e he => (List.mem_filter.1 he).2)
    (fun e he => hk e (List.mem_filter.1 he).1) (fun w st h => by simp [poolStart] at h)
  unfold evaluateAll
  split
  · next r hr =>
      cases r with
      | ok rs =>
          obtain ⟨h1, h2, h3⟩ := C61_returns _ _ _ _ _ _ rfl rs hr
          refine .inr (.inl ⟨rs, rfl, h1, fun w hw => ?_⟩)
          obtain ⟨code, g1, g2⟩ := h3 w hw
          rcases hh w _ g1 with ⟨_, _, g⟩ | ⟨g, _⟩
          · exact g
          · omega
      | error e =>
          refine .inr (.inr ?_)
          have hle : ∀ w st, ((poolStart W.cpus n.toNat).run (fun seed => episodeOr (target seed)) W.seeds
              (W.events.filter (workerEvent target W.seeds))).procs[w]? = some st → w < n.toNat := by
            intro w st hw
            have h1 := (pool_inv (fun seed => episodeOr (target seed)) W.seeds W.cpus n.toNat
              (W.events.filter (workerEvent target W.seeds))).started
            have h2 := (List.getElem?_eq_some_iff.1 hw).1
            omega
          rcases C61_raises _ _ _ _ _ _ rfl e hr with ⟨rfl, w, code, put, g1, g2⟩ | ⟨_, _, _, w, code, g1, g2⟩
          · refine ⟨rfl, w, hle w _ g1, ?_⟩
            rcases hh w _ g1 with ⟨g, _⟩ | ⟨_, _, g⟩
            · omega
            · exact g
          · rcases hh w _ g1 with ⟨g, _⟩ | ⟨g, _⟩ <;> omega
  · exact .inl rfl

/-! ### The models -/

theorem mk_withParams (f : SupParams → SupParams) (par : SupParams) (uniq : List Nat → List Nat) (limit : Nat) (t : Htm SupAction) :
    (do let m ← mkSupPomdp par uniq limit t; pure (withParams f m)) = mkSupPomdp (f par) uniq limit t := by
  unfold mkSupPomdp withParams
  cases htmToDag SupAction.ops uniq limit t with
  | error e => rfl
  | ok h2d =>
      show (do let m ← (do let c ← populateConditions h2d.2.nodes ([], []); _); _) = _
      cases h : populateConditions h2d.2.nodes ([], []) with
      | error e => simp [h, bind, Except.bind]
      | ok c => simp [h, bind, Except.bind, pure, Except.pure]

theorem mk_default {f : SupParams → SupParams} {uniq : List Nat → List Nat} {limit : Nat} {t : Htm SupAction} {m : SupPomdp}
    (h : mkSupPomdp (f {}) uniq limit t = .ok m) : ∃ m0, mkSupPomdp {} uniq limit t = .ok m0 ∧ withParams f m0 = m ∧ m0.par = {} := by
  have e := mk_withParams f {} uniq limit t
  rw [h] at e
  cases h0 : mkSupPomdp {} uniq limit t with
  | error x => rw [h0] at e; cases e
  | ok m0 =>
      rw [h0] at e
      refine ⟨m0, rfl, Except.ok.inj e, ?_⟩
      unfold mkSupPomdp at h0
      cases h1 : htmToDag SupAction.ops uniq limit t with
      | error e => rw [h1] at h0; cases h0
      | ok h2d =>
          rw [h1] at h0
          simp only [bind, Except.bind] at h0
          cases h2 : populateConditions h2d.2.nodes ([], []) with
          | error e => rw [h2] at h0; cases h0
          | ok c =>
              rw [h2] at h0
              simp only [pure, Except.pure, Except.ok.injEq] at h0
              rw [← h0]

/-! ### The scripted policies -/

/-- The warm-up of a scripted policy does not raise. -/
theorem warmup_ok {t : Htm SupAction} {m : SupPomdp} (h : Constructed t m) (tools : NeedsTools m) {x : SeqPolicy × SeqState} {L : Nat}
    {nexts : List String} (hx : ScriptedPolicy m.seqModel x L nexts) (c : Nat) : ∃ a st, x.1.getAction c x.2 = (.ok a, st) := by
  obtain ⟨h1, h2, h3⟩ := C62_supportive h tools.1 tools.2
  have ok : SeqOk m.seqModel := ⟨h1, h2⟩
  have hv : "hold V" ∈ m.seqModel.actions := by simp [seqModel, SupPomdp.actions]
  have hH : "hold H" ∈ m.seqModel.actions := ok.names _ (by decide)
  have hp := scripted_holdPol ok hv hx (by simp [seqModel, nHtmStates])
  obtain ⟨s, e, inv, -⟩ := mkSeqPolicy_ok ok L
  have hs : x.2 = s := by
    rcases hx with ⟨g1, -⟩ | ⟨g1, -⟩
    · rw [e] at g1; cases g1; rfl
    · unfold mkAltPolicy at g1
      have e1 : strIndex m.seqModel.actions ("hold " ++ "H") = .ok (m.seqModel.ix "hold H") := by
        rw [show "hold " ++ "H" = "hold H" from rfl, strIndex, if_pos hH]; rfl
      have e2 : strIndex m.seqModel.actions ("hold " ++ "V") = .ok (m.seqModel.ix "hold V") := by
        rw [show "hold " ++ "V" = "hold V" from rfl, strIndex, if_pos hv]; rfl
      rw [e1, e2, e] at g1
      simp only [bind, Except.bind, pure, Except.pure, Except.ok.injEq] at g1
      subst g1
      rfl
  obtain ⟨name, -, g⟩ := holdGetAction_run ok hp c (hs ▸ inv)
  exact ⟨_, _, g⟩

/-- The run of an experiment with a policy whose evaluations never raise. -/
theorem run_scripted {cls : ExpClass} {W : ExpWorld} {p : Params} {debug : Bool} {t : Htm SupAction} {m : SupPomdp}
    {x : SeqPolicy × SeqState} {L : Nat} {nexts : List String} (h : Constructed t m) (tools : NeedsTools m)
    (hx : ScriptedPolicy m.seqModel x L nexts) (hinit : cls.initRun W (debugged p debug) = .ok (m, .scripted x)) {v : ParamValue}
    (hw : dget (debugged p debug) "n_warmup" = some v) {n : Int} (hn : dget (debugged p debug) "n_evaluations" = some (.num n))
    (hk : NoKill W.events) (P : LoopDraws → Episode → Prop)
    (hP : ∀ w st, ∃ ep st', simulateOneEvaluation (loopModel m 1 w) (loopPolicy x.1 w) cls.maxHorizon true W.bound st = (.ok ep, st') ∧
      P w ep) :
    RunEnds (cls.run W p debug) fun r => r.parameters = debugged p debug ∧
      ∃ eps : Nat → Episode, (∀ i, P (W.draws (W.seeds i)) (eps i)) ∧ r.evaluations.Perm ((List.range n.toNat).map eps) := by
  obtain ⟨a, st, ha⟩ := warmup_ok h tools hx W.warm
  obtain ⟨target, ht, hok⟩ : ∃ target, (ExpPolicy.scripted x).target W m cls.maxHorizon (debugged p debug) = .ok target ∧
      ∀ seed, ∃ ep, target seed = .ok ep ∧ P (W.draws seed) ep := by
    refine ⟨fun seed =>
      (simulateOneEvaluation (loopModel m 1 (W.draws seed)) (loopPolicy x.1 (W.draws seed)) cls.maxHorizon true W.bound ⟨st, 0, 0⟩).1, ?_, ?_⟩
    · show (do let _ ← (debugged p debug).read "n_warmup"; scriptedTarget W m x cls.maxHorizon) = _
      rw [read_some hw]
      show scriptedTarget W m x cls.maxHorizon = _
      unfold scriptedTarget
      rw [ha]
    · intro seed
      obtain ⟨ep, st', h1, h2⟩ := hP (W.draws seed) ⟨st, 0, 0⟩
      exact ⟨ep, by show (simulateOneEvaluation _ _ _ _ _ _).1 = _; rw [h1], h2⟩
  have hrun : cls.run W p debug = (do
      let evaluations ← evaluateAll W target n
      pure ⟨debugged p debug, evaluations⟩) := by
    unfold ExpClass.run
    simp only [hinit, ht, read_some hn, asInt_int, bind, Except.bind]
  rw [hrun]
  rcases evaluateAll_cases W target n hk with hc | ⟨rs, hc, hperm, -⟩ | ⟨-, w, -, hf⟩
  · left
    rw [hc]
    rfl
  · right
    refine ⟨⟨debugged p debug, rs⟩, by rw [hc]; rfl, rfl, _, fun i => ?_, hperm⟩
    obtain ⟨ep, h1, h2⟩ := hok (W.seeds i)
    rw [h1]
    exact h2
  · obtain ⟨ep, h1, h2⟩ := hok (W.seeds w)
    rw [h1] at hf
    cases hf

/-! ### The search policy -/

theorem mkParticles_total {α σ : Type} (f : σ → Py α × σ) (Q : α → Prop) (hf : ∀ k, ∃ x, (f k).1 = .ok x ∧ Q x) (c : Nat → Nat) (n : Nat)
    (st : σ) : ∃ b st', mkParticles f c n st = (.ok b, st') ∧ b.length = n ∧ ∀ x ∈ b, Q x := by
  have key : ∀ (n : Nat) (st : σ), ∃ b st', fillParticles f n st = (b, none, st') ∧ b.length = n ∧ ∀ x ∈ b, Q x := by
    intro n
    induction n with
    | zero => intro st; exact ⟨[], st, rfl, rfl, by simp⟩
    | succ n ih =>
        intro st
        obtain ⟨x, h1, h2⟩ := hf st
        rcases hs : f st with ⟨r, st1⟩
        rw [hs] at h1
        simp only at h1
        subst h1
        obtain ⟨b, st', g1, g2, g3⟩ := ih st1
        refine ⟨x :: b, st', by simp only [fillParticles, hs, g1], by simp [g2], ?_⟩
        intro y hy
        rcases List.mem_cons.1 hy with rfl | hy
        · exact h2
        · exact g3 y hy
  obtain ⟨b, st', h1, h2, h3⟩ := key n st
  exact ⟨b, st', by simp only [mkParticles, h1], h2, h3⟩

theorem RInv.reseed {η : Type} {S : Search Nat (List Nat) η} {b0 : List Nat} {rs : SearchRunner Nat (List Nat)} {k : Known} (h : RInv S b0 rs k)
    (seed : Nat) : RInv S b0 (reseed seed rs) k := ⟨h.tree, h.node, h.follow, h.names, h.last, h.known⟩

/-- The construction and the warm-up do not raise, and an evaluation raises at most `MaxSamplesReached`. -/
theorem searchTarget_safe {t : Htm SupAction} {m : SupPomdp} (ht : Constructed t m) (hp : m.par.pPreferences.length ≤ m.par.nPreferences)
    (W : ExpWorld) (c : PomcpConfig) (hn : 0 < c.nParticles) (hit : 0 < c.rolloutIt) (hf : c.length.toNat < W.fuel)
    (hb : c.length.toNat ≤ W.bound) (warmup maxHorizon : Int) (hbd : maxHorizon.toNat ≤ W.bound) :
    ∃ target, searchTarget W m c (expSearch W m c (finishedOrN m.isFinal) ⟨c.length, false⟩) warmup maxHorizon = .ok target ∧
      ∀ seed, (∃ ep, target seed = .ok ep) ∨ target seed = .error .maxSamplesReached := by
  set S := expSearch W m c (finishedOrN m.isFinal) ⟨c.length, false⟩ with hSd
  have hS : S.sim = supSim m 1 c.nParticles.toNat W.sim W.choices := rfl
  have hlen : m.actions.length = m.nActions := (C27_names ht).1
  have hsafe : SafeSim S.sim (ParticlesOk m.nStates c.nParticles.toNat) (fun _ s => s < m.nStates) (fun s => s < m.nStates) := by
    rw [hS]
    refine particlesOver_safe (by simp [SupPomdp.actions]) (by omega) ?_ ?_
    · intro k j a s ha hs
      obtain ⟨s', o, r, h1, h2, _⟩ := C25_transition ht (W.sim k j) a s true hs (by rw [← hlen]; simpa using ha)
      exact ⟨_, h1, h2⟩
    · intro k j a s x hx
      by_contra hc
      rw [C25_unknownAction ht (W.sim k j) a s true (by rw [← hlen]; simpa using hc)] at hx
      cases hx
  have hnA : S.sim.nActions = m.nActions := by rw [hS, ← hlen]; exact List.length_map ..
  have hstart : ∀ k, ∃ s, (startSampler W m k).1 = .ok s ∧ s < m.nStates := by
    intro k
    obtain ⟨s, h1, h2, _⟩ := C25_start ht hp (W.starts k).1 (W.starts k).2.1 (W.starts k).2.2
    exact ⟨s, h1, h2⟩
  obtain ⟨b, rng, e1, e2, e3⟩ := mkParticles_total (startSampler W m) (fun s => s < m.nStates) hstart (fun _ => 0) c.nParticles.toNat 0
  have h0 : ParticlesOk m.nStates c.nParticles.toNat b := ⟨e2, e3⟩
  have hit' : 0 < S.rolloutIt := by show 0 < c.rolloutIt.toNat; omega
  have hpost := searchGetAction_safe (m := fun h : FinHorizon => h.n.toNat) hsafe (finishedOrN_bounded _) hit' h0 hf hb warmup.toNat
    (S.runner b rng) ⟨none, []⟩ (runner_inv S b rng)
  unfold searchTarget
  rw [e1]
  simp only
  unfold M.Post at hpost
  split at hpost
  · rename_i name st hst
    rw [hst]
    obtain ⟨a, hinv, -⟩ := hpost
    refine ⟨_, rfl, fun seed => ?_⟩
    have hev := evaluation_safe (m := fun h : FinHorizon => h.n.toNat) hsafe (finishedOrN_bounded _) hit' h0 hf hb
      (by
        rw [hS]
        exact (C27_names ht).2.map (fun a b h => by cases h; rfl))
      (by rw [hS]; show supObservations.Nodup; decide)
      (by
        intro a s g x g' ha hs hx
        have ha' : a < m.nActions := by rw [← hnA]; exact ha
        rw [hS] at hx
        obtain ⟨s', o, r, h1, h2, h3⟩ := C25_transition ht (W.sim g 0) a s true hs ha'
        have hx' : m.sampleTransition (W.sim g 0) a s = .ok x := congrArg Prod.fst hx
        rw [h1] at hx'
        cases hx'
        refine ⟨by rw [hS]; exact h3, ha, fun b hb g2 e g3 he => ?_⟩
        rw [← hS] at hx
        exact hsafe.noRaise b s a _ g g' hb hs ha hx g2 e g3 he)
      m.isFinal W.calls (startSampler W m)
      (by
        intro g
        obtain ⟨s, h1, h2⟩ := hstart g
        exact ⟨s, g + 1, by rw [← h1]; rfl, h2⟩)
      c.iterations.toNat maxHorizon true W.bound hbd _ _ (hinv.reseed seed)
    unfold M.Post at hev
    unfold searchEvaluation
    split at hev
    · rename_i ep s' he
      exact .inl ⟨ep, by rw [he]⟩
    · rename_i e s' he
      refine .inr ?_
      rw [he, hev]
  · exact hpost.elim

end Verif
