import Verif.Proof.HtmTarget

/-! C84: the searches with a horizon of completed subtasks end with probability one (`lib/pomcp.py:110-134`,
`supportive.py:527-548`, `evaluation.py:145-187`, `samples/supportive_evaluation_pomcp.py`). -/

set_option linter.unusedSectionVars false
set_option linter.unusedSimpArgs false

namespace Verif
open Spec SupState SupPomdp

/-! ### Rollouts -/

/-- **C84 (rollouts).**  On every supportive model, a rollout with a horizon of `h.n` completed subtasks returns as soon as the action
`wait` is drawn `h.n` times, whatever the states, the other actions and the other random numbers; what it returns does not depend on how
many more steps it might do. -/
theorem C84_rollout {t : Htm SupAction} {m : SupPomdp} (hc : Constructed t m) (discount : ℚ) (np : Nat) (d : Nat → Nat → Draws)
    (c : Nat → Nat → Nat) (B s : Nat) (h : NHtmHorizon) (gamma full : ℚ) (g : Nat) (hs : s < m.nStates)
    (hw : h.n ≤ waits c m.nActions g B) :
    ∃ x g', ∀ B' ≥ B, rolloutLoop (supSim m discount np d c) (nHtm m) B' s h gamma full g = (.ok x, g') :=
  rollout_ends hc discount np d c B s h gamma full g hs hw

/-- **C84 (probability).**  The actions of a rollout are drawn uniformly among the actions of the model.  For every `ε` there are steps
enough, such that at most a share `ε` of the sequences of actions lets the rollout not return within these steps, whatever the state where
it begins and the other random numbers.  So a rollout ends with probability one. -/
theorem C84_probability {t : Htm SupAction} {m : SupPomdp} (hc : Constructed t m) (h : NHtmHorizon) (ε : ℚ) (hε : 0 < ε) :
    ∃ B0, ∀ B ≥ B0, ∃ bad : Finset (Fin B → Fin m.nActions), (bad.card : ℚ) ≤ ε * (m.nActions : ℚ) ^ B ∧
      ∀ f, f ∉ bad → ∀ (discount : ℚ) (np : Nat) (d : Nat → Nat → Draws) (c : Nat → Nat → Nat) (s : Nat) (gamma full : ℚ) (g : Nat),
        s < m.nStates → Drawn c g f → ∃ x g', rolloutLoop (supSim m discount np d c) (nHtm m) B s h gamma full g = (.ok x, g') := by
  obtain ⟨nA, hnA⟩ : ∃ nA, m.nActions = nA + 1 := ⟨m.nActions - 1, by unfold nActions; omega⟩
  obtain ⟨k0, hk⟩ := few_rare nA h.n.toNat ε hε
  refine ⟨k0, fun B hB => ⟨fewWaits m.nActions h.n.toNat B, ?_, ?_⟩⟩
  · rw [hnA]
    exact hk B hB
  · intro f hf discount np d c s gamma full g hs hd
    have e := waits_drawn g f hd
    have hle : h.n.toNat ≤ waits c m.nActions g B := by
      simp only [fewWaits, Finset.mem_filter, Finset.mem_univ, true_and, not_lt] at hf
      rw [e]
      exact hf
    obtain ⟨x, g', hx⟩ := rollout_ends hc discount np d c B s h gamma full g hs (by omega)
    exact ⟨x, g', hx B (le_refl _)⟩

/-! ### Experiments -/

/-- What happens in the run of an experiment with a search, when the loops may be as long as they need: results `P`, or `RuntimeError`
because the warm-up raises `RecursionError`, or because one of the `n` evaluations raises `MaxSamplesReached` or `RecursionError`. -/
def SearchEnds (cls : ExpClass) (W : ExpWorld) (p : Params) (m : SupPomdp) (c : PomcpConfig) (n : Nat) (run : Nat → Py ExpResults)
    (P : ExpResults → Prop) : Prop :=
  ∃ r, Eventually run r ∧
    (RunEnds r P ∨
     (r = .error .runtimeError ∧
      (Eventually (fun B => (ExpPolicy.pomcp c).target (W.withBound B) m cls.maxHorizon p) (.error .runtimeError) ∨
       ∃ (targets : Nat → Nat → Py Episode) (B0 : Nat),
        (∀ B ≥ B0, (ExpPolicy.pomcp c).target (W.withBound B) m cls.maxHorizon p = .ok (targets B)) ∧
        ∃ i < n, Eventually (fun B => targets B (W.seeds i)) (.error .maxSamplesReached) ∨
          Eventually (fun B => targets B (W.seeds i)) (.error .runtimeError))))

/-- **C84 (evaluations).**  A search with a horizon of completed subtasks on any supportive model, with at least one particle and one
rollout, when the action `wait` does not stop to be drawn: the warm-up ends, with an action or with `RecursionError`, and then every
evaluation ends, with an episode, `MaxSamplesReached` or `RecursionError`. -/
theorem C84_evaluation {t : Htm SupAction} {m : SupPomdp} (h : Constructed t m) (hp : m.par.pPreferences.length ≤ m.par.nPreferences)
    (W : ExpWorld) (p : Params) (c : PomcpConfig) (hh : c.htm = true) (hn : 0 < c.nParticles) (hit : 0 < c.rolloutIt)
    (hwf : WaitsForever W.choices m.nActions) {k : Int} (hw : dget p "n_warmup" = some (.num k)) (maxHorizon : Int) :
    Eventually (fun B => (ExpPolicy.pomcp c).target (W.withBound B) m maxHorizon p) (.error .runtimeError) ∨
    ∃ (targets : Nat → Nat → Py Episode) (B0 : Nat),
      (∀ B ≥ B0, (ExpPolicy.pomcp c).target (W.withBound B) m maxHorizon p = .ok (targets B)) ∧
      ∀ seed, ∃ r, Eventually (fun B => targets B seed) r ∧
        ((∃ ep, r = .ok ep) ∨ r = .error .maxSamplesReached ∨ r = .error .runtimeError) := by
  have ht : ∀ B, (ExpPolicy.pomcp c).target (W.withBound B) m maxHorizon p =
      searchTarget (W.withBound B) m c (expSearch (W.withBound B) m c (nHtm m) ⟨c.length⟩) k maxHorizon := by
    intro B
    show (do
      let warmup ← (← p.read "n_warmup").asInt
      if c.htm then searchTarget (W.withBound B) m c (expSearch (W.withBound B) m c (nHtm m) ⟨c.length⟩) warmup maxHorizon
      else searchTarget (W.withBound B) m c (expSearch (W.withBound B) m c (finishedOrN m.isFinal) ⟨c.length, false⟩) warmup maxHorizon) = _
    simp only [read_some hw, asInt_int, hh, bind, Except.bind]
    rfl
  unfold Eventually
  simp only [ht]
  exact htmTarget_settles h hp W c hn hit hwf k maxHorizon

/-- **C84 (runs).**  The run of an experiment with such a search: as long as no process is killed it returns one episode for each
evaluation that is asked, or raises `RuntimeError` because the warm-up or one of the evaluations raises `RecursionError`, or one of the
evaluations `MaxSamplesReached`. -/
theorem C84_run {cls : ExpClass} {W : ExpWorld} {p : Params} {debug : Bool} {t : Htm SupAction} {m : SupPomdp} {c : PomcpConfig}
    (h : Constructed t m) (hp : m.par.pPreferences.length ≤ m.par.nPreferences)
    (hinit : ∀ B, cls.initRun (W.withBound B) (debugged p debug) = .ok (m, .pomcp c)) (hh : c.htm = true) (hn : 0 < c.nParticles)
    (hit : 0 < c.rolloutIt) (hwf : WaitsForever W.choices m.nActions) (hk : NoKill W.events)
    {k : Int} (hw : dget (debugged p debug) "n_warmup" = some (.num k)) {n : Int}
    (he : dget (debugged p debug) "n_evaluations" = some (.num n)) :
    SearchEnds cls W (debugged p debug) m c n.toNat (fun B => cls.run (W.withBound B) p debug)
      (fun r => r.parameters = debugged p debug ∧ r.evaluations.length = n.toNat) := by
  have hrun : ∀ B, cls.run (W.withBound B) p debug = (do
      let target ← (ExpPolicy.pomcp c).target (W.withBound B) m cls.maxHorizon (debugged p debug)
      let evaluations ← evaluateAll (W.withBound B) target n
      pure ⟨debugged p debug, evaluations⟩) := by
    intro B
    unfold ExpClass.run
    simp only [hinit, read_some he, asInt_int, bind, Except.bind]
  rcases C84_evaluation h hp W (debugged p debug) c hh hn hit hwf hw cls.maxHorizon with hE | ⟨targets, B0, h1, h2⟩
  · refine ⟨.error .runtimeError, ?_, .inr ⟨rfl, .inl hE⟩⟩
    obtain ⟨B, hB⟩ := hE
    refine ⟨B, fun B' hB' => ?_⟩
    show cls.run (W.withBound B') p debug = _
    have hB := hB B' hB'
    simp only at hB
    rw [hrun, hB]
    rfl
  · choose lim hl1 hl2 using h2
    obtain ⟨B1, hB1⟩ := eventually_list (f := fun B e => targets B (W.seeds (eventWorker e))) (g := fun e => lim (W.seeds (eventWorker e))) W.events
      (fun e => hl1 _)
    have key : Eventually (fun B => cls.run (W.withBound B) p debug) (do
        let evaluations ← evaluateAll W lim n
        pure ⟨debugged p debug, evaluations⟩) := by
      refine ⟨max B0 B1, fun B hB => ?_⟩
      show cls.run (W.withBound B) p debug = _
      rw [hrun, h1 B (by omega)]
      show (do let evaluations ← evaluateAll (W.withBound B) (targets B) n; _) = _
      rw [evaluateAll_congr (W := W.withBound B) (W' := W) rfl rfl rfl (target := targets B) (target' := lim) fun e he => hB1 B (by omega) e he]
    refine ⟨_, key, ?_⟩
    rcases evaluateAll_cases W lim n hk with hc | ⟨rs, hc, hperm, hall⟩ | ⟨hc, w, hwn, hf⟩
    · left; left
      rw [hc]
      rfl
    · left; right
      refine ⟨⟨debugged p debug, rs⟩, by rw [hc]; rfl, rfl, ?_⟩
      show rs.length = _
      rw [hperm.length_eq]
      simp
    · right
      refine ⟨by rw [hc]; rfl, .inr ⟨targets, B0, h1, w, hwn, ?_⟩⟩
      rcases hl2 (W.seeds w) with ⟨ep, e⟩ | e | e
      · rw [e] at hf; cases hf
      · exact .inl (e ▸ hl1 (W.seeds w))
      · exact .inr (e ▸ hl1 (W.seeds w))

/-- **C84 (the pomcp launcher).**  The jobs of the pomcp launcher with a horizon of completed subtasks, which `C82_pomcp_partial` does not
cover: each runs its 20 evaluations, and may fail only because of `MaxSamplesReached` or `RecursionError`. -/
theorem C84_jobs (W : ExpWorld) (huniq : ∀ l x, x ∈ W.uniq l ↔ x ∈ l) (hlim : 3 ≤ W.limit) (hk : NoKill W.events)
    (hwf : ∀ nA, 0 < nA → WaitsForever W.choices nA) (l : Nat) (hl : l ∈ horizonHtm) (s : Bool) :
    ∃ p m c, (horizonName "htm" l (if s then "s" else "ns"), p) ∈ pomcpExps ∧
      pomcpJob.initRun W (pomcpJob.parameters (some p)) = .ok (m, .pomcp c) ∧ c.htm = true ∧ c.length = l ∧
      SearchEnds pomcpJob W (pomcpJob.parameters (some p)) m c 20
        (fun B => runJob pomcpJob (W.withBound B) pomcpExps (horizonName "htm" l (if s then "s" else "ns")))
        (fun r => r.parameters = pomcpJob.parameters (some p) ∧ r.evaluations.length = 20) := by
  have hm : (horizonName "htm" l (if s then "s" else "ns"),
      [("horizon-type", ParamValue.str "htm"), ("horizon-length", .num (l : ℚ)), ("intermediate-rewards", .bool s)]) ∈ pomcpExps := by
    simp only [pomcpExps, List.mem_append, List.mem_flatMap, List.mem_map]
    exact .inl ⟨("htm", l), .inr ⟨l, hl, rfl⟩, s, by cases s <;> simp, rfl⟩
  obtain ⟨m, h1, h2, h3, h4⟩ := C81_pomcpJob (W := W) huniq hlim (q := 3 / 10) (c := 1 / 100) (ir := .bool s)
    (p := pomcpJob.parameters (some [("horizon-type", ParamValue.str "htm"), ("horizon-length", .num (l : ℚ)),
      ("intermediate-rewards", .bool s)])) (by rfl) (by rfl) (.inr ⟨by rfl, rfl⟩)
  obtain ⟨c, g1, g2, g3, g4, g5, g6, g7, g8, g9⟩ := C81_config (p := pomcpJob.parameters (some [("horizon-type", ParamValue.str "htm"),
      ("horizon-length", .num (l : ℚ)), ("intermediate-rewards", .bool s)])) (it := 1000) (ro := 1) (le := l) (np := 150)
      (ex := 50) (rel := .bool false) (bv := .bool false) (by rfl) (by rfl) (by rfl) (by rfl) (by rfl) (by rfl) (by rfl) (by rfl)
  have hi : pomcpJob.initRun W (pomcpJob.parameters (some [("horizon-type", ParamValue.str "htm"), ("horizon-length", .num (l : ℚ)),
      ("intermediate-rewards", .bool s)])) = .ok (m, .pomcp c) := by rw [h4, g1]; rfl
  refine ⟨_, m, c, hm, hi, g4.2 rfl, g5, ?_⟩
  have e : (fun B => runJob pomcpJob (W.withBound B) pomcpExps (horizonName "htm" l (if s then "s" else "ns"))) =
      fun B => pomcpJob.run (W.withBound B) (pomcpJob.parameters (some [("horizon-type", ParamValue.str "htm"), ("horizon-length", .num (l : ℚ)),
        ("intermediate-rewards", .bool s)])) false := funext fun B => runJob_eq pomcp_nodup hm
  rw [e]
  exact C84_run (debug := false) (n := 20) (k := 2000) h1 (by rw [h3]; simp [pomcpExpected]) (fun B => hi) (g4.2 rfl) (by rw [g9]; decide)
    (by rw [g3]; decide) (hwf _ (by unfold nActions; omega)) hk (by rfl) (by rfl)

/-! ### The hypotheses are met -/

/-- `demoWorld` always draws `wait`. -/
example : (∀ nA, 0 < nA → WaitsForever demoWorld.choices nA) ∧ (∀ l x, x ∈ demoWorld.uniq l ↔ x ∈ l) ∧ 3 ≤ demoWorld.limit ∧
    NoKill demoWorld.events ∧ 4 ∈ horizonHtm :=
  ⟨fun _ _ g => ⟨0, by simp [demoWorld]⟩, fun _ _ => Iff.rfl, by decide, demoWorld_noKill, by decide⟩

/-- Numbers that do not stop to be `0`, but are not always `0`, and a sequence of actions with one `wait` in three steps. -/
example : ∃ c : Nat → Nat → Nat, WaitsForever c 9 ∧ (∀ g, ∃ i, c (g + 2 * i) 0 % 9 ≠ 0) ∧ waits c 9 0 3 = 1 ∧
    Drawn c 0 (fun i : Fin 3 => if i = 0 then (0 : Fin 9) else if i = 1 then 1 else 2) :=
  ⟨fun g _ => g / 2 % 9, fun g => ⟨9 - g / 2 % 9, by show (g + 2 * (9 - g / 2 % 9)) / 2 % 9 % 9 = 0; omega⟩,
    fun g => ⟨10 - g / 2 % 9, by show (g + 2 * (10 - g / 2 % 9)) / 2 % 9 % 9 ≠ 0; omega⟩, by decide, by
      unfold Drawn
      decide⟩

/-- A model with nine actions, and states. -/
example : ∃ (t : Htm SupAction) (m : SupPomdp), Constructed t m ∧ m.nActions = 9 ∧ m.par.pPreferences.length ≤ m.par.nPreferences ∧
    0 < m.nStates := by
  obtain ⟨h1, h2, h3, h4, h5⟩ := exSup_ok
  obtain ⟨m, hm, _⟩ := (C70_accepts exSup h1 h2 {} (fun l => l) (fun _ _ => Iff.rfl) 3 h5).1 ⟨h3, h4⟩
  have hk : (mkSupPomdp {} (fun l => l) 3 exSup).toOption.map
      (fun m => decide (m.nActions = 9 ∧ m.par.pPreferences.length ≤ m.par.nPreferences ∧ 0 < m.nStates)) = some true := by decide +kernel
  rw [hm] at hk
  simp only [Except.toOption, Option.map_some, Option.some.injEq, decide_eq_true_eq] at hk
  exact ⟨exSup, m, ⟨h1, h2, {}, fun l => l, 3, fun _ _ => Iff.rfl, h5, hm⟩, hk⟩

end Verif
