import Verif.Proof.SupExperiment

set_option linter.unusedSectionVars false
set_option linter.unusedSimpArgs false

/-!
# C81: the experiments
-/

namespace Verif
open Spec SupPomdp

theorem firstOf_cons (d : Option Params) (ds : List (Option Params)) (k : String) :
    firstOf (d :: ds) k = (d.bind fun d => dget d k).or (firstOf ds k) := by
  simp only [firstOf, List.findSome?]
  cases d.bind fun d => dget d k <;> rfl

theorem firstOf_nil (k : String) : firstOf [] k = none := rfl

/-- **C81 (parameters).**  During a run, the value of a parameter is the one of the debug mode if the run is in debug mode and sets it,
otherwise the one that was given, otherwise the default one of the class; in particular no default parameter is ever missing. -/
theorem C81_parameters (cls : ExpClass) (given : Option Params) (hn : ∀ g, given = some g → (g.map Prod.fst).Nodup) (debug : Bool)
    (k : String) :
    dget (debugged (cls.parameters given) debug) k =
      firstOf [if debug then some debugParameters else none, given, some cls.defaults] k ∧
    (k ∈ cls.defaults.map Prod.fst → ∃ v, (debugged (cls.parameters given) debug).read k = .ok v) := by
  have h1 : dget (cls.parameters given) k = firstOf [given, some cls.defaults] k := by
    cases given with
    | none => simp [ExpClass.parameters, firstOf_cons, firstOf_nil]
    | some g => simp [ExpClass.parameters, dget_update g cls.defaults (hn g rfl), firstOf_cons, firstOf_nil]
  have h2 : dget (debugged (cls.parameters given) debug) k =
      firstOf [if debug then some debugParameters else none, given, some cls.defaults] k := by
    cases debug with
    | false => simpa [debugged, firstOf_cons] using h1
    | true =>
        simp only [debugged, if_true]
        rw [dget_update debugParameters _ (by decide), h1, firstOf_cons (some debugParameters)]
        rfl
  refine ⟨h2, fun hk => ?_⟩
  have : dget (debugged (cls.parameters given) debug) k ≠ none := by
    rw [h2]
    have h3 : dget cls.defaults k ≠ none := fun e => (dget_eq_none.1 e) hk
    intro e
    simp only [firstOf, List.findSome?_eq_none_iff] at e
    exact h3 (e (some cls.defaults) (by simp))
  cases hv : dget (debugged (cls.parameters given) debug) k with
  | none => exact absurd hv this
  | some v => exact ⟨v, read_some hv⟩

/-- **C81 (arguments).**  A path without a name raises `TypeError` before anything is run; otherwise the results are those of the run,
and they are written in the file that has this name in this path, if a path is given. -/
theorem C81_arguments (cls : ExpClass) (W : ExpWorld) (config : Option Params) (path name : Option String) (debug : Bool) :
    (path ≠ none → name = none → cls.runFromArguments W config path name debug = .error .typeError) ∧
    (∀ e, (path = none ∨ name ≠ none) → cls.run W (cls.parameters config) debug = .error e →
      cls.runFromArguments W config path name debug = .error e) ∧
    (∀ r, cls.run W (cls.parameters config) debug = .ok r →
      (path = none → cls.runFromArguments W config path name debug = .ok (r, none)) ∧
      (∀ d n, path = some d → name = some n → cls.runFromArguments W config path name debug = .ok (r, some (d, n ++ ".json")))) := by
  refine ⟨?_, ?_, ?_⟩
  · intro h1 h2
    subst h2
    cases path with
    | none => exact absurd rfl h1
    | some d => rfl
  · intro e h1 h2
    unfold ExpClass.runFromArguments
    cases path with
    | none => simp only [h2, bind, Except.bind]
    | some d =>
        cases name with
        | none => simp at h1
        | some n => simp only [h2, bind, Except.bind]
  · intro r h
    unfold ExpClass.runFromArguments
    refine ⟨?_, ?_⟩
    · rintro rfl
      simp only [h, bind, Except.bind]
      rfl
    · rintro d n rfl rfl
      simp only [h, bind, Except.bind]
      rfl

/-! ### The multitask job -/

/-- The model of a known task. -/
theorem askedTask_model {W : ExpWorld} (huniq : ∀ l x, x ∈ W.uniq l ↔ x ∈ l) (hlim : 3 ≤ W.limit) {p : Params} {t : Htm SupAction} {N : Nat}
    {sq : Bool} (h : AskedTask p t N sq) :
    ∃ m0 m, multitaskTask p = .ok (N, t) ∧ mkSupPomdp {} W.uniq W.limit t = .ok m0 ∧
      (∃ v, p.read "task" = .ok v ∧ withParams (multitaskParams (decide (v = .str "sequence"))) m0 = m) ∧ Constructed t m ∧ NeedsTools m ∧
      m.par = multitaskExpected sq ∧ WordLength t N ∧ (sq = true → m.nodes.length = N) ∧ (sq = false → N < m.nodes.length) := by
  have hpar : ∀ sq, multitaskParams sq {} = multitaskExpected sq := by
    intro sq; cases sq <;> rfl
  rcases h with ⟨h1, h2, h3, rfl, rfl⟩ | ⟨h1, rfl, rfl, rfl⟩ | ⟨h1, rfl, rfl, rfl⟩
  · obtain ⟨m, g1, g2, g3, g4, g5⟩ := long_ok h3 (multitaskParams true {}) W.uniq huniq W.limit (by omega)
    obtain ⟨m0, k1, k2, -⟩ := mk_default g1
    refine ⟨m0, m, ?_, k1, ⟨_, read_some h1, k2⟩, g2, g3, by rw [g5, hpar], long_wordLength N, fun _ => g4, fun h => by cases h⟩
    have := asInt_int N
    simp only [Int.cast_natCast] at this
    simp only [multitaskTask, read_some h1, read_some h2, bind, Except.bind, if_true, this]
    rfl
  · obtain ⟨m, g1, g2, g3, g4, g5⟩ := choice_ok (holdWords 4) (N := 4) (by decide) (by decide) (by decide) (multitaskParams false {}) W.uniq huniq
      W.limit hlim
    obtain ⟨m0, k1, k2, -⟩ := mk_default g1
    refine ⟨m0, m, ?_, k1, ⟨_, read_some h1, k2⟩, g2, g3, by rw [g5, hpar], choice_wordLength _ (by decide), (fun h => by cases h), fun _ => ?_⟩
    · simp only [multitaskTask, read_some h1, bind, Except.bind]
      rfl
    · rw [g4]; decide
  · obtain ⟨m, g1, g2, g3, g4, g5⟩ := choice_ok alternativeWords (N := 4) (by decide) (by decide) (by decide) (multitaskParams false {}) W.uniq huniq
      W.limit hlim
    obtain ⟨m0, k1, k2, -⟩ := mk_default g1
    refine ⟨m0, m, ?_, k1, ⟨_, read_some h1, k2⟩, g2, g3, by rw [g5, hpar], choice_wordLength _ (by decide), (fun h => by cases h), fun _ => ?_⟩
    · simp only [multitaskTask, read_some h1, bind, Except.bind]
      rfl
    · rw [g4]; decide

/-- **C81 (the multitask job).**  For a known task, `init_run` makes the model of this task with the parameters of the experiment, and
then the policy that is asked: `repeat` performs as many subtasks as there are leaves in the task, `random` as many as there are in a
sequence.  Another policy raises `NotImplementedError`. -/
theorem C81_multitask {W : ExpWorld} (huniq : ∀ l x, x ∈ W.uniq l ↔ x ∈ l) (hlim : 3 ≤ W.limit) {p : Params} {t : Htm SupAction} {N : Nat}
    {sq : Bool} (h : AskedTask p t N sq) {v : ParamValue} (hv : dget p "policy" = some v) :
    ∃ m, Constructed t m ∧ m.par = multitaskExpected sq ∧
      (v = .str "repeat" → ∃ x, multitaskJob.initRun W p = .ok (m, .scripted x) ∧ mkSeqPolicy m.seqModel = .ok x) ∧
      (v = .str "random" → ∃ x, multitaskJob.initRun W p = .ok (m, .scripted x) ∧ mkAltPolicy m.seqModel N = .ok x) ∧
      (v = .str "pomcp" → multitaskJob.initRun W p = (pomcpConfig p).map fun c => (m, .pomcp c)) ∧
      (v ∉ [.str "pomcp", .str "repeat", .str "random"] → multitaskJob.initRun W p = .error .notImplementedError) := by
  obtain ⟨m0, m, h1, h2, ⟨w, h3, h4⟩, h5, h6, h7, -⟩ := askedTask_model huniq hlim h
  obtain ⟨⟨y, hy, -⟩, ⟨x, hx, -⟩⟩ := scripted_exist h5 h6 N
  have hinit : multitaskJob.initRun W p = (do let pol ← multitaskPolicy p m N; pure (m, pol)) := by
    show multitaskInit W p = _
    simp only [multitaskInit, h1, h2, h3, h4, bind, Except.bind]
  refine ⟨m, h5, h7, ?_, ?_, ?_, ?_⟩
  · rintro rfl
    refine ⟨y, ?_, hy⟩
    rw [hinit]
    simp only [multitaskPolicy, read_some hv, hy, bind, Except.bind]
    rfl
  · rintro rfl
    refine ⟨x, ?_, hx⟩
    rw [hinit]
    simp only [multitaskPolicy, read_some hv, Int.toNat_natCast, hx, bind, Except.bind]
    rfl
  · rintro rfl
    rw [hinit]
    simp only [multitaskPolicy, read_some hv, bind, Except.bind, if_true]
    cases pomcpConfig p <;> rfl
  · intro hne
    simp only [List.mem_cons, List.not_mem_nil, or_false, not_or] at hne
    rw [hinit]
    simp only [multitaskPolicy, read_some hv, bind, Except.bind, if_neg hne.1, if_neg hne.2.1, if_neg hne.2.2]

/-- **C81 (unknown task).**  An unknown task raises `ValueError`, whatever the policy. -/
theorem C81_unknownTask (W : ExpWorld) (p : Params) (s : String) (h : dget p "task" = some (.str s))
    (hs : s ∉ ["sequence", "uniform", "alternative"]) (debug : Bool) :
    multitaskJob.initRun W p = .error .valueError ∧ (debugged p debug = p → multitaskJob.run W p debug = .error .valueError) := by
  have key : multitaskJob.initRun W p = .error .valueError := by
    simp only [List.mem_cons, List.not_mem_nil, or_false, not_or] at hs
    show multitaskInit W p = _
    simp only [multitaskInit, multitaskTask, read_some h, bind, Except.bind, ParamValue.str.injEq, if_neg hs.1, if_neg hs.2.1, if_neg hs.2.2]
  refine ⟨key, fun hd => ?_⟩
  simp only [ExpClass.run, hd, key, bind, Except.bind]

/-- **C81 (scripted policies).**  A run of the multitask job with a scripted policy never raises, as long as no process is killed: it
returns one episode for each evaluation that is asked, whatever the random numbers and the order of the events of the processes.  Each
of them is the evaluation of the policy with the random numbers of a worker.  With the policy `random`, and with the policy `repeat` on
the task `sequence`, it ends in the final state exactly when `2 N + 7` actions did not fail, or else it is stopped after 200 transitions.
With the policy `repeat` on the other tasks it always is. -/
theorem C81_scripted {W : ExpWorld} (huniq : ∀ l x, x ∈ W.uniq l ↔ x ∈ l) (hlim : 3 ≤ W.limit) (hb : 200 ≤ W.bound) (hk : NoKill W.events)
    {p : Params} {debug : Bool} {t : Htm SupAction} {N : Nat} {sq : Bool} (h : AskedTask (debugged p debug) t N sq) {pol : String}
    (hv : dget (debugged p debug) "policy" = some (.str pol)) (hpol : pol = "repeat" ∨ pol = "random") {v : ParamValue}
    (hw : dget (debugged p debug) "n_warmup" = some v) {n : Int} (hn : dget (debugged p debug) "n_evaluations" = some (.num n)) :
    ∃ m x, multitaskJob.initRun W (debugged p debug) = .ok (m, .scripted x) ∧
      RunEnds (multitaskJob.run W p debug) fun r => r.parameters = debugged p debug ∧
        ∃ eps : Nat → Episode, r.evaluations.Perm ((List.range n.toNat).map eps) ∧ ∀ i,
          (∃ st, (simulateOneEvaluation (loopModel m 1 (W.draws (W.seeds i))) (loopPolicy x.1 (W.draws (W.seeds i))) 200 true W.bound st).1 =
            .ok (eps i)) ∧
          ((pol = "random" ∨ sq = true) → FinishesAt m 200 (2 * N + 7) (eps i)) ∧
          ((pol = "repeat" ∧ sq = false) → NeverFinishes m 200 (eps i)) := by
  obtain ⟨m0, m, h1, h2, ⟨w, h3, h4⟩, h5, h6, h7, h8, h9, h10⟩ := askedTask_model huniq hlim h
  have hpr : m.par.pPreferences.length ≤ m.par.nPreferences := by rw [h7]; simp [multitaskExpected]
  obtain ⟨⟨y, hy, hy'⟩, ⟨x, hx, hx'⟩⟩ := scripted_exist h5 h6 N
  have hinit : multitaskJob.initRun W (debugged p debug) = (do let pol ← multitaskPolicy (debugged p debug) m N; pure (m, pol)) := by
    show multitaskInit W _ = _
    simp only [multitaskInit, h1, h2, h3, h4, bind, Except.bind]
  rcases hpol with rfl | rfl
  · have hi : multitaskJob.initRun W (debugged p debug) = .ok (m, .scripted y) := by
      rw [hinit]
      simp only [multitaskPolicy, read_some hv, hy, bind, Except.bind]
      rfl
    refine ⟨m, y, hi, ?_⟩
    have key := run_scripted h5 h6 hy' hi hw hn hk (fun w ep =>
      (∃ st, (simulateOneEvaluation (loopModel m 1 w) (loopPolicy y.1 w) 200 true W.bound st).1 = .ok ep) ∧
      (("repeat" = "random" ∨ sq = true) → FinishesAt m 200 (2 * N + 7) ep) ∧ (("repeat" = "repeat" ∧ sq = false) → NeverFinishes m 200 ep)) (by
        intro w st
        cases sq with
        | true =>
            obtain ⟨ep, st', s, g1, g2, g3, -, g5⟩ := C74_finishes h5 h6 hpr hy' 1 w 200 true W.bound hb st h8 (le_of_eq (h9 rfl))
            refine ⟨ep, st', g1, ⟨st, by rw [g1]⟩, fun _ => ⟨s, g2, ?_, g5⟩, fun h => by cases h.2⟩
            rw [g3, h9 rfl]
            constructor <;> intro h <;> omega
        | false =>
            obtain ⟨ep, st', s, g1, g2, g3, g4, -⟩ := C74_stuck h5 h6 hpr hy' 1 w 200 true W.bound hb st h8 (h10 rfl)
            exact ⟨ep, st', g1, ⟨st, by rw [g1]⟩, fun h => by rcases h with h | h <;> exact absurd h (by decide), fun _ => ⟨s, g2, g3, g4⟩⟩)
    rcases key with key | ⟨r, k1, k2, eps, k3, k4⟩
    · exact .inl key
    · exact .inr ⟨r, k1, k2, eps, k4, k3⟩
  · have hi : multitaskJob.initRun W (debugged p debug) = .ok (m, .scripted x) := by
      rw [hinit]
      simp only [multitaskPolicy, read_some hv, Int.toNat_natCast, hx, bind, Except.bind]
      rfl
    refine ⟨m, x, hi, ?_⟩
    have key := run_scripted h5 h6 hx' hi hw hn hk (fun w ep =>
      (∃ st, (simulateOneEvaluation (loopModel m 1 w) (loopPolicy x.1 w) 200 true W.bound st).1 = .ok ep) ∧
      (("random" = "random" ∨ sq = true) → FinishesAt m 200 (2 * N + 7) ep) ∧ (("random" = "repeat" ∧ sq = false) → NeverFinishes m 200 ep)) (by
        intro w st
        obtain ⟨ep, st', s, g1, g2, g3, -, g5⟩ := C74_finishes h5 h6 hpr hx' 1 w 200 true W.bound hb st h8 (Nat.le_refl _)
        refine ⟨ep, st', g1, ⟨st, by rw [g1]⟩, fun _ => ⟨s, g2, ?_, g5⟩, fun h => absurd h.1 (by decide)⟩
        rw [g3]
        constructor <;> intro h <;> omega)
    rcases key with key | ⟨r, k1, k2, eps, k3, k4⟩
    · exact .inl key
    · exact .inr ⟨r, k1, k2, eps, k4, k3⟩

/-! ### The preference job -/

theorem singleLeg_ok (par : SupParams) (uniq : List Nat → List Nat) (huniq : ∀ l x, x ∈ uniq l ↔ x ∈ l) (limit : Nat) (hlim : 1 ≤ limit) :
    ∃ m, mkSupPomdp par uniq limit (supLeaf (assembleLeg "leg")) = .ok m ∧ Constructed (supLeaf (assembleLeg "leg")) m ∧ NeedsTools m ∧
      m.nodes.length = 1 ∧ m.par = par :=
  legTask_model (t := supLeaf (assembleLeg "leg")) (by simp [supLeaf, NonEmpty]) (by simp [supLeaf, Built]) (by simp [supLeaf, NoParallel])
    (by intro a ha; simp only [supLeaf, leaves, List.mem_singleton] at ha; subst ha; exact ⟨_, rfl⟩) (by simp [supLeaf, leaves]) par uniq
    huniq limit (by simpa [supLeaf, nesting] using hlim)

theorem preference_model {W : ExpWorld} (huniq : ∀ l x, x ∈ W.uniq l ↔ x ∈ l) (hlim : 1 ≤ W.limit) {p : Params} {q c : ℚ}
    (hq : dget p "p_preference" = some (.num q))
    (hc : dget p "p_change_preference" = some (.num c) ∨ (dget p "p_change_preference" = none ∧ c = 0)) :
    ∃ m, Constructed (supLeaf (assembleLeg "leg")) m ∧ NeedsTools m ∧ m.nodes.length = 1 ∧ m.par = preferenceExpected q c ∧
      preferenceJob.initRun W p = (do let pol ← preferencePolicy p m; pure (m, pol)) := by
  obtain ⟨m, g1, g2, g3, g4, g5⟩ := singleLeg_ok (preferenceExpected q c) W.uniq huniq W.limit hlim
  obtain ⟨m0, k1, k2, k3⟩ := mk_default (f := fun par => { par with
    pPreferences := [q], rewardIndependentPreference := true, rSubtask := 10, rPreference := 30, rFinal := 10,
    pChangePreference := c, pChangedByHuman := 0 }) g1
  refine ⟨m, g2, g3, g4, g5, ?_⟩
  have hcp : changePreference p 0 = .ok c := by
    rcases hc with hc | ⟨hc, rfl⟩ <;> simp [changePreference, hc, ParamValue.asNum]
  show preferenceInit W p = _
  simp only [preferenceInit, k1, read_some hq, hcp, bind, Except.bind, ParamValue.asNum, k2]

/-- **C81 (the preference job).**  With the policy `always-hold` the run returns one episode for each evaluation that is asked.  An
episode ends in the final state exactly when 9 actions did not fail, or else it is stopped after 15 transitions. -/
theorem C81_alwaysHold {W : ExpWorld} (huniq : ∀ l x, x ∈ W.uniq l ↔ x ∈ l) (hlim : 1 ≤ W.limit) (hb : 15 ≤ W.bound) (hk : NoKill W.events)
    {p : Params} {debug : Bool} {q c : ℚ} (hq : dget (debugged p debug) "p_preference" = some (.num q))
    (hc : dget (debugged p debug) "p_change_preference" = some (.num c) ∨ (dget (debugged p debug) "p_change_preference" = none ∧ c = 0))
    (hv : dget (debugged p debug) "policy" = some (.str "always-hold")) {v : ParamValue}
    (hw : dget (debugged p debug) "n_warmup" = some v) {n : Int} (hn : dget (debugged p debug) "n_evaluations" = some (.num n)) :
    ∃ m x, preferenceJob.initRun W (debugged p debug) = .ok (m, .scripted x) ∧ m.par = preferenceExpected q c ∧
      RunEnds (preferenceJob.run W p debug) fun r => r.parameters = debugged p debug ∧
        ∃ eps : Nat → Episode, r.evaluations.Perm ((List.range n.toNat).map eps) ∧ ∀ i,
          (∃ st, (simulateOneEvaluation (loopModel m 1 (W.draws (W.seeds i))) (loopPolicy x.1 (W.draws (W.seeds i))) 15 true W.bound st).1 =
            .ok (eps i)) ∧ FinishesAt m 15 9 (eps i) := by
  obtain ⟨m, h5, h6, h7, h8, h9⟩ := preference_model huniq hlim hq hc
  have hpr : m.par.pPreferences.length ≤ m.par.nPreferences := by rw [h8]; simp [preferenceExpected]
  obtain ⟨⟨y, hy, hy'⟩, -⟩ := scripted_exist h5 h6 1
  have hi : preferenceJob.initRun W (debugged p debug) = .ok (m, .scripted y) := by
    rw [h9]
    simp only [preferencePolicy, read_some hv, hy, bind, Except.bind]
    rfl
  refine ⟨m, y, hi, h8, ?_⟩
  have key := run_scripted h5 h6 hy' hi hw hn hk (fun w ep =>
    (∃ st, (simulateOneEvaluation (loopModel m 1 w) (loopPolicy y.1 w) 15 true W.bound st).1 = .ok ep) ∧ FinishesAt m 15 9 ep) (by
      intro w st
      obtain ⟨ep, st', s, g1, g2, g3, -, g5⟩ := C74_finishes h5 h6 hpr hy' 1 w 15 true W.bound hb st (leaf_wordLength _) (le_of_eq h7)
      refine ⟨ep, st', g1, ⟨st, by rw [g1]⟩, s, g2, ?_, g5⟩
      rw [g3, h7])
  rcases key with key | ⟨r, k1, k2, eps, k3, k4⟩
  · exact .inl key
  · exact .inr ⟨r, k1, k2, eps, k4, k3⟩

/-! ### The search policy -/

/-- **C81 (configuration of the search).**  The search has the parameters of the experiment; its horizon counts changes of the subtask
if the parameter `horizon-type` is `htm`, and transitions otherwise. -/
theorem C81_config {p : Params} {it ro le np : Int} {kind rel bv : ParamValue} {ex : ℚ} (h1 : dget p "iterations" = some (.num it))
    (h2 : dget p "rollout-iterations" = some (.num ro)) (h3 : dget p "horizon-type" = some kind) (h4 : dget p "horizon-length" = some (.num le))
    (h5 : dget p "exploration" = some (.num ex)) (h6 : dget p "relative-explo" = some rel) (h7 : dget p "belief-values" = some bv)
    (h8 : dget p "n_particles" = some (.num np)) :
    ∃ c, pomcpConfig p = .ok c ∧ c.iterations = it ∧ c.rolloutIt = ro ∧ (c.htm = true ↔ kind = .str "htm") ∧ c.length = le ∧
      c.exploration = ex ∧ (c.relative = true ↔ rel.truthy = true) ∧ (c.beliefValues = true ↔ bv.truthy = true) ∧ c.nParticles = np := by
  refine ⟨⟨it, ro, decide (kind = .str "htm"), le, ex, rel.truthy, bv.truthy, np⟩, ?_, by simp⟩
  simp only [pomcpConfig, read_some h1, read_some h2, read_some h3, read_some h4, read_some h5, read_some h6, read_some h7, read_some h8,
    asInt_int, bind, Except.bind, ParamValue.asNum]
  rfl

/-- **C81 (search).**  A run with the search policy, on any supportive model and with a horizon that counts transitions, at least one
particle and one rollout: as long as no process is killed it returns one episode for each evaluation that is asked, or it raises
`RuntimeError` because in the process of some evaluation no particle could be sampled (`MaxSamplesReached`).  Nothing else is raised,
whatever the random numbers. -/
theorem C81_search {cls : ExpClass} {W : ExpWorld} {p : Params} {debug : Bool} {t : Htm SupAction} {m : SupPomdp} {c : PomcpConfig}
    (h : Constructed t m) (hp : m.par.pPreferences.length ≤ m.par.nPreferences)
    (hinit : cls.initRun W (debugged p debug) = .ok (m, .pomcp c)) (hh : c.htm = false) (hn : 0 < c.nParticles) (hit : 0 < c.rolloutIt)
    (hf : c.length.toNat < W.fuel) (hb : c.length.toNat ≤ W.bound) (hbd : cls.maxHorizon.toNat ≤ W.bound) (hk : NoKill W.events)
    {k : Int} (hw : dget (debugged p debug) "n_warmup" = some (.num k)) {n : Int}
    (he : dget (debugged p debug) "n_evaluations" = some (.num n)) :
    ∃ target, (ExpPolicy.pomcp c).target W m cls.maxHorizon (debugged p debug) = .ok target ∧
      (∀ seed, (∃ ep, target seed = .ok ep) ∨ target seed = .error .maxSamplesReached) ∧
      (RunEnds (cls.run W p debug) (fun r => r.parameters = debugged p debug ∧
          ∃ eps : Nat → Episode, r.evaluations.Perm ((List.range n.toNat).map eps) ∧ ∀ i < n.toNat, target (W.seeds i) = .ok (eps i)) ∨
        (cls.run W p debug = .error .runtimeError ∧ ∃ i < n.toNat, target (W.seeds i) = .error .maxSamplesReached)) := by
  obtain ⟨target, h1, h2⟩ := searchTarget_safe h hp W c hn hit hf hb k cls.maxHorizon hbd
  have ht : (ExpPolicy.pomcp c).target W m cls.maxHorizon (debugged p debug) = .ok target := by
    show (do
      let warmup ← (← (debugged p debug).read "n_warmup").asInt
      if c.htm then searchTarget W m c (expSearch W m c (nHtm m) ⟨c.length⟩) warmup cls.maxHorizon
      else searchTarget W m c (expSearch W m c (finishedOrN m.isFinal) ⟨c.length, false⟩) warmup cls.maxHorizon) = _
    simp only [read_some hw, asInt_int, hh, bind, Except.bind]
    exact h1
  refine ⟨target, ht, h2, ?_⟩
  have hrun : cls.run W p debug = (do
      let evaluations ← evaluateAll W target n
      pure ⟨debugged p debug, evaluations⟩) := by
    unfold ExpClass.run
    simp only [hinit, ht, read_some he, asInt_int, bind, Except.bind]
  rw [hrun]
  rcases evaluateAll_cases W target n hk with hc | ⟨rs, hc, hperm, hall⟩ | ⟨hc, w, hwn, hw⟩
  · left; left
    rw [hc]
    rfl
  · left; right
    refine ⟨⟨debugged p debug, rs⟩, by rw [hc]; rfl, rfl, _, hperm, fun i hi => ?_⟩
    have := hall i hi
    rcases h2 (W.seeds i) with ⟨ep, e⟩ | e
    · rw [e]; rfl
    · rw [e] at this; cases this
  · right
    refine ⟨by rw [hc]; rfl, w, hwn, ?_⟩
    rcases h2 (W.seeds w) with ⟨ep, e⟩ | e
    · rw [e] at hw; cases hw
    · exact e

/-- **C81 (the pomcp job).**  The model of the table with four legs, with the rewards of the parameter `intermediate-rewards`. -/
theorem C81_pomcpJob {W : ExpWorld} (huniq : ∀ l x, x ∈ W.uniq l ↔ x ∈ l) (hlim : 3 ≤ W.limit) {p : Params} {q c : ℚ} {ir : ParamValue}
    (hq : dget p "p_preference" = some (.num q)) (hir : dget p "intermediate-rewards" = some ir)
    (hc : dget p "p_change_preference" = some (.num c) ∨ (dget p "p_change_preference" = none ∧ c = 1 / 100)) :
    ∃ m, Constructed tableTask m ∧ m.nodes.length = 8 ∧ m.par = pomcpExpected q c ir.truthy ∧
      pomcpJob.initRun W p = (pomcpConfig p).map fun c => (m, .pomcp c) := by
  have hne : NonEmpty tableTask := by simp [tableTask, NonEmpty, List.range_succ, NonEmptyL, supLeaf]
  have hbt : Built tableTask := by simp [tableTask, Built, List.range_succ, BuiltL, supLeaf]
  have hnp : NoParallel tableTask := by simp [tableTask, NoParallel, List.range_succ, NoParallelL, supLeaf]
  have hnest : nesting tableTask ≤ W.limit := by
    refine le_trans ?_ hlim
    simp [tableTask, nesting, List.range_succ, nestingL, supLeaf]
  obtain ⟨m, h1, h2⟩ := (C70_accepts tableTask hne hbt (pomcpExpected q c ir.truthy) W.uniq huniq W.limit hnest).1 ⟨hnp, fun a ha => by
    have e : leaves tableTask = (List.range 4).flatMap fun i => [assembleLeg ("leg-" ++ toString i),
      assembleLegToTop ("leg-" ++ toString i) (decide (i = 0))] := by
      simp [tableTask, leaves, List.range_succ, leavesL, supLeaf]
    rw [e] at ha
    obtain ⟨i, -, ha⟩ := List.mem_flatMap.1 ha
    simp only [List.mem_cons, List.not_mem_nil, or_false] at ha
    rcases ha with rfl | rfl <;> simp [assembleLeg, assembleLegToTop]⟩
  obtain ⟨m0, k1, k2, k3⟩ := mk_default (f := fun par => { par with
    pPreferences := [q], rSubtask := if ir.truthy then 10 else 0, rFinal := if ir.truthy then 30 else 120, pChangePreference := c }) h1
  have hlen : m.nodes.length = 8 := by
    have := congrArg List.length h2
    simpa [tableTask, leaves, List.range_succ, leavesL, supLeaf] using this
  have hcp : changePreference p m0.par.pChangePreference = .ok c := by
    rw [k3]
    rcases hc with hc | ⟨hc, rfl⟩ <;> simp [changePreference, hc, ParamValue.asNum]
  refine ⟨m, ⟨hne, hbt, _, W.uniq, W.limit, huniq, hnest, h1⟩, hlen, ?_, ?_⟩
  · rw [← k2]
    simp only [withParams, k3]
    rfl
  · show pomcpInit W p = _
    simp only [pomcpInit, k1, read_some hq, read_some hir, hcp, bind, Except.bind, ParamValue.asNum, k2]
    cases pomcpConfig p <;> rfl

/-! ### The hypotheses are met -/

/-- Random numbers for which nothing changes or fails. -/
def demoDraws : Draws :=
  { objects := fun _ => 1 / 2, prefs := fun _ => 1 / 2, hold := 1 / 2, succ := 0, consume := fun _ => 1 / 2, ask := 1 / 2, fail := 1 / 2 }

/-- Two processors, and events that reach the end of two evaluations. -/
def demoWorld : ExpWorld where
  uniq := fun l => l
  limit := 10
  bonus := fun _ _ => 1
  fuel := 101
  bound := 200
  cpus := 2
  events := List.replicate 7 .parent ++ [.put 1, .exit 1] ++ List.replicate 8 .parent ++ [.put 0, .exit 0] ++ List.replicate 20 .parent
  seeds := fun w => w
  draws := fun _ => ⟨0, fun _ => 1 / 2, fun _ => 1 / 2, fun _ => demoDraws, fun _ => 0⟩
  warm := 0
  sim := fun _ _ => demoDraws
  choices := fun _ _ => 0
  starts := fun _ => (0, fun _ => 1 / 2, fun _ => 1 / 2)
  calls := fun _ => 0

theorem demoWorld_noKill : NoKill demoWorld.events := by
  intro e he w s
  simp only [demoWorld, List.mem_append, List.mem_replicate, List.mem_cons, List.not_mem_nil, or_false] at he
  rintro rfl
  rcases he with (((h | h) | h) | h) | h <;> simp at h

/-- The events reach the end of two evaluations, the second one first; if the first one fails, so does the whole. -/
example : (evaluateAll demoWorld (fun s => .ok ⟨0, [s], [], [], [], 0⟩) 2).toOption.map (·.map Episode.states) = some [[1], [0]] ∧
    (match evaluateAll { demoWorld with events := List.replicate 7 .parent ++ [.put 1, .fail 0 0] ++ List.replicate 20 .parent }
      (fun s => if s = 0 then .error .maxSamplesReached else .ok ⟨0, [s], [], [], [], 0⟩) 2 with
      | .error e => decide (e = .runtimeError)
      | .ok _ => false) = true := by decide +kernel

/-- The hypotheses of `C81_multitask` and `C81_scripted` hold for the default parameters of the multitask job in debug mode. -/
example : ∃ m x, multitaskJob.initRun demoWorld (debugged (multitaskJob.parameters none) true) = .ok (m, .scripted x) ∧
    RunEnds (multitaskJob.run demoWorld (multitaskJob.parameters none) true) fun r => r.parameters = debugged (multitaskJob.parameters none) true ∧
      ∃ eps : Nat → Episode, r.evaluations.Perm [eps 0, eps 1] ∧ ∀ i, FinishesAt m 200 15 (eps i) := by
  obtain ⟨m, x, h1, h2⟩ := C81_scripted (W := demoWorld) (p := multitaskJob.parameters none) (debug := true) (N := 4) (sq := false)
    (t := taskChoice alternativeWords) (pol := "random") (n := 2) (v := .num 2) (fun _ _ => Iff.rfl) (by decide) (by decide)
    demoWorld_noKill (.inr (.inr ⟨by rfl, rfl, rfl, rfl⟩)) (by rfl) (.inr rfl) (by rfl) (by rfl)
  refine ⟨m, x, h1, h2.imp id ?_⟩
  rintro ⟨r, f1, f2, eps, f3, f4⟩
  exact ⟨r, f1, f2, eps, f3, fun i => (f4 i).2.1 (.inl rfl)⟩

/-- The hypotheses of `C81_alwaysHold` hold. -/
example : ∃ m x, preferenceJob.initRun demoWorld (preferenceJob.parameters (some [("policy", .str "always-hold"), ("n_evaluations", .num 2)])) =
    .ok (m, .scripted x) ∧ m.par = preferenceExpected (3 / 10) 0 := by
  obtain ⟨m, x, h1, h2, -⟩ := C81_alwaysHold (W := demoWorld)
    (p := preferenceJob.parameters (some [("policy", .str "always-hold"), ("n_evaluations", .num 2)])) (debug := false) (q := 3 / 10) (c := 0)
    (n := 2) (v := .num 2000) (fun _ _ => Iff.rfl) (by decide) (by decide) demoWorld_noKill (by rfl) (.inr ⟨by rfl, rfl⟩) (by rfl) (by rfl)
    (by rfl)
  exact ⟨m, x, h1, h2⟩

/-- The hypotheses of `C81_search`, `C81_config` and `C81_pomcpJob` hold for the pomcp job in debug mode. -/
example : ∃ m c, Constructed tableTask m ∧ m.par.pPreferences.length ≤ m.par.nPreferences ∧
    pomcpJob.initRun demoWorld (debugged (pomcpJob.parameters none) true) = .ok (m, .pomcp c) ∧ c.htm = false ∧ c.nParticles = 20 ∧
    c.rolloutIt = 1 ∧ c.length = 2 := by
  obtain ⟨m, h1, h2, h3, h4⟩ := C81_pomcpJob (W := demoWorld) (fun _ _ => Iff.rfl) (by decide) (q := 3 / 10) (c := 1 / 100) (ir := .bool false)
    (p := debugged (pomcpJob.parameters none) true) (by rfl) (by rfl) (.inr ⟨by rfl, rfl⟩)
  obtain ⟨c, g1, g2, g3, g4, g5, g6, g7, g8, g9⟩ := C81_config (p := debugged (pomcpJob.parameters none) true) (it := 10) (ro := 1) (le := 2)
    (np := 20) (kind := .str "transitions") (rel := .bool false) (bv := .bool false) (ex := 50) (by rfl) (by rfl) (by rfl) (by rfl) (by rfl)
    (by rfl) (by rfl) (by rfl)
  refine ⟨m, c, h1, by rw [h3]; simp [pomcpExpected], by rw [h4, g1]; rfl, ?_, g9, g3, g5⟩
  cases hc : c.htm with
  | false => rfl
  | true => have := g4.1 hc; simp at this

end Verif
