import Verif.Model.ClosedLoop
import Verif.Model.RepeatPool

/-!
# Model of the experiments (`evaluation.py:98-226`) and of the job scripts (`samples/supportive_evaluation_*_job.py`)

* The parameters are dictionaries from names to numbers, booleans and strings; a number that is an integer stands for an `int`.
* The workers of `repeat` are forked: each one starts from the model and the policy as they are after the warm-up, with a random state
  that depends on its seed only (`utils/multiprocess.py:22-25`).
* The types of the parameters of the search are tested when the policy is built; the code fails with the same exception when it uses
  them.
* Negative numbers of particles, of iterations and of rollouts are taken as 0.
* Not modelled: the logger, the measured times, the serialization of the results, the parsing of the command line.
-/

namespace Verif

/-- The value of a parameter. -/
inductive ParamValue
  | num (q : ℚ)
  | bool (b : Bool)
  | str (s : String)
  deriving DecidableEq, Repr

/-- A dictionary of parameters. -/
abbrev Params := List (String × ParamValue)

/-- `d.update(e)`. -/
def Params.update (d e : Params) : Params := e.foldl (fun d kv => dset d kv.1 kv.2) d

/-- `self.parameters[k]`. -/
def Params.read (d : Params) (k : String) : Py ParamValue :=
  match dget d k with
  | some v => .ok v
  | none => .error .keyError

/-- A value that is used in `range` or that is compared with integers (`evaluation.py:181-192`, `utils/multiprocess.py:27-42`,
`samples/supportive_evaluation_multitask_job.py:13-17`).  Simplified: numbers are rationals, so a float with an integer value (`20.0`) is taken
as that integer, although `range` refuses it; and a fraction is refused also where the code only compares it. -/
def ParamValue.asInt : ParamValue → Py Int
  | .num q => if q.den = 1 then .ok q.num else .error .typeError
  | .bool b => .ok (if b then 1 else 0)
  | .str _ => .error .typeError

/-- A value that is used as a number. -/
def ParamValue.asNum : ParamValue → Py ℚ
  | .num q => .ok q
  | .bool b => .ok (if b then 1 else 0)
  | .str _ => .error .typeError

/-- A value that is used as a condition. -/
def ParamValue.truthy : ParamValue → Bool
  | .num q => decide (q ≠ 0)
  | .bool b => b
  | .str s => decide (s ≠ "")

/-- `SupportiveExperiment.DEFAULT_PARAMETERS`, `evaluation.py:110-125`. -/
def baseDefaults : Params :=
  [("n_warmup", .num 2000), ("n_evaluations", .num 20), ("iterations", .num 1000), ("rollout-iterations", .num 1),
   ("exploration", .num 50), ("relative-explo", .bool false), ("belief-values", .bool false), ("n_particles", .num 150),
   ("horizon-type", .str "transitions"), ("horizon-length", .num 20), ("intermediate-rewards", .bool false),
   ("p_preference", .num (3 / 10)), ("policy", .str "pomcp")]

/-- The parameters set by `set_debug_parameters`, `evaluation.py:138-143`. -/
def debugParameters : Params :=
  [("n_warmup", .num 2), ("n_evaluations", .num 2), ("iterations", .num 10), ("n_particles", .num 20), ("horizon-length", .num 2)]

/-- What is given to `POMCPPolicyRunner` by `init_pomcp_policy`, `evaluation.py:181-192`. -/
structure PomcpConfig where
  iterations : Int
  rolloutIt : Int
  /-- `NHTMHorizon` instead of `FinishedOrNTransitionsHorizon` -/
  htm : Bool
  length : Int
  exploration : ℚ
  relative : Bool
  beliefValues : Bool
  nParticles : Int
  deriving DecidableEq, Repr

/-- `init_pomcp_policy`, `evaluation.py:181-192`: the reading of the parameters. -/
def pomcpConfig (p : Params) : Py PomcpConfig := do
  let iterations ← (← p.read "iterations").asInt
  let rolloutIt ← (← p.read "rollout-iterations").asInt
  let kind ← p.read "horizon-type"
  let length ← (← p.read "horizon-length").asInt
  let exploration ← (← p.read "exploration").asNum
  let relative ← p.read "relative-explo"
  let beliefValues ← p.read "belief-values"
  let nParticles ← (← p.read "n_particles").asInt
  return { iterations := iterations, rolloutIt := rolloutIt, htm := decide (kind = .str "htm"), length := length,
           exploration := exploration, relative := relative.truthy, beliefValues := beliefValues.truthy, nParticles := nParticles }

/-- The policy of an experiment. -/
inductive ExpPolicy
  | pomcp (c : PomcpConfig)
  | scripted (x : SeqPolicy × SeqState)

/-- What a run depends on besides its parameters: the order of the iteration over sets and the recursion limit (C22), the
exploration bonus and the limits of the recursion and of the loops (C52), the number of processors, the events of the processes
(C61), and the random numbers.  The state of the random generator is a number: the `k`-th call of the simulator draws from
`sim k` and `choices k`, and the `k`-th call of `sample_start` from `starts k`. -/
structure ExpWorld where
  uniq : List Nat → List Nat
  limit : Nat
  bonus : Nat → Nat → ℚ
  fuel : Nat
  bound : Nat
  cpus : Nat
  events : List PoolEvent
  /-- the seeds given to the workers -/
  seeds : Nat → Nat
  /-- the random numbers of an evaluation of a scripted policy, from the seed of its worker -/
  draws : Nat → LoopDraws
  /-- the random choice of a scripted policy in the warm-up -/
  warm : Nat
  sim : Nat → Nat → SupPomdp.Draws
  choices : Nat → Nat → Nat
  starts : Nat → Nat × (Nat → ℚ) × (Nat → ℚ)
  /-- the number `n_simulator_calls` -/
  calls : SearchRunner Nat (List Nat) → Int

/-- A subclass of `SupportiveExperiment`. -/
structure ExpClass where
  /-- `DEFAULT_PARAMETERS` -/
  defaults : Params
  /-- `max_horizon` in `EVALUATE_ARGUMENTS`, or its default value -/
  maxHorizon : Int
  /-- `init_run`: the model and the policy -/
  initRun : ExpWorld → Params → Py (SupPomdp × ExpPolicy)

/-- `__init__`, `evaluation.py:129-136`: the attribute `parameters`. -/
def ExpClass.parameters (cls : ExpClass) (given : Option Params) : Params :=
  match given with
  | some g => cls.defaults.update g
  | none => cls.defaults

/-- The parameters during the run, `evaluation.py:146-148`. -/
def debugged (p : Params) (debug : Bool) : Params := if debug then p.update debugParameters else p

/-! ### The policies during a run -/

/-- The warm-up and the evaluation of a scripted policy, `evaluation.py:152-162`: the result of an evaluation in a worker, from its seed.
`get_action` ignores the number of iterations, `policy.py:79`. -/
def scriptedTarget (W : ExpWorld) (m : SupPomdp) (x : SeqPolicy × SeqState) (maxHorizon : Int) : Py (Nat → Py Episode) :=
  match x.1.getAction W.warm x.2 with
  | (.error e, _) => .error e
  | (.ok _, st) => .ok fun seed =>
      (simulateOneEvaluation (loopModel m 1 (W.draws seed)) (loopPolicy x.1 (W.draws seed)) maxHorizon true W.bound ⟨st, 0, 0⟩).1

/-- The sampler of the initial particles, `lib/pomcp.py:86-88`. -/
def startSampler (W : ExpWorld) (m : SupPomdp) (k : Nat) : Py Nat × Nat :=
  (m.sampleStart (W.starts k).1 (W.starts k).2.1 (W.starts k).2.2, k + 1)

/-- The search of `init_pomcp_policy`, `evaluation.py:181-192`, with a kind of horizon; `alpha` is the default of
`lib/pomcp.py:236, 280`. -/
def expSearch {η : Type} (W : ExpWorld) (m : SupPomdp) (c : PomcpConfig) (hor : HorizonOps η) (horizon : η) : Search Nat (List Nat) η where
  sim := supSim m 1 c.nParticles.toNat W.sim W.choices
  hor := hor
  horizon := horizon
  exploration := c.exploration
  relative := c.relative
  rolloutIt := c.rolloutIt.toNat
  alpha := 1 / 1000
  bonus := W.bonus
  shared := c.beliefValues
  fuel := W.fuel
  bound := W.bound

/-- The state of a worker: it sets the state of the random generator, `utils/multiprocess.py:22-25`. -/
def reseed (seed : Nat) (st : SearchRunner Nat (List Nat)) : SearchRunner Nat (List Nat) :=
  { st with search := { st.search with rng := seed } }

/-- An evaluation of a search policy in a worker. -/
def searchEvaluation {η : Type} (W : ExpWorld) (m : SupPomdp) (S : Search Nat (List Nat) η) (iterations : Nat) (maxHorizon : Int)
    (st : SearchRunner Nat (List Nat)) (seed : Nat) : Py Episode :=
  (simulateOneEvaluation (searchModel S.sim m.isFinal W.calls (startSampler W m)) (searchPolicy S iterations) maxHorizon true W.bound
    (reseed seed st)).1

/-- The construction, the warm-up and the evaluation of a search policy, `evaluation.py:152-162`. -/
def searchTarget {η : Type} (W : ExpWorld) (m : SupPomdp) (c : PomcpConfig) (S : Search Nat (List Nat) η) (warmup : Int)
    (maxHorizon : Int) : Py (Nat → Py Episode) :=
  match mkParticles (startSampler W m) (fun _ => 0) c.nParticles.toNat 0 with
  | (.error e, _) => .error e
  | (.ok b, rng) =>
      match searchGetAction S warmup.toNat (S.runner b rng) with
      | (.error e, _) => .error e
      | (.ok _, st) => .ok (searchEvaluation W m S c.iterations.toNat maxHorizon st)

/-- The policy of an experiment in its run; the horizons are those of `evaluation.py:184-187`. -/
def ExpPolicy.target (W : ExpWorld) (m : SupPomdp) (maxHorizon : Int) (p : Params) : ExpPolicy → Py (Nat → Py Episode)
  | .scripted x => do
      let _ ← p.read "n_warmup"
      scriptedTarget W m x maxHorizon
  | .pomcp c => do
      let warmup ← (← p.read "n_warmup").asInt
      if c.htm then searchTarget W m c (expSearch W m c (nHtm m) ⟨c.length⟩) warmup maxHorizon
      else searchTarget W m c (expSearch W m c (finishedOrN m.isFinal) ⟨c.length, false⟩) warmup maxHorizon

/-! ### The run -/

/-- What the worker puts in the queue; a worker whose evaluation raises puts nothing. -/
def episodeOr : Py Episode → Episode
  | .ok ep => ep
  | .error _ => ⟨0, [], [], [], [], 0⟩

/-- What a worker may do: if its evaluation raises it exits with a positive code, otherwise it puts its result, `utils/multiprocess.py:22-25`. -/
def workerEvent (target : Nat → Py Episode) (seeds : Nat → Nat) : PoolEvent → Bool
  | .put w => (target (seeds w)).isOk
  | .fail w _ => !(target (seeds w)).isOk
  | _ => true

/-- `evaluate`, `evaluation.py:98-102`, with those of the events of the processes that may happen; `unfinished` if they are not
enough. -/
def evaluateAll (W : ExpWorld) (target : Nat → Py Episode) (n : Int) : Py (List Episode) :=
  match ((poolStart W.cpus n.toNat).run (fun seed => episodeOr (target seed)) W.seeds (W.events.filter (workerEvent target W.seeds))).pc with
  | .done r => r
  | _ => .error .unfinished

/-- `self.results`, `evaluation.py:150-162`, without the times. -/
structure ExpResults where
  parameters : Params
  evaluations : List Episode

/-- `run`, `evaluation.py:145-167`. -/
def ExpClass.run (cls : ExpClass) (W : ExpWorld) (parameters : Params) (debug : Bool) : Py ExpResults := do
  let p := debugged parameters debug
  let x ← cls.initRun W p
  let target ← x.2.target W x.1 cls.maxHorizon p
  let n ← (← p.read "n_evaluations").asInt
  let evaluations ← evaluateAll W target n
  return ⟨p, evaluations⟩

/-- `run_from_arguments`, `evaluation.py:203-226`, once the arguments are parsed: the content of the configuration file, the path and the
name.  Returns the results and, if they are written, where (the path and the name of the file). -/
def ExpClass.runFromArguments (cls : ExpClass) (W : ExpWorld) (config : Option Params) (path name : Option String) (debug : Bool) :
    Py (ExpResults × Option (String × String)) := do
  let parameters := cls.parameters config
  let file ← match path, name with
    | none, _ => .ok none
    | some d, some n => .ok (some (d, n ++ ".json"))
    | some _, none => .error .typeError
  let r ← cls.run W parameters debug
  return (r, file)

/-! ### The job scripts -/

/-- A model whose attributes are changed after its construction. -/
def withParams (f : SupParams → SupParams) (m : SupPomdp) : SupPomdp := { m with par := f m.par }

/-- The task of the multitask job, `samples/supportive_evaluation_multitask_job.py:66-75`, and its length. -/
def multitaskTask (p : Params) : Py (Int × Htm SupAction) := do
  let task ← p.read "task"
  if task = .str "sequence" then
    let n ← (← p.read "n_subtasks").asInt
    return (n, taskLongSequence n.toNat)
  else if task = .str "uniform" then return (4, taskChoice (holdWords 4))
  else if task = .str "alternative" then return (4, taskChoice alternativeWords)
  else match task with
    | .str _ => .error .valueError
    | _ => .error .typeError

/-- The attributes of the model of the multitask job, `samples/supportive_evaluation_multitask_job.py:78-86`. -/
def multitaskParams (sequence : Bool) (par : SupParams) : SupParams :=
  let par := { par with pPreferences := [1], pChangePreference := 0, rFinal := 10 }
  if sequence then par else { par with costHold := 10, rPreference := 18 }

/-- The policy of the multitask job, `samples/supportive_evaluation_multitask_job.py:87-94`. -/
def multitaskPolicy (p : Params) (m : SupPomdp) (length : Int) : Py ExpPolicy := do
  let policy ← p.read "policy"
  if policy = .str "pomcp" then return .pomcp (← pomcpConfig p)
  else if policy = .str "repeat" then return .scripted (← mkSeqPolicy m.seqModel)
  else if policy = .str "random" then return .scripted (← mkAltPolicy m.seqModel length.toNat)
  else .error .notImplementedError

/-- `init_run` of the multitask job, `samples/supportive_evaluation_multitask_job.py:64-94`. -/
def multitaskInit (W : ExpWorld) (p : Params) : Py (SupPomdp × ExpPolicy) := do
  let t ← multitaskTask p
  let m0 ← mkSupPomdp {} W.uniq W.limit t.2
  let task ← p.read "task"
  let m := withParams (multitaskParams (decide (task = .str "sequence"))) m0
  let pol ← multitaskPolicy p m t.1
  return (m, pol)

/-- The multitask job, `samples/supportive_evaluation_multitask_job.py:54-62`; `max_horizon` is the default of `evaluation.py:98`. -/
def multitaskJob : ExpClass where
  defaults := baseDefaults.update
    [("n_subtasks", .num 20), ("task", .str "alternative"), ("policy", .str "random"), ("n_evaluations", .num 100)]
  maxHorizon := 200
  initRun := multitaskInit

/-- The optional parameter of the preference and pomcp jobs. -/
def changePreference (p : Params) (default : ℚ) : Py ℚ :=
  match dget p "p_change_preference" with
  | some v => v.asNum
  | none => .ok default

/-- The policy of the preference job, `samples/supportive_evaluation_preference_job.py:30-39`.  `_a_next` is a property without a
setter (`policy.py:57-59`), so that its assignment fails. -/
def preferencePolicy (p : Params) (m : SupPomdp) : Py ExpPolicy := do
  let policy ← p.read "policy"
  if policy = .str "pomcp" then return .pomcp (← pomcpConfig p)
  else if policy = .str "always-hold" then return .scripted (← mkSeqPolicy m.seqModel)
  else if policy = .str "never-hold" then do
    let _ ← mkSeqPolicy m.seqModel
    .error .attributeError
  else .error .notImplementedError

/-- `init_run` of the preference job, `samples/supportive_evaluation_preference_job.py:14-39`. -/
def preferenceInit (W : ExpWorld) (p : Params) : Py (SupPomdp × ExpPolicy) := do
  let m0 ← mkSupPomdp {} W.uniq W.limit (supLeaf (assembleLeg "leg"))
  let q ← (← p.read "p_preference").asNum
  let c ← changePreference p 0
  let m := withParams (fun par => { par with
    pPreferences := [q], rewardIndependentPreference := true, rSubtask := 10, rPreference := 30, rFinal := 10,
    pChangePreference := c, pChangedByHuman := 0 }) m0
  let pol ← preferencePolicy p m
  return (m, pol)

/-- The preference job, `samples/supportive_evaluation_preference_job.py:10-12`. -/
def preferenceJob : ExpClass where
  defaults := baseDefaults
  maxHorizon := 15
  initRun := preferenceInit

/-- `AssembleLegToTop(leg, bring_top)`, `supportive.py:105-114`. -/
def assembleLegToTop (leg : String) (bringTop : Bool) : SupAction :=
  ⟨"Assemble " ++ leg ++ " to top",
    some (some "v", (if bringTop then [(cCONSUMES, "top")] else []) ++ [(cUSES, "screwdriver"), (cUSES, "screws")])⟩

/-- The task of the pomcp job, `samples/supportive_evaluation_pomcp_job.py:12-18`. -/
def tableTask : Htm SupAction :=
  .comb .sequential ((List.range 4).map fun i =>
    .comb .sequential [supLeaf (assembleLeg ("leg-" ++ toString i)), supLeaf (assembleLegToTop ("leg-" ++ toString i) (decide (i = 0)))]
      none none "unnamed" false none) none none "unnamed" false none

/-- `init_run` of the pomcp job, `samples/supportive_evaluation_pomcp_job.py:10-31`. -/
def pomcpInit (W : ExpWorld) (p : Params) : Py (SupPomdp × ExpPolicy) := do
  let m0 ← mkSupPomdp {} W.uniq W.limit tableTask
  let q ← (← p.read "p_preference").asNum
  let ir ← p.read "intermediate-rewards"
  let c ← changePreference p m0.par.pChangePreference
  let m := withParams (fun par => { par with
    pPreferences := [q], rSubtask := if ir.truthy then 10 else 0, rFinal := if ir.truthy then 30 else 120, pChangePreference := c }) m0
  let cfg ← pomcpConfig p
  return (m, .pomcp cfg)

/-- The pomcp job, `samples/supportive_evaluation_pomcp_job.py:8`. -/
def pomcpJob : ExpClass where
  defaults := baseDefaults
  maxHorizon := 200
  initRun := pomcpInit

end Verif
