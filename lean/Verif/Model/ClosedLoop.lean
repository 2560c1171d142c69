import Verif.Model.PolicySeq
import Verif.Model.Evaluation

/-!
# The scripted policies evaluated on the supportive model

`simulate_one_evaluation` (`evaluation.py:58-95`) of a `PolicyLongSupportiveSequence` (`policy.py:42-116`) or of a
`PolicySupportiveAlternatives` (`samples/supportive_evaluation_multitask_job.py:45-51`) on a `SupportivePOMDP`, with the tasks of
`samples/supportive_evaluation_multitask_job.py:13-42`.
-/

namespace Verif

/-- The constructor of `PolicySupportiveAlternatives`, `samples/supportive_evaluation_multitask_job.py:47-51`: it changes the number
of subtasks and the actions that are chosen to advance. -/
def mkAltPolicy (m : SeqModel) (sequenceLength : Nat) : Py (SeqPolicy × SeqState) := do
  let x ← mkSeqPolicy m
  let h ← strIndex m.actions ("hold " ++ "H")
  let v ← strIndex m.actions ("hold " ++ "V")
  return ({ x.1 with nTasks := sequenceLength, aNextList := [h, v] }, x.2)

/-- What changes during an evaluation: the policy, the counter `n_simulator_calls` and the number of actions asked so far, which only
serves to number the random choices of the policy. -/
structure LoopState where
  pol : SeqState
  calls : Nat
  asked : Nat

/-- A call of a method of the policy. -/
def onPolicy {α : Type} (x : M SeqState α) : M LoopState α := fun st => ((x st.pol).1, { st with pol := (x st.pol).2 })

/-- The random numbers of an evaluation: those of `sample_start` (`supportive.py:511-520`), those of each call of
`sample_transition` (`supportive.py:437-509`) and those of each random choice of the policy (`policy.py:57-59`). -/
structure LoopDraws where
  start : Nat
  startPrefs : Nat → ℚ
  startObjects : Nat → ℚ
  step : Nat → SupPomdp.Draws
  next : Nat → Nat

/-- The supportive model as it is used in `evaluation.py:58-95`. -/
def loopModel (m : SupPomdp) (discount : ℚ) (w : LoopDraws) : EvalModel LoopState where
  actions := m.actions.map .str
  observations := supObservations
  discount := discount
  isFinal := m.isFinal
  calls st := st.calls
  sampleStart := M.lift (m.sampleStart w.start w.startPrefs w.startObjects)
  sampleTransition a s := fun st => ((m.counted (w.step st.calls) a s true st.calls).1,
    { st with calls := (m.counted (w.step st.calls) a s true st.calls).2 })

/-- `get_action` of the policy, `policy.py:78-91`, with the next random choice. -/
def loopGetAction (p : SeqPolicy) (w : LoopDraws) : M LoopState Name := do
  let k ← M.read LoopState.asked
  M.modify fun st => { st with asked := k + 1 }
  let a ← onPolicy (p.getAction (w.next k))
  pure (.str a)

/-- `step` of the policy, `policy.py:93-115`, with the name of an observation. -/
def loopStep (p : SeqPolicy) : Name → M LoopState Unit
  | .str o => onPolicy (p.step o)
  | .int _ => M.raise .valueError

/-- A scripted policy as it is used in `evaluation.py:58-95`. -/
def loopPolicy (p : SeqPolicy) (w : LoopDraws) : EvalPolicy LoopState where
  reset := onPolicy (seqReset p.model)
  getAction := loopGetAction p w
  step := loopStep p

/-! ### The tasks of the experiment -/

/-- A leaf that is not numbered yet, as `LeafCombination(action)`. -/
def supLeaf (a : SupAction) : Htm SupAction := .leaf a none none false

/-- `task_long_sequence(n)`, `samples/supportive_evaluation_multitask_job.py:13-17`. -/
def taskLongSequence (n : Nat) : Htm SupAction :=
  .comb .sequential ((List.range n).map fun i => supLeaf (assembleLeg ("leg-" ++ toString i))) none none "unnamed" false none

/-- `CustomHoldLegAssembly('leg', hold=h)`, `samples/supportive_evaluation_multitask_job.py:20-24`. -/
def customHold (h : String) : SupAction :=
  ⟨"Assemble leg", some (some h, [(cUSES, "joints"), (cCONSUMES, "leg"), (cUSES, "screwdriver"), (cUSES, "screws")])⟩

/-- `task_seq(support_seq)`, `samples/supportive_evaluation_multitask_job.py:28-31, 37-40`. -/
def taskSeq (hs : List String) : Htm SupAction :=
  .comb .sequential (hs.map fun h => supLeaf (customHold h)) none none "unnamed" false none

/-- `task_uniform(n)` and `task_alternative()`, `samples/supportive_evaluation_multitask_job.py:27-42`, from the list of the
sequences; the probabilities are uniform. -/
def taskChoice (seqs : List (List String)) : Htm SupAction :=
  .comb .alternative (seqs.map taskSeq) none none "unnamed" false (some (List.replicate seqs.length (1 / (seqs.length : ℚ))))

/-- `itertools.product('hv', repeat=n)`, `samples/supportive_evaluation_multitask_job.py:33`. -/
def holdWords : Nat → List (List String)
  | 0 => [[]]
  | n + 1 => ["h", "v"].flatMap fun h => (holdWords n).map fun w => h :: w

/-- The sequences of `task_alternative`, `samples/supportive_evaluation_multitask_job.py:42`. -/
def alternativeWords : List (List String) :=
  [["h", "v", "v", "v"], ["h", "h", "h", "h"], ["v", "h", "h", "v"], ["v", "v", "h", "v"]]

end Verif
