import Verif.Model.Pomcp
import Verif.Model.Supportive

/-!
# Model of horizons and of the evaluation of policies (`evaluation.py:19-102`, `supportive.py:527-548`)

* The model and the policy share a state `σ`; their functions are arbitrary and may raise.
* `_int_to_state(s).is_final()` is a function `isFinal` of the state.
* The `while` loop is cut off after `bound` iterations, with the pseudo exception `unfinished`.
* Not modelled: the elapsed time (`get_process_elapsed_time`, `utils/multiprocess.py:79-88`), the logger and the summaries.
-/

namespace Verif

/-! ### Horizons -/

/-- `FinishedOrNTransitionsHorizon`, `evaluation.py:19-24`. -/
structure FinHorizon where
  n : Int
  final : Bool
  deriving DecidableEq, Repr

/-- `FinishedOrNTransitionsHorizon`, `evaluation.py:19-34`. -/
def finishedOrN (isFinal : Nat → Bool) : HorizonOps FinHorizon where
  isReached h := decide (h.n ≤ 0) || h.final
  decrement _ _ new _ h := ⟨h.n - 1, isFinal new⟩
  copy h := ⟨h.n, false⟩

/-- `NHTMHorizon`, `supportive.py:527-548`. -/
def nHtm (m : SupPomdp) : HorizonOps NHtmHorizon where
  isReached h := h.isReached
  decrement _ s new _ h := h.decrement m s new
  copy h := h.copy

/-- What is done with horizon objects. -/
inductive HorizonCall where
  | copy (i : Nat)
  | decrement (i a s new o : Nat)

/-- Horizon objects in memory: `copy` makes a new object, and `decrement` changes one in place, `lib/pomcp.py:39-51`,
`evaluation.py:29-34`, `supportive.py:536-544`. -/
def horizonCall {η : Type} (hor : HorizonOps η) (mem : List η) : HorizonCall → List η
  | .copy i => match mem[i]? with
      | some h => mem ++ [hor.copy h]
      | none => mem
  | .decrement i a s new o => mem.modify i (hor.decrement a s new o)

/-! ### Evaluation -/

/-- The model used in an evaluation; `calls` is `n_simulator_calls`. -/
structure EvalModel (σ : Type) where
  actions : List Name
  observations : List Name
  discount : ℚ
  isFinal : Nat → Bool
  calls : σ → Int
  sampleStart : M σ Nat
  sampleTransition : Nat → Nat → M σ (Nat × Nat × ℚ)

/-- The policy used in an evaluation. -/
structure EvalPolicy (σ : Type) where
  reset : M σ Unit
  getAction : M σ Name
  step : Name → M σ Unit

/-- The result of an evaluation, `evaluation.py:88-95`. -/
structure Episode where
  ret : ℚ
  states : List Nat
  actions : List Nat
  observations : List Nat
  rewards : List ℚ
  calls : Int
  deriving DecidableEq, Repr

/-- `model.actions.index(name)`. -/
def indexOfName (l : List Name) (name : Name) : Py Nat := if name ∈ l then .ok (l.idxOf name) else .error .valueError

/-- `model.observations[o]`. -/
def nameAt (l : List Name) (o : Nat) : Py Name :=
  match l[o]? with
  | some name => .ok name
  | none => .error .indexError

/-- `h_s[-1]`. -/
def lastOf (l : List Nat) : Py Nat :=
  match l.getLast? with
  | some s => .ok s
  | none => .error .indexError

section
variable {σ : Type}

/-- The calls made in one iteration, `evaluation.py:74-80`: the action and the result of `sample_transition`. -/
def evalStep (mo : EvalModel σ) (pol : EvalPolicy σ) (s : Nat) : M σ (Nat × Nat × Nat × ℚ) := do
  let name ← pol.getAction
  let a ← M.lift (indexOfName mo.actions name)
  let x ← mo.sampleTransition a s
  let o ← M.lift (nameAt mo.observations x.2.1)
  pol.step o
  pure (a, x)

/-- The changes of the lists and of the return in one iteration, `evaluation.py:75-82`. -/
def Episode.add (gamma : ℚ) (ep : Episode) (y : Nat × Nat × Nat × ℚ) : Episode :=
  { ep with
    ret := y.2.2.2 + gamma * ep.ret
    states := ep.states ++ [y.2.1]
    actions := ep.actions ++ [y.1]
    observations := ep.observations ++ [y.2.2.1]
    rewards := ep.rewards ++ [y.2.2.2] }

/-- The loop, `evaluation.py:73-82`. -/
def evalLoop (mo : EvalModel σ) (pol : EvalPolicy σ) (gamma : ℚ) : Nat → FinHorizon → Episode → M σ Episode
  | bound, h, ep =>
      if (finishedOrN mo.isFinal).isReached h then pure ep
      else match bound with
        | 0 => M.raise .unfinished
        | k + 1 => do
            let s ← M.lift (lastOf ep.states)
            let y ← evalStep mo pol s
            evalLoop mo pol gamma k ((finishedOrN mo.isFinal).decrement y.1 s y.2.1 y.2.2.1 h) (ep.add gamma y)

/-- `simulate_one_evaluation`, `evaluation.py:58-95`. -/
def simulateOneEvaluation (mo : EvalModel σ) (pol : EvalPolicy σ) (maxHorizon : Int) (discount : Bool) (bound : Nat) :
    M σ Episode := do
  let init ← M.read mo.calls
  pol.reset
  let s ← mo.sampleStart
  let ep ← evalLoop mo pol (if discount then mo.discount else 1) bound ⟨maxHorizon, false⟩ ⟨0, [s], [], [], [], 0⟩
  let n ← M.read mo.calls
  pure { ep with calls := n - init }

end

/-! ### The supportive model with POMCP -/

/-- The names of the observations, `supportive.py:285`. -/
def supObservations : List Name := [.str "none", .str "fail", .str "not-found", .str "yes", .str "no"]

/-- The supportive model with beliefs of `n` particles; `d k j` are the random numbers of the `j`-th transition of the `k`-th call. -/
def supSim (m : SupPomdp) (discount : ℚ) (n : Nat) (d : Nat → Nat → SupPomdp.Draws) (c : Nat → Nat → Nat) : Sim Nat (List Nat) :=
  particlesOver (m.actions.map .str) supObservations discount (fun k j a s => m.sampleTransition (d k j) a s) n c

/-- A policy that searches, as it is used in an evaluation, `lib/pomcp.py:447-484`, `evaluation.py:65, 74, 80`; `iterations` is the
attribute of the runner. -/
def searchPolicy {σ β η : Type} [DecidableEq β] (S : Search σ β η) (iterations : Nat) : EvalPolicy (SearchRunner σ β) where
  reset := searchReset false
  getAction := searchGetAction S iterations
  step := searchStep S

/-- The model of a search, as it is used in an evaluation: it shares the random numbers with the search. -/
def searchModel {σ β : Type} (sim : Sim σ β) (isFinal : Nat → Bool) (calls : SearchRunner σ β → Int) (start : M σ Nat) :
    EvalModel (SearchRunner σ β) where
  actions := sim.actions
  observations := sim.observations
  discount := sim.discount
  isFinal := isFinal
  calls := calls
  sampleStart := onSearch (onRng start)
  sampleTransition a s := onSearch (onRng (sim.sampleTransition a s))

end Verif
