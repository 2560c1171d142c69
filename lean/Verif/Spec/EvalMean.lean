import Verif.Spec.Mean
import Verif.Spec.ClosedLoop

/-! Specification vocabulary for the means of evaluations (C94). -/

namespace Verif.Spec
open Verif

/-- The random numbers of a call of the simulator in an evaluation: those of `sample_start` or those of `sample_transition`. -/
abbrev EvalNumbers (m : SupPomdp) (D K N : Nat) : Type := StartNumbers m D K × Numbers m D K N

/-- The supportive simulator in an evaluation.  The state is the number of calls made so far and the memory of the policy; the `k`-th call uses
the random numbers `z k`. -/
def drawnModel {μ : Type} (m : SupPomdp) (discount : ℚ) {D K N : Nat} (z : Nat → EvalNumbers m D K N) : EvalModel (Nat × μ) where
  actions := m.actions.map .str
  observations := supObservations
  discount := discount
  isFinal := m.isFinal
  calls st := st.1
  sampleStart := fun st => (m.sampleStart (z st.1).1.1 (numberAt (z st.1).1.2.1) (numberAt (z st.1).1.2.2), (st.1 + 1, st.2))
  sampleTransition a s := fun st => (m.sampleTransition (drawsOf (z st.1).2) a s, (st.1 + 1, st.2))

/-- A call of the policy. -/
def ofPolicy {μ α : Type} (x : M μ α) : M (Nat × μ) α := fun st => ((x st.2).1, (st.1, (x st.2).2))

/-- A policy with its own memory, which contains its own random numbers, if it uses some. -/
def ownMemory {μ : Type} (pol : EvalPolicy μ) : EvalPolicy (Nat × μ) where
  reset := ofPolicy pol.reset
  getAction := ofPolicy pol.getAction
  step o := ofPolicy (pol.step o)

/-- The policy answers with actions of the model and accepts the observations that may follow, as long as its memory is one of `Q`. -/
structure Answers {μ : Type} (m : SupPomdp) (pol : EvalPolicy μ) (Q : μ → Prop) : Prop where
  reset : ∀ q, ∃ q', pol.reset q = (.ok (), q') ∧ Q q'
  action : ∀ q, Q q → ∃ name q', pol.getAction q = (.ok name, q') ∧ name ∈ m.actions.map Name.str ∧
    ∀ d s s' o r, s < m.nStates → m.sampleTransition d ((m.actions.map Name.str).idxOf name) s = .ok (s', o, r) →
      ∃ q'', pol.step (supObservations.getD o (.str "")) q' = (.ok (), q'') ∧ Q q''

/-- A scripted policy, `policy.py:42-116`, with its own random numbers, `policy.py:57-59`; the second part of the memory is the number of actions
asked so far. -/
def scriptedAlone (p : SeqPolicy) (next : Nat → Nat) : EvalPolicy (SeqState × Nat) where
  reset := fun q => ((seqReset p.model q.1).1, ((seqReset p.model q.1).2, q.2))
  getAction := fun q => ((p.getAction (next q.2) q.1).1.map Name.str, ((p.getAction (next q.2) q.1).2, q.2 + 1))
  step o := fun q => match o with
    | .str x => ((p.step x q.1).1, ((p.step x q.1).2, q.2))
    | .int _ => (.error .valueError, q)

/-- The index of the action that the policy chooses. -/
def chosenAction {μ : Type} (m : SupPomdp) (pol : EvalPolicy μ) (q : μ) : Nat :=
  match (pol.getAction q).1 with
  | .ok name => (m.actions.map Name.str).idxOf name
  | .error _ => 0

/-- The memory of the policy after an action and the observation with index `o`. -/
def afterStep {μ : Type} (pol : EvalPolicy μ) (q : μ) (o : Nat) : μ := (pol.step (supObservations.getD o (.str "")) (pol.getAction q).2).2

/-- The expected sum of the rewards in at most `k` transitions from the state `s`, until a final state, if the actions are those of the policy. -/
def policyValue {μ : Type} (m : SupPomdp) (pol : EvalPolicy μ) (D K N : Nat) : Nat → μ → Nat → ℚ
  | 0, _, _ => 0
  | k + 1, q, s => mean fun ω : Numbers m D K N =>
      (supMove m ω (chosenAction m pol q) s).2.2 +
        if m.isFinal (supMove m ω (chosenAction m pol q) s).1 then 0
        else policyValue m pol D K N k (afterStep pol q (supMove m ω (chosenAction m pol q) s).2.1) (supMove m ω (chosenAction m pol q) s).1

/-- The mean of `γ ^ T`, where `T` is the number of transitions. -/
def lengthWeight {μ : Type} (m : SupPomdp) (pol : EvalPolicy μ) (D K N : Nat) (γ : ℚ) : Nat → μ → Nat → ℚ
  | 0, _, _ => 1
  | k + 1, q, s => mean fun ω : Numbers m D K N =>
      γ * if m.isFinal (supMove m ω (chosenAction m pol q) s).1 then 1
        else lengthWeight m pol D K N γ k (afterStep pol q (supMove m ω (chosenAction m pol q) s).2.1) (supMove m ω (chosenAction m pol q) s).1

/-- The expected sum of the rewards, of which each is multiplied by `γ ^ T`, where `T` is the number of transitions after it. -/
def lateValue {μ : Type} (m : SupPomdp) (pol : EvalPolicy μ) (D K N : Nat) (γ : ℚ) : Nat → μ → Nat → ℚ
  | 0, _, _ => 0
  | k + 1, q, s => mean fun ω : Numbers m D K N =>
      if m.isFinal (supMove m ω (chosenAction m pol q) s).1 then (supMove m ω (chosenAction m pol q) s).2.2
      else (supMove m ω (chosenAction m pol q) s).2.2 *
          lengthWeight m pol D K N γ k (afterStep pol q (supMove m ω (chosenAction m pol q) s).2.1) (supMove m ω (chosenAction m pol q) s).1 +
        lateValue m pol D K N γ k (afterStep pol q (supMove m ω (chosenAction m pol q) s).2.1) (supMove m ω (chosenAction m pol q) s).1

/-- The start state for given random numbers. -/
def startOf (m : SupPomdp) {D K : Nat} (ω : StartNumbers m D K) : Nat :=
  match m.sampleStart ω.1 (numberAt ω.2.1) (numberAt ω.2.2) with
  | .ok s => s
  | .error _ => 0

/-- The return of an evaluation. -/
def returnOf {S : Type} (r : Py Episode × S) : ℚ :=
  match r.1 with
  | .ok ep => ep.ret
  | .error _ => 0

end Verif.Spec
