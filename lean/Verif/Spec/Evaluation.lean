import Verif.Model.Evaluation
import Verif.Spec.Pomcp

/-! Specification vocabulary for horizons and evaluations (C58, C60, C69). -/

namespace Verif.Spec
open Verif

/-- What happens during an evaluation. -/
inductive EvalEv where
  | reset
  | start (s : Nat)
  | asked (name : Name)
  | moved (e : Ev)
  | told (name : Name)

/-- Record an event when a computation succeeds. -/
def recording {σ α : Type} (f : α → EvalEv) (m : M σ α) : M (σ × List EvalEv) α := fun g =>
  match m g.1 with
  | (.ok x, g') => (.ok x, (g', g.2 ++ [f x]))
  | (.error e, g') => (.error e, (g', g.2))

/-- The same model, that records its calls. -/
def recordModel {σ : Type} (mo : EvalModel σ) : EvalModel (σ × List EvalEv) where
  actions := mo.actions
  observations := mo.observations
  discount := mo.discount
  isFinal := mo.isFinal
  calls g := mo.calls g.1
  sampleStart := recording .start mo.sampleStart
  sampleTransition a s := recording (fun x => .moved ⟨a, s, x.1, x.2.1, x.2.2⟩) (mo.sampleTransition a s)

/-- The same policy, that records its calls. -/
def recordPolicy {σ : Type} (pol : EvalPolicy σ) : EvalPolicy (σ × List EvalEv) where
  reset := recording (fun _ => .reset) pol.reset
  getAction := recording .asked pol.getAction
  step o := recording (fun _ => .told o) (pol.step o)

/-- The events of one transition of an episode: the action is the one that the policy returned, and the observation is given to the
policy. -/
def eventsOf {σ : Type} (mo : EvalModel σ) (e : Ev) (evs : List EvalEv) : Prop :=
  ∃ name o, mo.actions.idxOf name = e.action ∧ name ∈ mo.actions ∧ mo.observations[e.obs]? = some o ∧
    evs = [.asked name, .moved e, .told o]

/-- The events of some transitions. -/
def eventsOfAll {σ : Type} (mo : EvalModel σ) : List Ev → List EvalEv → Prop
  | [], log => log = []
  | e :: es, log => ∃ l1 l2, log = l1 ++ l2 ∧ eventsOf mo e l1 ∧ eventsOfAll mo es l2

/-- The transitions given to the object `i`. -/
def transitionsOf (i : Nat) (calls : List HorizonCall) : List (Nat × Nat × Nat × Nat) :=
  calls.filterMap fun
    | .decrement j a s new o => if j = i then some (a, s, new, o) else none
    | .copy _ => none

/-- A horizon after some transitions. -/
def afterTransitions {η : Type} (hor : HorizonOps η) (h : η) (l : List (Nat × Nat × Nat × Nat)) : η :=
  l.foldl (fun h t => hor.decrement t.1 t.2.1 t.2.2.1 t.2.2.2 h) h

end Verif.Spec
