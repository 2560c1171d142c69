import Verif.Model.Async
import Verif.Spec.Pomcp

/-! Notions used to state what the asynchronous runner does. -/

namespace Verif.Spec
open Verif
variable {σ β η : Type} [DecidableEq β]

/-- What a body does when nothing interrupts it, in terms of the sequential runner. -/
def seqBody (S : Search σ β η) (iterations : Nat) (b : Body) (st : AsyncState σ β) : Py Out × AsyncState σ β :=
  match b with
  | .explore =>
      ((simulateFromNode S st.tnode st.taction st.runner.search).1.map fun _ => .unit,
        { st with runner := { st.runner with search := (simulateFromNode S st.tnode st.taction st.runner.search).2 } })
  | .readDone => (.ok (.flag st.done), st)
  | .getAction => ((searchGetAction S iterations st.runner).1.map .name, { st with runner := (searchGetAction S iterations st.runner).2 })
  | .setAction => (.ok .unit, { st with taction := st.runner.last })
  | .setNode => (.ok .unit, { st with tnode := st.runner.node, taction := none })
  | .setDone => (.ok .unit, { st with done := true })
  | .step o => ((searchStep S o st.runner).1.map fun _ => .unit, { st with runner := (searchStep S o st.runner).2 })
  | .reset given => ((searchReset given st.runner).1.map fun _ => .unit, { st with runner := (searchReset given st.runner).2 })

/-- The bodies that satisfy `P` are executed one after the other; `open?` is the one in execution. -/
def OneAtATime (P : Body → Prop) [DecidablePred P] : Option (Who × Body) → AsyncTrace σ β → Prop
  | _, [] => True
  | open?, (w, .started b, _) :: t =>
      if P b then open? = none ∧ OneAtATime P (some (w, b)) t else OneAtATime P open? t
  | open?, (w, .finished b _, _) :: t =>
      if P b then open? = some (w, b) ∧ OneAtATime P none t else OneAtATime P open? t
  | open?, _ :: t => OneAtATime P open? t

instance oneAtATimeDecidable (P : Body → Prop) [DecidablePred P] : ∀ (o : Option (Who × Body)) (t : AsyncTrace σ β), Decidable (OneAtATime P o t)
  | _, [] => isTrue trivial
  | o, (w, .started b, _) :: t => by
      have := oneAtATimeDecidable P (some (w, b)) t
      have := oneAtATimeDecidable P o t
      unfold OneAtATime; infer_instance
  | o, (w, .finished b _, _) :: t => by
      have := oneAtATimeDecidable P none t
      have := oneAtATimeDecidable P o t
      unfold OneAtATime; infer_instance
  | o, (_, .called _, _) :: t => oneAtATimeDecidable P o t
  | o, (_, .returned _ _, _) :: t => oneAtATimeDecidable P o t
  | o, (_, .ended, _) :: t => oneAtATimeDecidable P o t

/-- The body in execution at the end of a trace in which bodies are executed one after the other. -/
def lastOpen : Option (Who × Body) → AsyncTrace σ β → Option (Who × Body)
  | open?, [] => open?
  | _, (w, .started b, _) :: t => lastOpen (some (w, b)) t
  | _, (_, .finished _ _, _) :: t => lastOpen none t
  | open?, _ :: t => lastOpen open? t

/-- The bodies that are executed with the lock. -/
def Body.Locked : Body → Prop
  | .step _ => False
  | .reset _ => False
  | _ => True

instance : DecidablePred Body.Locked := fun b => by cases b <;> unfold Body.Locked <;> infer_instance

/-- Executing the bodies of a trace one after the other, in the order in which they end, leads from one state to another, and the
results are those of the trace. -/
def Replays (S : Search σ β η) (iterations : Nat) : AsyncState σ β → AsyncTrace σ β → AsyncState σ β → Prop
  | st, [], st' => st' = st
  | st, (_, .finished b r, _) :: t, st' => (seqBody S iterations b st).1 = r ∧ Replays S iterations (seqBody S iterations b st).2 t st'
  | st, _ :: t, st' => Replays S iterations st t st'

/-- The calls of a schedule. -/
def Calls (P : AsyncOp → Prop) (cs : List Choice) : Prop := ∀ op, Choice.call op ∈ cs → P op

/-- The beginnings of explorations. -/
def explorations (t : AsyncTrace σ β) : Nat := t.countP fun x => decide (x.2.1 = .started .explore)

/-- The last return of a method. -/
def lastReturn : Option (AsyncOp × Py Out) → AsyncTrace σ β → Option (AsyncOp × Py Out)
  | l, [] => l
  | _, (_, .returned op r, _) :: t => lastReturn (some (op, r)) t
  | l, _ :: t => lastReturn l t

/-- After `step` or `reset` the thread explores all actions; after `get_action` it explores the action returned. -/
def Directed (S : Search σ β η) (st : AsyncState σ β) : Option (AsyncOp × Py Out) → Prop
  | some (.step _, .ok _) => st.taction = none
  | some (.reset _, .ok _) => st.taction = none
  | some (.getAction _, .ok r) => ∃ a n, r = .name n ∧ st.runner.last = some a ∧ st.taction = some a ∧ S.sim.actions[a]? = some n
  | _ => True

/-- The node and the action of the thread when the last exploration has begun. -/
def lastAim : Option (Nat × Option Nat) → AsyncTrace σ β → Option (Nat × Option Nat)
  | l, [] => l
  | _, (_, .started .explore, s) :: t => lastAim (some (s.tnode, s.taction)) t
  | l, _ :: t => lastAim l t

/-- What the caller knows after a method has returned. -/
def Known.afterAsync (k : Known) (op : AsyncOp) (r : Py Out) : Known :=
  match op, r, k.last with
  | .getAction _, .ok (.name a), _ => { k with last := some a }
  | .step o, .ok _, some a => { k with history := k.history ++ [(a, o)] }
  | .reset _, .ok _, _ => ⟨none, []⟩
  | _, _, _ => k

/-- What the caller knows after a trace. -/
def asyncKnown : Known → AsyncTrace σ β → Known
  | k, [] => k
  | k, (_, .returned op r, _) :: t => asyncKnown (k.afterAsync op r) t
  | k, _ :: t => asyncKnown k t

end Verif.Spec
