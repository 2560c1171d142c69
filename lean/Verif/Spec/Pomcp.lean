import Verif.Model.Pomcp
import Verif.Spec.Pomdp

/-! Specification vocabulary for Monte-Carlo tree search (C52-C58). -/

namespace Verif.Spec
open Verif
variable {σ β η : Type}

/-! ### Visit counts -/

/-- The number of visits of an observation node. -/
def nodeVisits (t : Tree β) (i : Nat) : Nat := (t.nodes i).avg.n

/-- The number of visits of an action node, 0 if it does not exist. -/
def visitsOf : Option ANode → Nat
  | none => 0
  | some c => c.avg.n

/-- The number of visits of the action `a` in the node `i`. -/
def actionVisits (t : Tree β) (i a : Nat) : Nat := visitsOf (t.anode i a)

/-- The sum of the visits of the actions of a node. -/
def actionSum (t : Tree β) (i : Nat) : Nat := ((t.nodes i).children.map visitsOf).sum

/-- The node reached from `i` by a history. -/
def follow (t : Tree β) : Nat → List (Nat × Nat) → Option Nat
  | i, [] => some i
  | i, (a, o) :: h => (t.next i a o).bind fun j => follow t j h

/-! ### What the simulator has been asked -/

/-- One simulated transition. -/
structure Ev where
  action : Nat
  state : Nat
  next : Nat
  obs : Nat
  reward : ℚ

/-- The same model, that records the simulated transitions. -/
def logged (sim : Sim σ β) : Sim (σ × List Ev) β where
  actions := sim.actions
  observations := sim.observations
  discount := sim.discount
  sampleTransition a s := fun g =>
    match sim.sampleTransition a s g.1 with
    | (.ok x, g') => (.ok x, (g', g.2 ++ [⟨a, s, x.1, x.2.1, x.2.2⟩]))
    | (.error e, g') => (.error e, (g', g.2))
  sampleBelief b := fun g => ((sim.sampleBelief b g.1).1, ((sim.sampleBelief b g.1).2, g.2))
  successor b a o := fun g => ((sim.successor b a o g.1).1, ((sim.successor b a o g.1).2, g.2))
  rand := fun g => ((sim.rand g.1).1, ((sim.rand g.1).2, g.2))

/-- The same search, with the record of the transitions. -/
def loggedSearch (S : Search σ β η) : Search (σ × List Ev) β η :=
  ⟨logged S.sim, S.hor, S.horizon, S.exploration, S.relative, S.rolloutIt, S.alpha, S.bonus, S.shared, S.fuel, S.bound⟩

/-- Forget the record. -/
def eraseLog (st : SearchState (σ × List Ev) β) : SearchState σ β := ⟨st.tree, st.rng.1⟩

/-- The discounted sum of the rewards. -/
def discountedSum (γ : ℚ) (evs : List Ev) : ℚ := sumRange evs.length fun k => γ ^ k * (evs.map Ev.reward).getD k 0

/-- The transitions follow each other, the first one from state `s`. -/
def Chained : Nat → List Ev → Prop
  | _, [] => True
  | s, e :: es => e.state = s ∧ Chained e.next es

/-- The horizon after some transitions. -/
def horizonAfter (hor : HorizonOps η) (h : η) (evs : List Ev) : η :=
  evs.foldl (fun h e => hor.decrement e.action e.state e.next e.obs h) h

/-- The horizon is not reached before any of the transitions. -/
def Within (hor : HorizonOps η) : η → List Ev → Prop
  | _, [] => True
  | h, e :: es => hor.isReached h = false ∧ Within hor (hor.decrement e.action e.state e.next e.obs h) es

/-- The transitions of one rollout: until the horizon is reached. -/
def IsRollout (hor : HorizonOps η) (h : η) (evs : List Ev) : Prop :=
  (∃ s, Chained s evs) ∧ Within hor (hor.copy h) evs ∧ hor.isReached (horizonAfter hor (hor.copy h) evs) = true

/-! ### The shape of a simulation -/

/-- How the part of a simulation in the tree ends: at a node that existed, with the creation of a node, or because no particle was
found. -/
inductive Ending where
  | known (j : Nat)
  | created (j : Nat)
  | skipped

/-- The node at the end. -/
def Ending.node : Ending → Option Nat
  | .known j => some j
  | .created j => some j
  | .skipped => none

/-- `path` is the list of the nodes and actions, `evs` the transitions, and `last` the node at the end. -/
def LinkedRun (t : Tree β) : Nat → List (Nat × Nat) → List Ev → Option Nat → Prop
  | i, [], [], last => last = some i
  | i, (j, a) :: path, e :: evs, last =>
      j = i ∧ a = e.action ∧
        ((t.next i a e.obs = none ∧ path = [] ∧ evs = [] ∧ last = none) ∨
          ∃ k, t.next i a e.obs = some k ∧ LinkedRun t k path evs last)
  | _, _, _, _ => False

/-- The return at the end of the tree: `t` is the tree before the simulation, `h` the horizon at the end, `rolls` are the rollouts. -/
def tailReturn (γ : ℚ) (hor : HorizonOps η) (t : Tree β) (h : η) (rolls : List (List Ev)) : Ending → ℚ
  | .known j => (t.nodes j).avg.value
  | .created _ => if hor.isReached h then 0 else (rolls.map (discountedSum γ)).sum / rolls.length
  | .skipped => 0

/-- The rollouts made at the end. -/
def RollsOk (hor : HorizonOps η) (rolloutIt : Nat) (h : η) (rolls : List (List Ev)) : Ending → Prop
  | .known _ => rolls = [] ∧ hor.isReached h = true
  | .created _ =>
      if hor.isReached h then rolls = [] else rolls.length = rolloutIt ∧ ∀ r ∈ rolls, IsRollout hor h r
  | .skipped => rolls = []

/-- The node, if any, that has been visited by rollouts. -/
def rolledNode (hor : HorizonOps η) (h : η) : Ending → Option Nat
  | .created j => if hor.isReached h then none else some j
  | _ => none

/-- A simulation from the node `i` and the state `s` that returns `x`: `path` is the list of the nodes and actions visited in the
tree, `evs` are the transitions of that part, and `rolls` those of the rollouts. -/
structure Trace (S : Search (σ × List Ev) β η) (st st' : SearchState (σ × List Ev) β) (i s : Nat) (h : η) (x : ℚ)
    (path : List (Nat × Nat)) (evs : List Ev) (rolls : List (List Ev)) (ending : Ending) : Prop where
  log : st'.rng.2 = st.rng.2 ++ evs ++ rolls.flatten
  chained : Chained s evs
  within : Within S.hor h evs
  linked : LinkedRun st'.tree i path evs ending.node
  rollsOk : RollsOk S.hor S.rolloutIt (horizonAfter S.hor h evs) rolls ending
  result : x = discountedSum S.sim.discount evs +
    S.sim.discount ^ evs.length * tailReturn S.sim.discount S.hor st.tree (horizonAfter S.hor h evs) rolls ending
  nodes : ∀ j, nodeVisits st'.tree j = nodeVisits st.tree j + (path.map Prod.fst).count j +
    (if rolledNode S.hor (horizonAfter S.hor h evs) ending = some j then 1 else 0)
  acts : ∀ j a, actionVisits st'.tree j a = actionVisits st.tree j a + path.count (j, a)

/-- The horizon is reached after at most `m h` transitions. -/
structure BoundedHor (hor : HorizonOps η) (m : η → Nat) : Prop where
  step : ∀ h, hor.isReached h = false → ∀ a s s' o, m (hor.decrement a s s' o h) < m h
  copy : ∀ h, m (hor.copy h) ≤ m h

/-- A list of nodes and actions that can be visited by one simulation: each node is a child of the preceding action. -/
def IsTreePath (t : Tree β) : List (Nat × Nat) → Prop
  | [] => True
  | x :: [] => t.anode x.1 x.2 ≠ none
  | x :: y :: p => (∃ o, t.next x.1 x.2 o = some y.1) ∧ IsTreePath t (y :: p)

/-- The actions that have not been tried in the node `i`. -/
def unexplored (t : Tree β) (i : Nat) : List Nat :=
  (List.range (t.nodes i).children.length).filter fun a => decide (actionVisits t i a = 0)

/-- The estimated value of an action. -/
def actionValue (t : Tree β) (i a : Nat) : ℚ := ((t.anode i a).map fun c => c.avg.value).getD 0

/-- The difference between the largest and the smallest estimated value of the actions of the node `i`. -/
def IsSpread (t : Tree β) (i : Nat) (d : ℚ) : Prop :=
  ∃ x < (t.nodes i).children.length, ∃ y < (t.nodes i).children.length,
    (∀ z < (t.nodes i).children.length, actionValue t i y ≤ actionValue t i z ∧ actionValue t i z ≤ actionValue t i x) ∧
      d = actionValue t i x - actionValue t i y

/-- The weight of the exploration in the node `i`: relative to the spread of the values, if so configured. -/
def IsWeight (S : Search σ β η) (t : Tree β) (i : Nat) (c : ℚ) : Prop :=
  if S.relative = true ∧ 0 < S.exploration then ∃ d, IsSpread t i d ∧ c = S.exploration * d else c = S.exploration

/-- The score of an action: its estimated value, and a bonus that depends on the visits of the node and of the action. -/
def uctScore (S : Search σ β η) (t : Tree β) (i : Nat) (c : ℚ) (a : Nat) : ℚ :=
  actionValue t i a + c * S.bonus (nodeVisits t i) (actionVisits t i a)

/-- The choice of `a` in the node `i` obeys UCT: an action that has not been tried if there is one, and otherwise the first of the
actions with the largest score. -/
def UctChoice (S : Search σ β η) (t : Tree β) (i a : Nat) : Prop :=
  a < (t.nodes i).children.length ∧ (unexplored t i ≠ [] → a ∈ unexplored t i) ∧
    (unexplored t i = [] → ∃ c, IsWeight S t i c ∧ (∀ b < (t.nodes i).children.length, uctScore S t i c b ≤ uctScore S t i c a) ∧
      ∀ b < a, uctScore S t i c b < uctScore S t i c a)

/-- `MaxSamplesReached` is only raised by the computation of the successors of beliefs. -/
def QuietSim (sim : Sim σ β) : Prop :=
  (∀ a s g, (sim.sampleTransition a s g).1 ≠ .error .maxSamplesReached) ∧
  (∀ b g, (sim.sampleBelief b g).1 ≠ .error .maxSamplesReached) ∧ ∀ g, (sim.rand g).1 ≠ .error .maxSamplesReached

/-- The rewards are between `lo` and `hi`. -/
def RewardsIn (sim : Sim σ β) (lo hi : ℚ) : Prop :=
  ∀ a s g x g', sim.sampleTransition a s g = (.ok x, g') → lo ≤ x.2.2 ∧ x.2.2 ≤ hi

/-! ### Uses of a search tree and of a runner -/

/-- A call made on a search tree. -/
inductive TreeOp where
  | simulate (node : Nat) (action : Option Nat)
  | getNode (history : List (Nat × Nat))

/-- The state after a call; a node that does not exist cannot be used, and exceptions are caught by the caller. -/
def runTreeOp [DecidableEq β] (S : Search σ β η) (st : SearchState σ β) : TreeOp → SearchState σ β
  | .simulate i a => if i < st.tree.size then (simulateFromNode S i a st).2 else st
  | .getNode h => (getNode S h st).2

/-- The state after some calls. -/
def runTreeOps [DecidableEq β] (S : Search σ β η) (st : SearchState σ β) (ops : List TreeOp) : SearchState σ β :=
  ops.foldl (runTreeOp S) st

/-- A call made on a runner. -/
inductive RunnerOp where
  | getAction (iterations : Nat)
  | step (o : Name)
  | reset (given : Bool)

/-- The action returned by a call, if it is `get_action`. -/
def runRunnerOp [DecidableEq β] (S : Search σ β η) (st : SearchRunner σ β) : RunnerOp → Py (Option Name) × SearchRunner σ β
  | .getAction k => ((searchGetAction S k st).1.map some, (searchGetAction S k st).2)
  | .step o => ((searchStep S o st).1.map fun _ => none, (searchStep S o st).2)
  | .reset g => ((searchReset g st).1.map fun _ => none, (searchReset g st).2)

/-- What the caller of a runner knows: the last action returned and the pairs of actions and observations since the last reset. -/
structure Known where
  last : Option Name
  history : List (Name × Name)

/-- What the caller knows after a call with its result. -/
def Known.after (k : Known) (op : RunnerOp) (r : Py (Option Name)) : Known :=
  match op, r, k.last with
  | .getAction _, .ok (some a), _ => { k with last := some a }
  | .step o, .ok _, some a => { k with history := k.history ++ [(a, o)] }
  | .reset _, .ok _, _ => ⟨none, []⟩
  | _, _, _ => k

/-- The state of a runner and what its caller knows, after some calls. -/
def runRunnerOps [DecidableEq β] (S : Search σ β η) (st : SearchRunner σ β) (k : Known) (ops : List RunnerOp) :
    SearchRunner σ β × Known :=
  ops.foldl (fun x op => ((runRunnerOp S x.1 op).2, x.2.after op (runRunnerOp S x.1 op).1)) (st, k)

end Verif.Spec
