import Verif.Monad
import Verif.Model.Pomdp
import Verif.Model.Belief

/-!
# Model of Monte-Carlo tree search (`lib/pomcp.py:13-517`)

* Observation nodes are objects with identity: they are numbered in the order of their creation, and a tree is a map from these
  numbers to their attributes.  The root is node 0.  An action node is an attribute of its observation node.
* Everything random is in a state `σ` that the simulator reads and changes: its functions are arbitrary, and may raise.
* Beliefs are values of an arbitrary type `β`.
* Floating point numbers are rationals; `sqrt(log(n) / m)` is an arbitrary function `bonus n m`.
* `fuel` is the recursion limit, counted in calls of `_simulate_from_node`; beyond it `RuntimeError` is raised.
* The `while` loop of a rollout is cut off after `bound` iterations, with the pseudo exception `unfinished`.
* A horizon is a value; the code changes it in place, but the caller never uses a horizon after passing it on (rollouts use copies).
* Histories are lists of pairs of an action and an observation: the runner only uses histories of even length.
* `to_dict`, `map` and `export_pomcp` are in `Model/Export.lean`.  `run_trajectory` is in `Model/Trajectory.lean`.  Not modelled: `__str__`.
-/

namespace Verif

/-- A horizon object, `lib/pomcp.py:13-36`: `decrement` takes the action, the state, the new state and the observation. -/
structure HorizonOps (η : Type) where
  isReached : η → Bool
  decrement : Nat → Nat → Nat → Nat → η → η
  copy : η → η

/-- `NTransitionsHorizon`, `lib/pomcp.py:39-51`; the state is `n`. -/
def nTransitions : HorizonOps Int where
  isReached n := decide (n ≤ 0)
  decrement _ _ _ _ n := n - 1
  copy n := n

/-! ### Values -/

/-- `_ValueAverage`, `lib/pomcp.py:215-221`. -/
structure Avg where
  n : Nat
  total : ℚ
  deriving DecidableEq, Repr

/-- A new `_ValueAverage`, `lib/pomcp.py:217-219`. -/
def Avg.new : Avg := ⟨0, 0⟩

/-- `value`, `lib/pomcp.py:223-226`. -/
def Avg.value (v : Avg) : ℚ := if v.n = 0 then 0 else v.total / v.n

/-- `update`, `lib/pomcp.py:228-231`. -/
def Avg.update (alpha : ℚ) (v : Avg) (x : ℚ) : Avg :=
  ⟨v.n + 1, (v.total + x) * (1 - alpha) + alpha * (v.n + 1) * x⟩

/-! ### Nodes -/

/-- `_SearchActionNode`, `lib/pomcp.py:234-238, 381-384`: `children` maps observations to observation nodes. -/
structure ANode where
  avg : Avg
  children : List (Nat × Nat)
  deriving DecidableEq, Repr

/-- `_SearchObservationNode`, `lib/pomcp.py:276-285`. -/
structure ONode (β : Type) where
  belief : β
  avg : Avg
  children : List (Option ANode)
  deriving DecidableEq, Repr

/-- A new observation node, `lib/pomcp.py:281-285`. -/
def ONode.new {β : Type} (b : β) (nActions : Nat) : ONode β := ⟨b, .new, List.replicate nActions none⟩

/-- The observation nodes: those of number less than `size` exist; `lookup` is `_obs_nodes`, `lib/pomcp.py:191`. -/
structure Tree (β : Type) where
  nodes : Nat → ONode β
  size : Nat
  lookup : List (β × Nat)

namespace Tree
variable {β : Type}

/-- Change one node. -/
def upd (t : Tree β) (i : Nat) (f : ONode β → ONode β) : Tree β :=
  { t with nodes := fun j => if j = i then f (t.nodes j) else t.nodes j }

/-- Create a node. -/
def alloc (t : Tree β) (nActions : Nat) (b : β) : Tree β :=
  { t with nodes := fun j => if j = t.size then ONode.new b nActions else t.nodes j, size := t.size + 1 }

/-- The action node of `a` in node `i`. -/
def anode (t : Tree β) (i a : Nat) : Option ANode := ((t.nodes i).children[a]?).join

/-- The node of the observation `o` in the action node `a` of `i`, if the action node exists. -/
def next (t : Tree β) (i a o : Nat) : Option Nat := (t.anode i a).bind fun c => dget c.children o

end Tree

/-- Change the action node of `a`. -/
def ONode.updAction {β : Type} (nd : ONode β) (a : Nat) (f : ANode → ANode) : ONode β :=
  { nd with children := nd.children.modify a (Option.map f) }

/-- `_observation_node_for_belief`, `lib/pomcp.py:138-139` and, if `shared`, `lib/pomcp.py:201-206`. -/
def Tree.nodeFor {β : Type} [DecidableEq β] (shared : Bool) (nActions : Nat) (b : β) (t : Tree β) : Nat × Tree β :=
  if shared then
    match dget t.lookup b with
    | some i => (i, t)
    | none => (t.size, { t.alloc nActions b with lookup := dset t.lookup b t.size })
  else (t.size, t.alloc nActions b)

/-- The tree made by the constructor, `lib/pomcp.py:69-82`, with the belief `b` at the root. -/
def Tree.init {β : Type} [DecidableEq β] (shared : Bool) (nActions : Nat) (b : β) : Tree β :=
  (Tree.nodeFor shared nActions b ⟨fun _ => ONode.new b nActions, 0, []⟩).2

/-! ### The search -/

/-- The model used by the search and its beliefs; `rand` is the source of uniform random integers. -/
structure Sim (σ β : Type) where
  actions : List Name
  observations : List Name
  discount : ℚ
  sampleTransition : Nat → Nat → M σ (Nat × Nat × ℚ)
  sampleBelief : β → M σ Nat
  successor : β → Nat → Nat → M σ β
  rand : M σ Nat

/-- `model.n_actions`. -/
def Sim.nActions {σ β : Type} (sim : Sim σ β) : Nat := sim.actions.length

/-- The attributes of a search tree that do not change, `lib/pomcp.py:69-82`; `horizon` is what the generator returns. -/
structure Search (σ β η : Type) where
  sim : Sim σ β
  hor : HorizonOps η
  horizon : η
  exploration : ℚ
  relative : Bool
  rolloutIt : Nat
  alpha : ℚ
  bonus : Nat → Nat → ℚ
  shared : Bool
  fuel : Nat
  bound : Nat

/-- The state of a search. -/
structure SearchState (σ β : Type) where
  tree : Tree β
  rng : σ

section
variable {σ β η : Type}

/-- A call of the simulator. -/
def onRng {α : Type} (m : M σ α) : M (SearchState σ β) α := fun st =>
  ((m st.rng).1, { st with rng := (m st.rng).2 })

/-- A change of the tree. -/
def onTree {α : Type} (f : Tree β → α × Tree β) : M (SearchState σ β) α := fun st =>
  (.ok (f st.tree).1, { st with tree := (f st.tree).2 })

/-- `_not_init_children`, `lib/pomcp.py:294-296`. -/
def notInit (l : List (Option ANode)) : List Nat :=
  (List.range l.length).filter fun a => match (l[a]?).join with
    | none => true
    | some c => decide (c.avg.n = 0)

/-- Largest element of a list that is not empty. -/
def maxOf (l : List ℚ) : ℚ := l.foldl max (l.headD 0)

/-- Smallest element of a list that is not empty. -/
def minOf (l : List ℚ) : ℚ := l.foldl min (l.headD 0)

/-- `augmented_values`, `lib/pomcp.py:298-307`; `none` is `nan`. -/
def augmentedValues (bonus : Nat → Nat → ℚ) (exploration : ℚ) (relative : Bool) (nd : ONode β) : List (Option ℚ) :=
  let vals := nd.children.filterMap fun c => c.map fun c => c.avg.value
  let e := if exploration > 0 ∧ relative then exploration * (maxOf vals - minOf vals) else exploration
  nd.children.map fun c => c.map fun c => c.avg.value + e * bonus nd.avg.n c.avg.n

/-- The greedy choice in `get_best_action`, `lib/pomcp.py:312-315`.  No child is missing here. -/
def greedyAction (bonus : Nat → Nat → ℚ) (exploration : ℚ) (relative : Bool) (nd : ONode β) : Py Nat :=
  if nd.avg.n > 0 then argmax ((augmentedValues bonus exploration relative nd).map (·.getD 0))
  else .error .assertionError

/-- The random choice in `get_best_action`, `lib/pomcp.py:318`. -/
def pickFrom (sim : Sim σ β) (l : List Nat) : M σ Nat := do
  let c ← sim.rand
  M.lift (match l[c % l.length]? with | some a => .ok a | none => .error .valueError)

/-- `get_best_action`, `lib/pomcp.py:309-319`, on the node `i`. -/
def getBestAction (sim : Sim σ β) (bonus : Nat → Nat → ℚ) (exploration : ℚ) (relative : Bool) (i : Nat) :
    M (SearchState σ β) Nat := do
  let nd ← M.read fun st => st.tree.nodes i
  if (notInit nd.children).length = 0 then M.lift (greedyAction bonus exploration relative nd)
  else onRng (pickFrom sim (notInit nd.children))

/-- `safe_get_child`, `lib/pomcp.py:321-324`, on the node `i`. -/
def safeGetChild (i a : Nat) : M (SearchState σ β) Unit := fun st =>
  match (st.tree.nodes i).children[a]? with
  | none => (.error .indexError, st)
  | some none => (.ok (), { st with tree := st.tree.upd i fun nd => { nd with children := nd.children.set a (some ⟨.new, []⟩) } })
  | some (some _) => (.ok (), st)

/-- `random_action`, `lib/pomcp.py:107-108`. -/
def randomAction (sim : Sim σ β) : M σ Nat := do
  let c ← sim.rand
  M.lift (if sim.nActions = 0 then .error .valueError else .ok (c % sim.nActions))

/-- The loop of `_one_rollout_from_node`, `lib/pomcp.py:126-132`: `gamma` and `full` are its variables. -/
def rolloutLoop (sim : Sim σ β) (hor : HorizonOps η) : Nat → Nat → η → ℚ → ℚ → M σ ℚ
  | bound, s, h, gamma, full =>
      if hor.isReached h then pure full
      else match bound with
        | 0 => M.raise .unfinished
        | k + 1 => do
            let a ← randomAction sim
            let x ← sim.sampleTransition a s
            rolloutLoop sim hor k x.1 (hor.decrement a s x.1 x.2.1 h) (gamma * sim.discount) (full + gamma * x.2.2)

/-- The loop of `rollout_from_node`, `lib/pomcp.py:114-117`, from a belief; `total` is the variable `returns`. -/
def rollouts (S : Search σ β η) (b : β) (h : η) : Nat → ℚ → M σ ℚ
  | 0, total => pure total
  | k + 1, total => do
      let s ← S.sim.sampleBelief b
      let x ← rolloutLoop S.sim S.hor S.bound s (S.hor.copy h) 1 0
      rollouts S b h k (total + x)

/-- `node.update(x)`, `lib/pomcp.py:258-259`. -/
def updateNode (alpha : ℚ) (i : Nat) (x : ℚ) : M (SearchState σ β) Unit :=
  onTree fun t => ((), t.upd i fun nd => { nd with avg := nd.avg.update alpha x })

/-- `child.update(x)` on the action node of `a` in node `i`. -/
def updateAction (alpha : ℚ) (i a : Nat) (x : ℚ) : M (SearchState σ β) Unit :=
  onTree fun t => ((), t.upd i fun nd => nd.updAction a fun c => { c with avg := c.avg.update alpha x })

/-- `rollout_from_node`, `lib/pomcp.py:110-120`; the division by `rollout_it = 0` raises. -/
def rolloutFromNode (S : Search σ β η) (i : Nat) (h : η) : M (SearchState σ β) ℚ :=
  if S.hor.isReached h then pure 0
  else do
    let b ← M.read fun st => (st.tree.nodes i).belief
    let x ← onRng (rollouts S b h S.rolloutIt 0)
    let y ← M.lift (if S.rolloutIt = 0 then .error .zeroDivisionError else .ok (x / S.rolloutIt))
    updateNode S.alpha i y
    pure y

/-- `children[o] = node` on the action node of `a` in node `i`. -/
def linkNode (i a o j : Nat) : M (SearchState σ β) Unit :=
  onTree fun t => ((), t.upd i fun nd => nd.updAction a fun c => { c with children := dset c.children o j })

variable [DecidableEq β]

/-- The creation of the child node for `o`, `lib/pomcp.py:101-102, 154-155`. -/
def createChild (S : Search σ β η) (i a o : Nat) : M (SearchState σ β) Nat := do
  let b ← M.read fun st => (st.tree.nodes i).belief
  let b' ← onRng (S.sim.successor b a o)
  let j ← onTree (Tree.nodeFor S.shared S.sim.nActions b')
  linkNode i a o j
  pure j

/-- The creation of a node and the rollout from it, `lib/pomcp.py:152-163`. -/
def expand (S : Search σ β η) (i a o : Nat) (h : η) : M (SearchState σ β) ℚ :=
  M.tryExcept (do
    let j ← createChild S i a o
    rolloutFromNode S j h) .maxSamplesReached (pure 0)

/-- The choice of the action, `lib/pomcp.py:145-148`. -/
def chooseAction (S : Search σ β η) (i : Nat) : Option Nat → M (SearchState σ β) Nat
  | some a => pure a
  | none => getBestAction S.sim S.bonus S.exploration S.relative i

/-- The partial return, `lib/pomcp.py:151-167`: `recur` is the recursive call, `j` is the child node, if it exists. -/
def proceed (S : Search σ β η) (i a o : Nat) (h : η) (recur : Nat → M (SearchState σ β) ℚ) : Option Nat → M (SearchState σ β) ℚ
  | none => expand S i a o h
  | some j => recur j

/-- The end of `_simulate_from_node`, `lib/pomcp.py:169-172`. -/
def updateBoth (alpha : ℚ) (i a : Nat) (x : ℚ) : M (SearchState σ β) ℚ := do
  updateAction alpha i a x
  updateNode alpha i x
  pure x

/-- `_simulate_from_node`, `lib/pomcp.py:141-172`. -/
def simulate (S : Search σ β η) : Nat → Nat → Nat → η → Option Nat → M (SearchState σ β) ℚ
  | 0, _, _, _, _ => M.raise .runtimeError
  | fuel + 1, i, s, h, act =>
      if S.hor.isReached h then M.read fun st => (st.tree.nodes i).avg.value
      else do
        let a ← chooseAction S i act
        safeGetChild i a
        let x ← onRng (S.sim.sampleTransition a s)
        let j ← M.read fun st => st.tree.next i a x.2.1
        let y ← proceed S i a x.2.1 (S.hor.decrement a s x.1 x.2.1 h)
          (fun j => simulate S fuel j x.1 (S.hor.decrement a s x.1 x.2.1 h) none) j
        updateBoth S.alpha i a (x.2.2 + S.sim.discount * y)

/-- `simulate_from_node`, `lib/pomcp.py:134-136`. -/
def simulateFromNode (S : Search σ β η) (i : Nat) (act : Option Nat) : M (SearchState σ β) Unit := do
  let b ← M.read fun st => (st.tree.nodes i).belief
  let s ← onRng (S.sim.sampleBelief b)
  let _ ← simulate S S.fuel i s S.horizon act
  pure ()

/-- The creation of the child node if it does not exist, `lib/pomcp.py:100-103`. -/
def childOr (S : Search σ β η) (i a o : Nat) : Option Nat → M (SearchState σ β) Nat
  | some j => pure j
  | none => createChild S i a o

/-- One pair of an action and an observation in `get_node`, `lib/pomcp.py:98-106`, from the node `i`. -/
def getNodeStep (S : Search σ β η) (i a o : Nat) : M (SearchState σ β) Nat := do
  safeGetChild i a
  let j ← M.read fun st => st.tree.next i a o
  childOr S i a o j

/-- `get_node`, `lib/pomcp.py:93-106`, from the node `i`. -/
def getNodeFrom (S : Search σ β η) : Nat → List (Nat × Nat) → M (SearchState σ β) Nat
  | i, [] => pure i
  | i, (a, o) :: h => do
      let j ← getNodeStep S i a o
      getNodeFrom S j h

/-- `get_node`, `lib/pomcp.py:93-106`. -/
def getNode (S : Search σ β η) (h : List (Nat × Nat)) : M (SearchState σ β) Nat := getNodeFrom S 0 h

/-! ### The runner -/

/-- The state of a `POMCPPolicyRunner`, `lib/pomcp.py:438-457`. -/
structure SearchRunner (σ β : Type) where
  search : SearchState σ β
  history : List (Nat × Nat)
  node : Nat
  last : Option Nat

/-- A computation of the search tree. -/
def onSearch {α : Type} (m : M (SearchState σ β) α) : M (SearchRunner σ β) α := fun st =>
  ((m st.search).1, { st with search := (m st.search).2 })

/-- `for _ in range(k): simulate_from_node(node)`, `lib/pomcp.py:468-469`. -/
def simulateMany (S : Search σ β η) (i : Nat) : Nat → M (SearchState σ β) Unit
  | 0 => pure ()
  | k + 1 => do
      simulateFromNode S i none
      simulateMany S i k

/-- `get_action`, `lib/pomcp.py:463-473`, with the number of iterations. -/
def searchGetAction (S : Search σ β η) (iterations : Nat) : M (SearchRunner σ β) Name := do
  let i ← M.read fun st => st.node
  onSearch (simulateMany S i iterations)
  let a ← onSearch (getBestAction S.sim S.bonus 0 false i)
  M.modify fun st => { st with last := some a }
  M.lift (match S.sim.actions[a]? with | some n => .ok n | none => .error .indexError)

/-- The index of an observation, `lib/pomcp.py:479`. -/
def Sim.obsIndex (sim : Sim σ β) (o : Name) : Py Nat :=
  if o ∈ sim.observations then .ok (sim.observations.idxOf o) else .error .valueError

/-- The rest of `step` once the last action is known, `lib/pomcp.py:479-484`. -/
def searchMove (S : Search σ β η) (a : Nat) (o : Name) : M (SearchRunner σ β) Unit := do
  let oi ← M.lift (S.sim.obsIndex o)
  let hist ← M.read fun st => st.history ++ [(a, oi)]
  let i ← onSearch (getNode S hist)
  M.modify fun st => { st with node := i, history := hist }

/-- `step`, `lib/pomcp.py:475-484`. -/
def searchStep (S : Search σ β η) (o : Name) : M (SearchRunner σ β) Unit := do
  let last ← M.read fun st => st.last
  let a ← M.lift (match last with | none => .error .valueError | some a => .ok a)
  searchMove S a o

/-- `reset` and `_reset`, `lib/pomcp.py:447-457`; `given` tells whether a belief is given. -/
def searchReset (given : Bool) : M (SearchRunner σ β) Unit :=
  if given then M.raise .notImplementedError
  else M.modify fun st => { st with history := [], node := 0, last := none }

/-- The search after construction. -/
def Search.start (S : Search σ β η) (b : β) (rng : σ) : SearchState σ β := ⟨Tree.init S.shared S.sim.nActions b, rng⟩

/-- The runner after construction, `lib/pomcp.py:414-439`. -/
def Search.runner (S : Search σ β η) (b : β) (rng : σ) : SearchRunner σ β := ⟨S.start b rng, [], 0, none⟩

end

/-! ### Exact and particle beliefs -/

/-- `ArrayBelief(b)`, `lib/belief.py:20-22`. -/
def arrayBelief (b : List ℚ) : Py (List ℚ) := if normal1 b then .ok b else .error .valueError

/-- The model `p` with exact beliefs, `lib/belief.py:18-35`.  The state is the number of random numbers drawn so far: the `k`-th
one is `u k` if it is a real number between 0 and 1, and `c k` if it is an integer. -/
def exactSim (p : Pomdp) (u : Nat → ℚ) (c : Nat → Nat) : Sim Nat (List ℚ) where
  actions := p.actions
  observations := p.observations
  discount := p.discount
  sampleTransition a s := fun k => (p.sampleTransition (u k) (u (k + 1)) a s, k + 2)
  sampleBelief b := fun k => (Pomdp.choice b.length b (u k), k + 1)
  successor b a o := fun k => ((do let b' ← p.beliefUpdate a o b; arrayBelief b'), k)
  rand := fun k => (.ok (c k), k + 1)

/-- A model with beliefs of `n` particles, `lib/belief.py:78-109`.  The state is the number of calls made so far; in the `k`-th one,
`trans k j` is the `j`-th call of `sample_transition`, and the random integers are `c k 0`, `c k 1`... (in `successor` those of
even position choose the particles to simulate, and the others the duplicates). -/
def particlesOver (actions observations : List Name) (discount : ℚ) (trans : Nat → Nat → Nat → Nat → Py (Nat × Nat × ℚ)) (n : Nat)
    (c : Nat → Nat → Nat) : Sim Nat (List Nat) where
  actions := actions
  observations := observations
  discount := discount
  sampleTransition a s := fun k => (trans k 0 a s, k + 1)
  sampleBelief b := fun k => (particleSample b n (c k 0), k + 1)
  successor b a o := fun k =>
    ((particleSuccessor b n (fun j => c k (2 * j)) (fun j => c k (2 * j + 1)) (trans k) a o).1, k + 1)
  rand := fun k => (.ok (c k 0), k + 1)

/-- The model `p` with beliefs of `n` particles; the random numbers of the `k`-th call are `u k 0`, `u k 1`... -/
def particleSim (p : Pomdp) (n : Nat) (u : Nat → Nat → ℚ) (c : Nat → Nat → Nat) : Sim Nat (List Nat) :=
  particlesOver p.actions p.observations p.discount (fun k j => p.sampleTransition (u k (2 * j)) (u k (2 * j + 1))) n c

/-- The particle belief at the start, `lib/pomcp.py:86-88`. -/
def particleStart (p : Pomdp) (n : Nat) (u : Nat → ℚ) : Py (List Nat) :=
  (mkParticles (fun k => (p.sampleStart (u k), k + 1)) (fun _ => 0) n 0).1

end Verif
