import Verif.Model.Actions
import Verif.Model.Chains
import Verif.Model.Cliques

/-!
# Model of the extraction of hierarchies, `samples/test_hierarchies.py:1-62`

The script builds a task graph from histories, takes its conjugate, and then repeatedly compacts the first maximal chain
into a `sequence` meta action or, when there is no chain, the first maximal clique into a `parallel` meta action.

Equality of nodes is structural equality of `Act`.  In Python the members of a `parallel` action are a set, so that two
such actions with the same members in another order are equal; two nodes of one graph never share an action
(`C80_partition`), so that this never matters.  The output of the script (lines 45-48, 60-62) is not modelled.
-/

namespace Verif

mutual
/-- Equality of actions is decidable. -/
def Act.decEq : (a b : Act) → Decidable (a = b)
  | .plain n, .plain m => if h : n = m then .isTrue (by rw [h]) else .isFalse (by intro e; cases e; exact h rfl)
  | .metaAct k as, .metaAct k' bs =>
      match (inferInstance : Decidable (k = k')), Act.decEqL as bs with
      | .isTrue h1, .isTrue h2 => .isTrue (by rw [h1, h2])
      | .isFalse h1, _ => .isFalse (by intro e; cases e; exact h1 rfl)
      | _, .isFalse h2 => .isFalse (by intro e; cases e; exact h2 rfl)
  | .prePost p q n, .prePost p' q' n' =>
      if h : p = p' ∧ q = q' ∧ n = n' then .isTrue (by rw [h.1, h.2.1, h.2.2])
      else .isFalse (by intro e; cases e; exact h ⟨rfl, rfl, rfl⟩)
  | .plain _, .metaAct _ _ => .isFalse (by intro e; cases e)
  | .plain _, .prePost _ _ _ => .isFalse (by intro e; cases e)
  | .metaAct _ _, .plain _ => .isFalse (by intro e; cases e)
  | .metaAct _ _, .prePost _ _ _ => .isFalse (by intro e; cases e)
  | .prePost _ _ _, .plain _ => .isFalse (by intro e; cases e)
  | .prePost _ _ _, .metaAct _ _ => .isFalse (by intro e; cases e)
/-- Equality of lists of actions is decidable. -/
def Act.decEqL : (a b : List Act) → Decidable (a = b)
  | [], [] => .isTrue rfl
  | a :: as, b :: bs =>
      match Act.decEq a b, Act.decEqL as bs with
      | .isTrue h1, .isTrue h2 => .isTrue (by rw [h1, h2])
      | .isFalse h1, _ => .isFalse (by intro e; cases e; exact h1 rfl)
      | _, .isFalse h2 => .isFalse (by intro e; cases e; exact h2 rfl)
  | [], _ :: _ => .isFalse (by intro e; cases e)
  | _ :: _, [] => .isFalse (by intro e; cases e)
end

instance : DecidableEq Act := Act.decEq

namespace Hierarchy
open BaseGraph Chains Cliques

/-- `history_states_path`, `samples/test_hierarchies.py:29-36`, on the list of names `history.split(':')`: the states are
the prefixes of the history (`HState.__init__`, line 17, joins the names) and `actions[h]` is `AbstractAction(h)`. -/
def historyPath (history : List String) : List (Elem String Act) :=
  history.zipIdx.flatMap (fun hi => [.state (String.intercalate ":" (history.take hi.2)), .action (.plain hi.1)]) ++
    [.state (String.intercalate ":" history)]

variable {S : Type} [DecidableEq S]

/-- The orders in which CPython happens to visit the sets during one round. -/
structure Orders (S : Type) where
  /-- `all_transitions()` in `get_max_chains`, `task.py:273` -/
  trans : List (Act × S × Act) → List (Act × S × Act)
  /-- `all_nodes()` in `get_max_chains`, `task.py:272` -/
  nodes : List Act → List Act
  /-- `to_explore.pop()`, `task.py:286`, at each iteration -/
  pop : Nat → Cfg Act → Act
  /-- `all_transitions()` in `get_max_cliques`, `task.py:318` -/
  trans' : List (Act × S × Act) → List (Act × S × Act)
  /-- `all_nodes()` in `get_max_cliques`, `task.py:319` -/
  nodes' : List Act → List Act
  /-- the set `unique`, `task.py:320` -/
  uniq : List (Act × Act) → List (Act × Act)
  /-- the sets of `_bron_kerbosch`, `task.py:79-81` -/
  sets : List Act → List Act → List Act
  /-- the members of the clique, `task.py:365` -/
  members : List Act → List Act
  /-- `list(self.all_transitions())` in `compact`, `task.py:148` -/
  snap : List (Act × S × Act) → List (Act × S × Act)

/-- `next(generator)` on `get_max_chains`: run the loop of `task.py:284-310` until a chain is yielded (`none`: the loop
ends and `next` raises `StopIteration`).  `unfinished` when `fuel` iterations are not enough. -/
def nextChain (ut : List (Act × List Act)) (indeg : List (Act × Nat)) (pop : Nat → Cfg Act → Act) :
    Nat → Cfg Act → Py (Option (List Act))
  | 0, _ => .error .unfinished
  | fuel + 1, c =>
      if c.finished then .ok none
      else
        match Chains.step ut indeg c (pop fuel c) with
        | .error e => .error e
        | .ok (_, some ch) => .ok (some ch)
        | .ok (c', none) => nextChain ut indeg pop fuel c'

/-- `next(cg.get_max_chains())`, `samples/test_hierarchies.py:50` with `task.py:266-310`. -/
def firstChain (o : Orders S) (fuel : Nat) (c : ConjGraph Act S) : Py (Option (List Act)) := do
  let order := o.trans c.toBaseGraph.allTransitions
  let (ut, indeg) ← degrees (o.nodes (allNodes order)) order
  nextChain ut indeg o.pop fuel (start c.initial)

/-- `next(cg.get_max_cliques())`, `samples/test_hierarchies.py:54` with `task.py:312-324`; the generator is modelled by
the list of all it yields. -/
def firstClique (o : Orders S) (limit : Nat) (c : ConjGraph Act S) : Py (Option (List Act)) := do
  let order := o.trans' c.toBaseGraph.allTransitions
  let all ← getMaxCliques (o.nodes' (allNodes order)) order o.uniq o.sets limit
  return all.head?

/-- `cg.compact(group, MetaAction(kind, group))`, `samples/test_hierarchies.py:51, 55`; `''` is the label `emp`. -/
def group (emp : S) (o : Orders S) (c : ConjGraph Act S) (kind : String) (members : List Act) :
    Py (ConjGraph Act S) := do
  let new ← mkMeta kind members
  c.compact emp (o.snap c.toBaseGraph.allTransitions) members new

/-- One round, `samples/test_hierarchies.py:49-57`; `none` is the `break` of line 57. -/
def round (emp : S) (o : Orders S) (limit fuel : Nat) (c : ConjGraph Act S) : Py (Option (ConjGraph Act S)) := do
  match ← firstChain o fuel c with
  | some chain => return some (← group emp o c "sequence" chain)
  | none =>
      match ← firstClique o limit c with
      | some clique => return some (← group emp o c "parallel" (o.members clique))
      | none => return none

/-- The loop of `samples/test_hierarchies.py:44-57`; `os k` gives the orders of the round after which `k` more are
allowed; `unfinished` when the rounds are not enough. -/
def extract (emp : S) (os : Nat → Orders S) (limit fuel : Nat) : Nat → ConjGraph Act S → Py (ConjGraph Act S)
  | 0, _ => .error .unfinished
  | rounds + 1, c =>
      if (allNodes c.toBaseGraph.allTransitions).length > 1 then
        match round emp (os rounds) limit fuel c with
        | .error e => .error e
        | .ok none => .ok c
        | .ok (some c') => extract emp os limit fuel rounds c'
      else .ok c

/-- `AbstractAction('initial')` and `AbstractAction('terminal')`, `task.py:235-236`. -/
def initialAct : Act := .plain "initial"
/-- See `initialAct`. -/
def terminalAct : Act := .plain "terminal"

/-- `g.conjugate()`, `samples/test_hierarchies.py:42` with `task.py:214-215, 233-256`. -/
def conjGraph (ordS : List S → List S) (ordT : List (Act × S) → List (Act × S)) (g : TaskGraph S Act) :
    Py (ConjGraph Act S) := do
  let b ← g.conjugate ordS ordT initialAct terminalAct
  return { toBaseGraph := b, initial := initialAct, terminal := terminalAct }

end Hierarchy
end Verif
