import Verif.Model.TaskGraph

/-!
# Model of `ConjugateTaskGraph.get_max_chains`, `task.py:266-310`

The generator is a small-step machine: one step is one iteration of the `while` loop (`task.py:284-310`), and it may
yield a chain.  `to_explore.pop()` removes an arbitrary element: the step takes the popped element as an argument.
The parameter `exclude` is not used by the code.
-/

namespace Verif.Chains
open Verif
variable {A S : Type} [DecidableEq A] [DecidableEq S]

/-- One iteration of the loop of `task.py:273-276`: `acc` is (`unique_transitions`, `in_degree`). -/
def degreeStep (acc : List (A × List A) × List (A × Nat)) (t : A × S × A) :
    Py (List (A × List A) × List (A × Nat)) :=
  match dget acc.1 t.1 with
  | none => .error .keyError
  | some ds =>
      .ok (dset acc.1 t.1 (setAdd ds t.2.2),
           if t.2.2 ∈ ds then acc.2 else dset acc.2 t.2.2 ((dget acc.2 t.2.2).getD 0 + 1))

/-- `task.py:271-276`: `nodeOrder` enumerates `all_nodes()`, `order` is the order of `all_transitions()`. -/
def degrees (nodeOrder : List A) (order : List (A × S × A)) : Py (List (A × List A) × List (A × Nat)) :=
  order.foldlM degreeStep (nodeOrder.map (fun n => (n, [])), [])

/-- Local variables of the loop, `task.py:277-279`. -/
structure Cfg (A : Type) where
  toExplore : List A
  explored : List A
  chain : Option (List A)

/-- `task.py:277-279`. -/
def start (ini : A) : Cfg A := { toExplore := [ini], explored := [], chain := none }

/-- The loop condition of line 284 is false. -/
def Cfg.finished (c : Cfg A) : Bool := c.toExplore.isEmpty && c.chain.isNone

/-- `to_explore.update(unique_transitions[node].difference(explored))`, `task.py:281-282`. -/
def addSuccs (ds : List A) (c : Cfg A) : Cfg A :=
  { c with toExplore := (ds.filter (fun d => decide (d ∉ c.explored))).foldl setAdd c.toExplore }

/-- One iteration of the loop, `task.py:284-310`; returns the new variables and the yielded chain, if any.
`choice` is the element returned by `to_explore.pop()`; it is ignored while a chain is being built. -/
def step (ut : List (A × List A)) (indeg : List (A × Nat)) (c : Cfg A) (choice : A) :
    Py (Cfg A × Option (List A)) :=
  match c.chain with
  | none =>                                                           -- lines 285-291
      let c1 : Cfg A := { c with toExplore := c.toExplore.erase choice, explored := setAdd c.explored choice }
      match dget ut choice with
      | none => .error .keyError
      | some ds =>
          if ds.length = 1 then .ok ({ c1 with chain := some [choice] }, none)
          else .ok (addSuccs ds c1, none)
  | some ch =>                                                        -- lines 293-310
      match ch.getLast? with
      | none => .error .indexError
      | some node =>
          match dget ut node with
          | none => .error .keyError
          | some [next] =>
              match dget indeg next with
              | none => .error .keyError
              | some k =>
                  if k = 1 then
                    let ch' := ch ++ [next]
                    let c1 : Cfg A := { c with explored := setAdd c.explored next, chain := some ch' }
                    match dget ut next with
                    | none => .error .keyError
                    | some ds =>
                        if ds.length = 1 then .ok (c1, none)
                        else .ok ({ addSuccs ds c1 with chain := none }, if ch'.length > 1 then some ch' else none)
                  else
                    .ok ({ c with toExplore := setAdd c.toExplore next, chain := none },
                         if ch.length > 1 then some ch else none)
          | some _ => .error .assertionError

/-- Executions of the generator: `Exec ut indeg ini n c outs` says that after `n` iterations, for some sequence of
popped elements, the variables are `c` and the chains yielded so far are `outs`. -/
inductive Exec (ut : List (A × List A)) (indeg : List (A × Nat)) (ini : A) : Nat → Cfg A → List (List A) → Prop
  | init : Exec ut indeg ini 0 (start ini) []
  | step {n c outs c' y} (choice : A) : Exec ut indeg ini n c outs → c.finished = false →
      (c.chain = none → choice ∈ c.toExplore) → step ut indeg c choice = .ok (c', y) →
      Exec ut indeg ini (n + 1) c' (outs ++ y.toList)

end Verif.Chains
