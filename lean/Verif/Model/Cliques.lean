import Verif.Model.TaskGraph

/-!
# Model of `max_cliques`, `_bron_kerbosch` and `ConjugateTaskGraph.get_max_cliques` (`task.py:60-88, 312-324`)

Generators are modelled by the list of everything they yield.  The order in which a set is iterated is given by an
oracle `ord`, which may depend on the recursive call (through `r`) and on the set.  `fuel` is Python's recursion limit:
when it is exhausted the call raises `RecursionError` (a `RuntimeError`).
-/

namespace Verif.Cliques
open Verif
variable {α : Type} [DecidableEq α]

/-- `graph[u]`. -/
def nbrs (graph : List (α × List α)) (u : α) : Py (List α) :=
  match dget graph u with
  | some s => .ok s
  | none => .error .keyError

/-- `max(it, key=...)` over a list: the first element with the largest key (`task.py:79`). -/
def pyMax (key : α → Nat) : α → List α → α
  | best, [] => best
  | best, x :: xs => if key best < key x then pyMax key x xs else pyMax key best xs

/-- `len(graph[u].intersection(p))`, `task.py:79`. -/
def degIn (graph : List (α × List α)) (p : List α) (u : α) : Nat :=
  match nbrs graph u with
  | .ok s => (s.filter (fun v => decide (v ∈ p))).length
  | .error _ => 0

/-- The loop of `task.py:81-88` over the elements `us`, with `rec` for the recursive call.
`p.remove(u)` raises `KeyError` when `u` is not in `p`. -/
def bkLoop (graph : List (α × List α)) (rec : List α → List α → List α → Py (List (List α))) (r : List α) :
    List α → List α → List α → Py (List (List α))
  | [], _, _ => .ok []
  | u :: us, p, x => do
      let nu ← nbrs graph u
      let o1 ← rec (setAdd r u) (p.filter (fun v => decide (v ∈ nu))) (x.filter (fun v => decide (v ∈ nu)))
      if u ∈ p then
        let o2 ← bkLoop graph rec r us (p.erase u) (setAdd x u)
        return o1 ++ o2
      else .error .keyError

/-- `_bron_kerbosch`, `task.py:75-88`.  The key of line 79 reads `graph[u]` for each `u` of `p`, which raises `KeyError`
if `u` is no key. -/
def bk (graph : List (α × List α)) (ord : List α → List α → List α) :
    Nat → List α → List α → List α → Py (List (List α))
  | 0, _, _, _ => .error .runtimeError
  | fuel + 1, r, p, x =>
      match ord r p with
      | [] => .ok (if x.isEmpty then [r] else [])
      | v :: vs => do
          (v :: vs).forM fun u => (nbrs graph u).map fun _ => ()
          let pivot := pyMax (degIn graph p) v vs
          let np ← nbrs graph pivot
          bkLoop graph (bk graph ord fuel) r (ord r (p.filter (fun v => decide (v ∉ np)))) p x

/-- `max_cliques`, `task.py:60-72`. -/
def maxCliques (graph : List (α × List α)) (ord : List α → List α → List α) (fuel : Nat) : Py (List (List α)) := do
  let all ← bk graph ord fuel [] (graph.map Prod.fst) []
  return all.filter fun c => decide (c.length > 1)

variable {S : Type} [DecidableEq S]

/-- Body of the loop of `task.py:320-323`. -/
def symStep (unique : List (α × α)) (sym : List (α × List α)) (sd : α × α) : Py (List (α × List α)) :=
  if (sd.2, sd.1) ∈ unique then do
    let a ← nbrs sym sd.1
    let sym1 := dset sym sd.1 (setAdd a sd.2)
    let b ← nbrs sym1 sd.2
    return dset sym1 sd.2 (setAdd b sd.1)
  else .ok sym

/-- `get_max_cliques`, `task.py:312-324`; `order` is the order of `all_transitions()`, `nodeOrder` of `all_nodes()` and
`uniqOrd` the iteration order of the set `unique`. -/
def getMaxCliques (nodeOrder : List α) (order : List (α × S × α)) (uniqOrd : List (α × α) → List (α × α))
    (ord : List α → List α → List α) (fuel : Nat) : Py (List (List α)) := do
  let unique := setOf (order.map fun t => (t.1, t.2.2))
  let sym ← (uniqOrd unique).foldlM (symStep unique) (nodeOrder.map fun n => (n, []))
  maxCliques sym ord fuel

end Verif.Cliques
