import Verif.Model.Htm

/-!
# Model of the conversion of task trees to DAGs (`supportive.py:9-45`)

The recursion limit of the interpreter is the first argument of `getInitialFinal` (number of nested calls); reaching it
raises `RecursionError`, a `RuntimeError`.  The iteration order of the set in `unique` is a parameter.
-/

namespace Verif

/-- The attributes `nodes` and `succs` of `_HTMToDAG`, `supportive.py:15-17`. -/
structure Dag (A : Type) where
  nodes : List (Htm A)
  succs : List (List Nat)

/-- `push`, `supportive.py:20-23`. -/
def Dag.push {A : Type} (d : Dag A) (n : Htm A) : Nat × Dag A := (d.nodes.length, ⟨d.nodes ++ [n], d.succs ++ [[]]⟩)

/-- A list comprehension `[f(x) for x in l]` where `f` updates a state and may raise. -/
def mapAccumM {α β σ : Type} (f : α → σ → Py (β × σ)) : List α → σ → Py (List β × σ)
  | [], s => .ok ([], s)
  | x :: xs, s => do
      let r ← f x s
      let rs ← mapAccumM f xs r.2
      return (r.1 :: rs.1, rs.2)

/-- `for l in ll: self.succs[l] = ff`, `supportive.py:38-39`. -/
def Dag.setSuccs {A : Type} (d : Dag A) (ll ff : List Nat) : Dag A :=
  ⟨d.nodes, ll.foldl (fun ss l => ss.set l ff) d.succs⟩

/-- The loop `for ff, ll in zip(first[1:], last[:-1])`, `supportive.py:37-39`, on the list of pairs `(first, last)`. -/
def Dag.linkSeq {A : Type} : List (List Nat × List Nat) → Dag A → Dag A
  | p :: q :: rest, d => Dag.linkSeq (q :: rest) (d.setSuccs p.2 q.1)
  | _, d => d

/-- The kind and the children of the node after `if isinstance(node, ParallelCombination): node = node.to_alternative()`,
`supportive.py:33-35`. -/
def expandParallel {A : Type} (ops : ActOps A) (kind : Kind) (cs : List (Htm A)) (name : String) (h : Bool) :
    Py (Kind × List (Htm A)) :=
  match kind with
  | .parallel => do
      let alt ← toAlternative ops cs name h
      return (.alternative, alt.children)
  | k => .ok (k, cs)

/-- The end of `get_initial_final`, `supportive.py:35-45`: `zip(*[])` cannot be unpacked into two variables and raises
`ValueError`. -/
def joinChildren {A : Type} (uniq : List Nat → List Nat) (kind : Kind) (fl : List (List Nat × List Nat)) (d : Dag A) :
    Py ((List Nat × List Nat) × Dag A) :=
  match fl with
  | [] => .error .valueError
  | p :: rest =>
      match kind with
      | .sequential => .ok ((p.1, ((p :: rest).getLast (by simp)).2), Dag.linkSeq (p :: rest) d)
      | _ => .ok ((uniq ((p :: rest).flatMap Prod.fst), uniq ((p :: rest).flatMap Prod.snd)), d)

/-- `get_initial_final`, `supportive.py:25-45`; `uniq` is `unique`, `supportive.py:9-10`. -/
def getInitialFinal {A : Type} (ops : ActOps A) (uniq : List Nat → List Nat) :
    Nat → Htm A → Dag A → Py ((List Nat × List Nat) × Dag A)
  | 0, _, _ => .error .runtimeError
  | _ + 1, .leaf a i p h, d =>
      let r := d.push (.leaf a i p h)
      .ok (([r.1], [r.1]), r.2)
  | fuel + 1, .comb kind cs _ _ name h _, d => do
      let kc ← expandParallel ops kind cs name h
      let r ← mapAccumM (getInitialFinal ops uniq fuel) kc.2 d
      joinChildren uniq kc.1 r.1 r.2

/-- `_HTMToDAG(node)`, `supportive.py:15-18`: the initial leaves and the DAG. -/
def htmToDag {A : Type} (ops : ActOps A) (uniq : List Nat → List Nat) (limit : Nat) (node : Htm A) :
    Py (List Nat × Dag A) := do
  let r ← getInitialFinal ops uniq limit node ⟨[], []⟩
  return (r.1.1, r.2)

end Verif
