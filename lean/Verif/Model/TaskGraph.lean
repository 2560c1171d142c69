import Verif.Py

/-!
# Model of `task_models/task.py`, graphs (lines 33–57 and 91–264)

States, actions and labels are abstract types with decidable equality (Python: hashable objects whose `__eq__` and
`__hash__` are consistent, as `state.py:10-15` requires).  `chk a s s'` is `a.check(s, s')` and is assumed to return
(not to raise).  The order in which CPython iterates over a set is arbitrary: functions whose code iterates over a set
take the visited list as an argument (`snapshot`, `order...`), and the theorems quantify over all permutations.
-/

namespace Verif

/-- An entry of a path: a `State`, an `Action` or any other object (`task.py:41-50` uses `isinstance`). -/
inductive Elem (S A : Type) where
  | state (s : S)
  | action (a : A)
  | other
  deriving DecidableEq, Repr

/-- `check_path`, `task.py:33-52`.  `path[2]` out of range raises `IndexError`, which is caught and gives `False`
(`task.py:51-52`). -/
def checkPath {S A : Type} (chk : A → S → S → Bool) : List (Elem S A) → Bool
  | [] => true                                              -- line 42
  | .state _ :: [] => true                                  -- lines 43-44
  | .state s0 :: .action a :: .state s1 :: rest =>          -- lines 45-48
      chk a s0 s1 && checkPath chk (.state s1 :: rest)
  | .state _ :: .action _ :: [] => false                    -- path[2]: IndexError, line 51
  | .state _ :: .action _ :: _ :: _ => false                -- line 46
  | .state _ :: _ :: _ => false                             -- line 45
  | _ => false                                              -- line 43

/-- `split_path`, `task.py:55-57`: the triples at positions `0, 2, 4, ... < len - 2`
(the comprehension over `range(0, len(path) - 2, 2)` written as a recursion that advances by two). -/
def splitPath {α : Type} : List α → List (α × α × α)
  | x :: y :: z :: rest => (x, y, z) :: splitPath (z :: rest)
  | _ => []

/-- The triples of `split_path` whose members are a state, an action and a state.  On a checked path these are all of
them; the untyped Python code does not need this step. -/
def typedSteps {S A : Type} (p : List (Elem S A)) : List (S × A × S) :=
  (splitPath p).filterMap fun t =>
    match t with
    | (.state s, .action a, .state s') => some (s, a, s')
    | _ => none

/-- `BaseGraph`, `task.py:91-98`: `transitions` is a dictionary from sources to sets of (label, destination). -/
structure BaseGraph (N L : Type) where
  transitions : List (N × List (L × N)) := []
  deriving Repr

namespace BaseGraph
variable {N L : Type} [DecidableEq N] [DecidableEq L]

/-- `BaseGraph.__eq__`, `task.py:100-102`: equality of dictionaries of sets (same number of keys, and the value under
every key of the left one is equal to the value under the same key of the right one). -/
def eq (g h : BaseGraph N L) : Bool :=
  decide (g.transitions.length = h.transitions.length) &&
    g.transitions.all fun kv =>
      match dget h.transitions kv.1 with
      | some s => setEq kv.2 s
      | none => false

/-- `add_transition`, `task.py:104-107`. -/
def addTransition (g : BaseGraph N L) (s : N) (l : L) (d : N) : BaseGraph N L :=
  { transitions := dset g.transitions s (setAdd ((dget g.transitions s).getD []) (l, d)) }

/-- `has_transition`, `task.py:109-111`. -/
def hasTransition (g : BaseGraph N L) (s : N) (l : L) (d : N) : Bool :=
  match dget g.transitions s with
  | some out => decide ((l, d) ∈ out)
  | none => false

/-- `all_transitions`, `task.py:113-116` (in one particular iteration order). -/
def allTransitions (g : BaseGraph N L) : List (N × L × N) :=
  g.transitions.flatMap fun kv => kv.2.map fun ld => (kv.1, ld.1, ld.2)

/-- `remove_transition`, `task.py:118-119`: `KeyError` if the source is no key or the pair is not in its set. -/
def removeTransition (g : BaseGraph N L) (s : N) (l : L) (d : N) : Py (BaseGraph N L) :=
  match dget g.transitions s with
  | none => .error .keyError
  | some out =>
      if (l, d) ∈ out then .ok { transitions := dset g.transitions s (out.erase (l, d)) }
      else .error .keyError

/-- `all_nodes`, `task.py:121-126`, for the iteration order `order` of `all_transitions`. -/
def allNodes (order : List (N × L × N)) : List N :=
  order.foldl (fun ns t => setAdd (setAdd ns t.1) t.2.2) []

/-- What `as_dictionary` returns, `task.py:128-138` (`label` entries are rendered with `str`). -/
structure GraphDict where
  name : String
  /-- `{'id': i, 'value': {'label': ...}}` -/
  nodes : List (Nat × String)
  /-- `{'u': ..., 'v': ..., 'value': {'label': ...}}` -/
  links : List (Nat × Nat × String)
  deriving Repr

/-- `nodes_ids = dict([(n, i) for i, n in all_nodes])`, `task.py:133`. -/
def nodeIds (nodeOrder : List N) : List (N × Nat) :=
  nodeOrder.zipIdx.foldl (fun d ni => dset d ni.1 ni.2) []

/-- One entry of `links`, `task.py:134-137`. -/
def linkOf (strL : L → String) (ids : List (N × Nat)) (t : N × L × N) : Py (Nat × Nat × String) :=
  match dget ids t.1, dget ids t.2.2 with
  | some u, some v => .ok (u, v, strL t.2.1)
  | _, _ => .error .keyError

/-- `as_dictionary`, `task.py:128-138`.  `nodeOrder` is the order in which the set returned by `all_nodes()` is
enumerated, `order` the order of `all_transitions()`.  `nodes_ids[u]` raises `KeyError` if `u` is missing. -/
def asDictionary (strN : N → String) (strL : L → String) (nodeOrder : List N) (order : List (N × L × N))
    (name : String) : Py GraphDict := do
  let links ← order.mapM (linkOf strL (nodeIds nodeOrder))
  return { name := name, nodes := nodeOrder.zipIdx.map (fun ni => (ni.2, strN ni.1)), links := links }

/-- Body of the loop of `compact`, `task.py:148-155`; `emp` is the empty label `''`. -/
def compactStep (emp : L) (nodes : List N) (new : N) (g : BaseGraph N L) (t : N × L × N) : Py (BaseGraph N L) :=
  let sin := decide (t.1 ∈ nodes)
  let din := decide (t.2.2 ∈ nodes)
  if sin || din then
    match g.removeTransition t.1 t.2.1 t.2.2 with
    | .error e => .error e
    | .ok g' =>
        if !(sin && din) then
          .ok (g'.addTransition (if sin then new else t.1) emp (if din then new else t.2.2))
        else .ok g'
  else .ok g

/-- `compact`, `task.py:140-155`; `snapshot` is `list(self.all_transitions())`. -/
def compact (emp : L) (g : BaseGraph N L) (snapshot : List (N × L × N)) (nodes : List N) (new : N) :
    Py (BaseGraph N L) :=
  snapshot.foldlM (compactStep emp nodes new) g

end BaseGraph

/-- `TaskGraph`, `task.py:158-166`. -/
structure TaskGraph (S A : Type) extends BaseGraph S A where
  initial : List S := []
  terminal : List S := []
  deriving Repr

namespace TaskGraph
variable {S A : Type} [DecidableEq S] [DecidableEq A]

/-- `TaskGraph.__eq__`, `task.py:168-172`. -/
def eq (g h : TaskGraph S A) : Bool :=
  g.toBaseGraph.eq h.toBaseGraph && setEq g.initial h.initial && setEq g.terminal h.terminal

/-- `self.initial.add(path[0]); self.terminal.add(path[-1])`, `task.py:177-179`. -/
def addEnds (g : TaskGraph S A) (p : List (Elem S A)) : TaskGraph S A :=
  match p.head?, p.getLast? with
  | some (.state s0), some (.state sn) =>
      { g with initial := setAdd g.initial s0, terminal := setAdd g.terminal sn }
  | _, _ => g

/-- `add_path`, `task.py:174-181`. -/
def addPath (chk : A → S → S → Bool) (g : TaskGraph S A) (p : List (Elem S A)) : Py (TaskGraph S A) :=
  if checkPath chk p then
    let g1 := g.addEnds p
    .ok { g1 with
      toBaseGraph := (typedSteps p).foldl (fun b t => b.addTransition t.1 t.2.1 t.2.2) g1.toBaseGraph }
  else .error .valueError

/-- `has_path`, `task.py:183-194`. -/
def hasPath (chk : A → S → S → Bool) (g : TaskGraph S A) (p : List (Elem S A)) : Py Bool :=
  if checkPath chk p then
    .ok (p.isEmpty ||
      ((match p.head? with | some (.state s) => decide (s ∈ g.initial) | _ => false) &&
       (match p.getLast? with | some (.state s) => decide (s ∈ g.terminal) | _ => false) &&
       (typedSteps p).all fun t => g.toBaseGraph.hasTransition t.1 t.2.1 t.2.2))
  else .error .valueError

/-- The loop of `check_only_deterministic_transitions_from_state`, `task.py:196-204`, over the outgoing pairs in
iteration order; `seen` is `outgoing_actions`. -/
def checkDetFrom (seen : List A) : List (A × S) → Py Unit
  | [] => .ok ()
  | (a, _) :: rest => if a ∈ seen then .error .valueError else checkDetFrom (seen ++ [a]) rest

/-- `check_only_deterministic_transitions`, `task.py:206-212`; `ordT` is the iteration order of each set. -/
def checkDeterministic (ordT : List (A × S) → List (A × S)) (g : TaskGraph S A) : Py Unit :=
  g.transitions.forM fun kv => checkDetFrom [] (ordT kv.2)

/-- First loop of `from_task_graph`, `task.py:243-245`: transitions `initial --(s)--> a`. -/
def conjInitial (ordT : List (A × S) → List (A × S)) (ini : A) (g : TaskGraph S A) (c : BaseGraph A S) (s : S) :
    Py (BaseGraph A S) :=
  match dget g.transitions s with
  | none => .error .keyError                                    -- tg.transitions[s]
  | some out => .ok ((ordT out).foldl (fun c as => c.addTransition ini s as.1) c)

/-- Body of the second loop of `from_task_graph`, `task.py:247-255`. -/
def conjStep (ordT : List (A × S) → List (A × S)) (ter : A) (g : TaskGraph S A) (c : BaseGraph A S) (as : A × S) :
    Py (BaseGraph A S) :=
  if as.2 ∈ g.terminal then .ok (c.addTransition as.1 as.2 ter)   -- line 250
  else
    match dget g.transitions as.2 with
    | none => .error .keyError                                    -- tg.transitions[next_state], line 253
    | some out => .ok ((ordT out).foldl (fun c as' => c.addTransition as.1 as.2 as'.1) c)

/-- `ConjugateTaskGraph.from_task_graph`, `task.py:238-256`.  Nodes are actions; `ini` and `ter` are the class
attributes `AbstractAction('initial')` and `AbstractAction('terminal')` (`task.py:235-236`).  `ordS`, `ordT` are the
iteration orders of sets of states and of sets of pairs. -/
def conjugate (ordS : List S → List S) (ordT : List (A × S) → List (A × S)) (ini ter : A) (g : TaskGraph S A) :
    Py (BaseGraph A S) := do
  g.checkDeterministic ordT
  let c ← (ordS g.initial).foldlM (conjInitial ordT ini g) {}
  g.transitions.foldlM (fun c kv => (ordT kv.2).foldlM (conjStep ordT ter g) c) c

end TaskGraph

/-- A `ConjugateTaskGraph` object: the graph plus its `initial` and `terminal` attributes (`task.py:233-236`). -/
structure ConjGraph (A S : Type) extends BaseGraph A S where
  initial : A
  terminal : A

/-- `ConjugateTaskGraph.compact`, `task.py:258-264`. -/
def ConjGraph.compact {A S : Type} [DecidableEq A] [DecidableEq S] (emp : S) (c : ConjGraph A S)
    (snapshot : List (A × S × A)) (nodes : List A) (new : A) : Py (ConjGraph A S) := do
  let g ← c.toBaseGraph.compact emp snapshot nodes new
  return { toBaseGraph := g
           initial := if c.initial ∈ nodes then new else c.initial
           terminal := if c.terminal ∈ nodes then new else c.terminal }

end Verif
