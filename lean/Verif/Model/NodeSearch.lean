import Verif.Model.Export
import Verif.Model.Trajectory

/-!
# Model of the enumeration of a search tree (`samples/pomcp.py:13-85` and `lib/pomcp.py:286-288`)

* `heapq` is modelled by its contract: `heappop` removes the least entry.  The order of the list in the memory is not modelled: the
  queue keeps the order in which the entries were pushed.
* Entries are compared by the opposite of the value and then by the history, as lists of names.  If these are equal, Python compares
  the nodes, which raises `TypeError`; in the model the first entry comes first.  This does not occur if the names of the actions
  and of the observations are distinct.  Names of both kinds, which Python does not compare, are ordered arbitrarily.
* `print` is omitted.  The `while` loop is cut off after `bound` iterations, with the pseudo exception `unfinished`.
* The module itself imports `POMCPPolicyRunner` from `lib/pomdp.py`, where it is not defined any more (`samples/pomcp.py:6`): the
  functions can be used only after this import is corrected.  The script that follows them is not modelled.
-/

namespace Verif

variable {σ β : Type}

/-! ### The queue -/

/-- An entry of the queue, with the value used by the heap, `samples/pomcp.py:13-18, 59`. -/
structure QueueEntry where
  value : ℚ
  hist : List Name
  node : Nat
  deriving DecidableEq, Repr

/-- `a < b` for names. -/
def Name.less : Name → Name → Bool
  | .int a, .int b => decide (a < b)
  | .str a, .str b => decide (a < b)
  | .int _, .str _ => true
  | .str _, .int _ => false

/-- `h < h'` for lists of names. -/
def histLess : List Name → List Name → Bool
  | [], [] => false
  | [], _ :: _ => true
  | _ :: _, [] => false
  | a :: h, b :: h' => if a = b then histLess h h' else a.less b

/-- The comparison of the entries of the heap, `samples/pomcp.py:18`. -/
def QueueEntry.less (e e' : QueueEntry) : Bool :=
  if e.value = e'.value then histLess e.hist e'.hist else decide (-e.value < -e'.value)

/-- `queue.pop(0)`, `samples/pomcp.py:21-22`. -/
def popFirst : List QueueEntry → Option (QueueEntry × List QueueEntry)
  | [] => none
  | e :: q => some (e, q)

/-- `queue.pop()`, `samples/pomcp.py:25-26`. -/
def popLast : List QueueEntry → Option (QueueEntry × List QueueEntry)
  | [] => none
  | e :: q => match popLast q with
      | none => some (e, [])
      | some (x, r) => some (x, e :: r)

/-- `heappop(queue)`, `samples/pomcp.py:29-31`: the least entry. -/
def popHeap : List QueueEntry → Option (QueueEntry × List QueueEntry)
  | [] => none
  | e :: q => match popHeap q with
      | none => some (e, [])
      | some (x, r) => if x.less e then some (x, e :: r) else some (e, q)

/-- The function `pop` of the given order, `samples/pomcp.py:36-43`. -/
def popFor (order : String) : Py (List QueueEntry → Option (QueueEntry × List QueueEntry)) :=
  if order = "breadth" then .ok popFirst
  else if order = "depth" then .ok popLast
  else if order = "q" then .ok popHeap
  else .error .valueError

/-! ### The enumeration -/

/-- `children_dict`, `lib/pomcp.py:286-288`. -/
def childrenDict (actions : List Name) (nd : ONode β) : Py (List (Name × ANode)) := do
  let names ← namesAt actions ((initChildren nd.children).map Prod.fst)
  .ok ((names.zip ((initChildren nd.children).map Prod.snd)).foldl (fun d x => dset d x.1 x.2) [])

/-- The entries pushed for the action of name `a` with the node `c`, `samples/pomcp.py:56-59`. -/
def pushesOf (observations : List Name) (t : Tree β) (h : List Name) (a : Name) (c : ANode) : Py (List QueueEntry) := do
  let names ← namesAt observations (c.children.map Prod.fst)
  .ok ((names.zip (c.children.map Prod.snd)).map fun x => ⟨(t.nodes x.2).avg.value, h ++ [a, x.1], x.2⟩)

/-- The entries pushed for the actions of a dictionary, `samples/pomcp.py:55-59`. -/
def pushesAll (observations : List Name) (t : Tree β) (h : List Name) : List (Name × ANode) → Py (List QueueEntry)
  | [] => .ok []
  | (a, c) :: d => do
      let es ← pushesOf observations t h a c
      let rest ← pushesAll observations t h d
      .ok (es ++ rest)

/-- The entries pushed after `e` has been popped, `samples/pomcp.py:54-59`. -/
def pushesAfter (sim : Sim σ β) (t : Tree β) (e : QueueEntry) : Py (List QueueEntry) := do
  let d ← childrenDict sim.actions (t.nodes e.node)
  pushesAll sim.observations t e.hist d

/-- `max_nodes is None or len(nodes) < max_nodes`, `samples/pomcp.py:50`. -/
def moreNodes (maxNodes : Option Int) (found : List QueueEntry) : Bool :=
  match maxNodes with
  | none => true
  | some k => decide ((found.length : Int) < k)

/-- The loop, `samples/pomcp.py:50-59`: the entries that have been popped. -/
def searchLoop (sim : Sim σ β) (t : Tree β) (pop : List QueueEntry → Option (QueueEntry × List QueueEntry)) (maxNodes : Option Int) :
    Nat → List QueueEntry → List QueueEntry → Py (List QueueEntry)
  | 0, _, _ => .error .unfinished
  | bound + 1, queue, found =>
      if moreNodes maxNodes found then
        match pop queue with
        | none => .ok found
        | some (e, rest) => do
            let new ← pushesAfter sim t e
            searchLoop sim t pop maxNodes bound (rest ++ new) (found ++ [e])
      else .ok found

/-- `node_search`, `samples/pomcp.py:34-61`: the histories and the nodes. -/
def nodeSearch (sim : Sim σ β) (t : Tree β) (bound : Nat) (order : String) (maxNodes : Option Int) : Py (List (List Name) × List Nat) := do
  let pop ← popFor order
  let found ← searchLoop sim t pop maxNodes bound [⟨(t.nodes 0).avg.value, [], 0⟩] []
  .ok (found.map QueueEntry.hist, found.map QueueEntry.node)

/-! ### The text of a history -/

/-- The pairs given by `by_two`, `samples/pomcp.py:64-68`. -/
def byTwo {α : Type} : List α → List (α × α)
  | x :: y :: l => (x, y) :: byTwo l
  | _ => []

/-- `s[0]`. -/
def firstChar : List Char → Py Char
  | [] => .error .indexError
  | c :: _ => .ok c

/-- `short_a`, `samples/pomcp.py:71-72`. -/
def shortAction (action : List Char) : Py (List Char) := (splitOn '-' action).mapM firstChar

/-- `short_o`, `samples/pomcp.py:75-79`. -/
def shortObservation (observation : List Char) : Py (List Char) :=
  if observation = "none".toList then .ok ['∅'] else do
    let c ← firstChar observation
    .ok [c]

/-- The text of one pair, `samples/pomcp.py:84`. -/
def shortPair (x : List Char × List Char) : Py (List Char) := do
  let a ← shortAction x.1
  let o ← shortObservation x.2
  .ok (a ++ [':'] ++ o)

/-- `format_history`, `samples/pomcp.py:82-85`.  `by_two` ends with an exception `StopIteration` inside a generator: from Python 3.7
on (`python37`) this raises `RuntimeError` where the generator is used; in older versions it is the end of the loop. -/
def formatHistory (python37 : Bool) (history : List (List Char)) : Py (List Char) := do
  let l ← (byTwo history).mapM shortPair
  if python37 then .error .runtimeError
  else .ok (joinWith [',', ' '] l ++ [' ', '['] ++ showNat history.length ++ [']'])

end Verif
