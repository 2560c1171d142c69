import Verif.Model.Pomdp
import Verif.Model.Text

/-!
# Model of graph policies (`lib/pomdp.py:24-56`, `366-579`)

* Lines of files are lists of characters (`Model/Text.lean`).
* A two-dimensional array is the list of its rows.
* `json.dumps` and `json.loads` are taken to be inverse on the dictionaries of `to_dict`.
* `int` values are integers, and negative ones are used as indices the way Python does.
-/

namespace Verif

/-! ### Parsing -/

/-- `np.vstack(vectors)`. -/
def vstack {α : Type} (vectors : List (List α)) : Py (List (List α)) :=
  match vectors with
  | [] => .error .valueError
  | v :: vs => if vs.all (fun w => decide (w.length = v.length)) then .ok (v :: vs) else .error .valueError

/-- The loop of `parse_value_function`, `lib/pomdp.py:28-38`; `fromstring` is `np.fromstring(·, sep=' ')`. -/
def parseVfLoop (fromstring : List Char → List ℚ) :
    List (List Char) → Bool → List Int → List (List ℚ) → Py (Bool × List Int × List (List ℚ))
  | [], hasAction, actions, vectors => .ok (hasAction, actions, vectors)
  | line :: rest, hasAction, actions, vectors =>
      if isspace line then parseVfLoop fromstring rest hasAction actions vectors
      else if hasAction then parseVfLoop fromstring rest false actions (vectors ++ [fromstring line])
      else
        match pyInt line with
        | .error e => .error e
        | .ok n => parseVfLoop fromstring rest true (actions ++ [n]) vectors

/-- `parse_value_function`, `lib/pomdp.py:24-41`. -/
def parseValueFunction (fromstring : List Char → List ℚ) (lines : List (List Char)) : Py (List Int × List (List ℚ)) := do
  let r ← parseVfLoop fromstring lines false [] []
  if r.1 then .error .valueFunctionParseError
  else do
    let v ← vstack r.2.2
    return (r.2.1, v)

/-- `None if x == '-' else int(x)`, `lib/pomdp.py:55`. -/
def parseTarget (x : List Char) : Py (Option Int) := if x = ['-'] then .ok none else (pyInt x).map some

/-- `l[i]` on a list, for a natural number. -/
def listGet {α : Type} (l : List α) (i : Nat) : Py α :=
  match l[i]? with
  | none => .error .indexError
  | some x => .ok x

/-- The words of a line, `lib/pomdp.py:52-55`. -/
def parsePgWords (i : Nat) (l : List (List Char)) : Py (Int × List (Option Int)) := do
  let w0 ← listGet l 0
  let n ← pyInt w0
  if n ≠ i then .error .assertionError
  else do
    let w1 ← listGet l 1
    let a ← pyInt w1
    let t ← (l.drop 3).mapM parseTarget
    return (a, t)

/-- The loop of `parse_policy_graph`, `lib/pomdp.py:47-55`; `i` counts the lines. -/
def parsePgLoop : List (List Char) → Nat → Py (List (Int × List (Option Int)))
  | [], _ => .ok []
  | line :: rest, i =>
      let line := rstripBy isSpace (rstripBy (fun c => decide (c = '\n')) line)
      if isspace line then parsePgLoop rest (i + 1)
      else do
        let x ← parsePgWords i (splitOn ' ' line)
        let xs ← parsePgLoop rest (i + 1)
        return x :: xs

/-- `parse_policy_graph`, `lib/pomdp.py:44-56`. -/
def parsePolicyGraph (lines : List (List Char)) : Py (List Int × List (List (Option Int))) := do
  let l ← parsePgLoop lines 0
  return (l.map Prod.fst, l.map Prod.snd)

/-! ### `GraphPolicy` -/

/-- Attributes of `GraphPolicy`, `lib/pomdp.py:384-397`. -/
structure GraphPolicy where
  actions : List Name
  observations : List Name
  transitions : List (List (Option Int))
  values : List (List ℚ)
  init : Int
  deriving DecidableEq

/-- `v.dot(b)`. -/
def dot (v b : List ℚ) : ℚ := (List.zipWith (· * ·) v b).sum

/-- The position designated by a Python index. -/
def pyIndex (n : Nat) (i : Int) : Py Nat :=
  if 0 ≤ i ∧ i < n then .ok i.toNat else if i < 0 ∧ 0 ≤ i + n then .ok (i + n).toNat else .error .indexError

/-- `get_node_from_belief`, `lib/pomdp.py:403-404`: `ValueError` if the sizes differ or if there is no value. -/
def nodeFromBelief (values : List (List ℚ)) (b : List ℚ) : Py Nat :=
  if values.all (fun v => decide (v.length = b.length)) then argmax (values.map fun v => dot v b) else .error .valueError

/-- The initial node, `lib/pomdp.py:391-397`. -/
def initNode (nNodes : Nat) (values : List (List ℚ)) (start : Option (List ℚ)) (init : Option Int) : Py Int :=
  match init, start with
  | some i, _ => if i < nNodes then .ok i else .error .assertionError
  | none, some b => (nodeFromBelief values b).map fun n => (n : Int)
  | none, none => .error .valueError

/-- The constructor, `lib/pomdp.py:384-397`.  (`np.asarray([])` is one-dimensional, so that a policy without nodes is
refused.) -/
def mkGraphPolicy (actions observations : List Name) (transitions : List (List (Option Int))) (values : List (List ℚ))
    (start : Option (List ℚ)) (init : Option Int) : Py GraphPolicy :=
  if transitions.length = actions.length ∧ transitions ≠ [] ∧ ∀ r ∈ transitions, r.length = observations.length then
    (initNode actions.length values start init).map fun i => ⟨actions, observations, transitions, values, i⟩
  else .error .assertionError

/-- `lst.index(x)`: the first position, or `ValueError`. -/
def indexOf (l : List Name) (x : Name) : Py Nat :=
  match l.findIdx? (fun y => decide (y = x)) with
  | none => .error .valueError
  | some i => .ok i

namespace GraphPolicy

/-- `get_action`, `lib/pomdp.py:406-407`. -/
def getAction (g : GraphPolicy) (current : Int) : Py Name := do
  let i ← pyIndex g.actions.length current
  listGet g.actions i

/-- `next`, `lib/pomdp.py:409-410`. -/
def next (g : GraphPolicy) (current : Int) (o : Name) : Py (Option Int) := do
  let j ← indexOf g.observations o
  let i ← pyIndex g.transitions.length current
  let row ← listGet g.transitions i
  listGet row j

end GraphPolicy

/-- The dictionary of `GraphPolicy.to_dict`, `lib/pomdp.py:412-418`. -/
structure GraphDict where
  actions : List Name
  observations : List Name
  transitions : List (List (Option Int))
  values : List (List ℚ)
  initial : List Char

/-- `to_dict`, `lib/pomdp.py:412-418`. -/
def GraphPolicy.toDict (g : GraphPolicy) : GraphDict := ⟨g.actions, g.observations, g.transitions, g.values, showInt g.init⟩

/-- `from_dict`, `lib/pomdp.py:427-430`. -/
def GraphPolicy.fromDict (d : GraphDict) : Py GraphPolicy := do
  let i ← pyInt d.initial
  mkGraphPolicy d.actions d.observations d.transitions d.values none (some i)

/-- `max(l)`; `ValueError` on an empty list. -/
def pyMax : List Int → Py Int
  | [] => .error .valueError
  | x :: xs => .ok (xs.foldl max x)

/-- `load_policy_from`, `lib/pomdp.py:366-379`, on the lines of the two files. -/
def Pomdp.loadPolicy (fromstring : List Char → List ℚ) (p : Pomdp) (alpha pg : List (List Char)) : Py GraphPolicy := do
  let vf ← parseValueFunction fromstring alpha
  let g ← parsePolicyGraph pg
  if vf.1 ≠ g.1 then .error .assertionError
  else do
    let m ← pyMax vf.1
    if ¬ m < p.actions.length then .error .assertionError
    else do
      let t ← pyMax (g.2.flatten.filterMap id)
      if ¬ t ≤ g.2.length then .error .assertionError
      else do
        let names ← vf.1.mapM fun a => do
          let i ← pyIndex p.actions.length a
          listGet p.actions i
        mkGraphPolicy names p.observations g.2 vf.2 (some p.start) none

/-! ### `GraphPolicyRunner` -/

/-- State of a `GraphPolicyRunner`, `lib/pomdp.py:442-460`: `none` is the state after an unexpected observation.  (What the
runner does after that, unless it is reset, is in `LostRunner`.) -/
abbrev RunnerState := Option Int

/-- `GraphPolicyRunner.step`, `lib/pomdp.py:457-460`: the new state, and the exception if any. -/
def runnerStep (g : GraphPolicy) (current : Int) (o : Name) : RunnerState × Py Unit :=
  match g.next current o with
  | .error e => (some current, .error e)
  | .ok none => (none, .error .impossible)
  | .ok (some c) => (some c, .ok ())

/-- Running a policy: the actions given before each observation and after the last one, and the exception that stopped
the run if any. -/
def runPolicy (g : GraphPolicy) : Int → List Name → List Name × Option PyErr
  | current, obs =>
      match g.getAction current with
      | .error e => ([], some e)
      | .ok a =>
          match obs with
          | [] => ([a], none)
          | o :: rest =>
              match runnerStep g current o with
              | (_, .error e) => ([a], some e)
              | (none, .ok _) => ([a], none)
              | (some c, .ok _) => let r := runPolicy g c rest; (a :: r.1, r.2)
termination_by _ obs => obs.length

/-! ### `GraphPolicyBeliefRunner` -/

/-- Attributes of a `GraphPolicyBeliefRunner`, `lib/pomdp.py:463-474`. -/
structure BRunner where
  belief : List ℚ
  current : Int
  deriving DecidableEq

/-- `reset(belief=b)`, `lib/pomdp.py:470-474` and `448-450`: the result and the new attributes. -/
def bReset (g : GraphPolicy) (b : List ℚ) (r : BRunner) : Py Unit × BRunner :=
  match nodeFromBelief g.values b with
  | .error e => (.error e, ⟨b, r.current⟩)
  | .ok n => (.ok (), ⟨b, n⟩)

/-- The new belief computed by `step`, `lib/pomdp.py:477-479`. -/
def bPosterior (g : GraphPolicy) (p : Pomdp) (r : BRunner) (o : Name) : Py (List ℚ) := do
  let act ← g.getAction r.current
  let a ← indexOf p.actions act
  let o ← indexOf p.observations o
  p.beliefUpdate a o r.belief

/-- `step`, `lib/pomdp.py:476-480`. -/
def bStep (g : GraphPolicy) (p : Pomdp) (o : Name) (r : BRunner) : Py Unit × BRunner :=
  match bPosterior g p r o with
  | .error e => (.error e, r)
  | .ok b => bReset g b r

/-- The dictionaries of `trajectory_tree`, `lib/pomdp.py:497-503`. -/
inductive TTree where
  | node (belief : List ℚ) (action : Name) (current : Int) (observations : List Name) (children : List TTree)

/-- `except Impossible: pass`, then `return None`, `lib/pomdp.py:490-492`. -/
def catchImpossible : Py (Option TTree) × BRunner → Py (Option TTree) × BRunner
  | (.error .impossible, r) => (.ok none, r)
  | x => x

/-- The end of the body of `try`, `lib/pomdp.py:488-489`, after the tree has been computed: `b` is the saved belief. -/
def recRestore (g : GraphPolicy) (b : List ℚ) : Py TTree × BRunner → Py (Option TTree) × BRunner
  | (.error e, r) => (.error e, r)
  | (.ok t, r) =>
      match bReset g b r with
      | (.error e, r') => (.error e, r')
      | (.ok _, r') => (.ok (some t), r')

/-- `_rec_trajectory_tree`, `lib/pomdp.py:482-492`, for a horizon that is not negative; `sub` is the recursive call. -/
def recTree (g : GraphPolicy) (p : Pomdp) (sub : BRunner → Py TTree × BRunner) (o : Name) (r : BRunner) :
    Py (Option TTree) × BRunner :=
  catchImpossible (match bStep g p o r with
    | (.error e, r1) => (.error e, r1)
    | (.ok _, r1) => recRestore g r.belief (sub r1))

/-- The loop over the observations of `trajectory_tree`, `lib/pomdp.py:496`; `body` is `_rec_trajectory_tree`. -/
def treeLoop (body : Name → BRunner → Py (Option TTree) × BRunner) : List Name → BRunner → Py (List (Option TTree)) × BRunner
  | [], r => (.ok [], r)
  | o :: os, r =>
      match body o r with
      | (.error e, r1) => (.error e, r1)
      | (.ok t, r1) =>
          match treeLoop body os r1 with
          | (.error e, r2) => (.error e, r2)
          | (.ok ts, r2) => (.ok (t :: ts), r2)

/-- The dictionary returned by `trajectory_tree`, `lib/pomdp.py:497-503`. -/
def treeResult (g : GraphPolicy) (p : Pomdp) : Py (List (Option TTree)) × BRunner → Py TTree × BRunner
  | (.error e, r) => (.error e, r)
  | (.ok c, r) =>
      match g.getAction r.current with
      | .error e => (.error e, r)
      | .ok a => (.ok (.node r.belief a r.current
          ((p.observations.zip c).filterMap fun x => x.2.map fun _ => x.1) (c.filterMap id)), r)

/-- `trajectory_tree(horizon)`, `lib/pomdp.py:494-503`; a negative horizon behaves as 0. -/
def trajectoryTree (g : GraphPolicy) (p : Pomdp) : Nat → BRunner → Py TTree × BRunner
  | 0, r => treeResult g p (treeLoop (fun _ r => (.ok none, r)) p.observations r)
  | h + 1, r => treeResult g p (treeLoop (recTree g p (trajectoryTree g p h)) p.observations r)

/-- `b = np.zeros(start.shape); b[s] = 1.` where `s` is the array of the positions of the non-zero entries of `start`,
`lib/pomdp.py:508-510`. -/
def startIndicator (start : List ℚ) : List ℚ := start.map fun x => if x = 0 then 0 else 1

/-- `trajectory_trees_from_starts`, `lib/pomdp.py:505-513`: `start.nonzero()` is a tuple with a single array, so that the
loop has one iteration. -/
def treesFromStarts (g : GraphPolicy) (p : Pomdp) (horizon : Nat) (r : BRunner) : Py (List TTree) × BRunner :=
  match bReset g (startIndicator p.start) r with
  | (.error e, r) => (.error e, r)
  | (.ok _, r) =>
      match trajectoryTree g p horizon r with
      | (.error e, r) => (.error e, r)
      | (.ok t, r) => (.ok [t], r)

/-! ### `visit` -/

/-- Attributes of `_Aux`, `lib/pomdp.py:531-537`, without the runner: its state is set by `reset` before each use. -/
structure Aux where
  nodes : List (List ℚ)
  queue : List Nat
  trans : List (List (Option Int))
  actions : List Name
  deriving DecidableEq

/-- The square of the distance between two beliefs, `lib/pomdp.py:551`. -/
def sqDist (a b : List ℚ) : ℚ := (List.zipWith (fun x y => (x - y) ^ 2) a b).sum

/-- `closest`, `lib/pomdp.py:547-553`, with the square of the distance; `none` when there is no node.  (The distances and
their squares are in the same order; `argmin` is the `argmax` of the opposites.) -/
def closest (nodes : List (List ℚ)) (b : List ℚ) : Option (Nat × ℚ) :=
  match argmax (nodes.map fun n => - sqDist n b) with
  | .error _ => none
  | .ok i => some (i, sqDist (nodes.getD i []) b)

/-- The square of `tol`, `lib/pomdp.py:529`. -/
def tolSq : ℚ := 1 / 10000

/-- Adding a node, `lib/pomdp.py:560-566`. -/
def auxAdd (g : GraphPolicy) (p : Pomdp) (x : Aux) (b : List ℚ) : Py (Nat × Aux) := do
  let n ← nodeFromBelief g.values b
  let a ← g.getAction n
  return (x.nodes.length, ⟨x.nodes ++ [b], x.queue ++ [x.nodes.length],
    x.trans ++ [p.observations.map fun _ => none], x.actions ++ [a]⟩)

/-- `index`, `lib/pomdp.py:555-566`. -/
def auxIndex (g : GraphPolicy) (p : Pomdp) (x : Aux) (b : List ℚ) : Py (Nat × Aux) :=
  match closest x.nodes b with
  | some (i, d) => if d < tolSq then .ok (i, x) else auxAdd g p x b
  | none => auxAdd g p x b

/-- `self.trans[ib][io] = v`. -/
def setTrans (t : List (List (Option Int))) (ib io : Nat) (v : Int) : List (List (Option Int)) :=
  t.set ib ((t.getD ib []).set io (some v))

/-- `reset` to a belief and `step`, `lib/pomdp.py:574-575`: the belief of the runner afterwards. -/
def resetStep (g : GraphPolicy) (p : Pomdp) (b : List ℚ) (o : Name) : Py (List ℚ) :=
  match bReset g b ⟨[], 0⟩ with
  | (.error e, _) => .error e
  | (.ok _, r) =>
      match bStep g p o r with
      | (.error e, _) => .error e
      | (.ok _, r) => .ok r.belief

/-- The loop over the observations of `visit`, `lib/pomdp.py:572-579`.  (`index` does not raise `Impossible`.) -/
def visitObs (g : GraphPolicy) (p : Pomdp) (ib : Nat) : List Name → Nat → Aux → Py Aux
  | [], _, x => .ok x
  | o :: os, io, x =>
      match resetStep g p (x.nodes.getD ib []) o with
      | .error .impossible => visitObs g p ib os (io + 1) x
      | .error e => .error e
      | .ok b => do
          let y ← auxIndex g p x b
          visitObs g p ib os (io + 1) { y.2 with trans := setTrans y.2.trans ib io y.1 }

/-- The `while` loop of `visit`, `lib/pomdp.py:570-579`, for at most `fuel` iterations (`none` if it has not ended). -/
def visitLoop (g : GraphPolicy) (p : Pomdp) (maxNodes : Nat) : Nat → Aux → Py (Option Aux)
  | 0, x => if x.queue = [] ∨ x.nodes.length > maxNodes then .ok (some x) else .ok none
  | fuel + 1, x =>
      if x.nodes.length > maxNodes then .ok (some x)
      else match x.queue with
        | [] => .ok (some x)
        | ib :: rest => do
            let y ← visitObs g p ib p.observations 0 { x with queue := rest }
            visitLoop g p maxNodes fuel y

/-- `visit`, `lib/pomdp.py:520-524` and `568-569`, for at most `fuel` iterations. -/
def visit (g : GraphPolicy) (p : Pomdp) (maxStates fuel : Nat) : Py (Option (GraphPolicy × Aux)) := do
  let x ← auxIndex g p ⟨[], [], [], []⟩ p.start
  let r ← visitLoop g p maxStates fuel x.2
  match r with
  | none => .ok none
  | some y => do
      let v ← vstack y.nodes
      let q ← mkGraphPolicy y.actions p.observations y.trans v none (some 0)
      return some (q, y)

end Verif
