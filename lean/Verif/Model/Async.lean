import Verif.Model.Pomcp

/-!
# Model of the asynchronous runner (`lib/pomcp.py:520-593`)

* Two threads share the state: the exploration thread and the caller, which uses the runner.
* A program of a thread is a resumption: a sequence of atomic accesses to the shared state.  The threads are interleaved between
  these accesses in any way.  The accesses are those of the sequential model (reading or creating a node, linking it, updating its
  value, a call of the simulator); what the interpreter does within one of them is atomic.
* The children of an action node are read again after a node has been stored (`lib/pomcp.py:103, 157`).
* Threads are started once; `threading.Thread` and `threading.Lock` are modelled by the lock and by the end of the thread.  An
  exception in the exploration releases the lock and ends the thread.
* `__del__` calls `stop`, and `execute` is used by the methods only.
-/

namespace Verif

/-! ### Resumptions -/

/-- A program made of atomic accesses to a state `S`. -/
inductive Res (S α : Type) : Type 1
  | done (r : Py α)
  | act {X : Type} (m : M S X) (k : Py X → Res S α)

namespace Res
variable {S S' α β : Type}

/-- One program after the other. -/
def andThen : Res S α → (α → Res S β) → Res S β
  | done (.ok a), f => f a
  | done (.error e), _ => done (.error e)
  | act m k, f => act m fun r => (k r).andThen f

instance : Monad (Res S) where
  pure a := done (.ok a)
  bind := andThen

/-- A single access. -/
def atom (m : M S α) : Res S α := act m done

/-- `try: p except e: q`. -/
def tryExcept (e : PyErr) (q : Res S α) : Res S α → Res S α
  | done (.error e') => if e' = e then q else done (.error e')
  | done (.ok a) => done (.ok a)
  | act m k => act m fun r => tryExcept e q (k r)

/-- The program run without interruption. -/
def run : Res S α → M S α
  | done r => fun s => (r, s)
  | act m k => fun s => (k (m s).1).run (m s).2

/-- A program on a part of a larger state. -/
def hoist (f : ∀ X, M S X → M S' X) : Res S α → Res S' α
  | done r => done r
  | act m k => act (f _ m) fun r => (k r).hoist f

end Res

/-! ### The search as a resumption -/

section
variable {σ β η : Type}

/-- `rollout_from_node`, `lib/pomcp.py:110-120`. -/
def rolloutR (S : Search σ β η) (i : Nat) (h : η) : Res (SearchState σ β) ℚ :=
  if S.hor.isReached h then pure 0
  else do
    let b ← Res.atom (M.read fun st => (st.tree.nodes i).belief)
    let x ← Res.atom (onRng (rollouts S b h S.rolloutIt 0))
    let y ← Res.atom (M.lift (if S.rolloutIt = 0 then .error .zeroDivisionError else .ok (x / S.rolloutIt)))
    Res.atom (updateNode S.alpha i y)
    pure y

/-- `children[o]` of the action node of `a` in node `i`. -/
def readChild (i a o : Nat) : M (SearchState σ β) Nat := fun st =>
  (match st.tree.next i a o with | some j => .ok j | none => .error .keyError, st)

variable [DecidableEq β]

/-- The creation of the child node for `o`, `lib/pomcp.py:101-103, 154-157`, up to the second access to `children[o]`. -/
def createChildR (S : Search σ β η) (i a o : Nat) : Res (SearchState σ β) Nat := do
  let b ← Res.atom (M.read fun st => (st.tree.nodes i).belief)
  let b' ← Res.atom (onRng (S.sim.successor b a o))
  let j ← Res.atom (onTree (Tree.nodeFor S.shared S.sim.nActions b'))
  Res.atom (linkNode i a o j)
  Res.atom (readChild i a o)

/-- The creation of a node and the rollout from it, `lib/pomcp.py:152-163`. -/
def expandR (S : Search σ β η) (i a o : Nat) (h : η) : Res (SearchState σ β) ℚ :=
  Res.tryExcept .maxSamplesReached (pure 0) (do
    let j ← createChildR S i a o
    rolloutR S j h)

/-- The choice of the action, `lib/pomcp.py:145-148`. -/
def chooseActionR (S : Search σ β η) (i : Nat) : Option Nat → Res (SearchState σ β) Nat
  | some a => pure a
  | none => Res.atom (getBestAction S.sim S.bonus S.exploration S.relative i)

/-- The partial return, `lib/pomcp.py:151-167`. -/
def proceedR (S : Search σ β η) (i a o : Nat) (h : η) (recur : Nat → Res (SearchState σ β) ℚ) : Option Nat → Res (SearchState σ β) ℚ
  | none => expandR S i a o h
  | some j => recur j

/-- The end of `_simulate_from_node`, `lib/pomcp.py:169-172`. -/
def updateBothR (alpha : ℚ) (i a : Nat) (x : ℚ) : Res (SearchState σ β) ℚ := do
  Res.atom (updateAction alpha i a x)
  Res.atom (updateNode alpha i x)
  pure x

/-- `_simulate_from_node`, `lib/pomcp.py:141-172`. -/
def simulateR (S : Search σ β η) : Nat → Nat → Nat → η → Option Nat → Res (SearchState σ β) ℚ
  | 0, _, _, _, _ => .done (.error .runtimeError)
  | fuel + 1, i, s, h, act =>
      if S.hor.isReached h then Res.atom (M.read fun st => (st.tree.nodes i).avg.value)
      else do
        let a ← chooseActionR S i act
        Res.atom (safeGetChild i a)
        let x ← Res.atom (onRng (S.sim.sampleTransition a s))
        let j ← Res.atom (M.read fun st => st.tree.next i a x.2.1)
        let y ← proceedR S i a x.2.1 (S.hor.decrement a s x.1 x.2.1 h)
          (fun j => simulateR S fuel j x.1 (S.hor.decrement a s x.1 x.2.1 h) none) j
        updateBothR S.alpha i a (x.2.2 + S.sim.discount * y)

/-- `simulate_from_node`, `lib/pomcp.py:134-136`. -/
def simulateFromNodeR (S : Search σ β η) (i : Nat) (act : Option Nat) : Res (SearchState σ β) Unit := do
  let b ← Res.atom (M.read fun st => (st.tree.nodes i).belief)
  let s ← Res.atom (onRng (S.sim.sampleBelief b))
  let _ ← simulateR S S.fuel i s S.horizon act
  pure ()

/-- The creation of the child node if it does not exist, `lib/pomcp.py:100-103`. -/
def childOrR (S : Search σ β η) (i a o : Nat) : Option Nat → Res (SearchState σ β) Nat
  | some j => pure j
  | none => createChildR S i a o

/-- One pair of an action and an observation in `get_node`, `lib/pomcp.py:98-106`. -/
def getNodeStepR (S : Search σ β η) (i a o : Nat) : Res (SearchState σ β) Nat := do
  Res.atom (safeGetChild i a)
  let j ← Res.atom (M.read fun st => st.tree.next i a o)
  childOrR S i a o j

/-- `get_node`, `lib/pomcp.py:93-106`, from the node `i`. -/
def getNodeFromR (S : Search σ β η) : Nat → List (Nat × Nat) → Res (SearchState σ β) Nat
  | i, [] => pure i
  | i, (a, o) :: h => do
      let j ← getNodeStepR S i a o
      getNodeFromR S j h

/-- `for _ in range(k): simulate_from_node(node)`, `lib/pomcp.py:468-469`. -/
def simulateManyR (S : Search σ β η) (i : Nat) : Nat → Res (SearchState σ β) Unit
  | 0 => pure ()
  | k + 1 => do
      simulateFromNodeR S i none
      simulateManyR S i k

/-! ### The shared state -/

/-- The runner and the attributes of the thread: `_node`, `_action` and `_done`, `lib/pomcp.py:526-533`. -/
structure AsyncState (σ β : Type) where
  runner : SearchRunner σ β
  tnode : Nat
  taction : Option Nat
  done : Bool

/-- A computation of the runner. -/
def onRunner {α : Type} (m : M (SearchRunner σ β) α) : M (AsyncState σ β) α := fun st =>
  ((m st.runner).1, { st with runner := (m st.runner).2 })

/-- A program on the search tree. -/
def treeR {α : Type} (p : Res (SearchState σ β) α) : Res (AsyncState σ β) α := p.hoist fun _ m => onRunner (onSearch m)

/-- The bodies executed by the two threads: those of the exploration thread are `explore` and `readDone`; `getAction`, `step` and
`reset` are the methods of the base class. -/
inductive Body
  | explore
  | readDone
  | getAction
  | setAction
  | setNode
  | setDone
  | step (o : Name)
  | reset (given : Bool)
  deriving DecidableEq, Repr

/-- What a body returns. -/
inductive Out
  | unit
  | name (n : Name)
  | flag (b : Bool)
  deriving DecidableEq, Repr

/-- `get_action` of the base class, `lib/pomcp.py:463-473`, with the default number of iterations. -/
def getActionR (S : Search σ β η) (iterations : Nat) : Res (AsyncState σ β) Out := do
  let i ← Res.atom (M.read fun st => st.runner.node)
  treeR (simulateManyR S i iterations)
  let a ← treeR (Res.atom (getBestAction S.sim S.bonus 0 false i))
  Res.atom (M.modify fun st => { st with runner := { st.runner with last := some a } })
  let n ← Res.atom (M.lift (match S.sim.actions[a]? with | some n => .ok n | none => .error .indexError))
  pure (.name n)

/-- `step` of the base class, `lib/pomcp.py:475-484`. -/
def stepR (S : Search σ β η) (o : Name) : Res (AsyncState σ β) Out := do
  let last ← Res.atom (M.read fun st => st.runner.last)
  let a ← Res.atom (M.lift (match last with | none => .error .valueError | some a => .ok a))
  let oi ← Res.atom (M.lift (S.sim.obsIndex o))
  let hist ← Res.atom (M.read fun st => st.runner.history ++ [(a, oi)])
  let i ← treeR (getNodeFromR S 0 hist)
  Res.atom (M.modify fun st => { st with runner := { st.runner with node := i, history := hist } })
  pure .unit

/-- The programs of the bodies: `explore` `lib/pomcp.py:554-555`, `readDone` `lib/pomcp.py:562`, `setAction` `lib/pomcp.py:551-552,
584`, `setNode` `lib/pomcp.py:547-549, 574, 578`, `setDone` `lib/pomcp.py:535-536`, `reset` `lib/pomcp.py:452-457`. -/
def Body.prog (S : Search σ β η) (iterations : Nat) : Body → Res (AsyncState σ β) Out
  | .explore => do
      let i ← Res.atom (M.read fun st => st.tnode)
      let a ← Res.atom (M.read fun st => st.taction)
      treeR (simulateFromNodeR S i a)
      pure .unit
  | .readDone => do
      let b ← Res.atom (M.read fun st => st.done)
      pure (.flag b)
  | .getAction => getActionR S iterations
  | .setAction => do
      Res.atom (M.modify fun st => { st with taction := st.runner.last })
      pure .unit
  | .setNode => do
      Res.atom (M.modify fun st => { st with tnode := st.runner.node, taction := none })
      pure .unit
  | .setDone => do
      Res.atom (M.modify fun st => { st with done := true })
      pure .unit
  | .step o => stepR S o
  | .reset given => do
      Res.atom (onRunner (searchReset given))
      pure .unit

/-! ### The threads -/

/-- The two threads. -/
inductive Who
  | explorer
  | caller
  deriving DecidableEq, Repr

/-- What a thread executes: taking and releasing the lock, bodies, and waiting for the exploration thread. -/
inductive Cmd
  | acquire
  | release
  | body (b : Body)
  | join
  deriving DecidableEq, Repr

/-- The methods of the asynchronous runner. -/
inductive AsyncOp
  | getAction (iterations : Option Nat)
  | step (o : Name)
  | reset (given : Bool)
  | stop
  deriving DecidableEq, Repr

/-- The methods, `lib/pomcp.py:572-589`; `get_action` ignores its argument. -/
def AsyncOp.script : AsyncOp → List Cmd
  | .getAction _ => [.acquire, .body .getAction, .release, .acquire, .body .setAction, .release]
  | .step o => [.body (.step o), .acquire, .body .setNode, .release]
  | .reset given => [.body (.reset given), .acquire, .body .setNode, .release]
  | .stop => [.acquire, .body .setDone, .release, .join]

/-- One iteration of `run`, `lib/pomcp.py:559-563`. -/
def loopScript : List Cmd := [.acquire, .body .explore, .body .readDone, .release]

/-- A thread: the body in execution with the rest of its program, the commands that follow, and the last result. -/
structure Strand (σ β : Type) where
  cur : Option (Body × Res (AsyncState σ β) Out)
  todo : List Cmd
  out : Py Out

/-- What happens: the beginning and the end of bodies, calls and returns of methods, and the end of the thread. -/
inductive Happening
  | started (b : Body)
  | finished (b : Body) (r : Py Out)
  | called (op : AsyncOp)
  | returned (op : AsyncOp) (r : Py Out)
  | ended
  deriving DecidableEq, Repr

/-- The state of the system; `op` is the method in execution. -/
structure Mach (σ β : Type) where
  sh : AsyncState σ β
  lock : Option Who
  exp : Strand σ β
  ended : Bool
  caller : Strand σ β
  op : Option AsyncOp

/-- The result of a thread after a body: a value replaces the former one. -/
def Out.after (r : Py Out) (old : Py Out) : Py Out :=
  match r with
  | .ok .unit => old
  | r => r

/-- The commands left after a body: after an exception only the release of the lock. -/
def afterBody (holding : Bool) (r : Py Out) (todo : List Cmd) : List Cmd :=
  match r with
  | .ok _ => todo
  | .error _ => if holding then [.release] else []

/-- One step of a thread that has something to do; `ended` tells whether the exploration thread has ended. -/
def strandStep (S : Search σ β η) (iterations : Nat) (who : Who) (ended : Bool) (th : Strand σ β) (lock : Option Who)
    (sh : AsyncState σ β) : Strand σ β × Option Who × AsyncState σ β × List Happening :=
  match th.cur with
  | some (b, .act m k) => ({ th with cur := some (b, k (m sh).1) }, lock, (m sh).2, [])
  | some (b, .done r) =>
      (⟨none, afterBody (decide (lock = some who)) r th.todo, Out.after r th.out⟩, lock, sh, [.finished b r])
  | none =>
      match th.todo with
      | [] => (th, lock, sh, [])
      | .acquire :: rest => if lock = none then ({ th with todo := rest }, some who, sh, []) else (th, lock, sh, [])
      | .release :: rest => ({ th with todo := rest }, none, sh, [])
      | .body b :: rest => (⟨some (b, b.prog S iterations), rest, th.out⟩, lock, sh, [.started b])
      | .join :: rest => if ended then ({ th with todo := rest }, lock, sh, []) else (th, lock, sh, [])

/-- A thread has nothing left to do. -/
def Strand.idle (th : Strand σ β) : Bool := th.cur.isNone && th.todo.isEmpty

/-- A step of the exploration thread, `lib/pomcp.py:557-563`. -/
def explorerStep (S : Search σ β η) (iterations : Nat) (m : Mach σ β) : Mach σ β × List Happening :=
  if m.ended then (m, [])
  else if m.exp.idle then
    if m.exp.out = .ok (.flag false) then ({ m with exp := { m.exp with todo := loopScript } }, [])
    else ({ m with ended := true }, [.ended])
  else
    let r := strandStep S iterations .explorer m.ended m.exp m.lock m.sh
    ({ m with exp := r.1, lock := r.2.1, sh := r.2.2.1 }, r.2.2.2)

/-- A step of the caller in a method. -/
def callerStep (S : Search σ β η) (iterations : Nat) (m : Mach σ β) : Mach σ β × List Happening :=
  match m.op with
  | none => (m, [])
  | some op =>
      if m.caller.idle then ({ m with op := none }, [.returned op m.caller.out])
      else
        let r := strandStep S iterations .caller m.ended m.caller m.lock m.sh
        ({ m with caller := r.1, lock := r.2.1, sh := r.2.2.1 }, r.2.2.2)

/-- The next event: a step of one of the threads, or a call of a method. -/
inductive Choice
  | explorer
  | caller
  | call (op : AsyncOp)
  deriving DecidableEq, Repr

/-- The thread concerned. -/
def Choice.who : Choice → Who
  | .explorer => .explorer
  | _ => .caller

/-- One step of the system. -/
def Mach.step (S : Search σ β η) (iterations : Nat) (m : Mach σ β) : Choice → Mach σ β × List Happening
  | .explorer => explorerStep S iterations m
  | .caller => callerStep S iterations m
  | .call op =>
      match m.op with
      | some _ => (m, [])
      | none => ({ m with op := some op, caller := ⟨none, op.script, .ok .unit⟩ }, [.called op])

/-- What happens, with the thread and the shared state afterwards. -/
abbrev AsyncTrace (σ β : Type) := List (Who × Happening × AsyncState σ β)

/-- The system after a schedule, and what has happened. -/
def runMach (S : Search σ β η) (iterations : Nat) : List Choice → Mach σ β → Mach σ β × AsyncTrace σ β
  | [], m => (m, [])
  | c :: cs, m =>
      ((runMach S iterations cs (m.step S iterations c).1).1,
        (m.step S iterations c).2.map (fun h => (c.who, h, (m.step S iterations c).1.sh)) ++
          (runMach S iterations cs (m.step S iterations c).1).2)

/-- The system after the construction of the runner, `lib/pomcp.py:567-570`. -/
def Search.async (S : Search σ β η) (b : β) (rng : σ) : Mach σ β where
  sh := ⟨S.runner b rng, 0, none, false⟩
  lock := none
  exp := ⟨none, loopScript, .ok (.flag false)⟩
  ended := false
  caller := ⟨none, [], .ok .unit⟩
  op := none

end

end Verif
