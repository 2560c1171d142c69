import Verif.Py

/-!
# Model of `RepeatPool` (`utils/multiprocess.py:10-76`)

* The parent executes `run`; the workers are processes.  The system is an interleaving of steps of the parent and of events of the
  workers, in any order.
* A worker puts its result and exits with 0, or its target raises and it exits with a positive code without a result, or it is killed
  by a signal, with a negative code, before or after its result is available.  When a worker has exited, its result is in the pipe
  (a process joins the thread that feeds the queue before it exits).  A result that is partially written when its process is killed is
  not modelled.
* The result of a run is a function of its seed, the seeds are given by the random numbers `seed 0, seed 1, …` of the parent.
* The list of workers is modified in place; the code builds a new list, which nobody reads before it is assigned.
-/

namespace Verif

/-- A worker process: at work, with its result put in the queue, or exited with a code; `put` tells whether the result was put. -/
inductive WorkerState
  | running
  | pushed
  | exited (code : Int) (put : Bool)
  deriving DecidableEq, Repr

/-- `is_alive()`. -/
def WorkerState.alive : WorkerState → Bool
  | .exited _ _ => false
  | _ => true

/-- Where the parent is in `run`, `utils/multiprocess.py:27-42`: at the test of the loop, at slot `i` in `_clean` or `_fill`, at the
reading of a result, at the final readings with `k` to go, or at the end. -/
inductive PoolPc (R : Type)
  | test
  | clean (i : Nat)
  | fill (i : Nat)
  | get
  | collect (k : Nat)
  | done (r : Py (List R))

/-- The state of the parent and of the processes; `procs` are the processes in the order of their start, a slot holds an index in
this list. -/
structure Pool (R : Type) where
  n : Nat
  slots : List (Option Nat)
  toGo : Nat
  procs : List WorkerState
  queue : List R
  results : List R
  pc : PoolPc R

/-- The beginning of `run`, `utils/multiprocess.py:28-31`, with `cpu_count()` slots, `utils/multiprocess.py:18`. -/
def poolStart {R : Type} (cpus n : Nat) : Pool R := ⟨n, List.replicate cpus none, n, [], [], [], .test⟩

/-- `_still_working`, `utils/multiprocess.py:44-45`. -/
def Pool.stillWorking {R : Type} (p : Pool R) : Bool := decide (0 < p.toGo) || p.slots.any Option.isSome

/-- The treatment of a slot in `_clean`, with `_clean_job`, `utils/multiprocess.py:56-64`. -/
def Pool.cleanSlot {R : Type} (p : Pool R) (i : Nat) : Pool R :=
  match p.slots[i]? with
  | none => { p with pc := .fill 0 }
  | some none => { p with pc := .clean (i + 1) }
  | some (some w) =>
      match p.procs[w]? with
      | some (.exited code _) =>
          if 0 < code then { p with pc := .done (.error .runtimeError) }
          else { p with slots := p.slots.set i none, pc := .clean (i + 1) }
      | _ => { p with pc := .clean (i + 1) }

/-- The treatment of a slot in `_fill`, with `_start_or_None`, `utils/multiprocess.py:47-54, 66-68`. -/
def Pool.fillSlot {R : Type} (p : Pool R) (i : Nat) : Pool R :=
  match p.slots[i]? with
  | none => { p with pc := .get }
  | some (some _) => { p with pc := .fill (i + 1) }
  | some none =>
      if 0 < p.toGo then
        { p with toGo := p.toGo - 1, slots := p.slots.set i (some p.procs.length), procs := p.procs ++ [.running], pc := .fill (i + 1) }
      else { p with pc := .fill (i + 1) }

/-- `results.append(self.result_queue.get(False, 1))`, `utils/multiprocess.py:35-38`; nothing if the queue is empty. -/
def Pool.getOne {R : Type} (p : Pool R) : Pool R :=
  match p.queue with
  | [] => { p with pc := .test }
  | x :: q => { p with queue := q, results := p.results ++ [x], pc := .test }

/-- The final readings, `utils/multiprocess.py:40-42`. -/
def Pool.collectOne {R : Type} (p : Pool R) : Nat → Pool R
  | 0 => { p with pc := .done (.ok p.results) }
  | k + 1 =>
      match p.queue with
      | [] => { p with pc := .done (.error .empty) }
      | x :: q => { p with queue := q, results := p.results ++ [x], pc := .collect k }

/-- A step of the parent. -/
def Pool.parent {R : Type} (p : Pool R) : Pool R :=
  match p.pc with
  | .test => if p.stillWorking then { p with pc := .clean 0 } else { p with pc := .collect (p.n - p.results.length) }
  | .clean i => p.cleanSlot i
  | .fill i => p.fillSlot i
  | .get => p.getOne
  | .collect k => p.collectOne k
  | .done _ => p

/-- What may happen: a step of the parent, or a worker that puts its result, exits, fails (with a positive code), or is killed. -/
inductive PoolEvent
  | parent
  | put (w : Nat)
  | exit (w : Nat)
  | fail (w : Nat) (code : Nat)
  | kill (w : Nat) (signal : Nat)
  deriving DecidableEq, Repr

/-- A step of the system; events that cannot happen change nothing.  `work`, `utils/multiprocess.py:22-25`: the worker `w` has the
seed `seed w` and the result `target (seed w)`. -/
def Pool.step {R : Type} (target : Nat → R) (seed : Nat → Nat) (p : Pool R) : PoolEvent → Pool R
  | .parent => p.parent
  | .put w =>
      match p.procs[w]? with
      | some .running => { p with procs := p.procs.set w .pushed, queue := p.queue ++ [target (seed w)] }
      | _ => p
  | .exit w =>
      match p.procs[w]? with
      | some .pushed => { p with procs := p.procs.set w (.exited 0 true) }
      | _ => p
  | .fail w code =>
      match p.procs[w]? with
      | some .running => { p with procs := p.procs.set w (.exited (code + 1) false) }
      | _ => p
  | .kill w signal =>
      match p.procs[w]? with
      | some .running => { p with procs := p.procs.set w (.exited (-(signal + 1)) false) }
      | some .pushed => { p with procs := p.procs.set w (.exited (-(signal + 1)) true) }
      | _ => p

/-- The system after some events. -/
def Pool.run {R : Type} (target : Nat → R) (seed : Nat → Nat) (p : Pool R) (es : List PoolEvent) : Pool R := es.foldl (Pool.step target seed) p

end Verif
