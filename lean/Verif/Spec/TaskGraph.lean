import Verif.Model.TaskGraph

/-! Specification vocabulary for the task graph properties (C01–C08), independent of the model's helpers. -/

namespace Verif.Spec
variable {S A N L : Type}

/-- A list is a path: empty, or states at the even positions, actions at the odd ones, of odd length, and the check of
every action accepts its neighbours. -/
def IsPath (chk : A → S → S → Bool) (p : List (Elem S A)) : Prop :=
  p = [] ∨
  (p.length % 2 = 1 ∧
   (∀ i, i < p.length → i % 2 = 0 → ∃ s, p[i]? = some (Elem.state s)) ∧
   (∀ i, i < p.length → i % 2 = 1 → ∃ a, p[i]? = some (Elem.action a)) ∧
   (∀ i s a s', i % 2 = 0 → p[i]? = some (.state s) → p[i + 1]? = some (.action a) →
      p[i + 2]? = some (.state s') → chk a s s' = true))

/-- `(s, a, s')` occurs in `p` at an even position. -/
def StepOf (p : List (Elem S A)) (s : S) (a : A) (s' : S) : Prop :=
  ∃ i, i % 2 = 0 ∧ p[i]? = some (.state s) ∧ p[i + 1]? = some (.action a) ∧ p[i + 2]? = some (.state s')

/-- The first entry of `p` is the state `s`. -/
def Starts (p : List (Elem S A)) (s : S) : Prop := p.head? = some (.state s)

/-- The last entry of `p` is the state `s`. -/
def Ends (p : List (Elem S A)) (s : S) : Prop := p.getLast? = some (.state s)

/-- A client that calls `add_path` on each list in turn on a fresh `TaskGraph`, catching the exceptions. -/
def addAll [DecidableEq S] [DecidableEq A] (chk : A → S → S → Bool) (ps : List (List (Elem S A))) : TaskGraph S A :=
  ps.foldl (fun g p => caught (g.addPath chk p) g) {}

/-- One call made by a client of a graph. -/
inductive GraphOp (N L : Type) where
  | add (s : N) (l : L) (d : N)
  | remove (s : N) (l : L) (d : N)

/-- One call, catching the exception if it raises (a raising call leaves the graph as it was). -/
def runOp [DecidableEq N] [DecidableEq L] (g : BaseGraph N L) : GraphOp N L → BaseGraph N L
  | .add s l d => g.addTransition s l d
  | .remove s l d => caught (g.removeTransition s l d) g

/-- A client that runs the calls in turn on a graph. -/
def runOps [DecidableEq N] [DecidableEq L] (g : BaseGraph N L) (ops : List (GraphOp N L)) : BaseGraph N L :=
  ops.foldl runOp g

/-- The path `s0, a1, s1, ..., an, sn`. -/
def mkPath (s0 : S) (steps : List (A × S)) : List (Elem S A) :=
  .state s0 :: steps.flatMap fun as => [.action as.1, .state as.2]

/-- `u --l--> a1 --s1--> a2 ... an --sn--> ter` is a walk of `c`. -/
def Walk [DecidableEq N] [DecidableEq L] (c : BaseGraph N L) (ter : N) (u : N) (l : L) : List (N × L) → Prop
  | [] => c.hasTransition u l ter = true
  | (a, s) :: rest => c.hasTransition u l a = true ∧ Walk c ter a s rest

end Verif.Spec
