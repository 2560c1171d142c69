import Verif.Model.GraphPolicy
import Verif.Monad

/-!
# Model of a `GraphPolicyRunner` after an unexpected observation (`lib/pomdp.py:442-460`)

`GraphPolicy.next` reads `self.transitions[current, j]` in an array of numpy.  When it gives `None` the runner keeps it as its current node.  In an array
of numpy the index `None` stands for a new axis, so that the next observation gives row `j` of the table, as an array of one row; it is not `None`, and
the runner keeps it without any exception.  As the table has the entry `None`, it is an array of objects, as is the row: it is no index, neither of the list
of the actions (`TypeError`) nor of the table (`IndexError`).
-/

namespace Verif

/-- The current node of a runner: an integer, `None`, or a row of the table. -/
inductive RunPos where
  | node (c : Int)
  | lost
  | row (j : Nat)
  deriving DecidableEq

/-- `GraphPolicyRunner.get_action`, `lib/pomdp.py:454-455`. -/
def posAction (g : GraphPolicy) : RunPos → Py Name
  | .node c => g.getAction c
  | .lost => .error .typeError
  | .row _ => .error .typeError

/-- `GraphPolicyRunner.step`, `lib/pomdp.py:457-460`, with `GraphPolicy.next`, 409-410; `self.observations.index` comes before the table is read. -/
def posStep (g : GraphPolicy) (o : Name) : M RunPos Unit := fun r => match r with
  | .node c => match g.next c o with
      | .error e => (.error e, .node c)
      | .ok none => (.error .impossible, .lost)
      | .ok (some c') => (.ok (), .node c')
  | .lost => match indexOf g.observations o with
      | .error e => (.error e, .lost)
      | .ok j => if j < g.transitions.length then (.ok (), .row j) else (.error .indexError, .lost)
  | .row j => match indexOf g.observations o with
      | .error e => (.error e, .row j)
      | .ok _ => (.error .indexError, .row j)

/-- `GraphPolicyRunner.reset`, `lib/pomdp.py:448-452`. -/
def posReset (g : GraphPolicy) (belief : Option (List ℚ)) : M RunPos Unit := fun r =>
  match belief with
  | none => (.ok (), .node g.init)
  | some b => match nodeFromBelief g.values b with
      | .error e => (.error e, r)
      | .ok k => (.ok (), .node k)

/-- Steps with the observations of a list, each exception being caught: the outcome of each step and of `get_action` after it, and the state. -/
def posRun (g : GraphPolicy) : List Name → RunPos → List (Py Unit × Py Name) × RunPos
  | [], r => ([], r)
  | o :: os, r =>
      let x := posStep g o r
      let y := posRun g os x.2
      ((x.1, posAction g x.2) :: y.1, y.2)

end Verif
