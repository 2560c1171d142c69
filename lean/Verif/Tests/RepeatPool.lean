import Verif.Model.RepeatPool

/-!
# The tests of `task_models/utils/tests/test_multiprocess.py` on the model

These are tests of the model, not proofs of properties of the code.  Each test is run for one order of the events only (the theorems
of C61 are about all of them).  Left out: `TestRandomness`.
-/

namespace Verif.Tests.RepeatPool
open Verif

/-- A round of the loop of the parent with two slots, then all workers make a step. -/
def round (n : Nat) : List PoolEvent :=
  List.replicate 8 .parent ++ (List.range n).map .put ++ (List.range n).map .exit

/-- `repeat(target, n)` with two processors, for this order of events. -/
def repeatOnce (n : Nat) : Pool Nat :=
  Pool.run (fun _ => 42) id (poolStart 2 n) ((List.replicate (n + 2) (round n)).flatten ++ List.replicate (n + 10) .parent)

/-- The results, at the end. -/
def resultsOf (p : Pool Nat) : Option (Py (List Nat)) :=
  match p.pc with
  | .done r => some r
  | _ => none

/-- `test_repeat_once`. -/
example : resultsOf (repeatOnce 1) = some (.ok [42]) := by decide +kernel

/-- `test_repeat_many`. -/
example : resultsOf (repeatOnce 5) = some (.ok [42, 42, 42, 42, 42]) := by decide +kernel

end Verif.Tests.RepeatPool
