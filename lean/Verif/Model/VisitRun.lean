import Verif.Model.GraphPolicy

/-!
# Runs of a belief runner (`lib/pomdp.py:454-480`)
-/

namespace Verif

/-- Running a `GraphPolicyBeliefRunner` with `get_action` (`lib/pomdp.py:454-455`) and `step` (`lib/pomdp.py:476-480`): the actions given before each
observation and after the last one, and the exception that stopped the run if any. -/
def runBelief (g : GraphPolicy) (p : Pomdp) : List Name → BRunner → List Name × Option PyErr
  | obs, r =>
      match g.getAction r.current with
      | .error e => ([], some e)
      | .ok a =>
          match obs with
          | [] => ([a], none)
          | o :: rest =>
              match bStep g p o r with
              | (.error e, _) => ([a], some e)
              | (.ok _, r1) => let x := runBelief g p rest r1; (a :: x.1, x.2)
termination_by obs => obs.length

end Verif
