import Verif.Model.FloatBelief
import Verif.Model.Pomcp

/-!
# Values in floating point arithmetic (`lib/pomcp.py`, `evaluation.py`)

In the other modules the numbers of the code are rationals without rounding.  Here every operation on the returns and on the values of
the search rounds its result: `fl x` is the stored number if the exact result is `x` (`binary64` for doubles).

* The rewards, the discount and `alpha` are the stored ones.
* Python computes these expressions with single operations from left to right; there are no fused ones.
* The counts are integers below `2 ^ 53`, so that they are exact as doubles.
* There is neither overflow nor `nan`.
-/

namespace Verif

section
variable (fl : ℚ → ℚ)

/-- `_ValueAverage.update`, `lib/pomcp.py:228-231`. -/
def Avg.updateFl (alpha : ℚ) (v : Avg) (x : ℚ) : Avg :=
  ⟨v.n + 1, fl (fl (fl (v.total + x) * fl (1 - alpha)) + fl (fl (alpha * (v.n + 1)) * x))⟩

/-- `_ValueAverage.value`, `lib/pomcp.py:223-226`. -/
def Avg.valueFl (v : Avg) : ℚ := if v.n = 0 then 0 else fl (v.total / v.n)

/-- `full_return = r + self.model.discount * partial_return`, `lib/pomcp.py:169`, and
`full_return = r + gamma * full_return`, `evaluation.py:82`. -/
def backupFl (gamma r p : ℚ) : ℚ := fl (r + fl (gamma * p))

/-- The loop of `_one_rollout_from_node`, `lib/pomcp.py:122-132`, with the rewards that are sampled; `g` and `full` are the variables
`gamma` and `full_return`. -/
def rolloutFl (gamma : ℚ) : List ℚ → ℚ → ℚ → ℚ
  | [], _, full => full
  | r :: rs, g, full => rolloutFl gamma rs (fl (g * gamma)) (fl (full + fl (g * r)))

/-- The sum over the rollouts, `lib/pomcp.py:114-117`. -/
def rolloutSumFl (gamma : ℚ) : List (List ℚ) → ℚ → ℚ
  | [], s => s
  | rs :: l, s => rolloutSumFl gamma l (fl (s + rolloutFl fl gamma rs 1 0))

/-- `rollout_from_node` in a node where the horizon is not reached, `lib/pomcp.py:114-120`, with the rewards of each rollout. -/
def rolloutsFl (gamma : ℚ) (l : List (List ℚ)) : ℚ := fl (rolloutSumFl fl gamma l 0 / l.length)

/-- What is sampled in the part of a simulation below a node: the rewards of the actions in the tree, and the rewards of the rollouts at
the end.  Without rollouts the horizon is reached in the new node, or there was no belief for it, and the partial return is 0
(`lib/pomcp.py:111-112, 160-162`). -/
structure Simulated where
  rewards : List ℚ
  rollouts : List (List ℚ)
  deriving DecidableEq, Repr

/-- The partial return at the end of a simulation, `lib/pomcp.py:152-162`.  If the horizon is reached in a node that exists
already (`lib/pomcp.py:142-143`), its value is returned; only the case that this is 0, because there was no rollout from the node and no
simulation through it, is represented. -/
def partialFl (gamma : ℚ) (l : List (List ℚ)) : ℚ := if l = [] then 0 else rolloutsFl fl gamma l

/-- The return of a simulation, `lib/pomcp.py:141-173`: that with which the node and its child are updated. -/
def simulatedFl (gamma : ℚ) (x : Simulated) : ℚ := x.rewards.foldr (backupFl fl gamma) (partialFl fl gamma x.rollouts)

/-- A node or a child after some simulations, `lib/pomcp.py:170-171`; the update after the rollouts from the node, `lib/pomcp.py:119`, is that
with a simulation without rewards in the tree. -/
def nodeFl (alpha gamma : ℚ) (xs : List Simulated) : Avg := xs.foldl (fun v x => v.updateFl fl alpha (simulatedFl fl gamma x)) .new

/-- `get_best_action` without exploration for a node all of whose children have been tried, `lib/pomcp.py:297-314`: `augmented_values`
adds `0 * np.sqrt(...)` to the values of the children; `root` is the second factor. -/
def bestFl (root : Nat → ℚ) (children : List Avg) : Py Nat :=
  argmax (children.zipIdx.map fun c => fl (c.1.valueFl fl + fl (0 * root c.2)))

/-- The return of an evaluation with these rewards, `evaluation.py:71-82`. -/
def evaluationFl (gamma : ℚ) (rewards : List ℚ) : ℚ := rewards.foldl (fun ret r => backupFl fl gamma r ret) 0

end

end Verif
