import Verif.Model.Trajectory
import Verif.Props.SupState
import Verif.Spec.Evaluation

/-! Specification vocabulary for the logs of trajectories (C89). -/

namespace Verif.Spec
open Verif

/-- The natural number with the given decimal digits; that of no digits is zero. -/
def readDigits (t : List Char) : Option Nat := if t = [] then some 0 else parseNat t

/-- The non-negative number written in decimal with at most one point. -/
def readUnsigned (t : List Char) : Option ℚ :=
  match splitOn '.' t with
  | [w] => (readDigits w).map fun n => (n : ℚ)
  | [w, f] => (readDigits w).bind fun n => (readDigits f).map fun k => (n : ℚ) + (k : ℚ) / 10 ^ f.length
  | _ => none

/-- The number written in decimal, with a sign if it is negative. -/
def readDecimal (t : List Char) : Option ℚ :=
  match t with
  | '-' :: u => (readUnsigned u).map fun v => -v
  | _ => readUnsigned t

section
variable {σ : Type}

/-- From the state `s` of the world and `g` of the runner, the transitions that are made until a final state is reached, each with the
belief of the runner afterwards, and the state of the runner at the end: the runner is asked for an action, the world makes a
transition for this action, and the runner is told the observation. -/
inductive Plays (mo : EvalModel σ) (pol : EvalPolicy σ) (array : σ → Py (List ℚ)) : Nat → σ → List (Ev × List ℚ) → σ → Prop where
  | final {s : Nat} {g : σ} (h : mo.isFinal s = true) : Plays mo pol array s g [] g
  | step {s : Nat} {g g1 g2 g3 g' : σ} {name o : Name} {e : Ev} {b : List ℚ} {l : List (Ev × List ℚ)}
      (notFinal : mo.isFinal s = false) (asked : pol.getAction g = (.ok name, g1)) (known : name ∈ mo.actions)
      (index : e.action = mo.actions.idxOf name) (at_ : e.state = s)
      (moves : mo.sampleTransition e.action s g1 = (.ok (e.next, e.obs, e.reward), g2))
      (observed : mo.observations[e.obs]? = some o) (told : pol.step o g2 = (.ok (), g3)) (belief : array g3 = .ok b)
      (rest : Plays mo pol array e.next g3 l g') : Plays mo pol array s g ((e, b) :: l) g'

/-- The two lines of a transition: the states, the names of the action and of the observation and the reward; the rounded
probabilities of the leaves and that of the last preference. -/
def linesOf (m : SupPomdp) (mo : EvalModel σ) (x : Ev × List ℚ) : List LogLine :=
  [.moved (m.toState x.1.state).text (mo.actions.getD x.1.action (.str "")) (m.toState x.1.next).text
      (mo.observations.getD x.1.obs (.str "")) x.1.reward,
   .belief (formatBeliefArray ((List.range m.nHtmStates).map fun h => mass (m.toState 0) x.2 fun y => y.htm = h))
      (fixedText 2 (mass (m.toState 0) x.2 fun y => y.hasPref (m.par.nPreferences - 1) = 1))]

end

end Verif.Spec
