import Verif.Model.Belief
import Verif.Model.Evaluation
import Verif.Model.Pomdp
import Verif.Model.SupState
import Verif.Model.Text

/-!
# Model of `POMCPPolicyRunner.run_trajectory` (`lib/pomcp.py:492-517`) and of the texts that it logs

* Texts are lists of characters.
* `'{:.df}'.format(x)` writes the rational number `x` rounded to `d` decimals, ties to the even digit.  (Floats are rational numbers
  in this model; the sign of a negative number that rounds to zero is written, as Python does; there is no negative zero.)
* A line of the log is the list of the texts that are put in the message, in the order of the message.  The reward of a transition is
  left as a number: how Python writes it (`repr`) is not modelled.  The fixed words of the messages are the constructors of `LogLine`.
* The default logger (`lib/pomcp.py:493-494`) is not modelled: the log is a list that the given logger appends to.  A logger that
  raises is not modelled.
* The model and the policy are those of `Model/Evaluation.lean`; `array` is `self.belief.array`.
* The `while` loop is cut off after `bound` iterations, with the pseudo exception `unfinished`.
-/

namespace Verif

/-! ### Texts -/

/-- `n` in at least `w` digits, with zeros in front. -/
def padZeros (w n : Nat) : List Char := List.replicate (w - (showNat n).length) '0' ++ showNat n

/-- `'{:.df}'.format(x)`, as in `lib/belief.py:120` and `lib/pomcp.py:512, 517`: `k` is the absolute value in units of the last
digit. -/
def fixedText (d : Nat) (x : ℚ) : List Char :=
  let k := (roundEven (x * 10 ^ d)).natAbs
  (if x < 0 then ['-'] else []) ++ showNat (k / 10 ^ d) ++ ['.'] ++ padZeros d (k % 10 ^ d)

/-- `_format_p`, `lib/belief.py:119-121`. -/
def formatP (x : ℚ) : List Char :=
  if fixedText 1 x = ['1', '.', '0'] then ['1', '.'] else (fixedText 1 x).drop 1

/-- `sep.join(l)`. -/
def joinWith (sep : List Char) : List (List Char) → List Char
  | [] => []
  | [w] => w
  | w :: ws => w ++ sep ++ joinWith sep ws

/-- `format_belief_array`, `lib/belief.py:124-125`. -/
def formatBeliefArray (b : List ℚ) : List Char := joinWith [' '] (b.map formatP)

/-- `'{: >{w}}'.format(t)`: spaces in front, up to the width `w`. -/
def padLeft (w : Nat) (t : List Char) : List Char := List.replicate (w - t.length) ' ' ++ t

/-- `"".join([str(f(i)) for i in range(n)])`, as in `supportive.py:132-137`. -/
def joinRange (n : Nat) (f : Nat → Nat) : List Char := ((List.range n).map fun i => showNat (f i)).flatten

namespace SupState

/-- `__str__`, `supportive.py:128-138`. -/
def text (x : SupState) : List Char :=
  ['<'] ++ padLeft (showNat (x.nStates - 1)).length (showNat x.s) ++ [':', ' '] ++ showNat x.htm ++ [' '] ++
    joinRange (x.shiftHtm - x.shiftPref) x.hasPref ++ [' '] ++ joinRange (x.shiftPref - x.shiftBody) x.hasBody ++ [' '] ++
    joinRange x.shiftBody x.getBit ++ ['>']

end SupState

/-- `states`, `supportive.py:351-354`: the names of all states. -/
def SupPomdp.stateNames (m : SupPomdp) : List (List Char) := (List.range m.nStates).map fun i => (m.toState i).text

/-! ### The trajectory -/

/-- The messages of `run_trajectory`. -/
inductive LogLine where
  /-- `'New trajectory'`, `lib/pomcp.py:497`. -/
  | started
  /-- `'{} -- {} --> {}, {}, {}'`, `lib/pomcp.py:506-511`. -/
  | moved (state : List Char) (action : Name) (next : List Char) (observation : Name) (reward : ℚ)
  /-- `'belief: {} | {:.2f}'`, `lib/pomcp.py:512-514`. -/
  | belief (leaves : List Char) (preference : List Char)
  /-- `"Total reward: %f"`, `lib/pomcp.py:517`. -/
  | total (reward : List Char)
  deriving DecidableEq, Repr

section
variable {σ : Type}

/-- A computation of the model or of the policy, which does not log. -/
def unlogged {α : Type} (x : M σ α) : M (σ × List LogLine) α := fun g => ((x g.1).1, ((x g.1).2, g.2))

/-- `logger(...)`. -/
def logLine (l : LogLine) : M (σ × List LogLine) Unit := M.modify fun g => (g.1, g.2 ++ [l])

/-- `l[0]`. -/
def headNumber (l : List ℚ) : Py ℚ :=
  match l with
  | [] => .error .indexError
  | v :: _ => .ok v

/-- The texts of the second message of an iteration, `lib/pomcp.py:512-514`, for the array `b`. -/
def beliefLine (x : SupState) (b : List ℚ) : Py LogLine := do
  let q ← beliefQuotient x b
  let p ← beliefPreferences x b
  let v ← headNumber p
  return .belief (formatBeliefArray q) (fixedText 2 v)

/-- One iteration, `lib/pomcp.py:503-514`: the new state and the reward. -/
def trajectoryStep (m : SupPomdp) (mo : EvalModel σ) (pol : EvalPolicy σ) (array : σ → Py (List ℚ)) (s : Nat) :
    M (σ × List LogLine) (Nat × ℚ) := do
  let a ← unlogged pol.getAction
  let i ← M.lift (indexOfName mo.actions a)
  let x ← unlogged (mo.sampleTransition i s)
  let o ← M.lift (nameAt mo.observations x.2.1)
  unlogged (pol.step o)
  logLine (.moved (m.toState s).text a (m.toState x.1).text o x.2.2)
  let b ← unlogged fun g => (array g, g)
  let l ← M.lift (beliefLine (m.toState 0) b)
  logLine l
  pure (x.1, x.2.2)

/-- The loop, `lib/pomcp.py:502-516`, with the total reward so far. -/
def trajectoryLoop (m : SupPomdp) (mo : EvalModel σ) (pol : EvalPolicy σ) (array : σ → Py (List ℚ)) :
    Nat → Nat → ℚ → M (σ × List LogLine) ℚ
  | bound, s, total =>
      if mo.isFinal s then pure total
      else match bound with
        | 0 => M.raise .unfinished
        | k + 1 => do
            let y ← trajectoryStep m mo pol array s
            trajectoryLoop m mo pol array k y.1 (total + y.2)

/-- `run_trajectory`, `lib/pomcp.py:492-517`. -/
def runTrajectory (m : SupPomdp) (mo : EvalModel σ) (pol : EvalPolicy σ) (array : σ → Py (List ℚ)) (bound : Nat) :
    M (σ × List LogLine) Unit := do
  logLine .started
  unlogged pol.reset
  let s ← unlogged mo.sampleStart
  let total ← trajectoryLoop m mo pol array bound s 0
  logLine (.total (fixedText 6 total))

end

/-- `self.belief.array` of a runner with particle beliefs, `lib/pomcp.py:459-461`, `lib/belief.py:111-116`. -/
def runnerArray (nStates : Nat) (rs : SearchRunner Nat (List Nat)) : Py (List ℚ) :=
  particleArray nStates (rs.search.tree.nodes rs.node).belief

end Verif
