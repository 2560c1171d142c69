import Verif.Py
import Verif.Num
import Mathlib.Data.Rat.Defs
import Mathlib.Algebra.Order.Ring.Rat

/-!
# Model of `_SupportivePOMDPState` (`supportive.py:117-228`)

Integers are non-negative (`s` is a state index).  `s += x - y` is written `s + x - y` with natural numbers; in all uses
`y` is at most `s`, so that this is the integer result.  `x << k` is `x * 2 ^ k` and `x >> k` is `x / 2 ^ k`.
`__str__` is in `Model/Trajectory.lean`.
-/

namespace Verif

/-- Attributes of `_SupportivePOMDPState`, `supportive.py:121-126`.  `nHtm` is `_final_htm + 1`. -/
structure SupState where
  shiftBody : Nat
  shiftPref : Nat
  shiftHtm : Nat
  nHtm : Nat
  s : Nat
  deriving DecidableEq, Repr

/-- The constructor, `supportive.py:121-126`. -/
def mkSupState (nHtmStates nPreferences nBodyFeatures nObjects : Nat) (s : Nat := 0) : SupState :=
  ⟨nObjects, nObjects + nBodyFeatures, nObjects + nBodyFeatures + nPreferences, nHtmStates, s⟩

namespace SupState

/-- `n_objects`, `supportive.py:140-142`. -/
def nObjects (x : SupState) : Nat := x.shiftBody

/-- `n_body_features`, `supportive.py:144-146`. -/
def nBody (x : SupState) : Nat := x.shiftPref - x.shiftBody

/-- `n_preferences`, `supportive.py:148-150`. -/
def nPref (x : SupState) : Nat := x.shiftHtm - x.shiftPref

/-- `htm`, `supportive.py:156-158`. -/
def htm (x : SupState) : Nat := x.s / 2 ^ x.shiftHtm

/-- The setter of `htm`, `supportive.py:160-162`. -/
def setHtm (x : SupState) (n : Nat) : SupState := { x with s := x.s + n * 2 ^ x.shiftHtm - x.htm * 2 ^ x.shiftHtm }

/-- `n_states`, `supportive.py:164-166`. -/
def nStates (x : SupState) : Nat := x.nHtm * 2 ^ x.shiftHtm

/-- `is_final`, `supportive.py:168-169`: `htm == _final_htm`, and `_final_htm` is `n_htm - 1`. -/
def isFinal (x : SupState) : Bool := decide (x.htm + 1 = x.nHtm)

/-- `_get_bit` and its alias `has_object`, `supportive.py:171-172, 189`. -/
def getBit (x : SupState) (i : Nat) : Nat := x.s / 2 ^ i % 2

/-- `_set_bit` and its alias `set_object`, `supportive.py:174-175, 190`. -/
def setBit (x : SupState) (i b : Nat) : SupState := { x with s := x.s + b * 2 ^ i - x.getBit i * 2 ^ i }

/-- `has_preference`, `supportive.py:177-178`. -/
def hasPref (x : SupState) (i : Nat) : Nat := x.getBit (x.shiftPref + i)

/-- `set_preference`, `supportive.py:180-181`. -/
def setPref (x : SupState) (i b : Nat) : SupState := x.setBit (x.shiftPref + i) b

/-- `has_body_feature`, `supportive.py:183-184`. -/
def hasBody (x : SupState) (i : Nat) : Nat := x.getBit (x.shiftBody + i)

/-- `set_body_feature`, `supportive.py:186-187`. -/
def setBody (x : SupState) (i b : Nat) : SupState := x.setBit (x.shiftBody + i) b

/-- `random_object_changes`, `supportive.py:216-219`; `u i` is the `i`-th random number. -/
def randomObjects (x : SupState) (u : Nat → ℚ) (p : ℚ) : SupState :=
  ((List.range x.nObjects).filter fun i => decide (u i < p)).foldl (fun x i => x.setBit i (1 - x.getBit i)) x

/-- `random_preference_changes`, `supportive.py:221-224`. -/
def randomPrefs (x : SupState) (u : Nat → ℚ) (p : ℚ) : SupState :=
  ((List.range x.nPref).filter fun i => decide (u i < p)).foldl (fun x i => x.setPref i (1 - x.hasPref i)) x

/-- `copy`, `supportive.py:226-228`. -/
def copy (x : SupState) : SupState := mkSupState (x.nHtm + 1) x.nPref x.nBody x.nObjects x.s

end SupState

/-! ### Marginals of beliefs -/

/-- `belief_quotient`, `supportive.py:195-199`.  The reshaped array has in row `h` the entries `h * n, ..., h * n + n - 1`
(row-major order). -/
def beliefQuotient (x : SupState) (array : List ℚ) : Py (List ℚ) :=
  let n := 2 ^ x.shiftHtm
  if array.length ≠ x.nHtm * n then .error .assertionError
  else .ok ((List.range x.nHtm).map fun h => sumRange n fun k => array.getD (h * n + k) 0)

/-- The index in the flat array of a multi-dimensional index (row-major order of `reshape`). -/
def ravel : List Nat → List Nat → Nat
  | d :: ds, i :: is => i * (ds.prod) + ravel ds is
  | _, _ => 0

/-- All indices of an array with `n` axes of length 2. -/
def allBits : Nat → List (List Nat)
  | 0 => [[]]
  | n + 1 => (allBits n).map (0 :: ·) ++ (allBits n).map (1 :: ·)

/-- `belief_preferences`, `supportive.py:201-214`: `pp` has one axis of length 2 for each preference; entry `i` of the
result is the sum of `pp` over the indices whose `i`-th component is the last one, `1`.  (Indexing with a list of slices
is accepted with a warning by the numpy versions of the time.) -/
def beliefPreferences (x : SupState) (array : List ℚ) : Py (List ℚ) :=
  let n := 2 ^ x.shiftPref
  let np := x.nPref
  if array.length ≠ x.nHtm * 2 ^ np * n then .error .assertionError
  else
    let shape := x.nHtm :: (List.replicate np 2 ++ [n])
    let pp := fun idx : List Nat => sumRange x.nHtm fun h => sumRange n fun k => array.getD (ravel shape (h :: (idx ++ [k]))) 0
    .ok ((List.range np).map fun i => (((allBits np).filter fun idx => decide (idx[i]? = some 1)).map pp).sum)

end Verif
