/-!
# Python runtime values used by the model

Exceptions are values of type `PyErr`; a function that may raise returns `Py α`.
Sets are duplicate-free lists, dictionaries are association lists in insertion order.
-/

namespace Verif

/-- Python exceptions that the modelled code can raise. -/
inductive PyErr where
  | valueError
  | keyError
  | indexError
  | zeroDivisionError
  | attributeError
  | typeError
  | assertionError
  | notImplementedError
  | importError
  | runtimeError
  /-- `queue.Empty` -/
  | empty
  /-- `lib/pomdp.py:20` -/
  | impossible
  /-- `lib/belief.py:38` -/
  | maxSamplesReached
  /-- `lib/pomdp.py:16` -/
  | valueFunctionParseError
  /-- `policy.py:6` -/
  | unexpectedObservation
  /-- `OSError`, such as a file that does not exist. -/
  | osError
  /-- `subprocess.CalledProcessError` -/
  | calledProcessError
  /-- Not an exception: a loop that has not ended within the number of iterations given to the model. -/
  | unfinished
  deriving DecidableEq, Repr

/-- Result of a Python call: an exception or a value. -/
abbrev Py (α : Type) := Except PyErr α

instance {α : Type} [DecidableEq α] : DecidableEq (Py α) := fun a b =>
  match a, b with
  | .ok x, .ok y => if h : x = y then isTrue (by rw [h]) else isFalse (by intro e; injection e; contradiction)
  | .error x, .error y =>
      if h : x = y then isTrue (by rw [h]) else isFalse (by intro e; injection e; contradiction)
  | .ok _, .error _ => isFalse (by intro e; cases e)
  | .error _, .ok _ => isFalse (by intro e; cases e)

/-- The state after a call that may raise, when the caller catches the exception and the failed call has not changed
anything. -/
def caught {α : Type} (r : Py α) (old : α) : α :=
  match r with
  | .ok x => x
  | .error _ => old

section
variable {α κ ν : Type} [DecidableEq α] [DecidableEq κ]

/-- `set.add(x)`. -/
def setAdd (l : List α) (x : α) : List α := if x ∈ l then l else l ++ [x]

/-- `set(it)` for an iterable given as a list. -/
def setOf (l : List α) : List α := l.foldl setAdd []

/-- `s1 == s2` on sets. -/
def setEq (a b : List α) : Bool := a.all (fun x => decide (x ∈ b)) && b.all (fun x => decide (x ∈ a))

/-- `d.get(k)` / `d[k]` on a dictionary. -/
def dget (d : List (κ × ν)) (k : κ) : Option ν :=
  match d with
  | [] => none
  | (k', v) :: rest => if k' = k then some v else dget rest k

/-- `d[k] = v` on a dictionary (keeps the position of an existing key). -/
def dset (d : List (κ × ν)) (k : κ) (v : ν) : List (κ × ν) :=
  match d with
  | [] => [(k, v)]
  | (k', v') :: rest => if k' = k then (k', v) :: rest else (k', v') :: dset rest k v

end
end Verif
