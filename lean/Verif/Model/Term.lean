import Verif.Model.Trajectory

/-!
# Model of progress bars (`utils/term.py`)

* `done`, `todo` and `size` are natural numbers; the quotients, which are floats, are exact (as they are, once truncated, for numbers below
  `2 ^ 52`).
* `colored` (`utils/term.py:8-12`) changes the colors only, so its escape sequences are omitted.
* What is printed is the list of the characters that are sent to the terminal; `flush` does nothing else.
-/

namespace Verif

/-- The digits of a number from the last one, with commas between groups of three. -/
def groupDigits : List Char → List Char
  | a :: b :: c :: d :: l => a :: b :: c :: ',' :: groupDigits (d :: l)
  | l => l

/-- `'{:,d}'.format(n)`. -/
def commas (n : Nat) : List Char := (groupDigits (showNat n).reverse).reverse

/-- `'{:.<{size}}'.format(t)`: points behind, up to the width. -/
def padPoints (size : Nat) (t : List Char) : List Char := t ++ List.replicate (size - t.length) '.'

/-- The numbers at the end, `utils/term.py:32-34`; the width is `int(todo / 10)`, where the width 0 means none. -/
def countText (done todo : Nat) (count : Bool) : List Char :=
  if count then [' '] ++ padLeft (todo / 10) (commas done) ++ ['/'] ++ padLeft (todo / 10) (commas todo) else []

/-- `progress_bar`, `utils/term.py:31-39`. -/
def progressBar (done todo : Nat) (count : Bool) (size : Nat) : Py (List Char) :=
  if todo = 0 then .error .zeroDivisionError
  else .ok (['['] ++ padPoints size (List.replicate (size * done / todo) '#') ++ [' '] ++ padLeft 3 (showNat (100 * done / todo)) ++ ['%', ']', ' '] ++
    countText done todo count)

/-- `print_progress_bar`, `utils/term.py:21-28`: what is printed. -/
def printProgressBar (done todo : Nat) (count : Bool) (size : Nat) (pre : List Char) : Py (List Char) :=
  if todo < done then .ok []
  else do
    let s ← progressBar done todo count size
    return pre ++ s ++ ['\r'] ++ (if todo = done then ['\n'] else [])

/-- `clear_progress_bar`, `utils/term.py:15-18`: what is printed. -/
def clearProgressBar (count : Bool) (size : Nat) (pre : List Char) : List Char :=
  List.replicate (7 + size + 12 * (if count then 1 else 0) + pre.length) ' ' ++ ['\r']

end Verif
