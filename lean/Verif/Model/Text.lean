import Verif.Py
import Mathlib.Data.Rat.Defs

/-!
# Text, as used by the parsers

A string is a list of characters.  White space is the ASCII white space of `str.isspace` and `str.strip`.
`int` accepts surrounding white space, a sign and decimal digits (not the underscores and the other digits that Python
also accepts).
-/

namespace Verif

/-- White space characters. -/
def isSpace (c : Char) : Bool :=
  decide (c ∈ [' ', '\t', '\n', '\r', Char.ofNat 11, Char.ofNat 12, Char.ofNat 28, Char.ofNat 29, Char.ofNat 30, Char.ofNat 31])

/-- `s.isspace()`. -/
def isspace (s : List Char) : Bool := !s.isEmpty && s.all isSpace

/-- `s.rstrip(...)`. -/
def rstripBy (p : Char → Bool) (s : List Char) : List Char := (s.reverse.dropWhile p).reverse

/-- `s.strip()`. -/
def strip (s : List Char) : List Char := rstripBy isSpace (s.dropWhile isSpace)

/-- `s.split(sep)` for a separator of one character. -/
def splitOn (sep : Char) : List Char → List (List Char)
  | [] => [[]]
  | c :: cs =>
      if c = sep then [] :: splitOn sep cs
      else match splitOn sep cs with
        | [] => [[c]]
        | w :: ws => (c :: w) :: ws

/-- Value of a digit. -/
def digitVal (c : Char) : Option Nat := if 48 ≤ c.toNat ∧ c.toNat ≤ 57 then some (c.toNat - 48) else none

/-- Value of digits, after the value `acc` of the previous ones. -/
def digitsVal : List Char → Nat → Option Nat
  | [], acc => some acc
  | c :: cs, acc =>
      match digitVal c with
      | none => none
      | some d => digitsVal cs (acc * 10 + d)

/-- Value of a non-empty list of digits. -/
def parseNat (s : List Char) : Option Nat := if s = [] then none else digitsVal s 0

/-- A natural number or a `ValueError`. -/
def natOrError (o : Option Nat) (sign : Int) : Py Int :=
  match o with
  | none => .error .valueError
  | some n => .ok (sign * n)

/-- `int(s)`. -/
def pyInt (s : List Char) : Py Int :=
  match strip s with
  | [] => .error .valueError
  | c :: cs =>
      if c = '-' then natOrError (parseNat cs) (-1)
      else if c = '+' then natOrError (parseNat cs) 1
      else natOrError (parseNat (c :: cs)) 1

/-- The digits of `n`; `fuel` bounds their number. -/
def showAux : Nat → Nat → List Char
  | 0, _ => []
  | fuel + 1, n => if n < 10 then [Char.ofNat (48 + n)] else showAux fuel (n / 10) ++ [Char.ofNat (48 + n % 10)]

/-- `str(n)` for a natural number. -/
def showNat (n : Nat) : List Char := showAux (n + 1) n

/-- `str(n)` for an integer. -/
def showInt : Int → List Char
  | .ofNat n => showNat n
  | .negSucc n => '-' :: showNat (n + 1)

/-- `t.replace('-', ':')` on characters. -/
def dashToColon (c : Char) : Char := if c = '-' then ':' else c

/-- The total in seconds of a `timedelta` built from the four fields `seconds, minutes, hours, days`. -/
def totalSeconds (s m h d : Int) : Int := s + 60 * m + 3600 * h + 86400 * d

/-- `get_process_elapsed_time`, `utils/multiprocess.py:79-88`, as a function of the output of `ps`; the result is the total
number of seconds.  `float(t[0])` is taken on strings of decimal digits only. -/
def elapsedSeconds (out : List Char) : Py Int :=
  let t := (splitOn ':' ((strip out).map dashToColon)).reverse
  let t := t ++ List.replicate (4 - t.length) ['0']
  match t with
  | s :: m :: h :: d :: _ => do
      let s ← pyInt s
      let m ← pyInt m
      let h ← pyInt h
      let d ← pyInt d
      return totalSeconds s m h d
  | _ => .error .indexError

end Verif
