import Verif.Model.Term
import Verif.Spec.Trajectory

/-! Specification vocabulary for progress bars (C95). -/

namespace Verif.Spec
open Verif

/-- A terminal, wide enough: the lines above, the line of the cursor, and the column of the cursor. -/
structure Screen where
  above : List (List Char)
  line : List Char
  col : Nat
  deriving DecidableEq, Repr

/-- A character is sent to the terminal: `\r` goes to the begin of the line, `\n` to the next line, and other characters replace what is there. -/
def Screen.put (x : Screen) (c : Char) : Screen :=
  if c = '\r' then { x with col := 0 }
  else if c = '\n' then ⟨x.above ++ [x.line], [], 0⟩
  else ⟨x.above, x.line.take x.col ++ List.replicate (x.col - x.line.length) ' ' ++ [c] ++ x.line.drop (x.col + 1), x.col + 1⟩

/-- Characters are sent to the terminal. -/
def Screen.puts (x : Screen) (t : List Char) : Screen := t.foldl Screen.put x

/-- Nothing is seen on the line. -/
def Unseen (t : List Char) : Prop := ∀ c ∈ t, c = ' '

/-- The text contains nothing but characters that take one column. -/
def Plain (t : List Char) : Prop := ∀ c ∈ t, c ≠ '\r' ∧ c ≠ '\n'

/-- The number written in a text, with commas and spaces. -/
def readCount (t : List Char) : Option Nat := readDigits (t.filter fun c => c ≠ ',' ∧ c ≠ ' ')

end Verif.Spec
