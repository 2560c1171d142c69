import Verif.Model.Solve
import Verif.Spec.GraphPolicy

/-! Specification vocabulary for the external solver and the files (C96). -/

namespace Verif.Spec
open Verif

/-- The value of an option in a command where each option is followed by its value. -/
def optionIn : List String → String → Option String
  | k :: v :: rest, key => if k = key then some v else optionIn rest key
  | _, _ => none

/-- The directory is somewhere in `d`. -/
def Below (d e : List String) : Prop := ∃ l, e = d ++ l

/-- There is nothing where the directory will be. -/
def NoSuchDir (x : Disk) (d : List String) : Prop := (∀ e, Below d e → x.dirs e = false) ∧ ∀ f, Below d f.dir → x.files f = none

/-- The program changes nothing but in its directory. -/
def StaysInside (solver : Call → Disk → Py Int × Disk) : Prop :=
  ∀ c x, (∀ e, ¬ Below c.cwd e → (solver c x).2.dirs e = x.dirs e) ∧ ∀ f, ¬ Below c.cwd f.dir → (solver c x).2.files f = x.files f

/-- The text is made of the lines, each of which ends with the end of the line, but maybe the last one. -/
def Lines (t : List Char) (ls : List (List Char)) : Prop :=
  t = ls.flatten ∧ ∀ i l, ls[i]? = some l → ∃ u, '\n' ∉ u ∧ (l = u ++ ['\n'] ∨ (i + 1 = ls.length ∧ u ≠ [] ∧ l = u))

end Verif.Spec
