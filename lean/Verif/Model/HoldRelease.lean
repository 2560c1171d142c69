import Verif.Model.Pomdp

/-!
# Model of `hold_and_release.py`

The assignments to slices of the arrays are written as functions of the indices, the last assignment to an entry first.
-/

namespace Verif

/-- `T`, `hold_and_release.py:9-18`. -/
def hrT (finish : ℚ) : Arr3 where
  n0 := 3
  n1 := 3
  n2 := 3
  at_ := fun a s s' =>
    if s = 1 then ([[0, 1, 0], [0, 0, 1], [0, 1, 0]].getD a []).getD s' 0
    else if s = 2 then [0, 0, 1].getD s' 0
    else if s = 0 then [1 - finish, finish, 0].getD s' 0
    else 0

/-- `O`, `hold_and_release.py:19-23`. -/
def hrO : Arr3 where
  n0 := 3
  n1 := 3
  n2 := 3
  at_ := fun a s' o =>
    if a = 1 ∨ a = 2 then ([[0, 1, 0], [0, 0, 1], [1, 0, 0]].getD s' []).getD o 0
    else if a = 0 then [1, 0, 0].getD o 0
    else 0

/-- `R`, `hold_and_release.py:24-28`. -/
def hrR (wait failure communication : ℚ) : Arr4 where
  n0 := 3
  n1 := 3
  n2 := 3
  n3 := 3
  at_ := fun a s _ _ =>
    if a = 2 then communication
    else if a = 1 ∧ s = 0 then failure
    else if a = 0 then wait
    else 0

/-- `hold_and_release_pomdp`, `hold_and_release.py:6-33`. -/
def holdRelease (solver : Option String) (wait failure communication finish : ℚ) : Py Pomdp :=
  Pomdp.mk' solver (hrT finish) hrO (hrR wait failure communication) [1, 0, 0] 1
    (some (["zero", "one", "final"].map Name.str)) (some (["wait", "physical", "communicate"].map Name.str))
    (some (["nothing", "doing", "done"].map Name.str)) "cost"

/-- The default value of `proba_finish`, `hold_and_release.py:7`. -/
def hrFinish : ℚ := 1 / 5

end Verif
