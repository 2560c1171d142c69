import Verif.Model.HtmPomdp
import Verif.Model.Tower

/-!
# The tests of `tests/test_task_to_pomdp.py` on the model

These are tests of the model, not proofs of properties of the code: the expected values written by the authors of the
repository are compared with the values the model computes.  The exponential, a parameter of the model, is a table of the values
to the precision of the tests.
-/

namespace Verif.Tests.HtmPomdp
open Verif

/-- `CollaborativeAction(name, (t_hum, t_rob, t_err), fail_probability=fail, no_probability=no)`. -/
def act (name : String) (h r e : ℚ) (no fail : ℚ) : CAction := ⟨name, h, r, e, no, fail⟩

/-- `exp`, to the precision of the tests. -/
def expTable (x : ℚ) : ℚ :=
  if x = -1 / 3 then 71653 / 100000 else if x = -5 / 3 then 18888 / 100000 else if x = -2 / 3 then 51342 / 100000
  else if x = -1 / 2 then 60653 / 100000 else if x = -5 / 2 then 8208 / 100000 else if x = -1 then 36788 / 100000
  else if x = -4 / 3 then 2636 / 10000 else if x = -2 then 13534 / 100000 else 0

/-- `exp`, to the precision of `test_leaf_to_pomdp`. -/
def expFine (x : ℚ) : ℚ :=
  if x = -1 / 3 then 71653131 / 100000000 else if x = -5 / 3 then 1888756 / 10000000 else if x = -2 / 3 then 51341712 / 100000000 else 0

/-- `HTMToPOMDP(1., 2., 1., 1., end_reward=r)`. -/
def h2p (r : ℚ) : HtmParams := ⟨1, 2, 1, 1, r, false, false, false, false, none⟩

/-- `LeafCombination(a)`. -/
def leaf (a : CAction) : Htm CAction := .leaf a none none false

/-- `test_name_radix`, lines 13-15. -/
example : nameRadix "My mixed Case action" = "my-mixed-case-action" := by decide +kernel

/-- The array `R` of the tests, broadcast to the two last dimensions. -/
def spread (nS nO : Nat) (R : List (List ℚ)) : List (List (List (List ℚ))) :=
  R.map fun row => row.map fun v => List.replicate nS (List.replicate nO v)

/-- Does a conversion give these states, actions, observations, start and arrays? -/
def gives (p : Py Pomdp) (S A O : List String) (start : List ℚ) (T Ob : List (List (List ℚ))) (R : List (List (List (List ℚ)))) : Bool :=
  match p with
  | .ok p => p.states == S.map Name.str && p.actions == A.map Name.str && p.observations == O.map Name.str && p.start == start
      && p.T.toList == T && p.O.toList == Ob && p.R.toList == R
  | .error _ => false

/-- `Do a` then (or) `Do b`, lines 268-274. -/
def two (k : Kind) (name : String) (r : ℚ) : Py Pomdp := do
  let root ← mkComb k [leaf (act "Do a" 3 2 5 0 0), leaf (act "Do b" 2 3 4 0 0)] none none name
  htmToPomdp (some "") expTable nameRadix (h2p r) 10 root

/-- `Do it`, lines 204-206. -/
def one (exp : ℚ → ℚ) (no fail : ℚ) (r : ℚ) : Py Pomdp := htmToPomdp (some "") exp nameRadix (h2p r) 10 (leaf (act "Do it" 3 2 5 no fail))

/-- `T` of `test_leaf_to_pomdp`. -/
def leafExpT : List (List (List ℚ)) :=
  [[[1, 0, 0, 0],
    [0, 71653131 / 100000000, 0, 28346869 / 100000000],
    [0, 0, 1, 0],
    [0, 0, 0, 1]],
   [[1, 0, 0, 0],
    [0, 472189 / 2500000, 0, 2027811 / 2500000],
    [0, 0, 0, 1],
    [0, 0, 0, 1]],
   [[0, 1, 0, 0],
    [0, 3208857 / 6250000, 0, 3041143 / 6250000],
    [0, 0, 1, 0],
    [0, 0, 0, 1]],
   [[0, 0, 1, 0],
    [0, 71653131 / 100000000, 0, 28346869 / 100000000],
    [0, 0, 1, 0],
    [0, 0, 0, 1]],
   [[1, 0, 0, 0],
    [0, 3208857 / 6250000, 0, 3041143 / 6250000],
    [0, 0, 1, 0],
    [0, 0, 0, 1]]]

/-- `O` of `test_leaf_to_pomdp`. -/
def leafExpO : List (List (List ℚ)) :=
  [[[1, 0, 0, 0],
    [1, 0, 0, 0],
    [1, 0, 0, 0],
    [1, 0, 0, 0]],
   [[0, 0, 0, 1],
    [0, 0, 0, 1],
    [0, 0, 0, 1],
    [1, 0, 0, 0]],
   [[1, 0, 0, 0],
    [0, 1, 0, 0],
    [0, 0, 1, 0],
    [1, 0, 0, 0]],
   [[1, 0, 0, 0],
    [1, 0, 0, 0],
    [1, 0, 0, 0],
    [1, 0, 0, 0]],
   [[0, 0, 1, 0],
    [0, 0, 1, 0],
    [0, 0, 1, 0],
    [0, 1, 0, 0]]]

/-- `R` of `test_leaf_to_pomdp`, before it is broadcast. -/
def leafExpR : List (List ℚ) :=
  [[(-1), (-1), (-1), 0],
   [(-6), (-6), (-3), (-1)],
   [(-3), (-3), (-3), (-1)],
   [(-2), (-2), (-2), (-1)],
   [(-3), (-3), (-3), (-1)]]

/-- `test_leaf_to_pomdp`, lines 192-264. -/
example : gives (one expFine 0 0 0)
    ["init-do-it", "H-do-it", "R-do-it", "end"]
    ["wait", "phy-do-it", "com-ask-intention-do-it", "com-tell-intention-do-it", "com-ask-finished-do-it"]
    ["none", "yes", "no", "error"]
    [1, 0, 0, 0] leafExpT leafExpO (spread 4 4 leafExpR) = true := by
  decide +kernel

/-- `T` of `test_seq_to_pomdp`. -/
def seqExpT : List (List (List ℚ)) :=
  [[[1, 0, 0, 0, 0, 0, 0],
    [0, 71653 / 100000, 0, 28347 / 100000, 0, 0, 0],
    [0, 0, 1, 0, 0, 0, 0],
    [0, 0, 0, 1, 0, 0, 0],
    [0, 0, 0, 0, 60653 / 100000, 0, 39347 / 100000],
    [0, 0, 0, 0, 0, 1, 0],
    [0, 0, 0, 0, 0, 0, 1]],
   [[1, 0, 0, 0, 0, 0, 0],
    [0, 2361 / 12500, 0, 10139 / 12500, 0, 0, 0],
    [0, 0, 0, 1, 0, 0, 0],
    [0, 0, 0, 1, 0, 0, 0],
    [0, 0, 0, 0, 513 / 6250, 0, 5737 / 6250],
    [0, 0, 0, 0, 0, 1, 0],
    [0, 0, 0, 0, 0, 0, 1]],
   [[0, 1, 0, 0, 0, 0, 0],
    [0, 25671 / 50000, 0, 24329 / 50000, 0, 0, 0],
    [0, 0, 1, 0, 0, 0, 0],
    [0, 0, 0, 1, 0, 0, 0],
    [0, 0, 0, 0, 9197 / 25000, 0, 15803 / 25000],
    [0, 0, 0, 0, 0, 1, 0],
    [0, 0, 0, 0, 0, 0, 1]],
   [[0, 0, 1, 0, 0, 0, 0],
    [0, 71653 / 100000, 0, 28347 / 100000, 0, 0, 0],
    [0, 0, 1, 0, 0, 0, 0],
    [0, 0, 0, 1, 0, 0, 0],
    [0, 0, 0, 0, 60653 / 100000, 0, 39347 / 100000],
    [0, 0, 0, 0, 0, 1, 0],
    [0, 0, 0, 0, 0, 0, 1]],
   [[1, 0, 0, 0, 0, 0, 0],
    [0, 25671 / 50000, 0, 24329 / 50000, 0, 0, 0],
    [0, 0, 1, 0, 0, 0, 0],
    [0, 0, 0, 1, 0, 0, 0],
    [0, 0, 0, 0, 9197 / 25000, 0, 15803 / 25000],
    [0, 0, 0, 0, 0, 1, 0],
    [0, 0, 0, 0, 0, 0, 1]],
   [[1, 0, 0, 0, 0, 0, 0],
    [0, 659 / 2500, 0, 1841 / 2500, 0, 0, 0],
    [0, 0, 1, 0, 0, 0, 0],
    [0, 0, 0, 1, 0, 0, 0],
    [0, 0, 0, 0, 6767 / 50000, 0, 43233 / 50000],
    [0, 0, 0, 0, 0, 0, 1],
    [0, 0, 0, 0, 0, 0, 1]],
   [[1, 0, 0, 0, 0, 0, 0],
    [0, 25671 / 50000, 0, 24329 / 50000, 0, 0, 0],
    [0, 0, 1, 0, 0, 0, 0],
    [0, 0, 0, 0, 1, 0, 0],
    [0, 0, 0, 0, 9197 / 25000, 0, 15803 / 25000],
    [0, 0, 0, 0, 0, 1, 0],
    [0, 0, 0, 0, 0, 0, 1]],
   [[1, 0, 0, 0, 0, 0, 0],
    [0, 71653 / 100000, 0, 28347 / 100000, 0, 0, 0],
    [0, 0, 1, 0, 0, 0, 0],
    [0, 0, 0, 0, 0, 1, 0],
    [0, 0, 0, 0, 60653 / 100000, 0, 39347 / 100000],
    [0, 0, 0, 0, 0, 1, 0],
    [0, 0, 0, 0, 0, 0, 1]],
   [[1, 0, 0, 0, 0, 0, 0],
    [0, 25671 / 50000, 0, 24329 / 50000, 0, 0, 0],
    [0, 0, 1, 0, 0, 0, 0],
    [0, 0, 0, 1, 0, 0, 0],
    [0, 0, 0, 0, 9197 / 25000, 0, 15803 / 25000],
    [0, 0, 0, 0, 0, 1, 0],
    [0, 0, 0, 0, 0, 0, 1]]]

/-- `O` of `test_seq_to_pomdp`. -/
def seqExpO : List (List (List ℚ)) :=
  [[[1, 0, 0, 0],
    [1, 0, 0, 0],
    [1, 0, 0, 0],
    [1, 0, 0, 0],
    [1, 0, 0, 0],
    [1, 0, 0, 0],
    [1, 0, 0, 0]],
   [[0, 0, 0, 1],
    [0, 0, 0, 1],
    [0, 0, 0, 1],
    [1, 0, 0, 0],
    [0, 0, 0, 1],
    [0, 0, 0, 1],
    [0, 0, 0, 1]],
   [[1, 0, 0, 0],
    [0, 1, 0, 0],
    [0, 0, 1, 0],
    [1, 0, 0, 0],
    [1, 0, 0, 0],
    [1, 0, 0, 0],
    [1, 0, 0, 0]],
   [[1, 0, 0, 0],
    [1, 0, 0, 0],
    [1, 0, 0, 0],
    [1, 0, 0, 0],
    [1, 0, 0, 0],
    [1, 0, 0, 0],
    [1, 0, 0, 0]],
   [[0, 0, 1, 0],
    [0, 0, 1, 0],
    [0, 0, 1, 0],
    [0, 1, 0, 0],
    [0, 1, 0, 0],
    [0, 1, 0, 0],
    [0, 1, 0, 0]],
   [[0, 0, 0, 1],
    [0, 0, 0, 1],
    [0, 0, 0, 1],
    [0, 0, 0, 1],
    [0, 0, 0, 1],
    [0, 0, 0, 1],
    [1, 0, 0, 0]],
   [[1, 0, 0, 0],
    [1, 0, 0, 0],
    [1, 0, 0, 0],
    [1, 0, 0, 0],
    [0, 1, 0, 0],
    [0, 0, 1, 0],
    [1, 0, 0, 0]],
   [[1, 0, 0, 0],
    [1, 0, 0, 0],
    [1, 0, 0, 0],
    [1, 0, 0, 0],
    [1, 0, 0, 0],
    [1, 0, 0, 0],
    [1, 0, 0, 0]],
   [[0, 0, 1, 0],
    [0, 0, 1, 0],
    [0, 0, 1, 0],
    [0, 0, 1, 0],
    [0, 0, 1, 0],
    [0, 0, 1, 0],
    [0, 1, 0, 0]]]

/-- `R` of `test_seq_to_pomdp`, before it is broadcast. -/
def seqExpR : List (List ℚ) :=
  [[(-1), (-1), (-1), (-1), (-1), (-1), 0],
   [(-6), (-6), (-3), (-6), (-6), (-6), (-1)],
   [(-3), (-3), (-3), (-3), (-3), (-3), (-1)],
   [(-2), (-2), (-2), (-2), (-2), (-2), (-1)],
   [(-3), (-3), (-3), (-3), (-3), (-3), (-1)],
   [(-5), (-5), (-5), (-5), (-5), (-4), (-1)],
   [(-3), (-3), (-3), (-3), (-3), (-3), (-1)],
   [(-2), (-2), (-2), (-2), (-2), (-2), (-1)],
   [(-3), (-3), (-3), (-3), (-3), (-3), (-1)]]

/-- `test_seq_to_pomdp`, lines 266-447. -/
example : gives (two .sequential "Do all" 0)
    ["init-do-a", "H-do-a", "R-do-a", "init-do-b", "H-do-b", "R-do-b", "end"]
    ["wait", "phy-do-a", "com-ask-intention-do-a", "com-tell-intention-do-a", "com-ask-finished-do-a", "phy-do-b", "com-ask-intention-do-b", "com-tell-intention-do-b", "com-ask-finished-do-b"]
    ["none", "yes", "no", "error"]
    [1, 0, 0, 0, 0, 0, 0] seqExpT seqExpO (spread 7 4 seqExpR) = true := by
  decide +kernel

/-- `T` of `test_alt_to_pomdp`. -/
def altExpT : List (List (List ℚ)) :=
  [[[1, 0, 0, 0, 0, 0, 0],
    [0, 71653 / 100000, 0, 0, 0, 0, 28347 / 100000],
    [0, 0, 1, 0, 0, 0, 0],
    [0, 0, 0, 1, 0, 0, 0],
    [0, 0, 0, 0, 60653 / 100000, 0, 39347 / 100000],
    [0, 0, 0, 0, 0, 1, 0],
    [0, 0, 0, 0, 0, 0, 1]],
   [[1, 0, 0, 0, 0, 0, 0],
    [0, 2361 / 12500, 0, 0, 0, 0, 10139 / 12500],
    [0, 0, 0, 0, 0, 0, 1],
    [0, 0, 0, 1, 0, 0, 0],
    [0, 0, 0, 0, 513 / 6250, 0, 5737 / 6250],
    [0, 0, 0, 0, 0, 1, 0],
    [0, 0, 0, 0, 0, 0, 1]],
   [[0, 1, 0, 0, 0, 0, 0],
    [0, 25671 / 50000, 0, 0, 0, 0, 24329 / 50000],
    [0, 0, 1, 0, 0, 0, 0],
    [0, 0, 0, 1, 0, 0, 0],
    [0, 0, 0, 0, 9197 / 25000, 0, 15803 / 25000],
    [0, 0, 0, 0, 0, 1, 0],
    [0, 0, 0, 0, 0, 0, 1]],
   [[0, 0, 1, 0, 0, 0, 0],
    [0, 71653 / 100000, 0, 0, 0, 0, 28347 / 100000],
    [0, 0, 1, 0, 0, 0, 0],
    [0, 0, 0, 1, 0, 0, 0],
    [0, 0, 0, 0, 60653 / 100000, 0, 39347 / 100000],
    [0, 0, 0, 0, 0, 1, 0],
    [0, 0, 0, 0, 0, 0, 1]],
   [[1, 0, 0, 0, 0, 0, 0],
    [0, 25671 / 50000, 0, 0, 0, 0, 24329 / 50000],
    [0, 0, 1, 0, 0, 0, 0],
    [0, 0, 0, 1, 0, 0, 0],
    [0, 0, 0, 0, 9197 / 25000, 0, 15803 / 25000],
    [0, 0, 0, 0, 0, 1, 0],
    [0, 0, 0, 0, 0, 0, 1]],
   [[1, 0, 0, 0, 0, 0, 0],
    [0, 659 / 2500, 0, 0, 0, 0, 1841 / 2500],
    [0, 0, 1, 0, 0, 0, 0],
    [0, 0, 0, 1, 0, 0, 0],
    [0, 0, 0, 0, 6767 / 50000, 0, 43233 / 50000],
    [0, 0, 0, 0, 0, 0, 1],
    [0, 0, 0, 0, 0, 0, 1]],
   [[1, 0, 0, 0, 0, 0, 0],
    [0, 25671 / 50000, 0, 0, 0, 0, 24329 / 50000],
    [0, 0, 1, 0, 0, 0, 0],
    [0, 0, 0, 0, 1, 0, 0],
    [0, 0, 0, 0, 9197 / 25000, 0, 15803 / 25000],
    [0, 0, 0, 0, 0, 1, 0],
    [0, 0, 0, 0, 0, 0, 1]],
   [[1, 0, 0, 0, 0, 0, 0],
    [0, 71653 / 100000, 0, 0, 0, 0, 28347 / 100000],
    [0, 0, 1, 0, 0, 0, 0],
    [0, 0, 0, 0, 0, 1, 0],
    [0, 0, 0, 0, 60653 / 100000, 0, 39347 / 100000],
    [0, 0, 0, 0, 0, 1, 0],
    [0, 0, 0, 0, 0, 0, 1]],
   [[1, 0, 0, 0, 0, 0, 0],
    [0, 25671 / 50000, 0, 0, 0, 0, 24329 / 50000],
    [0, 0, 1, 0, 0, 0, 0],
    [0, 0, 0, 1, 0, 0, 0],
    [0, 0, 0, 0, 9197 / 25000, 0, 15803 / 25000],
    [0, 0, 0, 0, 0, 1, 0],
    [0, 0, 0, 0, 0, 0, 1]]]

/-- `O` of `test_alt_to_pomdp`. -/
def altExpO : List (List (List ℚ)) :=
  [[[1, 0, 0, 0],
    [1, 0, 0, 0],
    [1, 0, 0, 0],
    [1, 0, 0, 0],
    [1, 0, 0, 0],
    [1, 0, 0, 0],
    [1, 0, 0, 0]],
   [[0, 0, 0, 1],
    [0, 0, 0, 1],
    [0, 0, 0, 1],
    [0, 0, 0, 1],
    [0, 0, 0, 1],
    [0, 0, 0, 1],
    [1, 0, 0, 0]],
   [[1, 0, 0, 0],
    [0, 1, 0, 0],
    [0, 0, 1, 0],
    [1, 0, 0, 0],
    [1, 0, 0, 0],
    [1, 0, 0, 0],
    [1, 0, 0, 0]],
   [[1, 0, 0, 0],
    [1, 0, 0, 0],
    [1, 0, 0, 0],
    [1, 0, 0, 0],
    [1, 0, 0, 0],
    [1, 0, 0, 0],
    [1, 0, 0, 0]],
   [[0, 0, 1, 0],
    [0, 0, 1, 0],
    [0, 0, 1, 0],
    [0, 0, 1, 0],
    [0, 0, 1, 0],
    [0, 0, 1, 0],
    [0, 1, 0, 0]],
   [[0, 0, 0, 1],
    [0, 0, 0, 1],
    [0, 0, 0, 1],
    [0, 0, 0, 1],
    [0, 0, 0, 1],
    [0, 0, 0, 1],
    [1, 0, 0, 0]],
   [[1, 0, 0, 0],
    [1, 0, 0, 0],
    [1, 0, 0, 0],
    [1, 0, 0, 0],
    [0, 1, 0, 0],
    [0, 0, 1, 0],
    [1, 0, 0, 0]],
   [[1, 0, 0, 0],
    [1, 0, 0, 0],
    [1, 0, 0, 0],
    [1, 0, 0, 0],
    [1, 0, 0, 0],
    [1, 0, 0, 0],
    [1, 0, 0, 0]],
   [[0, 0, 1, 0],
    [0, 0, 1, 0],
    [0, 0, 1, 0],
    [0, 0, 1, 0],
    [0, 0, 1, 0],
    [0, 0, 1, 0],
    [0, 1, 0, 0]]]

/-- `R` of `test_alt_to_pomdp`, before it is broadcast. -/
def altExpR : List (List ℚ) :=
  [[(-1), (-1), (-1), (-1), (-1), (-1), 0],
   [(-6), (-6), (-3), (-6), (-6), (-6), (-1)],
   [(-3), (-3), (-3), (-3), (-3), (-3), (-1)],
   [(-2), (-2), (-2), (-2), (-2), (-2), (-1)],
   [(-3), (-3), (-3), (-3), (-3), (-3), (-1)],
   [(-5), (-5), (-5), (-5), (-5), (-4), (-1)],
   [(-3), (-3), (-3), (-3), (-3), (-3), (-1)],
   [(-2), (-2), (-2), (-2), (-2), (-2), (-1)],
   [(-3), (-3), (-3), (-3), (-3), (-3), (-1)]]

/-- `test_alt_to_pomdp`, lines 449-631. -/
example : gives (two .alternative "Do either" 0)
    ["init-do-a", "H-do-a", "R-do-a", "init-do-b", "H-do-b", "R-do-b", "end"]
    ["wait", "phy-do-a", "com-ask-intention-do-a", "com-tell-intention-do-a", "com-ask-finished-do-a", "phy-do-b", "com-ask-intention-do-b", "com-tell-intention-do-b", "com-ask-finished-do-b"]
    ["none", "yes", "no", "error"]
    [1 / 2, 0, 0, 1 / 2, 0, 0, 0] altExpT altExpO (spread 7 4 altExpR) = true := by
  decide +kernel

/-- `R[wait, end, end, :]`. -/
def endOf (p : Py Pomdp) : Option (List ℚ) :=
  match p with
  | .ok p => some ((List.range 4).map (p.R.at_ 0 (p.nStates - 1) (p.nStates - 1)))
  | .error _ => none

/-- `test_end_reward`, lines 536-541. -/
example : endOf (one expTable (1 / 10) (1 / 10) 13) = some [13, 13, 13, 13] := by decide +kernel

/-- `test_end_reward_on_seq`, lines 543-552. -/
example : endOf (two .sequential "Do all" 13) = some [13, 13, 13, 13] := by decide +kernel

/-! ### `TestLeafToPOMDP`, `TestSequenceToPOMDP`, `TestAlternativeToPOMDP`: the nodes alone -/

/-- `_NodeToPOMDP.from_node(node, 2., 1.)` with the default flags. -/
def nodes : HtmParams := ⟨0, 2, 1, 0, 0, false, false, false, false, none⟩

/-- `test_durations`, line 31. -/
example : leafDurations nodes (act "Do it" 3 2 5 (1 / 10) (1 / 10)) = [5, 2, 1, 2] := by decide +kernel

/-- `test_start`, line 34. -/
example : (N2P.leaf (act "Do it" 3 2 5 (1 / 10) (1 / 10))).start = [1] := by decide +kernel

/-- `test_updated_R_values`, lines 69-76. -/
example : (match leafR nodes ((List.range 7).map fun i => (i : ℚ) + 2) (act "Do it" 3 2 5 (1 / 10) (1 / 10)) 2 4 (fun _ _ _ _ => 0) with
    | .ok R => (List.range 7).map fun a => (List.range 3).map fun s => (List.range 8).map fun s' => (List.range 4).map fun o => R a (4 + s) s' o
    | .error _ => [])
    = spread 8 4 [[2, 2, 2], [3, 3, 3], [4, 4, 2], [5, 5, 5], [6, 6, 6], [7, 7, 7], [8, 8, 8]] := by decide +kernel

/-- `test_updated_T_is_proba`, lines 43-46. -/
example : (List.range 7).all (fun a => (List.range 2).all fun s => ((List.range 8).map fun s' =>
    leafT expTable nodes ((List.range 7).map fun i => (i : ℚ)) (act "Do it" 3 2 5 (1 / 10) (1 / 10)) 2 4 [6, 7] [1 / 5, 4 / 5]
      (fun _ _ _ => 0) a (4 + s) s').sum == 1) = true := by decide +kernel

/-- `test_updated_O_is_proba`, lines 55-59. -/
example : (List.range 4).all (fun a => (List.range 8).all fun s => ((List.range 4).map fun o =>
    leafO nodes (act "Do it" 3 2 5 (1 / 10) (1 / 10)) 2 4 [7] [6, 7] [1, 5] (fun _ _ o => if o = 3 then 1 else 0) (2 + a) s o).sum == 1)
    = true := by decide +kernel

/-- `test_with_failure_probability`, lines 78-88. -/
example : (List.range 8).map (leafT expTable nodes ((List.range 7).map fun i => (i : ℚ)) (act "Do it" 3 2 5 (1 / 10) (1 / 5)) 2 3 [6, 7]
    [1 / 5, 4 / 5] (fun _ _ _ => 0) 2 5) = [0, 0, 0, 0, 0, 1 / 5, 4 / 5 * (1 / 5), 4 / 5 * (4 / 5)] := by decide +kernel

/-- `test_with_no_probability`, lines 90-99. -/
example : (List.range 8).map (leafT expTable nodes ((List.range 7).map fun i => (i : ℚ)) (act "Do it" 3 2 5 (1 / 5) (1 / 10)) 2 3 [6, 7]
    [1 / 5, 4 / 5] (fun _ _ _ => 0) 3 3) = [0, 0, 0, 0, 4 / 5, 1 / 5, 0, 0] := by decide +kernel

/-- The nodes of lines 156-161 and 178-183. -/
def pair : List (N2P CAction) := [.leaf (act "Do a" 3 2 5 (1 / 10) (1 / 10)), .leaf (act "Do b" 2 3 4 (1 / 10) (1 / 10))]

/-- `test_durations`, line 105. -/
example : (N2P.seq pair).concat (leafDurations nodes) = [5, 2, 1, 2, 4, 2, 1, 2] := by decide +kernel
example : (N2P.alt pair).concat (leafDurations nodes) = [5, 2, 1, 2, 4, 2, 1, 2] := by decide +kernel

/-- `test_updated_R_values`, lines 140-148, for a sequence and for an alternative. -/
def pairR : List ℚ := [1, 2, 5, 2, 2, 2, 4, 2, 2, 2, 7]
@[inherit_doc pairR]
def pairRows (n : N2P CAction) : List (List (List (List ℚ))) :=
  match n.travR 3 4 (leafR nodes pairR) 2 3 (fun _ _ _ _ => 0) with
  | .ok R => (List.range 11).map fun a => (List.range 6).map fun s => (List.range 10).map fun s' => (List.range 4).map fun o => R a (3 + s) s' o
  | .error _ => []
@[inherit_doc pairR]
def pairExpected : List (List (List (List ℚ))) :=
  spread 10 4 [[1, 1, 1, 1, 1, 1], [2, 2, 2, 2, 2, 2], [5, 5, 2, 5, 5, 5], [2, 2, 2, 2, 2, 2], [2, 2, 2, 2, 2, 2], [2, 2, 2, 2, 2, 2],
    [4, 4, 4, 4, 4, 3], [2, 2, 2, 2, 2, 2], [2, 2, 2, 2, 2, 2], [2, 2, 2, 2, 2, 2], [7, 7, 7, 7, 7, 7]]
example : pairRows (.seq pair) = pairExpected := by decide +kernel
example : pairRows (.alt pair) = pairExpected := by decide +kernel

/-- `test_init` and `test_start` of a sequence, lines 163-167. -/
example : (N2P.seq pair).init 3 0 = [0] ∧ (N2P.seq pair).start = [1] := by decide +kernel

/-- `test_start_indices`, lines 169-171. -/
example : N2P.statesOf 3 3 (pair.take 1) = [3, 4, 5] ∧ N2P.statesOf 3 6 (pair.drop 1) = [6, 7, 8] := by decide +kernel

/-- `test_init` and `test_start` of an alternative, lines 185-189. -/
example : (N2P.alt pair).init 3 0 = [0, 3] ∧ (N2P.alt pair).start = [1 / 2, 1 / 2] := by decide +kernel

end Verif.Tests.HtmPomdp
