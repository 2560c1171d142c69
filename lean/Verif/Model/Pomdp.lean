import Verif.Py
import Verif.Num
import Mathlib.Algebra.Order.Field.Rat
import Mathlib.Data.Rat.Floor

/-!
# Model of the `POMDP` class (`lib/pomdp.py:59-379`)

* Arrays of numbers: one-dimensional ones are lists of rationals; a three- or four-dimensional one is a shape and a
  function of the indices (only its values inside the shape matter).
* Indices are natural numbers (negative indices, which Python counts from the end, are not used by the code here).
* Names are integers (the defaults) or strings.
* Number formatting (`str`, `'{:0.5f}'.format`) is a parameter of `dump`.
* Not modelled: reading and writing files, running the solver (`solve`); `json.dumps` and `json.loads` are taken to be
  inverse on the dictionaries of `to_dict`.
-/

namespace Verif

/-- Names of states, actions and observations. -/
inductive Name where
  | int (n : Nat)
  | str (s : String)
  deriving DecidableEq, Repr

/-- The attributes `_s`, `_a`, `_o`: a list or a count, `lib/pomdp.py:183-199`. -/
inductive Names where
  | count (n : Nat)
  | list (l : List Name)
  deriving DecidableEq, Repr

/-- `_as_list`, `lib/pomdp.py:69-73`. -/
def Names.asList : Names → List Name
  | .count n => (List.range n).map Name.int
  | .list l => l

/-- `_init_states` and the others, `lib/pomdp.py:183-199`. -/
def Names.init (given : Option (List Name)) (n : Nat) : Names :=
  match given with
  | some l => .list l
  | none => .count n

/-- A three-dimensional array. -/
structure Arr3 where
  n0 : Nat
  n1 : Nat
  n2 : Nat
  at_ : Nat → Nat → Nat → ℚ

/-- A four-dimensional array. -/
structure Arr4 where
  n0 : Nat
  n1 : Nat
  n2 : Nat
  n3 : Nat
  at_ : Nat → Nat → Nat → Nat → ℚ

/-- `-R`. -/
def Arr4.neg (R : Arr4) : Arr4 := { R with at_ := fun a s s' o => - R.at_ a s s' o }

/-- `np.allclose(x, 1.)` for one number: the tolerances are `rtol = 1e-5`, `atol = 1e-8`. -/
def closeToOne (x : ℚ) : Bool := decide (|x - 1| ≤ 1 / 100000000 + 1 / 100000)

/-- `assert_normal` on a vector, `lib/utils.py:6-9`. -/
def normal1 (v : List ℚ) : Bool := closeToOne v.sum

/-- `assert_normal` on a three-dimensional array, `lib/utils.py:6-9`. -/
def normal3 (A : Arr3) : Bool :=
  (List.range A.n0).all fun i => (List.range A.n1).all fun j => closeToOne (sumRange A.n2 (A.at_ i j))

/-- Attributes of `POMDP`, `lib/pomdp.py:155-181`. -/
structure Pomdp where
  sNames : Names
  aNames : Names
  oNames : Names
  T : Arr3
  O : Arr3
  R : Arr4
  start : List ℚ
  discount : ℚ
  solverPath : String

namespace Pomdp

/-- `states`, `lib/pomdp.py:201-203`. -/
def states (p : Pomdp) : List Name := p.sNames.asList
/-- `actions`, `lib/pomdp.py:205-207`. -/
def actions (p : Pomdp) : List Name := p.aNames.asList
/-- `observations`, `lib/pomdp.py:209-211`. -/
def observations (p : Pomdp) : List Name := p.oNames.asList
/-- `n_states`, `lib/pomdp.py:213-215`. -/
def nStates (p : Pomdp) : Nat := p.states.length
/-- `n_actions`, `lib/pomdp.py:217-219`. -/
def nActions (p : Pomdp) : Nat := p.actions.length
/-- `n_observations`, `lib/pomdp.py:221-223`. -/
def nObservations (p : Pomdp) : Nat := p.observations.length

/-- `_assert_shapes`, `lib/pomdp.py:225-238`. -/
def shapesOk (p : Pomdp) : Bool :=
  decide (p.start.length = p.nStates) &&
  decide (p.T.n0 = p.nActions ∧ p.T.n1 = p.nStates ∧ p.T.n2 = p.nStates) &&
  decide (p.O.n0 = p.nActions ∧ p.O.n1 = p.nStates ∧ p.O.n2 = p.nObservations) &&
  decide (p.R.n0 = p.nActions ∧ p.R.n1 = p.nStates ∧ p.R.n2 = p.nStates ∧ p.R.n3 = p.nObservations)

/-- `_assert_normal`, `lib/pomdp.py:240-243`. -/
def normalOk (p : Pomdp) : Bool := normal1 p.start && normal3 p.T && normal3 p.O

/-- `assert_no_dup`, `lib/pomdp.py:248-253`: `len(set(lst)) == len(lst)`. -/
def noDup (l : List Name) : Bool := decide ((setOf l).length = l.length)

/-- `_assert_unique`, `lib/pomdp.py:245-257`. -/
def uniqueOk (p : Pomdp) : Bool := noDup p.states && noDup p.actions && noDup p.observations

/-- The reward array stored by the constructor, `lib/pomdp.py:164-170`. -/
def rewardOf (values : String) (R : Arr4) : Py Arr4 :=
  if values = "reward" then .ok R
  else if values = "cost" then .ok R.neg
  else .error .valueError

/-- The constructor, `lib/pomdp.py:155-181`; `solver` is the result of `find_executable`. -/
def mk' (solver : Option String) (T O : Arr3) (R : Arr4) (start : List ℚ) (discount : ℚ)
    (states actions observations : Option (List Name)) (values : String) : Py Pomdp := do
  let r ← rewardOf values R
  let p : Pomdp := ⟨Names.init states O.n1, Names.init actions O.n0, Names.init observations O.n2, T, O, r, start,
    discount, solver.getD ""⟩
  if !p.shapesOk then .error .valueError
  else if !p.normalOk then .error .valueError
  else if !p.uniqueOk then .error .valueError
  else if discount > 1 ∨ discount < 0 then .error .valueError
  else if solver = none then .error .importError
  else return p

/-- The vector `b.dot(T[a, ...]) * O[a, :, o]`, `lib/pomdp.py:260`. -/
def joint (p : Pomdp) (a o : Nat) (b : List ℚ) : List ℚ :=
  (List.range p.T.n2).map fun s' => sumRange p.T.n1 (fun s => b.getD s 0 * p.T.at_ a s s') * p.O.at_ a s' o

/-- `belief_update`, `lib/pomdp.py:259-264`.  Out of range indices raise `IndexError`; a belief of the wrong length raises
`ValueError` (this is the only check made when the model has a state). -/
def beliefUpdate (p : Pomdp) (a o : Nat) (b : List ℚ) : Py (List ℚ) :=
  if p.T.n0 ≤ a then .error .indexError
  else if b.length ≠ p.T.n1 then .error .valueError
  else if p.O.n0 ≤ a ∨ p.O.n2 ≤ o then .error .indexError
  else if (p.joint a o b).sum = 0 then .error .impossible
  else .ok ((p.joint a o b).map (· / (p.joint a o b).sum))

/-- The position chosen by `cdf.searchsorted(u, side='right')` in the cumulative sums of `p` starting at `acc`, that is the
number of cumulative sums that are at most `u`. -/
def searchCdf (u : ℚ) : List ℚ → ℚ → Nat
  | [], _ => 0
  | x :: xs, acc => if u < acc + x then 0 else searchCdf u xs (acc + x) + 1

/-- `np.random.choice(n, p=p)` with the random number `u`: `ValueError` if the size is wrong, if an entry is negative, or
if the sum is not 1 up to `sqrt(eps)` (`2 ** -26`); otherwise the position of `u` in the normalised cumulative sums. -/
def choice (n : Nat) (p : List ℚ) (u : ℚ) : Py Nat :=
  if p.length ≠ n then .error .valueError
  else if n = 0 then .error .valueError
  else if p.any (fun x => decide (x < 0)) then .error .valueError
  else if |p.sum - 1| > 1 / 67108864 then .error .valueError
  else .ok (searchCdf (u * p.sum) p 0)

/-- `sample_transition`, `lib/pomdp.py:266-270`; `u` and `v` are the two random numbers. -/
def sampleTransition (p : Pomdp) (u v : ℚ) (a s : Nat) : Py (Nat × Nat × ℚ) :=
  if p.T.n0 ≤ a ∨ p.T.n1 ≤ s then .error .indexError
  else do
    let s' ← choice p.nStates ((List.range p.T.n2).map (p.T.at_ a s)) u
    let o ← choice p.nObservations ((List.range p.O.n2).map (p.O.at_ a s')) v
    return (s', o, p.R.at_ a s s' o)

/-- `sample_start`, `lib/pomdp.py:272-273`. -/
def sampleStart (p : Pomdp) (u : ℚ) : Py Nat := choice p.nStates p.start u

/-- `A += x; A /= A.sum(-1)[..., None]`, `lib/pomdp.py:333-336`. -/
def randomizeArr (A : Arr3) (x : ℚ) : Arr3 :=
  { A with at_ := fun i j k => (A.at_ i j k + x) / sumRange A.n2 (fun k => A.at_ i j k + x) }

/-- `randomize`, `lib/pomdp.py:332-336`. -/
def randomize (p : Pomdp) (x : ℚ) : Pomdp := { p with T := randomizeArr p.T x, O := randomizeArr p.O x }

end Pomdp

/-! ### Dictionaries -/

/-- `A.tolist()`. -/
def Arr3.toList (A : Arr3) : List (List (List ℚ)) :=
  (List.range A.n0).map fun i => (List.range A.n1).map fun j => (List.range A.n2).map fun k => A.at_ i j k

@[inherit_doc Arr3.toList]
def Arr4.toList (A : Arr4) : List (List (List (List ℚ))) :=
  (List.range A.n0).map fun i => (List.range A.n1).map fun j => (List.range A.n2).map fun k =>
    (List.range A.n3).map fun l => A.at_ i j k l

/-- Element of a nested list. -/
def getD3 (l : List (List (List ℚ))) (i j k : Nat) : ℚ := ((l.getD i []).getD j []).getD k 0

@[inherit_doc getD3]
def getD4 (l : List (List (List (List ℚ)))) (i j k m : Nat) : ℚ := (((l.getD i []).getD j []).getD k []).getD m 0

/-- `np.asarray(l)` for a nested list, used as a three-dimensional array: the shape is read off the first elements.  A
list that is not a regular array with at least one element in the first two dimensions has another number of dimensions,
on which the code raises `ValueError`. -/
def asArr3 (l : List (List (List ℚ))) : Py Arr3 :=
  match l with
  | [] => .error .valueError
  | [] :: _ => .error .valueError
  | ((r :: rs) :: ls) =>
      if ((r :: rs) :: ls).all (fun x => decide (x.length = rs.length + 1) && x.all (fun y => decide (y.length = r.length))) then
        .ok ⟨ls.length + 1, rs.length + 1, r.length, getD3 ((r :: rs) :: ls)⟩
      else .error .valueError

@[inherit_doc asArr3]
def asArr4 (l : List (List (List (List ℚ)))) : Py Arr4 :=
  match l with
  | [] => .error .valueError
  | [] :: _ => .error .valueError
  | ([] :: _) :: _ => .error .valueError
  | (((r :: rs) :: ss) :: ls) =>
      if (((r :: rs) :: ss) :: ls).all (fun x => decide (x.length = ss.length + 1) && x.all (fun y =>
          decide (y.length = rs.length + 1) && y.all (fun z => decide (z.length = r.length)))) then
        .ok ⟨ls.length + 1, ss.length + 1, rs.length + 1, r.length, getD4 (((r :: rs) :: ss) :: ls)⟩
      else .error .valueError

/-- The dictionary of `to_dict`, `lib/pomdp.py:296-305`. -/
structure PomdpDict where
  T : List (List (List ℚ))
  O : List (List (List ℚ))
  R : List (List (List (List ℚ)))
  start : List ℚ
  discount : ℚ
  states : List Name
  actions : List Name
  observations : List Name

namespace Pomdp

/-- `to_dict`, `lib/pomdp.py:296-305`. -/
def toDict (p : Pomdp) : PomdpDict :=
  ⟨p.T.toList, p.O.toList, p.R.toList, p.start, p.discount, p.states, p.actions, p.observations⟩

/-- `from_dict`, `lib/pomdp.py:314-319`. -/
def fromDict (solver : Option String) (d : PomdpDict) : Py Pomdp := do
  let T ← asArr3 d.T
  let O ← asArr3 d.O
  let R ← asArr4 d.R
  mk' solver T O R d.start d.discount (some d.states) (some d.actions) (some d.observations) "reward"

end Pomdp

/-! ### The solver file -/

/-- `str(x)` of a name. -/
def Name.toStr : Name → String
  | .int n => toString n
  | .str s => s

/-- `_dump_list`, `lib/pomdp.py:76-77`. -/
def dumpList (l : List Name) : String := " ".intercalate (l.map Name.toStr)

/-- `_dump_list_or_count`, `lib/pomdp.py:80-84`. -/
def dumpListOrCount : Names → String
  | .count n => toString n
  | .list l => dumpList l

/-- Rounding to an integer, ties to the even one. -/
def roundEven (x : ℚ) : Int :=
  if x - ⌊x⌋ < 1 / 2 then ⌊x⌋ else if 1 / 2 < x - ⌊x⌋ then ⌊x⌋ + 1 else if ⌊x⌋ % 2 = 0 then ⌊x⌋ else ⌊x⌋ + 1

/-- `np.around(x, decimals=5)`, `lib/pomdp.py:65`. -/
def around (x : ℚ) : ℚ := (roundEven (x * 100000) : ℚ) / 100000

/-- `np.argmax(l)`: the first position of the maximum; `best` is the best position so far, with value `v`, and `i` the
next one. -/
def argmaxFrom : List ℚ → Nat → Nat → ℚ → Nat
  | [], _, best, _ => best
  | x :: xs, i, best, v => if v < x then argmaxFrom xs (i + 1) i x else argmaxFrom xs (i + 1) best v

/-- `np.argmax(l)`; raises `ValueError` on an empty list. -/
def argmax : List ℚ → Py Nat
  | [] => .error .valueError
  | x :: xs => .ok (argmaxFrom xs 1 0 x)

/-- The numbers written by `_dump_1d_array`, `lib/pomdp.py:87-93`. -/
def dumpRow (a : List ℚ) : Py (List ℚ) := do
  let trunc := a.map around
  let imax ← argmax trunc
  return trunc.set imax (trunc.getD imax 0 + (around a.sum - trunc.sum))

/-- `_dump_1d_array`, `lib/pomdp.py:87-94`; `fmt` is `'{:0.5f}'.format`. -/
def dump1 (fmt : ℚ → String) (a : List ℚ) : Py String := do
  let r ← dumpRow a
  return " ".intercalate (r.map fmt)

/-- `_dump_2d_array`, `lib/pomdp.py:97-98`. -/
def dump2 (fmt : ℚ → String) (rows : List (List ℚ)) : Py String := do
  let l ← rows.mapM (dump1 fmt)
  return "\n".intercalate l

/-- `_dump_3d_array`, `lib/pomdp.py:101-111`, on the list of two-dimensional arrays; `xs` are the names. -/
def dump3 (fmt : ℚ → String) (name : String) (xs : List String) (a : List (List (List ℚ))) : Py String := do
  let l ← (xs.zip a).mapM fun xa => do
    let r ← dump2 fmt xa.2
    return name ++ " : " ++ xa.1 ++ "\n" ++ r
  return "\n".intercalate l

/-- `_dump_4d_array`, `lib/pomdp.py:114-126`. -/
def dump4 (fmt : ℚ → String) (name : String) (xs ys : List String) (a : List (List (List (List ℚ)))) : Py String := do
  let l ← (xs.zip a).mapM fun xa => dump3 fmt name (ys.map fun y => xa.1 ++ " : " ++ y) xa.2
  return "\n".intercalate l

/-- `dump`, `lib/pomdp.py:275-288`; `strNum` is `str` on the discount. -/
def Pomdp.dump (fmt strNum : ℚ → String) (p : Pomdp) : Py String := do
  let preamble := "discount: " ++ strNum p.discount ++ "\nvalues: reward\nstates: " ++ dumpListOrCount p.sNames ++
    "\nactions: " ++ dumpListOrCount p.aNames ++ "\nobservations: " ++ dumpListOrCount p.oNames ++ "\n"
  let start ← dump1 fmt p.start
  let T ← dump3 fmt "T" (p.actions.map Name.toStr) p.T.toList
  let O ← dump3 fmt "O" (p.actions.map Name.toStr) p.O.toList
  let R ← dump4 fmt "R" (p.actions.map Name.toStr) (p.states.map Name.toStr) p.R.toList
  return "\n\n".intercalate [preamble, "start: " ++ start, T, O, R]

end Verif
