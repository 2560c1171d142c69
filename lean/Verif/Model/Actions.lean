import Verif.Model.Htm

/-!
# Model of actions: equality, hashing and `MetaAction.to_combination`
(`action.py:14-94`, `task.py:218-231, 329-365`)

One-dimensional numpy arrays are lists of rationals with a dtype (NaN and signed zeros are not modelled).  Attributes are
assumed not to be modified after construction, so the name of a meta action is a function of its actions.
-/

namespace Verif

/-- Element types of arrays. -/
inductive DType where
  | int64
  | float64
  | bool
  deriving DecidableEq, Repr

/-- A one-dimensional array. -/
structure Arr where
  dtype : DType
  data : List ℚ
  deriving DecidableEq, Repr

/-- `np.array_equal(a, b)`: same shape and equal elements; the dtype is not compared. -/
def Arr.equal (a b : Arr) : Bool := decide (a.data = b.data)

/-- `Condition` and `MatchAllCondition`, `action.py:14-52`. -/
inductive Cond where
  | matchAll
  | cond (mask value : Arr)
  deriving DecidableEq, Repr

/-- `==` of conditions, `action.py:29-32, 48-49`.  `MatchAllCondition` is a subclass of `Condition` that overrides
`__eq__`, so Python calls its method first when it is the right operand of a `Condition`. -/
def Cond.eq : Cond → Cond → Bool
  | .matchAll, .matchAll => true
  | .cond m v, .cond m' v' => m.equal m' && v.equal v'
  | _, _ => false

/-- The constructor of `Condition`, `action.py:20-24`.  The two arrays have the same length (numpy would also broadcast
arrays of length one, which is not modelled; other lengths raise `ValueError` in numpy). -/
def mkCond (mask value : Arr) : Py Cond :=
  if mask.data.length ≠ value.data.length then .error .valueError
  else if (List.zipWith (fun m v => (1 - m) * v) mask.data value.data).any (fun x => decide (x ≠ 0)) then
    .error .valueError
  else .ok (.cond mask value)

/-- `check` on the feature vector of a state, `action.py:34-35, 51-52`.  Features of another length raise `ValueError`
(broadcasting is not modelled). -/
def Cond.check (features : List ℚ) : Cond → Py Bool
  | .matchAll => .ok true
  | .cond m v =>
      if features.length ≠ m.data.length then .error .valueError
      else .ok ((List.zipWith (· * ·) features m.data).zip v.data |>.all fun p => decide (p.1 = p.2))

/-- `PrePostConditionAction.check(before, after)`, `action.py:93-94` (`and` does not evaluate its right operand when the
left one is false). -/
def prePostCheck (pre post : Cond) (before after : List ℚ) : Py Bool := do
  let a ← pre.check before
  if a then post.check after else return false

/-- The hash functions of the interpreter: of strings, of `array.tostring()`, of pairs of objects with given hashes, and
of the integer 0. -/
structure HashFns where
  str : String → Int
  bytes : DType → List ℚ → Int
  pair : Int → Int → Int
  zero : Int

/-- `__hash__` of conditions, `action.py:26-27, 45-46`. -/
def Cond.hash (H : HashFns) : Cond → Int
  | .matchAll => H.zero
  | .cond m v => H.pair (H.bytes m.dtype m.data) (H.bytes v.dtype v.data)

/-- The kinds accepted by `MetaAction`: the keys of `SEP`, `task.py:331-334`. -/
inductive MKind where
  | sequence
  | parallel
  | alternative
  deriving DecidableEq, Repr

/-- The kind as a string. -/
def MKind.str : MKind → String
  | .sequence => "sequence"
  | .parallel => "parallel"
  | .alternative => "alternative"

/-- `SEP[kind]`, `task.py:331-334`. -/
def MKind.sep : MKind → String
  | .sequence => "→"
  | .parallel => "||"
  | .alternative => "∨"

/-- Action objects: `AbstractAction` (`task.py:218-231`), `MetaAction` (`task.py:329-365`) and `PrePostConditionAction`
(`action.py:75-94`). -/
inductive Act where
  | plain (name : String)
  | metaAct (kind : MKind) (actions : List Act)
  | prePost (pre post : Cond) (name : String)

mutual
/-- `action.name`; for a meta action it is computed by `_name`, `task.py:363-365`. -/
def Act.name : Act → String
  | .plain n => n
  | .metaAct k as => "(" ++ String.intercalate k.sep (Act.names as) ++ ")"
  | .prePost _ _ n => n
/-- `[a.name for a in actions]`. -/
def Act.names : List Act → List String
  | [] => []
  | a :: as => a.name :: Act.names as
end

/-- The constructor of `MetaAction`, `task.py:336-339`: `SEP[kind]` raises `KeyError` on an unknown kind. -/
def mkMeta (kind : String) (actions : List Act) : Py Act :=
  if kind = "sequence" then .ok (.metaAct .sequence actions)
  else if kind = "parallel" then .ok (.metaAct .parallel actions)
  else if kind = "alternative" then .ok (.metaAct .alternative actions)
  else .error .keyError

mutual
/-- `a == b`, `task.py:223-224, 341-344`, `action.py:88-91`.  When the right operand is a `MetaAction` and the left one an
`AbstractAction`, Python calls the method of the right operand first (subclass); the answer is `False` both ways.
`PrePostConditionAction.__eq__` reads `other.pre`, which raises `AttributeError` on the other classes. -/
def Act.eq : Act → Act → Py Bool
  | .plain n, .plain m => .ok (decide (n = m))
  | .metaAct k as, .metaAct k' bs => if k = k' then Act.eqL as bs else .ok false
  | .prePost p q _, .prePost p' q' _ => .ok (p.eq p' && q.eq q')
  | .prePost _ _ _, _ => .error .attributeError
  | _, _ => .ok false
/-- `==` of lists: different lengths are different, otherwise the elements are compared from the left until two differ
(CPython takes identical objects as equal without comparing them, which makes no difference here). -/
def Act.eqL : List Act → List Act → Py Bool
  | [], [] => .ok true
  | a :: as, b :: bs =>
      if as.length = bs.length then do
        let e ← Act.eq a b
        if e then Act.eqL as bs else return false
      else .ok false
  | _, _ => .ok false
end

/-- `__hash__`, `task.py:220-221, 346-347`, `action.py:85-86`. -/
def Act.hash (H : HashFns) : Act → Int
  | .plain n => H.str n
  | .metaAct k as => H.str (Act.name (.metaAct k as))
  | .prePost p q _ => H.pair (p.hash H) (q.hash H)

mutual
/-- `to_combination`, `task.py:357-361`; only meta actions have this method. -/
def Act.toCombination : Act → Py (Htm Act)
  | .metaAct k as => do
      let children ← Act.toCombinationL as
      let cls ← combinationClass k.str
      mkComb cls children
  | _ => .error .attributeError
/-- The list comprehension of `task.py:358-360`. -/
def Act.toCombinationL : List Act → Py (List (Htm Act))
  | [] => .ok []
  | .metaAct k as :: rest => do
      let c ← Act.toCombination (.metaAct k as)
      let cs ← Act.toCombinationL rest
      return c :: cs
  | a :: rest => do
      let cs ← Act.toCombinationL rest
      return .leaf a none none false :: cs
end

end Verif
