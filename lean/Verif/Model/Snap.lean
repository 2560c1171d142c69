import Verif.Model.Actions

/-!
# Model of `task_models/snap_circuit.py`

Part identifiers and coordinates are integers (numpy wraps negative indices around), the number of rows and columns are
naturals, labels are strings.  A set of parts is a duplicate-free list in some order; the order in which CPython visits a set
is modelled in the second half, which follows the set of CPython 3.8 and later (`Objects/setobject.c`,
`Objects/tupleobject.c`) because `__hash__` (`snap_circuit.py:49-50`) depends on it.
-/

namespace Verif

/-- `SnapCircuitPart`, `snap_circuit.py:17-32`: `==` compares the identifier and the label. -/
structure SnapPart where
  id : Int
  label : String
  deriving DecidableEq, Repr

/-- A location `(row, column, orientation)`, `snap_circuit.py:14`. -/
abbrev SnapLoc := Int × Int × Int

/-- `SnapCircuitState`, `snap_circuit.py:35-47`. -/
structure SnapState where
  rows : Nat
  cols : Nat
  parts : List (SnapLoc × SnapPart)
  deriving Repr

/-- The constructor, `snap_circuit.py:44-47`. -/
def mkSnapState (board : Nat × Nat) (parts : List (SnapLoc × SnapPart)) : SnapState :=
  { rows := board.1, cols := board.2, parts := setOf parts }

/-- `ORIENTATION_NAMES`, `snap_circuit.py:13`. -/
def orientationNames : List String := ["north", "east", "south", "west"]

/-- `feature_shape`, `snap_circuit.py:84-87`, with `N_PARTS = 20` and `N_ORIENTATIONS = 4` (`snap_circuit.py:41-42`). -/
def featureShape (board : Nat × Nat) : Nat × Nat × Nat × Nat := (20, board.1, board.2, orientationNames.length)

/-- `==` of states, `snap_circuit.py:52-55`. -/
def SnapState.eq (s t : SnapState) : Bool :=
  decide (featureShape (s.rows, s.cols) = featureShape (t.rows, t.cols)) && setEq s.parts t.parts

/-- A four-dimensional floating-point array, with its elements in C order. -/
structure Nd4 where
  shape : Nat × Nat × Nat × Nat
  data : List ℚ
  deriving Repr

/-- `np.zeros(shape)`. -/
def Nd4.zeros (shape : Nat × Nat × Nat × Nat) : Nd4 :=
  { shape := shape, data := List.replicate (shape.1 * shape.2.1 * shape.2.2.1 * shape.2.2.2) 0 }

/-- An index along an axis of length `n`: negative ones count from the end, the others raise `IndexError`. -/
def npIndex (n : Nat) (i : Int) : Py Nat :=
  if 0 ≤ i ∧ i < n then .ok i.toNat
  else if -(n : Int) ≤ i ∧ i < 0 then .ok (i + n).toNat
  else .error .indexError

/-- The position of an element in C order. -/
def Nd4.offset (shape : Nat × Nat × Nat × Nat) (p x y o : Int) : Py Nat := do
  let p ← npIndex shape.1 p
  let x ← npIndex shape.2.1 x
  let y ← npIndex shape.2.2.1 y
  let o ← npIndex shape.2.2.2 o
  return ((p * shape.2.1 + x) * shape.2.2.1 + y) * shape.2.2.2 + o

/-- `a[p, x, y, o] = v`. -/
def Nd4.set (a : Nd4) (p x y o : Int) (v : ℚ) : Py Nd4 := do
  let k ← Nd4.offset a.shape p x y o
  return { a with data := a.data.set k v }

/-- `a.flatten()`. -/
def Nd4.flatten (a : Nd4) : Arr := ⟨.float64, a.data⟩

/-- The loop of `features`, `snap_circuit.py:75-78`. -/
def snapFill (a : Nd4) : List (SnapLoc × SnapPart) → Py Nd4
  | [] => .ok a
  | (loc, part) :: rest => do
      let a ← a.set part.id loc.1 loc.2.1 loc.2.2 1
      snapFill a rest

/-- `features`, `snap_circuit.py:73-79`. -/
def SnapState.features (s : SnapState) : Py Nd4 := snapFill (Nd4.zeros (featureShape (s.rows, s.cols))) s.parts

/-- `get_features`, `snap_circuit.py:81-82`. -/
def SnapState.getFeatures (s : SnapState) : Py (List ℚ) := do
  let f ← s.features
  return f.flatten.data

/-- `n_dim`, `snap_circuit.py:69-71`. -/
def SnapState.nDim (s : SnapState) : Nat :=
  let sh := featureShape (s.rows, s.cols)
  sh.1 * sh.2.1 * sh.2.2.1 * sh.2.2.2

/-- The `value` array of `PartPresenceCondition`, `snap_circuit.py:96-98`. -/
def presenceValue (isThere : Bool) (dim : Nat × Nat × Nat × Nat) (part : SnapPart) (loc : SnapLoc) : Py Nd4 :=
  if isThere then (Nd4.zeros dim).set part.id loc.1 loc.2.1 loc.2.2 1 else .ok (Nd4.zeros dim)

/-- The constructor of `PartPresenceCondition`, `snap_circuit.py:90-100`. -/
def mkPresence (board : Nat × Nat) (part : SnapPart) (loc : SnapLoc) (isThere : Bool) : Py Cond := do
  let dim := featureShape board
  let mask ← (Nd4.zeros dim).set part.id loc.1 loc.2.1 loc.2.2 1
  let value ← presenceValue isThere dim part loc
  mkCond mask.flatten value.flatten

/-- `ORIENTATION_NAMES[o]` (a Python list; negative indices count from the end). -/
def orientationName (o : Int) : Py String := do
  let i ← npIndex orientationNames.length o
  return orientationNames.getD i ""

/-- The conditions and the name of a `PlaceAction`, `snap_circuit.py:103-116`. -/
structure PlaceAct where
  pre : Cond
  post : Cond
  name : String
  part : SnapPart
  location : SnapLoc

/-- The constructor of `PlaceAction`, `snap_circuit.py:105-116`. -/
def mkPlace (board : Nat × Nat) (part : SnapPart) (loc : SnapLoc) : Py PlaceAct := do
  let pre ← mkPresence board part loc false
  let post ← mkPresence board part loc true
  let o ← orientationName loc.2.2
  return { pre := pre, post := post, part := part, location := loc,
           name := "Place " ++ part.label ++ " at (" ++ toString loc.1 ++ ", " ++ toString loc.2.1 ++ ") oriented " ++ o }

/-- The action as a `PrePostConditionAction`; `__eq__` and `__hash__` are inherited (`action.py:85-91`). -/
def PlaceAct.toAct (a : PlaceAct) : Act := .prePost a.pre a.post a.name

/-- `Condition.check(state)`, `action.py:34-35`, on a snap circuit state. -/
def Cond.checkSnap (c : Cond) (s : SnapState) : Py Bool := do
  let f ← s.getFeatures
  c.check f

/-- `check(before, after)`, `action.py:93-94`. -/
def PlaceAct.check (a : PlaceAct) (before after : SnapState) : Py Bool := do
  let b ← a.pre.checkSnap before
  if b then a.post.checkSnap after else return false

/-! ## Sets and hashes of CPython -/

/-- The modulus of machine words. -/
def wordMod : Nat := 2 ^ 64

/-- `hash` of an integer, as an unsigned word: the sign times the absolute value modulo `2^61 - 1`, with `-2` for `-1`. -/
def hashInt (i : Int) : Nat :=
  let r : Int := i.sign * ((i.natAbs % (2 ^ 61 - 1) : Nat) : Int)
  if r = -1 then wordMod - 2 else (r % wordMod).toNat

/-- One round of the hash of tuples (`tuplehash`, CPython 3.8 and later). -/
def tupleRound (acc lane : Nat) : Nat :=
  let a := (acc + lane * 14029467366897019727) % wordMod
  let b := (a * 2 ^ 31 + a / 2 ^ 33) % wordMod
  (b * 11400714785074694791) % wordMod

/-- The hash of a tuple from the hashes of its elements. -/
def hashTuple (lanes : List Nat) : Nat :=
  let acc := lanes.foldl tupleRound 2870177450012600261
  let r := (acc + Nat.xor lanes.length (Nat.xor 2870177450012600261 3527539)) % wordMod
  if r = wordMod - 1 then 1546275796 else r

/-- The hash of a pair `(location, part)`; the hash of a part is that of its identifier, `snap_circuit.py:23-24`. -/
def hashPlaced (e : SnapLoc × SnapPart) : Nat :=
  hashTuple [hashTuple [hashInt e.1.1, hashInt e.1.2.1, hashInt e.1.2.2], hashInt e.2.id]

section
variable {α : Type} [DecidableEq α]

/-- The hash table of a set: every slot is unused or has an element. -/
abbrev HTable (α : Type) := List (Option α)

/-- The slots that `set_add_entry` looks at from slot `i`: ten consecutive ones if they are in the table, else only `i`. -/
def probeRun (mask i : Nat) : List Nat :=
  if i + 9 ≤ mask then (List.range 10).map (i + ·) else [i]

/-- The first slot of a run that is unused or has an element equal to `x`. -/
def runFind (t : HTable α) (x : α) (run : List Nat) : Option Nat :=
  run.find? fun j =>
    match t[j]? with
    | some (some y) => decide (y = x)
    | _ => true

/-- The search of `set_add_entry`, for a table of `mask + 1` slots (the bound on the number of rounds is a device of the
model). -/
def setProbe (t : HTable α) (x : α) (mask : Nat) : Nat → Nat → Nat → Py Nat
  | 0, _, _ => .error .unfinished
  | fuel + 1, i, perturb =>
      match runFind t x (probeRun mask i) with
      | some j => .ok j
      | none => setProbe t x mask fuel ((i * 5 + 1 + perturb / 32) % (mask + 1)) (perturb / 32)

/-- The slot of an element with the hash `h` (a new element, or the one that is already there). -/
def setSlot (t : HTable α) (x : α) (h : Nat) : Py Nat :=
  setProbe t x (t.length - 1) (t.length + 64) (h % t.length) h

/-- Store an element, without changing the size of the table. -/
def setStore (hash : α → Nat) (t : HTable α) (x : α) : Py (HTable α) := do
  let j ← setSlot t x (hash x)
  return t.set j (some x)

/-- Store several elements. -/
def setStoreL (hash : α → Nat) (t : HTable α) : List α → Py (HTable α)
  | [] => .ok t
  | x :: xs => do
      let t ← setStore hash t x
      setStoreL hash t xs

/-- The elements, in the order of iteration. -/
def HTable.elems (t : HTable α) : List α := t.filterMap id

/-- The size of `set_table_resize`: the first of 8, 16, 32, … that is larger than `minused`. -/
def tableSize (minused : Nat) : Nat → Nat → Nat
  | 0, n => n
  | fuel + 1, n => if n ≤ minused then tableSize minused fuel (2 * n) else n

/-- `set_table_resize`: the elements are stored in a new table in the order of iteration. -/
def setResize (hash : α → Nat) (t : HTable α) (minused : Nat) : Py (HTable α) :=
  setStoreL hash (List.replicate (tableSize minused minused 8) none) t.elems

/-- The end of `set_add_entry`: the table grows when three fifths of it are used (sets of at most 50000 elements). -/
def setGrow (hash : α → Nat) (t : HTable α) : Py (HTable α) :=
  if t.elems.length * 5 < (t.length - 1) * 3 then .ok t else setResize hash t (t.elems.length * 4)

/-- `set.add(x)`; the table does not grow when the element was in the set. -/
def hsetAdd (hash : α → Nat) (t : HTable α) (x : α) : Py (HTable α) := do
  let t' ← setStore hash t x
  if x ∈ t.elems then return t' else setGrow hash t'

/-- `set(it)`: the elements are added one by one to an empty table of 8 slots. -/
def hsetOf (hash : α → Nat) (t : HTable α) : List α → Py (HTable α)
  | [] => .ok t
  | x :: xs => do
      let t ← hsetAdd hash t x
      hsetOf hash t xs

/-- The new table of `set.copy()` (`set_merge` on an empty set of 8 slots). -/
def copySize (t : HTable α) : Nat :=
  if t.elems.length * 5 ≥ 7 * 3 then tableSize (t.elems.length * 2) (t.elems.length * 2) 8 else 8

/-- `set.copy()` (`set_merge`): the table itself is copied if the new table has the same size, else the elements are
stored in the order of iteration. -/
def hsetCopy (hash : α → Nat) (t : HTable α) : Py (HTable α) :=
  if t.elems = [] then .ok (List.replicate 8 none)
  else if copySize t = t.length then .ok t
  else setStoreL hash (List.replicate (copySize t) none) t.elems

end

/-- `tuple(self.parts)`, `snap_circuit.py:50, 65-67`, for a state constructed from a list of parts. -/
def iterParts (parts : List (SnapLoc × SnapPart)) : Py (List (SnapLoc × SnapPart)) := do
  let t ← hsetOf hashPlaced (List.replicate 8 none) parts
  let c ← hsetCopy hashPlaced t
  return c.elems

/-- `hash(SnapCircuitState(board, parts))`, `snap_circuit.py:44-50`. -/
def snapHash (board : Nat × Nat) (parts : List (SnapLoc × SnapPart)) : Py Nat := do
  let order ← iterParts parts
  let sh := featureShape board
  return hashTuple [hashTuple [hashInt sh.1, hashInt sh.2.1, hashInt sh.2.2.1, hashInt sh.2.2.2],
    hashTuple (order.map hashPlaced)]

/-- Looking a key up in a dictionary or a set of CPython: an entry is only compared with `==` if the hash that was stored with
it is the hash of the key (`lookdict`, `set_lookkey`; the position in the table is left out). -/
def hashedGet {κ ν : Type} (eq : κ → κ → Bool) (d : List (Nat × κ × ν)) (h : Nat) (k : κ) : Option ν :=
  (d.find? fun e => decide (e.1 = h) && eq e.2.1 k).map fun e => e.2.2

/-- A dictionary with one entry. -/
def hashedOne {κ ν : Type} (h : Nat) (k : κ) (v : ν) : List (Nat × κ × ν) := [(h, k, v)]

end Verif
