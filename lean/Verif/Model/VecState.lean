import Verif.Monad
import Verif.Num
import Verif.Model.TaskGraph

/-!
# States that are vectors: `state.py`, and task graphs on them

`NDimensionalState` has a hash, of the bytes of its vector, but no equality: it inherits that of `State`, which raises.  CPython looks an object up in a
dictionary or a set by its hash; the entries with this hash are first compared by identity and then with `==`.  An object has a number, which is its identity,
and its vector; the hash of bytes is a function of the vector (`h`; the shape and the type of the array are not modelled), and the hash of a pair of an action
and a state is a function of the action and of the hash of the state (`ph`).  Equality of actions is that of `task.py:223-224`.
-/

namespace Verif

/-- `raise NotImplemented`: it is not an exception, so that `TypeError` is raised instead. -/
def raiseNotImplemented {α : Type} : Py α := .error .typeError

/-- `get_features` of `State`, `state.py:17-19`. -/
def baseFeatures : Py (List ℚ) := raiseNotImplemented

/-- `__hash__` of `State`, `state.py:21-22`. -/
def baseHash : Py Nat := raiseNotImplemented

/-- `__eq__` of `State`, `state.py:24-25`, which `NDimensionalState` inherits. -/
def baseEq : Py Bool := raiseNotImplemented

/-- `sample` and `successor` of `BaseBelief`, `lib/belief.py:8-12`. -/
def baseSample : Py Nat := raiseNotImplemented
@[inherit_doc baseSample] def baseSuccessor : Py (List ℚ) := raiseNotImplemented

/-- An object `NDimensionalState(vector)`, `state.py:28-32`: its identity and its vector. -/
structure VecState where
  id : Nat
  features : List ℚ
  deriving DecidableEq

/-- `n_dim`, `state.py:37-39`. -/
def VecState.nDim (s : VecState) : Nat := s.features.length

/-- `get_features`, `state.py:41-42`. -/
def VecState.getFeatures (s : VecState) : List ℚ := s.features

/-- The comparison of a key with an entry of a dictionary or a set; the hash is that of `state.py:34-35`. -/
def sameState (h : List ℚ → Nat) (y x : VecState) : Py Bool :=
  if y = x then .ok true
  else if h y.features = h x.features then baseEq
  else .ok false

/-- The comparison of pairs `(action, state)`, which are new tuples: the elements are compared from the left, by identity and then with `==`, if the hashes are
equal. -/
def samePair {A : Type} [DecidableEq A] (h : List ℚ → Nat) (ph : A → Nat → Nat) (y x : A × VecState) : Py Bool :=
  if ph y.1 (h y.2.features) = ph x.1 (h x.2.features) then
    if y.1 = x.1 then
      if y.2 = x.2 then .ok true else baseEq
    else .ok false
  else .ok false

/-- `x in l` for a set, with comparisons that can raise. -/
def rIn {κ : Type} (same : κ → κ → Py Bool) : List κ → κ → Py Bool
  | [], _ => .ok false
  | y :: l, x =>
      match same y x with
      | .error e => .error e
      | .ok true => .ok true
      | .ok false => rIn same l x

/-- `l.add(x)` for a set. -/
def rAdd {κ : Type} (same : κ → κ → Py Bool) (l : List κ) (x : κ) : Py (List κ) :=
  match rIn same l x with
  | .error e => .error e
  | .ok true => .ok l
  | .ok false => .ok (l ++ [x])

/-- `d.get(x)` for a dictionary. -/
def rGet {κ ν : Type} (same : κ → κ → Py Bool) : List (κ × ν) → κ → Py (Option ν)
  | [], _ => .ok none
  | (y, v) :: l, x =>
      match same y x with
      | .error e => .error e
      | .ok true => .ok (some v)
      | .ok false => rGet same l x

section
variable {A : Type} [DecidableEq A] (h : List ℚ → Nat) (ph : A → Nat → Nat)

/-- `add_transition`, `task.py:104-107`; if it raises nothing has changed (a new key has an empty set, which cannot raise). -/
def vAddTransition (s : VecState) (l : A) (d : VecState) (g : BaseGraph VecState A) : Py (BaseGraph VecState A) :=
  match rGet (sameState h) g.transitions s with
  | .error e => .error e
  | .ok out =>
      match rAdd (samePair h ph) (out.getD []) (l, d) with
      | .error e => .error e
      | .ok out => .ok { transitions := dset g.transitions s out }

/-- `has_transition`, `task.py:109-111`. -/
def vHasTransition (g : BaseGraph VecState A) (s : VecState) (l : A) (d : VecState) : Py Bool :=
  match rGet (sameState h) g.transitions s with
  | .error e => .error e
  | .ok none => .ok false
  | .ok (some out) => rIn (samePair h ph) out (l, d)

/-- The loop of `add_path`, `task.py:180-181`. -/
def vAddSteps : List (VecState × A × VecState) → M (TaskGraph VecState A) Unit
  | [], g => (.ok (), g)
  | t :: ts, g =>
      match vAddTransition h ph t.1 t.2.1 t.2.2 g.toBaseGraph with
      | .error e => (.error e, g)
      | .ok b => vAddSteps ts { g with toBaseGraph := b }

/-- `self.initial.add(path[0])`, `task.py:178`. -/
def vAddInitial (s : VecState) : M (TaskGraph VecState A) Unit := fun g =>
  match rAdd (sameState h) g.initial s with
  | .error e => (.error e, g)
  | .ok l => (.ok (), { g with initial := l })

/-- `self.terminal.add(path[-1])`, `task.py:179`. -/
def vAddTerminal (s : VecState) : M (TaskGraph VecState A) Unit := fun g =>
  match rAdd (sameState h) g.terminal s with
  | .error e => (.error e, g)
  | .ok l => (.ok (), { g with terminal := l })

/-- `task.py:177-179`. -/
def vAddEnds (p : List (Elem VecState A)) : M (TaskGraph VecState A) Unit :=
  match p.head?, p.getLast? with
  | some (.state s0), some (.state sn) => do
      vAddInitial h s0
      vAddTerminal h sn
  | _, _ => pure ()

/-- `add_path`, `task.py:174-181`; the checks of the actions return, as in `addPath`. -/
def vAddPath (chk : A → VecState → VecState → Bool) (p : List (Elem VecState A)) : M (TaskGraph VecState A) Unit :=
  if checkPath chk p then do
    vAddEnds h p
    vAddSteps h ph (typedSteps p)
  else M.raise .valueError

/-- `[self.has_transition(s1, a, s2) for ...]`, `task.py:191-193`. -/
def vHasSteps (g : BaseGraph VecState A) : List (VecState × A × VecState) → Py Bool
  | [] => .ok true
  | t :: ts =>
      match vHasTransition h ph g t.1 t.2.1 t.2.2 with
      | .error e => .error e
      | .ok b =>
          match vHasSteps g ts with
          | .error e => .error e
          | .ok c => .ok (b && c)

/-- The end of `has_path`, `task.py:189-193`, for the first and the last state. -/
def vHasEnds (g : TaskGraph VecState A) (s0 sn : VecState) (ts : List (VecState × A × VecState)) : Py Bool :=
  match rIn (sameState h) g.initial s0 with
  | .error e => .error e
  | .ok false => .ok false
  | .ok true =>
      match rIn (sameState h) g.terminal sn with
      | .error e => .error e
      | .ok false => .ok false
      | .ok true => vHasSteps h ph g.toBaseGraph ts

/-- `has_path`, `task.py:183-194`. -/
def vHasPath (chk : A → VecState → VecState → Bool) (g : TaskGraph VecState A) (p : List (Elem VecState A)) : Py Bool :=
  if checkPath chk p then
    match p.head?, p.getLast? with
    | some (.state s0), some (.state sn) => vHasEnds h ph g s0 sn (typedSteps p)
    | _, _ => .ok p.isEmpty
  else .error .valueError

/-- `all_nodes`, `task.py:121-126`, for the order of `all_transitions`. -/
def vAllNodes (order : List (VecState × A × VecState)) : Py (List VecState) :=
  (order.flatMap fun t => [t.1, t.2.2]).foldlM (rAdd (sameState h)) []

end

end Verif
