import Verif.Monad
import Verif.Model.Supportive

/-!
# The scripted supportive policy, `task_models/policy.py`

`PolicyRunner` and `PolicyLongSupportiveSequence`.  The model is used through the names of its actions and observations and
through its number of HTM states, so these are all that is kept of it.  The attributes that never change after the construction
are in `SeqPolicy`, the ones that change are in `SeqState`.
-/

namespace Verif

/-- What the policy uses of its model, `policy.py:20-26` and `policy.py:48`. -/
structure SeqModel where
  actions : List String
  observations : List String
  nHtmStates : Int
  deriving DecidableEq, Repr

/-- The attributes set by the constructor only, `policy.py:45-50`.  `tools` is the constant list `seqTools`. -/
structure SeqPolicy where
  model : SeqModel
  aWait : Nat
  oNone : Nat
  nTasks : Int
  aNextList : List Nat
  deriving DecidableEq, Repr

/-- The attributes set by `reset`, `get_action` and `step`, `policy.py:28-29` and `policy.py:71-77`. -/
structure SeqState where
  history : List Nat
  toBring : List Nat
  toClean : List Nat
  needsLeg : Bool
  lastAction : Option Nat
  nDone : Nat
  deriving DecidableEq, Repr

/-- `self.tools`, `policy.py:49`. -/
def seqTools : List String := ["screws", "screwdriver", "joints"]

/-- `l.index(x)` for a list of strings. -/
def strIndex (l : List String) (x : String) : Py Nat := if x ∈ l then .ok (l.idxOf x) else .error .valueError

/-- `l[i]` for a list of strings and an index that is not negative. -/
def strAt (l : List String) (i : Nat) : Py String :=
  match l[i]? with
  | some x => .ok x
  | none => .error .indexError

/-- `l.remove(x)`: the first occurrence is removed, `ValueError` if there is none. -/
def pyRemove (l : List Nat) (x : Nat) : Py (List Nat) := if x ∈ l then .ok (l.erase x) else .error .valueError

/-- `_a_bring`, `policy.py:64-65`. -/
def SeqModel.aBring (m : SeqModel) (obj : String) : Py Nat := strIndex m.actions ("bring " ++ obj)

/-- `_a_clean`, `policy.py:67-68`. -/
def SeqModel.aClean (m : SeqModel) (obj : String) : Py Nat := strIndex m.actions ("clear " ++ obj)

/-- `[self._a_bring(o) for o in self.tools]`, `policy.py:73` and `policy.py:100`. -/
def SeqModel.aBrings (m : SeqModel) : Py (List Nat) := seqTools.mapM m.aBring

/-- `[self._a_clean(o) for o in self.tools]`, `policy.py:74` and `policy.py:102`. -/
def SeqModel.aCleans (m : SeqModel) : Py (List Nat) := seqTools.mapM m.aClean

/-- `reset`, `policy.py:70-77`. -/
def seqReset (m : SeqModel) : M SeqState Unit := do
  M.modify fun s => { s with history := [] }
  let bs ← M.lift m.aBrings
  M.modify fun s => { s with toBring := bs }
  let cs ← M.lift m.aCleans
  M.modify fun s => { s with toClean := cs, needsLeg := true, lastAction := none, nDone := 0 }

/-- A state whose attributes are not set yet; `reset` sets them all. -/
def seqBlank : SeqState := ⟨[], [], [], false, none, 0⟩

/-- The constructor, `policy.py:44-51`. -/
def mkSeqPolicy (m : SeqModel) : Py (SeqPolicy × SeqState) := do
  let w ← strIndex m.actions "wait"
  let n ← strIndex m.observations "none"
  let h ← strIndex m.actions "hold H"
  match seqReset m seqBlank with
  | (.ok (), s) => return ({ model := m, aWait := w, oNone := n, nTasks := m.nHtmStates - 2, aNextList := [h] }, s)
  | (.error e, _) => .error e

/-- The action chosen by `get_action`, `policy.py:80-90`; `c` decides the result of `np.random.choice`. -/
def SeqPolicy.choice (p : SeqPolicy) (c : Nat) (s : SeqState) : Py Nat :=
  match s.toBring with
  | a :: _ => .ok a
  | [] =>
      if (s.nDone : Int) < p.nTasks then
        if s.needsLeg then p.model.aBring "leg" else SupPomdp.choose p.aNextList c
      else
        match s.toClean with
        | a :: _ => .ok a
        | [] => .ok p.aWait

/-- `get_action`, `policy.py:79-92`. -/
def SeqPolicy.getAction (p : SeqPolicy) (c : Nat) : M SeqState String := do
  let s ← M.read id
  let a ← M.lift (p.choice c s)
  M.modify fun s => { s with lastAction := some a }
  M.lift (strAt p.model.actions a)

/-- `PolicyRunner.step`, `policy.py:35-39`; returns the last action, which is then known. -/
def SeqPolicy.record (p : SeqPolicy) (observation : String) : M SeqState Nat := do
  let l ← M.read SeqState.lastAction
  match l with
  | none => M.raise .valueError
  | some a => do
      let o ← M.lift (strIndex p.model.observations observation)
      M.modify fun s => { s with history := s.history ++ [a, o] }
      pure a

/-- The tests made when the action is not the bringing of a tool, `policy.py:102-114`. -/
def SeqPolicy.afterTools (p : SeqPolicy) (a : Nat) (observation : String) : M SeqState Unit := do
  let cs ← M.lift p.model.aCleans
  if a ∈ cs then do
    let l ← M.read SeqState.toClean
    let l' ← M.lift (pyRemove l a)
    M.modify fun s => { s with toClean := l' }
  else do
    let leg ← M.lift (p.model.aBring "leg")
    if a = leg then M.modify fun s => { s with needsLeg := false }
    else if a ∈ p.aNextList ∧ observation = "none" then
      M.modify fun s => { s with nDone := s.nDone + 1, needsLeg := true }
    else if a = p.aWait then pure ()
    else M.raise .unexpectedObservation

/-- `step`, `policy.py:94-116`. -/
def SeqPolicy.step (p : SeqPolicy) (observation : String) : M SeqState Unit := do
  let a ← p.record observation
  let _ ← M.lift (strAt p.model.actions a)
  if observation = "fail" then pure ()
  else if observation = "none" ∨ observation = "not-found" then do
    let bs ← M.lift p.model.aBrings
    if a ∈ bs then do
      let l ← M.read SeqState.toBring
      let l' ← M.lift (pyRemove l a)
      M.modify fun s => { s with toBring := l' }
    else p.afterTools a observation
  else M.raise .unexpectedObservation

/-- A use of the policy: `get_action`, `get_action` followed by `step`, or `reset`. -/
inductive SeqUse where
  | ask (c : Nat)
  | turn (c : Nat) (observation : String)
  | reset
  deriving DecidableEq, Repr

/-- The call or calls of one use; a turn returns the action. -/
def SeqPolicy.use (p : SeqPolicy) : SeqUse → M SeqState (Option String)
  | .ask c => do
      let a ← p.getAction c
      pure (some a)
  | .turn c o => do
      let a ← p.getAction c
      p.step o
      pure (some a)
  | .reset => do
      seqReset p.model
      pure none

/-- The state after some uses, where the caller carries on after an exception. -/
def SeqPolicy.after (p : SeqPolicy) (us : List SeqUse) (s : SeqState) : SeqState :=
  us.foldl (fun s u => (p.use u s).2) s

/-- A `SupportivePOMDP` as a model for the policy, `supportive.py:285`, `supportive.py:324-328` and `supportive.py:361-366`. -/
def SupPomdp.seqModel (m : SupPomdp) : SeqModel where
  actions := m.actions
  observations := ["none", "fail", "not-found", "yes", "no"]
  nHtmStates := m.nHtmStates

/-- The leaf `AssembleLeg(leg)`, `supportive.py:67-78`. -/
def assembleLeg (leg : String) : SupAction :=
  ⟨"Assemble " ++ leg, some (some "h", [(cUSES, "joints"), (cCONSUMES, "leg"), (cUSES, "screwdriver"), (cUSES, "screws")])⟩

end Verif
