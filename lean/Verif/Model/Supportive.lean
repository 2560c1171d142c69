import Verif.Model.Dag
import Verif.Model.SupState

/-!
# Model of the supportive POMDP (`supportive.py:48-114, 231-548`)

* Random draws are explicit: `np.random.random()` gives a rational, `np.random.choice(l)` the element of `l` at the
  position `c % len(l)` for an arbitrary number `c`; a call of the simulator takes all its draws in a record.
* Class attributes (probabilities, costs, rewards, preferences) are a record of parameters.
* Actions of the simulator and states are natural numbers.
* Not modelled: the unused properties `features`, `states`, and `belief_update`, `start` (which raise).
-/

namespace Verif

/-- Actions found in the leaves: `SupportedAction` objects have attributes `hold` and `conditions`
(`supportive.py:48-114`); plain `AbstractAction` objects, such as their copies (`task.py:229-230`), do not. -/
structure SupAction where
  name : String
  attrs : Option (Option String × List (Nat × String))
  deriving DecidableEq, Repr

/-- The operations of `AbstractAction` (`task.py:218-230`), inherited by `SupportedAction`: `copy` returns a plain
`AbstractAction`. -/
def SupAction.ops : ActOps SupAction where
  name := SupAction.name
  agent := fun _ => "None"
  copy := fun fmt a => .ok ⟨fmt a.name, none⟩

/-- `CONSUMES`, `supportive.py:48`. -/
def cCONSUMES : Nat := 0
/-- `USES`, `supportive.py:49`. -/
def cUSES : Nat := 1
/-- `CONSUMES_SOME`, `supportive.py:50`. -/
def cCONSUMES_SOME : Nat := 2

/-- Class attributes of `SupportivePOMDP`, `supportive.py:264-283`. -/
structure SupParams where
  pFail : ℚ := 1 / 100
  pConsumeAll : ℚ := 1 / 2
  pChangedByHuman : ℚ := 1 / 100
  pChangePreference : ℚ := 1 / 100
  rSubtask : ℚ := 10
  rFinal : ℚ := 100
  rPreference : ℚ := 10
  rewardIndependentPreference : Bool := false
  costGet : ℚ := 15
  costIntrinsic : ℚ := 1
  costHold : ℚ := 2
  nPreferences : Nat := 1
  pPreferences : List ℚ := [3 / 10]

/-- Attributes of `SupportivePOMDP`, `supportive.py:288-300`. -/
structure SupPomdp where
  par : SupParams
  /-- `htm_nodes` -/
  nodes : List (Htm SupAction)
  /-- `htm_succs` -/
  succs : List (List Nat)
  /-- `htm_init` -/
  init : List Nat
  /-- `htm_conditions` -/
  conditions : List (List (Nat × Nat))
  objects : List String
  clearable : List Bool
  /-- `_a_bring` -/
  aBring : List Nat
  /-- `_a_clear` -/
  aClear : List (Option Nat)

/-- `get_object_id`, `supportive.py:306-311`, on the pair of `objects` and `clearable`. -/
def getObjectId (oc : List String × List Bool) (name : String) : Nat × (List String × List Bool) :=
  if name ∈ oc.1 then (oc.1.idxOf name, oc)
  else ((oc.1 ++ [name]).idxOf name, (oc.1 ++ [name], oc.2 ++ [false]))

/-- One iteration of the inner loop of `_populate_conditions`, `supportive.py:318-322`. -/
def populateOne (acc : (List String × List Bool) × List (Nat × Nat)) (co : Nat × String) :
    (List String × List Bool) × List (Nat × Nat) :=
  let r := getObjectId acc.1 co.2
  let cl := if co.1 = cUSES ∨ co.1 = cCONSUMES_SOME then r.2.2.set r.1 true else r.2.2
  ((r.2.1, cl), acc.2 ++ [(co.1, r.1)])

/-- `n.action.conditions`: plain actions have no such attribute. -/
def conditionsOf : Htm SupAction → Py (List (Nat × String))
  | .leaf a _ _ _ =>
      match a.attrs with
      | some x => .ok x.2
      | none => .error .attributeError
  | .comb .. => .error .attributeError

/-- `_populate_conditions`, `supportive.py:313-322`. -/
def populateConditions : List (Htm SupAction) → List String × List Bool →
    Py (List (List (Nat × Nat)) × (List String × List Bool))
  | [], oc => .ok ([], oc)
  | n :: ns, oc => do
      let conds ← conditionsOf n
      let r := conds.foldl populateOne (oc, [])
      let rs ← populateConditions ns r.1
      return (r.2 :: rs.1, rs.2)

/-- `_init_object_actions_indices`, `supportive.py:381-393`: `_a_bring` and `_a_clear` from `clearable`, with `j` the next
index. -/
def objectActions : List Bool → Nat → List Nat × List (Option Nat)
  | [], _ => ([], [])
  | c :: cs, j =>
      let r := objectActions cs (if c then j + 2 else j + 1)
      (j :: r.1, (if c then some (j + 1) else none) :: r.2)

/-- The constructor, `supportive.py:288-300`. -/
def mkSupPomdp (par : SupParams) (uniq : List Nat → List Nat) (limit : Nat) (htm : Htm SupAction) : Py SupPomdp := do
  let h2d ← htmToDag SupAction.ops uniq limit htm
  let clean := h2d.2.nodes.length
  let c ← populateConditions h2d.2.nodes ([], [])
  let ix := objectActions c.2.2 4
  return {
    par := par
    nodes := h2d.2.nodes
    succs := h2d.2.succs.map fun s => if s.length = 0 then [clean] else s
    init := h2d.1
    conditions := c.1
    objects := c.2.1
    clearable := c.2.2
    aBring := ix.1
    aClear := ix.2 }

namespace SupPomdp

/-- `n_htm_states`, `supportive.py:324-328`. -/
def nHtmStates (m : SupPomdp) : Nat := m.nodes.length + 2

/-- `htm_clean`, `supportive.py:330-333`. -/
def htmClean (m : SupPomdp) : Nat := m.nodes.length

/-- `htm_final`, `supportive.py:335-338`. -/
def htmFinal (m : SupPomdp) : Nat := m.nodes.length + 1

/-- `n_states`, `supportive.py:296-297`. -/
def nStates (m : SupPomdp) : Nat := m.nHtmStates * 2 ^ (m.par.nPreferences + 1 + m.objects.length)

/-- `n_actions`, `supportive.py:299`. -/
def nActions (m : SupPomdp) : Nat := 4 + m.objects.length + (m.clearable.map fun c => if c then 1 else 0).sum

/-- `n_observations`, `supportive.py:285-286`. -/
def nObservations : Nat := 5

/-- `_int_to_state`, `supportive.py:302-304`. -/
def toState (m : SupPomdp) (s : Nat) : SupState := mkSupState m.nHtmStates m.par.nPreferences 1 m.objects.length s

/-- `is_final`, `supportive.py:340-341`. -/
def isFinal (m : SupPomdp) (s : Nat) : Bool := (m.toState s).isFinal

/-- `htm_names`, `supportive.py:356-359`. -/
def htmNames (m : SupPomdp) : List String := m.nodes.map (Htm.name SupAction.ops) ++ ["clean", "final"]

/-- `actions`, `supportive.py:361-366`. -/
def actions (m : SupPomdp) : List String :=
  ["wait", "hold H", "hold V", "ask hold"] ++
    ((m.objects.zip m.clearable).map fun oc => ["bring " ++ oc.1] ++ if oc.2 then ["clear " ++ oc.1] else []).flatten

/-- `_obj_from_action`, `supportive.py:395-402`. -/
def objFromAction (m : SupPomdp) (a : Nat) : Py Nat :=
  if a ∈ m.aBring then .ok (m.aBring.idxOf a)
  else if some a ∈ m.aClear then .ok (m.aClear.idxOf (some a))
  else .error .valueError

/-- `_is_bring`, `supportive.py:404-405`. -/
def isBring (m : SupPomdp) (a : Nat) : Bool := decide (a ∈ m.aBring)

/-- `_bring`, `supportive.py:407-410`. -/
def bring (m : SupPomdp) (obj : Nat) : Py Nat :=
  match m.aBring[obj]? with
  | some a => .ok a
  | none => .error .indexError

/-- `_clear`, `supportive.py:412-418`. -/
def clear (m : SupPomdp) (obj : Nat) : Py Nat :=
  match m.aClear[obj]? with
  | some (some a) => .ok a
  | some none => .error .valueError
  | none => .error .indexError

/-- The random numbers of one call of `sample_transition`. -/
structure Draws where
  /-- `random_object_changes`, one number for each object -/
  objects : Nat → ℚ
  /-- `random_preference_changes`, one number for each preference -/
  prefs : Nat → ℚ
  /-- `supportive.py:469` -/
  hold : ℚ
  /-- `np.random.choice` of the successor, `supportive.py:375` -/
  succ : Nat
  /-- `supportive.py:429`, for the `i`-th condition -/
  consume : Nat → ℚ
  /-- `supportive.py:485, 490` -/
  ask : ℚ
  /-- `supportive.py:502` -/
  fail : ℚ

/-- `np.random.choice(l)` for a list: `ValueError` if it is empty. -/
def choose (l : List Nat) (c : Nat) : Py Nat :=
  match l[c % l.length]? with
  | some x => .ok x
  | none => .error .valueError

/-- `_cost_get`, `supportive.py:434-435`. -/
def costGetOf (m : SupPomdp) (_ : Nat) : ℚ := m.par.costGet

/-- `_update_for_condition`, `supportive.py:420-432`; `u` is the random number of `CONSUMES_SOME`. -/
def updateForCondition (m : SupPomdp) (x : SupState) (c obj : Nat) (u : ℚ) : SupState × ℚ :=
  let r := if x.getBit obj ≠ 0 then 0 else -m.costGetOf obj
  if c = cCONSUMES then (x.setBit obj 0, r)
  else if c = cCONSUMES_SOME then (x.setBit obj (if u < m.par.pConsumeAll then 0 else 1), r)
  else if c = cUSES then (x.setBit obj 1, r)
  else (x, r)

/-- The `sum` of `supportive.py:376-377`, over the conditions with their positions. -/
def updateForConditions (m : SupPomdp) (u : Nat → ℚ) : List ((Nat × Nat) × Nat) → SupState → SupState × ℚ
  | [], x => (x, 0)
  | co :: cos, x =>
      let r := m.updateForCondition x co.1.1 co.1.2 (u co.2)
      let rs := m.updateForConditions u cos r.1
      (rs.1, r.2 + rs.2)

/-- `_update_for_transition`, `supportive.py:371-377`. -/
def updateForTransition (m : SupPomdp) (d : Draws) (x : SupState) (node : Nat) : Py (SupState × ℚ) := do
  match m.succs[node]?, m.conditions[node]? with
  | some ss, some conds =>
      let h ← choose ss d.succ
      return m.updateForConditions d.consume conds.zipIdx (x.setHtm h)
  | _, _ => .error .indexError

/-- `self.htm_nodes[h].action.hold`. -/
def needsHold (m : SupPomdp) (h : Nat) : Py (Option String) :=
  match m.nodes[h]? with
  | some (.leaf a _ _ _) =>
      match a.attrs with
      | some x => .ok x.1
      | none => .error .attributeError
  | some (.comb ..) => .error .attributeError
  | none => .error .indexError

/-- Observation indices, `supportive.py:256-260`. -/
def oNONE : Nat := 0
@[inherit_doc oNONE] def oFAIL : Nat := 1
@[inherit_doc oNONE] def oNOT_FOUND : Nat := 2
@[inherit_doc oNONE] def oYES : Nat := 3
@[inherit_doc oNONE] def oNO : Nat := 4

/-- The state after the random changes at the start of `sample_transition`, `supportive.py:439-443`. -/
def perturb (m : SupPomdp) (d : Draws) (s : Nat) (random : Bool) : SupState :=
  if random then
    ((m.toState s).randomObjects d.objects m.par.pChangedByHuman).randomPrefs d.prefs m.par.pChangePreference
  else m.toState s

/-- The branch of the actions wait, hold H and hold V (0, 1, 2) in a state inside the task, `supportive.py:460-480`;
`r` is the reward so far. -/
def taskStep (m : SupPomdp) (d : Draws) (a : Nat) (x new : SupState) (random : Bool) (r : ℚ) : Py (SupState × Nat × ℚ) := do
  let needs ← m.needsHold x.htm
  let good : Bool := decide (x.hasPref 0 ≠ 0) &&
    ((decide (needs = some "h") && decide (a = 1)) || (decide (needs = some "v") && decide (a = 2)))
  let r1 := if good then r + m.par.rPreference else r
  let failed : Bool := !good && (decide (a = 1 ∨ a = 2) && (!random || decide (d.hold < 98 / 100)))
  if failed then return (new, oFAIL, r1)
  else
    let t ← m.updateForTransition d new x.htm
    let r2 := r1 + t.2 + m.par.rSubtask
    return (t.1, oNONE, if m.par.rewardIndependentPreference && decide (x.hasPref 0 = 0) then
      r2 + (m.par.rPreference - m.par.costHold) else r2)

/-- The branch of wait, hold H and hold V, `supportive.py:446-480`. -/
def waitStep (m : SupPomdp) (d : Draws) (a : Nat) (x new : SupState) (random : Bool) : Py (SupState × Nat × ℚ) :=
  let r : ℚ := if a = 0 then 0 else -m.par.costHold
  if x.isFinal then .ok (new, oNONE, r)
  else if x.htm = m.htmClean then
    if a = 0 then
      let r1 := (List.range m.objects.length).foldl (fun r o => r - m.costGetOf o * (x.getBit o : ℚ)) r
      .ok (new.setHtm m.htmFinal, oNONE, r1 + m.par.rFinal)
    else .ok (new, oFAIL, r)
  else m.taskStep d a x new random r

/-- The branch of the ask action (3), `supportive.py:482-493`. -/
def askStep (m : SupPomdp) (d : Draws) (x new : SupState) (random : Bool) : SupState × Nat × ℚ :=
  if x.hasPref 0 ≠ 0 then
    (new, if !random || decide (d.ask < 9 / 10) then oYES else oNONE, -m.par.costIntrinsic)
  else (new, if !random || decide (d.ask < 95 / 100) then oNO else oNONE, -m.par.costIntrinsic)

/-- The branch of the bring and clear actions, `supportive.py:495-508`. -/
def objectStep (m : SupPomdp) (d : Draws) (a : Nat) (x new : SupState) (random : Bool) : Py (SupState × Nat × ℚ) := do
  let obj ← m.objFromAction a
  let b : Nat := if m.isBring a then 1 else 0
  if x.getBit obj = b then return (new, oNOT_FOUND, -m.par.costIntrinsic)
  else if random && decide (d.fail < m.par.pFail) then return (new, oFAIL, -m.par.costIntrinsic)
  else return (new.setBit obj b, oNONE, -m.par.costIntrinsic)

/-- The case distinction on the action, `supportive.py:445-508`. -/
def branch (m : SupPomdp) (d : Draws) (a : Nat) (x new : SupState) (random : Bool) : Py (SupState × Nat × ℚ) :=
  if a = 0 ∨ a = 1 ∨ a = 2 then m.waitStep d a x new random
  else if a = 3 then .ok (m.askStep d x new random)
  else m.objectStep d a x new random

/-- `sample_transition(a, s, random)`, `supportive.py:437-509`: the new state, the observation and the reward.  The
increment of the counter of calls is `counted` below. -/
def sampleTransition (m : SupPomdp) (d : Draws) (a s : Nat) (random : Bool := true) : Py (Nat × Nat × ℚ) := do
  let x := m.perturb d s random
  let r ← m.branch d a x (m.toState x.s) random
  return (r.1.s, r.2.1, r.2.2)

/-- `sample_transition` with the counter `n_simulator_calls`, `supportive.py:438`: it is incremented first, also when the
call raises. -/
def counted (m : SupPomdp) (d : Draws) (a s : Nat) (random : Bool) (calls : Nat) : Py (Nat × Nat × ℚ) × Nat :=
  (m.sampleTransition d a s random, calls + 1)

/-- `sample_start`, `supportive.py:511-520`; `c` chooses the initial leaf, `u` are the numbers of the preferences and `v`
those of the objects. -/
def sampleStart (m : SupPomdp) (c : Nat) (u v : Nat → ℚ) : Py Nat := do
  let h ← choose m.init c
  let x := (m.toState 0).setHtm h
  let y := m.par.pPreferences.zipIdx.foldl (fun x pi => x.setPref pi.2 (if u pi.2 < pi.1 then 1 else 0)) x
  return (y.randomObjects v m.par.pChangedByHuman).s

end SupPomdp

/-! ### `NHTMHorizon` -/

/-- `NHTMHorizon`, `supportive.py:527-548`: the counter; `model` is not stored. -/
structure NHtmHorizon where
  n : Int
  deriving DecidableEq, Repr

/-- `is_reached`, `supportive.py:533-534`. -/
def NHtmHorizon.isReached (h : NHtmHorizon) : Bool := decide (h.n ≤ 0)

/-- `decrement(a, s, new_s, o)`, `supportive.py:536-541`. -/
def NHtmHorizon.decrement (m : SupPomdp) (h : NHtmHorizon) (s newS : Nat) : NHtmHorizon :=
  let n1 := if (m.toState s).htm ≠ (m.toState newS).htm then h.n - 1 else h.n
  ⟨if (m.toState newS).isFinal then 0 else n1⟩

/-- `copy`, `supportive.py:543-544`. -/
def NHtmHorizon.copy (h : NHtmHorizon) : NHtmHorizon := ⟨h.n⟩

end Verif
