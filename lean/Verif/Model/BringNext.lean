import Verif.Model.HtmPomdp

/-!
# Model of `bring_next_to_pomdp.py`

The nodes and their traversals are those of `Verif.Model.NodeTree`, with one state per leaf (`w = 1`) and no actions attached
to leaves (`wa = 0`).

* `_name_radix` is a parameter `radix`, as in `Verif.Model.HtmPomdp`.
* Trees with an empty sequence raise `IndexError` before anything else here; in the code an undeclared object met earlier in
  the tree raises `KeyError` first.
* Objects are strings.
-/

namespace Verif

/-- `CollaborativeAction`, `bring_next_to_pomdp.py:15-19`.  Without `obj`, an `AbstractAction`. -/
structure BAction where
  name : String
  obj : Option String
  deriving DecidableEq

/-- `copy` is inherited and returns an `AbstractAction`, `task.py:229-230`. -/
def BAction.ops : ActOps BAction where
  name := BAction.name
  agent := fun _ => ""
  copy := fun fmt a => .ok ⟨fmt a.name, none⟩

/-- The name of the object. -/
def BAction.objName (a : BAction) : String := a.obj.getD ""

/-- The constructor of a leaf, `bring_next_to_pomdp.py:71-77`: it reads the attribute `obj` of the action. -/
def bnLeaf (a : BAction) : Py (N2P BAction) :=
  match a.obj with
  | none => .error .attributeError
  | some _ => .ok (.leaf a)

/-- `from_node`, `bring_next_to_pomdp.py:49-60`, with the constructors of the parent nodes (lines 102-107).  `fuel` is the
limit of Python on the depth of the calls. -/
def bnFromNode : Nat → Htm BAction → Py (N2P BAction)
  | 0, _ => .error .runtimeError
  | _ + 1, .leaf a _ _ _ => bnLeaf a
  | fuel + 1, .comb .sequential cs _ _ _ _ _ => do
      let l ← cs.mapM (bnFromNode fuel)
      return .seq l
  | fuel + 1, .comb .alternative cs _ _ _ _ _ => do
      let l ← cs.mapM (bnFromNode fuel)
      return .alt l
  | fuel + 1, .comb .parallel cs _ _ n h _ => do
      let t ← toAlternative BAction.ops cs n h
      let l ← t.children.mapM (bnFromNode fuel)
      return .alt l

/-- The arguments of `HTMToPOMDP`, `bring_next_to_pomdp.py:182-189`. -/
structure BnParams where
  tCom : ℚ
  tGet : ℚ
  tErr : ℚ
  objects : List String
  endReward : ℚ
  discount : Option ℚ
  loop : Bool
  noAnswer : Bool

/-- `self.discount`, `bring_next_to_pomdp.py:188-193`. -/
def BnParams.disc (h : BnParams) : ℚ :=
  match h.discount with
  | some d => d
  | none => if h.loop then 9 / 10 else 1

/-- `self.actions`, `bring_next_to_pomdp.py:194-196`. -/
def BnParams.actions (h : BnParams) : List String := h.objects.map ("get-" ++ ·) ++ h.objects.map ("ask-" ++ ·)

/-- `self.action_indices`, `bring_next_to_pomdp.py:199`. -/
def BnParams.actionIndices (h : BnParams) : List (String × Nat) := h.actions.zipIdx.foldl (fun d ai => dset d ai.1 ai.2) []

/-- `builder.action_indices[a]`. -/
def BnParams.index (h : BnParams) (a : String) : Py Nat :=
  match dget h.actionIndices a with
  | some i => .ok i
  | none => .error .keyError

/-! ### Leaves -/

/-- `update_T` of a leaf, `bring_next_to_pomdp.py:79-83`. -/
def bnLeafT (h : BnParams) (c : BAction) (_a s : Nat) (next : List Nat) (probas : List ℚ) (T : F3) : Py F3 := do
  let get ← h.index ("get-" ++ c.objName)
  return setNext get s next probas (set1 get s s 0 (setAll s s (fun _ => 1) T))

/-- A row of observations. -/
def obsRow (l : List ℚ) (z : Nat) : ℚ := l.getD z 0

/-- `o_yes`, `o_no`, `o_maybe_yes`, `o_maybe_no`, `o_err`, `o_maybe_good`, `bring_next_to_pomdp.py:26-32`. -/
def oMaybeGood : List ℚ := [9 / 10, 0, 0, 1 / 10]
@[inherit_doc oMaybeGood] def oYesRow : List ℚ := [0, 1, 0, 0]
@[inherit_doc oMaybeGood] def oNoRow : List ℚ := [0, 0, 1, 0]
@[inherit_doc oMaybeGood] def oErrRow : List ℚ := [0, 0, 0, 1]
@[inherit_doc oMaybeGood] def oMaybeYes : List ℚ := [1 / 10, 9 / 10, 0, 0]
@[inherit_doc oMaybeGood] def oMaybeNo : List ℚ := [1 / 10, 0, 9 / 10, 0]

/-- `update_O` of a leaf, `bring_next_to_pomdp.py:85-93`. -/
def bnLeafO (h : BnParams) (c : BAction) (_a s : Nat) (next : List Nat) (_probas : List ℚ) (O : F3) : Py F3 := do
  let get ← h.index ("get-" ++ c.objName)
  let ask ← h.index ("ask-" ++ c.objName)
  return setObs ask [s] (obsRow (if h.noAnswer then oMaybeYes else oYesRow)) (setObs get next (obsRow oMaybeGood) O)

/-- `update_R` of a leaf, `bring_next_to_pomdp.py:95-97`. -/
def bnLeafR (h : BnParams) (c : BAction) (_a s : Nat) (next : List Nat) (_probas : List ℚ) (R : F4) : Py F4 := do
  let get ← h.index ("get-" ++ c.objName)
  return fun x y z o => if x = get ∧ y = s ∧ z ∈ next then h.tGet else R x y z o

/-! ### The conversion -/

/-- `update_T_end`, `bring_next_to_pomdp.py:206-211`, with `n` states. -/
def bnTEnd (h : BnParams) (n : Nat) (init : List Nat) (T : F3) : F3 :=
  if h.loop then fun x y z => if y = n - 1 ∧ z ∈ init then 1 / (init.length : ℚ) else T x y z
  else setAll (n - 1) (n - 1) (fun _ => 1) T

/-- `init_O`, `bring_next_to_pomdp.py:213-219`; `O` is zero. -/
def bnInitO (h : BnParams) : F3 := fun x _ z =>
  if x < h.objects.length then obsRow oErrRow z
  else if x < 2 * h.objects.length then obsRow (if h.noAnswer then oMaybeNo else oNoRow) z
  else 0

/-- `init_R`, `bring_next_to_pomdp.py:221-223`; `R` is zero. -/
def bnInitR (h : BnParams) : F4 := fun x _ _ _ =>
  if x < h.objects.length then h.tErr else if x < 2 * h.objects.length then h.tCom else 0

/-- `update_R_end`, `bring_next_to_pomdp.py:225-230`. -/
def bnREnd (h : BnParams) (n : Nat) (R : F4) : F4 :=
  if h.loop then fun x y z o => if y = n - 1 then - h.endReward else R x y z o
  else
    let R : F4 := fun x y z o => if z = n - 1 then R x y z o - h.endReward else R x y z o
    fun x y z o => if y = n - 1 ∧ z = n - 1 then 0 else R x y z o

/-- The names of the observations, `bring_next_to_pomdp.py:24`. -/
def bnObservations : List Name := ["none", "yes", "no", "error"].map Name.str

/-- `states` of a leaf, `bring_next_to_pomdp.py:75`. -/
def bnLeafStates (radix : String → String) (c : BAction) : List Name := [Name.str ("before-" ++ radix c.name)]

/-- `task_to_pomdp` after the call of `from_node`, `bring_next_to_pomdp.py:234-254`. -/
def bnConvert (solver : Option String) (radix : String → String) (h : BnParams) (n : N2P BAction) : Py Pomdp :=
  if n.hasEmptySeq then .error .indexError
  else do
    let states := n.concat (bnLeafStates radix) ++ [Name.str "end"]
    let nS := states.length
    let nA := h.actions.length
    let T ← n.travT 1 0 (bnLeafT h) 0 0 [nS - 1] [1] (fun _ _ _ => 0)
    let O ← n.travT 1 0 (bnLeafO h) 0 0 [nS - 1] [1] (bnInitO h)
    let R ← n.travT 1 0 (bnLeafR h) 0 0 [nS - 1] [1] (bnInitR h)
    Pomdp.mk' solver ⟨nA, nS, nS, bnTEnd h nS (n.init 1 0) T⟩ ⟨nA, nS, 4, O⟩ ⟨nA, nS, nS, 4, bnREnd h nS R⟩
      ((List.range nS).map (scatter (fun _ => 0) (n.init 1 0) n.start)) h.disc (some states) (some (h.actions.map Name.str))
      (some bnObservations) "cost"

/-- `task_to_pomdp`, `bring_next_to_pomdp.py:232-254`. -/
def bnToPomdp (solver : Option String) (radix : String → String) (h : BnParams) (fuel : Nat) (root : Htm BAction) : Py Pomdp := do
  let n ← bnFromNode fuel root
  bnConvert solver radix h n

end Verif
