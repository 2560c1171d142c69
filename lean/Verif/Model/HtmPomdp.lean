import Verif.Model.NodeTree
import Verif.Model.Pomdp

/-!
# Model of `task_to_pomdp.py`

* Arrays under construction are total functions of the indices; only the values inside the shape matter.
* The exponential is a parameter `exp`, and `_name_radix` (`name.lower().replace(' ', '-')`, lines 50-51) a parameter `radix`.
* Division by a human duration of zero gives 0 here (`nan` or an infinity in numpy).
* `human_probability` is stored but not used by the code.
-/

namespace Verif

/-- Attributes of `CollaborativeAction`, `task_to_pomdp.py:35-41`. -/
structure CAction where
  name : String
  tHum : ℚ
  tRob : ℚ
  tErr : ℚ
  noProba : ℚ
  failProba : ℚ
  deriving DecidableEq

/-- `copy`, `task_to_pomdp.py:43-47`.  (The action has no agent.) -/
def CAction.ops : ActOps CAction where
  name := CAction.name
  agent := fun _ => ""
  copy := fun fmt a => .ok { a with name := fmt a.name }

/-- Parameters of `HTMToPOMDP`, `task_to_pomdp.py:390-410`. -/
structure HtmParams where
  tWait : ℚ
  tAsk : ℚ
  tTell : ℚ
  intrCost : ℚ
  endReward : ℚ
  deterministic : Bool
  structured : Bool
  loop : Bool
  rewardState : Bool
  subtaskReward : Option ℚ

/-! ### Leaves -/

/-- `states` of a leaf, `task_to_pomdp.py:144-145`. -/
def leafStates (radix : String → String) (c : CAction) : List Name :=
  ["init-", "H-", "R-"].map fun n => Name.str (n ++ radix c.name)

/-- `actions` of a leaf, `task_to_pomdp.py:147-150`. -/
def leafActions (radix : String → String) (c : CAction) : List Name :=
  ["phy", "com-ask-intention", "com-tell-intention", "com-ask-finished"].map fun n => Name.str (n ++ "-" ++ radix c.name)

/-- `durations` of a leaf, `task_to_pomdp.py:167-170`. -/
def leafDurations (h : HtmParams) (c : CAction) : List ℚ := [c.tErr, h.tAsk, h.tTell, h.tAsk]

/-- An array with three indices under construction. -/
abbrev F3 := Nat → Nat → Nat → ℚ
/-- An array with four indices under construction. -/
abbrev F4 := Nat → Nat → Nat → Nat → ℚ

/-- `T[a, s, s'] = v`. -/
def set1 (a s s' : Nat) (v : ℚ) (T : F3) : F3 := fun x y z => if x = a ∧ y = s ∧ z = s' then v else T x y z

/-- `T[:, s, s'] = v`; the value may depend on the first index. -/
def setAll (s s' : Nat) (v : Nat → ℚ) (T : F3) : F3 := fun x y z => if y = s ∧ z = s' then v x else T x y z

/-- `T[a, s, next] = v`. -/
def setNext (a s : Nat) (next : List Nat) (v : List ℚ) (T : F3) : F3 :=
  fun x y z => if x = a ∧ y = s then scatter (T x y) next v z else T x y z

/-- `T[:, s, :][:, next] = v`; the values depend on the first index. -/
def setNextAll (s : Nat) (next : List Nat) (v : Nat → List ℚ) (T : F3) : F3 :=
  fun x y z => if y = s then scatter (T x y) next (v x) z else T x y z

/-- `uniform(n)`, `task_to_pomdp.py:13-14`. -/
def uniform (n : Nat) : List ℚ := List.replicate n (1 / (n : ℚ))

/-- `np.exp(-durations / self.t_hum)` for the duration `d`, `task_to_pomdp.py:180-181`. -/
def notFinished (exp : ℚ → ℚ) (c : CAction) (d : ℚ) : ℚ := exp (-d / c.tHum)

/-- The part of `update_T` about the human state, `task_to_pomdp.py:201-210`. -/
def leafTHuman (exp : ℚ → ℚ) (h : HtmParams) (c : CAction) (durations : List ℚ) (a s : Nat) (next : List Nat) (probas : List ℚ) (T : F3) :
    F3 :=
  if h.deterministic then
    setNext (a + 3) (s + 1) next (uniform next.length) (set1 (a + 3) (s + 1) (s + 1) 0 (setAll (s + 1) (s + 1) (fun _ => 1) T))
  else
    setNextAll (s + 1) next (fun x => probas.map fun p => (1 - notFinished exp c (durations.getD x 0)) * p)
      (setAll (s + 1) (s + 1) (fun x => notFinished exp c (durations.getD x 0)) T)

/-- `update_T` of a leaf, `task_to_pomdp.py:183-214`. -/
def leafT (exp : ℚ → ℚ) (h : HtmParams) (durations : List ℚ) (c : CAction) (a s : Nat) (next : List Nat) (probas : List ℚ) (T : F3) : F3 :=
  let T := setAll s s (fun _ => 1) T
  let T := set1 (a + 1) s s 0 T
  let T := set1 (a + 1) s (s + 2) c.noProba T
  let T := set1 (a + 1) s (s + 1) (1 - c.noProba) T
  let T := set1 (a + 2) s s 0 T
  let T := set1 (a + 2) s (s + 2) 1 T
  let T := leafTHuman exp h c durations a s next probas T
  let T := setAll (s + 2) (s + 2) (fun _ => 1) T
  let T := set1 a (s + 2) (s + 2) c.failProba T
  setNext a (s + 2) next (probas.map fun x => (1 - c.failProba) * x) T

/-- `o_none`, `o_yes`, `o_no`, `o_err`, `task_to_pomdp.py:58-61`, as positions of the 1. -/
def oNone : Nat := 0
@[inherit_doc oNone] def oYes : Nat := 1
@[inherit_doc oNone] def oNo : Nat := 2
@[inherit_doc oNone] def oErr : Nat := 3

/-- The row with a 1 in position `o`. -/
def unit (o z : Nat) : ℚ := if z = o then 1 else 0

/-- `O[a, :, :] = v`. -/
def setObsAll (a : Nat) (v : Nat → ℚ) (O : F3) : F3 := fun x y z => if x = a then v z else O x y z

/-- `O[a, states, :] = v`. -/
def setObs (a : Nat) (states : List Nat) (v : Nat → ℚ) (O : F3) : F3 := fun x y z => if x = a ∧ y ∈ states then v z else O x y z

/-- `update_O` of a leaf, the action `ask-finished`, `task_to_pomdp.py:243-251`. -/
def leafOFinished (h : HtmParams) (a s : Nat) (next after : List Nat) (O : F3) : F3 :=
  if h.deterministic then
    setObs (a + 3) next (unit oYes) (setObs (a + 3) [s + 1] (unit oNo) (setObsAll (a + 3) (unit oErr) O))
  else setObs (a + 3) after (unit oYes) (setObsAll (a + 3) (unit oNo) O)

/-- `update_O` of a leaf, the action `tell-intention`, `task_to_pomdp.py:236-242`. -/
def leafOTell (h : HtmParams) (a s : Nat) (O : F3) : F3 :=
  if h.structured then setObs (a + 2) [s + 2] (unit oNone) (setObsAll (a + 2) (unit oErr) O)
  else setObsAll (a + 2) (unit oNone) O

/-- `update_O` of a leaf, `task_to_pomdp.py:216-251`. -/
def leafO (h : HtmParams) (_c : CAction) (a s : Nat) (next _before after : List Nat) (O : F3) : F3 :=
  let O := setObsAll a (unit oErr) O
  let O := setObs a next (unit oNone) O
  let O := setObsAll (a + 1) (unit (if h.structured then oErr else oNone)) O
  let O := setObs (a + 1) [s + 1] (unit oYes) O
  let O := setObs (a + 1) [s + 2] (unit oNo) O
  leafOFinished h a s next after (leafOTell h a s O)

/-- `update_R` of a leaf, `task_to_pomdp.py:253-279`; `self.t_com` does not exist.  (`a_wait` is 0.) -/
def leafR (h : HtmParams) (durations : List ℚ) (c : CAction) (a s : Nat) (R : F4) : Py F4 :=
  let R : F4 := fun x y z o => if s ≤ y ∧ y < s + 3 then durations.getD x 0 else R x y z o
  let R : F4 := fun x y z o => if x ≠ 0 ∧ s ≤ y ∧ y < s + 3 then R x y z o + h.intrCost else R x y z o
  let R : F4 := fun x y z o => if x = a ∧ y = s + 2 then c.tRob + h.intrCost else R x y z o
  if h.structured then .error .attributeError
  else
    match h.subtaskReward with
    | none => .ok R
    | some r =>
        let R : F4 := fun x y z o => if s ≤ y ∧ y < s + 3 ∧ z < s then R x y z o - r else R x y z o
        let R : F4 := fun x y z o => if s ≤ y ∧ y < s + 3 ∧ s + 3 ≤ z then R x y z o - r else R x y z o
        .ok R

/-! ### The conversion -/

/-- `update_T_end`, `task_to_pomdp.py:412-418`, with `n` states. -/
def htmTEnd (h : HtmParams) (n : Nat) (init : List Nat) (T : F3) : F3 :=
  if h.loop then fun x y z => if y = n - 1 ∧ z ∈ init then 1 else T x y z
  else if h.rewardState then setAll (n - 1) (n - 1) (fun _ => 1) (setAll (n - 2) (n - 1) (fun _ => 1) T)
  else setAll (n - 1) (n - 1) (fun _ => 1) T

/-- `O[:, s, :] = v`. -/
def setObsState (s : Nat) (v : Nat → ℚ) (O : F3) : F3 := fun x y z => if y = s then v z else O x y z

/-- The last part of the observations, `task_to_pomdp.py:456-468`; the new column is 0. -/
def htmOEnd (h : HtmParams) (n : Nat) (O : F3) : F3 :=
  if h.loop ∨ h.rewardState then
    let O : F3 := fun x y z => if z < 4 then O x y z else 0
    if h.rewardState then setObsState (n - 2) (unit 4) (setObsState (n - 1) (unit 0) O)
    else setObsState (n - 1) (unit 4) O
  else O

/-- `update_R_end`, `task_to_pomdp.py:423-430`. -/
def htmREnd (h : HtmParams) (n : Nat) (R : F4) : F4 :=
  let R : F4 := fun x y z o => if y = n - 1 then h.intrCost else R x y z o
  if h.rewardState then
    let R : F4 := fun x y z o => if y = n - 2 then h.intrCost else R x y z o
    let R : F4 := fun x y z o => if x = 0 ∧ y = n - 2 then - h.endReward else R x y z o
    fun x y z o => if x = 0 ∧ y = n - 1 then 0 else R x y z o
  else fun x y z o => if x = 0 ∧ y = n - 1 then - h.endReward else R x y z o

/-- The names of the last states, `task_to_pomdp.py:436-439`. -/
def endStates (h : HtmParams) : List Name :=
  if h.rewardState then [.str "end-reward", .str "end"] else [.str "end"]

/-- The names of the observations, `task_to_pomdp.py:56, 468`. -/
def htmObservations (h : HtmParams) : List Name :=
  ["none", "yes", "no", "error"].map Name.str ++ (if h.loop ∨ h.rewardState then [.str "done"] else [])

/-- `durations`, `task_to_pomdp.py:449`. -/
def htmDurations (h : HtmParams) (n : N2P CAction) : List ℚ := h.tWait :: n.concat (leafDurations h)

/-- The array `T`, `task_to_pomdp.py:450-452`; `nS` is the number of states. -/
def htmT (exp : ℚ → ℚ) (h : HtmParams) (n : N2P CAction) (nS : Nat) : Py F3 := do
  let fin := if h.rewardState then nS - 2 else nS - 1
  let T ← n.travT 3 4 (fun c a s next probas T => .ok (leafT exp h (htmDurations h n) c a s next probas T)) 1 0 [fin] [1] (fun _ _ _ => 0)
  return htmTEnd h nS (n.init 3 0) T

/-- The array `O`, `task_to_pomdp.py:453-468`. -/
def htmO (h : HtmParams) (n : N2P CAction) (nS : Nat) : Py F3 := do
  let fin := if h.rewardState then nS - 2 else nS - 1
  let O ← n.travO 3 4 (fun c a s next before after O => .ok (leafO h c a s next before after O)) 1 0 [fin] [] [fin] (fun _ _ _ => 0)
  return htmOEnd h nS (setObsAll 0 (unit oNone) O)

/-- The array `R`, `task_to_pomdp.py:469-471`. -/
def htmR (h : HtmParams) (n : N2P CAction) (nS : Nat) : Py F4 := do
  let R ← n.travR 3 4 (leafR h (htmDurations h n)) 1 0 (fun _ _ _ _ => 0)
  return htmREnd h nS R

/-- `task_to_pomdp` after the call of `from_node`, `task_to_pomdp.py:436-474`. -/
def htmConvert (solver : Option String) (exp : ℚ → ℚ) (radix : String → String) (h : HtmParams) (n : N2P CAction) : Py Pomdp :=
  if n.hasEmptySeq then .error .indexError
  else do
    let states := n.concat (leafStates radix) ++ endStates h
    let actions := Name.str "wait" :: n.concat (leafActions radix)
    let nS := states.length
    let nA := actions.length
    let nO := (htmObservations h).length
    let T ← htmT exp h n nS
    let O ← htmO h n nS
    let R ← htmR h n nS
    Pomdp.mk' solver ⟨nA, nS, nS, T⟩ ⟨nA, nS, nO, O⟩ ⟨nA, nS, nS, nO, R⟩
      ((List.range nS).map (scatter (fun _ => 0) (n.init 3 0) n.start)) 1 (some states) (some actions) (some (htmObservations h)) "cost"

/-- `task_to_pomdp`, `task_to_pomdp.py:432-474`. -/
def htmToPomdp (solver : Option String) (exp : ℚ → ℚ) (radix : String → String) (h : HtmParams) (fuel : Nat) (root : Htm CAction) :
    Py Pomdp := do
  let n ← N2P.fromNode CAction.ops fuel root
  htmConvert solver exp radix h n

end Verif
