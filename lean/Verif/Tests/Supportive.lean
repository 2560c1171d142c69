import Verif.Model.Trajectory
import Verif.Model.Supportive

/-!
# The tests of `tests/test_supportive.py` on the model

These are tests of the model, not proofs of properties of the code.  Left out: `test_features` and `test_observations`
(names that are not modelled), and the averages over random samples.
-/

namespace Verif.Tests.Supportive
open Verif

/-! ### `TestHTMToDAG`, lines 22-70 -/

/-- An action that copies to an action of the same class, as `CollaborativeAction` does. -/
def ops : ActOps String := ⟨id, fun _ => "None", fun fmt a => .ok (fmt a)⟩

/-- `LeafCombination(a)`. -/
def leaf (a : String) : Htm String := .leaf a none none false

/-- The names of the nodes, `succs` and `init` of `_HTMToDAG(node)`. -/
def dag (node : Py (Htm String)) : Py (List String × List (List Nat) × List Nat) := do
  let n ← node
  let r ← htmToDag ops List.dedup 20 n
  return (r.2.nodes.map (Htm.name ops), r.2.succs, r.1)

/-- `test_on_leaf`. -/
example : dag (.ok (leaf "Do a")) = .ok (["Do a"], [[]], [0]) := by decide +kernel

/-- `test_on_sequence`. -/
example : dag (mkComb .sequential [leaf "Do a", leaf "Do b", leaf "Do c"] none none "Do all") =
    .ok (["Do a", "Do b", "Do c"], [[1], [2], []], [0]) := by decide +kernel

/-- `test_on_aternative`. -/
example : dag (mkComb .alternative [leaf "Do a", leaf "Do b", leaf "Do c"] none none "Do any") =
    .ok (["Do a", "Do b", "Do c"], [[], [], []], [0, 1, 2]) := by decide +kernel

/-- `test_mixed`. -/
example : dag (do
      let bc ← mkComb .alternative [leaf "Do b", leaf "Do c"] none none "Do b or c"
      mkComb .sequential [leaf "Do a", bc, leaf "Do d"] none none "Do a b|c d") =
    .ok (["Do a", "Do b", "Do c", "Do d"], [[1, 2], [3], [3], []], [0]) := by decide +kernel

/-- `test_on_parallel`. -/
example : dag (mkComb .parallel [leaf "Do a", leaf "Do b"] none none "Do any order") =
    .ok (["Do a order-0", "Do b order-0", "Do b order-1", "Do a order-1"], [[1], [], [3], []], [0, 2]) := by decide +kernel

/-! ### `TestSupportivePOMDPState`, lines 73-247 -/

/-- `_SupportivePOMDPState(5, 3, 2, 4)`. -/
def s0 : SupState := mkSupState 5 3 2 4

/-- `for i in range(n): set(i, v(i))`. -/
def setAll (f : SupState → Nat → Nat → SupState) (n : Nat) (v : Nat → Nat) (x : SupState) : SupState :=
  (List.range n).foldl (fun x i => f x i (v i)) x

/-- `test_set_get_htm`. -/
example : let x := setAll SupState.setBit 4 (fun _ => 1) (setAll SupState.setBody 2 (fun _ => 1)
      (setAll SupState.setPref 3 (fun _ => 1) s0))
    s0.htm = 0 ∧ x.htm = 0 ∧ (x.setHtm 3).htm = 3 := by decide +kernel

/-- `test_set_get_preference`. -/
example : let x := setAll SupState.setBit 4 (fun _ => 1) (setAll SupState.setBody 2 (fun _ => 1) (s0.setHtm 3))
    (List.range 3).map s0.hasPref = [0, 0, 0] ∧ (List.range 3).map x.hasPref = [0, 0, 0] ∧
    (List.range 3).map (setAll SupState.setPref 3 (· % 2) x).hasPref = [0, 1, 0] := by decide +kernel

/-- `test_set_get_body_features`. -/
example : let x := setAll SupState.setBit 4 (fun _ => 1) (setAll SupState.setPref 3 (fun _ => 1) (s0.setHtm 3))
    (List.range 2).map s0.hasBody = [0, 0] ∧ (List.range 2).map x.hasBody = [0, 0] ∧
    (List.range 2).map (setAll SupState.setBody 2 (· % 2) x).hasBody = [0, 1] := by decide +kernel

/-- `test_set_get_object`. -/
example : let x := setAll SupState.setPref 3 (fun _ => 1) (setAll SupState.setBody 2 (fun _ => 1) (s0.setHtm 3))
    (List.range 4).map s0.getBit = [0, 0, 0, 0] ∧ (List.range 4).map x.getBit = [0, 0, 0, 0] ∧
    (List.range 4).map (setAll SupState.setBit 4 (· % 2) x).getBit = [0, 1, 0, 1] := by decide +kernel

/-- `test_str`. -/
example : (setAll SupState.setBit 4 (fun i => (i + 1) % 2) (setAll SupState.setBody 2 (· % 2)
    (setAll SupState.setPref 3 (· % 2) (s0.setHtm 3)))).text = "<1701: 3 010 01 1010>".toList := by decide +kernel

/-- `test_str_aligned`. -/
example : s0.text = "<   0: 0 000 00 0000>".toList := by decide +kernel

/-- `test_n_states`. -/
example : s0.nStates = 2560 := by decide +kernel

/-- `test_is_final`. -/
example : (s0.setHtm 3).isFinal = false ∧ (s0.setHtm 4).isFinal = true := by decide +kernel

/-- `test_copy`, for four states. -/
example : ∀ s ∈ [0, 17, 1701, 2559], let x := mkSupState 5 3 2 4 s
    x.copy.s = x.s ∧ x.copy.text = x.text := by decide +kernel

/-- `b[s] = v`. -/
def put (v : ℚ) (x : SupState) (b : List ℚ) : List ℚ := b.set x.s v

/-- `test_belief_quotient`. -/
example : let z := mkSupState 3 1 1 2
    let x1 := z.setBit 0 1
    let x2 := x1.setBit 1 1
    let x3 := z.setHtm 2
    let x4 := x3.setPref 0 1
    beliefQuotient z (put (4 / 10) x4 (put (3 / 10) x3 (put (1 / 10) x2 (put (1 / 10) x1 (put (1 / 10) z
      (List.replicate (3 * 2 ^ 4) 0)))))) = .ok [3 / 10, 0, 7 / 10] := by decide +kernel

/-- `test_belief_preferences`. -/
example : let z := mkSupState 3 2 1 2
    let x1 := (z.setBit 0 1).setPref 1 1
    let x2 := (x1.setBit 1 1).setPref 0 1
    let x3 := z.setHtm 2
    let x4 := x3.setPref 0 1
    beliefPreferences z (put (4 / 10) x4 (put (3 / 10) x3 (put (2 / 10) x2 (put (1 / 10) x1 (put (1 / 10) z
      (List.replicate (3 * 2 ^ 5) 0)))))) = .ok [3 / 10, 6 / 10] := by decide +kernel

/-- The state of the next two tests. -/
def x0 : SupState := ((((s0.setHtm 2).setBit 1 1).setBit 3 1).setPref 1 1).setBody 0 1

/-- `str(s)[7:-1]`. -/
def features (x : SupState) : List Char := (x.text.drop 7).dropLast

/-- `test_random_object_changes`: numbers in `[0, 1)` are never less than 0 and always less than 1. -/
example : features (x0.randomObjects (fun _ => 1 / 2) 0) = "2 010 10 0101".toList ∧
    features ((x0.randomObjects (fun _ => 1 / 2) 0).randomObjects (fun _ => 1 / 2) 1) = "2 010 10 1010".toList := by
  decide +kernel

/-- `test_random_preference_changes`. -/
example : features (x0.randomPrefs (fun _ => 1 / 2) 0) = "2 010 10 0101".toList ∧
    features ((x0.randomPrefs (fun _ => 1 / 2) 0).randomPrefs (fun _ => 1 / 2) 1) = "2 101 10 0101".toList := by
  decide +kernel

/-! ### `TestSupportivePOMDP`, lines 250-475 -/

/-- `BringTop()`, `supportive.py:58-64`. -/
def bt : Htm SupAction := .leaf ⟨"Bring Top", some (none, [(cCONSUMES, "top")])⟩ none none false

/-- `AssembleFoot(leg)`, `supportive.py:80-90`. -/
def af : Htm SupAction :=
  .leaf ⟨"Assemble foot on leg-1",
    some (some "h", [(cUSES, "joints"), (cCONSUMES, "leg"), (cUSES, "screwdriver"), (cUSES, "screws")])⟩ none none false

/-- `AssembleLegToTop(leg)`, `supportive.py:105-114`. -/
def alt : Htm SupAction :=
  .leaf ⟨"Assemble leg-1 to top", some (some "v", [(cUSES, "screwdriver"), (cUSES, "screws")])⟩ none none false

/-- The parameters of the tests: nothing changes by itself. -/
def par : SupParams := { pChangedByHuman := 0, pChangePreference := 0 }

/-- `SupportivePOMDP(SequentialCombination(l))`. -/
def model (par : SupParams) (l : List (Htm SupAction)) : Py SupPomdp := do
  let n ← mkComb .sequential l none none "unnamed"
  mkSupPomdp par List.dedup 20 n

/-- A test on the model of `l`. -/
def onModel (par : SupParams) (l : List (Htm SupAction)) (f : SupPomdp → Bool) : Bool :=
  match model par l with
  | .ok m => f m
  | .error _ => false

/-- `self.p`. -/
def onP (f : SupPomdp → Bool) : Bool := onModel par [bt, af] f

/-- `test_populate_conditions`. -/
example : onP (fun p => p.objects == ["top", "joints", "leg", "screwdriver", "screws"] &&
    p.conditions == [[(cCONSUMES, 0)], [(cUSES, 1), (cCONSUMES, 2), (cUSES, 3), (cUSES, 4)]]) = true := by decide +kernel

/-- `test_last_actions_lead_to_final_state`, `test_n_states`, `test_htm_final` and `test_htm_clean`. -/
example : onP (fun p => p.succs == [[1], [2]] && p.nStates == 4 * 2 ^ (5 + 1 + 1) &&
    p.nStates == p.stateNames.length && p.htmFinal == 3 && p.htmClean == 2) = true := by decide +kernel

/-- `test_actions`. -/
example : onP (fun p => p.actions.length == p.nActions && p.actions ==
    ["wait", "hold H", "hold V", "ask hold", "bring top", "bring joints", "clear joints", "bring leg",
     "bring screwdriver", "clear screwdriver", "bring screws", "clear screws"]) = true := by decide +kernel

/-- `l[i]` for an index that may have raised. -/
def at? (l : List String) (i : Py Nat) : Option String :=
  match i with
  | .ok i => l[i]?
  | .error _ => none

/-- `test_action_ids`. -/
example : onP (fun p => decide (p.bring 2 = .ok 7) && p.isBring 7 && decide (p.clear 1 = .ok 6) && !p.isBring 6 &&
    at? p.actions (p.bring 2) == some "bring leg" && decide (p.clear 2 = .error .valueError) &&
    at? p.actions (p.clear 1) == some "clear joints" && decide (p.objFromAction 0 = .error .valueError)) = true := by
  decide +kernel

/-- `test_sample_start_no_hold` and `test_sample_start_hold`. -/
example : ∀ b ∈ [0, 1], onModel { par with pPreferences := [(b : Nat)] } [bt, af] (fun p =>
    match p.sampleStart 0 (fun _ => 1 / 2) (fun _ => 1 / 2) with
    | .ok s => (p.toState s).htm == 0 && (p.toState s).hasPref 0 == b && (p.toState s).hasBody 0 == 0 &&
        (List.range 5).map (p.toState s).getBit == [0, 0, 0, 0, 0]
    | .error _ => false) = true := by decide +kernel

/-- Draws of one call. -/
def draws : SupPomdp.Draws := ⟨fun _ => 1 / 2, fun _ => 1 / 2, 1 / 2, 0, fun _ => 1 / 2, 1 / 2, 1 / 2⟩

/-- One call of `sample_transition` and a test on its results. -/
def step (p : SupPomdp) (a s : Nat) (random : Bool) (f : SupState → Nat → ℚ → Bool) : Bool :=
  match p.sampleTransition draws a s random with
  | .ok r => f (p.toState r.1) r.2.1 r.2.2
  | .error _ => false

/-- `test_sample_transition`: bring and clear the joints, then wait. -/
example : onModel { par with pFail := 0 } [bt, af] (fun p =>
    step p 5 0 true fun x o _ => x.getBit 1 == 1 && o == 0 &&
    step p 6 x.s true fun x o _ => x.getBit 1 == 0 && o == 0 &&
    step p 0 x.s true fun x o _ => x.getBit 0 == 0 && o == 0) = true := by decide +kernel

/-- The state of `test_sample_transition_hold`: screws and screwdriver are there. -/
def tools (p : SupPomdp) (b : Nat) : SupState :=
  (((p.toState 0).setBit (p.objects.idxOf "screws") 1).setBit (p.objects.idxOf "screwdriver") 1).setPref 0 b

/-- `test_sample_transition_hold`, with and without the preference. -/
example : onModel { pFail := 0 } [alt, af] (fun p =>
    (step p 0 (tools p 1).s false fun x o r => x.htm == 1 && o == 0 && r == 10) &&
    (step p 2 (tools p 1).s false fun x o r => x.htm == 1 && o == 0 && r == 10 - p.par.costHold + 10) &&
    (step p 1 (tools p 1).s false fun x o r => x.htm == 0 && o == 1 && r == -p.par.costHold) &&
    (step p 0 (tools p 0).s false fun x o r => x.htm == 1 && o == 0 && r == 10) &&
    (step p 2 (tools p 0).s false fun x o r => x.htm == 0 && o == 1 && r == -p.par.costHold)) = true := by
  decide +kernel

/-- The end of `test_sample_transition_hold`: in nodes that need no holding, in the clean and in the final state. -/
example : onP (fun p =>
    let top := ((p.toState 0).setBit (p.objects.idxOf "top") 1).setPref 0 1
    let clean := ((p.toState 0).setHtm p.htmClean).setPref 0 1
    let final := ((p.toState 0).setHtm p.htmFinal).setPref 0 1
    (step p 2 top.s false fun _ _ r => r == -p.par.costHold) &&
    (step p 2 clean.s false fun x o _ => o == 1 && x.s == clean.s) &&
    (step p 0 clean.s false fun x o _ => o == 0 && x.htm == p.htmFinal) &&
    (step p 2 final.s false fun _ _ r => r == -p.par.costHold)) = true := by decide +kernel

/-- `test_sample_transition_action_failure`. -/
example : onModel { par with pFail := 1 } [bt, af] (fun p =>
    (step p 5 0 true fun x o _ => x.getBit 1 == 0 && o == 1) &&
    (step p 6 ((p.toState 0).setBit 1 1).s true fun x o _ => x.getBit 1 == 1 && o == 1)) = true := by decide +kernel

/-- `test_sample_transition_not_found`. -/
example : onP (fun p =>
    (step p 6 0 true fun x o _ => x.getBit 1 == 0 && o == 2) &&
    (step p 5 ((p.toState 0).setBit 1 1).s true fun x o _ => x.getBit 1 == 1 && o == 2)) = true := by decide +kernel

/-- `test_reward_independent_preference`. -/
example : onModel { rewardIndependentPreference := true } [alt, af] (fun p =>
    let all (b : Nat) := ((tools p b).setBit (p.objects.idxOf "joints") 1).setBit (p.objects.idxOf "leg") 1
    (step p 0 (all 1).s false fun x o r => x.htm == 1 && o == 0 && r == 10) &&
    (step p 2 (all 1).s false fun x o r => x.htm == 1 && o == 0 && r == 10 - p.par.costHold + 10) &&
    (step p 0 (all 0).s false fun x o r => x.htm == 1 && o == 0 && r == 10 - p.par.costHold + 10)) = true := by
  decide +kernel

/-! ### `TestNHTMHorizon`, lines 478-512 -/

/-- `test_no_htm_transition`, `test_htm_transition` and `test_reached_on_final`. -/
example : onModel {} [bt, af] (fun p =>
    let z := p.toState 0
    let final := z.setHtm p.htmFinal
    !(NHtmHorizon.decrement p ⟨1⟩ z.s ((z.setBit 2 1).setPref 0 1).s).isReached &&
    (NHtmHorizon.decrement p ⟨1⟩ z.s (z.setHtm 1).s).isReached &&
    (NHtmHorizon.decrement p ⟨1⟩ final.s final.s).isReached) = true := by decide +kernel

end Verif.Tests.Supportive
