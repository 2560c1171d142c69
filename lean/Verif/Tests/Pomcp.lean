import Verif.Model.Pomcp

/-!
# The tests of `tests/test_pomcp.py` on the model

These are tests of the model, not proofs of properties of the code.  Left out: the tests with random inputs, the skipped ones and
those of the texts (`__str__` is not modelled; the structure of the trees is tested instead).
-/

namespace Verif.Tests.Pomcp
open Verif

/-! ### Values, lines 13-54 and 442-479 -/

/-- Some updates. -/
def updates (alpha : ℚ) (l : List ℚ) : Avg := l.foldl (Avg.update alpha) .new

/-- `TestSearchNode` and `test_n_simulations`. -/
example : Avg.new.n = 0 ∧ Avg.new.total = 0 ∧ Avg.new.value = 0 ∧ (updates 0 [3]).n = 1 ∧ (updates 0 [3, 2]).n = 2 ∧
    (updates 0 [1, 2]).value = 3 / 2 ∧ (updates (1 / 10) [3, 2, 1]).n = 3 := by decide +kernel

/-- `test_is_average_for_alpha_equal_zero` and `test_is_last_for_alpha_equal_one`, on one list. -/
example : (updates 0 [1 / 2, 1 / 3, 1 / 7]).value = (1 / 2 + 1 / 3 + 1 / 7) / 3 ∧ (updates 1 [1 / 2, 1 / 3, 1 / 7]).value = 1 / 7 := by
  decide +kernel

/-! ### `TestSearchObservationNode`, lines 57-142 -/

/-- Transitions still to come, transitions requested (action and state), successors still to come. -/
structure Fake where
  transitions : List (Nat × Nat × ℚ)
  history : List (Nat × Nat)
  successors : List Nat

/-- `_FakeModel`, lines 205-236, with 3 actions and 2 observations; beliefs are numbers. -/
def fake (nActions : Nat) (discount : ℚ) : Sim Fake Nat where
  actions := (List.range nActions).map .int
  observations := [.int 0, .int 1]
  discount := discount
  sampleTransition a s := fun f => match f.transitions with
    | t :: ts => (.ok t, { f with transitions := ts, history := f.history ++ [(a, s)] })
    | [] => (.error .indexError, f)
  sampleBelief _ := pure 9
  successor _ _ _ := fun f => match f.successors with
    | b :: bs => (.ok b, { f with successors := bs })
    | [] => (.error .indexError, f)
  rand := pure 2

/-- Approximations of `sqrt(log(20) / m)` for `m` from 1 to 3. -/
def bonus (_ m : Nat) : ℚ := if m = 1 then 1730 / 1000 else if m = 2 then 1223 / 1000 else 999 / 1000

/-- A node with `n` simulations and the given children. -/
def node (n : Nat) (children : List (Option Avg)) : SearchState Fake Nat :=
  ⟨⟨fun _ => ⟨0, ⟨n, 0⟩, children.map fun c => c.map fun v => ⟨v, []⟩⟩, 1, []⟩, ⟨[], [], []⟩⟩

/-- `get_best_action(exploration=e)` at this node. -/
def best (e : ℚ) (st : SearchState Fake Nat) : Py Nat := (getBestAction (fake 10 1) bonus e false 0 st).1

/-- `test_safe_get_child_raises_index_error`. -/
example : (safeGetChild 0 11 (node 0 (List.replicate 10 none))).1 = .error .indexError := by decide +kernel

/-- `test_safe_get_child_init_child`. -/
example : let st := (safeGetChild 0 3 (node 0 (List.replicate 10 none))).2
    (List.range 10).map (fun a => (st.tree.anode 0 a).isSome) = (List.range 10).map (· == 3) := by decide +kernel

/-- `test_get_best_action_is_unset`, with the child 6 unset. -/
example : best 0 (node 10 ((List.range 10).map fun i => if i = 6 then none else some ⟨1, 0⟩)) = .ok 6 := by decide +kernel

/-- `test_get_best_action_is_unexplored`. -/
example : best 0 (node 9 ((List.range 10).map fun i => some (if i = 3 then ⟨0, 0⟩ else ⟨1, 0⟩))) = .ok 3 := by decide +kernel

/-- `test_get_best_action_is_best`. -/
example : best 0 (node 10 ((List.range 10).map fun i => some (if i = 7 then updates 0 [0, 10] else updates 0 [0]))) = .ok 7 := by
  decide +kernel

/-- The node of the next two tests. -/
def explored : SearchState Fake Nat :=
  node 20 ((List.range 10).map fun i => some (if i = 4 then ⟨1, 93 / 10⟩ else if i = 7 then updates 0 [0, 0, 30] else updates 0 [0, 0]))

/-- `test_get_best_action_is_not_best` and `test_get_best_action_is_still_best_for_small_exploration`. -/
example : best 1 explored = .ok 4 ∧ best (1 / 2) explored = .ok 7 := by decide +kernel

/-! ### `TestSearchTree`, lines 239-395 -/

/-- The search tree of the tests. -/
def search (n : Int) (discount : ℚ) (rolloutIt : Nat) : Search Fake Nat Int where
  sim := fake 3 discount
  hor := nTransitions
  horizon := n
  exploration := 1
  relative := false
  rolloutIt := rolloutIt
  alpha := 0
  bonus := bonus
  shared := false
  fuel := 10
  bound := 10

/-- `_one_rollout_from_node(s, h)`: the return and the requested transitions. -/
def rollout (s : Nat) (h : Int) (ts : List (Nat × Nat × ℚ)) : Py ℚ × List (Nat × Nat) :=
  let r := rolloutLoop (fake 3 (9 / 10)) nTransitions 10 s h 1 0 ⟨ts, [], []⟩
  (r.1, r.2.history)

/-- `test_rollout_from_node_with_horizon_0_is_0`. -/
example : rollout 1 0 [] = (.ok 0, []) := by decide +kernel

/-- `test_rollout_from_node_with_horizon_1_is_reward`. -/
example : (rollout 2 1 [(1, 0, 32 / 10)]).1 = .ok (32 / 10) ∧ (rollout 2 1 [(1, 0, 32 / 10)]).2.map Prod.snd = [2] := by
  decide +kernel

/-- `test_rollout_from_node_with_horizon_2`. -/
example : (rollout 3 2 [(1, 0, 11), (2, 0, 10)]).1 = .ok 20 ∧ (rollout 3 2 [(1, 0, 11), (2, 0, 10)]).2.map Prod.snd = [3, 1] := by
  decide +kernel

/-- The state before the first simulation. -/
def start (S : Search Fake Nat Int) (ts : List (Nat × Nat × ℚ)) (bs : List Nat) : SearchState Fake Nat := S.start 0 ⟨ts, [], bs⟩

/-- `test_simulate_from_node_with_horizon_0`. -/
example : let st := (simulateFromNode (search 0 (9 / 10) 1) 0 none (start (search 0 (9 / 10) 1) [] [])).2
    st.rng.history = [] ∧ (st.tree.nodes 0).children = [none, none, none] ∧ (st.tree.nodes 0).avg.n = 0 := by decide +kernel

/-- `test_simulate_from_node_with_horizon_1`: the action is the one drawn, 2. -/
example : let st := (simulateFromNode (search 1 (9 / 10) 1) 0 none (start (search 1 (9 / 10) 1) [(1, 1, 11)] [1])).2
    st.rng.history = [(2, 9)] ∧ (st.tree.nodes 0).avg.n = 1 ∧ st.tree.next 0 2 1 = some 1 ∧ st.tree.size = 2 ∧
    (st.tree.nodes 0).children.map Option.isSome = [false, false, true] ∧
    (st.tree.nodes 1).children = [none, none, none] := by decide +kernel

/-- One run of `test_simulate_from_node_with_horizon_3`: the model is reset. -/
def run3 (ts : List (Nat × Nat × ℚ)) (st : SearchState Fake Nat) : SearchState Fake Nat :=
  (simulateFromNode (search 3 1 1) 0 (some 1) ⟨st.tree, ⟨ts, [], [1]⟩⟩).2

/-- `get_node(history)._avg.total_value` for an action node or an observation node. -/
def obsTotal (st : SearchState Fake Nat) (h : List (Nat × Nat)) : Py ℚ :=
  match getNode (search 3 1 1) h st with
  | (.ok i, st') => .ok (st'.tree.nodes i).avg.total
  | (.error e, _) => .error e

@[inherit_doc obsTotal] def actTotal (st : SearchState Fake Nat) (h : List (Nat × Nat)) (a : Nat) : Py (Option ℚ) :=
  match getNode (search 3 1 1) h st with
  | (.ok i, st') => .ok ((st'.tree.anode i a).map fun c => c.avg.total)
  | (.error e, _) => .error e

/-- The three runs. -/
def st1 : SearchState Fake Nat := run3 [(1, 1, 11), (2, 0, 13), (4, 0, 0)] (start (search 3 1 1) [] [])
@[inherit_doc st1] def st2 : SearchState Fake Nat := run3 [(1, 1, 3), (2, 0, 1), (4, 0, 5)] st1
@[inherit_doc st1] def st3 : SearchState Fake Nat := run3 [(1, 0, 2), (2, 1, 3), (4, 0, 4)] st2

/-- First run. -/
example : st1.rng.history.length = 3 ∧ st1.tree.size = 2 ∧ st1.tree.next 0 1 1 = some 1 ∧ (st1.tree.nodes 0).avg = ⟨1, 24⟩ ∧
    actTotal st1 [] 1 = .ok (some 24) ∧ obsTotal st1 [(1, 1)] = .ok 13 := by decide +kernel

/-- Second run: `a1` is the action drawn, 2. -/
example : st2.rng.history.length = 3 ∧ (st2.rng.history.map Prod.fst)[1]? = some 2 ∧ st2.tree.size = 3 ∧
    st2.tree.next 0 1 1 = some 1 ∧ st2.tree.next 1 2 0 = some 2 ∧ (st2.tree.nodes 0).avg = ⟨2, 33⟩ ∧
    actTotal st2 [] 1 = .ok (some 33) ∧ obsTotal st2 [(1, 1)] = .ok 19 ∧ actTotal st2 [(1, 1)] 2 = .ok (some 6) ∧
    obsTotal st2 [(1, 1), (2, 0)] = .ok 5 := by decide +kernel

/-- Third run. -/
example : st3.rng.history.length = 3 ∧ st3.tree.size = 4 ∧ st3.tree.next 0 1 0 = some 3 ∧ st3.tree.next 0 1 1 = some 1 ∧
    st3.tree.next 1 2 0 = some 2 ∧ (st3.tree.nodes 0).avg = ⟨3, 42⟩ ∧ actTotal st3 [] 1 = .ok (some 42) ∧
    obsTotal st3 [(1, 1)] = .ok 19 ∧ actTotal st3 [(1, 1)] 2 = .ok (some 6) ∧ obsTotal st3 [(1, 1), (2, 0)] = .ok 5 ∧
    obsTotal st3 [(1, 0)] = .ok 7 := by decide +kernel

/-- `test_rollout_from_node_multiple_rollouts`. -/
example : let S := search 1 (9 / 10) 10
    let st := (rolloutFromNode S 0 1 (start S (List.replicate 10 (1, 1, 11)) [])).2
    st.rng.history.length = 10 ∧ (st.tree.nodes 0).avg.n = 1 := by decide +kernel

/-- `test_get_node` and `test_get_node_creates_child`: the node is found again, and created with the belief of the model. -/
example : let S := search 3 1 1
    let r := getNode S [(0, 5), (1, 6)] (start S [] [7, 8])
    r.1 = .ok 2 ∧ (r.2.tree.nodes 2).belief = 8 ∧ (getNode S [(0, 5), (1, 6)] r.2).1 = .ok 2 ∧
    (getNode S [(0, 5), (1, 6)] r.2).2.tree.size = 3 := by decide +kernel

/-- `test_step_updates_history`: the history is extended by the last action and the index of the observation. -/
example : let S := search 3 1 1
    let st : SearchRunner Fake Nat := ⟨start S [] [7, 8], [(0, 1)], 0, some 2⟩
    (searchStep S (.int 0) st).2.history = [(0, 1), (2, 0)] := by decide +kernel

end Verif.Tests.Pomcp
