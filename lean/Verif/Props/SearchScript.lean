import Verif.Proof.SearchScript
import Verif.Props.Script
import Verif.Props.PomcpUct

/-! Property C117 (the script that explores with the search and saves the policy that is found). -/

set_option linter.unusedSectionVars false
set_option linter.unusedSimpArgs false

namespace Verif
open Verif.Spec
variable {η : Type} {p : Pomdp} {nS nA nO : Nat} {u : Nat → ℚ} {c : Nat → Nat}

/-- What the script assumes of the model and of the search. -/
structure GoodSearch (p : Pomdp) (nS nA nO : Nat) (u : Nat → ℚ) (c : Nat → Nat) (S : Search Nat (List ℚ) η) (m : η → Nat) (b : List ℚ) (it : Nat) : Prop where
  model : Stochastic p nS nA nO
  some_action : 0 < nA
  uniform : ∀ k, 0 ≤ u k ∧ u k < 1
  sim : S.sim = exactSim p u c
  bounded : BoundedHor S.hor m
  rollouts : 0 < S.rolloutIt
  fuel : m S.horizon < S.fuel
  bound : m S.horizon ≤ S.bound
  start : S.hor.isReached S.horizon = false
  belief : IsDist nS b
  enough : nA ≤ it

theorem GoodSearch.turns {S : Search Nat (List ℚ) η} {m : η → Nat} {b : List ℚ} {it : Nat} (g : GoodSearch p nS nA nO u c S m b it) (rng : Nat) :
    ∀ i, TurnInv S b it i (searchAfter S b rng it i) ∧ ∃ name,
      searchGetAction S it (searchAfter S b rng it i) = (.ok name, searchAfter S b rng it (i + 1)) ∧
      (searchAfter S b rng it (i + 1)).last.bind (fun a => S.sim.actions[a]?) = some name := by
  have hs := exact_safe (c := c) g.model g.some_action g.uniform
  have hq := exactSim_quiet p u c
  rw [← g.sim] at hs hq
  have hn : S.sim.nActions = nA := by rw [g.sim]; exact g.model.1.2.1
  exact turnInv_all hs g.bounded g.rollouts g.belief g.fuel g.bound hq g.start rng (by rw [hn]; exact g.enough)

/-- What has been done when the file is to be saved. -/
theorem explore_run {S : Search Nat (List ℚ) η} {m : η → Nat} {b : List ℚ} {it : Nat} (g : GoodSearch p nS nA nO u c S m b it) (rng n depth : Nat)
    (fmt : StatusFormat) (hplain : PlainTexts fmt p.actions) (X : Exporter Nat (List ℚ)) (hX : X.sim = S.sim)
    (hdepth : (searchAfter S b rng it n).search.tree.size < depth) (j : Json SearchFile) (states : List Name) (f : FilePath) (w : World) :
    ∃ (outs statuses : List (List Char)) (d : PolicyDict) (r : SearchRunner Nat (List ℚ)), outs.length = n ∧ statuses.length = n ∧
      (∀ (i : Nat) (s : List Char), statuses[i]? = some s → StatusOf fmt p.actions (searchAfter S b rng it i) i n s) ∧
      (∀ above, ShowsEach above outs statuses) ∧ PolicyOf X (searchAfter S b rng it n).search.tree 0 none d ∧
      SamePlusUntried (searchAfter S b rng it n).search.tree r.search.tree ∧
      exploreProgram fmt j X S states it n depth f ⟨S.runner b rng, [], w⟩ =
        onDisk (saveJson j f (some 2) ⟨[.policy d], p.actions, states, S.exploration, S.relative⟩)
          ⟨r, outs.flatten ++ ("Exploring... [done]\n".toList ++ foundText S.shared (searchAfter S b rng it n).search.tree.lookup.length), w⟩ := by
  have hact : S.sim.actions = p.actions := by rw [g.sim]; rfl
  have hall := g.turns rng
  obtain ⟨y, outs, statuses, e1, e2, e3, e4, e5⟩ := exploreTurns_run fmt (by rw [hact]; exact hplain) rng n hall n 0 0 [] w
  rw [hact] at e4
  simp only [Nat.zero_add, List.nil_append] at e1 e4
  obtain ⟨k, hinv⟩ := (hall n).1.inv
  obtain ⟨hx, hinc⟩ := exportable_of hX (by rw [g.sim]; exact fun g => ⟨_, _, rfl⟩) (by rw [g.sim]; exact lt_of_lt_of_eq g.some_action g.model.1.2.1.symm)
    (by rw [g.sim]; exact exactSim_observed p u c (by rw [g.model.1.2.2.1]; exact g.model.1.2.2.2.2.2.2.2.2.2.1)) hinv.tree
  generalize hr : searchAfter S b rng it n = r0 at *
  have hcalls : callsLeft r0.search.tree (startVisited (List ℚ) S.shared) 0 ≤ r0.search.tree.size := by
    unfold startVisited
    split
    · exact (List.countP_le_length).trans (by simp)
    · exact Nat.sub_le _ _
  obtain ⟨d, s, h⟩ := policyDict_total hx (startVisited (List ℚ) S.shared) (by
      intro hv
      apply hinc
      unfold startVisited at hv
      by_contra hs
      rw [if_pos (by simpa using hs)] at hv
      cases hv) depth 0 none ⟨r0.search, startVisited (List ℚ) S.shared⟩ id (Padded.refl _) hinv.tree.pos (by simp only; omega)
  have htp : treePolicy X S.shared depth r0.search = (.ok d, s.search) := by unfold treePolicy; rw [h]
  obtain ⟨q1, q2⟩ := C78_policy X S.shared depth r0.search s.search d htp
  refine ⟨outs, statuses, d, { r0 with search := s.search }, e2, e3, e4, ?_, q1, q2, ?_⟩
  · intro above
    exact ⟨by rw [e2, e3], fun i s hs => e5 above [] (Nat.le_refl 0) i s hs⟩
  · unfold exploreProgram
    have e1' : exploreTurns fmt S it n n 0 (none, 0) ⟨S.runner b rng, [], w⟩ = (.ok y, ⟨r0, outs.flatten, w⟩) := e1
    rw [M.bind_of_ok e1']
    have hg : onPol (onSearch (searchGraphs X S.shared depth false)) ⟨r0, outs.flatten ++ "Exploring... [done]\n".toList ++ foundText S.shared r0.search.tree.lookup.length, w⟩ =
        (.ok [.policy d], ⟨{ r0 with search := s.search }, outs.flatten ++ "Exploring... [done]\n".toList ++ foundText S.shared r0.search.tree.lookup.length, w⟩) := by
      have : searchGraphs X S.shared depth false r0.search = (.ok [.policy d], s.search) := by
        show (treePolicy X S.shared depth >>= fun d => pure [StartGraph.policy d]) r0.search = _
        rw [M.bind_of_ok htp]
        rfl
      unfold onPol onSearch
      rw [this]
    refine Eq.trans (M.bind_of_ok (show sayText "Exploring... [done]\n".toList ⟨r0, outs.flatten, w⟩ = (.ok (), ⟨r0, outs.flatten ++ "Exploring... [done]\n".toList, w⟩)
      from rfl)) ?_
    refine Eq.trans (M.bind_of_ok (show M.read (fun st : ExploreState Nat (List ℚ) => st.runner.search.tree.lookup.length)
      ⟨r0, outs.flatten ++ "Exploring... [done]\n".toList, w⟩ = (.ok r0.search.tree.lookup.length, ⟨r0, outs.flatten ++ "Exploring... [done]\n".toList, w⟩) from rfl)) ?_
    refine Eq.trans (M.bind_of_ok (show sayText (foundText S.shared r0.search.tree.lookup.length) ⟨r0, outs.flatten ++ "Exploring... [done]\n".toList, w⟩ =
      (.ok (), ⟨r0, outs.flatten ++ "Exploring... [done]\n".toList ++ foundText S.shared r0.search.tree.lookup.length, w⟩) from rfl)) ?_
    refine Eq.trans (M.bind_of_ok hg) ?_
    rw [hact, List.append_assoc]

/-! ### The end of the screen -/

/-- What is seen on the last lines. -/
theorem puts_done (above : List (List Char)) (line : List Char) : Screen.puts ⟨above, line, 0⟩ "Exploring... [done]\n".toList =
    ⟨above ++ ["Exploring... [done]".toList ++ line.drop 19], [], 0⟩ := by
  rw [show "Exploring... [done]\n".toList = "Exploring... [done]".toList ++ ['\n'] by decide, puts_append]
  have := puts_plain above "Exploring... [done]".toList [] line (by unfold Plain; decide)
  simp only [List.nil_append, List.length_nil, Nat.zero_add] at this
  rw [this, show "Exploring... [done]".toList.length = 19 by decide]
  rfl

theorem puts_found (above : List (List Char)) (k : Nat) : Screen.puts ⟨above, [], 0⟩ (foundText true k) =
    ⟨above ++ ["Found ".toList ++ showNat k ++ " distinct beliefs.".toList], [], 0⟩ := by
  have e : foundText true k = ("Found ".toList ++ showNat k ++ " distinct beliefs.".toList) ++ ['\n'] := by
    unfold foundText
    rw [if_pos rfl, show " distinct beliefs.\n".toList = " distinct beliefs.".toList ++ ['\n'] by decide]
    simp only [List.append_assoc]
  have hp : Plain ("Found ".toList ++ showNat k ++ " distinct beliefs.".toList) := by
    refine plain_append (plain_append (by unfold Plain; decide) ?_) (by unfold Plain; decide)
    intro ch hc
    exact plain_digit ((showNat_spec k).2.1 ch hc)
  rw [e, puts_append]
  have := puts_plain above _ [] [] hp
  simp only [List.nil_append, List.length_nil, Nat.zero_add, List.drop_nil, List.append_nil] at this
  rw [this]
  rfl

/-- The beliefs of the nodes are all different if they are shared. -/
def DifferentBeliefs (t : Tree (List ℚ)) : Prop := ∀ i j, i < t.size → j < t.size → (t.nodes i).belief = (t.nodes j).belief → i = j

/-- **C117**: for all the models with probabilities, with at least one iteration per action, the program ends without exception. During the search the line of
the cursor is always the status: the percentage, the action with the best estimate in the root and this estimate. The root has been visited at least
`n * iterations` times, all its actions have been tried, and the number of beliefs that is announced is the number of nodes of the tree, whose beliefs are
all different (it is at most `1 + n * iterations`). The file contains the policy of this tree, the actions, the states and the parameters of the exploration. No other
file is changed. -/
theorem C117_runs_partial (S : Search Nat (List ℚ) η) (m : η → Nat) (b : List ℚ) (it : Nat) (g : GoodSearch p nS nA nO u c S m b it) (hsh : S.shared = true)
    (rng n depth : Nat) (fmt : StatusFormat) (hplain : PlainTexts fmt p.actions) (X : Exporter Nat (List ℚ)) (hX : X.sim = S.sim)
    (hdepth : 1 + n * it < depth) (j : Json SearchFile) (states : List Name) (f : FilePath) (w : World)
    (hdir : w.disk.dirs f.dir = true) :
    ∃ (st : ExploreState Nat (List ℚ)) (outs statuses : List (List Char)) (d : PolicyDict) (t : Tree (List ℚ)),
      exploreProgram fmt j X S states it n depth f ⟨S.runner b rng, [], w⟩ = (.ok (), st) ∧ t = (searchAfter S b rng it n).search.tree ∧
      -- what is printed
      statuses.length = n ∧ (∀ (i : Nat) (s : List Char), statuses[i]? = some s → StatusOf fmt p.actions (searchAfter S b rng it i) i n s) ∧
      (∀ above, ShowsEach above outs statuses) ∧
      st.printed = outs.flatten ++ ("Exploring... [done]\nFound ".toList ++ showNat t.size ++ " distinct beliefs.\n".toList) ∧
      -- the tree
      n * it ≤ nodeVisits t 0 ∧ t.size ≤ 1 + n * it ∧ DifferentBeliefs t ∧ (0 < n → ∀ a < nA, 0 < actionVisits t 0 a) ∧
      SamePlusUntried t st.runner.search.tree ∧
      -- the file
      st.world.disk.files f = some (j.dumps (some 2) ⟨[.policy d], p.actions, states, S.exploration, S.relative⟩) ∧ PolicyOf X t 0 none d ∧
      st.world.disk.dirs = w.disk.dirs ∧ st.world.calls = w.calls ∧ ∀ e, e ≠ f → st.world.disk.files e = w.disk.files e := by
  obtain ⟨hinv, -⟩ := g.turns rng n
  obtain ⟨outs, statuses, d, r, e1, e2, e3, e4, e5, e6, e7⟩ := explore_run g rng n depth fmt hplain X hX (lt_of_le_of_lt hinv.size hdepth) j states f w
  have hn : S.sim.nActions = nA := by rw [g.sim]; exact g.model.1.2.1
  refine ⟨⟨r, outs.flatten ++ ("Exploring... [done]\n".toList ++ foundText S.shared (searchAfter S b rng it n).search.tree.lookup.length),
    ⟨(w.disk.write f []).write f (j.dumps (some 2) ⟨[.policy d], p.actions, states, S.exploration, S.relative⟩), w.calls⟩⟩, outs, statuses, d, _, ?_, rfl, e2, e3,
    e4, ?_, hinv.visits, hinv.size, fun i k hi hk hb => hinv.shape.inj hsh hi hk hb, ?_, e6, write_same _ _ _, e5, rfl, rfl, ?_⟩
  · rw [e7]
    have : saveJson j f (some 2) (⟨[.policy d], p.actions, states, S.exploration, S.relative⟩ : SearchFile) w =
        (.ok (), ⟨(w.disk.write f []).write f (j.dumps (some 2) ⟨[.policy d], p.actions, states, S.exploration, S.relative⟩), w.calls⟩) := by
      unfold saveJson
      have : openWrite f w = (.ok (), { w with disk := w.disk.write f [] }) := by
        unfold openWrite
        rw [if_pos hdir]
      rw [M.bind_of_ok this]
      rfl
    unfold onDisk
    rw [this]
  · show outs.flatten ++ _ = _
    rw [hinv.counted hsh, hsh]
    unfold foundText
    rw [if_pos rfl, show "Exploring... [done]\nFound ".toList = "Exploring... [done]\n".toList ++ "Found ".toList by decide]
    simp only [List.append_assoc]
  · intro h a ha
    obtain ⟨_, _, _, _, _, h3, _⟩ := hinv.last.2 h
    exact (h3 a (by rw [hn]; exact ha)).1
  · intro e he
    simp [Disk.write, he]

/-- **C117**: if the directory does not exist, then the search is lost: `OSError` is raised at the end, and the disk is unchanged. -/
theorem C117_no_directory (S : Search Nat (List ℚ) η) (m : η → Nat) (b : List ℚ) (it : Nat) (g : GoodSearch p nS nA nO u c S m b it)
    (rng n depth : Nat) (fmt : StatusFormat) (hplain : PlainTexts fmt p.actions) (X : Exporter Nat (List ℚ)) (hX : X.sim = S.sim)
    (hdepth : 1 + n * it < depth) (j : Json SearchFile) (states : List Name) (f : FilePath) (w : World)
    (hdir : w.disk.dirs f.dir = false) :
    ∃ st, exploreProgram fmt j X S states it n depth f ⟨S.runner b rng, [], w⟩ = (.error .osError, st) ∧ st.world = w := by
  obtain ⟨hinv, -⟩ := g.turns rng n
  obtain ⟨outs, statuses, d, r, e1, e2, e3, e4, e5, e6, e7⟩ := explore_run g rng n depth fmt hplain X hX (lt_of_le_of_lt hinv.size hdepth) j states f w
  refine ⟨⟨r, outs.flatten ++ ("Exploring... [done]\n".toList ++ foundText S.shared (searchAfter S b rng it n).search.tree.lookup.length), w⟩, ?_, rfl⟩
  rw [e7]
  have : saveJson j f (some 2) (⟨[.policy d], p.actions, states, S.exploration, S.relative⟩ : SearchFile) w = (.error .osError, w) := by
    unfold saveJson
    have : openWrite f w = (.error .osError, w) := by
      unfold openWrite
      rw [if_neg (by simp [hdir])]
    rw [M.bind_of_error this]
  unfold onDisk
  rw [this]

theorem statusOf_parts {fmt : StatusFormat} {actions : List Name} {r : SearchRunner Nat (List ℚ)} {i n : Nat} {s : List Char} (h : StatusOf fmt actions r i n s) :
    ∃ rest, s = "Exploring... [".toList ++ fmt.percent (i * 100 / n) ++ "%] (current best: ".toList ++ rest := by
  cases h with
  | first _ =>
      refine ⟨"None [".toList ++ fmt.value 0 ++ "])".toList, ?_⟩
      rw [show "%] (current best: None [".toList = "%] (current best: ".toList ++ "None [".toList by decide]
      simp only [List.append_assoc]
  | @next a name _ _ _ _ =>
      exact ⟨nameText name ++ " [".toList ++ fmt.value (actionValue r.search.tree 0 a) ++ "])".toList, by simp only [List.append_assoc]⟩

/-- **C117 is false for the last line of the search**: the line `Exploring... [done]` does not clear the last status, whose end stays visible behind it. -/
theorem C117_false_done (S : Search Nat (List ℚ) η) (m : η → Nat) (b : List ℚ) (it : Nat) (g : GoodSearch p nS nA nO u c S m b it) (hsh : S.shared = true)
    (rng n depth : Nat) (hn : 0 < n) (fmt : StatusFormat) (hplain : PlainTexts fmt p.actions)
    (hwidth : (fmt.percent (((n - 1 : Nat) : ℚ) * 100 / n)).length = 2) (X : Exporter Nat (List ℚ)) (hX : X.sim = S.sim)
    (hdepth : 1 + n * it < depth) (j : Json SearchFile) (states : List Name) (f : FilePath) (w : World)
    (hdir : w.disk.dirs f.dir = true) (above : List (List Char)) :
    ∃ st rest, exploreProgram fmt j X S states it n depth f ⟨S.runner b rng, [], w⟩ = (.ok (), st) ∧
      Screen.puts ⟨above, [], 0⟩ st.printed = ⟨above ++ ["Exploring... [done](current best: ".toList ++ rest,
        "Found ".toList ++ showNat (searchAfter S b rng it n).search.tree.size ++ " distinct beliefs.".toList], [], 0⟩ := by
  obtain ⟨st, outs, statuses, d, t, h1, rfl, h2, h3, h4, h5, -⟩ := C117_runs_partial S m b it g hsh rng n depth fmt hplain X hX hdepth j states f w hdir
  obtain ⟨hlen, hshow⟩ := h4 above
  have hlt : n - 1 < statuses.length := by omega
  obtain ⟨k, hk⟩ := hshow (n - 1) _ (List.getElem?_eq_getElem hlt)
  rw [List.take_of_length_le (by omega)] at hk
  obtain ⟨rest, hrest⟩ := statusOf_parts (h3 (n - 1) _ (List.getElem?_eq_getElem hlt))
  refine ⟨st, rest ++ List.replicate k ' ', h1, ?_⟩
  rw [h5, puts_append, hk]
  have e : "Exploring... [done]\nFound ".toList ++ showNat (searchAfter S b rng it n).search.tree.size ++ " distinct beliefs.\n".toList =
      "Exploring... [done]\n".toList ++ foundText true (searchAfter S b rng it n).search.tree.size := by
    unfold foundText
    rw [if_pos rfl, show "Exploring... [done]\nFound ".toList = "Exploring... [done]\n".toList ++ "Found ".toList by decide]
    simp only [List.append_assoc]
  rw [e, puts_append, puts_done, puts_found, hrest]
  have hdrop : ("Exploring... [".toList ++ fmt.percent (((n - 1 : Nat) : ℚ) * 100 / n) ++ "%] (current best: ".toList ++ rest ++ List.replicate k ' ').drop 19 =
      "(current best: ".toList ++ (rest ++ List.replicate k ' ') := by
    rw [show "%] (current best: ".toList = "%] ".toList ++ "(current best: ".toList by decide]
    have : "Exploring... [".toList ++ fmt.percent (((n - 1 : Nat) : ℚ) * 100 / n) ++ ("%] ".toList ++ "(current best: ".toList) ++ rest ++ List.replicate k ' ' =
        ("Exploring... [".toList ++ fmt.percent (((n - 1 : Nat) : ℚ) * 100 / n) ++ "%] ".toList) ++ ("(current best: ".toList ++ (rest ++ List.replicate k ' ')) := by
      simp only [List.append_assoc]
    rw [this, List.drop_left' (by
      simp only [List.length_append, hwidth]
      decide)]
  rw [hdrop]
  rw [show "Exploring... [done](current best: ".toList = "Exploring... [done]".toList ++ "(current best: ".toList by decide]
  simp only [List.append_assoc, List.cons_append, List.nil_append]

/-- **C117 is false for the script**: its imports raise `ImportError`, nothing is done. -/
theorem C117_false_import (env : SearchEnv) (root : List String) (w : World) : searchScript env root w = (.error .importError, w) := rfl

/-- Formats for the examples. -/
def shortFormat : StatusFormat := ⟨fun _ => "42".toList, fun _ => "1.0".toList⟩

/-- An encoder for the examples: nothing is written. -/
def silentJson : Json SearchFile := ⟨fun _ _ => [], fun _ => .error .valueError⟩

/-- The runner after the first turn with one iteration, for two actions. -/
def fewRunner : SearchRunner Nat (List ℚ) := (searchGetAction (armSearch 1 false) 1 ((armSearch 1 false).runner [1] 0)).2

theorem few_first : (searchGetAction (armSearch 1 false) 1 ((armSearch 1 false).runner [1] 0)).1.toOption = some (.str "bad") ∧
    fewRunner.last = some 1 ∧ (fewRunner.search.tree.nodes 0).children[1]?.map Option.isNone = some true := by
  refine ⟨?_, ?_, ?_⟩ <;> decide +kernel

/-- **C117 is false for few iterations**: with fewer iterations than actions, the best action can be one that has not been tried, and the status of the next turn
raises `AttributeError`. (Here there are two actions, and one iteration is made by turn.) -/
theorem C117_false_few (fmt : StatusFormat) (j : Json SearchFile) (n : Nat) (hn : 2 ≤ n) (depth : Nat) (f : FilePath) (w : World) :
    (exploreProgram fmt j (exporterOf (armSearch 1 false)) (armSearch 1 false) [.str "s"] 1 n depth f
      ⟨(armSearch 1 false).runner [1] 0, [], w⟩).1 = .error .attributeError := by
  obtain ⟨h1, h2, h3⟩ := few_first
  have h1' : searchGetAction (armSearch 1 false) 1 ((armSearch 1 false).runner [1] 0) = (.ok (.str "bad"), fewRunner) := by
    refine Prod.ext ?_ rfl
    rcases he : (searchGetAction (armSearch 1 false) 1 ((armSearch 1 false).runner [1] 0)).1 with e | x
    · rw [he] at h1; cases h1
    · rw [he] at h1
      injection h1 with h1
      rw [h1]
  obtain ⟨k, rfl⟩ := Nat.exists_eq_add_of_le hn
  have hturn := exploreTurn_run (S := armSearch 1 false) fmt (it := 1) (n := 2 + k) (i := 0) (x := (none, 0)) (v := 0)
    (st := ⟨(armSearch 1 false).runner [1] 0, [], w⟩) rfl h1'
  have herr : ∀ t, lastValue (⟨fewRunner, t, w⟩ : ExploreState Nat (List ℚ)) = (.error .attributeError, ⟨fewRunner, t, w⟩) := by
    intro t
    unfold lastValue
    simp only [h2]
    rcases hc : (fewRunner.search.tree.nodes 0).children[1]? with _ | _ | x
    · rw [hc] at h3; cases h3
    · rfl
    · rw [hc] at h3; cases h3
  have hturns : ∀ k' : Nat, ∃ st, exploreTurns fmt (armSearch 1 false) 1 (2 + k) (k' + 2) 0 (none, 0) ⟨(armSearch 1 false).runner [1] 0, [], w⟩ =
      (.error .attributeError, st) := by
    intro k'
    unfold exploreTurns
    rw [M.bind_of_ok hturn]
    unfold exploreTurns exploreTurn
    exact ⟨_, M.bind_of_error (M.bind_of_error (herr _))⟩
  obtain ⟨st, hst⟩ := hturns k
  unfold exploreProgram
  rw [show (2 + k) = k + 2 by omega] at hst ⊢
  rw [M.bind_of_error hst]

/-! ### The script -/

theorem search_goodTask : GoodTask searchParams stoolTask := by
  obtain ⟨h1, h2, h3, h4, -⟩ := stool_goodTask
  exact ⟨h1, h2, h3, h4, rfl, rfl, by decide +kernel, by decide +kernel, by decide +kernel⟩

theorem search_model (path : String) (exp : ℚ → ℚ) (fuel : Nat) (hd : 4 ≤ fuel) (p : Pomdp)
    (hp : htmToPomdp (some path) exp nameRadix searchParams fuel stoolTask = .ok p) :
    p.states.length = 29 ∧ p.actions.length = 37 ∧ ∀ a ∈ p.actions, Plain (nameText a) := by
  have hcd : callDepth stoolTask ≤ fuel := le_trans (by decide) hd
  obtain ⟨n', h1', ⟨hfn, -, -⟩, h4⟩ := htmToPomdp_ok (some path) exp nameRadix searchParams fuel stoolTask search_goodTask.1 search_goodTask.2.1 hcd
  rw [stoolTree_eq fuel hd] at h1'
  cases h1'
  rw [h4] at hp
  obtain ⟨_, _, _, _, est, _, es, ea, eo, _⟩ := htmConvert_ok path exp nameRadix searchParams stoolTree hfn p hp
  have hl : stoolTree.leaves.length = 9 := rfl
  refine ⟨?_, ?_, ?_⟩
  · rw [es, htm_states_length]
    unfold htmNS
    rw [hl]
    rfl
  · rw [ea, htm_actions_length, hl]
  · rw [ea]
    unfold Plain
    decide +kernel

/-- What the script assumes of what it depends on. -/
def GoodSearchEnv (env : SearchEnv) : Prop :=
  (∃ path, env.solver = some path) ∧ (∀ x ≤ 0, 0 ≤ env.exp x ∧ env.exp x ≤ 1) ∧ 4 ≤ env.depth ∧ 100 < env.fuel ∧ 100 ≤ env.bound ∧ 10001 < env.exportDepth ∧
  (∀ k, 0 ≤ env.u k ∧ env.u k < 1) ∧ (∀ x, Plain (env.fmt.percent x)) ∧ ∀ x, Plain (env.fmt.value x)

/-- **C117** for `samples/pomcp.py`, if its import is corrected: the model has 29 states and 37 actions; a hundred turns of a hundred iterations explore at most 10001
beliefs, and the policy that is found is saved. -/
theorem C117_stool_partial (env : SearchEnv) (root : List String) (w : World) (he : GoodSearchEnv env)
    (hdir : w.disk.dirs (root ++ ["visualization", "pomcp", "json"]) = true) :
    ∃ (p : Pomdp) (printed : List Char) (r : SearchRunner Nat (List ℚ)) (w' : World) (outs statuses : List (List Char)) (d : PolicyDict) (t : Tree (List ℚ)),
      searchScriptBody env root w = (.ok (printed, r), w') ∧ htmToPomdp env.solver env.exp nameRadix searchParams env.depth stoolTask = .ok p ∧
      p.states.length = 29 ∧ p.actions.length = 37 ∧ t = (searchAfter (scriptSearch env p) p.start 0 100 100).search.tree ∧
      statuses.length = 100 ∧
      (∀ (i : Nat) (s : List Char), statuses[i]? = some s → StatusOf env.fmt p.actions (searchAfter (scriptSearch env p) p.start 0 100 i) i 100 s) ∧
      (∀ above, ShowsEach above outs statuses) ∧
      printed = outs.flatten ++ ("Exploring... [done]\nFound ".toList ++ showNat t.size ++ " distinct beliefs.\n".toList) ∧
      10000 ≤ nodeVisits t 0 ∧ t.size ≤ 10001 ∧ DifferentBeliefs t ∧ (∀ a < 37, 0 < actionVisits t 0 a) ∧
      w'.disk.files ⟨root ++ ["visualization", "pomcp", "json"], "pomcp.json"⟩ =
        some (env.json.dumps (some 2) ⟨[.policy d], p.actions, p.states, 1, true⟩) ∧ PolicyOf (scriptExporter env p) t 0 none d ∧
      w'.disk.dirs = w.disk.dirs ∧ w'.calls = w.calls ∧
      ∀ e, e ≠ ⟨root ++ ["visualization", "pomcp", "json"], "pomcp.json"⟩ → w'.disk.files e = w.disk.files e := by
  obtain ⟨⟨path, hpath⟩, hexp, hd, hfuel, hbound, hexport, hu, hf1, hf2⟩ := he
  have hcd : callDepth stoolTask ≤ env.depth := le_trans (by decide) hd
  obtain ⟨p, nS, nA, nO, p1, p2, p3, p4, p5, p6⟩ := goodTask_pomdp path env.exp searchParams env.depth stoolTask search_goodTask hexp hcd
  obtain ⟨m1, m2, m3⟩ := search_model path env.exp env.depth hd p p1
  rw [← hpath] at p1
  have hnA : nA = 37 := by rw [← m2]; exact p2.1.2.1.symm
  have hg : GoodSearch p nS nA nO env.u env.c (scriptSearch env p) Int.toNat p.start 100 :=
    ⟨p2, by omega, hu, rfl, nTransitions_bounded, Nat.zero_lt_one, hfuel, hbound, rfl, p4, by omega⟩
  obtain ⟨st, outs, statuses, d, t, e1, e2, e3, e4, e5, e6, e7, e8, e9, e10, e11, e12, e14, e15, e16, e17⟩ :=
    C117_runs_partial (scriptSearch env p) Int.toNat p.start 100 hg rfl 0 100 env.exportDepth env.fmt ⟨hf1, hf2, m3⟩ (scriptExporter env p) rfl
      (by omega) env.json p.states (searchFile root) w hdir
  refine ⟨p, st.printed, st.runner, st.world, outs, statuses, d, t, ?_, p1, m1, m2, e2, e3, e4, e5, e6, e7, e8, e9, ?_, e12, e14, e15, e16, e17⟩
  · unfold searchScriptBody
    rw [M.bind_run]
    simp only [M.lift, p1]
    rw [M.bind_run]
    simp only [M.lift, dist_normal p4]
    unfold runExplore
    rw [e1]
    rfl
  · intro a ha
    exact e10 (by omega) a (by omega)

/-! ### Non-vacuity -/

/-- Non-vacuity of C117: the corrected script runs. -/
example : ∃ r w', searchScriptBody ⟨shortFormat, silentJson, some "pomdp-solve", fun _ => 1 / 2, 10, 1000, 1000, 20000, fun _ _ => 0, fun _ => 1 / 2, fun k => k⟩ ["repo"]
    ⟨repoDisk, []⟩ = (.ok r, w') := by
  obtain ⟨p, printed, r, w', _, _, _, _, h, _⟩ := C117_stool_partial
    ⟨shortFormat, silentJson, some "pomdp-solve", fun _ => 1 / 2, 10, 1000, 1000, 20000, fun _ _ => 0, fun _ => 1 / 2, fun k => k⟩ ["repo"] ⟨repoDisk, []⟩
    ⟨⟨_, rfl⟩, fun _ _ => by norm_num, show 4 ≤ 10 by decide, show 100 < 1000 by decide, show 100 ≤ 1000 by decide, show 10001 < 20000 by decide,
      fun _ => by norm_num, fun _ => by show Plain "42".toList; unfold Plain; decide, fun _ => by show Plain "1.0".toList; unfold Plain; decide⟩
    (by simp [repoDisk])
  exact ⟨_, w', h⟩

/-- The last line of this script, with a format of width 2. -/
example : ∃ st rest, exploreProgram shortFormat silentJson (exporterOf { armSearch 1 false with shared := true }) { armSearch 1 false with shared := true } [.str "s"] 2 3 10
      ⟨["repo"], "f"⟩ ⟨({ armSearch 1 false with shared := true } : Search Nat (List ℚ) Int).runner [1] 0, [], ⟨repoDisk, []⟩⟩ = (.ok (), st) ∧
    Screen.puts ⟨[], [], 0⟩ st.printed = ⟨["Exploring... [done](current best: ".toList ++ rest, "Found 1 distinct beliefs.".toList], [], 0⟩ := by
  have hp : Stochastic twoArms 1 2 1 := by
    refine ⟨by simp [Shaped, twoArms, Pomdp.states, Pomdp.actions, Pomdp.observations, Names.asList], ?_, ?_⟩ <;>
      (intro i _ j _; exact ⟨fun _ _ => by norm_num [twoArms], by simp [twoArms, sumRange, List.range_succ]⟩)
  obtain ⟨st, rest, h1, h2⟩ := C117_false_done (p := twoArms) (nS := 1) (nA := 2) (nO := 1) (u := fun _ => 0) (c := fun _ => 0)
    { armSearch 1 false with shared := true } Int.toNat [1] 2
    ⟨hp, by omega, fun _ => by norm_num, rfl, nTransitions_bounded, by decide, by decide, by decide, rfl,
      ⟨rfl, by decide +kernel, by simp [sumRange, List.range_succ]⟩, le_refl _⟩
    rfl 0 3 10 (by omega) shortFormat ⟨fun _ => by show Plain "42".toList; unfold Plain; decide, fun _ => by show Plain "1.0".toList; unfold Plain; decide,
      by unfold Plain; decide +kernel⟩ rfl (exporterOf { armSearch 1 false with shared := true }) rfl (by omega) silentJson [.str "s"] ⟨["repo"], "f"⟩ ⟨repoDisk, []⟩
      (by simp [repoDisk]) []
  refine ⟨st, rest, h1, h2.trans ?_⟩
  have : (searchAfter { armSearch 1 false with shared := true } [1] 0 2 3).search.tree.size = 1 := by decide +kernel
  rw [this]
  rfl

end Verif
