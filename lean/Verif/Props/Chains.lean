import Verif.Proof.ChainsBound
import Verif.Props.TaskGraph

/-! Properties C09 and C10 (maximal chains). -/

set_option linter.unusedSectionVars false
set_option linter.unusedSimpArgs false

namespace Verif
open Spec BaseGraph Chains
variable {A S : Type} [DecidableEq A] [DecidableEq S]

/-- **C09.**  Whatever the iteration orders and the popped elements, every chain yielded at any point of any execution
has at least two nodes, consecutive nodes are linked (edge, only successor, only predecessor), it cannot be extended to
the right, and it cannot be extended to the left unless it starts at the initial node. -/
theorem C09_sound (ops : List (GraphOp A S)) (order : List (A × S × A)) (nodeOrder : List A) (ini : A)
    (ho : order.Perm (runOps {} ops : BaseGraph A S).allTransitions) (hno : nodeOrder.Perm (allNodes order)) :
    ∃ ut indeg, degrees nodeOrder order = .ok (ut, indeg) ∧
      ∀ n c outs, Exec ut indeg ini n c outs → ∀ ch ∈ outs,
        2 ≤ ch.length ∧ Linked (runOps {} ops) ch ∧ RightMax (runOps {} ops) ch ∧
        (ch.head? ≠ some ini → LeftMax (runOps {} ops) ch) := by
  have hw : WF (runOps {} ops : BaseGraph A S) := runOps_wf _ wf_empty ops
  obtain ⟨ut, indeg, h1, T⟩ := tables_of_degrees hw ho hno
  refine ⟨ut, indeg, h1, ?_⟩
  intro n c outs hex ch hch
  obtain ⟨h2, h3, h4, h, hh, h5⟩ := (exec_inv T hex).outs ch hch
  refine ⟨h2, h3, h4, ?_⟩
  intro hne h' hh'
  rw [hh] at hh'
  cases hh'
  rcases h5 with rfl | h5
  · exact absurd hh hne
  · exact h5

/-- **C09 (corollary).**  If the initial node has no incoming transition (as in a conjugate graph whose actions are not
named like it), every yielded chain is a maximal chain. -/
theorem C09_maximal (ops : List (GraphOp A S)) (order : List (A × S × A)) (nodeOrder : List A) (ini : A)
    (ho : order.Perm (runOps {} ops : BaseGraph A S).allTransitions) (hno : nodeOrder.Perm (allNodes order))
    (hini : ∀ u, ¬ Edge (runOps {} ops : BaseGraph A S) u ini) :
    ∃ ut indeg, degrees nodeOrder order = .ok (ut, indeg) ∧
      ∀ n c outs, Exec ut indeg ini n c outs → ∀ ch ∈ outs, MaxChain (runOps {} ops) ch := by
  obtain ⟨ut, indeg, h1, h2⟩ := C09_sound ops order nodeOrder ini ho hno
  refine ⟨ut, indeg, h1, ?_⟩
  intro n c outs hex ch hch
  obtain ⟨h3, h4, h5, h6⟩ := h2 n c outs hex ch hch
  refine ⟨h3, h4, h5, ?_⟩
  intro h hh
  by_cases hi : h = ini
  · subst hi
    rintro ⟨w, hw⟩
    exact hini w hw.1
  · exact h6 (by rw [hh]; simpa using hi) h hh

/-- **C09 (no failure).**  If the initial node occurs in some transition, no iteration raises: every execution that
is not finished can go on with every pending node. -/
theorem C09_no_error (ops : List (GraphOp A S)) (order : List (A × S × A)) (nodeOrder : List A) (ini : A)
    (ho : order.Perm (runOps {} ops : BaseGraph A S).allTransitions) (hno : nodeOrder.Perm (allNodes order))
    (hini : ∃ u, Edge (runOps {} ops : BaseGraph A S) u ini ∨ Edge (runOps {} ops : BaseGraph A S) ini u) :
    ∃ ut indeg, degrees nodeOrder order = .ok (ut, indeg) ∧
      ∀ n c outs choice, Exec ut indeg ini n c outs → (c.chain = none → choice ∈ c.toExplore) →
        ∃ r, step ut indeg c choice = .ok r := by
  have hw : WF (runOps {} ops : BaseGraph A S) := runOps_wf _ wf_empty ops
  obtain ⟨ut, indeg, h1, T⟩ := tables_of_degrees hw ho hno
  refine ⟨ut, indeg, h1, ?_⟩
  intro n c outs choice hex hch
  have I := exec_inv T hex
  refine step_ok T c choice ?_ I.chainLast
  intro hc
  rcases I.pendDom choice (hch hc) with rfl | h
  · obtain ⟨u, hu⟩ := hini
    exact (T.dom _).1 ⟨u, hu.symm⟩
  · exact h

/-- Non-vacuity of C09: the graph `0 → 1 → 2 → {3, 4}` and an execution that yields `[0, 1, 2]`. -/
example : ∃ ut indeg c,
    degrees [0, 1, 2, 3, 4] [(0, 'a', 1), (1, 'b', 2), (2, 'c', 3), (2, 'c', 4), (1, 'd', 2)] = .ok (ut, indeg) ∧
    Exec ut indeg 0 3 c [[0, 1, 2]] := by
  refine ⟨[(0, [1]), (1, [2]), (2, [3, 4]), (3, []), (4, [])], [(1, 1), (2, 1), (3, 1), (4, 1)],
    ⟨[3, 4], [0, 1, 2], none⟩, by decide, ?_⟩
  have h0 : Exec [(0, [1]), (1, [2]), (2, [3, 4]), (3, []), (4, [])] [(1, 1), (2, 1), (3, 1), (4, 1)] 0 0 (start 0) [] :=
    .init
  have h1 := Exec.step (c' := ⟨[], [0], some [0]⟩) (y := none) 0 h0 rfl (fun _ => by simp [start]) rfl
  have h2 := Exec.step (c' := ⟨[], [0, 1], some [0, 1]⟩) (y := none) 0 h1 rfl (fun h => by simp at h) rfl
  exact Exec.step (c' := ⟨[3, 4], [0, 1, 2], none⟩) (y := some [0, 1, 2]) 0 h2 rfl (fun h => by simp at h) rfl

/-- **C10 (partial, termination).**  If no cycle of nodes with a single successor can be reached from the initial node,
every execution ends, after a number of iterations that is at most cubic in the number of nodes, whatever the popped
elements.  (Missing: the graphs with such a cycle, on which the generator never ends, `C10_loops_partial`.) -/
theorem C10_terminates_partial (ops : List (GraphOp A S)) (order : List (A × S × A)) (nodeOrder : List A) (ini : A)
    (ho : order.Perm (runOps {} ops : BaseGraph A S).allTransitions) (hno : nodeOrder.Perm (allNodes order))
    (hl : ¬ ForcedLoop (runOps {} ops : BaseGraph A S) ini) :
    ∃ ut indeg, degrees nodeOrder order = .ok (ut, indeg) ∧
      ∀ n c outs, Exec ut indeg ini n c outs →
        n ≤ (nodeOrder.length * (2 * nodeOrder.length + 2) + 1) * nodeOrder.length + (2 * nodeOrder.length + 2) := by
  have hw : WF (runOps {} ops : BaseGraph A S) := runOps_wf _ wf_empty ops
  obtain ⟨ut, indeg, h1, T⟩ := tables_of_degrees hw ho hno
  have hmem := mem_nodeOrder hw ho hno
  refine ⟨ut, indeg, h1, ?_⟩
  intro n c outs hex
  by_cases hini : ini ∈ nodeOrder
  · exact exec_le T hini (hno.nodup_iff.2 (nodup_allNodes _ _ List.nodup_nil))
      (fun u v he => (hmem v).2 ⟨u, Or.inr he⟩) hl hex
  · have h0 : n = 0 := by
      have key : ∀ n c outs, Exec ut indeg ini n c outs → n = 0 ∧ c = start ini := by
        intro n c outs hex
        induction hex with
        | init => exact ⟨rfl, rfl⟩
        | step choice _ hf hch hs ih =>
          obtain ⟨_, rfl⟩ := ih
          have hc := hch rfl
          simp [start] at hc
          subst hc
          cases stepCase_of_step T hs with
          | begin m hc hd => exact absurd ((hmem _).2 ((T.dom _).2 ⟨_, hd⟩)) hini
          | branch ds hc hd hl => exact absurd ((hmem _).2 ((T.dom _).2 ⟨_, hd⟩)) hini
          | extend ch z w v hc => cases hc
          | close ch z w ds hc => cases hc
          | join ch z w hc => cases hc
      exact (key n c outs hex).1
    omega

/-- **C10 (partial, non termination).**  If a cycle of nodes with a single successor can be reached from the initial
node, no execution ends: whatever the popped elements, the loop goes on after any number of iterations. -/
theorem C10_loops_partial (ops : List (GraphOp A S)) (order : List (A × S × A)) (nodeOrder : List A) (ini : A)
    (ho : order.Perm (runOps {} ops : BaseGraph A S).allTransitions) (hno : nodeOrder.Perm (allNodes order))
    (hl : ForcedLoop (runOps {} ops : BaseGraph A S) ini) :
    ∃ ut indeg, degrees nodeOrder order = .ok (ut, indeg) ∧
      ∀ n c outs, Exec ut indeg ini n c outs → c.finished = false ∧
        (∀ choice, (c.chain = none → choice ∈ c.toExplore) → ∃ c' y, step ut indeg c choice = .ok (c', y)) ∧
        ∃ choice c' y, Exec ut indeg ini (n + 1) c' (outs ++ y.toList) ∧ step ut indeg c choice = .ok (c', y) := by
  have hw : WF (runOps {} ops : BaseGraph A S) := runOps_wf _ wf_empty ops
  obtain ⟨ut, indeg, h1, T⟩ := tables_of_degrees hw ho hno
  refine ⟨ut, indeg, h1, ?_⟩
  intro n c outs hex
  have hf := not_finished_of_loop T hex hl
  have I := exec_inv T hex
  have hini : ∃ ds, dget ut ini = some ds := by
    obtain ⟨u, hr, hu⟩ := hl
    have : ∃ m, Edge (runOps {} ops : BaseGraph A S) ini m := by
      have key : ∀ x, Reachable (runOps {} ops : BaseGraph A S) ini x → x = ini ∨
          ∃ m, Edge (runOps {} ops : BaseGraph A S) ini m := by
        intro x hx
        induction hx with
        | refl => exact Or.inl rfl
        | tail _ he ih =>
          rcases ih with rfl | h
          · exact Or.inr ⟨_, he⟩
          · exact Or.inr h
      rcases key u hr with rfl | h
      · obtain ⟨m, hm, _⟩ := hu.head
        exact ⟨m, hm.1⟩
      · exact h
    obtain ⟨m, hm⟩ := this
    exact (T.dom ini).1 ⟨m, Or.inl hm⟩
  have hstep : ∀ choice, (c.chain = none → choice ∈ c.toExplore) → ∃ c' y, step ut indeg c choice = .ok (c', y) := by
    intro choice hch
    obtain ⟨⟨c', y⟩, hs⟩ := step_ok T c choice (by
      intro hc
      rcases I.pendDom choice (hch hc) with rfl | h
      · exact hini
      · exact h) I.chainLast
    exact ⟨c', y, hs⟩
  refine ⟨hf, hstep, ?_⟩
  have hchoice : ∃ choice, c.chain = none → choice ∈ c.toExplore := by
    rcases hte : c.toExplore with _ | ⟨x, r⟩
    · refine ⟨ini, ?_⟩
      intro hc
      simp [Cfg.finished, hte, hc] at hf
    · exact ⟨x, fun _ => by simp⟩
  obtain ⟨choice, hch⟩ := hchoice
  obtain ⟨c', y, hs⟩ := hstep choice hch
  exact ⟨choice, c', y, .step choice hex hf hch hs, hs⟩

/-- Non-vacuity of `C10_terminates_partial`: the graph `0 → 1 → {0, 2}` has a cycle, but `1` has two successors. -/
example : ¬ ForcedLoop (runOps {} [.add 0 'a' 1, .add 1 'b' 0, .add 1 'c' 2] : BaseGraph Nat Char) 0 := by
  have hE : ∀ u v, Edge (runOps {} [.add 0 'a' 1, .add 1 'b' 0, .add 1 'c' 2] : BaseGraph Nat Char) u v ↔
      (u = 0 ∧ v = 1) ∨ (u = 1 ∧ v = 0) ∨ (u = 1 ∧ v = 2) := by
    intro u v
    unfold Edge
    rw [show (runOps {} [.add 0 'a' 1, .add 1 'b' 0, .add 1 'c' 2] : BaseGraph Nat Char) =
      ((({} : BaseGraph Nat Char).addTransition 0 'a' 1).addTransition 1 'b' 0).addTransition 1 'c' 2 from rfl]
    simp only [has_add]
    simp [hasTransition, dget]
    constructor
    · rintro ⟨l, (h | h) | h⟩ <;> simp_all
    · rintro (h | h | h)
      · exact ⟨'a', by simp [h]⟩
      · exact ⟨'b', by simp [h]⟩
      · exact ⟨'c', by simp [h]⟩
  have h1 : ∀ v, ¬ OnlySucc (runOps {} [.add 0 'a' 1, .add 1 'b' 0, .add 1 'c' 2] : BaseGraph Nat Char) 1 v := by
    rintro v ⟨_, h⟩
    have e1 := h 0 ((hE 1 0).2 (by simp))
    have e2 := h 2 ((hE 1 2).2 (by simp))
    omega
  rintro ⟨u, _, hu⟩
  obtain ⟨m, hm, h2⟩ := hu.head
  rcases (hE u m).1 hm.1 with ⟨rfl, rfl⟩ | ⟨rfl, rfl⟩ | ⟨rfl, rfl⟩
  · rcases h2 with h2 | h2
    · cases h2
    · obtain ⟨x, hx, _⟩ := h2.head
      exact h1 x hx
  · exact h1 _ hm
  · exact h1 _ hm

/-- **C10 (partial, completeness).**  On any graph, an execution that ends has yielded every maximal chain whose first
node is reachable from the initial node, at least once. -/
theorem C10_complete_partial (ops : List (GraphOp A S)) (order : List (A × S × A)) (nodeOrder : List A) (ini : A)
    (ho : order.Perm (runOps {} ops : BaseGraph A S).allTransitions) (hno : nodeOrder.Perm (allNodes order)) :
    ∃ ut indeg, degrees nodeOrder order = .ok (ut, indeg) ∧
      ∀ n c outs, Exec ut indeg ini n c outs → c.finished = true →
        ∀ ch h, MaxChain (runOps {} ops) ch → ch.head? = some h → Reachable (runOps {} ops) ini h → ch ∈ outs := by
  have hw : WF (runOps {} ops : BaseGraph A S) := runOps_wf _ wf_empty ops
  obtain ⟨ut, indeg, h1, T⟩ := tables_of_degrees hw ho hno
  exact ⟨ut, indeg, h1, fun n c outs hex hf ch h hm hh hr => complete T hex hf ch hm ⟨h, hh, hr⟩⟩

/-- The tables computed for the graph `0 → 1`, `1 → 2`, `2 → 1`. -/
def loopUt : List (Nat × List Nat) := [(0, [1]), (1, [2]), (2, [1])]
/-- See `loopUt`. -/
def loopIn : List (Nat × Nat) := [(1, 2), (2, 1)]

theorem loop_exec (n : Nat) (c : Cfg Nat) (outs : List (List Nat)) (h : Exec loopUt loopIn 0 n c outs) :
    (c.toExplore = [0] ∧ c.chain = none) ∨ (c.toExplore = [] ∧ c.chain = some [0]) ∨
    (c.toExplore = [1] ∧ c.chain = none) ∨ (c.toExplore = [] ∧ c.chain = some [1]) ∨
    (c.toExplore = [] ∧ c.chain = some [1, 2]) := by
  induction h with
  | init => left; exact ⟨rfl, rfl⟩
  | @step n c outs c' y choice _ hf hch hs ih =>
    rcases ih with ⟨h1, h2⟩ | ⟨h1, h2⟩ | ⟨h1, h2⟩ | ⟨h1, h2⟩ | ⟨h1, h2⟩
    · have hc := hch h2
      rw [h1] at hc
      simp at hc
      subst hc
      simp [step, h1, h2, loopUt, loopIn, dget] at hs
      obtain ⟨rfl, _⟩ := hs
      simp
    · simp [step, h1, h2, loopUt, loopIn, dget, setAdd] at hs
      obtain ⟨rfl, _⟩ := hs
      simp
    · have hc := hch h2
      rw [h1] at hc
      simp at hc
      subst hc
      simp [step, h1, h2, loopUt, loopIn, dget] at hs
      obtain ⟨rfl, _⟩ := hs
      simp
    · simp [step, h1, h2, loopUt, loopIn, dget, setAdd] at hs
      obtain ⟨rfl, _⟩ := hs
      simp [h1]
    · simp [step, h1, h2, loopUt, loopIn, dget, setAdd] at hs
      obtain ⟨rfl, _⟩ := hs
      simp

/-- **C10 is false of the code, termination.**  On the graph `0 → 1 → 2 → 1` no execution ever finishes, and the
generator yields the chain `[1, 2]` any number of times. -/
theorem C10_false_termination :
    degrees [0, 1, 2] [(0, 'a', 1), (1, 'b', 2), (2, 'c', 1)] = .ok (loopUt, loopIn) ∧
    (∀ n c outs, Exec loopUt loopIn 0 n c outs → c.finished = false) ∧
    ∀ k, ∃ n c outs, Exec loopUt loopIn 0 n c outs ∧ outs = List.replicate k [1, 2] := by
  refine ⟨by decide, ?_, ?_⟩
  · intro n c outs h
    rcases loop_exec n c outs h with ⟨h1, h2⟩ | ⟨h1, h2⟩ | ⟨h1, h2⟩ | ⟨h1, h2⟩ | ⟨h1, h2⟩ <;>
      simp [Cfg.finished, h1, h2]
  · have key : ∀ k, ∃ n c outs, Exec loopUt loopIn 0 n c outs ∧ outs = List.replicate k [1, 2] ∧
        c.toExplore = [1] ∧ c.chain = none := by
      intro k
      induction k with
      | zero =>
        have h0 : Exec loopUt loopIn 0 0 (start 0) [] := .init
        have h1 := Exec.step (c' := ⟨[], [0], some [0]⟩) (y := none) 0 h0 rfl (fun _ => by simp [start]) rfl
        have h2 := Exec.step (c' := ⟨[1], [0], none⟩) (y := none) 0 h1 rfl (fun h => by simp at h) rfl
        exact ⟨_, _, _, h2, rfl, rfl, rfl⟩
      | succ k ih =>
        obtain ⟨n, c, outs, hex, rfl, hte, hch⟩ := ih
        obtain ⟨te, ex, chn⟩ := c
        simp only at hte hch
        subst hte hch
        have h1 := Exec.step (c' := ⟨[], setAdd ex 1, some [1]⟩) (y := none) 1 hex rfl (fun _ => by simp)
          (by simp [step, loopUt, dget])
        have h2 := Exec.step (c' := ⟨[], setAdd (setAdd ex 1) 2, some [1, 2]⟩) (y := none) 0 h1 rfl
          (fun h => by simp at h) (by simp [step, loopUt, loopIn, dget])
        have h3 := Exec.step (c' := ⟨[1], setAdd (setAdd ex 1) 2, none⟩) (y := some [1, 2]) 0 h2 rfl
          (fun h => by simp at h) (by simp [step, loopUt, loopIn, dget, setAdd])
        exact ⟨_, _, _, h3, by simp [List.replicate_succ'], rfl, rfl⟩
    intro k
    obtain ⟨n, c, outs, h, h', _⟩ := key k
    exact ⟨n, c, outs, h, h'⟩

/-- **C10 is false of the code, uniqueness.**  On the acyclic graph `0 → {1, 2}`, `1 → 3`, `2 → 3`, `3 → 4`, one order
of popping yields the chain `[3, 4]` twice and another one yields it once. -/
theorem C10_false_once :
    ∃ ut indeg c c' n n',
      degrees [0, 1, 2, 3, 4] [(0, 'a', 1), (0, 'b', 2), (1, 'c', 3), (2, 'd', 3), (3, 'e', 4)] = .ok (ut, indeg) ∧
      Exec ut indeg 0 n c [[3, 4], [3, 4]] ∧ c.finished = true ∧
      Exec ut indeg 0 n' c' [[3, 4]] ∧ c'.finished = true := by
  refine ⟨[(0, [1, 2]), (1, [3]), (2, [3]), (3, [4]), (4, [])], [(1, 1), (2, 1), (3, 2), (4, 1)],
    ⟨[], [0, 1, 3, 4, 2], none⟩, ⟨[], [0, 1, 2, 3, 4], none⟩, 9, 7, by decide, ?_, rfl, ?_, rfl⟩
  · have h0 : Exec [(0, [1, 2]), (1, [3]), (2, [3]), (3, [4]), (4, [])] [(1, 1), (2, 1), (3, 2), (4, 1)] 0 0
        (start 0) [] := .init
    have h1 := Exec.step (c' := ⟨[1, 2], [0], none⟩) (y := none) 0 h0 rfl (fun _ => by decide) rfl
    have h2 := Exec.step (c' := ⟨[2], [0, 1], some [1]⟩) (y := none) 1 h1 rfl (fun _ => by decide) rfl
    have h3 := Exec.step (c' := ⟨[2, 3], [0, 1], none⟩) (y := none) 0 h2 rfl (fun h => by simp at h) rfl
    have h4 := Exec.step (c' := ⟨[2], [0, 1, 3], some [3]⟩) (y := none) 3 h3 rfl (fun _ => by decide) rfl
    have h5 := Exec.step (c' := ⟨[2], [0, 1, 3, 4], none⟩) (y := some [3, 4]) 0 h4 rfl (fun h => by simp at h) rfl
    have h6 := Exec.step (c' := ⟨[], [0, 1, 3, 4, 2], some [2]⟩) (y := none) 2 h5 rfl (fun _ => by decide) rfl
    have h7 := Exec.step (c' := ⟨[3], [0, 1, 3, 4, 2], none⟩) (y := none) 0 h6 rfl (fun h => by simp at h) rfl
    have h8 := Exec.step (c' := ⟨[], [0, 1, 3, 4, 2], some [3]⟩) (y := none) 3 h7 rfl (fun _ => by decide) rfl
    exact Exec.step (c' := ⟨[], [0, 1, 3, 4, 2], none⟩) (y := some [3, 4]) 0 h8 rfl (fun h => by simp at h) rfl
  · have h0 : Exec [(0, [1, 2]), (1, [3]), (2, [3]), (3, [4]), (4, [])] [(1, 1), (2, 1), (3, 2), (4, 1)] 0 0
        (start 0) [] := .init
    have h1 := Exec.step (c' := ⟨[1, 2], [0], none⟩) (y := none) 0 h0 rfl (fun _ => by decide) rfl
    have h2 := Exec.step (c' := ⟨[2], [0, 1], some [1]⟩) (y := none) 1 h1 rfl (fun _ => by decide) rfl
    have h3 := Exec.step (c' := ⟨[2, 3], [0, 1], none⟩) (y := none) 0 h2 rfl (fun h => by simp at h) rfl
    have h4 := Exec.step (c' := ⟨[3], [0, 1, 2], some [2]⟩) (y := none) 2 h3 rfl (fun _ => by decide) rfl
    have h5 := Exec.step (c' := ⟨[3], [0, 1, 2], none⟩) (y := none) 0 h4 rfl (fun h => by simp at h) rfl
    have h6 := Exec.step (c' := ⟨[], [0, 1, 2, 3], some [3]⟩) (y := none) 3 h5 rfl (fun _ => by decide) rfl
    exact Exec.step (c' := ⟨[], [0, 1, 2, 3, 4], none⟩) (y := some [3, 4]) 0 h6 rfl (fun h => by simp at h) rfl

end Verif
