import Verif.Proof.StartTrees

/-! `trajectory_trees_from_starts` with several start states, `lib/pomdp.py:505-513` (C48). -/

set_option linter.unusedSectionVars false
set_option linter.unusedSimpArgs false

namespace Verif
open Spec

/-- C48, for all models: there is one tree.  At its root the belief has 1 for each possible start state; below it lists exactly the possible futures of an agent for
which all possible start states have the same probability, whatever the probabilities that the model gives them. -/
theorem C48_several_partial (g : GraphPolicy) (p : Pomdp) (nS nA nO : Nat) (hp : Stochastic p nS nA nO) (hf : Fits g p nS) (hd : NamesDistinct p)
    (hs : ∃ x ∈ p.start, x ≠ 0) (horizon : Nat) (r : BRunner) :
    ∃ t r', treesFromStarts g p horizon r = (.ok [t], r') ∧ (∀ i < nS, (TTree.beliefOf t).getD i 0 = if p.start.getD i 0 = 0 then 0 else 1) ∧
      IsDist nS (evenStart p.start) ∧ TreeOf g p nS horizon (evenStart p.start) (TTree.withBelief (evenStart p.start) t) := by
  obtain ⟨_, _, _, hl, _⟩ := hp.1
  obtain ⟨pos, e⟩ := evenStart_times p.start hs
  have hdist := evenStart_dist p.start hl hs
  obtain ⟨n, h1, m, h2, h3⟩ := bReset_ok g p nS hf (evenStart p.start) hdist.1 r
  have hv : BRunner.Valid g nS ⟨evenStart p.start, n⟩ := ⟨hdist, m, h2, h3⟩
  obtain ⟨t, t1, t2, t3⟩ := trajectoryTree_times pos hp hf hd horizon _ hv
  have b1 := bReset_times (r' := r) pos h1
  rw [← e] at b1 t3
  refine ⟨TTree.withBelief (startIndicator p.start) t, ⟨startIndicator p.start, n⟩, ?_, ?_, hdist, ?_⟩
  · unfold treesFromStarts
    rw [b1]
    simp only [t3]
  · intro i hi
    obtain ⟨_, _, _, _, _⟩ := t
    show (startIndicator p.start).getD i 0 = _
    simp only [startIndicator, List.getD_eq_getElem?_getD, List.getElem?_map]
    rw [List.getElem?_eq_getElem (by omega)]
    rfl
  · obtain ⟨b, a, c, obs, ch⟩ := t
    obtain ⟨-, hist, b', q1, q2, -⟩ := (t2 []).1 _ rfl
    cases q1
    have q2 : b = evenStart p.start := q2
    subst q2
    exact t2

theorem tigerUneven_tree : treesFromStarts tigerPolicy { tiger with start := [3 / 4, 1 / 4] } 0 ⟨[], 0⟩ =
    (.ok [.node [1, 1] (.str "listen") 0 [] []], ⟨[1, 1], 0⟩) := by
  have h1 : bReset tigerPolicy (startIndicator (Pomdp.start { tiger with start := [3 / 4, 1 / 4] })) ⟨[], 0⟩ = (.ok (), ⟨[1, 1], 0⟩) := by decide +kernel
  unfold treesFromStarts
  rw [h1]
  rfl

/-- Non-vacuity of C48: with the start [3/4, 1/4] the tree for the tiger is that of an agent which believes [1/2, 1/2]; the root has [1, 1]. -/
example : Stochastic { tiger with start := [3 / 4, 1 / 4] } 2 3 2 ∧ Fits tigerPolicy { tiger with start := [3 / 4, 1 / 4] } 2 ∧
    NamesDistinct { tiger with start := [3 / 4, 1 / 4] } ∧ evenStart [3 / 4, 1 / 4] = [1 / 2, 1 / 2] ∧
    ∃ t r, treesFromStarts tigerPolicy { tiger with start := [3 / 4, 1 / 4] } 0 ⟨[], 0⟩ = (.ok [t], r) ∧ TTree.beliefOf t = [1, 1] := by
  refine ⟨?_, tigerPolicy_fits, ⟨by decide, by decide⟩, by decide +kernel, _, _, tigerUneven_tree, rfl⟩
  obtain ⟨⟨h1, h2, h3, h4, h5⟩, h6⟩ := tiger_stochastic
  exact ⟨⟨h1, h2, h3, rfl, h5⟩, h6⟩

end Verif
