import Verif.Proof.TreeShape
import Verif.Props.Export

/-! The histories and the nodes of a search (C90). -/

set_option linter.unusedSectionVars false

namespace Verif
open Spec
variable {σ β η : Type} [DecidableEq β]

theorem shape_of (S : Search σ β η) (b : β) (rng : σ) (ops : List TreeOp) :
    TInv S b (runTreeOps S (S.start b rng) ops).tree ∧ Shape S (runTreeOps S (S.start b rng) ops).tree := by
  have h0 : TInv S b (S.start b rng).tree := TInv.init b
  exact ⟨(runTreeOps_inv ops _ h0).1, runTreeOps_stable shape_stable ops _ h0 (Shape.init b)⟩

/-- **C90 (no lost nodes).**  After any calls, every node is the node of a history, and the nodes of histories exist. -/
theorem C90_reached (S : Search σ β η) (b : β) (rng : σ) (ops : List TreeOp) (t : Tree β)
    (ht : t = (runTreeOps S (S.start b rng) ops).tree) (j : Nat) : j < t.size ↔ ∃ h, follow t 0 h = some j := by
  obtain ⟨h1, h2⟩ := shape_of S b rng ops
  rw [← ht] at h1 h2
  exact ⟨h2.conn j, fun ⟨h, hf⟩ => follow_lt h1 h1.pos hf⟩

/-- **C90 (tree).**  If nodes are not shared, different histories have different nodes: the graph is a tree. -/
theorem C90_tree (S : Search σ β η) (hs : S.shared = false) (b : β) (rng : σ) (ops : List TreeOp) (t : Tree β)
    (ht : t = (runTreeOps S (S.start b rng) ops).tree) (h h' : List (Nat × Nat)) (j : Nat) (hf : follow t 0 h = some j)
    (hf' : follow t 0 h' = some j) : h = h' := by
  obtain ⟨h1, h2⟩ := shape_of S b rng ops
  rw [← ht] at h1 h2
  exact h2.unique h1 hs h h' j hf hf'

/-- **C90 (sharing).**  If nodes are shared, two histories have the same node iff they have the same belief. -/
theorem C90_shared (S : Search σ β η) (hs : S.shared = true) (b : β) (rng : σ) (ops : List TreeOp) (t : Tree β)
    (ht : t = (runTreeOps S (S.start b rng) ops).tree) (h h' : List (Nat × Nat)) (j j' : Nat) (hf : follow t 0 h = some j)
    (hf' : follow t 0 h' = some j') : j = j' ↔ (t.nodes j).belief = (t.nodes j').belief := by
  obtain ⟨h1, h2⟩ := shape_of S b rng ops
  rw [← ht] at h1 h2
  exact ⟨fun e => by rw [e], fun hb => h2.inj hs (follow_lt h1 h1.pos hf) (follow_lt h1 h1.pos hf') hb⟩

/-- **C90 (number of nodes).**  If nodes are shared, no two nodes have the same belief: there are at most as many nodes as beliefs. -/
theorem C90_beliefs (S : Search σ β η) (hs : S.shared = true) (b : β) (rng : σ) (ops : List TreeOp) (t : Tree β)
    (ht : t = (runTreeOps S (S.start b rng) ops).tree) : ((List.range t.size).map fun j => (t.nodes j).belief).Nodup := by
  obtain ⟨_, h2⟩ := shape_of S b rng ops
  rw [← ht] at h2
  refine List.Nodup.map_on ?_ List.nodup_range
  intro i hi j hj he
  exact h2.inj hs (List.mem_range.1 hi) (List.mem_range.1 hj) he

/-- **C90 (stability).**  The node of a history and its belief remain the same, whatever calls follow. -/
theorem C90_kept (S : Search σ β η) (b : β) (rng : σ) (ops ops' : List TreeOp) (t t' : Tree β)
    (ht : t = (runTreeOps S (S.start b rng) ops).tree) (ht' : t' = (runTreeOps S (S.start b rng) (ops ++ ops')).tree)
    (h : List (Nat × Nat)) (j : Nat) (hf : follow t 0 h = some j) : follow t' 0 h = some j ∧ (t'.nodes j).belief = (t.nodes j).belief := by
  obtain ⟨h1, _⟩ := shape_of S b rng ops
  have hr : runTreeOps S (S.start b rng) (ops ++ ops') = runTreeOps S (runTreeOps S (S.start b rng) ops) ops' := by
    unfold runTreeOps
    rw [List.foldl_append]
  obtain ⟨_, hg⟩ := runTreeOps_inv ops' _ h1
  rw [← hr, ← ht, ← ht'] at hg
  rw [← ht] at h1
  exact ⟨follow_more h1 hg h 0 j h1.pos hf, hg.belief j (follow_lt h1 h1.pos hf)⟩

/-! A search in the model with one state: without sharing three histories with three nodes, with sharing one node. -/

example : follow (runTreeOps (loopSearch false 3) ((loopSearch false 3).start [1] 0) [.simulate 0 none, .simulate 0 none]).tree 0
      [(0, 0), (0, 0)] = some 2 ∧
    follow (runTreeOps (loopSearch false 3) ((loopSearch false 3).start [1] 0) [.simulate 0 none, .simulate 0 none]).tree 0
      [(0, 0)] = some 1 ∧
    follow (runTreeOps (loopSearch true 3) ((loopSearch true 3).start [1] 0) [.simulate 0 none, .simulate 0 none]).tree 0
      [(0, 0), (0, 0)] = some 0 ∧
    (runTreeOps (loopSearch true 3) ((loopSearch true 3).start [1] 0) [.simulate 0 none, .simulate 0 none]).tree.size = 1 := by
  refine ⟨?_, ?_, ?_, ?_⟩ <;> decide +kernel

example : follow (runTreeOps lateSearch (lateSearch.start [1] 0) [.getNode [(0, 1)]]).tree 0 [(0, 1)] = some 1 ∧
    follow (runTreeOps lateSearch (lateSearch.start [1] 0) [.getNode [(0, 1)], .simulate 0 none, .simulate 1 none]).tree 0 [(0, 1)] = some 1 ∧
    follow (runTreeOps lateSearch (lateSearch.start [1] 0) [.getNode [(0, 1)], .simulate 0 none, .simulate 1 none]).tree 0 [(0, 0)] = none := by
  refine ⟨?_, ?_, ?_⟩ <;> decide +kernel

end Verif
