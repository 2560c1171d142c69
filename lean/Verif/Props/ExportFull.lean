import Verif.Proof.ExportFull
import Verif.Props.TreeShape

/-! The export of a whole search tree (C91). -/

set_option linter.unusedSectionVars false

namespace Verif
open Spec
variable {σ β η : Type} [DecidableEq β]

theorem successor_next {S : Search σ β η} {b : β} {t : Tree β} (ht : TInv S b t) {i a : Nat} {x : Nat × Nat} (hx : x ∈ successors t i a) :
    t.next i a x.1 = some x.2 := by
  unfold successors at hx
  rcases hc : t.anode i a with _ | c
  · rw [hc] at hx; simp at hx
  · rw [hc] at hx
    unfold Tree.next
    rw [hc]
    exact dget_of_mem (ht.keys i a c hc) hx

theorem next_successor {t : Tree β} {i a o j : Nat} (h : t.next i a o = some j) : (o, j) ∈ successors t i a := by
  unfold Tree.next at h
  obtain ⟨c, hc, hd⟩ := Option.bind_eq_some_iff.1 h
  unfold successors
  rw [hc]
  exact dget_mem hd

/-- **C91 (tree).**  Without shared nodes, an export that returns describes the whole tree: see `Spec.FullOf`. -/
theorem C91_tree (S : Search σ β η) (X : Exporter σ β) (hs : S.shared = false) (fuel : Nat) (t : Tree β) (d : FullDict)
    (h : treeFull X S.shared fuel t = .ok d) : FullOf X t true (.obs 0) d := by
  rw [hs] at h
  have h1 := fullDict_post X t fuel (.obs 0) none
  unfold treeFull startVisited at h
  simp only [Bool.false_eq_true, if_false] at h
  rcases hr : fullDict X t fuel (.obs 0) none with ⟨r, v'⟩
  rw [hr] at h
  cases h
  exact ((M.post_of_ok hr).1 h1).1

/-- **C91 (shared nodes).**  With shared nodes, an export that returns describes the graph, and every node that has actions comes
with its actions exactly once in the result. -/
theorem C91_shared (S : Search σ β η) (X : Exporter σ β) (hs : S.shared = true) (b : β) (rng : σ) (ops : List TreeOp) (t : Tree β)
    (ht : t = (runTreeOps S (S.start b rng) ops).tree) (fuel : Nat) (d : FullDict) (h : treeFull X S.shared fuel t = .ok d) :
    FullOf X t false (.obs 0) d ∧
      (withActions d).Perm (((List.range t.size).filter fun i => decide (triedActions t i ≠ [])).map fun i => X.toList (t.nodes i).belief) := by
  obtain ⟨hinv, hshape⟩ := shape_of S b rng ops
  rw [← ht] at hinv hshape
  rw [hs] at h
  have h1 := fullDict_post X t fuel (.obs 0) (some [])
  unfold treeFull startVisited at h
  simp only [if_true] at h
  rcases hr : fullDict X t fuel (.obs 0) (some []) with ⟨r, v'⟩
  rw [hr] at h
  cases h
  obtain ⟨h2, op, _, h4, _, h6, h7, h8, h9⟩ := (M.post_of_ok hr).1 h1
  refine ⟨h2, ?_⟩
  rw [h6]
  refine List.Perm.map _ (List.Perm.filter _ ?_)
  -- the nodes visited are the nodes of the graph
  have hlt : ∀ i j, i < t.size → Relation.ReflTransGen (Linked t) i j → j < t.size := by
    intro i j hi hij
    induction hij with
    | refl => exact hi
    | tail _ hl _ =>
        obtain ⟨a, x, hx, rfl⟩ := hl
        exact (hinv.range _ _ _ _ (successor_next hinv hx)).1
  have hop : ∀ i ∈ op, i < t.size := by
    intro i hi
    obtain ⟨n, hn, hr⟩ := h9 i hi
    rw [show n = 0 from by simpa [needOf] using hn] at hr
    exact hlt 0 i hinv.pos hr
  have hmem : ∀ j, j < t.size → (t.nodes j).belief ∈ (op.map fun i => (t.nodes i).belief).reverse ++ [] → j ∈ op := by
    intro j hj hm
    rw [List.append_nil, List.mem_reverse] at hm
    obtain ⟨i, hi, hb⟩ := List.mem_map.1 hm
    rw [← hshape.inj hs (hop i hi) hj hb]
    exact hi
  have hall : ∀ (l : List (Nat × Nat)) (i j : Nat), i ∈ op → follow t i l = some j → j ∈ op := by
    intro l
    induction l with
    | nil => intro i j hi hf; cases hf; exact hi
    | cons ao l ih =>
        intro i j hi hf
        obtain ⟨a, o⟩ := ao
        obtain ⟨k, k1, k2⟩ := Option.bind_eq_some_iff.1 hf
        exact ih k j (hmem k (hinv.range _ _ _ _ k1).1 (h7 i hi k ⟨a, (o, k), next_successor k1, rfl⟩)) k2
  refine (List.perm_ext_iff_of_nodup (List.Nodup.of_map _ h4) List.nodup_range).2 fun j => ?_
  rw [List.mem_range]
  refine ⟨hop j, fun hj => ?_⟩
  obtain ⟨l, hl⟩ := hshape.conn j hj
  exact hall l 0 j (hmem 0 hinv.pos (h8 0 (by simp [needOf]))) hl

/-- **C91 (returns).**  The export of a graph built by a search returns if the recursion limit is larger than twice the number of
nodes, with shared nodes or not. -/
theorem C91_returns (S : Search σ β η) (X : Exporter σ β) (hsim : X.sim = S.sim)
    (hobs : ∀ b a o g b' g', S.sim.successor b a o g = (.ok b', g') → o < S.sim.observations.length) (b : β) (rng : σ)
    (ops : List TreeOp) (t : Tree β) (ht : t = (runTreeOps S (S.start b rng) ops).tree) (fuel : Nat) (hfuel : 2 * t.size < fuel) :
    ∃ d, treeFull X S.shared fuel t = .ok d := by
  obtain ⟨hinv, _⟩ := shape_of S b rng ops
  rw [← ht] at hinv
  have hcalls : callsLeft t (startVisited β S.shared) 0 ≤ t.size := by
    unfold startVisited
    split
    · exact (List.countP_le_length).trans (by simp)
    · exact Nat.sub_le _ _
  obtain ⟨d, v', h⟩ := fullDict_total (X := X) (t := t) (fun i => by rw [hinv.len, hsim]; exact le_rfl) (fun i a x hx => by
      have hn := successor_next hinv hx
      obtain ⟨g, g', h2⟩ := hinv.succ i a _ _ hn
      rw [hsim]
      exact ⟨(hinv.range i a _ _ hn).1, hobs _ _ _ _ _ _ h2⟩) fuel (.obs 0) (startVisited β S.shared) (by
      intro hv i a x hx
      refine (hinv.range i a _ _ (successor_next hinv hx)).2 ?_
      unfold startVisited at hv
      by_contra hs
      rw [if_pos (by simpa using hs)] at hv
      cases hv) ⟨hinv.pos, by omega⟩
  exact ⟨d, by unfold treeFull; rw [h]⟩

/-- **C91 (graphs).**  `trajectory_trees_from_starts` returns one graph: the whole tree if `qvalue`, without any change of the search,
and the policy otherwise. -/
theorem C91_graphs (X : Exporter σ β) (shared : Bool) (fuel : Nat) (qvalue : Bool) (st st' : SearchState σ β) (gs : List StartGraph)
    (h : searchGraphs X shared fuel qvalue st = (.ok gs, st')) :
    (qvalue = true → st' = st ∧ ∃ d, treeFull X shared fuel st.tree = .ok d ∧ gs = [.full d]) ∧
    (qvalue = false → ∃ d, treePolicy X shared fuel st = (.ok d, st') ∧ gs = [.policy d]) := by
  cases qvalue with
  | true =>
      refine ⟨fun _ => ?_, by simp⟩
      unfold searchGraphs at h
      simp only [Prod.mk.injEq] at h
      obtain ⟨h1, rfl⟩ := h
      refine ⟨rfl, ?_⟩
      rcases hd : treeFull X shared fuel st.tree with e | d
      · rw [hd] at h1; cases h1
      · rw [hd] at h1
        cases h1
        exact ⟨d, rfl, rfl⟩
  | false =>
      refine ⟨by simp, fun _ => ?_⟩
      obtain ⟨d, s1, h1, h2⟩ := M.bind_ok (x := treePolicy X shared fuel) (f := fun d => pure [StartGraph.policy d]) h
      cases h2
      exact ⟨d, h1, rfl⟩

/-- The numbers of visits in an export, in the order of the file, to the depth `n`. -/
def fullVisits : Nat → FullDict → List (Nat × List Name)
  | 0, _ => []
  | n + 1, .obs _ v _ names cs => (v, names) :: cs.flatMap (fullVisits n)
  | n + 1, .act _ v names cs => (v, names) :: cs.flatMap (fullVisits n)

/-- The export of a search in the examples. -/
def fullExported (S : Search Nat (List ℚ) Int) (ops : List TreeOp) : Option (List (Nat × List Name)) :=
  match treeFull (exporterOf S) S.shared 20 (runTreeOps S (S.start [1] 0) ops).tree with
  | .ok d => some (fullVisits 20 d)
  | .error _ => none

example : fullExported (loopSearch false 3) [.simulate 0 none, .simulate 0 none] = some [(2, [.str "a"]), (2, [.str "o"]), (2, [.str "a"]),
      (1, [.str "o"]), (1, [])] ∧
    fullExported (loopSearch true 3) [.simulate 0 none, .simulate 0 none] = some [(5, [.str "a"]), (4, [.str "o"]), (5, [])] ∧
    fullExported (armSearch 1 false) [.simulate 0 none, .simulate 0 none] = some [(2, [.str "good", .str "bad"]), (1, [.str "o"]), (0, []),
      (1, [.str "o"]), (0, [])] := by
  refine ⟨?_, ?_, ?_⟩ <;> decide +kernel

example (shared : Bool) (ops : List TreeOp) : ∃ d, treeFull (exporterOf (loopSearch shared 3)) shared
    (2 * (runTreeOps (loopSearch shared 3) ((loopSearch shared 3).start [1] 0) ops).tree.size + 1)
    (runTreeOps (loopSearch shared 3) ((loopSearch shared 3).start [1] 0) ops).tree = .ok d :=
  C91_returns (loopSearch shared 3) (exporterOf (loopSearch shared 3)) rfl (exactSim_observed _ _ _ (by decide)) [1] 0 ops _ rfl _
    (Nat.lt_succ_self _)

end Verif
