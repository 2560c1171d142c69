import Verif.Proof.NodeSearch
import Verif.Proof.SolverFile
import Verif.Props.ExportFull

/-! The enumeration of a search tree and the text of a history (C101). -/

set_option linter.unusedSectionVars false

namespace Verif
open Spec
variable {σ β η : Type} [DecidableEq β]

/-- The trees of a search whose names are distinct. -/
theorem named_of {S : Search σ β η} {b : β} {t : Tree β} (ht : TInv S b t) (ha : S.sim.actions.Nodup) (ho : S.sim.observations.Nodup)
    (hobs : ∀ b a o g b' g', S.sim.successor b a o g = (.ok b', g') → o < S.sim.observations.length) : Named S.sim t where
  actions := ha
  observations := ho
  len := ht.len
  keys i a := by
    unfold successors
    rcases hc : t.anode i a with _ | c
    · simp
    · exact ht.keys i a c hc
  range i a x hx := by
    obtain ⟨g, g', h⟩ := ht.succ i a _ _ (successor_next ht hx)
    exact hobs _ _ _ _ _ _ h

theorem next_action {S : Search σ β η} {b : β} {t : Tree β} (ht : TInv S b t) {i a o j : Nat} (h : t.next i a o = some j) :
    a < S.sim.actions.length := by
  obtain ⟨c, hc, _⟩ := Option.bind_eq_some_iff.1 h
  by_contra hn
  unfold Tree.anode at hc
  rw [List.getElem?_eq_none (by rw [ht.len]; exact not_lt.1 hn)] at hc
  cases hc

theorem follow_append' (t : Tree β) : ∀ (l m : List (Nat × Nat)) (i : Nat), follow t i (l ++ m) = (follow t i l).bind fun j => follow t j m
  | [], m, i => rfl
  | (a, o) :: l, m, i => by
      simp only [List.cons_append, follow]
      rcases t.next i a o with _ | j
      · rfl
      · exact follow_append' t l m j

/-- The histories found are those of nodes. -/
theorem found_follow {S : Search σ β η} {b : β} {t : Tree β} (ht : TInv S b t) {found : List (List Name × Nat)}
    (hf : FoundInv S.sim t found) : ∀ (n : Nat) (x : List Name × Nat), x.1.length ≤ n → x ∈ found →
      ∃ l, follow t 0 l = some x.2 ∧ x.1 = histNames S.sim l := by
  intro n
  induction n with
  | zero =>
      intro x hn hx
      rcases List.mem_cons.1 (hf.closed x hx) with rfl | h
      · exact ⟨[], rfl, rfl⟩
      · obtain ⟨y, _, hxy⟩ := List.mem_flatMap.1 h
        obtain ⟨m, k, e⟩ := offspring_hist hxy
        rw [e] at hn
        simp at hn
  | succ n ih =>
      intro x hn hx
      rcases List.mem_cons.1 (hf.closed x hx) with rfl | h
      · exact ⟨[], rfl, rfl⟩
      · obtain ⟨y, hy, hxy⟩ := List.mem_flatMap.1 h
        obtain ⟨m, k, e⟩ := offspring_hist hxy
        obtain ⟨l, h1, h2⟩ := ih y (by rw [e] at hn; simp at hn; omega) hy
        obtain ⟨a, _, oj, h3, rfl⟩ := offspring_mem.1 hxy
        refine ⟨l ++ [(a, oj.1)], ?_, ?_⟩
        · rw [follow_append', h1]
          simp only [Option.bind_some, follow]
          rw [successor_next ht h3]
          rfl
        · rw [h2]
          unfold histNames
          rw [List.flatMap_append]

/-- If nothing waits, all the histories have been found. -/
theorem follow_found {S : Search σ β η} {b : β} {t : Tree β} (ht : TInv S b t) {found : List (List Name × Nat)}
    (hw : waiting S.sim t found = []) (l : List (Nat × Nat)) : ∀ j, follow t 0 l = some j → (histNames S.sim l, j) ∈ found := by
  have hall : ∀ x ∈ known S.sim t found, x ∈ found := by
    intro x hx
    by_contra hn
    have := waiting_mem.2 ⟨hx, hn⟩
    rw [hw] at this
    cases this
  induction l using List.reverseRecOn with
  | nil =>
      intro j hj
      cases hj
      exact hall _ List.mem_cons_self
  | append_singleton l ao ih =>
      intro j hj
      obtain ⟨a, o⟩ := ao
      obtain ⟨k, h1, h2⟩ := follow_snoc hj
      refine hall _ (List.mem_cons_of_mem _ (List.mem_flatMap.2 ⟨_, ih k h1, ?_⟩))
      refine offspring_mem.2 ⟨a, next_action ht h2, (o, j), next_successor h2, ?_⟩
      unfold histNames
      rw [List.flatMap_append]

theorem popFor_ok {order : String} (h : IsOrder order) : ∃ pop, popFor order = .ok pop := by
  rcases h with rfl | rfl | rfl
  · exact ⟨popFirst, rfl⟩
  · exact ⟨popLast, rfl⟩
  · exact ⟨popHeap, rfl⟩

/-- The result of the search. -/
theorem nodeSearch_spec {sim : Sim σ β} {t : Tree β} (hs : Named sim t) {order : String} (ho : IsOrder order) (maxNodes : Option Int)
    (bound : Nat) : ∃ found, FoundInv sim t found ∧
      (∀ pre x post, found = pre ++ x :: post → Picks t (waiting sim t pre) x order ∧
        ∀ k : Int, maxNodes = some k → (pre.length : Int) < k) ∧
      ((nodeSearch sim t bound order maxNodes = .ok (found.map Prod.fst, found.map Prod.snd) ∧
          (waiting sim t found = [] ∨ ∃ k : Int, maxNodes = some k ∧ k ≤ (found.length : Int))) ∨
        (nodeSearch sim t bound order maxNodes = .error .unfinished ∧ found.length = bound)) := by
  obtain ⟨pop, hpop⟩ := popFor_ok ho
  have hw : waiting sim t [] = [([], 0)] := by simp [waiting]
  obtain ⟨found, h1, h2, h3⟩ := searchLoop_spec hs hpop maxNodes bound [] ⟨by simp, by simp⟩
  rw [hw] at h3
  simp only [List.nil_append] at h1 h2 h3
  refine ⟨found, h1, h2, ?_⟩
  unfold nodeSearch
  rw [hpop]
  simp only [bind, Except.bind]
  have hst : (List.map (entryOf t) [(([] : List Name), 0)]) = [⟨(t.nodes 0).avg.value, [], 0⟩] := rfl
  rw [hst] at h3
  rcases h3 with ⟨h3, h4⟩ | ⟨h3, h4⟩
  · refine Or.inl ⟨?_, h4⟩
    rw [show List.map (entryOf t) [] = [] from rfl] at h3
    rw [h3]
    simp only [List.map_map]
    rfl
  · refine Or.inr ⟨?_, h4⟩
    rw [show List.map (entryOf t) [] = [] from rfl] at h3
    rw [h3]

/-- **C101 (order).**  An unknown order raises `ValueError`.  For the orders that exist, every history of the result is the one that
the order picks among those waiting: the root, and the histories one turn after an earlier one of the result.  The result ends when
nothing waits or when it has `max_nodes` histories, and not before. -/
theorem C101_order (S : Search σ β η) (b : β) (rng : σ) (ops : List TreeOp) (t : Tree β)
    (ht : t = (runTreeOps S (S.start b rng) ops).tree) (ha : S.sim.actions.Nodup) (ho : S.sim.observations.Nodup)
    (hobs : ∀ b a o g b' g', S.sim.successor b a o g = (.ok b', g') → o < S.sim.observations.length) (bound : Nat) (order : String)
    (maxNodes : Option Int) :
    (¬ IsOrder order → nodeSearch S.sim t bound order maxNodes = .error .valueError) ∧
    (IsOrder order → ∀ hs ns, nodeSearch S.sim t bound order maxNodes = .ok (hs, ns) → ∃ found : List (List Name × Nat),
      hs = found.map Prod.fst ∧ ns = found.map Prod.snd ∧
      (∀ pre x post, found = pre ++ x :: post → Picks t (waiting S.sim t pre) x order ∧
        ∀ k : Int, maxNodes = some k → (pre.length : Int) < k) ∧
      (waiting S.sim t found = [] ∨ ∃ k : Int, maxNodes = some k ∧ k ≤ (found.length : Int))) := by
  obtain ⟨hinv, _⟩ := shape_of S b rng ops
  rw [← ht] at hinv
  refine ⟨fun hn => ?_, fun hord hs ns h => ?_⟩
  · unfold IsOrder at hn
    push Not at hn
    unfold nodeSearch popFor
    rw [if_neg hn.1, if_neg hn.2.1, if_neg hn.2.2]
    rfl
  · obtain ⟨found, _, h2, ⟨h3, h4⟩ | ⟨h3, _⟩⟩ := nodeSearch_spec (named_of hinv ha ho hobs) hord maxNodes bound
    · rw [h3] at h
      cases h
      exact ⟨found, rfl, rfl, h2, h4⟩
    · rw [h3] at h
      cases h

/-- **C101 (paths).**  In each order, a history of the result leads from the root to its node, no history comes twice, and a history
comes after the one without its last turn. -/
theorem C101_paths (S : Search σ β η) (b : β) (rng : σ) (ops : List TreeOp) (t : Tree β)
    (ht : t = (runTreeOps S (S.start b rng) ops).tree) (ha : S.sim.actions.Nodup) (ho : S.sim.observations.Nodup)
    (hobs : ∀ b a o g b' g', S.sim.successor b a o g = (.ok b', g') → o < S.sim.observations.length) (bound : Nat) (order : String)
    (maxNodes : Option Int) (hs : List (List Name)) (ns : List Nat) (h : nodeSearch S.sim t bound order maxNodes = .ok (hs, ns)) :
    hs.length = ns.length ∧ hs.Nodup ∧
    (∀ x ∈ hs.zip ns, ∃ l, follow t 0 l = some x.2 ∧ x.1 = histNames S.sim l) ∧
    ∀ pre g a o post, hs = pre ++ (g ++ [a, o]) :: post → g ∈ pre := by
  have hord : IsOrder order := by
    by_contra hn
    rw [(C101_order S b rng ops t ht ha ho hobs bound order maxNodes).1 hn] at h
    cases h
  obtain ⟨hinv, _⟩ := shape_of S b rng ops
  rw [← ht] at hinv
  obtain ⟨found, h1, h2, ⟨h3, h4⟩ | ⟨h3, _⟩⟩ := nodeSearch_spec (named_of hinv ha ho hobs) hord maxNodes bound
  · rw [h3] at h
    cases h
    refine ⟨by simp, h1.nodup, ?_, ?_⟩
    · intro x hx
      rw [List.zip_map'] at hx
      simp only [Prod.mk.eta, List.map_id'] at hx
      exact found_follow hinv h1 _ x le_rfl hx
    · intro pre g a o post e
      obtain ⟨la, lb, rfl, e1, e2⟩ := List.map_eq_append_iff.1 e
      obtain ⟨x, lb', rfl, e3, e4⟩ := List.map_eq_cons_iff.1 e2
      have hp := (h2 la x lb' rfl).1
      have hx : x ∈ waiting S.sim t la := by
        cases hp with
        | breadth h => exact List.mem_of_mem_head? h
        | depth h => exact List.mem_of_getLast? h
        | q h _ => exact h
      obtain ⟨hk, _⟩ := waiting_mem.1 hx
      rcases List.mem_cons.1 hk with rfl | hk
      · simp at e3
      · obtain ⟨y, hy, hxy⟩ := List.mem_flatMap.1 hk
        obtain ⟨m, n, e5⟩ := offspring_hist hxy
        rw [e3] at e5
        rw [← e1, (hist_cut e5).1]
        exact List.mem_map_of_mem hy
  · rw [h3] at h
    cases h

/-- **C101 (all nodes).**  Without shared nodes and without `max_nodes`, the result has every node exactly once. -/
theorem C101_all (S : Search σ β η) (hsh : S.shared = false) (b : β) (rng : σ) (ops : List TreeOp) (t : Tree β)
    (ht : t = (runTreeOps S (S.start b rng) ops).tree) (ha : S.sim.actions.Nodup) (ho : S.sim.observations.Nodup)
    (hobs : ∀ b a o g b' g', S.sim.successor b a o g = (.ok b', g') → o < S.sim.observations.length) (order : String)
    (hord : IsOrder order) (bound : Nat) (hbound : t.size < bound) :
    ∃ hs ns, nodeSearch S.sim t bound order none = .ok (hs, ns) ∧ ns.Perm (List.range t.size) := by
  obtain ⟨hinv, hshape⟩ := shape_of S b rng ops
  rw [← ht] at hinv hshape
  obtain ⟨found, h1, _, h3⟩ := nodeSearch_spec (named_of hinv ha ho hobs) hord none bound
  have hnodes : (found.map Prod.snd).Nodup := by
    refine List.Nodup.map_on ?_ (List.Nodup.of_map _ h1.nodup)
    intro x hx y hy e
    obtain ⟨l, k1, k2⟩ := found_follow hinv h1 _ x le_rfl hx
    obtain ⟨l', k3, k4⟩ := found_follow hinv h1 _ y le_rfl hy
    rw [e] at k1
    have := hshape.unique hinv hsh l l' _ k1 k3
    exact Prod.ext (by rw [k2, k4, this]) e
  have hlt : ∀ j ∈ found.map Prod.snd, j < t.size := by
    intro j hj
    obtain ⟨x, hx, rfl⟩ := List.mem_map.1 hj
    obtain ⟨l, k1, _⟩ := found_follow hinv h1 _ x le_rfl hx
    exact (C90_reached S b rng ops t ht x.2).2 ⟨l, k1⟩
  rcases h3 with ⟨h3, h4 | ⟨k, hk, _⟩⟩ | ⟨_, h4⟩
  · refine ⟨_, _, h3, (List.perm_ext_iff_of_nodup hnodes List.nodup_range).2 fun j => ?_⟩
    rw [List.mem_range]
    refine ⟨hlt j, fun hj => ?_⟩
    obtain ⟨l, hl⟩ := hshape.conn j hj
    exact List.mem_map.2 ⟨_, follow_found hinv h4 l j hl, rfl⟩
  · cases hk
  · have hsub : (found.map Prod.snd).length ≤ (List.range t.size).length :=
      (List.subperm_of_subset hnodes fun j hj => List.mem_range.2 (hlt j hj)).length_le
    rw [List.length_map, List.length_range] at hsub
    omega

/-- **C101 (number).**  With `max_nodes`, the search ends, shared nodes or not; without shared nodes it finds `max_nodes` nodes, or all of
them if there are not so many. -/
theorem C101_number (S : Search σ β η) (b : β) (rng : σ) (ops : List TreeOp) (t : Tree β)
    (ht : t = (runTreeOps S (S.start b rng) ops).tree) (ha : S.sim.actions.Nodup) (ho : S.sim.observations.Nodup)
    (hobs : ∀ b a o g b' g', S.sim.successor b a o g = (.ok b', g') → o < S.sim.observations.length) (order : String)
    (hord : IsOrder order) (k : Int) (bound : Nat) (hbound : k < bound) (hpos : 0 < bound) :
    ∃ hs ns, nodeSearch S.sim t bound order (some k) = .ok (hs, ns) ∧ ns.length ≤ k.toNat ∧
      (S.shared = false → ns.length = min k.toNat t.size) := by
  obtain ⟨hinv, hshape⟩ := shape_of S b rng ops
  rw [← ht] at hinv hshape
  obtain ⟨found, h1, h2, h3⟩ := nodeSearch_spec (named_of hinv ha ho hobs) hord (some k) bound
  have hle : found.length ≤ k.toNat := by
    rcases List.eq_nil_or_concat found with rfl | ⟨pre, x, rfl⟩
    · exact Nat.zero_le _
    · have := (h2 pre x [] (by simp)).2 k rfl
      simp only [List.concat_eq_append, List.length_append, List.length_singleton]
      omega
  rcases h3 with ⟨h3, h4⟩ | ⟨_, h4⟩
  · refine ⟨_, _, h3, by simpa using hle, fun hsh => ?_⟩
    have hnodes : (found.map Prod.snd).Nodup := by
      refine List.Nodup.map_on ?_ (List.Nodup.of_map _ h1.nodup)
      intro x hx y hy e
      obtain ⟨l, k1, k2⟩ := found_follow hinv h1 _ x le_rfl hx
      obtain ⟨l', k3, k4⟩ := found_follow hinv h1 _ y le_rfl hy
      rw [e] at k1
      have := hshape.unique hinv hsh l l' _ k1 k3
      exact Prod.ext (by rw [k2, k4, this]) e
    have hlt : ∀ j ∈ found.map Prod.snd, j < t.size := by
      intro j hj
      obtain ⟨x, hx, rfl⟩ := List.mem_map.1 hj
      obtain ⟨l, k1, _⟩ := found_follow hinv h1 _ x le_rfl hx
      exact (C90_reached S b rng ops t ht x.2).2 ⟨l, k1⟩
    have hsub : (found.map Prod.snd).length ≤ (List.range t.size).length :=
      (List.subperm_of_subset hnodes fun j hj => List.mem_range.2 (hlt j hj)).length_le
    rw [List.length_range] at hsub
    rcases h4 with h4 | ⟨k', hk, h5⟩
    · have hsup : (List.range t.size).length ≤ (found.map Prod.snd).length := by
        refine (List.subperm_of_subset List.nodup_range fun j hj => ?_).length_le
        obtain ⟨l, hl⟩ := hshape.conn j (List.mem_range.1 hj)
        exact List.mem_map.2 ⟨_, follow_found hinv h4 l j hl, rfl⟩
      rw [List.length_range] at hsup
      rw [List.length_map] at *
      omega
    · cases hk
      rw [List.length_map] at *
      omega
  · omega

/-- The histories in breadth-first order: shorter ones come first. -/
theorem breadth_sorted {sim : Sim σ β} {t : Tree β} (hs : Named sim t) : ∀ (found : List (List Name × Nat)),
    (∀ pre x post, found = pre ++ x :: post → Picks t (waiting sim t pre) x "breadth") → FoundInv sim t found ∧
      known sim t found = found ++ waiting sim t found ∧ (known sim t found).Pairwise (fun x y => x.1.length ≤ y.1.length) ∧
      ∀ x ∈ known sim t found, ∀ w ∈ waiting sim t found, x.1.length ≤ w.1.length + 2 := by
  intro found
  induction found using List.reverseRecOn with
  | nil =>
      intro _
      have hw : waiting sim t [] = [([], 0)] := by simp [waiting]
      refine ⟨⟨by simp, by simp⟩, by rw [hw]; rfl, by simp [known], ?_⟩
      intro x hx w hw
      simp [known] at hx
      simp [hx]
  | append_singleton found x ih =>
      intro h
      obtain ⟨i1, i2, i3, i4⟩ := ih fun pre y post e => h pre y (post ++ [x]) (by rw [e]; simp)
      have hp := h found x [] rfl
      have hhead : (waiting sim t found).head? = some x := by
        generalize ho : "breadth" = o at hp
        cases hp with
        | breadth h => exact h
        | depth h => exact absurd ho (by decide)
        | q h _ => exact absurd ho (by decide)
      obtain ⟨w, hw⟩ : ∃ w, waiting sim t found = x :: w := by
        cases hc : waiting sim t found with
        | nil => rw [hc] at hhead; cases hhead
        | cons y w => rw [hc] at hhead; cases hhead; exact ⟨w, rfl⟩
      have hx : x ∈ waiting sim t found := by rw [hw]; exact List.mem_cons_self
      obtain ⟨j1, j2⟩ := i1.snoc hs hx
      rw [hw, List.erase_cons_head] at j2
      have hlen : ∀ y ∈ offspring sim t x, y.1.length = x.1.length + 2 := by
        intro y hy
        obtain ⟨m, n, e⟩ := offspring_hist hy
        rw [e]
        simp
      have hsorted : (known sim t (found ++ [x])).Pairwise (fun x y => x.1.length ≤ y.1.length) := by
        rw [known_snoc, List.pairwise_append]
        refine ⟨i3, ?_, ?_⟩
        · refine List.pairwise_iff_forall_sublist.2 ?_
          intro y z hyz
          have h1 := hyz.subset
          rw [hlen y (h1 (by simp)), hlen z (h1 (by simp))]
        · intro y hy z hz
          rw [hlen z hz]
          exact i4 y hy x hx
      have hk : known sim t (found ++ [x]) = (found ++ [x]) ++ waiting sim t (found ++ [x]) := by
        rw [known_snoc, i2, j2, hw]
        simp
      refine ⟨j1, hk, hsorted, ?_⟩
      intro y hy w' hw'
      have hxw : x.1.length ≤ w'.1.length := by
        rw [hk, List.append_assoc, List.pairwise_append] at hsorted
        have := hsorted.2.1
        rw [List.singleton_append, List.pairwise_cons] at this
        exact this.1 w' hw'
      rw [known_snoc] at hy
      rcases List.mem_append.1 hy with hy | hy
      · have := i4 y hy x hx
        omega
      · rw [hlen y hy]
        omega

/-- **C101 (breadth).**  In the order `breadth` the histories of the result are in the order of their lengths. -/
theorem C101_breadth (S : Search σ β η) (b : β) (rng : σ) (ops : List TreeOp) (t : Tree β)
    (ht : t = (runTreeOps S (S.start b rng) ops).tree) (ha : S.sim.actions.Nodup) (ho : S.sim.observations.Nodup)
    (hobs : ∀ b a o g b' g', S.sim.successor b a o g = (.ok b', g') → o < S.sim.observations.length) (bound : Nat)
    (maxNodes : Option Int) (hs : List (List Name)) (ns : List Nat) (h : nodeSearch S.sim t bound "breadth" maxNodes = .ok (hs, ns)) :
    hs.Pairwise fun h h' => h.length ≤ h'.length := by
  obtain ⟨hinv, _⟩ := shape_of S b rng ops
  rw [← ht] at hinv
  obtain ⟨found, rfl, _, h2, _⟩ := (C101_order S b rng ops t ht ha ho hobs bound "breadth" maxNodes).2 (Or.inl rfl) hs ns h
  obtain ⟨_, h3, h4, _⟩ := breadth_sorted (named_of hinv ha ho hobs) found fun pre x post e => (h2 pre x post e).1
  rw [h3, List.pairwise_append] at h4
  exact List.pairwise_map.2 h4.1

/-- **C101 (cycles).**  Without `max_nodes`, the search never ends if a node can be reached again from itself. -/
theorem C101_false_cycles (S : Search σ β η) (b : β) (rng : σ) (ops : List TreeOp) (t : Tree β)
    (ht : t = (runTreeOps S (S.start b rng) ops).tree) (ha : S.sim.actions.Nodup) (ho : S.sim.observations.Nodup)
    (hobs : ∀ b a o g b' g', S.sim.successor b a o g = (.ok b', g') → o < S.sim.observations.length) (order : String)
    (hord : IsOrder order) (l m : List (Nat × Nat)) (j : Nat) (hl : follow t 0 l = some j) (hm : follow t j m = some j) (hne : m ≠ [])
    (bound : Nat) : nodeSearch S.sim t bound order none = .error .unfinished := by
  obtain ⟨hinv, _⟩ := shape_of S b rng ops
  rw [← ht] at hinv
  obtain ⟨found, h1, _, ⟨_, h4 | ⟨k, hk, _⟩⟩ | ⟨h3, _⟩⟩ := nodeSearch_spec (named_of hinv ha ho hobs) hord none bound
  · exfalso
    have hloop : ∀ n, follow t j (List.replicate n m).flatten = some j := by
      intro n
      induction n with
      | zero => rfl
      | succ n ih =>
          rw [List.replicate_succ, List.flatten_cons, follow_append', hm]
          exact ih
    have hall : ∀ n, (histNames S.sim (l ++ (List.replicate n m).flatten), j) ∈ found := fun n =>
      follow_found hinv h4 _ j (by rw [follow_append', hl]; exact hloop n)
    have hlen : ∀ (l : List (Nat × Nat)), (histNames S.sim l).length = 2 * l.length := by
      intro l
      induction l with
      | nil => rfl
      | cons x l ih =>
          unfold histNames at *
          rw [List.flatMap_cons, List.length_append, ih]
          simp
          omega
    have hmpos : 0 < m.length := List.length_pos_iff.2 hne
    have hinj : Function.Injective fun n => (histNames S.sim (l ++ (List.replicate n m).flatten), j) := by
      intro n n' e
      have := congrArg (fun x : List Name × Nat => x.1.length) e
      simp only [hlen, List.length_append, List.length_flatten, List.map_replicate, List.sum_replicate, nsmul_eq_mul, Nat.cast_id] at this
      have h5 : n * m.length = n' * m.length := by omega
      exact Nat.eq_of_mul_eq_mul_right hmpos h5
    have hsub := (List.subperm_of_subset (List.Nodup.map hinj (List.nodup_range (n := found.length + 1))) (l₂ := found) (by
      intro x hx
      obtain ⟨n, _, rfl⟩ := List.mem_map.1 hx
      exact hall n)).length_le
    rw [List.length_map, List.length_range] at hsub
    omega
  · cases hk
  · exact h3

/-- With shared nodes, as in the sample, there are such nodes after one simulation: the search never ends, whatever the order. -/
theorem C101_false_shared (order : String) (hord : IsOrder order) (bound : Nat) :
    nodeSearch (loopSearch true 2).sim sharedTree.tree bound order none = .error .unfinished :=
  C101_false_cycles (loopSearch true 2) [1] 0 [.simulate 0 none] _ rfl (by decide) (by decide) (exactSim_observed _ _ _ (by decide)) order hord
    [] [(0, 0)] 0 rfl (by decide +kernel) (by simp) bound

example : IsOrder "breadth" ∧ IsOrder "depth" ∧ IsOrder "q" ∧ ¬ IsOrder "best" := by
  unfold IsOrder
  decide

/-- The tree of the examples: two actions, tried four times. -/
def armsTree : Tree (List ℚ) := (runTreeOps (armSearch 1 false) ((armSearch 1 false).start [1] 0) (List.replicate 4 (.simulate 0 none))).tree

example : (armSearch 1 false).shared = false ∧ (armSearch 1 false).sim.actions.Nodup ∧ (armSearch 1 false).sim.observations.Nodup ∧
    armsTree.size = 3 ∧
    nodeSearch (armSearch 1 false).sim armsTree 9 "breadth" none =
      .ok ([[], [.str "good", .str "o"], [.str "bad", .str "o"]], [0, 1, 2]) ∧
    nodeSearch (armSearch 1 false).sim armsTree 9 "depth" (some 2) = .ok ([[], [.str "bad", .str "o"]], [0, 2]) := by
  decide +kernel

/-! ### The text of a history -/

theorem mapM_firstChar : ∀ (ws : List (List Char)), (∀ w ∈ ws, w ≠ []) → ws.mapM firstChar = .ok (ws.filterMap List.head?)
  | [], _ => rfl
  | w :: ws, h => by
      rw [List.mapM_cons, mapM_firstChar ws fun w hw => h w (List.mem_cons_of_mem _ hw)]
      cases w with
      | nil => exact absurd rfl (h [] List.mem_cons_self)
      | cons c w => rfl

theorem joinWith_intercalate (sep : List Char) : ∀ (ws : List (List Char)), joinWith sep ws = List.intercalate sep ws
  | [] => rfl
  | [w] => by simp [joinWith, List.intercalate]
  | w :: v :: ws => by
      unfold joinWith
      rw [joinWith_intercalate sep (v :: ws)]
      simp [List.intercalate]

/-- **C101 (text).**  Before Python 3.7, the text of a history has, for every turn, the initials of the words of the action and of the
observation (`∅` for `none`), and at the end the number of elements of the history. -/
theorem C101_format_partial (l : List (List (List Char) × List Char)) (hw : ∀ x ∈ l, AreWords x.1 ∧ x.2 ≠ []) :
    formatHistory false (l.flatMap fun x => [dashed x.1, x.2]) =
      .ok (List.intercalate ", ".toList (l.map turnText) ++ " [".toList ++ (toString (2 * l.length)).toList ++ "]".toList) := by
  have h2 : byTwo (l.flatMap fun x => [dashed x.1, x.2]) = l.map fun x => (dashed x.1, x.2) := by
    clear hw
    induction l with
    | nil => rfl
    | cons x l ih =>
        rw [List.flatMap_cons, List.map_cons, ← ih]
        rfl
  have hpair : ∀ x, AreWords x.1 → x.2 ≠ [] → shortPair (dashed x.1, x.2) = .ok (turnText x) := by
    intro x h3 h4
    unfold shortPair shortAction
    simp only
    unfold dashed
    rw [← joinWith_intercalate, splitOn_joinWith '-' x.1 h3.1 (fun w hw c hc e => (h3.2 w hw).2 (e ▸ hc)),
      mapM_firstChar x.1 fun w hw => (h3.2 w hw).1]
    unfold shortObservation turnText
    by_cases hn : x.2 = "none".toList
    · rw [if_pos hn, if_pos hn]
      simp [bind, Except.bind]
    · rw [if_neg hn, if_neg hn]
      rcases ho : x.2 with _ | ⟨c, cs⟩
      · exact absurd ho h4
      · simp [bind, Except.bind, firstChar]
  have hmap : (l.map fun x => (dashed x.1, x.2)).mapM shortPair = .ok (l.map turnText) := by
    clear h2
    induction l with
    | nil => rfl
    | cons x l ih =>
        rw [List.map_cons, List.mapM_cons, hpair x (hw x List.mem_cons_self).1 (hw x List.mem_cons_self).2,
          ih fun y hy => hw y (List.mem_cons_of_mem _ hy)]
        rfl
  have hlen : (l.flatMap fun x => [dashed x.1, x.2]).length = 2 * l.length := by
    clear hw h2 hmap
    induction l with
    | nil => rfl
    | cons x l ih =>
        rw [List.flatMap_cons, List.length_append, ih]
        simp
        omega
  unfold formatHistory
  rw [h2, hmap, hlen, toString_nat, ← joinWith_intercalate]
  rfl

/-- From Python 3.7 on, `format_history` raises an exception for every history. -/
theorem C101_false_format (history : List (List Char)) : ∃ e, formatHistory true history = .error e := by
  unfold formatHistory
  rcases (byTwo history).mapM shortPair with e | l
  · exact ⟨e, rfl⟩
  · exact ⟨.runtimeError, rfl⟩

example : formatHistory false ["tell-assemble-leg-0".toList, "none".toList, "wait".toList, "yes".toList] = .ok "tal0:∅, w:y [4]".toList ∧
    formatHistory true ["wait".toList, "yes".toList] = .error .runtimeError ∧ formatHistory false ["".toList, "yes".toList] = .error .indexError := by
  decide +kernel

example : AreWords ["tell".toList, "assemble".toList] ∧ dashed ["tell".toList, "assemble".toList] = "tell-assemble".toList := by
  unfold AreWords
  decide +kernel

end Verif
