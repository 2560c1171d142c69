import Verif.Proof.PomcpTrace
import Verif.Proof.PomcpErase

/-! The visits made by one simulation, and by several. -/

set_option linter.unusedSectionVars false
set_option linter.unusedSimpArgs false

namespace Verif
open Spec
variable {σ β η : Type}

theorem Succ.logged {sim : Sim σ β} {b b' : β} {a o : Nat} (h : Succ sim b a o b') : Succ (logged sim) b a o b' := by
  obtain ⟨g, g', h⟩ := h
  refine ⟨(g, []), (g', []), ?_⟩
  show ((sim.successor b a o g).1, ((sim.successor b a o g).2, [])) = _
  rw [h]

theorem Reach.logged {sim : Sim σ β} {b0 b : β} (h : Reach sim b0 b) : Reach (Spec.logged sim) b0 b := by
  induction h with
  | base => exact .base
  | step _ h ih => exact ih.step h.logged

section
variable [DecidableEq β] {S : Search σ β η} {b0 : β}

theorem TInv.logged {t : Tree β} (h : TInv S b0 t) : TInv (loggedSearch S) b0 t where
  pos := h.pos
  root := h.root
  len := h.len
  fresh := h.fresh
  range := h.range
  succ i a o j hj := (h.succ i a o j hj).logged
  look := h.look
  reach i hi := (h.reach i hi).logged
  sum := h.sum
  plainRoot := h.plainRoot
  plain := h.plain
  keys := h.keys

theorem actionVisits_lt {t : Tree β} (ht : TInv S b0 t) {i a : Nat} (h : t.anode i a ≠ none) : a < S.sim.nActions := by
  by_contra hc
  apply h
  unfold Tree.anode
  rw [List.getElem?_eq_none_iff.2 (by rw [ht.len]; omega)]
  rfl

/-- The result of `simulate_from_node`, with the record. -/
theorem simulateFromNode_trace (hq : QuietSim S.sim) {i : Nat} {act : Option Nat} {st st' : SearchState (σ × List Ev) β}
    (ht : TInv S b0 st.tree) (hi : i < st.tree.size) (hrun : simulateFromNode (loggedSearch S) i act st = (.ok (), st')) :
    ∃ s x, ∃ path : List (Nat × Nat), ∃ evs : List Ev, ∃ rolls : List (List Ev), ∃ ending,
      (∃ g, S.sim.sampleBelief (st.tree.nodes i).belief st.rng.1 = (.ok s, g)) ∧
      Trace (loggedSearch S) st st' i s S.horizon x path evs rolls ending ∧
      (S.hor.isReached S.horizon = false → ∃ a p, path = (i, a) :: p ∧ (act = none → UctChoice S st.tree i a) ∧
        (∀ b, act = some b → a = b) ∧ ∀ y ∈ p, UctChoice S st.tree y.1 y.2) := by
  obtain ⟨b, s0, h0, hrun⟩ := M.bind_ok hrun
  cases h0
  obtain ⟨s, s1, h1, hrun⟩ := M.bind_ok hrun
  obtain ⟨x, s2, h2, hrun⟩ := M.bind_ok hrun
  cases hrun
  unfold onRng at h1
  rcases hs : S.sim.sampleBelief (st.tree.nodes i).belief st.rng.1 with ⟨r, g⟩
  have hb : (loggedSearch S).sim.sampleBelief (st.tree.nodes i).belief st.rng = (r, (g, st.rng.2)) := by
    show ((S.sim.sampleBelief (st.tree.nodes i).belief st.rng.1).1, ((S.sim.sampleBelief _ _).2, _)) = _
    rw [hs]
  rw [hb] at h1
  simp only [Prod.mk.injEq] at h1
  obtain ⟨rfl, rfl⟩ := h1
  obtain ⟨path, evs, rolls, ending, k1, k2⟩ := (M.post_iff.1 (simulate_trace S hq S.fuel i s S.horizon act ⟨st.tree, (g, st.rng.2)⟩ ht.logged hi)).1 _ _ h2
  refine ⟨s, x, path, evs, rolls, ending, ⟨g, rfl⟩, ⟨k1.log, k1.chained, k1.within, k1.linked, k1.rollsOk, k1.result, k1.nodes, k1.acts⟩, ?_⟩
  exact k2

theorem linked_isPath {t : Tree β} (ha : ∀ i a o j, t.next i a o = some j → t.anode i a ≠ none) : ∀ (path : List (Nat × Nat)) (evs : List Ev) (i : Nat)
    (last : Option Nat), LinkedRun t i path evs last → (∀ x ∈ path, t.anode x.1 x.2 ≠ none) → IsTreePath t path := by
  intro path
  induction path with
  | nil => intro _ _ _ _ _; trivial
  | cons x path ih =>
      intro evs i last h hx
      obtain ⟨j, a⟩ := x
      cases evs with
      | nil => cases h
      | cons e evs =>
          obtain ⟨rfl, rfl, h⟩ := h
          cases path with
          | nil => exact hx _ (by simp)
          | cons y path =>
              rcases h with ⟨_, h, _⟩ | ⟨k, h1, h2⟩
              · cases h
              · refine ⟨⟨e.obs, ?_⟩, ih evs k last h2 (fun x hx' => hx x (by simp [hx']))⟩
                have : y.1 = k := by
                  obtain ⟨y1, y2⟩ := y
                  cases evs with
                  | nil => cases h2
                  | cons e' evs => exact h2.1
                rw [this]; exact h1

theorem isPath_grows {t t' : Tree β} (hg : Tree.Grows t t') : ∀ {path : List (Nat × Nat)}, (∀ x ∈ path, x.1 < t.size) → IsTreePath t path → IsTreePath t' path := by
  intro path
  induction path with
  | nil => intro _ _; trivial
  | cons x path ih =>
      intro hx h
      cases path with
      | nil => exact hg.anode _ _ (hx _ (by simp)) h
      | cons y path =>
          obtain ⟨⟨o, h1⟩, h2⟩ := h
          exact ⟨⟨o, hg.next _ _ _ _ (hx _ (by simp)) h1⟩, ih (fun x h => hx x (by simp [h])) h2⟩

/-- In a plain tree the numbers of the nodes increase. -/
theorem isPath_increasing {t : Tree β} (ht : TInv S b0 t) (hs : S.shared = false) : ∀ {path : List (Nat × Nat)}, IsTreePath t path →
    (path.map Prod.fst).Pairwise (· < ·) := by
  intro path
  induction path with
  | nil => intro _; simp
  | cons x path ih =>
      intro h
      cases path with
      | nil => simp
      | cons y path =>
          obtain ⟨⟨o, h1⟩, h2⟩ := h
          have h3 := ih h2
          have h4 := (ht.range _ _ _ _ h1).2 hs
          rw [List.map_cons, List.pairwise_cons]
          refine ⟨fun k hk => ?_, h3⟩
          rw [List.map_cons] at hk h3
          rcases List.mem_cons.1 hk with rfl | hk
          · exact h4
          · exact lt_trans h4 ((List.pairwise_cons.1 h3).1 k hk)

/-- The node at the end of the path is after all the others in a plain tree. -/
theorem linked_last {t : Tree β} (ht : TInv S b0 t) (hs : S.shared = false) : ∀ (path : List (Nat × Nat)) (evs : List Ev) (i j : Nat),
    LinkedRun t i path evs (some j) → ∀ x ∈ path, x.1 < j := by
  intro path
  induction path with
  | nil => simp
  | cons x path ih =>
      intro evs i j h
      obtain ⟨x1, a⟩ := x
      cases evs with
      | nil => cases h
      | cons e evs =>
          obtain ⟨rfl, rfl, h⟩ := h
          rcases h with ⟨_, _, _, h⟩ | ⟨k, h1, h2⟩
          · cases h
          · have hk := ih evs k j h2
            have h4 := (ht.range _ _ _ _ h1).2 hs
            have hkj : k ≤ j := by
              cases path with
              | nil =>
                  cases evs with
                  | nil => have h2' : some j = some k := h2
                           simp only [Option.some.injEq] at h2'; omega
                  | cons _ _ => cases h2
              | cons y path =>
                  obtain ⟨y1, y2⟩ := y
                  cases evs with
                  | nil => cases h2
                  | cons _ _ =>
                      have e1 : y1 = k := h2.1
                      have := hk (y1, y2) (by simp)
                      simp only at this
                      omega
            intro x hx
            rcases List.mem_cons.1 hx with rfl | hx
            · show x1 < j
              omega
            · exact hk x hx

/-- The visits of one simulation. -/
theorem simulateFromNode_counts (hq : QuietSim S.sim) {i : Nat} {act : Option Nat} {st st' : SearchState σ β}
    (ht : TInv S b0 st.tree) (hi : i < st.tree.size) (hrun : simulateFromNode S i act st = (.ok (), st')) :
    ∃ path : List (Nat × Nat), ∃ extra : Option Nat, IsTreePath st'.tree path ∧ (∀ x ∈ path, x.1 < st'.tree.size ∧ x.2 < S.sim.nActions) ∧
      (∀ j, extra = some j → j < st'.tree.size ∧ (S.shared = false → j ∉ path.map Prod.fst)) ∧
      (∀ j, nodeVisits st'.tree j = nodeVisits st.tree j + (path.map Prod.fst).count j + (if extra = some j then 1 else 0)) ∧
      (∀ j a, actionVisits st'.tree j a = actionVisits st.tree j a + path.count (j, a)) ∧
      (S.hor.isReached S.horizon = true → path = [] ∧ extra = none) ∧
      (S.hor.isReached S.horizon = false → ∃ a p, path = (i, a) :: p ∧
        (act = none → unexplored st.tree i ≠ [] → a ∈ unexplored st.tree i) ∧ (∀ b, act = some b → a = b)) := by
  have hp := simulateFromNode_proj S i act ⟨st.tree, (st.rng, [])⟩
  rw [show eraseLog (⟨st.tree, (st.rng, [])⟩ : SearchState (σ × List Ev) β) = st from rfl, hrun] at hp
  rcases hl : simulateFromNode (loggedSearch S) i act ⟨st.tree, (st.rng, [])⟩ with ⟨r, st2⟩
  rw [hl] at hp
  simp only [Prod.mk.injEq] at hp
  obtain ⟨rfl, rfl⟩ := hp
  obtain ⟨ht', hg⟩ := (M.post_iff.1 (simulateFromNode_post i act st ht hi)).1 _ _ hrun
  obtain ⟨s, x, path, evs, rolls, ending, _, tr, hfirst⟩ := simulateFromNode_trace hq (st := ⟨st.tree, (st.rng, [])⟩) ht hi hl
  change TInv S b0 st2.tree at ht'
  have hx : ∀ x ∈ path, st2.tree.anode x.1 x.2 ≠ none := by
    intro x hx hn
    have := tr.acts x.1 x.2
    have hc : 0 < path.count (x.1, x.2) := List.count_pos_iff.2 hx
    rw [show actionVisits st2.tree x.1 x.2 = 0 by unfold actionVisits; rw [hn]; rfl] at this
    omega
  have hnext : ∀ i a o j, st2.tree.next i a o = some j → st2.tree.anode i a ≠ none := by
    intro i a o j h hn
    unfold Tree.next at h
    rw [hn] at h
    cases h
  refine ⟨path, rolledNode S.hor (horizonAfter S.hor S.horizon evs) ending, linked_isPath hnext _ _ _ _ tr.linked hx, ?_, ?_, tr.nodes, tr.acts, ?_, ?_⟩
  · intro x hxp
    refine ⟨?_, actionVisits_lt ht' (hx x hxp)⟩
    by_contra hc
    exact hx x hxp ((ht'.fresh x.1 (not_lt.1 hc)).2 x.2)
  · intro j hj
    refine ⟨?_, fun hs hm => ?_⟩
    · by_contra hc
      have := (ht'.fresh j (not_lt.1 hc)).1
      have h2 := tr.nodes j
      rw [show rolledNode (loggedSearch S).hor (horizonAfter (loggedSearch S).hor S.horizon evs) ending = some j from hj] at h2
      simp only [if_true] at h2
      omega
    · obtain ⟨y, hy, rfl⟩ := List.mem_map.1 hm
      have he : ending.node = some y.1 := by
        unfold rolledNode at hj
        split at hj
        · split at hj
          · cases hj
          · exact hj
        · cases hj
      have hl := tr.linked
      rw [he] at hl
      have := linked_last ht' hs _ _ _ _ hl y hy
      omega
  · intro hr
    have hw := tr.within
    have hlk := tr.linked
    cases evs with
    | cons e evs =>
        have : S.hor.isReached S.horizon = false := hw.1
        rw [hr] at this; cases this
    | nil =>
        cases path with
        | cons y path => obtain ⟨y1, y2⟩ := y; cases hlk
        | nil =>
            refine ⟨rfl, ?_⟩
            unfold rolledNode
            split
            · rw [if_pos]
              show S.hor.isReached S.horizon = true
              exact hr
            · rfl
  · intro hr
    obtain ⟨a, p, e1, e2, e3, _⟩ := hfirst hr
    exact ⟨a, p, e1, fun h => (e2 h).2.1, e3⟩

/-! ### Sums over the actions -/

theorem sum_if_range (n b : Nat) (hb : b < n) : ((List.range n).map fun a => if a = b then 1 else 0).sum = 1 := by
  induction n with
  | zero => omega
  | succ n ih =>
      rw [List.range_succ, List.map_append, List.sum_append]
      by_cases h : b < n
      · rw [ih h]; simp; omega
      · have : b = n := by omega
        subst this
        have h0 : ((List.range b).map fun a => if a = b then 1 else 0).sum = 0 := by
          apply List.sum_eq_zero
          intro x hx
          obtain ⟨a, ha, rfl⟩ := List.mem_map.1 hx
          rw [if_neg (by have := List.mem_range.1 ha; omega)]
        rw [h0]; simp

theorem sum_map_add_nat (l : List Nat) (f g : Nat → Nat) : (l.map fun a => f a + g a).sum = (l.map f).sum + (l.map g).sum := by
  induction l with
  | nil => rfl
  | cons x l ih => simp only [List.map_cons, List.sum_cons, ih]; omega

theorem count_sum (n i : Nat) : ∀ (path : List (Nat × Nat)), (∀ x ∈ path, x.2 < n) →
    ((List.range n).map fun a => path.count (i, a)).sum = (path.map Prod.fst).count i := by
  intro path
  induction path with
  | nil => intro _; simp
  | cons x path ih =>
      intro h
      obtain ⟨j, b⟩ := x
      have hb := h (j, b) (by simp)
      simp only [List.map_cons, List.count_cons]
      rw [sum_map_add_nat, ih (fun x hx => h x (by simp [hx]))]
      congr 1
      by_cases hj : j = i
      · subst hj
        rw [if_pos (by simp)]
        refine Eq.trans ?_ (sum_if_range n b hb)
        congr 1
        apply List.map_congr_left
        intro a _
        by_cases e : a = b
        · simp [e]
        · rw [if_neg e, if_neg]
          simpa using fun e' => e e'.symm
      · rw [if_neg (by simpa using hj)]
        apply List.sum_eq_zero
        intro y hy
        obtain ⟨a, _, rfl⟩ := List.mem_map.1 hy
        rw [if_neg]
        simp [hj]

theorem actionSum_eq {t : Tree β} (ht : TInv S b0 t) (i : Nat) :
    actionSum t i = ((List.range S.sim.nActions).map fun a => actionVisits t i a).sum := by
  unfold actionSum
  congr 1
  apply List.ext_getElem
  · simp [ht.len]
  · intro a h1 h2
    simp only [List.length_map] at h1
    simp only [List.getElem_map, List.getElem_range]
    unfold actionVisits Tree.anode
    rw [List.getElem?_eq_getElem h1]
    rfl

/-- The visits of several simulations. -/
theorem runTreeOps_counts (hq : QuietSim S.sim) (ops : List TreeOp) : ∀ (st : SearchState σ β), TInv S b0 st.tree →
    ∃ paths : List (List (Nat × Nat)), ∃ extras : List Nat, paths.length ≤ ops.length ∧ extras.length ≤ paths.length ∧
      (∀ path ∈ paths, IsTreePath (runTreeOps S st ops).tree path ∧
        ∀ x ∈ path, x.1 < (runTreeOps S st ops).tree.size ∧ x.2 < S.sim.nActions) ∧
      (∀ j, nodeVisits (runTreeOps S st ops).tree j = nodeVisits st.tree j + (paths.map fun p => (p.map Prod.fst).count j).sum +
        extras.count j) ∧
      (∀ j a, actionVisits (runTreeOps S st ops).tree j a = actionVisits st.tree j a + (paths.map fun p => p.count (j, a)).sum) := by
  induction ops with
  | nil => intro st _; exact ⟨[], [], by simp, by simp, by simp, by intro j; simp [runTreeOps], by intro j a; simp [runTreeOps]⟩
  | cons op ops ih =>
      intro st ht
      obtain ⟨h1, h2⟩ := runTreeOp_inv op st ht
      obtain ⟨paths, extras, k1, k2, k3, k4, k5⟩ := ih _ h1
      have hsame : SameCounts st.tree (runTreeOp S st op).tree → ∃ paths : List (List (Nat × Nat)), ∃ extras : List Nat,
          paths.length ≤ (op :: ops).length ∧ extras.length ≤ paths.length ∧
          (∀ path ∈ paths, IsTreePath (runTreeOps S st (op :: ops)).tree path ∧
            ∀ x ∈ path, x.1 < (runTreeOps S st (op :: ops)).tree.size ∧ x.2 < S.sim.nActions) ∧
          (∀ j, nodeVisits (runTreeOps S st (op :: ops)).tree j = nodeVisits st.tree j +
            (paths.map fun p => (p.map Prod.fst).count j).sum + extras.count j) ∧
          (∀ j a, actionVisits (runTreeOps S st (op :: ops)).tree j a = actionVisits st.tree j a +
            (paths.map fun p => p.count (j, a)).sum) := by
        intro hc
        refine ⟨paths, extras, by simp; omega, k2, k3, fun j => ?_, fun j a => ?_⟩
        · rw [← hc.1 j]; exact k4 j
        · rw [← hc.2 j a]; exact k5 j a
      cases op with
      | getNode h =>
          apply hsame
          exact post_state (m := getNode S h) (P := fun s' => SameCounts st.tree s'.tree)
            (M.post_mono (getNode_post h st ht) (fun _ _ h => h.2.2.1) (fun _ _ h => h.2.2))
      | simulate i act =>
          by_cases hi : i < st.tree.size
          · have hrun : runTreeOp S st (.simulate i act) = (simulateFromNode S i act st).2 := if_pos hi
            rcases hr : simulateFromNode S i act st with ⟨r, st1⟩
            rw [hr] at hrun
            cases r with
            | error e =>
                apply hsame
                rw [hrun]
                exact ((M.post_iff.1 (simulateFromNode_post i act st ht hi)).2 _ _ hr).2.2
            | ok u =>
                obtain ⟨path, extra, p1, p2, p3, p4, p5, _⟩ := simulateFromNode_counts hq ht hi hr
                have hg : Tree.Grows st1.tree (runTreeOps S st1 ops).tree := (runTreeOps_inv ops st1 (by rw [hrun] at h1; exact h1)).2
                have hst : runTreeOps S st (.simulate i act :: ops) = runTreeOps S st1 ops := by
                  show runTreeOps S (runTreeOp S st (.simulate i act)) ops = _
                  rw [hrun]
                rw [hrun] at k3 k4 k5
                rw [hst]
                refine ⟨path :: paths, extra.toList ++ extras, by simp; omega, ?_, ?_, fun j => ?_, fun j a => ?_⟩
                · cases extra <;> simp <;> omega
                · intro q hq'
                  rcases List.mem_cons.1 hq' with rfl | hq'
                  · exact ⟨isPath_grows hg (fun x hx => (p2 x hx).1) p1, fun x hx => ⟨lt_of_lt_of_le (p2 x hx).1 hg.size, (p2 x hx).2⟩⟩
                  · exact k3 q hq'
                · rw [k4 j, p4 j]
                  simp only [List.map_cons, List.sum_cons, List.count_append]
                  have : extra.toList.count j = if extra = some j then 1 else 0 := by
                    cases extra with
                    | none => simp
                    | some k => by_cases e : k = j <;> simp [e]
                  rw [this]
                  omega
                · rw [k5 j a, p5 j a]
                  simp only [List.map_cons, List.sum_cons]
                  omega
          · apply hsame
            have hrun : runTreeOp S st (.simulate i act) = st := if_neg hi
            rw [hrun]
            exact .refl _

end
end Verif
