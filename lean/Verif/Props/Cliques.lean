import Verif.Proof.Cliques
import Verif.Spec.Chains
import Verif.Props.TaskGraph

/-! Properties C11 and C12 (maximal cliques). -/

set_option linter.unusedSectionVars false
set_option linter.unusedSimpArgs false

namespace Verif
open Spec BaseGraph Cliques
variable {α A S : Type} [DecidableEq α] [DecidableEq A] [DecidableEq S]

/-- The documented precondition of `max_cliques`: `graph` is a dictionary (each key once) of sets of keys such that
`v in graph[u]` implies `u in graph[v]`. -/
def SymmetricDict (graph : List (α × List α)) : Prop :=
  (graph.map Prod.fst).Nodup ∧
  ∀ u s, (u, s) ∈ graph → ∀ v ∈ s, ∃ s', (v, s') ∈ graph ∧ u ∈ s'

/-- `v in graph[u]`. -/
def AdjIn (graph : List (α × List α)) (u v : α) : Prop := ∃ s, (u, s) ∈ graph ∧ v ∈ s

theorem symGraph_of_dict {graph : List (α × List α)} (h : SymmetricDict graph) : SymGraph graph (AdjIn graph) := by
  refine ⟨h.1, ?_, ?_, ?_⟩
  · intro u hu
    obtain ⟨⟨k, s⟩, hks, rfl⟩ := List.mem_map.1 hu
    refine ⟨s, ?_, ?_⟩
    · simp [nbrs, dget_of_mem h.1 hks]
    · intro v
      constructor
      · exact fun hv => ⟨s, hks, hv⟩
      · rintro ⟨s', hs', hv⟩
        have h1 := dget_of_mem h.1 hks
        have h2 := dget_of_mem h.1 hs'
        rw [h1] at h2
        cases h2
        exact hv
  · rintro u v ⟨s, hs, _⟩
    exact List.mem_map.2 ⟨_, hs, rfl⟩
  · rintro u v ⟨s, hs, hv⟩
    obtain ⟨s', h1, h2⟩ := h.2 u s hs v hv
    exact ⟨s', h1, h2⟩

theorem nonTrivial_iff (o : List α) (h : o.Nodup) : NonTrivial (· ∈ o) ↔ o.length > 1 := by
  constructor
  · rintro ⟨u, v, hu, hv, huv⟩
    rcases o with _ | ⟨a, _ | ⟨b, o⟩⟩
    · simp at hu
    · simp at hu hv
      exact absurd (hu.trans hv.symm) huv
    · simp
  · intro hl
    rcases o with _ | ⟨a, _ | ⟨b, o⟩⟩
    · simp at hl
    · simp at hl
    · refine ⟨a, b, by simp, by simp, ?_⟩
      rintro rfl
      simp at h

theorem maxCliques_loopless {graph : List (α × List α)} {adj : α → α → Prop} (G : SymGraph graph adj)
    (ord : List α → List α → List α) (hord : ∀ r l, (ord r l).Perm l) (fuel : Nat) (hf : graph.length < fuel) :
    ∃ outs, maxCliques graph ord fuel = .ok outs ∧ ExactlyLooplessMaxCliques (· ∈ graph.map Prod.fst) adj outs := by
  have I : BkInv graph adj [] (graph.map Prod.fst) [] := by
    refine ⟨by simp, G.keys, by simp, ?_, by simp, by simp⟩
    intro u v hu
    simp at hu
  obtain ⟨outs, ho, he⟩ := bk_spec G ord hord fuel [] (graph.map Prod.fst) [] I (by simpa using hf)
  have hP : ∀ K, Resp graph adj [] [] K ↔ MaxClique (· ∈ graph.map Prod.fst) adj K ∧ Loopless adj K := by
    intro K
    simp [Resp]
  refine ⟨outs.filter fun c => decide (c.length > 1), ?_, ?_, ?_, ?_⟩
  · simp [maxCliques, ho, bind, Except.bind, pure, Except.pure]
  · intro o hoin
    rw [List.mem_filter, decide_eq_true_eq] at hoin
    have h1 := he.1 o hoin.1
    have h2 := (hP _).1 h1.2
    exact ⟨h1.1, h2.1, (nonTrivial_iff o h1.1).2 hoin.2, h2.2⟩
  · intro K hK hnt hll
    obtain ⟨o, hoin, hoK⟩ := he.2.1 K ((hP K).2 ⟨hK, hll⟩)
    refine ⟨o, ?_, hoK⟩
    rw [List.mem_filter, decide_eq_true_eq]
    refine ⟨hoin, (nonTrivial_iff o (he.1 o hoin).1).1 ?_⟩
    obtain ⟨u, v, hu, hv, huv⟩ := hnt
    exact ⟨u, v, (hoK u).2 hu, (hoK v).2 hv, huv⟩
  · exact he.2.2.sublist List.filter_sublist

theorem maxCliques_of_sym {graph : List (α × List α)} {adj : α → α → Prop} (G : SymGraph graph adj)
    (hir : ∀ u, ¬ adj u u) (ord : List α → List α → List α) (hord : ∀ r l, (ord r l).Perm l) (fuel : Nat)
    (hf : graph.length < fuel) :
    ∃ outs, maxCliques graph ord fuel = .ok outs ∧ ExactlyMaxCliques (· ∈ graph.map Prod.fst) adj outs := by
  obtain ⟨outs, h1, h2, h3, h4⟩ := maxCliques_loopless G ord hord fuel hf
  exact ⟨outs, h1, fun o ho => ⟨(h2 o ho).1, (h2 o ho).2.1, (h2 o ho).2.2.1⟩,
    fun K hK hnt => h3 K hK hnt (fun u _ => hir u), h4⟩

/-- **C11.**  For a symmetric graph without self-loops and any iteration orders, `max_cliques` does not fail with a
recursion limit larger than the number of nodes, and it yields every maximal clique with at least two nodes exactly once
and nothing else. -/
theorem C11_maxCliques (graph : List (α × List α)) (h : SymmetricDict graph) (hir : ∀ u s, (u, s) ∈ graph → u ∉ s)
    (ord : List α → List α → List α) (hord : ∀ r l, (ord r l).Perm l) (limit : Nat) (hf : graph.length < limit) :
    ∃ outs, maxCliques graph ord limit = .ok outs ∧
      ExactlyMaxCliques (· ∈ graph.map Prod.fst) (AdjIn graph) outs :=
  maxCliques_of_sym (symGraph_of_dict h) (fun u ⟨s, hs, hu⟩ => hir u s hs hu) ord hord limit hf

/-- Non-vacuity of C11: a triangle with a pendant node and an isolated node. -/
example : SymmetricDict [(1, [2, 3]), (2, [1, 3]), (3, [1, 2, 4]), (4, [3]), (5, [])] ∧
    (∀ u s, (u, s) ∈ [(1, [2, 3]), (2, [1, 3]), (3, [1, 2, 4]), (4, [3]), (5, [])] → u ∉ s) ∧
    maxCliques [(1, [2, 3]), (2, [1, 3]), (3, [1, 2, 4]), (4, [3]), (5, [])] (fun _ l => l) 6 =
      .ok [[3, 1, 2], [3, 4]] := by
  refine ⟨⟨by decide, ?_⟩, ?_, by decide⟩
  · intro u s h
    simp only [List.mem_cons, Prod.mk.injEq, List.not_mem_nil, or_false] at h
    rcases h with ⟨rfl, rfl⟩ | ⟨rfl, rfl⟩ | ⟨rfl, rfl⟩ | ⟨rfl, rfl⟩ | ⟨rfl, rfl⟩ <;> simp
  · intro u s h
    simp only [List.mem_cons, Prod.mk.injEq, List.not_mem_nil, or_false] at h
    rcases h with ⟨rfl, rfl⟩ | ⟨rfl, rfl⟩ | ⟨rfl, rfl⟩ | ⟨rfl, rfl⟩ | ⟨rfl, rfl⟩ <;> decide

/-- **C11 (self-loops).**  When nodes may be adjacent to themselves, which the documentation of `max_cliques` does not
exclude, `max_cliques` yields exactly the maximal cliques that contain no such node. -/
theorem C11_selfLoops (graph : List (α × List α)) (h : SymmetricDict graph)
    (ord : List α → List α → List α) (hord : ∀ r l, (ord r l).Perm l) (limit : Nat) (hf : graph.length < limit) :
    ∃ outs, maxCliques graph ord limit = .ok outs ∧
      ExactlyLooplessMaxCliques (· ∈ graph.map Prod.fst) (AdjIn graph) outs :=
  maxCliques_loopless (symGraph_of_dict h) ord hord limit hf

/-- Non-vacuity of `C11_selfLoops`: `1` is adjacent to itself; the clique `{1, 2}` is missed and `{2, 3}` is found. -/
example : SymmetricDict [(1, [1, 2]), (2, [1, 3]), (3, [2])] ∧
    maxCliques [(1, [1, 2]), (2, [1, 3]), (3, [2])] (fun _ l => l) 4 = .ok [[3, 2]] := by
  refine ⟨⟨by decide, ?_⟩, by decide⟩
  intro u s h
  simp only [List.mem_cons, Prod.mk.injEq, List.not_mem_nil, or_false] at h
  rcases h with ⟨rfl, rfl⟩ | ⟨rfl, rfl⟩ | ⟨rfl, rfl⟩ <;> simp

/-- `max_cliques` returns on every symmetric graph, with or without self-loops. -/
theorem C11_terminates (graph : List (α × List α)) (h : SymmetricDict graph)
    (ord : List α → List α → List α) (hord : ∀ r l, (ord r l).Perm l) (limit : Nat) (hf : graph.length < limit) :
    ∃ outs, maxCliques graph ord limit = .ok outs := by
  obtain ⟨outs, ho⟩ := bk_total (symGraph_of_dict h) ord hord limit [] (graph.map Prod.fst) [] h.1 (fun u hu => hu)
    (by simpa using hf)
  exact ⟨_, by simp only [maxCliques, ho, bind, Except.bind, pure, Except.pure]; rfl⟩

/-- Transitions in both directions. -/
def Mutual (g : BaseGraph A S) (u v : A) : Prop := Edge g u v ∧ Edge g v u

theorem symGraph_of_graph (g : BaseGraph A S) (hw : WF g) (order : List (A × S × A)) (nodeOrder : List A)
    (uniqOrd : List (A × A) → List (A × A)) (ho : order.Perm g.allTransitions) (hno : nodeOrder.Perm (allNodes order))
    (hu : ∀ l, (uniqOrd l).Perm l) :
    ∃ sym, (uniqOrd (setOf (order.map fun t => (t.1, t.2.2)))).foldlM
        (symStep (setOf (order.map fun t => (t.1, t.2.2)))) (nodeOrder.map fun n => (n, [])) = .ok sym ∧
      sym.map Prod.fst = nodeOrder ∧ SymGraph sym (Mutual g) ∧ ∀ u, u ∈ nodeOrder ↔ ∃ v, Edge g u v ∨ Edge g v u := by
  have hnd : nodeOrder.Nodup := hno.nodup_iff.2 (nodup_allNodes _ _ (by simp))
  have hedge : ∀ u v, (u, v) ∈ setOf (order.map fun t => (t.1, t.2.2)) ↔ Edge g u v := by
    intro u v
    simp only [mem_setOf, List.mem_map, Prod.mk.injEq]
    constructor
    · rintro ⟨⟨s, l, d⟩, h, rfl, rfl⟩
      exact ⟨l, (mem_all hw _ _ _).1 (ho.mem_iff.1 h)⟩
    · rintro ⟨l, h⟩
      exact ⟨(u, l, v), ho.mem_iff.2 ((mem_all hw _ _ _).2 h), rfl, rfl⟩
  have hnode : ∀ u, u ∈ nodeOrder ↔ ∃ v, Edge g u v ∨ Edge g v u := by
    intro u
    rw [hno.mem_iff, allNodes, mem_allNodes]
    simp only [List.not_mem_nil, false_or]
    constructor
    · rintro ⟨⟨s, l, d⟩, h, rfl | rfl⟩
      · exact ⟨d, Or.inl ⟨l, (mem_all hw _ _ _).1 (ho.mem_iff.1 h)⟩⟩
      · exact ⟨s, Or.inr ⟨l, (mem_all hw _ _ _).1 (ho.mem_iff.1 h)⟩⟩
    · rintro ⟨v, ⟨l, h⟩ | ⟨l, h⟩⟩
      · exact ⟨(u, l, v), ho.mem_iff.2 ((mem_all hw _ _ _).2 h), Or.inl rfl⟩
      · exact ⟨(v, l, u), ho.mem_iff.2 ((mem_all hw _ _ _).2 h), Or.inr rfl⟩
  obtain ⟨sym, h1, h2, h3⟩ := symStep_spec (setOf (order.map fun t => (t.1, t.2.2))) nodeOrder
    (fun p hp => by
      obtain ⟨u, v⟩ := p
      have := (hedge u v).1 hp
      exact ⟨(hnode u).2 ⟨v, Or.inl this⟩, (hnode v).2 ⟨u, Or.inr this⟩⟩)
    (uniqOrd (setOf (order.map fun t => (t.1, t.2.2)))) (fun p hp => (hu _).mem_iff.1 hp)
    (nodeOrder.map fun n => (n, [])) hnd (by simp [Function.comp_def]) []
    (fun n hn => ⟨[], dget_of_mem (by simpa [Function.comp_def] using hnd) (List.mem_map.2 ⟨n, hn, rfl⟩), by simp⟩)
  refine ⟨sym, h1, h2, ⟨by rw [h2]; exact hnd, ?_, ?_, ?_⟩, hnode⟩
  · intro u hun
    rw [h2] at hun
    obtain ⟨s, hs, hm⟩ := h3 u hun
    refine ⟨s, by simp [nbrs, hs], ?_⟩
    intro v
    rw [hm, List.nil_append, (hu _).mem_iff, (hu _).mem_iff, hedge, hedge, Mutual]
    constructor
    · exact fun h => h.2
    · exact fun h => ⟨Or.inl h.1, h⟩
  · intro u v h
    rw [h2]
    exact (hnode u).2 ⟨v, Or.inl h.1⟩
  · intro u v h
    exact ⟨h.2, h.1⟩

theorem getMaxCliques_loopless (g : BaseGraph A S) (hw : WF g) (order : List (A × S × A)) (nodeOrder : List A)
    (uniqOrd : List (A × A) → List (A × A)) (ord : List A → List A → List A) (limit : Nat)
    (ho : order.Perm g.allTransitions) (hno : nodeOrder.Perm (allNodes order))
    (hu : ∀ l, (uniqOrd l).Perm l) (hord : ∀ r l, (ord r l).Perm l) (hf : nodeOrder.length < limit) :
    ∃ outs, getMaxCliques nodeOrder order uniqOrd ord limit = .ok outs ∧
      ExactlyLooplessMaxCliques (fun u => ∃ v, Edge g u v ∨ Edge g v u) (Mutual g) outs := by
  obtain ⟨sym, h1, h2, G, hn⟩ := symGraph_of_graph _ hw order nodeOrder uniqOrd ho hno hu
  obtain ⟨outs, h3, h4⟩ := maxCliques_loopless G ord hord limit (by
    have := congrArg List.length h2
    simp only [List.length_map] at this
    omega)
  have heq : (fun u => u ∈ sym.map Prod.fst) = (fun u => ∃ v, Edge g u v ∨ Edge g v u) := by
    funext u
    rw [h2]
    exact propext (hn u)
  rw [heq] at h4
  refine ⟨outs, ?_, h4⟩
  simp only [getMaxCliques, h1, bind, Except.bind]
  exact h3

/-- **C12 (partial).**  For every graph (whatever sequence of additions and removals built it) and any iteration orders,
`get_max_cliques` returns and yields exactly the maximal sets, of at least two nodes, of nodes with transitions both ways
between any two of them, that contain no node with a transition to itself, once each.  (Missing: the sets that contain
such a node, which are never yielded, so that the property is false, `C12_false_selfLoop`.) -/
theorem C12_loopless_partial (ops : List (GraphOp A S)) (order : List (A × S × A)) (nodeOrder : List A)
    (uniqOrd : List (A × A) → List (A × A)) (ord : List A → List A → List A) (limit : Nat)
    (ho : order.Perm (runOps {} ops : BaseGraph A S).allTransitions) (hno : nodeOrder.Perm (allNodes order))
    (hu : ∀ l, (uniqOrd l).Perm l) (hord : ∀ r l, (ord r l).Perm l) (hf : nodeOrder.length < limit) :
    ∃ outs, getMaxCliques nodeOrder order uniqOrd ord limit = .ok outs ∧
      ExactlyLooplessMaxCliques (fun u => ∃ v, Edge (runOps {} ops : BaseGraph A S) u v ∨ Edge (runOps {} ops) v u)
        (Mutual (runOps {} ops)) outs :=
  getMaxCliques_loopless _ (runOps_wf _ wf_empty ops) order nodeOrder uniqOrd ord limit ho hno hu hord hf

/-- **C12 (partial).**  In particular, for a graph without transitions from a node to itself, `get_max_cliques` yields
exactly the maximal sets, of at least two nodes, of nodes with transitions both ways between any two of them, once
each. -/
theorem C12_partial (ops : List (GraphOp A S)) (order : List (A × S × A)) (nodeOrder : List A)
    (uniqOrd : List (A × A) → List (A × A)) (ord : List A → List A → List A) (limit : Nat)
    (ho : order.Perm (runOps {} ops : BaseGraph A S).allTransitions) (hno : nodeOrder.Perm (allNodes order))
    (hu : ∀ l, (uniqOrd l).Perm l) (hord : ∀ r l, (ord r l).Perm l) (hf : nodeOrder.length < limit)
    (hself : ∀ u, ¬ Edge (runOps {} ops : BaseGraph A S) u u) :
    ∃ outs, getMaxCliques nodeOrder order uniqOrd ord limit = .ok outs ∧
      ExactlyMaxCliques (fun u => ∃ v, Edge (runOps {} ops : BaseGraph A S) u v ∨ Edge (runOps {} ops) v u)
        (Mutual (runOps {} ops)) outs := by
  obtain ⟨outs, h1, h2, h3, h4⟩ := C12_loopless_partial ops order nodeOrder uniqOrd ord limit ho hno hu hord hf
  exact ⟨outs, h1, fun o ho => ⟨(h2 o ho).1, (h2 o ho).2.1, (h2 o ho).2.2.1⟩,
    fun K hK hnt => h3 K hK hnt (fun u _ h => hself u h.1), h4⟩

/-- **C12 (termination).**  `get_max_cliques` returns for every graph, self transitions included. -/
theorem C12_terminates (ops : List (GraphOp A S)) (order : List (A × S × A)) (nodeOrder : List A)
    (uniqOrd : List (A × A) → List (A × A)) (ord : List A → List A → List A) (limit : Nat)
    (ho : order.Perm (runOps {} ops : BaseGraph A S).allTransitions) (hno : nodeOrder.Perm (allNodes order))
    (hu : ∀ l, (uniqOrd l).Perm l) (hord : ∀ r l, (ord r l).Perm l) (hf : nodeOrder.length < limit) :
    ∃ outs, getMaxCliques nodeOrder order uniqOrd ord limit = .ok outs := by
  have hw : WF (runOps {} ops : BaseGraph A S) := runOps_wf _ wf_empty ops
  obtain ⟨sym, h1, h2, G, hn⟩ := symGraph_of_graph _ hw order nodeOrder uniqOrd ho hno hu
  obtain ⟨all, h3⟩ := bk_total G ord hord limit [] (sym.map Prod.fst) [] G.keys (fun u h => h) (by
    rw [h2]
    exact hf)
  refine ⟨all.filter fun c => decide (c.length > 1), ?_⟩
  simp only [getMaxCliques, h1, bind, Except.bind, maxCliques, h3, pure, Except.pure]

/-- **C12 is false of the code.**  `1 ⇄ 2` with a transition from `1` to itself: the clique `{1, 2}` is never yielded,
whatever the iteration orders. -/
theorem C12_false_selfLoop :
    let g : BaseGraph Nat Char := runOps {} [.add 1 'a' 2, .add 2 'b' 1, .add 1 'c' 1]
    MaxClique (fun u => ∃ v, Edge g u v ∨ Edge g v u) (Mutual g) (fun u => u = 1 ∨ u = 2) ∧
    ∀ ord : List Nat → List Nat → List Nat, (∀ r l, (ord r l).Perm l) →
      getMaxCliques [1, 2] g.allTransitions (fun l => l) ord 10 = .ok [] := by
  intro g
  have hhas : ∀ u l v, g.hasTransition u l v = true ↔
      (u, l, v) = (1, 'a', 2) ∨ (u, l, v) = (2, 'b', 1) ∨ (u, l, v) = (1, 'c', 1) := by
    intro u l v
    rw [show g = ((({} : BaseGraph Nat Char).addTransition 1 'a' 2).addTransition 2 'b' 1).addTransition 1 'c' 1
      from rfl, has_add, has_add, has_add]
    simp [hasTransition, dget, or_assoc]
  refine ⟨⟨?_, ?_, ?_⟩, ?_⟩
  · rintro u (rfl | rfl)
    · exact ⟨2, Or.inl ⟨'a', by rw [hhas]; simp⟩⟩
    · exact ⟨1, Or.inl ⟨'b', by rw [hhas]; simp⟩⟩
  · rintro u v (rfl | rfl) (rfl | rfl) h
    · exact absurd rfl h
    · exact ⟨⟨'a', by rw [hhas]; simp⟩, ⟨'b', by rw [hhas]; simp⟩⟩
    · exact ⟨⟨'b', by rw [hhas]; simp⟩, ⟨'a', by rw [hhas]; simp⟩⟩
    · exact absurd rfl h
  · rintro w ⟨v, ⟨l, h⟩ | ⟨l, h⟩⟩ hK <;> rw [hhas] at h <;> exfalso <;> apply hK <;>
      simp only [Prod.mk.injEq] at h <;> omega
  · intro ord hord
    have key : ∀ l : List Nat, l.Perm [1, 2] → l = [1, 2] ∨ l = [2, 1] := by
      intro l hl
      have hlen := hl.length_eq
      have hnd := hl.nodup_iff.2 (by simp)
      rcases l with _ | ⟨a, _ | ⟨b, _ | ⟨c, l⟩⟩⟩ <;> simp at hlen
      have ha := hl.mem_iff (a := a)
      have hb := hl.mem_iff (a := b)
      simp at ha hb hnd
      rcases ha with rfl | rfl <;> rcases hb with rfl | rfl <;> simp at hnd ⊢
    have h1 := key _ (hord [] [1, 2])
    have h2 : ord [] [] = [] := (hord [] []).eq_nil
    have hsym : (setOf (g.allTransitions.map fun t => (t.1, t.2.2))).foldlM
        (symStep (setOf (g.allTransitions.map fun t => (t.1, t.2.2)))) ([1, 2].map fun n => (n, [])) =
        .ok [(1, [2, 1]), (2, [1])] := by decide
    have hred : getMaxCliques [1, 2] g.allTransitions (fun l => l) ord 10 =
        maxCliques [(1, [2, 1]), (2, [1])] ord 10 := by
      unfold getMaxCliques
      dsimp only
      rw [hsym]
      rfl
    rw [hred]
    simp only [maxCliques, List.map_cons, List.map_nil]
    rcases h1 with h1 | h1
    · simp [bk, h1, bkLoop, pyMax, degIn, nbrs, dget, List.forM, bind, Except.bind, h2, Except.map, pure, Except.pure]
    · simp [bk, h1, bkLoop, pyMax, degIn, nbrs, dget, List.forM, bind, Except.bind, h2, Except.map, pure, Except.pure]

/-- Non-vacuity of C12: `1 ⇄ 2`, `2 ⇄ 3`, `1 ⇄ 3`, `3 → 4`. -/
example :
    let g : BaseGraph Nat Char := runOps {} [.add 1 'a' 2, .add 2 'b' 1, .add 2 'c' 3, .add 3 'c' 2, .add 1 'c' 3,
      .add 3 'd' 1, .add 3 'd' 4]
    getMaxCliques [1, 2, 3, 4] g.allTransitions (fun l => l) (fun _ l => l) 5 = .ok [[1, 2, 3]] := by
  decide

end Verif
