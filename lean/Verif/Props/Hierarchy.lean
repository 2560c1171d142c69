import Verif.Proof.HierarchyBase

/-! Property C80 (extraction of hierarchies). -/

set_option linter.unusedSectionVars false
set_option linter.unusedSimpArgs false

namespace Verif
open Spec BaseGraph TaskGraph Hierarchy Chains
variable {S : Type} [DecidableEq S]

section C80
variable (chk : Act → S → S → Bool) (ps : List (List (Elem S Act))) (ordS : List S → List S)
  (ordT : List (Act × S) → List (Act × S)) (hS : ∀ l, (ordS l).Perm l) (hT : ∀ l, (ordT l).Perm l)
  (hp : PlainActions chk ps) (c0 : ConjGraph Act S) (hc : conjGraph ordS ordT (addAll chk ps) = .ok c0)
  (emp : S) (os : Nat → Orders S) (ho : ∀ k, ValidOrders (os k)) (N : Nat) (hN : N = (nodesOf c0).length)
  (limit fuel rounds : Nat) (hlim : N < limit) (hfuel : (N * (2 * N + 2) + 1) * N + (2 * N + 2) < fuel)
  (hrounds : N ≤ rounds)
include hS hT hp hc ho hN hlim hfuel hrounds

theorem extract_inv : ∃ c' T', extract emp os limit fuel rounds c0 = .ok c' ∧ HInv c0 (nodesOf c0) c' T' ∧
    T'.Perm (nodesOf c') ∧ ((allNodes c'.toBaseGraph.allTransitions).length ≤ 1 ∨ Stuck c') := by
  subst hN
  have I := conj_inv hS hT hp hc
  by_cases hne : allNodes c0.toBaseGraph.allTransitions = []
  · have hpos := List.length_pos_of_mem I.ini
    obtain ⟨k, rfl⟩ : ∃ k, rounds = k + 1 := ⟨rounds - 1, by omega⟩
    refine ⟨c0, nodesOf c0, ?_, I, List.Perm.refl _, Or.inl (by simp [hne])⟩
    unfold extract
    rw [if_neg (by simp [hne])]
  · have hr := conj_reaches hS hT hc hne
    obtain ⟨c', T', h1, h2, h3⟩ := I.extract hr emp os ho limit fuel hlim hfuel rounds hrounds
    exact ⟨c', T', h1, h2, h2.nodes hr, h3⟩

/-- **C80.**  For every task graph made of paths whose actions are plain and do not use the two reserved names, and for
every iteration order of the sets: with as many rounds as the conjugate has nodes (and the recursion limit and the steps
of `get_max_chains` bounded by the number of nodes), the extraction returns a graph; no exception escapes. -/
theorem C80_returns : ∃ c', extract emp os limit fuel rounds c0 = .ok c' := by
  obtain ⟨c', _, h, _⟩ := extract_inv chk ps ordS ordT hS hT hp c0 hc emp os ho N hN limit fuel rounds hlim hfuel hrounds
  exact ⟨c', h⟩

variable (c' : ConjGraph Act S) (he : extract emp os limit fuel rounds c0 = .ok c')
include he

/-- **C80.**  The nodes of the result partition the nodes of the conjugate: each action, `initial` and `terminal` occurs
exactly once in exactly one of them. -/
theorem C80_partition : ((nodesOf c').flatMap atomsOf).Perm (nodesOf c0) := by
  obtain ⟨c1, T', h, I, hT', _⟩ :=
    extract_inv chk ps ordS ordT hS hT hp c0 hc emp os ho N hN limit fuel rounds hlim hfuel hrounds
  rw [he] at h
  cases h
  exact (hT'.symm.flatMap_right atomsOf).trans I.part

/-- **C80.**  Every group is justified by the transitions of the conjugate: consecutive members of a `sequence` come one
after the other, with nothing else in between, and any two members of a `parallel` follow each other in both orders;
this holds at all depths, and groups have at least two members. -/
theorem C80_groups : ∀ U ∈ nodesOf c', Justified c0.toBaseGraph U := by
  obtain ⟨c1, T', h, I, hT', _⟩ :=
    extract_inv chk ps ordS ordT hS hT hp c0 hc emp os ho N hN limit fuel rounds hlim hfuel hrounds
  rw [he] at h
  cases h
  exact fun U hU => I.just U (hT'.mem_iff.2 hU)

/-- **C80.**  The result is the quotient of the conjugate: two nodes are linked iff an action of the first is followed by
an action of the second (self transitions only remain on actions that are not in a group), and the initial and terminal
nodes of the result contain `initial` and `terminal`. -/
theorem C80_quotient :
    (∀ U V, Edge c'.toBaseGraph U V ↔ U ∈ nodesOf c' ∧ V ∈ nodesOf c' ∧ (U ≠ V ∨ U ∈ nodesOf c0) ∧
      CanFollow c0.toBaseGraph U V) ∧
    c0.initial ∈ atomsOf c'.initial ∧ c0.terminal ∈ atomsOf c'.terminal := by
  obtain ⟨c1, T', h, I, hT', _⟩ :=
    extract_inv chk ps ordS ordT hS hT hp c0 hc emp os ho N hN limit fuel rounds hlim hfuel hrounds
  rw [he] at h
  cases h
  refine ⟨?_, I.iniL, I.terL⟩
  intro U V
  rw [I.edge, hT'.mem_iff, hT'.mem_iff]

/-- **C80.**  The extraction goes on as long as something can be grouped: at the end there is at most one node, or no two
consecutive nodes that can be reached form a chain and every clique of at least two nodes that cannot be extended contains
a node that follows itself. -/
theorem C80_irreducible :
    (allNodes c'.toBaseGraph.allTransitions).length ≤ 1 ∨
    ((∀ u v, Reachable c'.toBaseGraph c'.initial u → ¬ Link c'.toBaseGraph u v) ∧
      ∀ K, MaxClique (fun u => ∃ v, Edge c'.toBaseGraph u v ∨ Edge c'.toBaseGraph v u) (Mutual c'.toBaseGraph) K →
        NonTrivial K → ∃ u, K u ∧ Edge c'.toBaseGraph u u) := by
  obtain ⟨c1, T', h, I, hT', h'⟩ :=
    extract_inv chk ps ordS ordT hS hT hp c0 hc emp os ho N hN limit fuel rounds hlim hfuel hrounds
  rw [he] at h
  cases h
  refine h'.imp id (fun hs => ⟨hs.1, ?_⟩)
  intro K hK hnt
  have := hs.2 K hK hnt
  unfold Loopless at this
  push Not at this
  obtain ⟨u, h1, h2⟩ := this
  exact ⟨u, h1, h2.1⟩

end C80

deriving instance DecidableEq for BaseGraph, ConjGraph

/-- **C80**, the reserved names.  With an action named `terminal` the extraction may not end: on the single path
`0, terminal, 1`, the first round never ends, whatever the orders. -/
theorem C80_reserved (emp : Nat) (os : Nat → Orders Nat) (ho : ∀ k, ValidOrders (os k)) (limit fuel rounds : Nat) :
    ∃ c0, conjGraph id id
        (addAll (fun _ _ _ => true) [[Elem.state 0, .action (Act.plain "terminal"), .state 1]]) = .ok c0 ∧
      extract emp os limit fuel rounds c0 = .error .unfinished := by
  refine ⟨⟨⟨[(initialAct, [(0, terminalAct)]), (terminalAct, [(1, terminalAct)])]⟩, initialAct, terminalAct⟩,
    by decide +kernel, ?_⟩
  cases rounds with
  | zero => rfl
  | succ rounds =>
    generalize hg : (⟨[(initialAct, [(0, terminalAct)]), (terminalAct, [(1, terminalAct)])]⟩ : BaseGraph Act Nat) = g
    have hw : WF g := by
      subst hg
      constructor <;> decide +kernel
    have hE : ∀ u v, Edge g u v ↔ (u = initialAct ∨ u = terminalAct) ∧ v = terminalAct := by
      intro u v
      have : ∀ l, g.hasTransition u l v = true ↔ (u, l, v) ∈ g.allTransitions := fun l => (mem_all hw u l v).symm
      have hall : g.allTransitions = [(initialAct, 0, terminalAct), (terminalAct, 1, terminalAct)] := by
        subst hg
        decide +kernel
      simp only [Edge, this, hall, List.mem_cons, List.not_mem_nil, or_false, Prod.mk.injEq]
      constructor
      · rintro ⟨l, ⟨rfl, rfl, rfl⟩ | ⟨rfl, rfl, rfl⟩⟩
        · exact ⟨Or.inl rfl, rfl⟩
        · exact ⟨Or.inr rfl, rfl⟩
      · rintro ⟨rfl | rfl, rfl⟩
        · exact ⟨0, Or.inl ⟨rfl, rfl, rfl⟩⟩
        · exact ⟨1, Or.inr ⟨rfl, rfl, rfl⟩⟩
    obtain ⟨ut, indeg, hdeg, Tb⟩ := tables_of_degrees hw ((ho rounds).trans g.allTransitions)
      ((ho rounds).nodes (allNodes ((os rounds).trans g.allTransitions)))
    have hne : initialAct ≠ terminalAct := by decide +kernel
    have hut : ∀ u, u = initialAct ∨ u = terminalAct → dget ut u = some [terminalAct] := by
      intro u hu
      obtain ⟨ds, hds⟩ := (Tb.dom u).1 ⟨terminalAct, Or.inl ((hE _ _).2 ⟨hu, rfl⟩)⟩
      have h1 := Tb.nodup u ds hds
      have h2 := Tb.succ u ds hds
      have h3 : ds.Perm [terminalAct] := by
        rw [List.perm_ext_iff_of_nodup h1 (by simp)]
        intro m
        rw [h2, hE]
        simp [hu]
      rw [hds, List.perm_singleton.1 h3]
    obtain ⟨k, hk, hk1⟩ := Tb.deg terminalAct ⟨initialAct, (hE _ _).2 ⟨Or.inl rfl, rfl⟩⟩
    have hkn : k ≠ 1 := by
      intro h
      obtain ⟨s, _, h2⟩ := hk1.1 h
      have e1 := h2 initialAct ((hE _ _).2 ⟨Or.inl rfl, rfl⟩)
      have e2 := h2 terminalAct ((hE _ _).2 ⟨Or.inr rfl, rfl⟩)
      exact hne (e1.trans e2.symm)
    have hstepC : ∀ te ex u ch, (u = initialAct ∨ u = terminalAct) →
        Chains.step ut indeg ⟨te, ex, some [u]⟩ ch = .ok (⟨setAdd te terminalAct, ex, none⟩, none) := by
      intro te ex u ch hu
      simp [Chains.step, hut u hu, hk, hkn]
    have hstepN : ∀ ex u, (u = initialAct ∨ u = terminalAct) →
        Chains.step ut indeg ⟨[u], ex, none⟩ u = .ok (⟨[], setAdd ex u, some [u]⟩, none) := by
      intro ex u hu
      simp [Chains.step, hut u hu]
    have hloop : ∀ fuel ex u, (u = initialAct ∨ u = terminalAct) →
        nextChain ut indeg (os rounds).pop fuel ⟨[u], ex, none⟩ = .error .unfinished ∧
        nextChain ut indeg (os rounds).pop fuel ⟨[], ex, some [u]⟩ = .error .unfinished := by
      intro fuel
      induction fuel with
      | zero => intro _ _ _; exact ⟨rfl, rfl⟩
      | succ fuel ih =>
        intro ex u hu
        constructor
        · have hpop : (os rounds).pop fuel ⟨[u], ex, none⟩ = u := by
            have := (ho rounds).pop fuel ⟨[u], ex, none⟩ (by simp)
            simpa using this
          rw [nextChain, if_neg (by simp [Cfg.finished]), hpop, hstepN ex u hu]
          exact (ih _ u hu).2
        · rw [nextChain, if_neg (by simp [Cfg.finished]), hstepC _ _ u _ hu]
          exact (ih _ terminalAct (Or.inr rfl)).1
    unfold extract
    have hlen : (allNodes g.allTransitions).length > 1 := by
      subst hg
      decide +kernel
    simp only
    rw [if_pos hlen]
    have : firstChain (os rounds) fuel ⟨g, initialAct, terminalAct⟩ = .error .unfinished := by
      simp only [firstChain, hdeg, bind, Except.bind]
      exact (hloop fuel [] initialAct (Or.inl rfl)).1
    simp only [Hierarchy.round, this, bind, Except.bind]

/-- The orders in which lists are visited as they are. -/
def plainOrders : Orders String :=
  ⟨id, id, fun _ c => c.toExplore.headD initialAct, id, id, id, fun _ l => l, id, id⟩

theorem plainOrders_valid : ValidOrders plainOrders := by
  refine ⟨fun _ => .refl _, fun _ => .refl _, ?_, fun _ => .refl _, fun _ => .refl _, fun _ => .refl _,
    fun _ _ => .refl _, fun _ => .refl _, fun _ => .refl _⟩
  rintro k ⟨te, ex, ch⟩ h
  cases te with
  | nil => exact absurd rfl h
  | cons a te => simp [plainOrders]

/-- The two histories of the script (`samples/test_hierarchies.py:40-41`). -/
def sampleHistories : List (List (Elem String Act)) :=
  [historyPath ["b1", "b2", "b3", "c1", "c2"], historyPath ["c1", "c2", "b1", "b2", "b3"]]

/-- Non-vacuity of C80: the script itself; its 7 nodes end up in one,
`initial → ((b1 → b2 → b3) || (c1 → c2)) → terminal`. -/
example : PlainActions (fun _ _ _ => true) sampleHistories ∧ ValidOrders plainOrders ∧
    ∃ c0, conjGraph id id (addAll (fun _ _ _ => true) sampleHistories) = .ok c0 ∧ (nodesOf c0).length = 7 ∧ (7 * (2 * 7 + 2) + 1) * 7 + (2 * 7 + 2) < 808 ∧
      ∃ c', extract "" (fun _ => plainOrders) 8 808 7 c0 = .ok c' ∧
        (nodesOf c').map Act.name = ["(initial→((b1→b2→b3)||(c1→c2))→terminal)"] := by
  refine ⟨?_, plainOrders_valid, ?_⟩
  · intro p hp _ s a s' ⟨i, _, _, h, _⟩
    simp only [sampleHistories, List.mem_cons, List.not_mem_nil, or_false] at hp
    have hall : ∀ p ∈ sampleHistories, ∀ x ∈ p, ∀ a, x = Elem.action a →
        a ∈ [Act.plain "b1", .plain "b2", .plain "b3", .plain "c1", .plain "c2"] := by
      have : ∀ p ∈ sampleHistories, ∀ x ∈ p, (match x with
          | Elem.action a => decide (a ∈ [Act.plain "b1", .plain "b2", .plain "b3", .plain "c1", .plain "c2"])
          | _ => true) = true := by decide +kernel
      rintro p hp x hx a rfl
      simpa using this p hp _ hx
    have := hall p (by simpa [sampleHistories] using hp) _ (List.mem_of_getElem? h) a rfl
    simp only [List.mem_cons, List.not_mem_nil, or_false] at this
    rcases this with rfl | rfl | rfl | rfl | rfl <;> exact ⟨_, rfl, by decide, by decide⟩
  · have hcheck : (match conjGraph id id (addAll (fun _ _ _ => true) sampleHistories) with
        | .ok c0 => decide ((nodesOf c0).length = 7) && (match extract "" (fun _ => plainOrders) 8 808 7 c0 with
            | .ok c' => decide ((nodesOf c').map Act.name = ["(initial→((b1→b2→b3)||(c1→c2))→terminal)"])
            | .error _ => false)
        | .error _ => false) = true := by decide +kernel
    rcases h : conjGraph id id (addAll (fun _ _ _ => true) sampleHistories) with e | c0
    · rw [h] at hcheck
      cases hcheck
    · rw [h] at hcheck
      simp only [Bool.and_eq_true, decide_eq_true_eq] at hcheck
      refine ⟨c0, rfl, hcheck.1, by norm_num, ?_⟩
      rcases h' : extract "" (fun _ => plainOrders) 8 808 7 c0 with e | c'
      · rw [h'] at hcheck
        cases hcheck.2
      · rw [h'] at hcheck
        exact ⟨c', rfl, by simpa using hcheck.2⟩

end Verif
