import Verif.Proof.Chains

/-! Exact condition for the termination of `get_max_chains`: no cycle of nodes with a single successor can be reached. -/

set_option linter.unusedSectionVars false
set_option linter.unusedSimpArgs false

namespace Verif.Chains
open Verif Verif.Spec BaseGraph
variable {A S : Type} [DecidableEq A] [DecidableEq S]
variable {g : BaseGraph A S} {ut : List (A × List A)} {indeg : List (A × Nat)}

/-- The nodes are the ends of the transitions. -/
theorem mem_nodeOrder (hw : WF g) {order : List (A × S × A)} {nodeOrder : List A} (ho : order.Perm g.allTransitions)
    (hno : nodeOrder.Perm (allNodes order)) (n : A) : n ∈ nodeOrder ↔ ∃ m, Edge g n m ∨ Edge g m n := by
  rw [hno.mem_iff, allNodes, mem_allNodes]
  simp only [List.not_mem_nil, false_or]
  constructor
  · rintro ⟨⟨s, l, d⟩, h, rfl | rfl⟩
    · exact ⟨d, Or.inl ⟨l, (mem_all hw _ _ _).1 (ho.mem_iff.1 h)⟩⟩
    · exact ⟨s, Or.inr ⟨l, (mem_all hw _ _ _).1 (ho.mem_iff.1 h)⟩⟩
  · rintro ⟨m, ⟨l, h⟩ | ⟨l, h⟩⟩
    · exact ⟨(n, l, m), ho.mem_iff.2 ((mem_all hw _ _ _).2 h), Or.inl rfl⟩
    · exact ⟨(m, l, n), ho.mem_iff.2 ((mem_all hw _ _ _).2 h), Or.inr rfl⟩

theorem _root_.Verif.Spec.Reachable.trans' {a b c : A} (h1 : Reachable g a b) (h2 : Reachable g b c) : Reachable g a c := by
  induction h2 with
  | refl => exact h1
  | tail _ he ih => exact .tail ih he

theorem _root_.Verif.Spec.ForcedTo.reach {u v : A} (h : ForcedTo g u v) : Reachable g u v := by
  induction h with
  | one h => exact .tail .refl h.1
  | step _ h ih => exact .tail ih h.1

theorem _root_.Verif.Spec.ForcedTo.trans' {a b c : A} (h1 : ForcedTo g a b) (h2 : ForcedTo g b c) : ForcedTo g a c := by
  induction h2 with
  | one h => exact .step h1 h
  | step _ h ih => exact .step ih h

theorem _root_.Verif.Spec.ForcedTo.head {u v : A} (h : ForcedTo g u v) : ∃ m, OnlySucc g u m ∧ (v = m ∨ ForcedTo g m v) := by
  induction h with
  | one h => exact ⟨_, h, Or.inl rfl⟩
  | step _ h ih =>
    obtain ⟨m, h1, rfl | h2⟩ := ih
    · exact ⟨_, h1, Or.inr (.one h)⟩
    · exact ⟨m, h1, Or.inr (.step h2 h)⟩

/-- The next node of a forced loop is on the same loop. -/
theorem forced_next {u m : A} (h : ForcedTo g u u) (hm : Edge g u m) : ForcedTo g m m := by
  obtain ⟨m', h1, h2⟩ := h.head
  have : m = m' := h1.2 m hm
  subst this
  rcases h2 with rfl | h2
  · exact h
  · exact h2.step h1

/-- A node of a forced loop has exactly one successor in the table. -/
theorem Tables.forced_len (T : Tables g ut indeg) {u : A} {ds : List A} (h : ForcedTo g u u) (hd : dget ut u = some ds) :
    ds.length = 1 := by
  obtain ⟨m, h1, _⟩ := h.head
  have hm := (T.succ u ds hd m).2 h1.1
  have hall : ∀ x ∈ ds, x = m := fun x hx => h1.2 x ((T.succ u ds hd x).1 hx)
  have hnd := T.nodup u ds hd
  rcases ds with _ | ⟨a, _ | ⟨b, r⟩⟩
  · simp at hm
  · rfl
  · have e1 := hall a (by simp)
    have e2 := hall b (by simp)
    simp [e1, e2] at hnd

/-- Some node of a forced loop is pending or ends the current chain. -/
def InPlay (g : BaseGraph A S) (c : Cfg A) : Prop :=
  (∃ u ∈ c.toExplore, ForcedTo g u u) ∨ ∃ ch z, c.chain = some ch ∧ ch.getLast? = some z ∧ ForcedTo g z z

theorem inPlay_step (T : Tables g ut indeg) {c c' : Cfg A} {choice : A} {y : Option (List A)}
    (hch : c.chain = none → choice ∈ c.toExplore) (h : StepCase g ut c choice c' y)
    (I : (∃ u ∈ c.explored, ForcedTo g u u) → InPlay g c) :
    ((∃ u ∈ c'.explored, ForcedTo g u u) → InPlay g c') ∧ (InPlay g c → InPlay g c') := by
  have herase : ∀ x, x ∈ c.toExplore → x = choice ∨ x ∈ c.toExplore.erase choice := by
    intro x hx
    by_cases hxc : x = choice
    · exact Or.inl hxc
    · exact Or.inr ((List.mem_erase_of_ne hxc).2 hx)
  cases h with
  | begin m hc hd =>
    have key : InPlay g c → InPlay g
        { toExplore := c.toExplore.erase choice, explored := setAdd c.explored choice, chain := some [choice] } := by
      rintro (⟨u, hu, hf⟩ | ⟨ch, z, h1, _⟩)
      · rcases herase u hu with rfl | hu
        · exact Or.inr ⟨_, u, rfl, rfl, hf⟩
        · exact Or.inl ⟨u, hu, hf⟩
      · rw [hc] at h1; cases h1
    refine ⟨?_, key⟩
    rintro ⟨u, hu, hf⟩
    rcases (mem_setAdd _ _ _).1 hu with hu | rfl
    · exact key (I ⟨u, hu, hf⟩)
    · exact Or.inr ⟨_, u, rfl, rfl, hf⟩
  | branch ds hc hd hl =>
    have hno : ¬ ForcedTo g choice choice := fun hf => hl (T.forced_len hf hd)
    have key : InPlay g c → InPlay g
        (addSuccs ds { toExplore := c.toExplore.erase choice, explored := setAdd c.explored choice, chain := none }) := by
      rintro (⟨u, hu, hf⟩ | ⟨ch, z, h1, _⟩)
      · rcases herase u hu with rfl | hu
        · exact absurd hf hno
        · exact Or.inl ⟨u, (mem_addSuccs _ _ _).2 (Or.inl hu), hf⟩
      · rw [hc] at h1; cases h1
    refine ⟨?_, key⟩
    rintro ⟨u, hu, hf⟩
    rcases (mem_setAdd _ _ _).1 hu with hu | rfl
    · exact key (I ⟨u, hu, hf⟩)
    · exact absurd hf hno
  | extend ch z w v hc hz hd hlk hdw =>
    have key : InPlay g c → InPlay g { c with explored := setAdd c.explored w, chain := some (ch ++ [w]) } := by
      rintro (⟨u, hu, hf⟩ | ⟨ch', z', h1, h2, hf⟩)
      · exact Or.inl ⟨u, hu, hf⟩
      · rw [hc] at h1
        cases h1
        rw [hz] at h2
        cases h2
        exact Or.inr ⟨_, w, rfl, by simp, forced_next hf hlk.1⟩
    refine ⟨?_, key⟩
    rintro ⟨u, hu, hf⟩
    rcases (mem_setAdd _ _ _).1 hu with hu | rfl
    · exact key (I ⟨u, hu, hf⟩)
    · exact Or.inr ⟨_, u, rfl, by simp, hf⟩
  | close ch z w ds hc hz hd hlk hdw hl =>
    have hno : ¬ ForcedTo g w w := fun hf => hl (T.forced_len hf hdw)
    have key : InPlay g c → InPlay g
        { addSuccs ds { c with explored := setAdd c.explored w, chain := some (ch ++ [w]) } with chain := none } := by
      rintro (⟨u, hu, hf⟩ | ⟨ch', z', h1, h2, hf⟩)
      · exact Or.inl ⟨u, (mem_addSuccs _ _ _).2 (Or.inl hu), hf⟩
      · rw [hc] at h1
        cases h1
        rw [hz] at h2
        cases h2
        exact absurd (forced_next hf hlk.1) hno
    refine ⟨?_, key⟩
    rintro ⟨u, hu, hf⟩
    rcases (mem_setAdd _ _ _).1 hu with hu | rfl
    · exact key (I ⟨u, hu, hf⟩)
    · exact absurd hf hno
  | join ch z w hc hz hd hlk =>
    obtain ⟨he, hu⟩ := T.one hd
    have key : InPlay g c → InPlay g { c with toExplore := setAdd c.toExplore w, chain := none } := by
      rintro (⟨u, hu, hf⟩ | ⟨ch', z', h1, h2, hf⟩)
      · exact Or.inl ⟨u, (mem_setAdd _ _ _).2 (Or.inl hu), hf⟩
      · rw [hc] at h1
        cases h1
        rw [hz] at h2
        cases h2
        exact Or.inl ⟨w, (mem_setAdd _ _ _).2 (Or.inr rfl), forced_next hf he⟩
    exact ⟨fun h => key (I h), key⟩

theorem exec_inPlay (T : Tables g ut indeg) {ini : A} {n : Nat} {c : Cfg A} {outs : List (List A)}
    (h : Exec ut indeg ini n c outs) : (∃ u ∈ c.explored, ForcedTo g u u) → InPlay g c := by
  induction h with
  | init =>
    rintro ⟨u, hu, _⟩
    simp [start] at hu
  | step choice _ hf hch hs ih => exact (inPlay_step T hch (stepCase_of_step T hs) ih).1

/-- When the loop ends every node that can be reached has been explored. -/
theorem explored_of_finished (T : Tables g ut indeg) {ini : A} {n : Nat} {c : Cfg A} {outs : List (List A)}
    (h : Exec ut indeg ini n c outs) (hf : c.finished = true) (y : A) (hy : Reachable g ini y) : y ∈ c.explored := by
  have I := exec_inv2 T h
  simp only [Cfg.finished, Bool.and_eq_true, List.isEmpty_iff, Option.isNone_iff_eq_none] at hf
  obtain ⟨hte, hch⟩ := hf
  induction hy with
  | refl =>
    rcases I.ini with h | h
    · exact h
    · rw [hte] at h; cases h
  | tail _ he ih =>
    rcases I.closed _ ih _ he with h | h | ⟨ch', h, _⟩
    · exact h
    · rw [hte] at h; cases h
    · rw [hch] at h; cases h

/-- With a forced loop, no execution ends. -/
theorem not_finished_of_loop (T : Tables g ut indeg) {ini : A} {n : Nat} {c : Cfg A} {outs : List (List A)}
    (h : Exec ut indeg ini n c outs) (hl : ForcedLoop g ini) : c.finished = false := by
  by_contra hf
  rw [Bool.not_eq_false] at hf
  obtain ⟨u, hr, hu⟩ := hl
  have hp := exec_inPlay T h ⟨u, explored_of_finished T h hf u hr, hu⟩
  simp only [Cfg.finished, Bool.and_eq_true, List.isEmpty_iff, Option.isNone_iff_eq_none] at hf
  rcases hp with ⟨v, hv, _⟩ | ⟨ch, z, hc, _⟩
  · rw [hf.1] at hv; cases hv
  · rw [hf.2] at hc; cases hc

/-! ### Termination without forced loops -/

section bound
variable (rank : A → Nat)

/-- Number of the elements of `nodes` that are not explored. -/
def pending (nodes : List A) (c : Cfg A) : Nat := (nodes.filter fun v => decide (v ∉ c.explored)).length

/-- What the pending nodes and the current chain may still cost. -/
def cost (c : Cfg A) : Nat :=
  (c.toExplore.map (fun u => 2 * rank u + 2)).sum +
    (match c.chain with
     | none => 0
     | some ch => match ch.getLast? with | none => 0 | some z => 2 * rank z + 1)

/-- Cost of all the nodes. -/
def allCost (nodes : List A) : Nat := (nodes.map (fun u => 2 * rank u + 2)).sum

variable {rank}

theorem fsum_setAdd_le (f : A → Nat) (l : List A) (x : A) : ((setAdd l x).map f).sum ≤ (l.map f).sum + f x := by
  unfold setAdd
  split
  · omega
  · simp

theorem fsum_erase (f : A → Nat) {l : List A} {x : A} (h : x ∈ l) :
    ((l.erase x).map f).sum + f x = (l.map f).sum := by
  have := (List.perm_cons_erase h).map f
  have := this.sum_eq
  simp only [List.map_cons, List.sum_cons] at this
  omega

/-- A set of nodes costs at most as much as all nodes. -/
theorem fsum_le_of_subset (f : A → Nat) {l nodes : List A} (hn : l.Nodup) (hs : l ⊆ nodes) :
    (l.map f).sum ≤ (nodes.map f).sum := by
  obtain ⟨l', h1, h2⟩ := List.subperm_of_subset hn hs
  rw [← (h1.map f).sum_eq]
  exact (h2.map f).sum_le_sum (by simp)

theorem foldl_setAdd_self (ds l : List A) (h : ∀ d ∈ ds, d ∈ l) : ds.foldl setAdd l = l := by
  induction ds with
  | nil => rfl
  | cons d ds ih =>
    rw [List.foldl_cons, show setAdd l d = l from by simp [setAdd, h d (by simp)]]
    exact ih fun x hx => h x (by simp [hx])

theorem pending_mono {nodes : List A} {c c' : Cfg A} (h : ∀ x ∈ c.explored, x ∈ c'.explored) :
    pending nodes c' ≤ pending nodes c := by
  unfold pending
  exact (List.monotone_filter_right nodes (fun a => by
    simp only [decide_eq_true_eq]
    exact fun h1 h2 => h1 (h a h2))).length_le

theorem pending_lt {nodes : List A} {c c' : Cfg A} (h : ∀ x ∈ c.explored, x ∈ c'.explored) {w : A} (hw : w ∈ nodes)
    (h1 : w ∉ c.explored) (h2 : w ∈ c'.explored) : pending nodes c' < pending nodes c := by
  unfold pending
  induction nodes with
  | nil => simp at hw
  | cons a l ih =>
    have hmono := pending_mono (nodes := l) h
    unfold pending at hmono
    by_cases ha : a = w
    · subst ha
      simp only [List.filter_cons, h1, h2, not_true, not_false_eq_true, decide_true, decide_false,
        Bool.false_eq_true, if_true, if_false, List.length_cons]
      omega
    · have hw' : w ∈ l := by
        rcases List.mem_cons.1 hw with h | h
        · exact absurd h.symm ha
        · exact h
      have ih := ih hw'
      by_cases h3 : a ∈ c.explored
      · have h4 := h a h3
        simp only [List.filter_cons, h3, h4, not_true, decide_false, Bool.false_eq_true, if_false]
        exact ih
      · by_cases h4 : a ∈ c'.explored
        · simp only [List.filter_cons, h3, h4, not_true, not_false_eq_true, decide_true, decide_false,
            Bool.false_eq_true, if_true, if_false, List.length_cons]
          omega
        · simp only [List.filter_cons, h3, h4, not_false_eq_true, decide_true, if_true, List.length_cons]
          omega

/-- Pending nodes are distinct nodes of the graph. -/
theorem exec_pend (T : Tables g ut indeg) {ini : A} {nodes : List A} (hini : ini ∈ nodes)
    (hnodes : ∀ u v, Edge g u v → v ∈ nodes) {n : Nat} {c : Cfg A} {outs : List (List A)}
    (h : Exec ut indeg ini n c outs) : c.toExplore.Nodup ∧ (∀ u ∈ c.toExplore, u ∈ nodes ∧ Reachable g ini u) ∧
      ∀ ch z, c.chain = some ch → ch.getLast? = some z → Reachable g ini z := by
  induction h with
  | init =>
    refine ⟨by simp [start], ?_, ?_⟩
    · intro u hu
      simp [start] at hu
      subst hu
      exact ⟨hini, .refl⟩
    · intro ch z hc
      cases hc
  | @step n c outs c' y choice hex hf hch hs ih =>
    obtain ⟨i1, i2, i3⟩ := ih
    have hsc := stepCase_of_step T hs
    clear hs
    cases hsc with
    | begin m hc hd =>
      refine ⟨i1.erase _, fun u hu => i2 u (List.mem_of_mem_erase hu), ?_⟩
      intro ch z h1 h2
      cases h1
      simp at h2
      subst h2
      exact (i2 _ (hch hc)).2
    | branch ds hc hd hl =>
      have hr := (i2 _ (hch hc)).2
      refine ⟨nodup_foldl_setAdd _ _ (i1.erase _), ?_, fun ch z h1 => by cases h1⟩
      intro u hu
      rcases (mem_addSuccs _ _ _).1 hu with hu | ⟨hu, _⟩
      · exact i2 u (List.mem_of_mem_erase hu)
      · have he := (T.succ _ _ hd u).1 hu
        exact ⟨hnodes _ _ he, .tail hr he⟩
    | extend ch z w v hc hz hd hlk hdw =>
      refine ⟨i1, i2, ?_⟩
      intro ch' z' h1 h2
      cases h1
      simp at h2
      subst h2
      exact .tail (i3 ch z hc hz) hlk.1
    | close ch z w ds hc hz hd hlk hdw hl =>
      have hr := i3 ch z hc hz
      refine ⟨nodup_foldl_setAdd _ _ i1, ?_, fun ch z h1 => by cases h1⟩
      intro u hu
      rcases (mem_addSuccs _ _ _).1 hu with hu | ⟨hu, _⟩
      · exact i2 u hu
      · have he := (T.succ _ _ hdw u).1 hu
        exact ⟨hnodes _ _ he, .tail (.tail hr hlk.1) he⟩
    | join ch z w hc hz hd hlk =>
      obtain ⟨he, hu⟩ := T.one hd
      have hr := i3 ch z hc hz
      refine ⟨nodup_setAdd i1 _, ?_, fun ch z h1 => by cases h1⟩
      intro u hu
      rcases (mem_setAdd _ _ _).1 hu with hu | rfl
      · exact i2 u hu
      · exact ⟨hnodes _ _ he, .tail hr he⟩

/-- Each iteration decreases the measure. -/
theorem cost_step (T : Tables g ut indeg) {ini : A} {nodes : List A} (hini : ini ∈ nodes)
    (hnodes : ∀ u v, Edge g u v → v ∈ nodes)
    (hrank : ∀ u v, Reachable g ini u → OnlySucc g u v → rank v < rank u) {n : Nat} {c c' : Cfg A}
    {outs : List (List A)} (hex : Exec ut indeg ini n c outs) {choice : A} {y : Option (List A)}
    (hch : c.chain = none → choice ∈ c.toExplore) (h : StepCase g ut c choice c' y)
    (hex' : Exec ut indeg ini (n + 1) c' (outs ++ y.toList)) :
    (allCost rank nodes + 1) * pending nodes c' + cost rank c' < (allCost rank nodes + 1) * pending nodes c + cost rank c := by
  obtain ⟨i1, i2, i3⟩ := exec_pend T hini hnodes hex
  obtain ⟨j1, j2, j3⟩ := exec_pend T hini hnodes hex'
  have I2 := exec_inv2 T hex
  have hall : ∀ l : List A, l.Nodup → (∀ u ∈ l, u ∈ nodes ∧ Reachable g ini u) →
      (l.map (fun u => 2 * rank u + 2)).sum ≤ allCost rank nodes :=
    fun l h1 h2 => fsum_le_of_subset _ h1 (fun u hu => (h2 u hu).1)
  cases h with
  | begin m hc hd =>
    have h1 := fsum_erase (fun u => 2 * rank u + 2) (hch hc)
    have h2 := pending_mono (nodes := nodes) (c := c) (c' := { toExplore := c.toExplore.erase choice, explored := setAdd c.explored choice, chain := some [choice] })
      (fun x hx => (mem_setAdd _ _ _).2 (Or.inl hx))
    have h3 := Nat.mul_le_mul_left (allCost rank nodes + 1) h2
    simp only [cost, hc, List.getLast?_singleton]
    omega
  | branch ds hc hd hl =>
    have h1 := fsum_erase (fun u => 2 * rank u + 2) (hch hc)
    set c' := addSuccs ds { toExplore := c.toExplore.erase choice, explored := setAdd c.explored choice, chain := none }
      with hc'
    have hmono : ∀ x ∈ c.explored, x ∈ c'.explored := fun x hx => (mem_setAdd _ _ _).2 (Or.inl hx)
    by_cases hx : choice ∈ c.explored
    · have h2 := Nat.mul_le_mul_left (allCost rank nodes + 1) (pending_mono (nodes := nodes) hmono)
      have hte : c'.toExplore = c.toExplore.erase choice := by
        rw [hc']
        refine foldl_setAdd_self _ _ ?_
        intro d hd'
        simp only [List.mem_filter, decide_eq_true_eq] at hd'
        obtain ⟨h3, h4⟩ := hd'
        have h5 : d ∉ c.explored := fun h => h4 ((mem_setAdd _ _ _).2 (Or.inl h))
        have h6 : d ≠ choice := fun h => h4 ((mem_setAdd _ _ _).2 (Or.inr h))
        rcases I2.closed choice hx d ((T.succ _ _ hd d).1 h3) with h | h | ⟨ch, h, _⟩
        · exact absurd h h5
        · exact (List.mem_erase_of_ne h6).2 h
        · rw [hc] at h; cases h
      have e1 : cost rank c' = ((c.toExplore.erase choice).map (fun u => 2 * rank u + 2)).sum := by
        simp only [cost, hte]
        rfl
      have e2 : cost rank c = (c.toExplore.map (fun u => 2 * rank u + 2)).sum := by simp only [cost, hc]; rfl
      omega
    · have h2 := pending_lt (nodes := nodes) hmono (i2 _ (hch hc)).1 hx ((mem_setAdd _ _ _).2 (Or.inr rfl))
      have h3 := hall c'.toExplore j1 j2
      have e1 : cost rank c' = (c'.toExplore.map (fun u => 2 * rank u + 2)).sum := rfl
      have h4 : (allCost rank nodes + 1) * (pending nodes c' + 1) ≤ (allCost rank nodes + 1) * pending nodes c :=
        Nat.mul_le_mul_left _ h2
      rw [Nat.mul_add] at h4
      omega
  | extend ch z w v hc hz hd hlk hdw =>
    have h1 := hrank z w (i3 ch z hc hz) ⟨hlk.1, hlk.2.1⟩
    have h2 := pending_mono (nodes := nodes) (c := c) (c' := { c with explored := setAdd c.explored w, chain := some (ch ++ [w]) })
      (fun x hx => (mem_setAdd _ _ _).2 (Or.inl hx))
    have h3 := Nat.mul_le_mul_left (allCost rank nodes + 1) h2
    simp only [cost, hc, hz, List.getLast?_append, List.getLast?_singleton, Option.some_or]
    omega
  | close ch z w ds hc hz hd hlk hdw hl =>
    set c' : Cfg A :=
      { addSuccs ds { c with explored := setAdd c.explored w, chain := some (ch ++ [w]) } with chain := none } with hc'
    have hmono : ∀ x ∈ c.explored, x ∈ c'.explored := fun x hx => (mem_setAdd _ _ _).2 (Or.inl hx)
    have e1 : cost rank c' = (c'.toExplore.map (fun u => 2 * rank u + 2)).sum := rfl
    have e2 : cost rank c = (c.toExplore.map (fun u => 2 * rank u + 2)).sum + (2 * rank z + 1) := by
      simp only [cost, hc, hz]
    by_cases hx : w ∈ c.explored
    · have h2 := Nat.mul_le_mul_left (allCost rank nodes + 1) (pending_mono (nodes := nodes) hmono)
      have hte : c'.toExplore = c.toExplore := by
        rw [hc']
        refine foldl_setAdd_self _ _ ?_
        intro d hd'
        simp only [List.mem_filter, decide_eq_true_eq] at hd'
        obtain ⟨h3, h4⟩ := hd'
        have h5 : d ∉ c.explored := fun h => h4 ((mem_setAdd _ _ _).2 (Or.inl h))
        rcases I2.closed w hx d ((T.succ _ _ hdw d).1 h3) with h | h | ⟨ch', h, h'⟩
        · exact absurd h h5
        · exact h
        · rw [hc] at h
          cases h
          rw [hz] at h'
          cases h'
          rw [hd] at hdw
          cases hdw
          exact absurd rfl hl
      rw [e1, e2, hte]
      omega
    · have hwn : w ∈ nodes := hnodes _ _ hlk.1
      have h2 := pending_lt (nodes := nodes) hmono hwn hx ((mem_setAdd _ _ _).2 (Or.inr rfl))
      have h3 := hall c'.toExplore j1 j2
      have h4 : (allCost rank nodes + 1) * (pending nodes c' + 1) ≤ (allCost rank nodes + 1) * pending nodes c :=
        Nat.mul_le_mul_left _ h2
      rw [Nat.mul_add] at h4
      omega
  | join ch z w hc hz hd hlk =>
    obtain ⟨he, hu⟩ := T.one hd
    have h1 := hrank z w (i3 ch z hc hz) ⟨he, hu⟩
    have h2 := fsum_setAdd_le (fun u => 2 * rank u + 2) c.toExplore w
    have e : pending nodes { c with toExplore := setAdd c.toExplore w, chain := none } = pending nodes c := rfl
    rw [e]
    simp only [cost, hc, hz]
    omega

theorem exec_cost (T : Tables g ut indeg) {ini : A} {nodes : List A} (hini : ini ∈ nodes)
    (hnodes : ∀ u v, Edge g u v → v ∈ nodes)
    (hrank : ∀ u v, Reachable g ini u → OnlySucc g u v → rank v < rank u) {n : Nat} {c : Cfg A} {outs : List (List A)}
    (h : Exec ut indeg ini n c outs) :
    n + ((allCost rank nodes + 1) * pending nodes c + cost rank c) ≤
      (allCost rank nodes + 1) * nodes.length + (2 * rank ini + 2) := by
  induction h with
  | init => simp [pending, start, cost]
  | step choice hex hf hch hs ih =>
    have := cost_step T hini hnodes hrank hex hch (stepCase_of_step T hs) (.step choice hex hf hch hs)
    omega

end bound

/-- Without forced loops, the number of nodes that a node is forced to reach decreases. -/
theorem exists_forced_rank (nodes : List A) (hnodes : ∀ u v, Edge g u v → v ∈ nodes) (ini : A)
    (hno : ¬ ForcedLoop g ini) (hnd : nodes.Nodup) : ∃ rank : A → Nat, (∀ u, rank u ≤ nodes.length) ∧
      ∀ u v, Reachable g ini u → OnlySucc g u v → rank v < rank u := by
  classical
  let R : A → List A := fun u => nodes.filter fun v => decide (ForcedTo g u v)
  refine ⟨fun u => (R u).length, fun u => List.length_filter_le _ _, ?_⟩
  intro u v hr huv
  have hsub : v :: R v ⊆ R u := by
    intro x hx
    rcases List.mem_cons.1 hx with rfl | hx
    · simp only [R, List.mem_filter, decide_eq_true_eq]
      exact ⟨hnodes _ _ huv.1, .one huv⟩
    · simp only [R, List.mem_filter, decide_eq_true_eq] at hx ⊢
      exact ⟨hx.1, (ForcedTo.one huv).trans' hx.2⟩
  have hndv : (v :: R v).Nodup := by
    rw [List.nodup_cons]
    refine ⟨?_, hnd.filter _⟩
    simp only [R, List.mem_filter, decide_eq_true_eq]
    rintro ⟨_, h⟩
    exact hno ⟨v, .tail hr huv.1, h⟩
  have := (List.subperm_of_subset hndv hsub).length_le
  simp only [List.length_cons] at this
  exact this

/-- A bound on the number of iterations for a graph with `n` nodes. -/
def chainBound (n : Nat) : Nat := (n * (2 * n + 2) + 1) * n + (2 * n + 2)

/-- Without forced loops, every execution has at most `chainBound n` iterations. -/
theorem exec_le (T : Tables g ut indeg) {ini : A} {nodes : List A} (hini : ini ∈ nodes) (hnd : nodes.Nodup)
    (hnodes : ∀ u v, Edge g u v → v ∈ nodes) (hno : ¬ ForcedLoop g ini) {n : Nat} {c : Cfg A} {outs : List (List A)}
    (h : Exec ut indeg ini n c outs) : n ≤ chainBound nodes.length := by
  obtain ⟨rank, h1, h2⟩ := exists_forced_rank nodes hnodes ini hno hnd
  have h3 := exec_cost T hini hnodes h2 h
  have h4 : allCost rank nodes ≤ nodes.length * (2 * nodes.length + 2) := by
    unfold allCost
    have : ∀ l : List A, (l.map (fun u => 2 * rank u + 2)).sum ≤ l.length * (2 * nodes.length + 2) := by
      intro l
      induction l with
      | nil => simp
      | cons a l ih =>
        have := h1 a
        simp only [List.map_cons, List.sum_cons, List.length_cons, Nat.add_mul, Nat.one_mul]
        omega
    exact this nodes
  have h5 := Nat.mul_le_mul_right nodes.length (Nat.add_le_add_right h4 1)
  have h6 := h1 ini
  unfold chainBound
  omega

end Verif.Chains
