import Verif.Model.Chains
import Verif.Spec.Chains
import Verif.Proof.TaskGraph
import Mathlib.Data.List.Induction
import Mathlib.Algebra.BigOperators.Group.List.Basic
import Mathlib.Algebra.Order.BigOperators.Group.List
import Mathlib.Tactic.Ring
import Mathlib.Tactic.Linarith

/-! Lemmas about `Verif.Model.Chains`. -/

set_option linter.unusedSectionVars false
set_option linter.unusedSimpArgs false

namespace Verif.Chains
open Verif Verif.Spec BaseGraph
variable {A S : Type} [DecidableEq A] [DecidableEq S]

/-- Distinct (source, destination) pairs. -/
def pairs (order : List (A × S × A)) : List (A × A) := setOf (order.map fun t => (t.1, t.2.2))

def succs (E : List (A × A)) (n : A) : List A := (E.filter fun p => decide (p.1 = n)).map Prod.snd
def preds (E : List (A × A)) (d : A) : List A := (E.filter fun p => decide (p.2 = d)).map Prod.fst

theorem mem_succs (E : List (A × A)) (n m : A) : m ∈ succs E n ↔ (n, m) ∈ E := by
  simp only [succs, List.mem_map, List.mem_filter, decide_eq_true_eq]
  constructor
  · rintro ⟨⟨a, b⟩, ⟨h, rfl⟩, rfl⟩
    exact h
  · intro h
    exact ⟨(n, m), ⟨h, rfl⟩, rfl⟩

theorem mem_preds (E : List (A × A)) (n m : A) : m ∈ preds E n ↔ (m, n) ∈ E := by
  simp only [preds, List.mem_map, List.mem_filter, decide_eq_true_eq]
  constructor
  · rintro ⟨⟨a, b⟩, ⟨h, rfl⟩, rfl⟩
    exact h
  · intro h
    exact ⟨(m, n), ⟨h, rfl⟩, rfl⟩

theorem nodup_succs {E : List (A × A)} (h : E.Nodup) (n : A) : (succs E n).Nodup := by
  unfold succs
  rw [List.nodup_map_iff_inj_on (h.filter _)]
  intro x hx y hy hxy
  simp only [List.mem_filter, decide_eq_true_eq] at hx hy
  exact Prod.ext (hx.2.trans hy.2.symm) hxy

theorem nodup_preds {E : List (A × A)} (h : E.Nodup) (n : A) : (preds E n).Nodup := by
  unfold preds
  rw [List.nodup_map_iff_inj_on (h.filter _)]
  intro x hx y hy hxy
  simp only [List.mem_filter, decide_eq_true_eq] at hx hy
  exact Prod.ext hxy (hx.2.trans hy.2.symm)

theorem pairs_append (order : List (A × S × A)) (t : A × S × A) :
    pairs (order ++ [t]) = setAdd (pairs order) (t.1, t.2.2) := by
  simp [pairs, setOf, List.foldl_append]

theorem foldlM_append_single {α β : Type} (f : β → α → Py β) (b : β) (l : List α) (x : α) :
    (l ++ [x]).foldlM f b = (l.foldlM f b).bind (fun b' => f b' x) := by
  rw [List.foldlM_append]
  cases List.foldlM f b l with
  | error e => rfl
  | ok b' =>
    show ([x]).foldlM f b' = f b' x
    rw [List.foldlM_cons]
    cases f b' x <;> rfl

theorem degrees_spec (nodeOrder : List A) (order : List (A × S × A)) (hmem : ∀ t ∈ order, t.1 ∈ nodeOrder) :
    ∃ ut indeg, degrees nodeOrder order = .ok (ut, indeg) ∧
      (∀ n, n ∈ nodeOrder → dget ut n = some (succs (pairs order) n)) ∧
      (∀ n, n ∉ nodeOrder → dget ut n = none) ∧
      (∀ d, dget indeg d = if preds (pairs order) d = [] then none else some (preds (pairs order) d).length) := by
  induction order using List.reverseRecOn with
  | nil =>
    refine ⟨nodeOrder.map (fun n => (n, [])), [], rfl, ?_, ?_, ?_⟩
    · intro n hn
      induction nodeOrder with
      | nil => simp at hn
      | cons m ns ih =>
        by_cases h : m = n
        · simp [dget, h, succs, pairs, setOf]
        · simp only [List.map_cons, dget, h, if_false]
          refine ih (by simp) ?_
          rcases List.mem_cons.1 hn with rfl | h'
          · exact absurd rfl h
          · exact h'
    · intro n hn
      rw [dget_eq_none]
      simpa using hn
    · intro d
      simp [preds, pairs, setOf]
  | append_singleton order t ih =>
    obtain ⟨ut, indeg, h1, h2, h3, h4⟩ := ih (fun t ht => hmem t (by simp [ht]))
    have ht : t.1 ∈ nodeOrder := hmem t (by simp)
    unfold degrees at h1 ⊢
    rw [foldlM_append_single, h1]
    simp only [Except.bind, degreeStep, h2 t.1 ht]
    refine ⟨_, _, rfl, ?_, ?_, ?_⟩
    · intro n hn
      rw [dget_dset, pairs_append]
      by_cases h : t.1 = n
      · subst h
        simp only [if_true, Option.some.injEq]
        unfold setAdd
        by_cases hm : (t.1, t.2.2) ∈ pairs order
        · simp [mem_succs, hm]
        · simp [mem_succs, hm, succs]
      · rw [if_neg h, h2 n hn]
        unfold setAdd
        by_cases hm : (t.1, t.2.2) ∈ pairs order
        · simp [hm]
        · simp [hm, succs, h]
    · intro n hn
      rw [dget_dset, if_neg (by rintro rfl; exact hn ht)]
      exact h3 n hn
    · intro d
      rw [pairs_append]
      simp only [mem_succs]
      unfold setAdd
      by_cases hm : (t.1, t.2.2) ∈ pairs order
      · simp [hm, h4]
      · simp only [hm, if_false]
        rw [dget_dset]
        by_cases hd : t.2.2 = d
        · subst hd
          have : preds (pairs order ++ [(t.1, t.2.2)]) t.2.2 = preds (pairs order) t.2.2 ++ [t.1] := by
            simp [preds]
          rw [this, h4]
          by_cases he : preds (pairs order) t.2.2 = []
          · simp [he]
          · simp [he]
        · have : preds (pairs order ++ [(t.1, t.2.2)]) d = preds (pairs order) d := by
            simp [preds, hd]
          rw [if_neg hd, this, h4]

/-- What the proofs need to know about `unique_transitions` and `in_degree`. -/
structure Tables (g : BaseGraph A S) (ut : List (A × List A)) (indeg : List (A × Nat)) : Prop where
  nodup : ∀ n ds, dget ut n = some ds → ds.Nodup
  succ : ∀ n ds, dget ut n = some ds → ∀ m, m ∈ ds ↔ Edge g n m
  dom : ∀ n, (∃ m, Edge g n m ∨ Edge g m n) ↔ ∃ ds, dget ut n = some ds
  deg : ∀ d, (∃ s, Edge g s d) → ∃ k, dget indeg d = some k ∧
    (k = 1 ↔ ∃ s, Edge g s d ∧ ∀ w, Edge g w d → w = s)

theorem tables_of_degrees {g : BaseGraph A S} (hw : WF g) {order : List (A × S × A)} {nodeOrder : List A}
    (ho : order.Perm g.allTransitions) (hno : nodeOrder.Perm (allNodes order)) :
    ∃ ut indeg, degrees nodeOrder order = .ok (ut, indeg) ∧ Tables g ut indeg := by
  have hmem : ∀ n, n ∈ nodeOrder ↔ ∃ t ∈ order, n = t.1 ∨ n = t.2.2 := by
    intro n
    rw [hno.mem_iff, allNodes, mem_allNodes]
    simp
  have hE : ∀ u v, Edge g u v ↔ (u, v) ∈ pairs order := by
    intro u v
    simp only [pairs, mem_setOf, List.mem_map, Edge, Prod.mk.injEq]
    constructor
    · rintro ⟨l, h⟩
      exact ⟨(u, l, v), ho.mem_iff.2 ((mem_all hw u l v).2 h), rfl, rfl⟩
    · rintro ⟨⟨s, l, d⟩, h, rfl, rfl⟩
      exact ⟨l, (mem_all hw s l d).1 (ho.mem_iff.1 h)⟩
  have hEdge : ∀ n, n ∈ nodeOrder ↔ ∃ m, Edge g n m ∨ Edge g m n := by
    intro n
    rw [hmem]
    constructor
    · rintro ⟨⟨s, l, d⟩, h, rfl | rfl⟩
      · exact ⟨d, Or.inl ⟨l, (mem_all hw _ _ _).1 (ho.mem_iff.1 h)⟩⟩
      · exact ⟨s, Or.inr ⟨l, (mem_all hw _ _ _).1 (ho.mem_iff.1 h)⟩⟩
    · rintro ⟨m, ⟨l, h⟩ | ⟨l, h⟩⟩
      · exact ⟨(n, l, m), ho.mem_iff.2 ((mem_all hw _ _ _).2 h), Or.inl rfl⟩
      · exact ⟨(m, l, n), ho.mem_iff.2 ((mem_all hw _ _ _).2 h), Or.inr rfl⟩
  have hnd : (pairs order).Nodup := nodup_setOf _
  obtain ⟨ut, indeg, h1, h2, h3, h4⟩ := degrees_spec nodeOrder order
    (fun t ht => (hmem t.1).2 ⟨t, ht, Or.inl rfl⟩)
  have hut : ∀ n ds, dget ut n = some ds → n ∈ nodeOrder ∧ ds = succs (pairs order) n := by
    intro n ds h
    by_cases hn : n ∈ nodeOrder
    · rw [h2 n hn] at h
      cases h
      exact ⟨hn, rfl⟩
    · rw [h3 n hn] at h
      cases h
  refine ⟨ut, indeg, h1, ?_, ?_, ?_, ?_⟩
  · intro n ds h
    rw [(hut n ds h).2]
    exact nodup_succs hnd n
  · intro n ds h m
    rw [(hut n ds h).2, mem_succs, hE]
  · intro n
    rw [← hEdge]
    constructor
    · intro h
      exact ⟨_, h2 n h⟩
    · rintro ⟨ds, h⟩
      exact (hut n ds h).1
  · rintro d ⟨s, hs⟩
    have hne : preds (pairs order) d ≠ [] := by
      rw [hE, ← mem_preds] at hs
      exact List.ne_nil_of_mem hs
    refine ⟨(preds (pairs order) d).length, by rw [h4, if_neg hne], ?_⟩
    have hpn := nodup_preds hnd d
    constructor
    · intro h
      obtain ⟨x, hx⟩ := List.length_eq_one_iff.1 h
      refine ⟨x, ?_, ?_⟩
      · rw [hE, ← mem_preds, hx]
        simp
      · intro w hw'
        rw [hE, ← mem_preds, hx] at hw'
        simpa using hw'
    · rintro ⟨x, hx, hu⟩
      rw [hE, ← mem_preds] at hx
      have : ∀ w ∈ preds (pairs order) d, w = x := by
        intro w hw'
        rw [mem_preds, ← hE] at hw'
        exact hu w hw'
      rcases hp : preds (pairs order) d with _ | ⟨a, _ | ⟨b, r⟩⟩
      · exact absurd hp hne
      · rfl
      · exfalso
        rw [hp] at this hpn
        have e1 := this a (by simp)
        have e2 := this b (by simp)
        simp [e1, e2] at hpn

variable {g : BaseGraph A S} {ut : List (A × List A)} {indeg : List (A × Nat)}

theorem Tables.one (T : Tables g ut indeg) {n m : A} (h : dget ut n = some [m]) :
    Edge g n m ∧ ∀ w, Edge g n w → w = m := by
  have := T.succ n [m] h
  refine ⟨(this m).1 (by simp), ?_⟩
  intro w hw
  simpa using (this w).2 hw

theorem Tables.link_of (T : Tables g ut indeg) {n m : A} {k : Nat} (h : dget ut n = some [m])
    (hk : dget indeg m = some k) : k = 1 ↔ Link g n m := by
  obtain ⟨h1, h2⟩ := T.one h
  obtain ⟨k', hk', hd⟩ := T.deg m ⟨n, h1⟩
  rw [hk] at hk'
  cases hk'
  rw [hd]
  constructor
  · rintro ⟨s, _, hu⟩
    have hns := hu n h1
    exact ⟨h1, h2, fun w hw => (hu w hw).trans hns.symm⟩
  · rintro ⟨_, _, hu⟩
    exact ⟨n, h1, hu⟩

theorem Tables.no_link_of_length (T : Tables g ut indeg) {n : A} {ds : List A} (h : dget ut n = some ds)
    (hl : ds.length ≠ 1) : ¬ ∃ w, Link g n w := by
  rintro ⟨w, h1, h2, _⟩
  have hm := (T.succ n ds h w).2 h1
  have hall : ∀ x ∈ ds, x = w := fun x hx => h2 x ((T.succ n ds h x).1 hx)
  have hnd := T.nodup n ds h
  rcases ds with _ | ⟨a, _ | ⟨b, r⟩⟩
  · simp at hm
  · exact hl rfl
  · have e1 := hall a (by simp)
    have e2 := hall b (by simp)
    simp [e1, e2] at hnd

theorem Tables.no_link_left (T : Tables g ut indeg) {n m : A} {ds : List A} (h : dget ut n = some ds)
    (hl : ds.length ≠ 1) (hm : m ∈ ds) : ¬ ∃ w, Link g w m := by
  rintro ⟨w, h1⟩
  have he := (T.succ n ds h m).1 hm
  have := h1.2.2 n he
  subst this
  exact T.no_link_of_length h hl ⟨m, h1⟩

theorem linked_snoc {ch : List A} {z w : A} (h : Linked g ch) (hl : ch.getLast? = some z) (hz : Link g z w) :
    Linked g (ch ++ [w]) := by
  intro i u v hu hv
  have hpos : 0 < ch.length := by
    rcases ch with _ | _
    · simp at hl
    · simp
  by_cases h1 : i + 1 < ch.length
  · rw [List.getElem?_append_left (by omega)] at hu
    rw [List.getElem?_append_left h1] at hv
    exact h i u v hu hv
  · have h2 : i + 1 < (ch ++ [w]).length := (List.getElem?_eq_some_iff.1 hv).1
    simp only [List.length_append, List.length_singleton] at h2
    have h3 : i + 1 = ch.length := by omega
    rw [List.getElem?_append_left (by omega)] at hu
    rw [h3] at hv
    simp at hv
    subst hv
    rw [List.getLast?_eq_getElem?, show ch.length - 1 = i by omega, hu] at hl
    cases hl
    exact hz

theorem mem_addSuccs (ds : List A) (c : Cfg A) (x : A) :
    x ∈ (addSuccs ds c).toExplore ↔ x ∈ c.toExplore ∨ (x ∈ ds ∧ x ∉ c.explored) := by
  simp [addSuccs, mem_foldl_setAdd]

/-- The shape of one iteration. -/
inductive StepCase (g : BaseGraph A S) (ut : List (A × List A)) (c : Cfg A) (choice : A) :
    Cfg A → Option (List A) → Prop
  /-- a node with a single successor starts a chain -/
  | begin (m : A) : c.chain = none → dget ut choice = some [m] →
      StepCase g ut c choice
        { toExplore := c.toExplore.erase choice, explored := setAdd c.explored choice, chain := some [choice] } none
  /-- another node: its unexplored successors become pending -/
  | branch (ds : List A) : c.chain = none → dget ut choice = some ds → ds.length ≠ 1 →
      StepCase g ut c choice
        (addSuccs ds { toExplore := c.toExplore.erase choice, explored := setAdd c.explored choice, chain := none }) none
  /-- the chain goes on -/
  | extend (ch : List A) (z w v : A) : c.chain = some ch → ch.getLast? = some z → dget ut z = some [w] → Link g z w →
      dget ut w = some [v] →
      StepCase g ut c choice { c with explored := setAdd c.explored w, chain := some (ch ++ [w]) } none
  /-- the chain ends at a node without exactly one successor -/
  | close (ch : List A) (z w : A) (ds : List A) : c.chain = some ch → ch.getLast? = some z → dget ut z = some [w] →
      Link g z w → dget ut w = some ds → ds.length ≠ 1 →
      StepCase g ut c choice
        { addSuccs ds { c with explored := setAdd c.explored w, chain := some (ch ++ [w]) } with chain := none }
        (some (ch ++ [w]))
  /-- the next node has several predecessors -/
  | join (ch : List A) (z w : A) : c.chain = some ch → ch.getLast? = some z → dget ut z = some [w] → ¬ Link g z w →
      StepCase g ut c choice { c with toExplore := setAdd c.toExplore w, chain := none }
        (if ch.length > 1 then some ch else none)

theorem stepCase_of_step (T : Tables g ut indeg) {c c' : Cfg A} {choice : A} {y : Option (List A)}
    (h : step ut indeg c choice = .ok (c', y)) : StepCase g ut c choice c' y := by
  unfold step at h
  rcases hc : c.chain with _ | ch
  · rw [hc] at h
    simp only at h
    rcases hd : dget ut choice with _ | ds
    · rw [hd] at h; cases h
    · rw [hd] at h
      simp only at h
      by_cases hl : ds.length = 1
      · rw [if_pos hl] at h
        cases h
        obtain ⟨m, rfl⟩ := List.length_eq_one_iff.1 hl
        exact .begin m hc hd
      · rw [if_neg hl] at h
        cases h
        have := StepCase.branch (g := g) (ut := ut) (c := c) (choice := choice) ds hc hd hl
        exact this
  · rw [hc] at h
    simp only at h
    rcases hz : ch.getLast? with _ | z
    · rw [hz] at h; cases h
    · rw [hz] at h
      simp only at h
      rcases hd : dget ut z with _ | (_ | ⟨w, _ | ⟨x, r⟩⟩)
      · rw [hd] at h; cases h
      · rw [hd] at h; cases h
      · rw [hd] at h
        simp only at h
        rcases hk : dget indeg w with _ | k
        · rw [hk] at h; cases h
        · rw [hk] at h
          simp only at h
          have hlink := T.link_of hd hk
          by_cases h1 : k = 1
          · rw [if_pos h1] at h
            rcases hdw : dget ut w with _ | ds
            · rw [hdw] at h; cases h
            · rw [hdw] at h
              simp only at h
              by_cases hl : ds.length = 1
              · rw [if_pos hl] at h
                cases h
                obtain ⟨v, rfl⟩ := List.length_eq_one_iff.1 hl
                exact .extend ch z w v hc hz hd (hlink.1 h1) hdw
              · rw [if_neg hl] at h
                cases h
                have hlen : (ch ++ [w]).length > 1 := by
                  rcases ch with _ | _
                  · simp at hz
                  · simp
                rw [if_pos hlen]
                exact .close ch z w ds hc hz hd (hlink.1 h1) hdw hl
          · rw [if_neg h1] at h
            cases h
            exact .join ch z w hc hz hd (fun hh => h1 (hlink.2 hh))
      · rw [hd] at h; cases h

/-- A step never fails, except at the very first iteration when the initial node occurs in no transition. -/
theorem step_ok (T : Tables g ut indeg) (c : Cfg A) (choice : A)
    (hch : c.chain = none → ∃ ds, dget ut choice = some ds)
    (hcc : ∀ ch, c.chain = some ch → ∃ z w, ch.getLast? = some z ∧ dget ut z = some [w]) :
    ∃ r, step ut indeg c choice = .ok r := by
  unfold step
  rcases hc : c.chain with _ | ch
  · obtain ⟨ds, hd⟩ := hch hc
    simp only [hd]
    split <;> exact ⟨_, rfl⟩
  · obtain ⟨z, w, hz, hd⟩ := hcc ch hc
    simp only [hz, hd]
    obtain ⟨h1, _⟩ := T.one hd
    obtain ⟨k, hk, _⟩ := T.deg w ⟨z, h1⟩
    obtain ⟨ds, hds⟩ := (T.dom w).1 ⟨z, Or.inr h1⟩
    simp only [hk, hds]
    split
    · split <;> exact ⟨_, rfl⟩
    · exact ⟨_, rfl⟩

/-- Soundness invariant. -/
structure Inv (g : BaseGraph A S) (ut : List (A × List A)) (ini : A) (c : Cfg A) (outs : List (List A)) : Prop where
  /-- pending nodes cannot be reached by a link, except the initial one -/
  pend : ∀ n ∈ c.toExplore, n = ini ∨ ¬ ∃ w, Link g w n
  /-- pending nodes are nodes of the graph, except the initial one -/
  pendDom : ∀ n ∈ c.toExplore, n = ini ∨ ∃ ds, dget ut n = some ds
  chainLinked : ∀ ch, c.chain = some ch → Linked g ch
  chainHead : ∀ ch, c.chain = some ch → ∃ h, ch.head? = some h ∧ (h = ini ∨ ¬ ∃ w, Link g w h)
  chainLast : ∀ ch, c.chain = some ch → ∃ z w, ch.getLast? = some z ∧ dget ut z = some [w]
  outs : ∀ ch ∈ outs, 2 ≤ ch.length ∧ Linked g ch ∧ RightMax g ch ∧
    ∃ h, ch.head? = some h ∧ (h = ini ∨ ¬ ∃ w, Link g w h)

theorem Inv.step (T : Tables g ut indeg) {ini : A} {c c' : Cfg A} {outs : List (List A)} {choice : A}
    {y : Option (List A)} (I : Inv g ut ini c outs) (hch : c.chain = none → choice ∈ c.toExplore)
    (h : StepCase g ut c choice c' y) : Inv g ut ini c' (outs ++ y.toList) := by
  have hlen : ∀ ch : List A, ∀ z w : A, ch.getLast? = some z → 2 ≤ (ch ++ [w]).length := by
    intro ch z w hz
    rcases ch with _ | _
    · simp at hz
    · simp
  have hhead : ∀ (ch : List A) (w h : A), ch.head? = some h → (ch ++ [w]).head? = some h := by
    intro ch w h hh
    rcases ch with _ | _
    · simp at hh
    · simpa using hh
  cases h with
  | begin m hc hd =>
    refine ⟨fun n hn => I.pend n (List.mem_of_mem_erase hn), fun n hn => I.pendDom n (List.mem_of_mem_erase hn),
      ?_, ?_, ?_, by simpa using I.outs⟩
    · intro ch hh
      cases hh
      intro i u v hu hv
      simp at hv
    · intro ch hh
      cases hh
      exact ⟨choice, rfl, I.pend choice (hch hc)⟩
    · intro ch hh
      cases hh
      exact ⟨choice, m, rfl, hd⟩
  | branch ds hc hd hl =>
    refine ⟨?_, ?_, ?_, ?_, ?_, by simpa using I.outs⟩
    · intro n hn
      rcases (mem_addSuccs _ _ _).1 hn with hn | ⟨hn, _⟩
      · exact I.pend n (List.mem_of_mem_erase hn)
      · exact Or.inr (T.no_link_left hd hl hn)
    · intro n hn
      rcases (mem_addSuccs _ _ _).1 hn with hn | ⟨hn, _⟩
      · exact I.pendDom n (List.mem_of_mem_erase hn)
      · exact Or.inr ((T.dom n).1 ⟨choice, Or.inr ((T.succ _ _ hd n).1 hn)⟩)
    all_goals
      intro ch hh
      cases hh
  | extend ch z w v hc hz hd hlk hdw =>
    refine ⟨I.pend, I.pendDom, ?_, ?_, ?_, by simpa using I.outs⟩
    · intro ch' hh
      cases hh
      exact linked_snoc (I.chainLinked ch hc) hz hlk
    · intro ch' hh
      cases hh
      obtain ⟨h, hh, hp⟩ := I.chainHead ch hc
      exact ⟨h, hhead ch w h hh, hp⟩
    · intro ch' hh
      cases hh
      exact ⟨w, v, by simp, hdw⟩
  | close ch z w ds hc hz hd hlk hdw hl =>
    refine ⟨?_, ?_, ?_, ?_, ?_, ?_⟩
    · intro n hn
      rcases (mem_addSuccs _ _ _).1 hn with hn | ⟨hn, _⟩
      · exact I.pend n hn
      · exact Or.inr (T.no_link_left hdw hl hn)
    · intro n hn
      rcases (mem_addSuccs _ _ _).1 hn with hn | ⟨hn, _⟩
      · exact I.pendDom n hn
      · exact Or.inr ((T.dom n).1 ⟨w, Or.inr ((T.succ _ _ hdw n).1 hn)⟩)
    · intro ch' hh; cases hh
    · intro ch' hh; cases hh
    · intro ch' hh; cases hh
    · intro ch' hm
      simp only [Option.toList_some, List.mem_append, List.mem_singleton] at hm
      rcases hm with hm | rfl
      · exact I.outs ch' hm
      · refine ⟨hlen ch z w hz, linked_snoc (I.chainLinked ch hc) hz hlk, ?_, ?_⟩
        · intro x hx
          simp at hx
          subst hx
          exact T.no_link_of_length hdw hl
        · obtain ⟨h, hh, hp⟩ := I.chainHead ch hc
          exact ⟨h, hhead ch w h hh, hp⟩
  | join ch z w hc hz hd hlk =>
    obtain ⟨he, hu⟩ := T.one hd
    refine ⟨?_, ?_, ?_, ?_, ?_, ?_⟩
    · intro n hn
      rcases (mem_setAdd _ _ _).1 hn with hn | rfl
      · exact I.pend n hn
      · right
        rintro ⟨x, hx⟩
        have := hx.2.2 z he
        subst this
        exact hlk hx
    · intro n hn
      rcases (mem_setAdd _ _ _).1 hn with hn | rfl
      · exact I.pendDom n hn
      · exact Or.inr ((T.dom _).1 ⟨z, Or.inr he⟩)
    · intro ch' hh; cases hh
    · intro ch' hh; cases hh
    · intro ch' hh; cases hh
    · intro ch' hm
      rcases List.mem_append.1 hm with hm | hm
      · exact I.outs ch' hm
      · split at hm
        · rename_i hgt
          simp only [Option.toList_some, List.mem_singleton] at hm
          subst hm
          refine ⟨hgt, I.chainLinked _ hc, ?_, I.chainHead _ hc⟩
          intro x hx
          rw [hz] at hx
          cases hx
          rintro ⟨w', hw'⟩
          have : w' = w := hu w' hw'.1
          subst this
          exact hlk hw'
        · simp at hm

theorem exec_inv (T : Tables g ut indeg) {ini : A} {n : Nat} {c : Cfg A} {outs : List (List A)}
    (h : Exec ut indeg ini n c outs) : Inv g ut ini c outs := by
  induction h with
  | init =>
    refine ⟨?_, ?_, ?_, ?_, ?_, by simp⟩
    · intro n hn
      simp [start] at hn
      exact Or.inl hn
    · intro n hn
      simp [start] at hn
      exact Or.inl hn
    all_goals
      intro ch hh
      cases hh
  | step choice _ hf hch hs ih => exact ih.step T hch (stepCase_of_step T hs)

/-! ### Completeness -/

/-- A finite run of links from `n` that cannot be extended. -/
def FullRun (g : BaseGraph A S) (n : A) (ch : List A) : Prop :=
  ch.head? = some n ∧ Linked g ch ∧ RightMax g ch

/-- Completeness invariant. -/
structure Inv2 (g : BaseGraph A S) (ini : A) (c : Cfg A) (outs : List (List A)) : Prop where
  ini : ini ∈ c.explored ∨ ini ∈ c.toExplore
  closed : ∀ n ∈ c.explored, ∀ m, Edge g n m → m ∈ c.explored ∨ m ∈ c.toExplore ∨
    ∃ ch, c.chain = some ch ∧ ch.getLast? = some n
  start : ∀ n ∈ c.explored, (∃ p, Link g p n) ∨ (¬ ∃ w, Link g n w) ∨
    (∃ ch, c.chain = some ch ∧ ch.head? = some n) ∨ ∃ ch, FullRun g n ch ∧ (2 ≤ ch.length → ch ∈ outs)

theorem exec_inv2 (T : Tables g ut indeg) {ini : A} {n : Nat} {c : Cfg A} {outs : List (List A)}
    (h : Exec ut indeg ini n c outs) : Inv2 g ini c outs := by
  induction h with
  | init => exact ⟨Or.inr (by simp [Chains.start]), by simp [Chains.start], by simp [Chains.start]⟩
  | @step n c outs c' y choice hex hf hch hs ih =>
    have I := exec_inv T hex
    have hsc := stepCase_of_step T hs
    have hhead : ∀ (ch : List A) (w h : A), ch.head? = some h → (ch ++ [w]).head? = some h := by
      intro ch w h hh
      rcases ch with _ | _
      · simp at hh
      · simpa using hh
    clear hs
    cases hsc with
    | begin m hc hd =>
      obtain ⟨he, hu⟩ := T.one hd
      have herase : ∀ x, x ∈ c.toExplore → x = choice ∨ x ∈ c.toExplore.erase choice := by
        intro x hx
        by_cases hxc : x = choice
        · exact Or.inl hxc
        · exact Or.inr ((List.mem_erase_of_ne hxc).2 hx)
      refine ⟨?_, ?_, ?_⟩
      · rcases ih.ini with h | h
        · exact Or.inl ((mem_setAdd _ _ _).2 (Or.inl h))
        · rcases herase _ h with h | h
          · exact Or.inl ((mem_setAdd _ _ _).2 (Or.inr h))
          · exact Or.inr h
      · intro x hx y' hxy
        rcases (mem_setAdd _ _ _).1 hx with hx | rfl
        · rcases ih.closed x hx y' hxy with h | h | ⟨ch, h, _⟩
          · exact Or.inl ((mem_setAdd _ _ _).2 (Or.inl h))
          · rcases herase _ h with h | h
            · exact Or.inl ((mem_setAdd _ _ _).2 (Or.inr h))
            · exact Or.inr (Or.inl h)
          · rw [hc] at h; cases h
        · exact Or.inr (Or.inr ⟨_, rfl, rfl⟩)
      · intro x hx
        rcases (mem_setAdd _ _ _).1 hx with hx | rfl
        · rcases ih.start x hx with h | h | ⟨ch, h, _⟩ | ⟨ch, h, h'⟩
          · exact Or.inl h
          · exact Or.inr (Or.inl h)
          · rw [hc] at h; cases h
          · exact Or.inr (Or.inr (Or.inr ⟨ch, h, by simpa using h'⟩))
        · exact Or.inr (Or.inr (Or.inl ⟨_, rfl, rfl⟩))
    | branch ds hc hd hl =>
      have herase : ∀ x, x ∈ c.toExplore → x = choice ∨ x ∈ c.toExplore.erase choice := by
        intro x hx
        by_cases hxc : x = choice
        · exact Or.inl hxc
        · exact Or.inr ((List.mem_erase_of_ne hxc).2 hx)
      refine ⟨?_, ?_, ?_⟩
      · rcases ih.ini with h | h
        · exact Or.inl ((mem_setAdd _ _ _).2 (Or.inl h))
        · rcases herase _ h with h | h
          · exact Or.inl ((mem_setAdd _ _ _).2 (Or.inr h))
          · exact Or.inr ((mem_addSuccs _ _ _).2 (Or.inl h))
      · intro x hx y' hxy
        rcases (mem_setAdd _ _ _).1 hx with hx | rfl
        · rcases ih.closed x hx y' hxy with h | h | ⟨ch, h, _⟩
          · exact Or.inl ((mem_setAdd _ _ _).2 (Or.inl h))
          · rcases herase _ h with h | h
            · exact Or.inl ((mem_setAdd _ _ _).2 (Or.inr h))
            · exact Or.inr (Or.inl ((mem_addSuccs _ _ _).2 (Or.inl h)))
          · rw [hc] at h; cases h
        · by_cases hy : y' ∈ setAdd c.explored x
          · exact Or.inl hy
          · exact Or.inr (Or.inl ((mem_addSuccs _ _ _).2 (Or.inr ⟨(T.succ _ _ hd y').2 hxy, hy⟩)))
      · intro x hx
        rcases (mem_setAdd _ _ _).1 hx with hx | rfl
        · rcases ih.start x hx with h | h | ⟨ch, h, _⟩ | ⟨ch, h, h'⟩
          · exact Or.inl h
          · exact Or.inr (Or.inl h)
          · rw [hc] at h; cases h
          · exact Or.inr (Or.inr (Or.inr ⟨ch, h, by simpa using h'⟩))
        · exact Or.inr (Or.inl (T.no_link_of_length hd hl))
    | extend ch z w v hc hz hd hlk hdw =>
      obtain ⟨he, hu⟩ := T.one hd
      refine ⟨?_, ?_, ?_⟩
      · rcases ih.ini with h | h
        · exact Or.inl ((mem_setAdd _ _ _).2 (Or.inl h))
        · exact Or.inr h
      · intro x hx y' hxy
        rcases (mem_setAdd _ _ _).1 hx with hx | rfl
        · rcases ih.closed x hx y' hxy with h | h | ⟨ch', h, hlast⟩
          · exact Or.inl ((mem_setAdd _ _ _).2 (Or.inl h))
          · exact Or.inr (Or.inl h)
          · rw [hc] at h
            cases h
            rw [hz] at hlast
            cases hlast
            exact Or.inl ((mem_setAdd _ _ _).2 (Or.inr (hu y' hxy)))
        · exact Or.inr (Or.inr ⟨_, rfl, by simp⟩)
      · intro x hx
        rcases (mem_setAdd _ _ _).1 hx with hx | rfl
        · rcases ih.start x hx with h | h | ⟨ch', h, hh⟩ | ⟨ch', h, h'⟩
          · exact Or.inl h
          · exact Or.inr (Or.inl h)
          · rw [hc] at h
            cases h
            exact Or.inr (Or.inr (Or.inl ⟨_, rfl, hhead _ _ _ hh⟩))
          · exact Or.inr (Or.inr (Or.inr ⟨ch', h, by simpa using h'⟩))
        · exact Or.inl ⟨z, hlk⟩
    | close ch z w ds hc hz hd hlk hdw hl =>
      obtain ⟨he, hu⟩ := T.one hd
      refine ⟨?_, ?_, ?_⟩
      · rcases ih.ini with h | h
        · exact Or.inl ((mem_setAdd _ _ _).2 (Or.inl h))
        · exact Or.inr ((mem_addSuccs _ _ _).2 (Or.inl h))
      · intro x hx y' hxy
        rcases (mem_setAdd _ _ _).1 hx with hx | rfl
        · rcases ih.closed x hx y' hxy with h | h | ⟨ch', h, hlast⟩
          · exact Or.inl ((mem_setAdd _ _ _).2 (Or.inl h))
          · exact Or.inr (Or.inl ((mem_addSuccs _ _ _).2 (Or.inl h)))
          · rw [hc] at h
            cases h
            rw [hz] at hlast
            cases hlast
            exact Or.inl ((mem_setAdd _ _ _).2 (Or.inr (hu y' hxy)))
        · by_cases hy : y' ∈ setAdd c.explored x
          · exact Or.inl hy
          · exact Or.inr (Or.inl ((mem_addSuccs _ _ _).2 (Or.inr ⟨(T.succ _ _ hdw y').2 hxy, hy⟩)))
      · intro x hx
        rcases (mem_setAdd _ _ _).1 hx with hx | rfl
        · rcases ih.start x hx with h | h | ⟨ch', h, hh⟩ | ⟨ch', h, h'⟩
          · exact Or.inl h
          · exact Or.inr (Or.inl h)
          · rw [hc] at h
            cases h
            refine Or.inr (Or.inr (Or.inr ⟨ch ++ [w], ⟨hhead _ _ _ hh, linked_snoc (I.chainLinked ch hc) hz hlk, ?_⟩, ?_⟩))
            · intro q hq
              simp at hq
              subst hq
              exact T.no_link_of_length hdw hl
            · intro _
              simp
          · refine Or.inr (Or.inr (Or.inr ⟨ch', h, fun h2 => ?_⟩))
            exact List.mem_append_left _ (h' h2)
        · exact Or.inl ⟨z, hlk⟩
    | join ch z w hc hz hd hlk =>
      obtain ⟨he, hu⟩ := T.one hd
      refine ⟨?_, ?_, ?_⟩
      · rcases ih.ini with h | h
        · exact Or.inl h
        · exact Or.inr ((mem_setAdd _ _ _).2 (Or.inl h))
      · intro x hx y' hxy
        rcases ih.closed x hx y' hxy with h | h | ⟨ch', h, hlast⟩
        · exact Or.inl h
        · exact Or.inr (Or.inl ((mem_setAdd _ _ _).2 (Or.inl h)))
        · rw [hc] at h
          cases h
          rw [hz] at hlast
          cases hlast
          exact Or.inr (Or.inl ((mem_setAdd _ _ _).2 (Or.inr (hu y' hxy))))
      · intro x hx
        rcases ih.start x hx with h | h | ⟨ch', h, hh⟩ | ⟨ch', h, h'⟩
        · exact Or.inl h
        · exact Or.inr (Or.inl h)
        · rw [hc] at h
          cases h
          refine Or.inr (Or.inr (Or.inr ⟨ch, ⟨hh, I.chainLinked ch hc, ?_⟩, ?_⟩))
          · intro q hq
            rw [hz] at hq
            cases hq
            rintro ⟨w', hw'⟩
            have : w' = w := hu w' hw'.1
            subst this
            exact hlk hw'
          · intro h2
            rw [if_pos (by omega)]
            simp
        · exact Or.inr (Or.inr (Or.inr ⟨ch', h, fun h2 => List.mem_append_left _ (h' h2)⟩))

theorem fullRun_unique {n : A} {c1 c2 : List A} (h1 : FullRun g n c1) (h2 : FullRun g n c2) : c1 = c2 := by
  induction c1 generalizing n c2 with
  | nil => cases h1.1
  | cons a r ih =>
    obtain ⟨hh1, hl1, hr1⟩ := h1
    obtain ⟨hh2, hl2, hr2⟩ := h2
    rcases c2 with _ | ⟨b, r2⟩
    · cases hh2
    · simp only [List.head?_cons, Option.some.injEq] at hh1 hh2
      subst hh1 hh2
      congr 1
      rcases r with _ | ⟨x, r⟩ <;> rcases r2 with _ | ⟨x2, r2⟩
      · rfl
      · exact absurd ⟨x2, hl2 0 _ _ rfl rfl⟩ (hr1 _ rfl)
      · exact absurd ⟨x, hl1 0 _ _ rfl rfl⟩ (hr2 _ rfl)
      · have e1 : Link g b x := hl1 0 _ _ rfl rfl
        have e2 : Link g b x2 := hl2 0 _ _ rfl rfl
        have e : x2 = x := e1.2.1 x2 e2.1
        subst e
        refine ih (n := x2) ⟨rfl, ?_, ?_⟩ ⟨rfl, ?_, ?_⟩
        · intro i u v hu hv
          exact hl1 (i + 1) u v (by simpa using hu) (by simpa using hv)
        · intro z hz
          exact hr1 z (by simpa [List.getLast?_cons_cons] using hz)
        · intro i u v hu hv
          exact hl2 (i + 1) u v (by simpa using hu) (by simpa using hv)
        · intro z hz
          exact hr2 z (by simpa [List.getLast?_cons_cons] using hz)

theorem complete (T : Tables g ut indeg) {ini : A} {n : Nat} {c : Cfg A} {outs : List (List A)}
    (h : Exec ut indeg ini n c outs) (hf : c.finished = true) (ch : List A) (hm : MaxChain g ch)
    (hr : ∃ x, ch.head? = some x ∧ Reachable g ini x) : ch ∈ outs := by
  have I := exec_inv2 T h
  simp only [Cfg.finished, Bool.and_eq_true, List.isEmpty_iff, Option.isNone_iff_eq_none] at hf
  obtain ⟨hte, hch⟩ := hf
  obtain ⟨x, hx, hreach⟩ := hr
  have hexp : ∀ y, Reachable g ini y → y ∈ c.explored := by
    intro y hy
    induction hy with
    | refl =>
      rcases I.ini with h | h
      · exact h
      · rw [hte] at h; cases h
    | tail _ he ih =>
      rcases I.closed _ ih _ he with h | h | ⟨ch', h, _⟩
      · exact h
      · rw [hte] at h; cases h
      · rw [hch] at h; cases h
  obtain ⟨hlen, hlk, hrm, hlm⟩ := hm
  rcases I.start x (hexp x hreach) with h1 | h1 | ⟨ch', h1, _⟩ | ⟨ch', h1, h2⟩
  · exact absurd h1 (hlm x hx)
  · exfalso
    rcases ch with _ | ⟨a, _ | ⟨b, r⟩⟩
    · cases hx
    · simp at hlen
    · simp only [List.head?_cons, Option.some.injEq] at hx
      subst hx
      exact h1 ⟨b, hlk 0 _ _ rfl rfl⟩
  · rw [hch] at h1; cases h1
  · have : ch' = ch := fullRun_unique h1 ⟨hx, hlk, hrm⟩
    subst this
    exact h2 hlen

end Verif.Chains
