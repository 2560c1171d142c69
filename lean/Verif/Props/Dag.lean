import Verif.Proof.Dag
import Verif.Props.Htm

/-! Property C22 (the DAG of a task generates the orders that the task allows). -/

set_option linter.unusedSectionVars false
set_option linter.unusedSimpArgs false

namespace Verif
open Spec
variable {A : Type}

theorem spath_iff_dagPath (ops : ActOps A) (d : Dag A) (last : List Nat)
    (hwf : d.succs.length = d.nodes.length) (hlast : ∀ l, l ∈ last → d.succs[l]? = some [])
    (hnl : ∀ i, i < d.nodes.length → i ∉ last → ∃ ss, d.succs[i]? = some ss ∧ ss ≠ []) (i : Nat) (w : List String) :
    SPath ops d last i w ↔ DagPath (d.nodes.map (Htm.name ops)) d.succs i w := by
  constructor
  · intro h
    induction h with
    | stop i n hl hn => exact .last i n (by simpa [Dag.nameAt] using hn) (hlast i hl)
    | step i j n ss w hl hn hs hj h ih => exact .step i j n ss w (by simpa [Dag.nameAt] using hn) hs hj ih
  · intro h
    induction h with
    | last i n hn hs =>
      refine .stop i n ?_ (by simpa [Dag.nameAt] using hn)
      by_contra hi
      have hlt : i < d.nodes.length := by
        rw [← hwf]
        exact (List.getElem?_eq_some_iff.1 hs).1
      obtain ⟨ss, h1, h2⟩ := hnl i hlt hi
      rw [hs] at h1
      cases h1
      exact h2 rfl
    | step i j n ss w hn hs hj h ih =>
      refine .step i j n ss w ?_ (by simpa [Dag.nameAt] using hn) hs hj ih
      intro hi
      rw [hlast i hi] at hs
      cases hs
      simp at hj

/-- **C22.**  For every task tree without empty combinations, every iteration order of sets and every sufficient
recursion limit, the conversion succeeds; the words of leaf names along the paths of the DAG from an initial leaf to a
leaf without successor are exactly the orders that the tree allows, the leaves below parallel nodes being renamed with
the index of their order.  The edges go from smaller to larger indices, so the graph is acyclic. -/
theorem C22_language (ops : ActOps A) (uniq : List Nat → List Nat) (huniq : ∀ l x, x ∈ uniq l ↔ x ∈ l)
    (hc : ∀ i a, ∃ a', ops.copy (orderFmt i) a = .ok a' ∧ ops.name a' = orderFmt i (ops.name a))
    (t : Htm A) (hne : NonEmpty t) (hb : Built t) (limit : Nat) (hl : nesting t ≤ limit) :
    ∃ init d, htmToDag ops uniq limit t = .ok (init, d) ∧
      (∀ w, (∃ i ∈ init, DagPath (d.nodes.map (Htm.name ops)) d.succs i w) ↔ lin ops orderRen (fun s => s) t w) ∧
      d.succs.length = d.nodes.length ∧ init ≠ [] ∧ (∀ i ∈ init, i < d.nodes.length) ∧
      (∀ i ss, d.succs[i]? = some ss → ∀ j ∈ ss, i < j ∧ j < d.nodes.length) := by
  obtain ⟨first, last, d, h1, h2⟩ := getInitialFinal_spec ops uniq huniq hc limit t hne hb hl ⟨[], []⟩ rfl
  refine ⟨first, d, by simp [htmToDag, h1, bind, Except.bind, pure, Except.pure], ?_, h2.wf, h2.frag.first_ne,
    fun i hi => (h2.frag.first_sub i hi).2, ?_⟩
  · intro w
    rw [h2.frag.lang w]
    have := spath_iff_dagPath ops d last h2.wf h2.last_empty (fun i h3 h4 => by
      obtain ⟨ss, h5, h6, _⟩ := h2.frag.succ_ok i (Nat.zero_le _) h3 h4
      exact ⟨ss, h5, h6⟩)
    simp only [this]
  · intro i ss hs j hj
    by_cases hi : i ∈ last
    · rw [h2.last_empty i hi] at hs
      cases hs
      simp at hj
    · have hlt : i < d.nodes.length := by
        rw [← h2.wf]
        exact (List.getElem?_eq_some_iff.1 hs).1
      obtain ⟨ss', h5, _, h6⟩ := h2.frag.succ_ok i (Nat.zero_le _) hlt hi
      rw [hs] at h5
      cases h5
      have := h6 j hj
      exact ⟨this.2.2, this.2.1⟩

/-- Two renamings that are related letter by letter give related languages. -/
theorem lin_related (ops : ActOps A) (R : String → String → Prop) (ren1 ren2 : List Nat → String → String)
    (hren : ∀ σ a b, R a b → R (ren1 σ a) (ren2 σ b)) (t : Htm A) (g1 g2 : String → String) (hg : ∀ s, R (g1 s) (g2 s))
    (w : List String) (h : lin ops ren1 g1 t w) : ∃ w', lin ops ren2 g2 t w' ∧ List.Forall₂ R w w' := by
  have hcat : ∀ Ls Ls' : List Lang, List.Forall₂ (fun L L' => ∀ w, L w → ∃ w', L' w' ∧ List.Forall₂ R w w') Ls Ls' →
      ∀ w, cat Ls w → ∃ w', cat Ls' w' ∧ List.Forall₂ R w w' := by
    intro Ls Ls' hf
    induction hf with
    | nil =>
      intro w hw
      simp only [cat] at hw
      subst hw
      exact ⟨[], by simp [cat], .nil⟩
    | cons hL hf ih =>
      rintro w ⟨u, v, rfl, hu, hv⟩
      obtain ⟨u', h1, h2⟩ := hL u hu
      obtain ⟨v', h3, h4⟩ := ih v hv
      exact ⟨u' ++ v', ⟨u', v', rfl, h1, h3⟩, List.rel_append h2 h4⟩
  induction t using Htm.induct generalizing g1 g2 w with
  | hleaf a i p hh =>
    simp only [lin] at h
    subst h
    exact ⟨[g2 (ops.name a)], by simp [lin], .cons (hg _) .nil⟩
  | hcomb k cs i p n hh pr ih =>
    have hL : ∀ g1 g2 : String → String, (∀ s, R (g1 s) (g2 s)) →
        List.Forall₂ (fun L L' => ∀ w, L w → ∃ w', L' w' ∧ List.Forall₂ R w w') (linL ops ren1 g1 cs)
          (linL ops ren2 g2 cs) := by
      intro g1 g2 hg
      rw [linL_eq, linL_eq, List.forall₂_map_left_iff, List.forall₂_map_right_iff, List.forall₂_same]
      intro c hc w hw
      exact ih c hc g1 g2 hg w hw
    cases k with
    | sequential =>
      simp only [lin] at h ⊢
      exact hcat _ _ (hL g1 g2 hg) w h
    | alternative =>
      simp only [lin] at h ⊢
      obtain ⟨L, hLm, hw⟩ := h
      rw [linL_eq] at hLm
      obtain ⟨c, hc, rfl⟩ := List.mem_map.1 hLm
      obtain ⟨w', h1, h2⟩ := ih c hc g1 g2 hg w hw
      exact ⟨w', ⟨_, by rw [linL_eq]; exact List.mem_map_of_mem hc, h1⟩, h2⟩
    | parallel =>
      simp only [lin] at h ⊢
      obtain ⟨σ, hσ, hw⟩ := h
      have hL' := hL (fun s => ren1 σ (g1 s)) (fun s => ren2 σ (g2 s)) (fun s => hren σ _ _ (hg s))
      have : List.Forall₂ (fun L L' => ∀ w, L w → ∃ w', L' w' ∧ List.Forall₂ R w w')
          (σ.map fun j => (linL ops ren1 (fun s => ren1 σ (g1 s)) cs).getD j (fun _ => False))
          (σ.map fun j => (linL ops ren2 (fun s => ren2 σ (g2 s)) cs).getD j (fun _ => False)) := by
        rw [List.forall₂_map_left_iff, List.forall₂_map_right_iff, List.forall₂_same]
        intro j _
        rw [List.forall₂_iff_get] at hL'
        by_cases hj : j < (linL ops ren1 (fun s => ren1 σ (g1 s)) cs).length
        · have hj' : j < (linL ops ren2 (fun s => ren2 σ (g2 s)) cs).length := by rw [← hL'.1]; exact hj
          have := hL'.2 j hj hj'
          simpa [List.getD_eq_getElem?_getD, List.getElem?_eq_getElem, hj, hj'] using this
        · intro w hw
          rw [List.getD_eq_getElem?_getD, List.getElem?_eq_none (by omega)] at hw
          exact absurd hw (by simp)
      obtain ⟨w', h1, h2⟩ := hcat _ _ this w hw
      exact ⟨w', ⟨σ, hσ, h1⟩, h2⟩

/-- `b` is `a` with suffixes `" order-i"`. -/
def Suffixed (a b : String) : Prop := ∃ is : List Nat, b = is.foldl (fun s i => orderFmt i s) a

/-- **C22 (original names).**  Up to the suffixes added by the code, the paths of the DAG are the orders that the tree
allows: every path is an order of the tree with suffixes added to its names, and every order appears. -/
theorem C22_originalNames (ops : ActOps A) (uniq : List Nat → List Nat) (huniq : ∀ l x, x ∈ uniq l ↔ x ∈ l)
    (hc : ∀ i a, ∃ a', ops.copy (orderFmt i) a = .ok a' ∧ ops.name a' = orderFmt i (ops.name a))
    (t : Htm A) (hne : NonEmpty t) (hb : Built t) (limit : Nat) (hl : nesting t ≤ limit) :
    ∃ init d, htmToDag ops uniq limit t = .ok (init, d) ∧
      (∀ w', (∃ i ∈ init, DagPath (d.nodes.map (Htm.name ops)) d.succs i w') →
        ∃ w, lin ops noRen (fun s => s) t w ∧ List.Forall₂ Suffixed w w') ∧
      (∀ w, lin ops noRen (fun s => s) t w →
        ∃ w', (∃ i ∈ init, DagPath (d.nodes.map (Htm.name ops)) d.succs i w') ∧ List.Forall₂ Suffixed w w') := by
  obtain ⟨init, d, h1, h2, _⟩ := C22_language ops uniq huniq hc t hne hb limit hl
  have hs : ∀ σ a b, Suffixed a b → Suffixed a (orderRen σ b) := by
    rintro σ a b ⟨is, rfl⟩
    exact ⟨is ++ [(permutations (List.range σ.length)).idxOf σ], by simp [orderRen, List.foldl_append]⟩
  refine ⟨init, d, h1, ?_, ?_⟩
  · intro w' hw'
    obtain ⟨w, h3, h4⟩ := lin_related ops (fun b a => Suffixed a b) orderRen noRen (fun σ a b h => hs σ b a h) t
      (fun s => s) (fun s => s) (fun s => ⟨[], rfl⟩) w' ((h2 w').1 hw')
    exact ⟨w, h3, h4.flip⟩
  · intro w hw
    obtain ⟨w', h3, h4⟩ := lin_related ops Suffixed noRen orderRen (fun σ a b h => hs σ a b h) t
      (fun s => s) (fun s => s) (fun s => ⟨[], rfl⟩) w hw
    exact ⟨w', (h2 w').2 h3, h4⟩

/-- **C22 (empty combinations).**  A task that is an empty sequence or an empty parallel node cannot be converted:
`ValueError`. -/
theorem C22_emptyRaises (ops : ActOps A) (uniq : List Nat → List Nat) (limit : Nat) (k : Kind)
    (i p : Option Int) (n : String) (h : Bool) (pr : Option (List ℚ)) :
    htmToDag ops uniq (limit + 2) (.comb k [] i p n h pr) = .error .valueError := by
  have h1 : setProba 1 none = .ok [1] := by
    rw [setProba_none 1 (by simp)]
    simp
  cases k with
  | sequential =>
    simp [htmToDag, getInitialFinal, expandParallel, mapAccumM, joinChildren, bind, Except.bind]
  | alternative =>
    simp [htmToDag, getInitialFinal, expandParallel, mapAccumM, joinChildren, bind, Except.bind]
  | parallel =>
    simp [htmToDag, getInitialFinal, expandParallel, mapAccumM, joinChildren, bind, Except.bind, toAlternative,
      permutations, permsN, orderSeq, Htm.deepCopyL, mkComb, h1, pure, Except.pure, Htm.children]

/-- A task with a parallel node below a sequence. -/
def exParallel : Htm String :=
  .comb .sequential [.leaf "a" none none false,
    .comb .parallel [.leaf "b" none none false, .leaf "c" none none false] none none "both" false none]
    none none "root" false none

/-- Non-vacuity of C22: the hypotheses hold of `exParallel` and both orders are in its language. -/
example : NonEmpty exParallel ∧ Built exParallel ∧ nesting exParallel = 4 ∧
    lin abstractOps orderRen (fun s => s) exParallel ["a", "b order-0", "c order-0"] ∧
    lin abstractOps orderRen (fun s => s) exParallel ["a", "c order-1", "b order-1"] := by
  refine ⟨by simp [exParallel, NonEmpty, NonEmptyL], by simp [exParallel, Built, BuiltL], rfl, ?_, ?_⟩
  · refine ⟨["a"], ["b order-0", "c order-0"], rfl, rfl, ["b order-0", "c order-0"], [], rfl, ?_, rfl⟩
    exact ⟨[0, 1], by decide, ["b order-0"], ["c order-0"], rfl,
      by show ["b order-0"] = [orderRen [0, 1] "b"]; decide +kernel, ["c order-0"], [], rfl,
      by show ["c order-0"] = [orderRen [0, 1] "c"]; decide +kernel, rfl⟩
  · refine ⟨["a"], ["c order-1", "b order-1"], rfl, rfl, ["c order-1", "b order-1"], [], rfl, ?_, rfl⟩
    exact ⟨[1, 0], by decide, ["c order-1"], ["b order-1"], rfl,
      by show ["c order-1"] = [orderRen [1, 0] "c"]; decide +kernel, ["b order-1"], [], rfl,
      by show ["b order-1"] = [orderRen [1, 0] "b"]; decide +kernel, rfl⟩

end Verif
