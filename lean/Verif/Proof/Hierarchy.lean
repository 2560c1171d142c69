import Verif.Spec.Hierarchy
import Verif.Proof.ChainsBound
import Verif.Props.Cliques
import Verif.Props.Conjugate

/-! Lemmas about `Verif.Model.Hierarchy`. -/

set_option linter.unusedSectionVars false
set_option linter.unusedSimpArgs false

namespace Verif.Hierarchy
open Verif Verif.Spec BaseGraph Chains Cliques
variable {S : Type} [DecidableEq S]

/-! ### Leaves -/

theorem atomsL_eq (as : List Act) : atomsL as = as.flatMap atomsOf := by
  induction as with
  | nil => rw [atomsL]; rfl
  | cons a as ih => rw [atomsL, ih, List.flatMap_cons]

theorem atomsOf_meta (k : MKind) (as : List Act) : atomsOf (.metaAct k as) = as.flatMap atomsOf := by
  rw [atomsOf, atomsL_eq]

theorem atomsOf_plain (n : String) : atomsOf (.plain n) = [.plain n] := by simp [atomsOf]

theorem _root_.Verif.Spec.Justified.ne {g : BaseGraph Act S} {U : Act} (h : Justified g U) : atomsOf U ≠ [] := by
  induction h with
  | plain n => rw [atomsOf_plain]; simp
  | sequence as hl _ _ ih =>
    rw [atomsOf_meta]
    rcases as with _ | ⟨a, as⟩
    · simp at hl
    · have := ih a (by simp)
      simp [this]
  | parallel as hl _ _ ih =>
    rw [atomsOf_meta]
    rcases as with _ | ⟨a, as⟩
    · simp at hl
    · have := ih a (by simp)
      simp [this]

/-! ### compact in terms of edges -/

theorem compact_edges {N L : Type} [DecidableEq N] [DecidableEq L] (emp : L) (g : BaseGraph N L) (hw : WF g)
    (snapshot : List (N × L × N)) (nodes : List N) (new : N) (hs : snapshot.Perm g.allTransitions) :
    ∃ g', g.compact emp snapshot nodes new = .ok g' ∧ WF g' ∧ ∀ u v, Edge g' u v ↔
      (Edge g u v ∧ u ∉ nodes ∧ v ∉ nodes) ∨ (u = new ∧ v ∉ nodes ∧ ∃ u0 ∈ nodes, Edge g u0 v) ∨
      (v = new ∧ u ∉ nodes ∧ ∃ v0 ∈ nodes, Edge g u v0) := by
  have hmem : ∀ u : N × L × N, u ∈ snapshot ↔ g.hasTransition u.1 u.2.1 u.2.2 = true := by
    rintro ⟨s, l, d⟩
    rw [hs.mem_iff]
    exact mem_all hw s l d
  obtain ⟨g', h1, h2, h3⟩ := foldlM_compact emp nodes new snapshot [] g hw
    (by simpa using hs.nodup_iff.2 (nodup_all hw)) (by
      intro u
      simp [hmem])
  refine ⟨g', h1, h2, ?_⟩
  intro u v
  constructor
  · rintro ⟨l, hl⟩
    rcases (h3 (u, l, v)).1 hl with ⟨h4, h5, h6⟩ | ⟨⟨s, l', d⟩, h4, h5, h6⟩
    · left
      exact ⟨⟨l, (hmem _).1 (by simpa using h4)⟩, h5, h6⟩
    · have he : Edge g s d := ⟨l', (hmem _).1 (by simpa using h4)⟩
      simp only [contract, Prod.mk.injEq] at h6 h5
      obtain ⟨rfl, _, rfl⟩ := h6
      by_cases a : s ∈ nodes <;> by_cases b : d ∈ nodes
      · exact absurd (by simp [a, b]) h5
      · right; left
        simp only [a, b, if_true, if_false, true_and, not_false_eq_true]
        exact ⟨s, a, he⟩
      · right; right
        simp only [a, b, if_true, if_false, true_and, not_false_eq_true]
        exact ⟨d, b, he⟩
      · exact absurd (by simp [a, b]) h5
  · rintro (⟨⟨l, hl⟩, h4, h5⟩ | ⟨rfl, h4, u0, h5, l, hl⟩ | ⟨rfl, h4, v0, h5, l, hl⟩)
    · exact ⟨l, (h3 (u, l, v)).2 (Or.inl ⟨by simpa using (hmem (u, l, v)).2 hl, h4, h5⟩)⟩
    · refine ⟨emp, (h3 (u, emp, v)).2 (Or.inr ⟨(u0, l, v), by simpa using (hmem (u0, l, v)).2 hl, ?_, ?_⟩)⟩
      · simp [h4, h5]
      · simp [contract, h4, h5]
    · refine ⟨emp, (h3 (u, emp, v)).2 (Or.inr ⟨(u, l, v0), by simpa using (hmem (u, l, v0)).2 hl, ?_, ?_⟩)⟩
      · simp [h4, h5]
      · simp [contract, h4, h5]

/-! ### The invariant of the extraction -/

/-- What holds between the first graph `c0` (nodes `T0`) and the current graph `c` (nodes `T`). -/
structure HInv (c0 : ConjGraph Act S) (T0 : List Act) (c : ConjGraph Act S) (T : List Act) : Prop where
  wf : WF c.toBaseGraph
  nd : T.Nodup
  nd0 : T0.Nodup
  atoms : ∀ u ∈ T0, ∃ n, u = .plain n
  dom : ∀ u v, Edge c0.toBaseGraph u v → u ∈ T0 ∧ v ∈ T0
  part : (T.flatMap atomsOf).Perm T0
  edge : ∀ U V, Edge c.toBaseGraph U V ↔ U ∈ T ∧ V ∈ T ∧ (U ≠ V ∨ U ∈ T0) ∧ CanFollow c0.toBaseGraph U V
  ini : c.initial ∈ T
  ter : c.terminal ∈ T
  iniL : c0.initial ∈ atomsOf c.initial
  terL : c0.terminal ∈ atomsOf c.terminal
  just : ∀ U ∈ T, Justified c0.toBaseGraph U
  terOut : ∀ V, ¬ Edge c.toBaseGraph c.terminal V
  iniIn : ∀ U, ¬ Edge c.toBaseGraph U c.initial

variable {c0 c : ConjGraph Act S} {T0 T : List Act}

theorem HInv.top (I : HInv c0 T0 c T) {v : Act} (hv : v ∈ T0) : ∃ V ∈ T, v ∈ atomsOf V := by
  have := I.part.mem_iff.2 hv
  exact List.mem_flatMap.1 this

theorem HInv.mem0 (I : HInv c0 T0 c T) {v V : Act} (hV : V ∈ T) (hv : v ∈ atomsOf V) : v ∈ T0 :=
  I.part.mem_iff.1 (List.mem_flatMap.2 ⟨V, hV, hv⟩)

theorem HInv.uniq (I : HInv c0 T0 c T) {v V W : Act} (hV : V ∈ T) (hW : W ∈ T) (h1 : v ∈ atomsOf V) (h2 : v ∈ atomsOf W) :
    V = W := by
  have hn := I.part.nodup_iff.2 I.nd0
  rw [List.nodup_flatMap] at hn
  by_contra hne
  have key : ∀ l : List Act, l.Pairwise (Function.onFun List.Disjoint atomsOf) → V ∈ l → W ∈ l → False := by
    intro l hl
    induction l with
    | nil => intro h; simp at h
    | cons a l ih =>
      rw [List.pairwise_cons] at hl
      intro hV hW
      rcases List.mem_cons.1 hV with e | m <;> rcases List.mem_cons.1 hW with e' | m'
      · exact hne (e.trans e'.symm)
      · exact hl.1 W m' (e ▸ h1) h2
      · exact hl.1 V m (e' ▸ h2) h1
      · exact ih hl.2 m m'
  exact key T hn.2 hV hW

theorem HInv.proj (I : HInv c0 T0 c T) {u v U V : Act} (he : Edge c0.toBaseGraph u v) (hU : U ∈ T) (hV : V ∈ T)
    (h1 : u ∈ atomsOf U) (h2 : v ∈ atomsOf V) : U = V ∨ Edge c.toBaseGraph U V := by
  by_cases h : U = V
  · exact Or.inl h
  · exact Or.inr ((I.edge U V).2 ⟨hU, hV, Or.inl h, u, h1, v, h2, he⟩)

theorem HInv.reach (I : HInv c0 T0 c T) {u v U V : Act} (hr : Reachable c0.toBaseGraph u v) (hU : U ∈ T) (hV : V ∈ T)
    (h1 : u ∈ atomsOf U) (h2 : v ∈ atomsOf V) : Reachable c.toBaseGraph U V := by
  induction hr generalizing V with
  | refl =>
    rw [I.uniq hU hV h1 h2]
    exact .refl
  | tail _ he ih =>
    obtain ⟨W, hW, hw⟩ := I.top (I.dom _ _ he).1
    rcases I.proj he hW hV hw h2 with rfl | h
    · exact ih hW hw
    · exact .tail (ih hW hw) h

/-- When every node of `c0` reaches the terminal node, so does every node of `c`. -/
theorem HInv.reachTer (I : HInv c0 T0 c T) (hr : ∀ u ∈ T0, Reachable c0.toBaseGraph u c0.terminal) {U : Act}
    (hU : U ∈ T) : Reachable c.toBaseGraph U c.terminal := by
  obtain ⟨u, hu⟩ := List.exists_mem_of_ne_nil _ (I.just U hU).ne
  exact I.reach (hr u (I.mem0 hU hu)) hU I.ter hu I.terL

/-- A group is not yet a node. -/
theorem HInv.fresh (I : HInv c0 T0 c T) {k : MKind} {ms : List Act} (hms : ∀ m ∈ ms, m ∈ T) (hne : ms ≠ []) :
    Act.metaAct k ms ∉ T := by
  intro h
  rcases ms with _ | ⟨m, ms⟩
  · exact hne rfl
  · obtain ⟨u, hu⟩ := List.exists_mem_of_ne_nil _ (I.just m (hms m (by simp))).ne
    have hu' : u ∈ atomsOf (.metaAct k (m :: ms)) := by
      rw [atomsOf_meta]
      simp [hu]
    have := I.uniq h (hms m (by simp)) hu' hu
    have := congrArg sizeOf this
    simp at this
    omega

/-- Compacting a justified group preserves the invariant. -/
theorem HInv.group (I : HInv c0 T0 c T) (emp : S) (snap : List (Act × S × Act))
    (hs : snap.Perm c.toBaseGraph.allTransitions) (k : MKind) (ms : List Act) (hms : ∀ m ∈ ms, m ∈ T) (hnd : ms.Nodup)
    (hlen : 2 ≤ ms.length) (hj : Justified c0.toBaseGraph (.metaAct k ms))
    (hter : c.terminal ∈ ms → ∀ u ∈ ms, ∀ v, v ∉ ms → ¬ Edge c.toBaseGraph u v)
    (hini : c.initial ∈ ms → ∀ v ∈ ms, ∀ u, u ∉ ms → ¬ Edge c.toBaseGraph u v) :
    ∃ c' T', c.compact emp snap ms (.metaAct k ms) = .ok c' ∧ HInv c0 T0 c' T' ∧ T'.length < T.length := by
  obtain ⟨g', h1, h2, h3⟩ := compact_edges emp c.toBaseGraph I.wf snap ms (.metaAct k ms) hs
  have hne : ms ≠ [] := by
    rintro rfl
    simp at hlen
  have hfresh : Act.metaAct k ms ∉ T := I.fresh hms hne
  have hperm : T.Perm (T.filter (fun U => decide (U ∉ ms)) ++ ms) := by
    rw [List.perm_ext_iff_of_nodup I.nd]
    · intro x
      simp only [List.mem_append, List.mem_filter, decide_eq_true_eq]
      constructor
      · intro hx
        by_cases hxm : x ∈ ms
        · exact Or.inr hxm
        · exact Or.inl ⟨hx, hxm⟩
      · rintro (h | h)
        · exact h.1
        · exact hms x h
    · rw [List.nodup_append]
      refine ⟨I.nd.filter _, hnd, ?_⟩
      rintro x hx y hy rfl
      simp only [List.mem_filter, decide_eq_true_eq] at hx
      exact hx.2 hy
  have hmem : ∀ U, U ∈ T.filter (fun U => decide (U ∉ ms)) ++ [Act.metaAct k ms] ↔
      (U ∈ T ∧ U ∉ ms) ∨ U = .metaAct k ms := by
    intro U
    simp
  refine ⟨⟨g', if c.initial ∈ ms then .metaAct k ms else c.initial,
    if c.terminal ∈ ms then .metaAct k ms else c.terminal⟩,
    T.filter (fun U => decide (U ∉ ms)) ++ [.metaAct k ms], ?_, ?_, ?_⟩
  · rw [ConjGraph.compact, h1]
    rfl
  · refine ⟨h2, ?_, I.nd0, I.atoms, I.dom, ?_, ?_, ?_, ?_, ?_, ?_, ?_, ?_, ?_⟩
    · rw [List.nodup_append]
      refine ⟨I.nd.filter _, by simp, ?_⟩
      intro x hx y hy hxy
      simp only [List.mem_singleton] at hy
      subst hy hxy
      exact hfresh (List.mem_of_mem_filter hx)
    · refine List.Perm.trans ?_ I.part
      refine List.Perm.trans ?_ (hperm.flatMap_right atomsOf).symm
      rw [List.flatMap_append, List.flatMap_append]
      simp [atomsOf_meta]
    · intro U V
      simp only
      rw [h3, hmem, hmem]
      have hleaf : ∀ u, u ∈ atomsOf (Act.metaAct k ms) ↔ ∃ m ∈ ms, u ∈ atomsOf m := by
        intro u
        rw [atomsOf_meta, List.mem_flatMap]
      constructor
      · rintro (⟨h4, h5, h6⟩ | ⟨rfl, h4, u0, h5, h6⟩ | ⟨rfl, h4, v0, h5, h6⟩)
        · obtain ⟨a1, a2, a3, a4⟩ := (I.edge U V).1 h4
          exact ⟨Or.inl ⟨a1, h5⟩, Or.inl ⟨a2, h6⟩, a3, a4⟩
        · obtain ⟨a1, a2, a3, u, hu, v, hv, he⟩ := (I.edge u0 V).1 h6
          exact ⟨Or.inr rfl, Or.inl ⟨a2, h4⟩, Or.inl (fun h => hfresh (h ▸ a2)), u, (hleaf u).2 ⟨u0, h5, hu⟩, v, hv, he⟩
        · obtain ⟨a1, a2, a3, u, hu, v, hv, he⟩ := (I.edge U v0).1 h6
          exact ⟨Or.inl ⟨a1, h4⟩, Or.inr rfl, Or.inl (fun h => hfresh (h ▸ a1)), u, hu, v, (hleaf v).2 ⟨v0, h5, hv⟩, he⟩
      · rintro ⟨hU, hV, hUV, u, hu, v, hv, he⟩
        rcases hU with ⟨a1, a2⟩ | rfl <;> rcases hV with ⟨b1, b2⟩ | rfl
        · exact Or.inl ⟨(I.edge U V).2 ⟨a1, b1, hUV, u, hu, v, hv, he⟩, a2, b2⟩
        · obtain ⟨m, hm, hmv⟩ := (hleaf v).1 hv
          exact Or.inr (Or.inr ⟨rfl, a2, m, hm,
            (I.edge U m).2 ⟨a1, hms m hm, Or.inl (fun h => a2 (h ▸ hm)), u, hu, v, hmv, he⟩⟩)
        · obtain ⟨m, hm, hmu⟩ := (hleaf u).1 hu
          exact Or.inr (Or.inl ⟨rfl, b2, m, hm,
            (I.edge m V).2 ⟨hms m hm, b1, Or.inl (fun h => b2 (h ▸ hm)), u, hmu, v, hv, he⟩⟩)
        · rcases hUV with h | h
          · exact absurd rfl h
          · obtain ⟨n, hn⟩ := I.atoms _ h
            cases hn
    · rw [hmem]
      by_cases h : c.initial ∈ ms
      · right; simp [h]
      · left; simp [h, I.ini]
    · rw [hmem]
      by_cases h : c.terminal ∈ ms
      · right; simp [h]
      · left; simp [h, I.ter]
    · by_cases h : c.initial ∈ ms
      · simp only [h, if_true]
        rw [atomsOf_meta, List.mem_flatMap]
        exact ⟨_, h, I.iniL⟩
      · simp only [h, if_false]
        exact I.iniL
    · by_cases h : c.terminal ∈ ms
      · simp only [h, if_true]
        rw [atomsOf_meta, List.mem_flatMap]
        exact ⟨_, h, I.terL⟩
      · simp only [h, if_false]
        exact I.terL
    · intro U hU
      rcases (hmem U).1 hU with h | rfl
      · exact I.just U h.1
      · exact hj
    · intro V he
      simp only at he
      rw [h3] at he
      by_cases h : c.terminal ∈ ms
      · simp only [h, if_true] at he
        rcases he with ⟨h4, _⟩ | ⟨_, h4, u0, h5, h6⟩ | ⟨rfl, h4, v0, h5, h6⟩
        · exact hfresh ((I.edge _ _).1 h4).1
        · exact hter h u0 h5 V h4 h6
        · exact hfresh ((I.edge _ _).1 h6).1
      · simp only [h, if_false] at he
        rcases he with ⟨h4, _⟩ | ⟨h4, _⟩ | ⟨_, _, v0, _, h6⟩
        · exact I.terOut _ h4
        · exact hfresh (h4 ▸ I.ter)
        · exact I.terOut _ h6
    · intro U he
      simp only at he
      rw [h3] at he
      by_cases h : c.initial ∈ ms
      · simp only [h, if_true] at he
        rcases he with ⟨h4, _⟩ | ⟨rfl, h4, u0, h5, h6⟩ | ⟨_, h4, v0, h5, h6⟩
        · exact hfresh ((I.edge _ _).1 h4).2.1
        · exact hfresh ((I.edge _ _).1 h6).2.1
        · exact hini h v0 h5 U h4 h6
      · simp only [h, if_false] at he
        rcases he with ⟨h4, _⟩ | ⟨_, _, u0, _, h6⟩ | ⟨h4, _⟩
        · exact I.iniIn _ h4
        · exact I.iniIn _ h6
        · exact hfresh (h4 ▸ I.ini)
  · have := hperm.length_eq
    simp only [List.length_append, List.length_singleton] at this ⊢
    omega

/-! ### The first chain -/

section chain
variable {g : BaseGraph Act S} {ut : List (Act × List Act)} {indeg : List (Act × Nat)} {ini : Act}

theorem nextChain_spec (Tb : Tables g ut indeg) (hini : ∃ ds, dget ut ini = some ds) (pop : Nat → Cfg Act → Act)
    (hpop : ∀ k c, c.toExplore ≠ [] → pop k c ∈ c.toExplore) (B : Nat)
    (hB : ∀ n c outs, Exec ut indeg ini n c outs → n ≤ B) (fuel n : Nat) (c : Cfg Act)
    (h : Exec ut indeg ini n c []) (hf : B < n + fuel) :
    (nextChain ut indeg pop fuel c = .ok none ∧ ∃ n' c', Exec ut indeg ini n' c' [] ∧ c'.finished = true) ∨
    ∃ ch, nextChain ut indeg pop fuel c = .ok (some ch) ∧ ∃ n' c', Exec ut indeg ini n' c' [ch] := by
  induction fuel generalizing n c with
  | zero =>
    have := hB _ _ _ h
    omega
  | succ fuel ih =>
    unfold nextChain
    by_cases hfin : c.finished = true
    · rw [if_pos hfin]
      exact Or.inl ⟨rfl, n, c, h, hfin⟩
    · rw [if_neg hfin]
      rw [Bool.not_eq_true] at hfin
      have I := exec_inv Tb h
      have hch : c.chain = none → pop fuel c ∈ c.toExplore := by
        intro hc
        refine hpop _ _ ?_
        intro hte
        simp [Cfg.finished, hte, hc] at hfin
      obtain ⟨⟨c', y⟩, hs⟩ := step_ok Tb c (pop fuel c) (by
        intro hc
        rcases I.pendDom _ (hch hc) with h | h
        · rw [h]; exact hini
        · exact h) I.chainLast
      have hex := Exec.step (pop fuel c) h hfin hch hs
      rw [hs]
      rcases y with _ | ch
      · simp only
        exact ih (n + 1) c' (by simpa using hex) (by omega)
      · simp only
        exact Or.inr ⟨ch, rfl, n + 1, c', by simpa using hex⟩

theorem forced_along {u v : Act} (h : ForcedTo g u u) (hr : Reachable g u v) : ForcedTo g v v := by
  induction hr with
  | refl => exact h
  | tail _ he ih => exact forced_next ih he

theorem linked_forced {ch : List Act} (hl : Linked g ch) (i j : Nat) (hij : i < j) (u v : Act) (hu : ch[i]? = some u)
    (hv : ch[j]? = some v) : ForcedTo g u v := by
  induction j generalizing v with
  | zero => omega
  | succ j ih =>
    have hlt : j + 1 < ch.length := (List.getElem?_eq_some_iff.1 hv).1
    obtain ⟨w, hw⟩ : ∃ w, ch[j]? = some w := ⟨ch[j], List.getElem?_eq_getElem (by omega)⟩
    have hlk := hl j w v hw hv
    rcases Nat.lt_or_ge i j with h | h
    · exact .step (ih h w hw) ⟨hlk.1, hlk.2.1⟩
    · have : i = j := by omega
      subst this
      rw [hu] at hw
      cases hw
      exact .one ⟨hlk.1, hlk.2.1⟩

theorem linked_nodup {ch : List Act} (hl : Linked g ch) (hno : ∀ u ∈ ch, ¬ ForcedTo g u u) : ch.Nodup := by
  rw [List.nodup_iff_getElem?_ne_getElem?]
  intro i j hij hj heq
  have hu : ch[i]? = some ch[i] := List.getElem?_eq_getElem (by omega)
  have hv : ch[j]? = some ch[i] := by rw [← heq, hu]
  exact hno _ (List.getElem_mem (by omega)) (linked_forced hl i j hij _ _ hu hv)

end chain

theorem group_sequence (emp : S) (o : Orders S) (c : ConjGraph Act S) (ms : List Act) :
    group emp o c "sequence" ms = c.compact emp (o.snap c.toBaseGraph.allTransitions) ms (.metaAct .sequence ms) := by
  have h : mkMeta "sequence" ms = .ok (.metaAct .sequence ms) := by unfold mkMeta; simp
  simp only [Hierarchy.group, h, bind, Except.bind]

theorem group_parallel (emp : S) (o : Orders S) (c : ConjGraph Act S) (ms : List Act) :
    group emp o c "parallel" ms = c.compact emp (o.snap c.toBaseGraph.allTransitions) ms (.metaAct .parallel ms) := by
  have h : mkMeta "parallel" ms = .ok (.metaAct .parallel ms) := by unfold mkMeta; simp
  simp only [Hierarchy.group, h, bind, Except.bind]

/-! ### One round -/

/-- Nothing is left to compact (a single node, or no chain that can be reached and no clique without self-loops). -/
def Stuck (c : ConjGraph Act S) : Prop :=
  (∀ u v, Reachable c.toBaseGraph c.initial u → ¬ Link c.toBaseGraph u v) ∧
  ∀ K, MaxClique (fun u => ∃ v, Edge c.toBaseGraph u v ∨ Edge c.toBaseGraph v u) (Mutual c.toBaseGraph) K →
    NonTrivial K → ¬ Loopless (Mutual c.toBaseGraph) K

theorem HInv.noLoop (I : HInv c0 T0 c T) (hr : ∀ u ∈ T0, Reachable c0.toBaseGraph u c0.terminal) {U : Act} (hU : U ∈ T) :
    ¬ ForcedTo c.toBaseGraph U U := by
  intro h
  have := forced_along h (I.reachTer hr hU)
  obtain ⟨m, hm, _⟩ := this.head
  exact I.terOut m hm.1

/-- Nodes that can be reached from the initial node are nodes. -/
theorem HInv.reachable_mem (I : HInv c0 T0 c T) {U : Act} (h : Reachable c.toBaseGraph c.initial U) : U ∈ T := by
  cases h with
  | refl => exact I.ini
  | tail _ he => exact ((I.edge _ _).1 he).2.1

/-- A link between two nodes is justified by the first graph. -/
theorem HInv.inOrder (I : HInv c0 T0 c T) {X Y : Act} (h : Link c.toBaseGraph X Y) : InOrder c0.toBaseGraph X Y := by
  obtain ⟨h1, h2, h3⟩ := h
  obtain ⟨hX, hY, _, hf⟩ := (I.edge X Y).1 h1
  refine ⟨hf, ?_, ?_⟩
  · intro u hu v he
    obtain ⟨V, hV, hv⟩ := I.top (I.dom _ _ he).2
    rcases I.proj he hX hV hu hv with rfl | h
    · exact Or.inl hv
    · exact Or.inr (h2 V h ▸ hv)
  · intro v hv u he
    obtain ⟨U, hU, hu⟩ := I.top (I.dom _ _ he).1
    rcases I.proj he hU hY hu hv with rfl | h
    · exact Or.inl hu
    · exact Or.inr (h3 U h ▸ hu)

/-- A finite, stuck exploration found no link. -/
theorem no_link {g : BaseGraph Act S} {ut : List (Act × List Act)} {indeg : List (Act × Nat)} {ini : Act}
    (Tb : Tables g ut indeg) (hw : WF g) (hin : ∀ U, ¬ Edge g U ini) (hno : ¬ ForcedLoop g ini) {n : Nat} {cf : Cfg Act}
    (h : Exec ut indeg ini n cf []) (hf : cf.finished = true) (u v : Act) (hu : Reachable g ini u) : ¬ Link g u v := by
  have hfin := hf
  have I2 := exec_inv2 Tb h
  simp only [Cfg.finished, Bool.and_eq_true, List.isEmpty_iff, Option.isNone_iff_eq_none] at hf
  obtain ⟨rank, h1, h2⟩ := exists_forced_rank (g := g) (allNodes g.allTransitions)
    (fun a b he => (mem_nodeOrder hw (List.Perm.refl _) (List.Perm.refl _) b).2 ⟨a, Or.inr he⟩) ini hno
    (nodup_allNodes _ _ List.nodup_nil)
  have key : ∀ k u v, Reachable g ini u → (allNodes g.allTransitions).length - rank u = k → ¬ Link g u v := by
    intro k
    induction k using Nat.strong_induction_on with
    | _ k ih =>
      intro u v hu hk hlk
      rcases I2.start u (explored_of_finished Tb h hfin u hu) with ⟨p, hp⟩ | h3 | ⟨ch, h3, _⟩ | ⟨ch, h3, h4⟩
      · have hpr : Reachable g ini p := by
          cases hu with
          | refl => exact absurd hp.1 (hin p)
          | tail hr he =>
            have := hp.2.2 _ he
            exact this ▸ hr
        have hlt := h2 p u hpr ⟨hp.1, hp.2.1⟩
        have hle := h1 p
        exact ih _ (by omega) p u hpr rfl hp
      · exact h3 ⟨v, hlk⟩
      · rw [hf.2] at h3; cases h3
      · have hlen : 2 ≤ ch.length := by
          rcases ch with _ | ⟨a, _ | ⟨b, r⟩⟩
          · cases h3.1
          · have ha : a = u := by simpa using h3.1
            subst ha
            exact absurd ⟨v, hlk⟩ (h3.2.2 a rfl)
          · simp
        exact absurd (h4 hlen) (by simp)
  exact key _ u v hu rfl

theorem HInv.nodes_le (I : HInv c0 T0 c T) {order : List (Act × S × Act)} {nodeOrder : List Act}
    (ho : order.Perm c.toBaseGraph.allTransitions) (hno : nodeOrder.Perm (allNodes order)) :
    nodeOrder.length ≤ T.length := by
  refine (List.subperm_of_subset (hno.nodup_iff.2 (nodup_allNodes _ _ List.nodup_nil)) ?_).length_le
  intro u hu
  obtain ⟨v, h | h⟩ := (mem_nodeOrder I.wf ho hno u).1 hu
  · exact ((I.edge _ _).1 h).1
  · exact ((I.edge _ _).1 h).2.1

theorem chainBound_mono {a b : Nat} (h : a ≤ b) : chainBound a ≤ chainBound b := by
  unfold chainBound
  gcongr

/-- With at least two nodes, the initial node has a successor. -/
theorem HInv.initial_edge (I : HInv c0 T0 c T) (hr : ∀ u ∈ T0, Reachable c0.toBaseGraph u c0.terminal)
    (hlen : (allNodes c.toBaseGraph.allTransitions).length > 1) : ∃ v, Edge c.toBaseGraph c.initial v := by
  have first : ∀ u v, Reachable c.toBaseGraph u v → u = v ∨ ∃ w, Edge c.toBaseGraph u w := by
    intro u v h
    induction h with
    | refl => exact Or.inl rfl
    | tail _ he ih =>
      rcases ih with rfl | h
      · exact Or.inr ⟨_, he⟩
      · exact Or.inr h
  rcases first _ _ (I.reachTer hr I.ini) with h | h
  · exfalso
    -- the terminal node is also the initial one: no other node can reach it
    have last : ∀ u v, Reachable c.toBaseGraph u v → u = v ∨ ∃ w, Edge c.toBaseGraph w v := by
      intro u v h
      cases h with
      | refl => exact Or.inl rfl
      | tail _ he => exact Or.inr ⟨_, he⟩
    have hall : ∀ u ∈ allNodes c.toBaseGraph.allTransitions, u = c.terminal := by
      intro u hu
      have huT : u ∈ T := by
        obtain ⟨v, h | h⟩ := (mem_nodeOrder I.wf (List.Perm.refl _) (List.Perm.refl _) u).1 hu
        · exact ((I.edge _ _).1 h).1
        · exact ((I.edge _ _).1 h).2.1
      rcases last _ _ (I.reachTer hr huT) with h' | ⟨w, h'⟩
      · exact h'
      · rw [← h] at h'
        exact absurd h' (I.iniIn w)
    have hnd : (allNodes c.toBaseGraph.allTransitions).Nodup := nodup_allNodes _ _ List.nodup_nil
    rcases hl : allNodes c.toBaseGraph.allTransitions with _ | ⟨a, _ | ⟨b, r⟩⟩
    · rw [hl] at hlen; simp at hlen
    · rw [hl] at hlen; simp at hlen
    · rw [hl] at hall hnd
      have e1 := hall a (by simp)
      have e2 := hall b (by simp)
      simp [e1, e2] at hnd
  · exact h

theorem HInv.round (I : HInv c0 T0 c T) (hr : ∀ u ∈ T0, Reachable c0.toBaseGraph u c0.terminal) (emp : S)
    (o : Orders S) (ho : ValidOrders o) (limit fuel : Nat) (hlim : T.length < limit)
    (hfuel : chainBound T.length < fuel) (hlen : (allNodes c.toBaseGraph.allTransitions).length > 1) :
    (round emp o limit fuel c = .ok none ∧ Stuck c) ∨
    ∃ c' T', round emp o limit fuel c = .ok (some c') ∧ HInv c0 T0 c' T' ∧ T'.length < T.length := by
  have hno := fun U hU => I.noLoop hr (U := U) hU
  have hloop : ¬ ForcedLoop c.toBaseGraph c.initial := by
    rintro ⟨u, h1, h2⟩
    exact hno u (I.reachable_mem h1) h2
  obtain ⟨ut, indeg, hdeg, Tb⟩ := tables_of_degrees I.wf (ho.trans _) (ho.nodes (allNodes (o.trans c.toBaseGraph.allTransitions)))
  have hmem := mem_nodeOrder I.wf (ho.trans c.toBaseGraph.allTransitions)
    (ho.nodes (allNodes (o.trans c.toBaseGraph.allTransitions)))
  obtain ⟨v0, hv0⟩ := I.initial_edge hr hlen
  have hini : ∃ ds, dget ut c.initial = some ds := (Tb.dom _).1 ⟨v0, Or.inl hv0⟩
  have hB : ∀ n cf outs, Exec ut indeg c.initial n cf outs → n ≤ chainBound T.length := by
    intro n cf outs hex
    refine Nat.le_trans (exec_le Tb ((hmem _).2 ⟨v0, Or.inl hv0⟩)
      ((ho.nodes _).nodup_iff.2 (nodup_allNodes _ _ List.nodup_nil))
      (fun u v he => (hmem v).2 ⟨u, Or.inr he⟩) hloop hex) (chainBound_mono ?_)
    exact I.nodes_le (ho.trans _) (ho.nodes _)
  have hfirst : firstChain o fuel c = nextChain ut indeg o.pop fuel (start c.initial) := by
    simp only [firstChain, hdeg, bind, Except.bind]
  rcases nextChain_spec Tb hini o.pop ho.pop (chainBound T.length) hB fuel 0 _ .init (by omega) with
    ⟨hn, n', cf, hex, hfin⟩ | ⟨ch, hn, n', cf, hex⟩
  · -- no chain: look for a clique
    obtain ⟨outs, hq, hc1, hc2, _⟩ := getMaxCliques_loopless c.toBaseGraph I.wf
      (o.trans' c.toBaseGraph.allTransitions) (o.nodes' (allNodes (o.trans' c.toBaseGraph.allTransitions))) o.uniq o.sets
      limit (ho.trans' _) (ho.nodes' _) ho.uniq ho.sets
      (by
        have := I.nodes_le (ho.trans' _) (ho.nodes' (allNodes (o.trans' c.toBaseGraph.allTransitions)))
        omega)
    have hclique : firstClique o limit c = .ok outs.head? := by
      simp only [firstClique, hq, bind, Except.bind, pure, Except.pure]
    rcases outs with _ | ⟨q, rest⟩
    · left
      refine ⟨?_, ?_, ?_⟩
      · simp only [Hierarchy.round, hfirst, hn, hclique, bind, Except.bind, List.head?_nil, pure, Except.pure]
      · exact fun u v hu => no_link Tb I.wf I.iniIn hloop hex hfin u v hu
      · intro K hK hnt hll
        obtain ⟨o', h, _⟩ := hc2 K hK hnt hll
        simp at h
    · right
      obtain ⟨hqn, ⟨hqnode, hqc, _⟩, hqnt, _⟩ := hc1 q (by simp)
      have hp := ho.members q
      have hmT : ∀ m ∈ o.members q, m ∈ T := by
        intro m hm
        obtain ⟨v, h | h⟩ := hqnode m (hp.mem_iff.1 hm)
        · exact ((I.edge _ _).1 h).1
        · exact ((I.edge _ _).1 h).2.1
      have hlen2 : 2 ≤ (o.members q).length := by
        rw [hp.length_eq]
        exact (nonTrivial_iff q hqn).1 hqnt
      have hmut : ∀ a ∈ o.members q, ∀ b ∈ o.members q, a ≠ b → Edge c.toBaseGraph a b :=
        fun a ha b hb hab => (hqc a b (hp.mem_iff.1 ha) (hp.mem_iff.1 hb) hab).1
      have hnd := hp.nodup_iff.2 hqn
      have hj : Justified c0.toBaseGraph (.metaAct .parallel (o.members q)) := by
        refine .parallel _ hlen2 (fun a ha => I.just a (hmT a ha)) ?_
        intro i j X Y hij hX hY
        have hne : X ≠ Y := by
          rintro rfl
          obtain ⟨hi, e1⟩ := List.getElem?_eq_some_iff.1 hX
          obtain ⟨hj, e2⟩ := List.getElem?_eq_some_iff.1 hY
          exact hij ((hnd.getElem_inj_iff).1 (e1.trans e2.symm))
        exact ((I.edge X Y).1 (hmut X (List.mem_of_getElem? hX) Y (List.mem_of_getElem? hY) hne)).2.2.2
      have hother : ∀ a ∈ o.members q, ∃ b ∈ o.members q, b ≠ a := by
        intro a ha
        obtain ⟨u, v, hu, hv, huv⟩ := hqnt
        by_cases h : u = a
        · exact ⟨v, hp.mem_iff.2 hv, fun h' => huv (h.trans h'.symm)⟩
        · exact ⟨u, hp.mem_iff.2 hu, h⟩
      obtain ⟨c', T', h1, h2, h3⟩ := I.group emp (o.snap c.toBaseGraph.allTransitions) (ho.snap _) .parallel
        (o.members q) hmT hnd hlen2 hj
        (by
          intro h
          obtain ⟨b, hb, hne⟩ := hother _ h
          exact absurd (hmut _ h b hb (Ne.symm hne)) (I.terOut b))
        (by
          intro h
          obtain ⟨b, hb, hne⟩ := hother _ h
          exact absurd (hmut b hb _ h hne) (I.iniIn b))
      refine ⟨c', T', ?_, h2, h3⟩
      simp only [Hierarchy.round, hfirst, hn, hclique, bind, Except.bind, List.head?_cons, pure, Except.pure,
        group_parallel, h1]
  · -- a chain
    right
    obtain ⟨hl2, hlk, hrm, _⟩ := (exec_inv Tb hex).outs ch (by simp)
    have hchT : ∀ m ∈ ch, m ∈ T := by
      intro m hm
      obtain ⟨i, hi, rfl⟩ := List.getElem_of_mem hm
      rcases Nat.eq_zero_or_pos i with rfl | hpos
      · have := hlk 0 ch[0] ch[1] (List.getElem?_eq_getElem (by omega)) (List.getElem?_eq_getElem (by omega))
        exact ((I.edge _ _).1 this.1).1
      · have := hlk (i - 1) ch[i - 1] ch[i] (List.getElem?_eq_getElem (by omega))
          (by rw [show i - 1 + 1 = i by omega]; exact List.getElem?_eq_getElem (by omega))
        exact ((I.edge _ _).1 this.1).2.1
    have hnd : ch.Nodup := linked_nodup hlk (fun u hu => hno u (hchT u hu))
    have hj : Justified c0.toBaseGraph (.metaAct .sequence ch) :=
      .sequence _ hl2 (fun a ha => I.just a (hchT a ha)) (fun i X Y hX hY => I.inOrder (hlk i X Y hX hY))
    obtain ⟨c', T', h1, h2, h3⟩ := I.group emp (o.snap c.toBaseGraph.allTransitions) (ho.snap _) .sequence
      ch hchT hnd hl2 hj
      (by
        intro h u hu v hv he
        obtain ⟨i, hi, rfl⟩ := List.getElem_of_mem hu
        by_cases hlast : i + 1 < ch.length
        · have hl := hlk i ch[i] ch[i + 1] (List.getElem?_eq_getElem (by omega)) (List.getElem?_eq_getElem (by omega))
          have := hl.2.1 v he
          exact hv (this ▸ List.getElem_mem hlast)
        · obtain ⟨j, hj, hje⟩ := List.getElem_of_mem h
          by_cases hjl : j + 1 < ch.length
          · have hl := hlk j ch[j] ch[j + 1] (List.getElem?_eq_getElem (by omega)) (List.getElem?_eq_getElem (by omega))
            rw [hje] at hl
            exact I.terOut _ hl.1
          · have : i = j := by omega
            subst this
            rw [hje] at he
            exact I.terOut _ he)
      (by
        intro h v hv u hu he
        obtain ⟨i, hi, rfl⟩ := List.getElem_of_mem hv
        rcases Nat.eq_zero_or_pos i with rfl | hpos
        · obtain ⟨j, hj, hje⟩ := List.getElem_of_mem h
          rcases Nat.eq_zero_or_pos j with rfl | hjpos
          · rw [hje] at he
            exact I.iniIn _ he
          · have hl := hlk (j - 1) ch[j - 1] ch[j] (List.getElem?_eq_getElem (by omega))
              (by rw [show j - 1 + 1 = j by omega]; exact List.getElem?_eq_getElem (by omega))
            rw [hje] at hl
            exact I.iniIn _ hl.1
        · have hl := hlk (i - 1) ch[i - 1] ch[i] (List.getElem?_eq_getElem (by omega))
            (by rw [show i - 1 + 1 = i by omega]; exact List.getElem?_eq_getElem (by omega))
          have := hl.2.2 u he
          exact hu (this ▸ List.getElem_mem _))
    refine ⟨c', T', ?_, h2, h3⟩
    simp only [Hierarchy.round, hfirst, hn, bind, Except.bind, pure, Except.pure, group_sequence, h1]

/-- The loop returns and the invariant holds of what it returns. -/
theorem HInv.extract (I : HInv c0 T0 c T) (hr : ∀ u ∈ T0, Reachable c0.toBaseGraph u c0.terminal) (emp : S)
    (os : Nat → Orders S) (ho : ∀ k, ValidOrders (os k)) (limit fuel : Nat) (hlim : T.length < limit)
    (hfuel : chainBound T.length < fuel) (rounds : Nat) (hrounds : T.length ≤ rounds) :
    ∃ c' T', extract emp os limit fuel rounds c = .ok c' ∧ HInv c0 T0 c' T' ∧
      ((allNodes c'.toBaseGraph.allTransitions).length ≤ 1 ∨ Stuck c') := by
  induction rounds generalizing c T with
  | zero =>
    have := List.length_pos_of_mem I.ini
    omega
  | succ rounds ih =>
    unfold Hierarchy.extract
    by_cases hlen : (allNodes c.toBaseGraph.allTransitions).length > 1
    · rw [if_pos hlen]
      rcases I.round hr emp (os rounds) (ho rounds) limit fuel hlim hfuel hlen with ⟨h1, h2⟩ | ⟨c1, T1, h1, h2, h3⟩
      · rw [h1]
        exact ⟨c, T, rfl, I, Or.inr h2⟩
      · rw [h1]
        exact ih h2 (by omega) (Nat.lt_of_le_of_lt (chainBound_mono (by omega)) hfuel) (by omega)
    · rw [if_neg hlen]
      exact ⟨c, T, rfl, I, Or.inl (by omega)⟩

theorem mem_nodesOf (hw : WF c.toBaseGraph) (u : Act) : u ∈ nodesOf c ↔
    (∃ v, Edge c.toBaseGraph u v ∨ Edge c.toBaseGraph v u) ∨ u = c.initial ∨ u = c.terminal := by
  rw [nodesOf, mem_setOf, List.mem_append, mem_nodeOrder hw (List.Perm.refl _) (List.Perm.refl _)]
  simp

/-- The nodes of the invariant are the nodes of the graph. -/
theorem HInv.nodes (I : HInv c0 T0 c T) (hr : ∀ u ∈ T0, Reachable c0.toBaseGraph u c0.terminal) :
    T.Perm (nodesOf c) := by
  refine (List.perm_ext_iff_of_nodup I.nd (nodup_setOf _)).2 ?_
  intro u
  rw [← nodesOf, mem_nodesOf I.wf]
  constructor
  · intro hu
    have first : ∀ u v, Reachable c.toBaseGraph u v → u = v ∨ ∃ w, Edge c.toBaseGraph u w := by
      intro u v h
      induction h with
      | refl => exact Or.inl rfl
      | tail _ he ih =>
        rcases ih with rfl | h
        · exact Or.inr ⟨_, he⟩
        · exact Or.inr h
    rcases first _ _ (I.reachTer hr hu) with h | ⟨w, h⟩
    · exact Or.inr (Or.inr h)
    · exact Or.inl ⟨w, Or.inl h⟩
  · rintro (⟨v, h | h⟩ | rfl | rfl)
    · exact ((I.edge _ _).1 h).1
    · exact ((I.edge _ _).1 h).2.1
    · exact I.ini
    · exact I.ter

end Verif.Hierarchy
