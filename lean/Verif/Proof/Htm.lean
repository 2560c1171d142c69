import Verif.Spec.Htm
import Verif.Proof.Py
import Mathlib.Tactic.Common
import Mathlib.Tactic.Linarith
import Mathlib.Tactic.Ring
import Mathlib.Tactic.Positivity
import Mathlib.Algebra.Order.Field.Basic
import Mathlib.Algebra.Order.Field.Rat
import Mathlib.Tactic.FieldSimp
import Mathlib.Data.List.Perm.Basic
import Mathlib.Data.Nat.Factorial.Basic
import Mathlib.Algebra.BigOperators.Group.List.Basic

/-! Lemmas about `Verif.Model.Htm`. -/

set_option linter.unusedSectionVars false
set_option linter.unusedSimpArgs false

namespace Verif
open Spec
variable {A : Type}

/-- Induction on trees. -/
theorem Htm.induct {P : Htm A → Prop} (hleaf : ∀ a i p h, P (.leaf a i p h))
    (hcomb : ∀ k cs i p n h pr, (∀ c ∈ cs, P c) → P (.comb k cs i p n h pr)) (t : Htm A) : P t := by
  refine Htm.rec (motive_1 := P) (motive_2 := fun cs => ∀ c ∈ cs, P c) hleaf ?_ ?_ ?_ t
  · intro k cs i p n h pr ih
    exact hcomb k cs i p n h pr ih
  · intro c hc
    simp at hc
  · intro c cs h1 h2 c' hc'
    rcases List.mem_cons.1 hc' with rfl | hc'
    · exact h1
    · exact h2 c' hc'

/-- Induction on dictionaries. -/
theorem DNode.induct {P : DNode → Prop}
    (h : ∀ n i p c a ch, (∀ cs, ch = some cs → ∀ d ∈ cs, P d) → P (.mk n i p c a ch)) (t : DNode) : P t := by
  refine DNode.rec (motive_1 := P) (motive_2 := fun ch => ∀ cs, ch = some cs → ∀ d ∈ cs, P d)
    (motive_3 := fun cs => ∀ d ∈ cs, P d) ?_ ?_ ?_ ?_ ?_ t
  · intro n i p c a ch ih
    exact h n i p c a ch ih
  · intro cs hcs
    cases hcs
  · intro cs ih cs' h'
    cases h'
    exact ih
  · intro c hc
    simp at hc
  · intro c cs h1 h2 c' hc'
    rcases List.mem_cons.1 hc' with rfl | hc'
    · exact h1
    · exact h2 c' hc'

theorem nodesL_eq (cs : List (Htm A)) : nodesL cs = cs.flatMap nodes := by
  induction cs with
  | nil => simp [nodesL]
  | cons c cs ih => simp [nodesL, ih]

theorem leavesL_eq (cs : List (Htm A)) : leavesL cs = cs.flatMap leaves := by
  induction cs with
  | nil => simp [leavesL]
  | cons c cs ih => simp [leavesL, ih]

theorem nodes_eq (t : Htm A) : nodes t = t :: below t := by
  cases t <;> simp [nodes, below, nodesL, Htm.children]

theorem builtL_iff (cs : List (Htm A)) : BuiltL cs ↔ ∀ c ∈ cs, Built c := by
  induction cs with
  | nil => simp [BuiltL]
  | cons c cs ih => simp [BuiltL, ih]

theorem describedL_iff (cs : List DNode) : DescribedL cs ↔ ∀ c ∈ cs, Described c := by
  induction cs with
  | nil => simp [DescribedL]
  | cons c cs ih => simp [DescribedL, ih]

/-! ### `as_dictionary` -/

theorem asDict_spec (ops : ActOps A) (t : Htm A) : ∀ (p : Option Int) (g : Int),
    Mirrors ops t (t.asDict ops p g).1 ∧ ParentsOk p (t.asDict ops p g).1 ∧
    dIds (t.asDict ops p g).1 = (List.range (nodes t).length).map (fun k : Nat => g + (k : Int)) ∧
    (t.asDict ops p g).2 = g + (nodes t).length := by
  induction t using Htm.induct with
  | hleaf a i p h =>
    intro q g
    simp [Htm.asDict, Mirrors, ParentsOk, dIds, nodes, attrOf, List.range_succ]
  | hcomb k cs i p n h pr ih =>
    intro q g
    have key : ∀ (g : Int) (q : Option Int), MirrorsL ops cs (Htm.asDictL ops q cs g).1 ∧
        ParentsOkL q (Htm.asDictL ops q cs g).1 ∧
        dIdsL (Htm.asDictL ops q cs g).1 = (List.range (nodesL cs).length).map (fun k : Nat => g + (k : Int)) ∧
        (Htm.asDictL ops q cs g).2 = g + (nodesL cs).length := by
      clear g q
      induction cs with
      | nil => intro g q; simp [Htm.asDictL, MirrorsL, ParentsOkL, dIdsL, nodesL]
      | cons c cs ihc =>
        intro g q
        obtain ⟨h1, h2, h3, h4⟩ := ih c (by simp) q g
        obtain ⟨h5, h6, h7, h8⟩ := ihc (fun c hc => ih c (by simp [hc])) (Htm.asDict ops q c g).2 q
        refine ⟨?_, ?_, ?_, ?_⟩
        · simp only [Htm.asDictL, MirrorsL]; exact ⟨h1, h5⟩
        · simp only [Htm.asDictL, ParentsOkL]; exact ⟨h2, h6⟩
        · simp only [Htm.asDictL, dIdsL, h3, h7, nodesL, List.length_append, List.range_add, List.map_append,
            List.map_map]
          congr 1
          apply List.map_congr_left
          intro x _
          simp [h4, Int.add_assoc]
        · simp only [Htm.asDictL, h8, nodesL, List.length_append]
          rw [h4]
          push_cast
          ring
    obtain ⟨h1, h2, h3, h4⟩ := key (g + 1) (some g)
    refine ⟨?_, ?_, ?_, ?_⟩
    · simp only [Htm.asDict, Mirrors, attrOf, true_and]
      exact ⟨_, rfl, h1⟩
    · simp only [Htm.asDict, ParentsOk, true_and]
      exact h2
    · simp only [Htm.asDict, dIds, h3, nodes, List.length_cons, List.range_succ_eq_map, List.map_cons, List.map_map]
      congr 1
      · simp
      · apply List.map_congr_left
        intro x _
        simp only [Function.comp, Nat.succ_eq_add_one]
        push_cast
        ring
    · simp only [Htm.asDict, h4, nodes, List.length_cons]
      push_cast
      ring

/-! ### `proba` -/

theorem replicate_sum (n : Nat) (x : ℚ) : (List.replicate n x).sum = n * x := by
  induction n with
  | zero => simp
  | succ n ih => rw [List.replicate_succ, List.sum_cons, ih]; push_cast; ring

theorem uniform_distrib (n : Nat) (hn : n ≠ 0) : IsDistrib (List.replicate n (1 / (n : ℚ))) := by
  have hn' : (0 : ℚ) < n := by exact_mod_cast Nat.pos_of_ne_zero hn
  refine ⟨by simp [hn], ?_, ?_⟩
  · intro p hp
    rw [List.eq_of_mem_replicate hp]
    refine ⟨by positivity, ?_⟩
    rw [div_le_one hn']
    exact_mod_cast Nat.one_le_iff_ne_zero.2 hn
  · rw [replicate_sum]
    rw [mul_one_div_cancel hn'.ne']
    norm_num

theorem setProba_none (n : Nat) (hn : n ≠ 0) : setProba n none = .ok (List.replicate n (1 / (n : ℚ))) := by
  simp [setProba, hn]

theorem setProba_some (n : Nat) (ps : List ℚ) (h : IsDistrib ps) : setProba n (some ps) = .ok ps := by
  obtain ⟨h1, h2, h3⟩ := h
  have ha : ps.any (fun p => decide (p < 0)) = false := by
    rw [List.any_eq_false]
    intro p hp
    simpa using (h2 p hp).1
  have hb : ps.any (fun p => decide (1 < p)) = false := by
    rw [List.any_eq_false]
    intro p hp
    simpa using (h2 p hp).2
  simp only [setProba, h1, if_false, ha, hb, isCloseOne, h3, decide_true]
  simp

theorem setProba_some_error (n : Nat) (ps : List ℚ) (h : ¬ IsDistrib ps) : setProba n (some ps) = .error .valueError := by
  unfold setProba
  simp only
  split
  · rfl
  · rename_i h1
    split
    · rfl
    · rename_i h2
      split
      · rfl
      · rename_i h3
        split
        · rfl
        · rename_i h4
          exfalso
          apply h
          refine ⟨h1, ?_, ?_⟩
          · intro p hp
            simp only [List.any_eq_true, decide_eq_true_eq, not_exists, not_and, not_lt] at h2 h3
            exact ⟨h2 p hp, h3 p hp⟩
          · simpa [isCloseOne] using h4

theorem mkComb_ok (k : Kind) (cs : List (Htm A)) (i p : Option Int) (n : String) (h : Bool) (pr : Option (List ℚ))
    (hne : k = .alternative → cs ≠ [])
    (hpr : k = .alternative → ∀ ps, pr = some ps → IsDistrib ps) :
    mkComb k cs i p n h pr = .ok (.comb k cs i p n h
      (if k = .alternative then some (List.replicate cs.length (1 / (cs.length : ℚ))) else pr)) := by
  cases k with
  | sequential => simp [mkComb]
  | parallel => simp [mkComb]
  | alternative =>
    have hl : cs.length ≠ 0 := by simpa using hne rfl
    have h1 : ∃ x, setProba cs.length pr = .ok x := by
      cases pr with
      | none => exact ⟨_, setProba_none _ hl⟩
      | some ps => exact ⟨_, setProba_some _ ps (hpr rfl ps rfl)⟩
    obtain ⟨x, hx⟩ := h1
    simp [mkComb, hx, setProba_none _ hl, bind, Except.bind, pure, Except.pure]

/-- Whatever the constructor returns is `Built`, if its children are. -/
theorem mkComb_built (k : Kind) (cs : List (Htm A)) (i p : Option Int) (n : String) (h : Bool) (pr : Option (List ℚ))
    (t : Htm A) (hcs : ∀ c ∈ cs, Built c) (hm : mkComb k cs i p n h pr = .ok t) : Built t := by
  cases k with
  | sequential =>
    simp [mkComb] at hm
    subst hm
    simp [Built, builtL_iff]
    exact hcs
  | parallel =>
    simp [mkComb] at hm
    subst hm
    simp [Built, builtL_iff]
    exact hcs
  | alternative =>
    by_cases hl : cs.length = 0
    · have : cs = [] := by simpa using hl
      subst this
      simp [mkComb, setProba, bind, Except.bind] at hm
      split at hm <;> simp at hm
    · simp only [mkComb, setProba_none _ hl, bind, Except.bind, pure, Except.pure] at hm
      split at hm
      · cases hm
      · cases hm
        simp only [Built, builtL_iff]
        exact ⟨fun _ => ⟨by simpa using hl, _, rfl, uniform_distrib _ hl⟩, hcs⟩

/-! ### `deep_copy` -/

theorem deepCopyL_eq (ops : ActOps A) (fmt : String → String) (cs : List (Htm A)) :
    Htm.deepCopyL ops fmt cs = cs.mapM (Htm.deepCopy ops fmt) := by
  induction cs with
  | nil => simp [Htm.deepCopyL]; rfl
  | cons c cs ih => simp [Htm.deepCopyL, ih]

theorem copyOfL_iff (ops : ActOps A) (fmt : String → String) (cs ds : List (Htm A)) :
    CopyOfL ops fmt cs ds ↔ List.Forall₂ (CopyOf ops fmt) cs ds := by
  induction cs generalizing ds with
  | nil => cases ds <;> simp [CopyOfL]
  | cons c cs ih => cases ds <;> simp [CopyOfL, ih]

/-- `copy` succeeds on every leaf action and renames it. -/
def CopyOk (ops : ActOps A) (fmt : String → String) (as : List A) : Prop :=
  ∀ a ∈ as, ∃ a', ops.copy fmt a = .ok a' ∧ ops.name a' = fmt (ops.name a)

theorem deepCopyL_spec_aux (ops : ActOps A) (fmt : String → String) (cs : List (Htm A))
    (h : ∀ c ∈ cs, ∃ c', c.deepCopy ops fmt = .ok c' ∧ CopyOf ops fmt c c' ∧ Built c') :
    ∃ cs', Htm.deepCopyL ops fmt cs = .ok cs' ∧ CopyOfL ops fmt cs cs' ∧ (∀ c ∈ cs', Built c) ∧
      cs'.length = cs.length := by
  induction cs with
  | nil => exact ⟨[], by simp [Htm.deepCopyL], by simp [CopyOfL], by simp, rfl⟩
  | cons c cs ih =>
    obtain ⟨c', h1, h2, h3⟩ := h c (by simp)
    obtain ⟨cs', h4, h5, h6, h7⟩ := ih (fun c hc => h c (by simp [hc]))
    refine ⟨c' :: cs', ?_, ?_, ?_, by simp [h7]⟩
    · simp [Htm.deepCopyL, h1, h4, bind, Except.bind, pure, Except.pure]
    · simp [CopyOfL, h2, h5]
    · intro d hd
      rcases List.mem_cons.1 hd with rfl | hd
      · exact h3
      · exact h6 d hd

theorem deepCopy_spec (ops : ActOps A) (fmt : String → String) (t : Htm A) (hb : Built t)
    (hc : CopyOk ops fmt (leaves t)) :
    ∃ t', t.deepCopy ops fmt = .ok t' ∧ CopyOf ops fmt t t' ∧ Built t' := by
  induction t using Htm.induct with
  | hleaf a i p h =>
    obtain ⟨a', h1, h2⟩ := hc a (by simp [leaves])
    refine ⟨.leaf a' none none h, ?_, ?_, by simp [Built]⟩
    · simp [Htm.deepCopy, h1, bind, Except.bind, pure, Except.pure]
    · simp [CopyOf, h1, h2]
  | hcomb k cs i p n h pr ih =>
    simp only [Built, builtL_iff] at hb
    obtain ⟨hb1, hb2⟩ := hb
    obtain ⟨cs', h1, h2, h3, h4⟩ := deepCopyL_spec_aux ops fmt cs (fun c hcm => ih c hcm (hb2 c hcm) (by
      intro a ha
      apply hc
      simp only [leaves, leavesL_eq, List.mem_flatMap]
      exact ⟨c, hcm, ha⟩))
    have hm := mkComb_ok k cs' none none (fmt n) h pr
      (fun hk => by
        have := (hb1 hk).1
        intro h0
        rw [h0] at h4
        simp at h4
        exact this (List.length_eq_zero_iff.1 h4.symm))
      (fun hk ps hps => by
        obtain ⟨_, ps', h5, h6⟩ := hb1 hk
        rw [hps] at h5
        cases h5
        exact h6)
    refine ⟨_, by simp only [Htm.deepCopy, h1, bind, Except.bind]; exact hm, ?_, mkComb_built _ _ _ _ _ _ _ _ h3 hm⟩
    simp only [CopyOf, true_and, h2, h4]
    split <;> simp

/-! ### Permutations -/

section perms
variable {α β : Type}

theorem picks_map (f : α → β) (l : List α) : picks (l.map f) = (picks l).map fun p => (f p.1, p.2.map f) := by
  induction l with
  | nil => rfl
  | cons x xs ih => simp [picks, ih, Function.comp_def]

theorem permsN_map (f : α → β) (n : Nat) (l : List α) : permsN n (l.map f) = (permsN n l).map (List.map f) := by
  induction n generalizing l with
  | zero => simp [permsN]
  | succ n ih =>
    simp only [permsN, picks_map, List.flatMap_map, List.map_flatMap]
    congr 1
    funext p
    simp [ih, Function.comp_def]

theorem permutations_map (f : α → β) (l : List α) : permutations (l.map f) = (permutations l).map (List.map f) := by
  simp [permutations, permsN_map]

theorem length_picks (l : List α) : (picks l).length = l.length := by
  induction l with
  | nil => rfl
  | cons x xs ih => simp [picks, ih]

theorem picks_perm (l : List α) : ∀ p ∈ picks l, (p.1 :: p.2).Perm l := by
  induction l with
  | nil => simp [picks]
  | cons x xs ih =>
    intro p hp
    simp only [picks, List.mem_cons, List.mem_map] at hp
    rcases hp with rfl | ⟨q, hq, rfl⟩
    · exact List.Perm.refl _
    · exact (List.Perm.swap x q.1 q.2).trans ((ih q hq).cons x)

theorem picks_fst (l : List α) : (picks l).map Prod.fst = l := by
  induction l with
  | nil => rfl
  | cons x xs ih =>
    simp only [picks, List.map_cons, List.map_map, List.cons.injEq, true_and]
    exact ih

theorem mem_picks_of_perm [DecidableEq α] (l : List α) (x : α) (q : List α) (h : (x :: q).Perm l) :
    ∃ p ∈ picks l, p.1 = x ∧ p.2.Perm q := by
  have hx : x ∈ (picks l).map Prod.fst := by
    rw [picks_fst]
    exact h.mem_iff.1 (by simp)
  obtain ⟨p, hp, rfl⟩ := List.mem_map.1 hx
  exact ⟨p, hp, rfl, (List.perm_cons p.1).1 ((picks_perm l p hp).trans h.symm)⟩

theorem mem_permsN [DecidableEq α] (n : Nat) (l q : List α) (hl : l.length = n) : q ∈ permsN n l ↔ q.Perm l := by
  induction n generalizing l q with
  | zero =>
    have : l = [] := by simpa using hl
    subst this
    simp [permsN]
  | succ n ih =>
    simp only [permsN, List.mem_flatMap, List.mem_map]
    constructor
    · rintro ⟨p, hp, r, hr, rfl⟩
      have h1 := picks_perm l p hp
      have hlen := h1.length_eq
      simp only [List.length_cons] at hlen
      exact (((ih p.2 r (by omega)).1 hr).cons p.1).trans h1
    · intro h
      rcases q with _ | ⟨x, q⟩
      · have := h.length_eq
        simp at this
        omega
      · obtain ⟨p, hp, rfl, h2⟩ := mem_picks_of_perm l x q h
        have hlen := (picks_perm l p hp).length_eq
        simp only [List.length_cons] at hlen
        exact ⟨p, hp, q, (ih p.2 q (by omega)).2 h2.symm, rfl⟩

theorem nodup_permsN (n : Nat) (l : List α) (hl : l.length = n) (hn : l.Nodup) : (permsN n l).Nodup := by
  induction n generalizing l with
  | zero => simp [permsN]
  | succ n ih =>
    simp only [permsN]
    rw [List.nodup_flatMap]
    refine ⟨?_, ?_⟩
    · intro p hp
      have h1 := picks_perm l p hp
      have hlen := h1.length_eq
      simp only [List.length_cons] at hlen
      apply List.Nodup.map
      · intro a b hab
        simpa using hab
      · exact ih p.2 (by omega) (List.nodup_cons.1 (h1.nodup_iff.2 hn)).2
    · have h2 : (picks l).Pairwise (fun a b => a.1 ≠ b.1) := by
        have : ((picks l).map Prod.fst).Nodup := by rw [picks_fst]; exact hn
        exact List.pairwise_map.1 this
      refine h2.imp ?_
      intro a b hab q hq1 hq2
      obtain ⟨r, _, rfl⟩ := List.mem_map.1 hq1
      obtain ⟨r', _, h'⟩ := List.mem_map.1 hq2
      simp at h'
      exact hab h'.1.symm

theorem length_permsN (n : Nat) (l : List α) (hl : l.length = n) : (permsN n l).length = n.factorial := by
  induction n generalizing l with
  | zero => simp [permsN]
  | succ n ih =>
    simp only [permsN, List.length_flatMap, List.length_map]
    have : (picks l).map (fun p => (permsN n p.2).length) = List.replicate (n + 1) n.factorial := by
      rw [List.eq_replicate_iff]
      refine ⟨by simp [length_picks, hl], ?_⟩
      intro b hb
      obtain ⟨p, hp, rfl⟩ := List.mem_map.1 hb
      have hlen := (picks_perm l p hp).length_eq
      simp only [List.length_cons] at hlen
      exact ih p.2 (by omega)
    rw [this]
    simp [Nat.factorial_succ]

/-- The orders of `n` positions that `permutations` goes through. -/
def orders (n : Nat) : List (List Nat) := permutations (List.range n)

theorem mem_orders (n : Nat) (o : List Nat) : o ∈ orders n ↔ o.Perm (List.range n) :=
  mem_permsN _ _ _ rfl

theorem nodup_orders (n : Nat) : (orders n).Nodup := nodup_permsN _ _ rfl List.nodup_range

theorem length_orders (n : Nat) : (orders n).length = n.factorial := by
  simp [orders, permutations, length_permsN]

/-- The permutations of a list are the lists of its elements at the positions given by the orders. -/
theorem permutations_eq (l : List α) :
    (permutations l).map (List.map some) = (orders l.length).map (List.map (fun i => l[i]?)) := by
  have h : (List.range l.length).map (fun i => l[i]?) = l.map some := by
    apply List.ext_getElem
    · simp
    · intro i h1 h2
      simp at h1 h2 ⊢
  rw [← permutations_map, ← h, permutations_map]
  rfl

end perms

/-! ### Names -/

theorem orderFmt_inj {i j : Nat} {a b : String} (h : orderFmt i a = orderFmt j b) : i = j ∧ a = b := by
  have hl : (orderFmt i a).toList = (orderFmt j b).toList := by rw [h]
  simp only [orderFmt, String.toList_append, Nat.toString_eq_repr, Nat.toList_repr] at hl
  have key : ∀ (x y u v : List Char), (∀ c ∈ u, c.isDigit = true) → (∀ c ∈ v, c.isDigit = true) →
      x ++ " order-".toList ++ u = y ++ " order-".toList ++ v → u = v ∧ x = y := by
    intro x y u v hu hv hxy
    have e1 : x ++ " order-".toList ++ u = (x ++ " order".toList) ++ ('-' :: u) := by simp
    have e2 : y ++ " order-".toList ++ v = (y ++ " order".toList) ++ ('-' :: v) := by simp
    rw [e1, e2] at hxy
    have hr := congrArg (fun l => l.reverse.takeWhile Char.isDigit) hxy
    have ht : ∀ (x u : List Char), (∀ c ∈ u, c.isDigit = true) →
        (x ++ '-' :: u).reverse.takeWhile Char.isDigit = u.reverse := by
      intro x u hu
      have h1 : ∀ c ∈ u.reverse, c.isDigit = true := by simpa using hu
      rw [List.reverse_append, List.reverse_cons, List.append_assoc, List.takeWhile_append_of_pos h1]
      simp [List.takeWhile_cons, Char.isDigit]
    simp only [ht _ u hu, ht _ v hv] at hr
    have huv : u = v := List.reverse_injective hr
    subst huv
    have := List.append_cancel_right hxy
    exact ⟨rfl, List.append_cancel_right this⟩
  obtain ⟨h1, h2⟩ := key _ _ _ _ (fun c hc => Nat.isDigit_of_mem_toDigits (by omega) (by omega) hc)
    (fun c hc => Nat.isDigit_of_mem_toDigits (by omega) (by omega) hc) hl
  refine ⟨?_, String.toList_inj.1 h2⟩
  have := congrArg (fun l => Nat.ofDigitChars 10 l 0) h1
  simpa using this

theorem leafNames_copy (ops : ActOps A) (fmt : String → String) (t t' : Htm A) (h : CopyOf ops fmt t t') :
    (leaves t').map ops.name = (leaves t).map (fun a => fmt (ops.name a)) := by
  induction t using Htm.induct generalizing t' with
  | hleaf a i p h' =>
    cases t' with
    | leaf a' i' p' h'' => simp [CopyOf] at h; simp [leaves, h.2.1]
    | comb => simp [CopyOf] at h
  | hcomb k cs i p n h' pr ih =>
    cases t' with
    | leaf => simp [CopyOf] at h
    | comb k' cs' i' p' n' h'' pr' =>
      simp only [CopyOf, copyOfL_iff] at h
      have hf := h.2.2.2.1
      clear h
      simp only [leaves]
      induction hf with
      | nil => simp [leavesL]
      | @cons c d cs ds hcd hf ihf =>
        simp only [leavesL, List.map_append]
        rw [ih c (by simp) d hcd, ihf (fun c hc => ih c (by simp [hc]))]

/-! ### `to_alternative` -/

theorem toAlternative_spec (ops : ActOps A) (cs : List (Htm A)) (name : String) (hl : Bool)
    (hb : ∀ c ∈ cs, Built c) (hc : ∀ i, ∀ a ∈ leavesL cs,
      ∃ a', ops.copy (orderFmt i) a = .ok a' ∧ ops.name a' = orderFmt i (ops.name a)) :
    ∃ (seqs : List (Htm A)), seqs.length = cs.length.factorial ∧
      toAlternative ops cs name hl = .ok (.comb .alternative seqs none none name hl
        (some (List.replicate seqs.length (1 / (seqs.length : ℚ))))) ∧
      List.Forall₂ (fun (oi : List Nat × Nat) s => ∃ picked copies,
        picked.map some = oi.1.map (fun k => cs[k]?) ∧ CopyOfL ops (orderFmt oi.2) picked copies ∧
        (∀ c ∈ copies, Built c) ∧ s = .comb .sequential copies none none (orderFmt oi.2 name) false none) (orders cs.length).zipIdx seqs := by
  obtain ⟨seqs, h1, h2⟩ := mapM_ok (f := fun pi : List (Htm A) × Nat => orderSeq ops name pi.1 pi.2)
    (R := fun pi s => ∃ copies, CopyOfL ops (orderFmt pi.2) pi.1 copies ∧ (∀ c ∈ copies, Built c) ∧
      s = Htm.comb .sequential copies none none (orderFmt pi.2 name) false none)
    (permutations cs).zipIdx (by
      rintro ⟨p, i⟩ hpi
      have hp : p ∈ permutations cs := (List.mem_zipIdx hpi).2.2 ▸ List.getElem_mem _
      have hperm : ∀ c ∈ p, c ∈ cs := by
        classical
        exact fun c hcp => ((mem_permsN _ _ _ rfl).1 hp).mem_iff.1 hcp
      obtain ⟨copies, h3, h4, h5, _⟩ := deepCopyL_spec_aux ops (orderFmt i) p (fun c hcp =>
        deepCopy_spec ops (orderFmt i) c (hb c (hperm c hcp)) (fun a ha => hc i a (by
          rw [leavesL_eq, List.mem_flatMap]
          exact ⟨c, hperm c hcp, ha⟩)))
      refine ⟨_, ?_, copies, h4, h5, rfl⟩
      simp [orderSeq, h3, bind, Except.bind, mkComb])
  have hlen : seqs.length = cs.length.factorial := by
    rw [← h2.length_eq, List.length_zipIdx, permutations, length_permsN _ _ rfl]
  refine ⟨seqs, hlen, ?_, ?_⟩
  · simp only [toAlternative, h1, bind, Except.bind]
    rw [mkComb_ok _ _ _ _ _ _ _ (by
      intro _ h0
      rw [h0] at hlen
      simp at hlen
      exact Nat.factorial_ne_zero _ hlen.symm) (by intro _ ps hps; cases hps)]
    simp
  · rw [List.forall₂_iff_get] at h2 ⊢
    refine ⟨by rw [List.length_zipIdx, length_orders, hlen], ?_⟩
    intro i hi hi'
    have hi2 : i < (permutations cs).length := by
      rw [permutations, length_permsN _ _ rfl, ← hlen]
      exact hi'
    obtain ⟨copies, h3, h5, h4⟩ := h2.2 i (by simpa using hi2) hi'
    simp only [List.get_eq_getElem, List.getElem_zipIdx, Nat.zero_add] at h3 h4 ⊢
    refine ⟨_, copies, ?_, h3, h5, h4⟩
    have hpe := permutations_eq cs
    have := congrArg (fun l => l[i]?) hpe
    simp only [List.getElem?_map] at this
    rw [List.getElem?_eq_getElem hi2] at this
    rw [List.getElem?_eq_getElem (by simpa using hi)] at this
    simpa using this

/-! ### Searches -/

theorem find?_flatMap_cons (P : Htm A → Bool) (c : Htm A) (cs : List (Htm A)) :
    (nodesL (c :: cs)).find? P =
      if P c then some c else ((below c).find? P).or ((nodesL cs).find? P) := by
  simp only [nodesL, nodes_eq, List.cons_append, List.find?_cons, List.find?_append]
  cases P c <;> simp

theorem findNextHuman_spec (ops : ActOps A) (cur : Int) (t : Htm A) (h : ∀ d ∈ below t, d.idx ≠ none) :
    t.findNextHuman ops cur = .ok ((below t).find? (humanAfter ops cur)) := by
  induction t using Htm.induct with
  | hleaf a i p hh => simp [Htm.findNextHuman, below, Htm.children, nodesL]
  | hcomb k cs i p n hh pr ih =>
    simp only [Htm.findNextHuman, below, Htm.children] at h ⊢
    induction cs with
    | nil => simp [Htm.findNextHumanL, nodesL]
    | cons c cs ihc =>
      rw [find?_flatMap_cons]
      have hc : c.idx ≠ none := h c (by simp [nodesL, nodes_eq])
      obtain ⟨j, hj⟩ := Option.ne_none_iff_exists'.1 hc
      have h1 := ih c (by simp) (fun d hd => h d (by simp [nodesL, nodes_eq, hd]))
      have h2 := ihc (fun c hc => ih c (by simp [hc])) (fun d hd => h d (by simp [nodesL, hd]))
      have hcond : (decide (j > cur) && isHumanLeaf ops c) = humanAfter ops cur c := by
        cases c with
        | leaf a i' p' h' =>
          simp only [Htm.idx] at hj
          subst hj
          simp [isHumanLeaf, humanAfter, Bool.and_comm]
        | comb => simp [isHumanLeaf, humanAfter]
      simp only [Htm.findNextHumanL, hj, idxGt, bind, Except.bind, hcond, h1, h2]
      by_cases hP : humanAfter ops cur c = true
      · simp [hP, pure, Except.pure]
      · simp only [hP, if_false, Bool.false_eq_true]
        cases (below c).find? (humanAfter ops cur) <;> simp [pure, Except.pure]

theorem findByName_spec (ops : ActOps A) (lower : String → String) (q : String) (t : Htm A) :
    t.findByName ops lower q = (below t).find? (fun d => pyIn q.toList (lower (d.name ops)).toList) := by
  induction t using Htm.induct with
  | hleaf a i p hh => simp [Htm.findByName, below, Htm.children, nodesL]
  | hcomb k cs i p n hh pr ih =>
    simp only [Htm.findByName, below, Htm.children]
    induction cs with
    | nil => simp [Htm.findByNameL, nodesL]
    | cons c cs ihc =>
      rw [find?_flatMap_cons]
      have h1 := ih c (by simp)
      have h2 := ihc (fun c hc => ih c (by simp [hc]))
      simp only [Htm.findByNameL, h1, h2]
      split
      · rfl
      · cases (below c).find? (fun d => pyIn q.toList (lower (d.name ops)).toList) <;> simp

theorem pyIn_iff (a b : List Char) : pyIn a b = true ↔ a <:+: b := by
  induction b with
  | nil =>
    simp only [pyIn, List.isEmpty_iff]
    constructor
    · rintro rfl; simp
    · intro h; simpa using h
  | cons c b ih =>
    simp only [pyIn, Bool.or_eq_true, List.isPrefixOf_iff_prefix, ih, List.infix_cons_iff]

mutual
/-- The pairs (parent, child) of a tree, in pre-order of the child. -/
def pairs : Htm A → List (Htm A × Htm A)
  | .leaf _ _ _ _ => []
  | .comb k cs i p n h pr => pairsL (.comb k cs i p n h pr) cs
/-- See `pairs`. -/
def pairsL (node : Htm A) : List (Htm A) → List (Htm A × Htm A)
  | [] => []
  | c :: cs => (node, c) :: pairs c ++ pairsL node cs
end

theorem pairsL_eq (node : Htm A) (cs : List (Htm A)) :
    pairsL node cs = cs.flatMap fun c => (node, c) :: pairs c := by
  induction cs with
  | nil => simp [pairsL]
  | cons c cs ih => simp [pairsL, ih]

theorem findParent_spec (i : Option Int) (t : Htm A) :
    t.findParent i = ((pairs t).find? fun pc => decide (i = pc.2.idx)).map Prod.fst := by
  induction t using Htm.induct with
  | hleaf a i p hh => simp [Htm.findParent, pairs]
  | hcomb k cs i' p n hh pr ih =>
    simp only [Htm.findParent, pairs]
    generalize Htm.comb k cs i' p n hh pr = node
    induction cs with
    | nil => simp [Htm.findParentL, pairsL]
    | cons c cs ihc =>
      have h1 := ih c (by simp)
      have h2 := ihc (fun c hc => ih c (by simp [hc]))
      simp only [Htm.findParentL, pairsL, List.cons_append, List.find?_cons, List.find?_append]
      by_cases hi : i = c.idx
      · simp [hi]
      · simp only [hi, if_false, decide_false, h1]
        rcases hf : (pairs c).find? fun pc => decide (i = pc.2.idx) with _ | x
        · simp [hf, h2]
        · simp [hf]

theorem pairs_snd (t : Htm A) : (pairs t).map Prod.snd = below t := by
  induction t using Htm.induct with
  | hleaf a i p hh => simp [pairs, below, Htm.children, nodesL]
  | hcomb k cs i' p n hh pr ih =>
    simp only [pairs, below, Htm.children]
    generalize Htm.comb k cs i' p n hh pr = node
    induction cs with
    | nil => simp [pairsL, nodesL]
    | cons c cs ihc =>
      have h1 := ih c (by simp)
      have h2 := ihc (fun c hc => ih c (by simp [hc]))
      simp [pairsL, nodesL, h1, h2, nodes_eq]

theorem mem_pairs (t p c : Htm A) : (p, c) ∈ pairs t ↔ p ∈ nodes t ∧ c ∈ p.children := by
  induction t using Htm.induct with
  | hleaf a i p' hh =>
    simp only [pairs, nodes, List.not_mem_nil, List.mem_singleton, false_iff]
    rintro ⟨rfl, h⟩
    simp [Htm.children] at h
  | hcomb k cs i' p' n hh pr ih =>
    simp only [pairs, nodes, pairsL_eq, nodesL_eq, List.mem_flatMap, List.mem_cons, Prod.mk.injEq]
    constructor
    · rintro ⟨d, hd, ⟨rfl, rfl⟩ | h⟩
      · exact ⟨Or.inl rfl, hd⟩
      · have := (ih d hd).1 h
        exact ⟨Or.inr ⟨d, hd, this.1⟩, this.2⟩
    · rintro ⟨rfl | ⟨d, hd, h⟩, hc⟩
      · exact ⟨c, hc, Or.inl ⟨rfl, rfl⟩⟩
      · exact ⟨d, hd, Or.inr ((ih d hd).2 ⟨h, hc⟩)⟩

end Verif
