import Verif.Spec.Names
import Verif.Proof.Orders
import Verif.Model.Tower

/-! Proofs for the names of converted tasks (C99). -/

set_option linter.unusedSectionVars false
set_option linter.unusedSimpArgs false

namespace Verif
open Spec N2P
variable {A : Type}

theorem orderNamesL_eq (name : A → String) (l : List Nat) (cs : List (Htm A)) : orderNamesL name l cs = cs.flatMap (orderNames name l) := by
  induction cs with
  | nil => simp [orderNamesL]
  | cons c cs ih => simp [orderNamesL, ih]

theorem orderSuffix_append (l l' : List Nat) : orderSuffix (l ++ l') = orderSuffix l ++ orderSuffix l' := by
  induction l with
  | nil => simp [orderSuffix]
  | cons i l ih => simp [orderSuffix, ih, String.append_assoc]

/-- The names of a copy. -/
theorem orderNames_copy (ops : ActOps A) (j : Nat) (t t' : Htm A) (h : CopyOf ops (orderFmt j) t t') : ∀ l,
    orderNames ops.name l t' = orderNames ops.name (j :: l) t := by
  induction t using Htm.induct generalizing t' with
  | hleaf a i p h' =>
    intro l
    cases t' with
    | leaf a' i' p' h'' =>
      simp only [CopyOf] at h
      simp [orderNames, h.2.1, orderFmt, orderSuffix, String.append_assoc]
    | comb => simp [CopyOf] at h
  | hcomb k cs i p n h' pr ih =>
    intro l
    cases t' with
    | leaf => simp [CopyOf] at h
    | comb k' cs' i' p' n' h'' pr' =>
      simp only [CopyOf, copyOfL_iff] at h
      obtain ⟨rfl, _, _, hf, _⟩ := h
      have hL : ∀ l, orderNamesL ops.name l cs' = orderNamesL ops.name (j :: l) cs := by
        intro l
        rw [orderNamesL_eq, orderNamesL_eq]
        clear * - hf ih
        induction hf with
        | nil => rfl
        | @cons c d cs ds hcd hf ihf =>
          simp only [List.flatMap_cons]
          rw [ih c (by simp) d hcd, ihf (fun c hc => ih c (by simp [hc]))]
      cases k' with
      | sequential => simp only [orderNames, hL]
      | alternative => simp only [orderNames, hL]
      | parallel => simp only [orderNames, hL, ← hf.length_eq, List.cons_append]

theorem orderNamesL_copy (ops : ActOps A) (j : Nat) {cs ds : List (Htm A)} (h : CopyOfL ops (orderFmt j) cs ds) (l : List Nat) :
    orderNamesL ops.name l ds = orderNamesL ops.name (j :: l) cs := by
  rw [copyOfL_iff] at h
  rw [orderNamesL_eq, orderNamesL_eq]
  induction h with
  | nil => rfl
  | cons h1 _ ih => rw [List.flatMap_cons, List.flatMap_cons, orderNames_copy ops j _ _ h1, ih]

theorem leavesL_names {ops : ActOps A} {cs : List (Htm A)} {ns : List (N2P A)}
    (h : List.Forall₂ (fun c (n : N2P A) => (n.leaves.map ops.name).Perm (orderNames ops.name [] c)) cs ns) :
    ((N2P.leavesL ns).map ops.name).Perm (orderNamesL ops.name [] cs) := by
  induction h with
  | nil => simp [N2P.leavesL, orderNamesL]
  | cons h1 _ ih =>
    rw [N2P.leavesL, orderNamesL, List.map_append]
    exact h1.append ih

/-- The names of the leaves after the conversion. -/
theorem fromNode_names (ops : ActOps A) (hcopy : CopyTotal ops) (fuel : Nat) : ∀ (t : Htm A) (n : N2P A),
    fromNode ops fuel t = .ok n → Built t → (n.leaves.map ops.name).Perm (orderNames ops.name [] t) := by
  induction fuel with
  | zero => intro t n h; simp [fromNode] at h
  | succ fuel ih =>
    intro t n hn hb
    have hch : ∀ (cs : List (Htm A)) ns, BuiltL cs → cs.mapM (fromNode ops fuel) = .ok ns →
        List.Forall₂ (fun c (n : N2P A) => (n.leaves.map ops.name).Perm (orderNames ops.name [] c)) cs ns := by
      intro cs ns h1 h4
      rw [builtL_iff] at h1
      have h5 := mapM_forall2_of h4
      clear h4
      induction h5 with
      | nil => exact .nil
      | cons h6 _ ihl => exact .cons (ih _ _ h6 (h1 _ (by simp))) (ihl fun c hc => h1 c (by simp [hc]))
    match t, hn, hb with
    | .leaf a i p h, hn, _ =>
      simp [fromNode] at hn
      subst hn
      simp [N2P.leaves, orderNames, orderSuffix]
    | .comb .sequential cs i p nm h pr, hn, hb =>
      cases hm : cs.mapM (fromNode ops fuel) with
      | error e => simp [fromNode, hm, bind, Except.bind] at hn
      | ok ns =>
        simp [fromNode, hm, bind, Except.bind, pure, Except.pure] at hn
        subst hn
        exact leavesL_names (hch cs ns hb.2 hm)
    | .comb .alternative cs i p nm h pr, hn, hb =>
      cases hm : cs.mapM (fromNode ops fuel) with
      | error e => simp [fromNode, hm, bind, Except.bind] at hn
      | ok ns =>
        simp [fromNode, hm, bind, Except.bind, pure, Except.pure] at hn
        subst hn
        exact leavesL_names (hch cs ns hb.2 hm)
    | .comb .parallel cs i p nm h pr, hn, hb =>
      have hbl := (builtL_iff cs).1 hb.2
      obtain ⟨seqs, hlen, hok, hseqs⟩ := toAlternative_spec ops cs nm h hbl (fun i a _ => hcopy i a)
      cases hm : seqs.mapM (fromNode ops fuel) with
      | error e => simp [fromNode, hok, hm, Htm.children, bind, Except.bind] at hn
      | ok ns =>
        simp [fromNode, hok, hm, Htm.children, bind, Except.bind, pure, Except.pure] at hn
        subst hn
        have hbs : BuiltL seqs := by
          rw [builtL_iff]
          intro s hs
          obtain ⟨oi, _, picked, copies, _, _, h4, rfl⟩ := forall2_mem_right hseqs s hs
          exact ⟨fun h => by simp at h, (builtL_iff _).2 h4⟩
        refine (leavesL_names (hch seqs ns hbs hm)).trans ?_
        rw [orderNamesL_eq]
        -- the sequences in turn
        have hone : List.Forall₂ (fun (oi : List Nat × Nat) s => (orderNames ops.name [] s).Perm (orderNamesL ops.name [oi.2] cs))
            (orders cs.length).zipIdx seqs := by
          refine (List.forall₂_iff_get.2 ⟨hseqs.length_eq, fun k h1 h2 => ?_⟩)
          obtain ⟨picked, copies, h3, h4, _, h6⟩ := hseqs.get h1 h2
          rw [h6]
          show (orderNamesL ops.name [] copies).Perm _
          rw [orderNamesL_copy ops _ h4 [], orderNamesL_eq, orderNamesL_eq]
          have ho : ((orders cs.length).zipIdx.get ⟨k, h1⟩).1 ∈ orders cs.length := by
            simp only [List.get_eq_getElem, List.getElem_zipIdx]
            exact List.getElem_mem _
          rw [mem_orders] at ho
          exact (orders_perm ho h3).flatMap_right _
        have hidx : (orders cs.length).zipIdx.map Prod.snd = List.range cs.length.factorial := by
          rw [List.zipIdx_map_snd, length_orders, ← List.range_eq_range']
        show (seqs.flatMap (orderNames ops.name [])).Perm ((List.range cs.length.factorial).flatMap fun i => orderNamesL ops.name ([] ++ [i]) cs)
        rw [← hidx, List.flatMap_map]
        clear * - hone
        generalize (orders cs.length).zipIdx = os at hone
        induction hone with
        | nil => exact .nil
        | cons h1 _ ih =>
          rw [List.flatMap_cons, List.flatMap_cons]
          exact h1.append ih

/-! ### Distinct names -/

/-- The suffix after `_name_radix`. -/
def radixSuffix : List Nat → String
  | [] => ""
  | i :: l => "-order-" ++ toString i ++ radixSuffix l

theorem nameRadix_append (a b : String) : nameRadix (a ++ b) = nameRadix a ++ nameRadix b := by
  simp [nameRadix, String.toList_append, String.ofList_append]

theorem toLower_digit (c : Char) (h : c.isDigit = true) : c.toLower = c := by
  unfold Char.toLower
  rw [dif_neg]
  rintro ⟨h1, _⟩
  simp only [Char.isDigit, Bool.and_eq_true, decide_eq_true_eq, ge_iff_le] at h
  have h3 := UInt32.le_iff_toNat_le.1 (UInt32.le_trans h1 h.2)
  exact absurd h3 (by decide)

theorem nameRadix_nat (i : Nat) : nameRadix (toString i) = toString i := by
  unfold nameRadix
  have : ∀ c ∈ (toString i).toList, (if c.toLower = ' ' then '-' else c.toLower) = c := by
    intro c hc
    rw [Nat.toString_eq_repr, Nat.toList_repr] at hc
    have hd := Nat.isDigit_of_mem_toDigits (by omega) (by omega) hc
    rw [toLower_digit c hd, if_neg]
    rintro rfl
    simp [Char.isDigit] at hd
  rw [List.map_congr_left this, List.map_id', String.ofList_toList]

theorem nameRadix_suffix (l : List Nat) : nameRadix (orderSuffix l) = radixSuffix l := by
  induction l with
  | nil => rfl
  | cons i l ih =>
    rw [orderSuffix, radixSuffix, nameRadix_append, nameRadix_append, nameRadix_nat, ih]
    rfl

theorem radixSuffix_append (l l' : List Nat) : radixSuffix (l ++ l') = radixSuffix l ++ radixSuffix l' := by
  induction l with
  | nil => simp [radixSuffix]
  | cons i l ih => simp [radixSuffix, ih, String.append_assoc]

theorem radix_inj {i j : Nat} {a b : String} (h : a ++ "-order-" ++ toString i = b ++ "-order-" ++ toString j) : i = j ∧ a = b := by
  have hl : (a ++ "-order-" ++ toString i).toList = (b ++ "-order-" ++ toString j).toList := by rw [h]
  have key : ∀ (x y u v : List Char), (∀ c ∈ u, c.isDigit = true) → (∀ c ∈ v, c.isDigit = true) →
      x ++ "-order-".toList ++ u = y ++ "-order-".toList ++ v → u = v ∧ x = y := by
    intro x y u v hu hv hxy
    have e1 : x ++ "-order-".toList ++ u = (x ++ "-order".toList) ++ ('-' :: u) := by simp
    have e2 : y ++ "-order-".toList ++ v = (y ++ "-order".toList) ++ ('-' :: v) := by simp
    rw [e1, e2] at hxy
    have hr := congrArg (fun l => l.reverse.takeWhile Char.isDigit) hxy
    have ht : ∀ (x u : List Char), (∀ c ∈ u, c.isDigit = true) →
        (x ++ '-' :: u).reverse.takeWhile Char.isDigit = u.reverse := by
      intro x u hu
      have h1 : ∀ c ∈ u.reverse, c.isDigit = true := by simpa using hu
      rw [List.reverse_append, List.reverse_cons, List.append_assoc, List.takeWhile_append_of_pos h1]
      simp [List.takeWhile_cons, Char.isDigit]
    simp only [ht _ u hu, ht _ v hv] at hr
    have huv : u = v := List.reverse_injective hr
    subst huv
    have := List.append_cancel_right hxy
    exact ⟨rfl, List.append_cancel_right this⟩
  simp only [String.toList_append, Nat.toString_eq_repr, Nat.toList_repr] at hl
  obtain ⟨h1, h2⟩ := key _ _ _ _ (fun c hc => Nat.isDigit_of_mem_toDigits (by omega) (by omega) hc)
    (fun c hc => Nat.isDigit_of_mem_toDigits (by omega) (by omega) hc) hl
  refine ⟨?_, String.toList_inj.1 h2⟩
  have := congrArg (fun l => Nat.ofDigitChars 10 l 0) h1
  simpa using this

/-- The orders can be read in the name. -/
theorem radix_read {a b : String} (ha : ¬ EndsInOrder a) (hb : ¬ EndsInOrder b) : ∀ l l' : List Nat,
    a ++ radixSuffix l = b ++ radixSuffix l' → a = b ∧ l = l' := by
  have one : ∀ (l : List Nat) (i : Nat), radixSuffix (l ++ [i]) = radixSuffix l ++ "-order-" ++ toString i := by
    intro l i
    rw [radixSuffix_append]
    simp [radixSuffix, String.append_assoc]
  intro l
  induction l using List.reverseRecOn with
  | nil =>
    intro l' h
    rcases List.eq_nil_or_concat l' with rfl | ⟨l2, j, rfl⟩
    · exact ⟨by simpa [radixSuffix] using h, rfl⟩
    · exfalso
      refine ha ⟨b ++ radixSuffix l2, j, ?_⟩
      rw [List.concat_eq_append, one] at h
      simpa [radixSuffix, String.append_assoc] using h
  | append_singleton l1 i ih =>
    intro l' h
    rcases List.eq_nil_or_concat l' with rfl | ⟨l2, j, rfl⟩
    · exfalso
      refine hb ⟨a ++ radixSuffix l1, i, ?_⟩
      rw [one] at h
      simpa [radixSuffix, String.append_assoc] using h.symm
    · rw [List.concat_eq_append] at h ⊢
      rw [one, one, ← String.append_assoc, ← String.append_assoc, ← String.append_assoc, ← String.append_assoc] at h
      obtain ⟨rfl, h2⟩ := radix_inj h
      obtain ⟨h3, rfl⟩ := ih l2 h2
      exact ⟨h3, rfl⟩

theorem leavesL_mem (cs : List (Htm A)) (a : A) : a ∈ Spec.leavesL cs ↔ ∃ c ∈ cs, a ∈ Spec.leaves c := by
  rw [leavesL_eq', List.mem_flatMap]

theorem orderNames_mem (name : A → String) (t : Htm A) : ∀ l, ∀ s ∈ orderNames name l t, ∃ a ∈ Spec.leaves t, ∃ l', s = name a ++ orderSuffix (l ++ l') := by
  induction t using Htm.induct with
  | hleaf a i p h =>
    intro l s hs
    simp only [orderNames, List.mem_singleton] at hs
    exact ⟨a, by simp [Spec.leaves], [], by simpa using hs⟩
  | hcomb k cs i p n h pr ih =>
    intro l s hs
    have hL : ∀ l, ∀ s ∈ orderNamesL name l cs, ∃ a ∈ Spec.leavesL cs, ∃ l', s = name a ++ orderSuffix (l ++ l') := by
      intro l s hs
      rw [orderNamesL_eq, List.mem_flatMap] at hs
      obtain ⟨c, hc, hs⟩ := hs
      obtain ⟨a, ha, l', h1⟩ := ih c hc l s hs
      exact ⟨a, (leavesL_mem cs a).2 ⟨c, hc, ha⟩, l', h1⟩
    cases k with
    | sequential => exact hL l s hs
    | alternative => exact hL l s hs
    | parallel =>
      simp only [orderNames, List.mem_flatMap] at hs
      obtain ⟨i, _, hs⟩ := hs
      obtain ⟨a, ha, l', h1⟩ := hL _ s hs
      exact ⟨a, ha, i :: l', by simpa using h1⟩

theorem orderNames_nodup (name : A → String) (t : Htm A) (hd : ((Spec.leaves t).map fun a => nameRadix (name a)).Nodup)
    (ho : ∀ a ∈ Spec.leaves t, ¬ EndsInOrder (nameRadix (name a))) : ∀ l, ((orderNames name l t).map nameRadix).Nodup := by
  induction t using Htm.induct with
  | hleaf a i p h => intro l; simp [orderNames]
  | hcomb k cs i p n h pr ih =>
    have hrad : ∀ (a : A) (l : List Nat), nameRadix (name a ++ orderSuffix l) = nameRadix (name a) ++ radixSuffix l := fun a l => by
      rw [nameRadix_append, nameRadix_suffix]
    have hsub : ∀ cs' : List (Htm A), cs'.Sublist cs → ∀ l, ((orderNamesL name l cs').map nameRadix).Nodup := by
      intro cs'
      induction cs' with
      | nil => intro _ l; simp [orderNamesL]
      | cons c cs' ihl =>
        intro hs l
        have hsl : (Spec.leavesL (c :: cs')).Sublist (Spec.leavesL cs) := by
          rw [leavesL_eq', leavesL_eq']
          exact List.Sublist.flatMap hs _
        have hd' : ((Spec.leavesL (c :: cs')).map fun a => nameRadix (name a)).Nodup := hd.sublist (hsl.map _)
        have ho' : ∀ a ∈ Spec.leavesL (c :: cs'), ¬ EndsInOrder (nameRadix (name a)) := fun a ha => ho a (hsl.subset ha)
        rw [Spec.leavesL, List.map_append, List.nodup_append'] at hd'
        rw [orderNamesL, List.map_append, List.nodup_append']
        refine ⟨ih c (hs.subset (by simp)) hd'.1 (fun a ha => ho' a (by simp [Spec.leavesL, ha])) l, ihl (List.sublist_of_cons_sublist hs) l, ?_⟩
        intro x hx hy
        rw [List.mem_map] at hx hy
        obtain ⟨s, hs1, rfl⟩ := hx
        obtain ⟨s', hs2, he⟩ := hy
        obtain ⟨a, ha, l1, rfl⟩ := orderNames_mem name c l s hs1
        rw [orderNamesL_eq, List.mem_flatMap] at hs2
        obtain ⟨c', hc', hs2⟩ := hs2
        obtain ⟨b, hb, l2, rfl⟩ := orderNames_mem name c' l s' hs2
        have hb' : b ∈ Spec.leavesL cs' := (leavesL_mem _ _).2 ⟨c', hc', hb⟩
        rw [hrad, hrad] at he
        have := radix_read (ho' b (by simp [Spec.leavesL, hb'])) (ho' a (by simp [Spec.leavesL, ha])) _ _ he
        exact hd'.2.2 (List.mem_map.2 ⟨a, ha, rfl⟩) (List.mem_map.2 ⟨b, hb', this.1⟩)
    intro l
    cases k with
    | sequential => exact hsub cs (List.Sublist.refl _) l
    | alternative => exact hsub cs (List.Sublist.refl _) l
    | parallel =>
      show (((List.range cs.length.factorial).flatMap fun i => orderNamesL name (l ++ [i]) cs).map nameRadix).Nodup
      rw [List.map_flatMap, List.nodup_flatMap]
      refine ⟨fun i _ => hsub cs (List.Sublist.refl _) _, ?_⟩
      refine List.Pairwise.imp ?_ (List.nodup_range (n := cs.length.factorial))
      intro i j hij x hx hy
      simp only [List.mem_map, orderNamesL_eq, List.mem_flatMap] at hx hy
      obtain ⟨s, ⟨c, hc, hs1⟩, rfl⟩ := hx
      obtain ⟨s', ⟨c', hc', hs2⟩, he⟩ := hy
      obtain ⟨a, ha, l1, rfl⟩ := orderNames_mem name c _ s hs1
      obtain ⟨b, hb, l2, rfl⟩ := orderNames_mem name c' _ s' hs2
      rw [hrad, hrad] at he
      have := (radix_read (ho b ((leavesL_mem _ _).2 ⟨c', hc', hb⟩)) (ho a ((leavesL_mem _ _).2 ⟨c, hc, ha⟩)) _ _ he).2
      simp only [List.append_assoc, List.append_cancel_left_eq, List.singleton_append, List.cons.injEq] at this
      exact hij this.1.symm

end Verif
