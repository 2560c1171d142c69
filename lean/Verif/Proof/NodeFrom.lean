import Verif.Proof.NodeLang
import Mathlib.Data.List.Forall2

/-! The tree made by `from_node` has the linearisations of the task, up to copies of actions. -/

set_option linter.unusedSectionVars false
set_option linter.unusedSimpArgs false

namespace Verif
open Spec
variable {A : Type}

theorem hLinL_iff (cs : List (Htm A)) (us : List (List A)) : HLinL cs us ↔ List.Forall₂ HLin cs us := by
  induction cs generalizing us with
  | nil => simp [HLinL]
  | cons c cs ih =>
    simp only [HLinL, ih]
    constructor
    · rintro ⟨u, vs, rfl, h1, h2⟩; exact .cons h1 h2
    · intro h
      cases h with
      | cons h1 h2 => exact ⟨_, _, rfl, h1, h2⟩

theorem hLinAny_iff (cs : List (Htm A)) (u : List A) : HLinAny cs u ↔ ∃ c ∈ cs, HLin c u := by
  induction cs with
  | nil => simp [HLinAny]
  | cons c cs ih => simp [HLinAny, ih]

theorem hFullL_iff (cs : List (Htm A)) : HFullL cs ↔ ∀ c ∈ cs, HFull c := by
  induction cs with
  | nil => simp [HFullL]
  | cons c cs ih => simp [HFullL, ih]

theorem callDepthL_le (cs : List (Htm A)) (k : Nat) : callDepthL cs ≤ k ↔ ∀ c ∈ cs, callDepth c ≤ k := by
  induction cs with
  | nil => simp [callDepthL]
  | cons c cs ih => simp [callDepthL, ih]

theorem callDepth_pos (t : Htm A) : 1 ≤ callDepth t := by
  match t with
  | .leaf _ _ _ _ => simp [callDepth]
  | .comb .sequential _ _ _ _ _ _ => simp [callDepth]
  | .comb .alternative _ _ _ _ _ _ => simp [callDepth]
  | .comb .parallel _ _ _ _ _ _ => simp [callDepth]

theorem leavesL_eq' (cs : List (Htm A)) : Spec.leavesL cs = cs.flatMap Spec.leaves := by
  induction cs with
  | nil => rfl
  | cons c cs ih => simp [Spec.leavesL, ih]

/-! ### Copies -/

/-- One copy. -/
def IsCopy (ops : ActOps A) (fmt : String → String) (a a' : A) : Prop := ops.copy fmt a = .ok a'

theorem CopyOf.spec (ops : ActOps A) (fmt : String → String) (t : Htm A) : ∀ t', CopyOf ops fmt t t' →
    (∀ u, HLin t u → ∃ u', HLin t' u' ∧ List.Forall₂ (IsCopy ops fmt) u u') ∧
    (∀ u', HLin t' u' → ∃ u, HLin t u ∧ List.Forall₂ (IsCopy ops fmt) u u') ∧
    (HFull t → HFull t') ∧ callDepth t' = callDepth t ∧ List.Forall₂ (IsCopy ops fmt) (Spec.leaves t) (Spec.leaves t') := by
  induction t using Htm.induct with
  | hleaf a i p h =>
    intro t' ht
    match t', ht with
    | .leaf a' i' p' h', ht =>
      refine ⟨?_, ?_, fun _ => trivial, rfl, .cons ht.1 .nil⟩
      · rintro u rfl; exact ⟨[a'], rfl, .cons ht.1 .nil⟩
      · rintro u rfl; exact ⟨[a], rfl, .cons ht.1 .nil⟩
    | .comb _ _ _ _ _ _ _, ht => exact absurd ht (by simp [CopyOf])
  | hcomb k cs i p n h pr ih =>
    intro t' ht0
    match t', ht0 with
    | .leaf _ _ _ _, ht => exact absurd ht (by simp [CopyOf])
    | .comb k' cs' i' p' n' h' pr', ht =>
      obtain ⟨rfl, -, -, hl, -⟩ := ht
      clear ht0
      rw [copyOfL_iff] at hl
      have key := hl
      have hfwd : ∀ us, List.Forall₂ HLin cs us → ∃ us', List.Forall₂ HLin cs' us' ∧ List.Forall₂ (List.Forall₂ (IsCopy ops fmt)) us us' := by
        clear key
        induction hl with
        | nil => intro us hus; cases hus; exact ⟨[], .nil, .nil⟩
        | cons h1 _ ihl =>
          intro us hus
          cases hus with
          | cons h2 h3 =>
            obtain ⟨u', h4, h5⟩ := (ih _ (by simp) _ h1).1 _ h2
            obtain ⟨us', h6, h7⟩ := ihl (fun c hc => ih c (by simp [hc])) _ h3
            exact ⟨u' :: us', .cons h4 h6, .cons h5 h7⟩
      have hbwd : ∀ us', List.Forall₂ HLin cs' us' → ∃ us, List.Forall₂ HLin cs us ∧ List.Forall₂ (List.Forall₂ (IsCopy ops fmt)) us us' := by
        clear key hfwd
        induction hl with
        | nil => intro us hus; cases hus; exact ⟨[], .nil, .nil⟩
        | cons h1 _ ihl =>
          intro us hus
          cases hus with
          | cons h2 h3 =>
            obtain ⟨u', h4, h5⟩ := (ih _ (by simp) _ h1).2.1 _ h2
            obtain ⟨us', h6, h7⟩ := ihl (fun c hc => ih c (by simp [hc])) _ h3
            exact ⟨u' :: us', .cons h4 h6, .cons h5 h7⟩
      have hmem : ∀ c' ∈ cs', ∃ c ∈ cs, CopyOf ops fmt c c' := by
        clear hfwd hbwd hl ih
        induction key with
        | nil => intro c hc; simp at hc
        | cons h1 _ ihl =>
          intro c hc
          rcases List.mem_cons.1 hc with rfl | hc
          · exact ⟨_, by simp, h1⟩
          · obtain ⟨d, h2, h3⟩ := ihl c hc
            exact ⟨d, by simp [h2], h3⟩
      have hmem' : ∀ c ∈ cs, ∃ c' ∈ cs', CopyOf ops fmt c c' := by
        clear hfwd hbwd hl ih hmem
        induction key with
        | nil => intro c hc; simp at hc
        | cons h1 _ ihl =>
          intro c hc
          rcases List.mem_cons.1 hc with rfl | hc
          · exact ⟨_, by simp, h1⟩
          · obtain ⟨d, h2, h3⟩ := ihl c hc
            exact ⟨d, by simp [h2], h3⟩
      have hflat : ∀ us us' : List (List A), List.Forall₂ (List.Forall₂ (IsCopy ops fmt)) us us' →
          List.Forall₂ (IsCopy ops fmt) us.flatten us'.flatten := fun us us' h => List.rel_flatten h
      have hdep : callDepthL cs' = callDepthL cs := by
        clear hfwd hbwd hmem hmem'
        induction key with
        | nil => rfl
        | cons h1 _ ihl =>
          simp only [callDepthL]
          rw [(ih _ (by simp) _ h1).2.2.2.1, ihl (fun c hc => ih c (by simp [hc])) (by cases hl; assumption)]
      refine ⟨?_, ?_, ?_, ?_, ?_⟩
      · intro u hu
        cases k' with
        | sequential =>
          obtain ⟨us, h1, rfl⟩ := hu
          obtain ⟨us', h2, h3⟩ := hfwd us ((hLinL_iff _ _).1 h1)
          exact ⟨_, ⟨us', (hLinL_iff _ _).2 h2, rfl⟩, hflat _ _ h3⟩
        | alternative =>
          obtain ⟨c, h1, h2⟩ := (hLinAny_iff _ _).1 hu
          obtain ⟨c', h3, h4⟩ := hmem' c h1
          obtain ⟨u', h5, h6⟩ := (ih c h1 c' h4).1 u h2
          exact ⟨u', (hLinAny_iff _ _).2 ⟨c', h3, h5⟩, h6⟩
        | parallel =>
          obtain ⟨us, vs, h1, h2, rfl⟩ := hu
          obtain ⟨us', h3, h4⟩ := hfwd us ((hLinL_iff _ _).1 h1)
          obtain ⟨vs', h5, h6⟩ := List.perm_comp_forall₂ h2.symm h4
          exact ⟨_, ⟨us', vs', (hLinL_iff _ _).2 h3, h6.symm, rfl⟩, hflat _ _ h5⟩
      · intro u hu
        cases k' with
        | sequential =>
          obtain ⟨us, h1, rfl⟩ := hu
          obtain ⟨us', h2, h3⟩ := hbwd us ((hLinL_iff _ _).1 h1)
          exact ⟨_, ⟨us', (hLinL_iff _ _).2 h2, rfl⟩, hflat _ _ h3⟩
        | alternative =>
          obtain ⟨c, h1, h2⟩ := (hLinAny_iff _ _).1 hu
          obtain ⟨c', h3, h4⟩ := hmem c h1
          obtain ⟨u', h5, h6⟩ := (ih c' h3 c h4).2.1 u h2
          exact ⟨u', (hLinAny_iff _ _).2 ⟨c', h3, h5⟩, h6⟩
        | parallel =>
          obtain ⟨us, vs, h1, h2, rfl⟩ := hu
          obtain ⟨us', h3, h4⟩ := hbwd us ((hLinL_iff _ _).1 h1)
          obtain ⟨vs', h5, h6⟩ := List.perm_comp_forall₂ h2.symm h4.flip
          exact ⟨_, ⟨us', vs', (hLinL_iff _ _).2 h3, h6.symm, rfl⟩, hflat _ _ h5.flip⟩
      · rintro ⟨h1, h2⟩
        rw [hFullL_iff] at h2
        refine ⟨?_, (hFullL_iff _).2 fun c' hc' => ?_⟩
        · rintro rfl; cases hl; exact h1 rfl
        · obtain ⟨c, h3, h4⟩ := hmem c' hc'
          exact (ih c h3 c' h4).2.2.1 (h2 c h3)
      · cases k' <;> simp [callDepth, hdep]
      · simp only [Spec.leaves]
        clear hfwd hbwd hmem hmem' hdep
        induction key with
        | nil => exact .nil
        | cons h1 _ ihl =>
          simp only [Spec.leavesL]
          exact List.rel_append (ih _ (by simp) _ h1).2.2.2.2 (ihl (fun c hc => ih c (by simp [hc])) (by cases hl; assumption))

/-! ### Labels -/

namespace N2P

mutual
/-- The linearisations of the tree of a conversion, as sequences of actions. -/
def NLin : N2P A → List A → Prop
  | .leaf a, u => u = [a]
  | .seq cs, u => NLinSeq cs u
  | .alt cs, u => NLinAlt cs u
@[inherit_doc NLin]
def NLinSeq : List (N2P A) → List A → Prop
  | [], u => u = []
  | c :: cs, u => ∃ u1 u2, u = u1 ++ u2 ∧ NLin c u1 ∧ NLinSeq cs u2
@[inherit_doc NLin]
def NLinAlt : List (N2P A) → List A → Prop
  | [], _ => False
  | c :: cs, u => NLin c u ∨ NLinAlt cs u
end

theorem nLinAlt_iff (cs : List (N2P A)) (u : List A) : NLinAlt cs u ↔ ∃ c ∈ cs, NLin c u := by
  induction cs with
  | nil => simp [NLinAlt]
  | cons c cs ih => simp [NLinAlt, ih]

theorem nLinSeq_iff (cs : List (N2P A)) (u : List A) : NLinSeq cs u ↔ ∃ us, List.Forall₂ NLin cs us ∧ u = us.flatten := by
  induction cs generalizing u with
  | nil => simp [NLinSeq]
  | cons c cs ih =>
    simp only [NLinSeq, ih]
    constructor
    · rintro ⟨u1, u2, rfl, h1, us, h2, rfl⟩
      exact ⟨u1 :: us, .cons h1 h2, by simp⟩
    · rintro ⟨us, h1, rfl⟩
      cases h1 with
      | cons h1 h2 => exact ⟨_, _, by simp, h1, _, h2, rfl⟩

theorem nLin_iff_aux (n : N2P A) : ∀ (l : List A) (k : Nat), (∀ i < n.leaves.length, l[k + i]? = n.leaves[i]?) → ∀ u,
    (NLin n u ↔ ∃ ks, Lin n k ks ∧ List.Forall₂ (fun j a => l[j]? = some a) ks u) := by
  induction n using N2P.induct with
  | hleaf a =>
    intro l k hl u
    have h0 := hl 0 (by simp [leaves])
    simp only [leaves, Nat.add_zero] at h0
    simp only [NLin, Lin, exists_eq_left]
    constructor
    · rintro rfl; exact .cons (by simpa using h0) .nil
    · intro h
      cases h with
      | cons h1 h2 =>
        cases h2
        rw [h0] at h1
        simpa using h1.symm
  | hseq cs ih =>
    intro l k hl u
    simp only [NLin, Lin, leaves] at *
    induction cs generalizing k u with
    | nil => simp [NLinSeq, LinSeq]
    | cons c cs ihl =>
      simp only [leavesL, List.length_append] at hl
      have h1 := ih c (by simp) l k (fun i hi => by rw [hl i (by omega), List.getElem?_append_left hi])
      have h2 := ihl (fun c hc => ih c (by simp [hc])) (k + c.leaves.length) (fun i hi => by
        have := hl (c.leaves.length + i) (by omega)
        rw [List.getElem?_append_right (by omega), Nat.add_sub_cancel_left] at this
        rw [← this, Nat.add_assoc])
      simp only [NLinSeq, LinSeq, h1, h2]
      constructor
      · rintro ⟨u1, u2, rfl, ⟨k1, h3, h4⟩, k2, h5, h6⟩
        exact ⟨k1 ++ k2, ⟨k1, k2, rfl, h3, h5⟩, List.rel_append h4 h6⟩
      · rintro ⟨ks, ⟨k1, k2, rfl, h3, h5⟩, h4⟩
        have e : u = u.take k1.length ++ u.drop k1.length := (List.take_append_drop ..).symm
        refine ⟨_, _, e, ⟨k1, h3, ?_⟩, k2, h5, ?_⟩
        · have := List.forall₂_take k1.length h4
          rwa [List.take_left] at this
        · have := List.forall₂_drop k1.length h4
          rwa [List.drop_left] at this
  | halt cs ih =>
    intro l k hl u
    simp only [NLin, Lin, leaves] at *
    induction cs generalizing k u with
    | nil => simp [NLinAlt, LinAlt]
    | cons c cs ihl =>
      simp only [leavesL, List.length_append] at hl
      have h1 := ih c (by simp) l k (fun i hi => by rw [hl i (by omega), List.getElem?_append_left hi])
      have h2 := ihl (fun c hc => ih c (by simp [hc])) (k + c.leaves.length) (fun i hi => by
        have := hl (c.leaves.length + i) (by omega)
        rw [List.getElem?_append_right (by omega), Nat.add_sub_cancel_left] at this
        rw [← this, Nat.add_assoc])
      simp only [NLinAlt, LinAlt, h1, h2, or_and_right, exists_or]

theorem nLin_iff (n : N2P A) (u : List A) : NLin n u ↔ ∃ ks, Lin n 0 ks ∧ Labels n ks u :=
  nLin_iff_aux n n.leaves 0 (by simp) u

/-! ### `from_node` -/

/-- The tree has the linearisations of the task. -/
def LangRel (ops : ActOps A) (t : Htm A) (n : N2P A) : Prop :=
  (∀ u, HLin t u → ∃ u', NLin n u' ∧ List.Forall₂ (CopyChain ops) u u') ∧
  (∀ u', NLin n u' → ∃ u, HLin t u ∧ List.Forall₂ (CopyChain ops) u u')

theorem CopyChain.head (ops : ActOps A) {a b c : A} (i : Nat) (h1 : ops.copy (orderFmt i) a = .ok b) (h2 : CopyChain ops b c) : CopyChain ops a c := by
  induction h2 with
  | refl => exact .step i (.refl _) h1
  | step j _ h3 ih => exact .step j ih h3

theorem forall2_chain (ops : ActOps A) {i : Nat} {u v w : List A} (h1 : List.Forall₂ (IsCopy ops (orderFmt i)) u v) (h2 : List.Forall₂ (CopyChain ops) v w) :
    List.Forall₂ (CopyChain ops) u w := by
  induction h1 generalizing w with
  | nil => cases h2; exact .nil
  | cons h3 _ ih =>
    cases h2 with
    | cons h4 h5 => exact .cons (CopyChain.head ops i h3 h4) (ih h5)

theorem mapM_forall2 {α β : Type} (f : α → Py β) (P : α → β → Prop) (l : List α) (h : ∀ x ∈ l, ∃ y, f x = .ok y ∧ P x y) :
    ∃ r, l.mapM f = .ok r ∧ List.Forall₂ P l r := by
  induction l with
  | nil => exact ⟨[], rfl, .nil⟩
  | cons x l ih =>
    obtain ⟨y, h1, h2⟩ := h x (by simp)
    obtain ⟨r, h3, h4⟩ := ih (fun x hx => h x (by simp [hx]))
    exact ⟨y :: r, by simp [List.mapM_cons, h1, h3, bind, Except.bind, pure, Except.pure], .cons h2 h4⟩

/-- What is proved of `from_node`. -/
def FromOk (ops : ActOps A) (t : Htm A) (n : N2P A) : Prop :=
  Full n ∧ LangRel ops t n ∧ ∀ b ∈ n.leaves, ∃ a ∈ Spec.leaves t, CopyChain ops a b

theorem forall2_mem_right {α β : Type} {P : α → β → Prop} {l : List α} {r : List β} (h : List.Forall₂ P l r) : ∀ y ∈ r, ∃ x ∈ l, P x y := by
  induction h with
  | nil => intro y hy; simp at hy
  | cons h1 _ ih =>
    intro y hy
    rcases List.mem_cons.1 hy with rfl | hy
    · exact ⟨_, by simp, h1⟩
    · obtain ⟨x, h2, h3⟩ := ih y hy
      exact ⟨x, by simp [h2], h3⟩

theorem forall2_mem_left {α β : Type} {P : α → β → Prop} {l : List α} {r : List β} (h : List.Forall₂ P l r) : ∀ x ∈ l, ∃ y ∈ r, P x y := by
  induction h with
  | nil => intro y hy; simp at hy
  | cons h1 _ ih =>
    intro y hy
    rcases List.mem_cons.1 hy with rfl | hy
    · exact ⟨_, by simp, h1⟩
    · obtain ⟨x, h2, h3⟩ := ih y hy
      exact ⟨x, by simp [h2], h3⟩

theorem full_children (ops : ActOps A) {cs : List (Htm A)} {ns : List (N2P A)} (hne : cs ≠ []) (h : List.Forall₂ (FromOk ops) cs ns) : ns ≠ [] ∧ FullL ns := by
  refine ⟨?_, (fullL_iff _).2 fun n hn => ?_⟩
  · rintro rfl; cases h; exact hne rfl
  · obtain ⟨c, _, h1, _⟩ := forall2_mem_right h n hn
    exact h1

theorem leaves_children (ops : ActOps A) {cs : List (Htm A)} {ns : List (N2P A)} (h : List.Forall₂ (FromOk ops) cs ns) :
    ∀ b ∈ leavesL ns, ∃ a ∈ Spec.leavesL cs, CopyChain ops a b := by
  intro b hb
  rw [leavesL_eq, List.mem_flatMap] at hb
  obtain ⟨n, hn, hb⟩ := hb
  obtain ⟨c, h1, _, _, h2⟩ := forall2_mem_right h n hn
  obtain ⟨a, h3, h4⟩ := h2 b hb
  refine ⟨a, ?_, h4⟩
  rw [leavesL_eq', List.mem_flatMap]
  exact ⟨c, h1, h3⟩

theorem lang_seq (ops : ActOps A) {cs : List (Htm A)} {ns : List (N2P A)} (h : List.Forall₂ (FromOk ops) cs ns) :
    (∀ us, List.Forall₂ HLin cs us → ∃ us', List.Forall₂ NLin ns us' ∧ List.Forall₂ (List.Forall₂ (CopyChain ops)) us us') ∧
    (∀ us', List.Forall₂ NLin ns us' → ∃ us, List.Forall₂ HLin cs us ∧ List.Forall₂ (List.Forall₂ (CopyChain ops)) us us') := by
  induction h with
  | nil => exact ⟨fun us h => by cases h; exact ⟨[], .nil, .nil⟩, fun us h => by cases h; exact ⟨[], .nil, .nil⟩⟩
  | cons h1 _ ih =>
    obtain ⟨_, ⟨h2, h3⟩, _⟩ := h1
    constructor
    · intro us hus
      cases hus with
      | cons h4 h5 =>
        obtain ⟨u', h6, h7⟩ := h2 _ h4
        obtain ⟨us', h8, h9⟩ := ih.1 _ h5
        exact ⟨_, .cons h6 h8, .cons h7 h9⟩
    · intro us hus
      cases hus with
      | cons h4 h5 =>
        obtain ⟨u', h6, h7⟩ := h3 _ h4
        obtain ⟨us', h8, h9⟩ := ih.2 _ h5
        exact ⟨_, .cons h6 h8, .cons h7 h9⟩

/-- Copying is possible and renames. -/
def CopyTotal (ops : ActOps A) : Prop := ∀ i a, ∃ a', ops.copy (orderFmt i) a = .ok a' ∧ ops.name a' = orderFmt i (ops.name a)

theorem perm_orders {α : Type} {cs picked : List α} (h : picked.Perm cs) :
    ∃ o : List Nat, o.Perm (List.range cs.length) ∧ picked.map some = o.map (fun k => cs[k]?) := by
  have h1 : List.Forall₂ (fun k c => cs[k]? = some c) (List.range cs.length) cs := by
    rw [List.forall₂_iff_get]
    refine ⟨by simp, fun i h1 h2 => by simp⟩
  obtain ⟨o, h2, h3⟩ := List.perm_comp_forall₂ h h1.flip
  refine ⟨o, h3, ?_⟩
  clear h1 h3 h
  induction h2 with
  | nil => rfl
  | cons h4 _ ih => simp only [List.map_cons, ih, h4]

theorem orders_perm {α : Type} {cs picked : List α} {o : List Nat} (ho : o.Perm (List.range cs.length)) (h : picked.map some = o.map (fun k => cs[k]?)) :
    picked.Perm cs := by
  have h1 : ((List.range cs.length).map fun k => cs[k]?) = cs.map some := by
    apply List.ext_getElem
    · simp
    · intro i h1 h2; simp
  have h2 := ho.map (fun k => cs[k]?)
  rw [h1, ← h] at h2
  exact (List.map_perm_map_iff (Option.some_injective _)).1 h2

theorem fromNode_spec (ops : ActOps A) (hcopy : CopyTotal ops) (fuel : Nat) : ∀ t : Htm A, Built t → HFull t → callDepth t ≤ fuel →
    ∃ n, fromNode ops fuel t = .ok n ∧ FromOk ops t n := by
  induction fuel with
  | zero =>
    intro t _ _ h
    have := callDepth_pos t
    omega
  | succ fuel ih =>
    intro t hb hf hd
    have hch : ∀ cs : List (Htm A), BuiltL cs → HFullL cs → callDepthL cs ≤ fuel →
        ∃ ns, cs.mapM (fromNode ops fuel) = .ok ns ∧ List.Forall₂ (FromOk ops) cs ns := by
      intro cs h1 h2 h3
      rw [builtL_iff] at h1
      rw [hFullL_iff] at h2
      rw [callDepthL_le] at h3
      exact mapM_forall2 _ _ _ fun c hc => ih c (h1 c hc) (h2 c hc) (h3 c hc)
    match t, hb, hf, hd with
    | .leaf a i p h, hb, hf, hd =>
      refine ⟨.leaf a, rfl, trivial, ⟨?_, ?_⟩, ?_⟩
      · rintro u rfl; exact ⟨[a], rfl, .cons (.refl a) .nil⟩
      · rintro u rfl; exact ⟨[a], rfl, .cons (.refl a) .nil⟩
      · intro b hb; exact ⟨a, by simp [Spec.leaves], by simp [leaves] at hb; subst hb; exact .refl _⟩
    | .comb .sequential cs i p n h pr, hb, hf, hd =>
      simp only [callDepth] at hd
      obtain ⟨ns, h1, h2⟩ := hch cs hb.2 hf.2 (by omega)
      refine ⟨.seq ns, by simp [fromNode, h1, bind, Except.bind, pure, Except.pure], full_children ops hf.1 h2, ⟨?_, ?_⟩, leaves_children ops h2⟩
      · rintro u ⟨us, h3, rfl⟩
        obtain ⟨us', h4, h5⟩ := (lang_seq ops h2).1 us ((hLinL_iff _ _).1 h3)
        exact ⟨us'.flatten, (nLinSeq_iff _ _).2 ⟨us', h4, rfl⟩, List.rel_flatten h5⟩
      · intro u' h3
        obtain ⟨us', h4, rfl⟩ := (nLinSeq_iff _ _).1 h3
        obtain ⟨us, h5, h6⟩ := (lang_seq ops h2).2 us' h4
        exact ⟨us.flatten, ⟨us, (hLinL_iff _ _).2 h5, rfl⟩, List.rel_flatten h6⟩
    | .comb .alternative cs i p n h pr, hb, hf, hd =>
      simp only [callDepth] at hd
      obtain ⟨ns, h1, h2⟩ := hch cs hb.2 hf.2 (by omega)
      refine ⟨.alt ns, by simp [fromNode, h1, bind, Except.bind, pure, Except.pure], full_children ops hf.1 h2, ⟨?_, ?_⟩, leaves_children ops h2⟩
      · intro u hu
        obtain ⟨c, h3, h4⟩ := (hLinAny_iff _ _).1 hu
        obtain ⟨n', h5, h6⟩ := forall2_mem_left h2 c h3
        obtain ⟨u', h7, h8⟩ := h6.2.1.1 u h4
        exact ⟨u', (nLinAlt_iff _ _).2 ⟨n', h5, h7⟩, h8⟩
      · intro u hu
        obtain ⟨c, h3, h4⟩ := (nLinAlt_iff _ _).1 hu
        obtain ⟨n', h5, h6⟩ := forall2_mem_right h2 c h3
        obtain ⟨u', h7, h8⟩ := h6.2.1.2 u h4
        exact ⟨u', (hLinAny_iff _ _).2 ⟨n', h5, h7⟩, h8⟩
    | .comb .parallel cs i p n h pr, hb, hf, hd =>
      simp only [callDepth] at hd
      have hbl := (builtL_iff cs).1 hb.2
      have hfl := (hFullL_iff cs).1 hf.2
      obtain ⟨seqs, hlen, hok, hseqs⟩ := toAlternative_spec ops cs n h hbl (fun i a _ => hcopy i a)
      have hspec : ∀ s ∈ seqs, ∃ (o : List Nat) (j : Nat) (picked copies : List (Htm A)), o.Perm (List.range cs.length) ∧ picked.map some = o.map (fun k => cs[k]?) ∧
          List.Forall₂ (CopyOf ops (orderFmt j)) picked copies ∧ (∀ c ∈ copies, Built c) ∧
          s = .comb .sequential copies none none (orderFmt j n) false none := by
        intro s hs
        obtain ⟨⟨o, j⟩, h1, picked, copies, h2, h3, h4, h5⟩ := forall2_mem_right hseqs s hs
        refine ⟨o, j, picked, copies, ?_, h2, (copyOfL_iff ..).1 h3, h4, h5⟩
        have := List.mem_zipIdx h1
        rw [← mem_orders]
        rw [this.2.2]
        exact List.getElem_mem _
      have hall : ∀ o : List Nat, o.Perm (List.range cs.length) → ∃ s ∈ seqs, ∃ (j : Nat) (picked copies : List (Htm A)), picked.map some = o.map (fun k => cs[k]?) ∧
          List.Forall₂ (CopyOf ops (orderFmt j)) picked copies ∧
          s = .comb .sequential copies none none (orderFmt j n) false none := by
        intro o ho
        rw [← mem_orders] at ho
        obtain ⟨j, hj, rfl⟩ := List.getElem_of_mem ho
        have hm : ((orders cs.length)[j], j) ∈ (orders cs.length).zipIdx := by
          rw [List.mem_zipIdx_iff_getElem?]
          simp
        obtain ⟨s, h1, picked, copies, h2, h3, _, h5⟩ := forall2_mem_left hseqs _ hm
        exact ⟨s, h1, j, picked, copies, h2, (copyOfL_iff ..).1 h3, h5⟩
      have hseq : ∀ s ∈ seqs, ∃ n', fromNode ops fuel s = .ok n' ∧ FromOk ops s n' := by
        intro s hs
        obtain ⟨o, j, picked, copies, h1, h2, h3, h4, rfl⟩ := hspec s hs
        have hp := orders_perm h1 h2
        refine ih _ ⟨by simp, (builtL_iff _).2 h4⟩ ⟨?_, (hFullL_iff _).2 fun c hc => ?_⟩ ?_
        · rintro rfl
          cases h3
          exact hf.1 (List.nil_perm.1 hp)
        · obtain ⟨c', h5, h6⟩ := forall2_mem_right h3 c hc
          exact (CopyOf.spec ops _ c' c h6).2.2.1 (hfl c' (hp.mem_iff.1 h5))
        · have : callDepthL copies ≤ callDepthL cs := by
            rw [callDepthL_le]
            intro c hc
            obtain ⟨c', h5, h6⟩ := forall2_mem_right h3 c hc
            rw [(CopyOf.spec ops _ c' c h6).2.2.2.1]
            exact (callDepthL_le cs _).1 le_rfl c' (hp.mem_iff.1 h5)
          simp only [callDepth]
          omega
      obtain ⟨ns, h1, h2⟩ := mapM_forall2 _ _ _ hseq
      have hne : seqs ≠ [] := by
        intro h
        rw [h] at hlen
        exact absurd hlen.symm (Nat.factorial_pos _).ne'
      refine ⟨.alt ns, by simp [fromNode, hok, h1, Htm.children, bind, Except.bind, pure, Except.pure], full_children ops hne h2, ⟨?_, ?_⟩, ?_⟩
      · rintro u ⟨us, vs, h3, h4, rfl⟩
        obtain ⟨picked, h5, h6⟩ := List.perm_comp_forall₂ h4.symm ((hLinL_iff _ _).1 h3).flip
        obtain ⟨o, h7, h8⟩ := perm_orders h6
        obtain ⟨s, hs, j, picked', copies, h9, h10, rfl⟩ := hall o h7
        have : picked' = picked := List.map_injective_iff.2 (Option.some_injective _) (h9.trans h8.symm)
        subst this
        have hlin : ∃ vs', List.Forall₂ HLin copies vs' ∧ List.Forall₂ (List.Forall₂ (IsCopy ops (orderFmt j))) vs vs' := by
          replace h5 := h5.flip
          clear h9 h8 h6 h4 h3 hs
          induction h10 generalizing vs with
          | nil => cases h5; exact ⟨[], .nil, .nil⟩
          | cons h11 _ ihl =>
            cases h5 with
            | cons h12 h13 =>
              obtain ⟨u', h14, h15⟩ := (CopyOf.spec ops _ _ _ h11).1 _ h12
              obtain ⟨us', h16, h17⟩ := ihl _ h13
              exact ⟨_, .cons h14 h16, .cons h15 h17⟩
        obtain ⟨vs', h11, h12⟩ := hlin
        obtain ⟨n', h13, h14⟩ := forall2_mem_left h2 _ hs
        obtain ⟨u', h15, h16⟩ := h14.2.1.1 _ ⟨vs', (hLinL_iff _ _).2 h11, rfl⟩
        exact ⟨u', (nLinAlt_iff _ _).2 ⟨n', h13, h15⟩, forall2_chain ops (List.rel_flatten h12) h16⟩
      · intro u' hu
        obtain ⟨n', h3, h4⟩ := (nLinAlt_iff _ _).1 hu
        obtain ⟨s, hs, h5⟩ := forall2_mem_right h2 n' h3
        obtain ⟨u, h6, h7⟩ := h5.2.1.2 u' h4
        obtain ⟨o, j, picked, copies, h8, h9, h10, -, rfl⟩ := hspec s hs
        obtain ⟨vs, h11, rfl⟩ := h6
        rw [hLinL_iff] at h11
        have hp := orders_perm h8 h9
        have hlin : ∃ vs', List.Forall₂ HLin picked vs' ∧ List.Forall₂ (List.Forall₂ (IsCopy ops (orderFmt j))) vs' vs := by
          clear h9 h8 hp h7 hs h5
          induction h10 generalizing vs with
          | nil => cases h11; exact ⟨[], .nil, .nil⟩
          | cons h12 _ ihl =>
            cases h11 with
            | cons h13 h14 =>
              obtain ⟨u', h15, h16⟩ := (CopyOf.spec ops _ _ _ h12).2.1 _ h13
              obtain ⟨us', h17, h18⟩ := ihl _ h14
              exact ⟨_, .cons h15 h17, .cons h16 h18⟩
        obtain ⟨vs', h12, h13⟩ := hlin
        obtain ⟨us, h14, h15⟩ := List.perm_comp_forall₂ hp.symm h12
        exact ⟨_, ⟨us, vs', (hLinL_iff _ _).2 h14, h15, rfl⟩, forall2_chain ops (List.rel_flatten h13) h7⟩
      · intro b hb
        obtain ⟨a, h3, h4⟩ := leaves_children ops h2 b hb
        rw [leavesL_eq', List.mem_flatMap] at h3
        obtain ⟨s, hs, h5⟩ := h3
        obtain ⟨o, j, picked, copies, h8, h9, h10, _, rfl⟩ := hspec s hs
        have hp := orders_perm h8 h9
        simp only [Spec.leaves] at h5
        rw [leavesL_eq', List.mem_flatMap] at h5
        obtain ⟨c, h11, h12⟩ := h5
        obtain ⟨c', h13, h14⟩ := forall2_mem_right h10 c h11
        obtain ⟨a', h15, h16⟩ := forall2_mem_right (CopyOf.spec ops _ c' c h14).2.2.2.2 a h12
        refine ⟨a', ?_, CopyChain.head ops j h16 h4⟩
        simp only [Spec.leaves]
        rw [leavesL_eq', List.mem_flatMap]
        exact ⟨c', hp.mem_iff.1 h13, h15⟩

end N2P
end Verif
