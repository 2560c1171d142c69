import Verif.Proof.HtmModel
import Verif.Proof.TaskGraph
import Verif.Spec.BringNext

/-! Proofs about the bring-next conversion. -/

set_option linter.unusedSectionVars false
set_option linter.unusedSimpArgs false

namespace Verif
open Spec N2P

/-! ### `from_node` -/

theorem parFreeL_iff {A : Type} (cs : List (Htm A)) : ParFreeL cs ↔ ∀ c ∈ cs, ParFree c := by
  induction cs with
  | nil => simp [ParFreeL]
  | cons c cs ih => simp [ParFreeL, ih]

/-- What `from_node` gives on a tree without parallel combinations. -/
def BnOk (t : Htm BAction) (n : N2P BAction) : Prop := Full n ∧ n.leaves = Spec.leaves t ∧ ∀ u, NLin n u ↔ HLin t u

/-- The trees accepted. -/
def BnGood (t : Htm BAction) : Prop := ParFree t ∧ HasObjects t

theorem forall2_map_eq {α β γ : Type} {P : α → β → Prop} {f : α → γ} {g : β → γ} {l : List α} {r : List β} (h : List.Forall₂ P l r)
    (hP : ∀ a b, P a b → f a = g b) : l.map f = r.map g := by
  induction h with
  | nil => rfl
  | cons h1 _ ih => simp [hP _ _ h1, ih]

theorem mapM_error_of {α β : Type} (f : α → Py β) (e : PyErr) (l : List α) (h : ∀ x ∈ l, (∃ y, f x = .ok y) ∨ f x = .error e)
    (hx : ∃ x ∈ l, f x = .error e) : l.mapM f = .error e := by
  induction l with
  | nil => obtain ⟨x, hx, _⟩ := hx; simp at hx
  | cons a l ih =>
    rcases h a (by simp) with ⟨y, hy⟩ | hy
    · have : ∃ x ∈ l, f x = .error e := by
        obtain ⟨x, hx, hx'⟩ := hx
        rcases List.mem_cons.1 hx with rfl | hx
        · rw [hy] at hx'; cases hx'
        · exact ⟨x, hx, hx'⟩
      simp [List.mapM_cons, hy, ih (fun x hx => h x (by simp [hx])) this, bind, Except.bind]
    · simp [List.mapM_cons, hy, bind, Except.bind]

theorem leaves_ne_nil {A : Type} (t : Htm A) (hf : HFull t) : Spec.leaves t ≠ [] := by
  induction t using Htm.induct with
  | hleaf a i p h => simp [Spec.leaves]
  | hcomb k cs a b n h p ih =>
    obtain ⟨c, hc⟩ := List.exists_mem_of_ne_nil _ hf.1
    have := ih c hc ((hFullL_iff cs).1 hf.2 c hc)
    obtain ⟨x, hx⟩ := List.exists_mem_of_ne_nil _ this
    simp only [Spec.leaves, leavesL_eq']
    exact List.ne_nil_of_mem (List.mem_flatMap.2 ⟨c, hc, hx⟩)

theorem hasObjects_comb (k : Kind) (cs : List (Htm BAction)) (a b n h p) :
    HasObjects (.comb k cs a b n h p) ↔ ∀ c ∈ cs, HasObjects c := by
  unfold HasObjects
  simp only [Spec.leaves, leavesL_eq', List.mem_flatMap]
  exact ⟨fun h c hc x hx => h x ⟨c, hc, hx⟩, fun h x ⟨c, hc, hx⟩ => h c hc x hx⟩

theorem bn_children {cs : List (Htm BAction)} {ns : List (N2P BAction)} (hne : cs ≠ []) (h : List.Forall₂ BnOk cs ns) :
    (ns ≠ [] ∧ FullL ns) ∧ N2P.leavesL ns = Spec.leavesL cs ∧ (∀ u, NLinSeq ns u ↔ ∃ us, HLinL cs us ∧ u = us.flatten) ∧
    ∀ u, NLinAlt ns u ↔ HLinAny cs u := by
  refine ⟨⟨?_, (fullL_iff _).2 fun n hn => ?_⟩, ?_, ?_, ?_⟩
  · rintro rfl; cases h; exact hne rfl
  · obtain ⟨c, _, h1, _⟩ := forall2_mem_right h n hn
    exact h1
  · rw [N2P.leavesL_eq, leavesL_eq', List.flatMap_def, List.flatMap_def, forall2_map_eq h (fun a b hab => hab.2.1.symm)]
  · intro u
    rw [nLinSeq_iff]
    have : ∀ us, List.Forall₂ NLin ns us ↔ HLinL cs us := by
      intro us
      rw [hLinL_iff]
      clear hne
      induction h generalizing us with
      | nil => simp
      | cons h1 _ ih =>
        constructor
        · intro h2
          cases h2 with
          | cons h3 h4 => exact .cons ((h1.2.2 _).1 h3) ((ih _).1 h4)
        · intro h2
          cases h2 with
          | cons h3 h4 => exact .cons ((h1.2.2 _).2 h3) ((ih _).2 h4)
    simp only [this]
  · intro u
    rw [nLinAlt_iff, hLinAny_iff]
    constructor
    · rintro ⟨n, hn, hu⟩
      obtain ⟨c, h1, h2⟩ := forall2_mem_right h n hn
      exact ⟨c, h1, (h2.2.2 _).1 hu⟩
    · rintro ⟨c, hc, hu⟩
      obtain ⟨n, h1, h2⟩ := forall2_mem_left h c hc
      exact ⟨n, h1, (h2.2.2 _).2 hu⟩

theorem bnCopyTotal : CopyTotal BAction.ops := fun _ _ => ⟨_, rfl, rfl⟩

theorem copies_no_obj {fmt : String → String} {u v : List BAction} (h : List.Forall₂ (IsCopy BAction.ops fmt) u v) : ∀ a ∈ v, a.obj = none := by
  intro a ha
  obtain ⟨b, _, hb⟩ := forall2_mem_right h a ha
  injection hb with this
  rw [← this]

theorem bnFromNode_spec (fuel : Nat) : ∀ t : Htm BAction, Built t → HFull t → callDepth t ≤ fuel →
    (BnGood t → ∃ n, bnFromNode fuel t = .ok n ∧ BnOk t n) ∧ (¬ BnGood t → bnFromNode fuel t = .error .attributeError) := by
  induction fuel with
  | zero =>
    intro t _ _ h
    have := callDepth_pos t
    omega
  | succ fuel ih =>
    intro t hb hf hd
    have hch : ∀ cs : List (Htm BAction), BuiltL cs → HFullL cs → callDepthL cs ≤ fuel →
        ((∀ c ∈ cs, BnGood c) → ∃ ns, cs.mapM (bnFromNode fuel) = .ok ns ∧ List.Forall₂ BnOk cs ns) ∧
        ((∃ c ∈ cs, ¬ BnGood c) → cs.mapM (bnFromNode fuel) = .error .attributeError) := by
      intro cs h1 h2 h3
      rw [builtL_iff] at h1
      rw [hFullL_iff] at h2
      rw [callDepthL_le] at h3
      refine ⟨fun hg => mapM_forall2 _ _ _ fun c hc => (ih c (h1 c hc) (h2 c hc) (h3 c hc)).1 (hg c hc), fun hg => mapM_error_of _ _ _ ?_ ?_⟩
      · intro c hc
        by_cases hgc : BnGood c
        · obtain ⟨n, h4, _⟩ := (ih c (h1 c hc) (h2 c hc) (h3 c hc)).1 hgc
          exact Or.inl ⟨n, h4⟩
        · exact Or.inr ((ih c (h1 c hc) (h2 c hc) (h3 c hc)).2 hgc)
      · obtain ⟨c, hc, hgc⟩ := hg
        exact ⟨c, hc, (ih c (h1 c hc) (h2 c hc) (h3 c hc)).2 hgc⟩
    have hgood : ∀ (k : Kind) (cs : List (Htm BAction)) (a b n h p), k ≠ .parallel → (BnGood (.comb k cs a b n h p) ↔ ∀ c ∈ cs, BnGood c) := by
      intro k cs a b n h p hk
      unfold BnGood
      rw [hasObjects_comb]
      simp only [ParFree, parFreeL_iff, hk, ne_eq, not_false_eq_true, true_and]
      exact ⟨fun h c hc => ⟨h.1 c hc, h.2 c hc⟩, fun h => ⟨fun c hc => (h c hc).1, fun c hc => (h c hc).2⟩⟩
    match t, hb, hf, hd with
    | .leaf a i p h, hb, hf, hd =>
      constructor
      · rintro ⟨_, hg⟩
        obtain ⟨o, ho⟩ := hg a (by simp [Spec.leaves])
        exact ⟨.leaf a, by simp [bnFromNode, bnLeaf, ho], trivial, rfl, fun u => Iff.rfl⟩
      · intro hg
        have : a.obj = none := by
          by_contra hne
          obtain ⟨o, ho⟩ := Option.ne_none_iff_exists'.1 hne
          refine hg ⟨trivial, fun x hx => ?_⟩
          simp [Spec.leaves] at hx
          exact ⟨o, hx ▸ ho⟩
        simp [bnFromNode, bnLeaf, this]
    | .comb .sequential cs i p n h pr, hb, hf, hd =>
      simp only [callDepth] at hd
      obtain ⟨h1, h2⟩ := hch cs hb.2 hf.2 (by omega)
      rw [hgood _ _ _ _ _ _ _ (by decide)]
      constructor
      · intro hg
        obtain ⟨ns, h3, h4⟩ := h1 hg
        obtain ⟨h5, h6, h7, _⟩ := bn_children hf.1 h4
        exact ⟨.seq ns, by simp [bnFromNode, h3, bind, Except.bind, pure, Except.pure], h5, h6, h7⟩
      · intro hg
        push Not at hg
        simp [bnFromNode, h2 hg, bind, Except.bind]
    | .comb .alternative cs i p n h pr, hb, hf, hd =>
      simp only [callDepth] at hd
      obtain ⟨h1, h2⟩ := hch cs hb.2 hf.2 (by omega)
      rw [hgood _ _ _ _ _ _ _ (by decide)]
      constructor
      · intro hg
        obtain ⟨ns, h3, h4⟩ := h1 hg
        obtain ⟨h5, h6, _, h7⟩ := bn_children hf.1 h4
        exact ⟨.alt ns, by simp [bnFromNode, h3, bind, Except.bind, pure, Except.pure], h5, h6, h7⟩
      · intro hg
        push Not at hg
        simp [bnFromNode, h2 hg, bind, Except.bind]
    | .comb .parallel cs i p n h pr, hb, hf, hd =>
      simp only [callDepth] at hd
      refine ⟨fun hg => absurd rfl hg.1.1, fun _ => ?_⟩
      have hbl := (builtL_iff cs).1 hb.2
      have hfl := (hFullL_iff cs).1 hf.2
      obtain ⟨seqs, hlen, hok, hseqs⟩ := toAlternative_spec BAction.ops cs n h hbl (fun i a _ => bnCopyTotal i a)
      have hseq : ∀ s ∈ seqs, Built s ∧ HFull s ∧ callDepth s ≤ fuel ∧ ¬ BnGood s := by
        intro s hs
        obtain ⟨⟨o, j⟩, h1, picked, copies, h2, h3, h4, rfl⟩ := forall2_mem_right hseqs s hs
        rw [copyOfL_iff] at h3
        have hp : picked.Perm cs := by
          refine orders_perm (o := o) ?_ h2
          have := List.mem_zipIdx h1
          rw [← mem_orders, this.2.2]
          exact List.getElem_mem _
        have hne : copies ≠ [] := by
          rintro rfl
          cases h3
          exact hf.1 (List.nil_perm.1 hp)
        have hfc : ∀ c ∈ copies, HFull c := by
          intro c hc
          obtain ⟨c', h5, h6⟩ := forall2_mem_right h3 c hc
          exact (CopyOf.spec _ _ c' c h6).2.2.1 (hfl c' (hp.mem_iff.1 h5))
        refine ⟨⟨by simp, (builtL_iff _).2 h4⟩, ⟨hne, (hFullL_iff _).2 hfc⟩, ?_, ?_⟩
        · have : callDepthL copies ≤ callDepthL cs := by
            rw [callDepthL_le]
            intro c hc
            obtain ⟨c', h5, h6⟩ := forall2_mem_right h3 c hc
            rw [(CopyOf.spec _ _ c' c h6).2.2.2.1]
            exact (callDepthL_le cs _).1 le_rfl c' (hp.mem_iff.1 h5)
          simp only [callDepth]
          omega
        · intro hg
          obtain ⟨c, hc⟩ := List.exists_mem_of_ne_nil _ hne
          obtain ⟨c', h5, h6⟩ := forall2_mem_right h3 c hc
          obtain ⟨a, ha⟩ := List.exists_mem_of_ne_nil _ (leaves_ne_nil c (hfc c hc))
          obtain ⟨o, ho⟩ := (hasObjects_comb _ _ _ _ _ _ _).1 hg.2 c hc a ha
          rw [copies_no_obj (CopyOf.spec _ _ c' c h6).2.2.2.2 a ha] at ho
          cases ho
      have hne : seqs ≠ [] := by
        intro h
        rw [h] at hlen
        exact absurd hlen.symm (Nat.factorial_pos _).ne'
      have hm : seqs.mapM (bnFromNode fuel) = .error .attributeError := by
        refine mapM_error_of _ _ _ (fun s hs => Or.inr ?_) ?_
        · obtain ⟨h1, h2, h3, h4⟩ := hseq s hs
          exact (ih s h1 h2 h3).2 h4
        · obtain ⟨s, hs⟩ := List.exists_mem_of_ne_nil _ hne
          obtain ⟨h1, h2, h3, h4⟩ := hseq s hs
          exact ⟨s, hs, (ih s h1 h2 h3).2 h4⟩
      simp [bnFromNode, hok, hm, Htm.children, bind, Except.bind]

/-! ### Indices of the actions -/

section index
variable (h : BnParams)

theorem bn_actions_length : h.actions.length = 2 * h.objects.length := by simp [BnParams.actions]; omega

theorem bn_actions_nodup : h.actions.Nodup ↔ h.objects.Nodup := by
  have hinj : ∀ p : String, Function.Injective (p ++ ·) := fun p a b hab => (strAppend_inj p a b).1 hab
  unfold BnParams.actions
  rw [List.nodup_append', List.nodup_map_iff (hinj _), List.nodup_map_iff (hinj _)]
  refine ⟨fun h => h.1, fun h1 => ⟨h1, h1, ?_⟩⟩
  intro x hx hy
  obtain ⟨a, _, rfl⟩ := List.mem_map.1 hx
  obtain ⟨b, _, e⟩ := List.mem_map.1 hy
  exact Clash.ne (p := "ask-") (q := "get-") (by decide) b a e

theorem foldl_dset_keys {κ : Type} [DecidableEq κ] (l : List (κ × Nat)) (k : κ) : ∀ acc : List (κ × Nat),
    (dget (l.foldl (fun d x => dset d x.1 x.2) acc) k).isSome = ((dget acc k).isSome || decide (k ∈ l.map Prod.fst)) := by
  induction l with
  | nil => simp
  | cons x l ih =>
    intro acc
    rw [List.foldl_cons, ih, dget_dset]
    by_cases hx : k = x.1
    · simp [hx]
    · rw [if_neg (Ne.symm hx)]
      congr 1
      rw [decide_eq_decide, List.map_cons, List.mem_cons]
      simp only [hx, false_or]

theorem bn_index_total (a : String) : (∃ i, h.index a = .ok i) ↔ a ∈ h.actions := by
  have h1 := foldl_dset_keys h.actions.zipIdx a []
  rw [show h.actions.zipIdx.map Prod.fst = h.actions by simp] at h1
  simp only [dget_nil, Option.isSome_none, Bool.false_or] at h1
  unfold BnParams.index BnParams.actionIndices
  rw [← decide_eq_true_iff (p := a ∈ h.actions), ← h1, Option.isSome_iff_exists]
  constructor
  · rintro ⟨i, hi⟩
    split at hi
    · rename_i j hj; exact ⟨j, hj⟩
    · cases hi
  · rintro ⟨i, hi⟩
    exact ⟨i, by rw [hi]⟩

theorem bn_index_cases (a : String) : (∃ i, h.index a = .ok i) ∨ h.index a = .error .keyError := by
  unfold BnParams.index
  split
  · exact Or.inl ⟨_, rfl⟩
  · exact Or.inr rfl

theorem bn_mem_get (o : String) : "get-" ++ o ∈ h.actions ↔ o ∈ h.objects := by
  unfold BnParams.actions
  rw [List.mem_append, List.mem_map, List.mem_map]
  constructor
  · rintro (⟨a, ha, e⟩ | ⟨a, ha, e⟩)
    · rw [← (strAppend_inj _ _ _).1 e]; exact ha
    · exact absurd e (Clash.ne (by decide) _ _)
  · intro ho
    exact Or.inl ⟨o, ho, rfl⟩

theorem bn_mem_ask (o : String) : "ask-" ++ o ∈ h.actions ↔ o ∈ h.objects := by
  unfold BnParams.actions
  rw [List.mem_append, List.mem_map, List.mem_map]
  constructor
  · rintro (⟨a, ha, e⟩ | ⟨a, ha, e⟩)
    · exact absurd e (Clash.ne (by decide) _ _)
    · rw [← (strAppend_inj _ _ _).1 e]; exact ha
  · intro ho
    exact Or.inr ⟨o, ho, rfl⟩

theorem bn_index_get (hn : h.objects.Nodup) (i : Nat) (o : String) (hi : h.objects[i]? = some o) :
    h.index ("get-" ++ o) = .ok i ∧ h.index ("ask-" ++ o) = .ok (h.objects.length + i) := by
  have hnd := (bn_actions_nodup h).2 hn
  have key : ∀ (j : Nat) (a : String), h.actions[j]? = some a → h.index a = .ok j := by
    intro j a hj
    have hlt := (List.getElem?_eq_some_iff.1 hj).1
    have he := (List.getElem?_eq_some_iff.1 hj).2
    have h1 := BaseGraph.dget_ids h.actions 0 [] hnd a
    rw [if_pos (List.mem_of_getElem? hj)] at h1
    have : h.actions.idxOf a = j := by rw [← he]; exact hnd.idxOf_getElem j hlt
    rw [this, Nat.zero_add] at h1
    unfold BnParams.index BnParams.actionIndices
    rw [h1]
  have hlt := (List.getElem?_eq_some_iff.1 hi).1
  constructor
  · refine key _ _ ?_
    rw [BnParams.actions, List.getElem?_append_left (by simpa using hlt), List.getElem?_map, hi]
    rfl
  · refine key _ _ ?_
    rw [BnParams.actions, List.getElem?_append_right (by simp), List.getElem?_map]
    simp [hi]

end index

/-! ### Arrays -/

/-- The index of the action that gets the object of an action. -/
def getIdx (h : BnParams) (c : BAction) : Nat := (dget h.actionIndices ("get-" ++ c.objName)).getD 0
/-- The index of the question about the object of an action. -/
def askIdx (h : BnParams) (c : BAction) : Nat := (dget h.actionIndices ("ask-" ++ c.objName)).getD 0

def bnStepT (h : BnParams) (T : F3) (c : Ctx BAction) : F3 :=
  setNext (getIdx h c.act) c.s c.next c.probas (set1 (getIdx h c.act) c.s c.s 0 (setAll c.s c.s (fun _ => 1) T))

def bnStepO (h : BnParams) (O : F3) (c : Ctx BAction) : F3 :=
  setObs (askIdx h c.act) [c.s] (obsRow (if h.noAnswer then oMaybeYes else oYesRow)) (setObs (getIdx h c.act) c.next (obsRow oMaybeGood) O)

def bnStepR (h : BnParams) (R : F4) (c : Ctx BAction) : F4 :=
  fun x y z o => if x = getIdx h c.act ∧ y = c.s ∧ z ∈ c.next then h.tGet else R x y z o

section
variable (h : BnParams) {n : N2P BAction}

theorem foldlM_ok {γ σ : Type} (f : σ → γ → Py σ) (g : σ → γ → σ) (l : List γ) (hfg : ∀ c ∈ l, ∀ s, f s c = .ok (g s c)) (s : σ) :
    l.foldlM f s = .ok (l.foldl g s) := by
  induction l generalizing s with
  | nil => rfl
  | cons c l ih =>
    rw [List.foldlM_cons, hfg c (by simp), List.foldl_cons]
    exact ih (fun c hc s => hfg c (by simp [hc]) s) _

theorem foldlM_err {γ σ : Type} (e : PyErr) (f : σ → γ → Py σ) (l : List γ) (hf : ∀ c ∈ l, (∀ s, ∃ s', f s c = .ok s') ∨ ∀ s, f s c = .error e)
    (hx : ∃ c ∈ l, ∀ s, f s c = .error e) (s : σ) : l.foldlM f s = .error e := by
  induction l generalizing s with
  | nil => obtain ⟨c, hc, _⟩ := hx; simp at hc
  | cons c l ih =>
    rw [List.foldlM_cons]
    rcases hf c (by simp) with h1 | h1
    · obtain ⟨s', hs'⟩ := h1 s
      rw [hs']
      refine ih (fun c hc => hf c (by simp [hc])) ?_ s'
      obtain ⟨d, hd, hd'⟩ := hx
      rcases List.mem_cons.1 hd with rfl | hd
      · rw [hd' s] at hs'; cases hs'
      · exact ⟨d, hd, hd'⟩
    · rw [h1 s]; rfl

/-- All objects of the leaves are declared. -/
def BnDecl (h : BnParams) (n : N2P BAction) : Prop := ∀ c ∈ n.leaves, c.objName ∈ h.objects

theorem index_eq_get (c : BAction) (hc : c.objName ∈ h.objects) : h.index ("get-" ++ c.objName) = .ok (getIdx h c) ∧
    h.index ("ask-" ++ c.objName) = .ok (askIdx h c) := by
  obtain ⟨i, hi⟩ := (bn_index_total h _).2 ((bn_mem_get h _).2 hc)
  obtain ⟨j, hj⟩ := (bn_index_total h _).2 ((bn_mem_ask h _).2 hc)
  unfold getIdx askIdx
  unfold BnParams.index at *
  constructor
  · split at hi
    · rename_i k hk; rw [hk]; rfl
    · cases hi
  · split at hj
    · rename_i k hk; rw [hk]; rfl
    · cases hj

theorem root_act_mem {w wa a fin : Nat} {c : Ctx BAction} (hc : c ∈ rootCtxs w wa a n fin) : c.act ∈ n.leaves := by
  obtain ⟨k, hk⟩ := List.getElem?_of_mem hc
  exact List.mem_of_getElem? (root_get hk).1

theorem bnT_eq (hd : BnDecl h n) (fin : Nat) (T : F3) : n.travT 1 0 (bnLeafT h) 0 0 [fin] [1] T = .ok ((rootCtxs 1 0 0 n fin).foldl (bnStepT h) T) := by
  rw [travT_eq 1 0 _ n 0 0 _ [1] [] [fin]]
  refine foldlM_ok _ _ _ ?_ T
  intro c hc s
  rw [bnLeafT, (index_eq_get h _ (hd _ (root_act_mem hc))).1]
  rfl

theorem bnO_eq (hd : BnDecl h n) (fin : Nat) (T : F3) : n.travT 1 0 (bnLeafO h) 0 0 [fin] [1] T = .ok ((rootCtxs 1 0 0 n fin).foldl (bnStepO h) T) := by
  rw [travT_eq 1 0 _ n 0 0 _ [1] [] [fin]]
  refine foldlM_ok _ _ _ ?_ T
  intro c hc s
  rw [bnLeafO, (index_eq_get h _ (hd _ (root_act_mem hc))).1, (index_eq_get h _ (hd _ (root_act_mem hc))).2]
  rfl

theorem bnR_eq (hd : BnDecl h n) (fin : Nat) (T : F4) : n.travT 1 0 (bnLeafR h) 0 0 [fin] [1] T = .ok ((rootCtxs 1 0 0 n fin).foldl (bnStepR h) T) := by
  rw [travT_eq 1 0 _ n 0 0 _ [1] [] [fin]]
  refine foldlM_ok _ _ _ ?_ T
  intro c hc s
  rw [bnLeafR, (index_eq_get h _ (hd _ (root_act_mem hc))).1]
  rfl

theorem bnT_error (hd : ¬ BnDecl h n) (fin : Nat) (T : F3) : n.travT 1 0 (bnLeafT h) 0 0 [fin] [1] T = .error .keyError := by
  rw [travT_eq 1 0 _ n 0 0 _ [1] [] [fin]]
  have hno : ∀ c : BAction, c.objName ∉ h.objects → h.index ("get-" ++ c.objName) = .error .keyError := by
    intro c hc
    rcases bn_index_cases h ("get-" ++ c.objName) with hx | hx
    · exact absurd ((bn_mem_get h _).1 ((bn_index_total h _).1 hx)) hc
    · exact hx
  refine foldlM_err _ _ _ ?_ ?_ T
  · intro c hc
    by_cases ho : c.act.objName ∈ h.objects
    · exact Or.inl fun s => ⟨_, by rw [bnLeafT, (index_eq_get h _ ho).1]; rfl⟩
    · exact Or.inr fun s => by rw [bnLeafT, hno _ ho]; rfl
  · unfold BnDecl at hd
    push Not at hd
    obtain ⟨c, hc, ho⟩ := hd
    obtain ⟨k, hk⟩ := List.getElem?_of_mem hc
    obtain ⟨cx, hcx⟩ := root_exists (w := 1) (wa := 0) (a := 0) (fin := fin) (List.getElem?_eq_some_iff.1 hk).1
    have := (root_get hcx).1
    rw [hk] at this
    injection this with this
    subst this
    exact ⟨cx, List.mem_of_getElem? hcx, fun s => by rw [bnLeafT, hno _ ho]; rfl⟩

/-- The array `T`. -/
def bnTArr (h : BnParams) (n : N2P BAction) : F3 :=
  bnTEnd h (n.leaves.length + 1) (n.init 1 0) ((rootCtxs 1 0 0 n n.leaves.length).foldl (bnStepT h) (fun _ _ _ => 0))
/-- The array `O`. -/
def bnOArr (h : BnParams) (n : N2P BAction) : F3 := (rootCtxs 1 0 0 n n.leaves.length).foldl (bnStepO h) (bnInitO h)
/-- The array `R`. -/
def bnRArr (h : BnParams) (n : N2P BAction) : F4 :=
  bnREnd h (n.leaves.length + 1) ((rootCtxs 1 0 0 n n.leaves.length).foldl (bnStepR h) (bnInitR h))

theorem bn_states_length (radix : String → String) : (n.concat (bnLeafStates radix) ++ [Name.str "end"]).length = n.leaves.length + 1 := by
  rw [List.length_append, concat, flatMap_length_const 1 _ (fun a => rfl)]
  simp

theorem bnConvert_eq (solver : Option String) (radix : String → String) (hf : Full n) (hd : BnDecl h n) :
    bnConvert solver radix h n =
      Pomdp.mk' solver ⟨2 * h.objects.length, n.leaves.length + 1, n.leaves.length + 1, bnTArr h n⟩ ⟨2 * h.objects.length, n.leaves.length + 1, 4, bnOArr h n⟩
        ⟨2 * h.objects.length, n.leaves.length + 1, n.leaves.length + 1, 4, bnRArr h n⟩
        ((List.range (n.leaves.length + 1)).map (scatter (fun _ => 0) (n.init 1 0) n.start)) h.disc (some (n.concat (bnLeafStates radix) ++ [Name.str "end"]))
        (some (h.actions.map Name.str)) (some bnObservations) "cost" := by
  unfold bnConvert
  simp only [full_noEmpty n hf, Bool.false_eq_true, if_false]
  rw [bn_states_length, bn_actions_length, Nat.add_sub_cancel, bnT_eq h hd, bnO_eq h hd, bnR_eq h hd]
  rfl

theorem bnConvert_error (solver : Option String) (radix : String → String) (hf : Full n) (hd : ¬ BnDecl h n) :
    bnConvert solver radix h n = .error .keyError := by
  unfold bnConvert
  simp only [full_noEmpty n hf, Bool.false_eq_true, if_false]
  rw [bn_states_length, Nat.add_sub_cancel, bnT_error h hd]
  rfl

/-! ### Rows -/

theorem bnStepT_other (T : F3) (c : Ctx BAction) (x y : Nat) (hy : y ≠ c.s) : bnStepT h T c x y = T x y := by
  funext z
  simp [bnStepT, setNext, set1, setAll, hy]

theorem bnStepT_own (T : F3) (c : Ctx BAction) (x : Nat) (hT : T x c.s = fun _ => 0) :
    bnStepT h T c x c.s = if x = getIdx h c.act then ctxDist c else stay c.s := by
  by_cases hx : x = getIdx h c.act
  · rw [if_pos hx]
    have : (fun z => set1 (getIdx h c.act) c.s c.s 0 (setAll c.s c.s (fun _ => 1) T) x c.s z) = fun _ => 0 := by
      funext z
      have := congrFun hT z
      simp only [set1, setAll, hx, true_and] at *
      split
      · rfl
      · exact this
    unfold ctxDist
    rw [← this]
    funext z
    simp [bnStepT, setNext, hx]
  · rw [if_neg hx]
    funext z
    have := congrFun hT z
    simp [bnStepT, setNext, hx, set1, setAll, stay, this]

theorem bnT_leaf (hf : Full n) {k : Nat} {c : Ctx BAction} (hk : (rootCtxs 1 0 0 n n.leaves.length)[k]? = some c) (x : Nat) :
    bnTArr h n x k = if x = getIdx h c.act then ctxDist c else stay k := by
  have hlt := root_lt hk
  have hs : c.s = k := by rw [(root_get hk).2.2, Nat.one_mul]
  have hm : (rootCtxs 1 0 0 n n.leaves.length).foldl (bnStepT h) (fun _ _ _ => 0) x k = if x = getIdx h c.act then ctxDist c else stay k := by
    refine foldl_obs _ (fun T : F3 => T x k) (fun _ => 0) _ _ k c hk ?_ ?_ (fun _ _ _ => 0) rfl
    · intro j c' hjk hj T
      have := (root_get hj).2.2
      exact bnStepT_other h T c' x k (by omega)
    · intro T hT
      rw [← hs] at hT ⊢
      exact bnStepT_own h T c x hT
  rw [← hm]
  funext z
  unfold bnTArr bnTEnd
  split
  · have : ¬ k = n.leaves.length := by omega
    simp [this]
  · simp [setAll]; omega

theorem bnT_end_zero (x : Nat) : (rootCtxs 1 0 0 n n.leaves.length).foldl (bnStepT h) (fun _ _ _ => 0) x n.leaves.length = fun _ => 0 := by
  refine foldl_frame _ (fun T : F3 => T x n.leaves.length) _ ?_ (fun _ _ _ => 0)
  intro c hc T
  obtain ⟨k, hk⟩ := List.getElem?_of_mem hc
  have h1 := (root_get hk).2.2
  have h2 := root_lt hk
  exact bnStepT_other h T c x _ (by omega)

theorem bnT_end (x : Nat) : bnTArr h n x n.leaves.length =
    if h.loop then fun z => if z ∈ n.init 1 0 then 1 / ((n.init 1 0).length : ℚ) else 0 else stay n.leaves.length := by
  funext z
  have hz := congrFun (bnT_end_zero h (n := n) x) z
  unfold bnTArr bnTEnd
  split
  · simp [hz]
  · simp only [setAll, Nat.add_sub_cancel, true_and, hz, stay]

theorem initW_lt (z : Nat) (hz : z ∈ n.init 1 0) : z < n.leaves.length := by
  obtain ⟨j, hj, rfl⟩ := init_range 1 n 0 z hz
  omega

theorem getIdx_eq (hn : h.objects.Nodup) {c : BAction} {i : Nat} (hi : h.objects[i]? = some c.objName) : getIdx h c = i ∧ askIdx h c = h.objects.length + i := by
  obtain ⟨h1, h2⟩ := bn_index_get h hn i _ hi
  obtain ⟨h3, h4⟩ := index_eq_get h c (List.mem_of_getElem? hi)
  rw [h1] at h3
  rw [h2] at h4
  injection h3 with h3
  injection h4 with h4
  exact ⟨h3.symm, h4.symm⟩

theorem bnT_row (hf : Full n) (x y : Nat) (hy : y < n.leaves.length + 1) :
    (∀ z, 0 ≤ bnTArr h n x y z) ∧ sumRange (n.leaves.length + 1) (bnTArr h n x y) = 1 := by
  by_cases hl : y < n.leaves.length
  · obtain ⟨c, hc⟩ := root_exists (w := 1) (wa := 0) (a := 0) (fin := n.leaves.length) hl
    rw [bnT_leaf h hf hc]
    obtain ⟨q1, _, q3⟩ := ctxDist_next (w := 1) (by omega) hf (by simp [N2P.size]) hc (Nat.lt_succ_self _)
    split
    · exact ⟨q1, q3⟩
    · exact ⟨fun z => stay_nonneg _ _, sumRange_stay _ _ hy⟩
  · have : y = n.leaves.length := by omega
    subst this
    rw [bnT_end]
    split
    · have hnd := init_nodup 1 (by omega) n 0
      have hne := init_ne_nil 1 n hf 0
      have hpos : (0 : ℚ) < ((n.init 1 0).length : ℚ) := by exact_mod_cast List.length_pos_iff.2 hne
      refine ⟨fun z => ?_, ?_⟩
      · dsimp only
        split
        · positivity
        · exact le_rfl
      · have h1 := sumRange_ind (n.leaves.length + 1) (n.init 1 0) hnd (fun z hz => by have := initW_lt z hz; omega)
        have e : (fun z => if z ∈ n.init 1 0 then 1 / ((n.init 1 0).length : ℚ) else 0) =
            fun z => 1 / ((n.init 1 0).length : ℚ) * (if z ∈ n.init 1 0 then 1 else 0) := by funext z; split <;> simp
        rw [e, sumRange_mul_left, h1]
        field_simp
    · exact ⟨fun z => stay_nonneg _ _, sumRange_stay _ _ hy⟩

theorem bnO_fold (hn : h.objects.Nodup) (l : List (Ctx BAction)) (hl : ∀ c ∈ l, c.act.objName ∈ h.objects) (O : F3) (x y : Nat) :
    l.foldl (bnStepO h) O x y = if ∃ c ∈ l, x = getIdx h c.act ∧ y ∈ c.next then obsRow oMaybeGood
      else if ∃ c ∈ l, x = askIdx h c.act ∧ y = c.s then obsRow (if h.noAnswer then oMaybeYes else oYesRow) else O x y := by
  induction l generalizing O with
  | nil => simp
  | cons c l ih =>
    obtain ⟨i, hi⟩ := List.getElem?_of_mem (hl c (by simp))
    have hlt := (List.getElem?_eq_some_iff.1 hi).1
    obtain ⟨e1, e2⟩ := getIdx_eq h hn hi
    have hlt' : ∀ d ∈ l, getIdx h d.act < h.objects.length ∧ h.objects.length ≤ askIdx h d.act := by
      intro d hd
      obtain ⟨j, hj⟩ := List.getElem?_of_mem (hl d (by simp [hd]))
      have := (List.getElem?_eq_some_iff.1 hj).1
      obtain ⟨e3, e4⟩ := getIdx_eq h hn hj
      omega
    rw [List.foldl_cons, ih (fun d hd => hl d (by simp [hd]))]
    simp only [List.mem_cons, exists_eq_or_imp]
    by_cases h1 : ∃ c ∈ l, x = getIdx h c.act ∧ y ∈ c.next
    · simp [h1]
    · by_cases h2 : ∃ c ∈ l, x = askIdx h c.act ∧ y = c.s
      · have : x ≠ getIdx h c.act := by
          obtain ⟨d, hd, hd', _⟩ := h2
          have := hlt' d hd
          omega
        simp [h1, h2, this]
      · simp only [h1, h2, if_false, or_false]
        funext z
        simp only [bnStepO, setObs, List.mem_singleton]
        by_cases h3 : x = getIdx h c.act ∧ y ∈ c.next
        · have : ¬ x = askIdx h c.act := by omega
          simp [h3, this]
          intro h4
          omega
        · by_cases h4 : x = askIdx h c.act ∧ y = c.s
          · rw [if_pos h4, if_neg h3, if_pos h4]
          · rw [if_neg h4, if_neg h3, if_neg h3, if_neg h4]

theorem bnR_fold (l : List (Ctx BAction)) (R : F4) (x y z o : Nat) :
    l.foldl (bnStepR h) R x y z o = if ∃ c ∈ l, x = getIdx h c.act ∧ y = c.s ∧ z ∈ c.next then h.tGet else R x y z o := by
  induction l generalizing R with
  | nil => simp
  | cons c l ih =>
    rw [List.foldl_cons, ih]
    simp only [List.mem_cons, exists_eq_or_imp]
    by_cases h1 : ∃ c ∈ l, x = getIdx h c.act ∧ y = c.s ∧ z ∈ c.next
    · simp [h1]
    · simp only [h1, if_false, or_false, bnStepR]

theorem bnO_row (hf : Full n) (hn : h.objects.Nodup) (hd : BnDecl h n) (x y : Nat) (hx : x < 2 * h.objects.length) :
    (∀ z, 0 ≤ bnOArr h n x y z) ∧ sumRange 4 (bnOArr h n x y) = 1 := by
  have key : ∀ l ∈ [oMaybeGood, oYesRow, oNoRow, oErrRow, oMaybeYes, oMaybeNo], (∀ z, 0 ≤ obsRow l z) ∧ sumRange 4 (obsRow l) = 1 := by
    intro l hl
    have h0 : ∀ l : List ℚ, (∀ v ∈ l, 0 ≤ v) → ∀ z, 0 ≤ obsRow l z := by
      intro l hl z
      unfold obsRow List.getD
      cases hz : l[z]? with
      | none => exact le_rfl
      | some v => exact hl v (List.mem_of_getElem? hz)
    simp only [List.mem_cons, List.not_mem_nil, or_false] at hl
    rcases hl with rfl | rfl | rfl | rfl | rfl | rfl <;>
      exact ⟨h0 _ (by simp [oMaybeGood, oYesRow, oNoRow, oErrRow, oMaybeYes, oMaybeNo] <;> norm_num),
        by norm_num [sumRange, obsRow, oMaybeGood, oYesRow, oNoRow, oErrRow, oMaybeYes, oMaybeNo, List.range, List.range.loop]⟩
  unfold bnOArr
  rw [bnO_fold h hn _ (fun c hc => hd _ (root_act_mem hc))]
  split
  · exact key _ (by simp)
  · split
    · split <;> exact key _ (by simp)
    · have : bnInitO h x y = if x < h.objects.length then obsRow oErrRow else obsRow (if h.noAnswer then oMaybeNo else oNoRow) := by
        funext z
        unfold bnInitO
        rw [if_pos hx]
        split <;> rfl
      rw [this]
      split
      · exact key _ (by simp)
      · split <;> exact key _ (by simp)

/-! ### Start, names -/

theorem bnStart (hf : Full n) :
    sumRange (n.leaves.length + 1) (scatter (fun _ => 0) (n.init 1 0) n.start) = 1 ∧ (∀ z, 0 ≤ scatter (fun _ => 0) (n.init 1 0) n.start z) ∧
    ∀ z, 0 < scatter (fun _ => 0) (n.init 1 0) n.start z ↔ z ∈ n.init 1 0 := by
  obtain ⟨h1, h2⟩ := start_dist n hf
  have hn := init_nodup 1 (by omega) n 0
  have hl := start_length 1 n 0
  refine ⟨?_, fun z => scatter_nonneg _ _ _ _ le_rfl (fun v hv => (h2 v hv).le), fun z => ⟨fun h => ?_, fun h => ?_⟩⟩
  · rw [scatter_sum _ _ _ _ hn hl.symm _ (fun _ _ => rfl), h1, sumRange_const]
    · simp
    · intro z hz
      have := initW_lt z hz
      omega
  · by_contra hz
    rw [scatter_not_mem _ _ _ _ hz] at h
    exact absurd h (lt_irrefl _)
  · obtain ⟨v, hv, e⟩ := scatter_mem _ _ (fun _ => (0 : ℚ)) z hn hl.symm h
    rw [e]
    exact h2 v hv

theorem bn_states_nodup (radix : String → String) :
    (n.concat (bnLeafStates radix) ++ [Name.str "end"]).Nodup ↔ (n.leaves.map fun c => radix c.name).Nodup := by
  have e : n.concat (bnLeafStates radix) = n.leaves.flatMap fun c => tagged ["before-"] (radix c.name) := rfl
  rw [List.nodup_append', e, tagged_flatMap_nodup (by decide) (by decide)]
  refine ⟨fun h => h.1, fun h1 => ⟨h1, by decide, ?_⟩⟩
  intro x hx hy
  obtain ⟨c, _, hc⟩ := List.mem_flatMap.1 hx
  simp [tagged] at hc hy
  rw [hy] at hc
  injection hc with hc
  exact Clash.ne (p := "before-") (q := "end") (by decide) (radix c.name) "" (by rw [← hc, String.append_empty])

theorem bn_actionNames_nodup : (h.actions.map Name.str).Nodup ↔ h.objects.Nodup := by
  rw [List.nodup_map_iff (fun a b hab => by injection hab), bn_actions_nodup]

/-! ### Trajectories -/

theorem bn_follows (hf : Full n) (hd : BnDecl h n) (hn : h.objects.Nodup) (hl : h.loop = false) :
    Follows 1 n (fun s s' => ∃ a < 2 * h.objects.length, 0 < bnTArr h n a s s') n.leaves.length where
  leaf := by
    rintro s s' hs ⟨x, hx, hpos⟩
    rw [Nat.one_mul] at hs
    obtain ⟨c, hc⟩ := root_exists (w := 1) (wa := 0) (a := 0) (fin := n.leaves.length) hs
    rw [bnT_leaf h hf hc] at hpos
    obtain ⟨_, q2, _⟩ := ctxDist_next (w := 1) (by omega) hf (by simp [N2P.size]) hc (Nat.lt_succ_self _)
    split at hpos
    · right
      simpa using (q2 s').1 hpos
    · left
      unfold stay at hpos
      split at hpos
      · rename_i e; subst e; simpa using hs
      · exact absurd hpos (lt_irrefl _)
  out := by
    rintro s s' hs ⟨x, hx, hpos⟩
    rw [Nat.one_mul] at *
    by_cases he : s = n.leaves.length
    · subst he
      rw [bnT_end, hl] at hpos
      simp only [Bool.false_eq_true, if_false, stay] at hpos
      split at hpos
      · omega
      · exact absurd hpos (lt_irrefl _)
    · exfalso
      have : bnTArr h n x s = fun _ => 0 := by
        have hm : (rootCtxs 1 0 0 n n.leaves.length).foldl (bnStepT h) (fun _ _ _ => 0) x s = fun _ => 0 := by
          refine foldl_frame _ (fun T : F3 => T x s) _ ?_ (fun _ _ _ => 0)
          intro c hc T
          obtain ⟨k, hk⟩ := List.getElem?_of_mem hc
          have h1 := (root_get hk).2.2
          have h2 := root_lt hk
          exact bnStepT_other h T c x _ (by omega)
        funext z
        have := congrFun hm z
        simp [bnTArr, bnTEnd, hl, setAll, he, this]
      rw [this] at hpos
      exact absurd hpos (lt_irrefl _)
  step := by
    intro k hk z hz
    obtain ⟨c, hc⟩ := root_exists (w := 1) (wa := 0) (a := 0) (fin := n.leaves.length) hk
    obtain ⟨_, q2, _⟩ := ctxDist_next (w := 1) (by omega) hf (by simp [N2P.size]) hc (Nat.lt_succ_self _)
    obtain ⟨i, hi⟩ := List.getElem?_of_mem (hd _ (root_act_mem (List.mem_of_getElem? hc)))
    have hlt := (List.getElem?_eq_some_iff.1 hi).1
    refine ⟨[], by simp, ?_⟩
    rw [List.nil_append, List.isChain_cons_cons]
    refine ⟨⟨i, by omega, ?_⟩, List.isChain_singleton _⟩
    rw [Nat.one_mul, bnT_leaf h hf hc, if_pos (getIdx_eq h hn hi).1.symm]
    exact (q2 z).2 (by simpa using hz)
  final := by
    refine ⟨[], by simp, List.isChain_singleton _, by simp⟩

end

end Verif
