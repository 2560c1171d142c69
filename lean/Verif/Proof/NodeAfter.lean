import Verif.Proof.NodeLang

/-! The states after a leaf and the successors of a leaf, in terms of linearisations. -/

set_option linter.unusedSectionVars false
set_option linter.unusedSimpArgs false

namespace Verif
open Spec
variable {A : Type}
namespace N2P

theorem mem_statesOf (w s : Nat) (cs : List (N2P A)) (x : Nat) : x ∈ statesOf w s cs ↔ s ≤ x ∧ x < s + w * (leavesL cs).length := by
  simp only [statesOf, List.mem_map, List.mem_range]
  constructor
  · rintro ⟨a, h, rfl⟩; omega
  · rintro ⟨h1, h2⟩; exact ⟨x - s, by omega, by omega⟩

variable {R : Nat → Nat → Prop} {fin : Nat} {w wa : Nat}

theorem size_seq (cs : List (N2P A)) : size w (.seq cs) = w * (leavesL cs).length := rfl
theorem size_alt (cs : List (N2P A)) : size w (.alt cs) = w * (leavesL cs).length := rfl
theorem size_cons (c : N2P A) (cs : List (N2P A)) : w * (leavesL (c :: cs)).length = c.size w + w * (leavesL cs).length := by
  simp [leavesL, size, Nat.mul_add]

theorem ctxsSeq_range (cs : List (N2P A)) (hw : 0 < w) (a s : Nat) (next : List Nat) (probas : List ℚ) (before after done : List Nat) (c : Ctx A)
    (hc : c ∈ ctxsSeq w wa cs a s next probas before after done) : s ≤ c.s ∧ c.s + w ≤ s + w * (leavesL cs).length := by
  induction cs generalizing a s done with
  | nil => simp [ctxsSeq] at hc
  | cons d cs ih =>
    rw [ctxsSeq] at hc
    have e := size_cons (w := w) d cs
    rcases List.mem_append.1 hc with hc | hc
    · have := ctxs_range d hw _ _ _ _ _ _ c hc; omega
    · have := ih _ _ _ hc; omega

theorem ctxsAlt_range (cs : List (N2P A)) (hw : 0 < w) (a s : Nat) (next : List Nat) (probas : List ℚ) (before after : List Nat) (c : Ctx A)
    (hc : c ∈ ctxsAlt w wa cs a s next probas before after) : s ≤ c.s ∧ c.s + w ≤ s + w * (leavesL cs).length := by
  induction cs generalizing a s with
  | nil => simp [ctxsAlt] at hc
  | cons d cs ih =>
    rw [ctxsAlt] at hc
    have e := size_cons (w := w) d cs
    rcases List.mem_append.1 hc with hc | hc
    · have := ctxs_range d hw _ _ _ _ _ _ c hc; omega
    · have := ih _ _ hc; omega

theorem after_sub (n : N2P A) : ∀ a s next probas before after, ∀ c ∈ ctxs w wa n a s next probas before after, ∀ x ∈ after, x ∈ c.after := by
  induction n using N2P.induct with
  | hleaf x =>
    intro a s next probas before after c hc
    simp only [ctxs, List.mem_singleton] at hc
    subst hc
    exact fun x hx => hx
  | hseq cs ih =>
    intro a s next probas before after
    simp only [ctxs]
    generalize hdn : ([] : List Nat) = done
    clear hdn
    induction cs generalizing a s done with
    | nil => intro c hc; simp [ctxsSeq] at hc
    | cons d cs ihl =>
      intro c hc x hx
      rw [ctxsSeq] at hc
      rcases List.mem_append.1 hc with hc | hc
      · exact ih d (by simp) _ _ _ _ _ _ c hc x (by simp [hx])
      · exact ihl (fun c hc => ih c (by simp [hc])) _ _ _ c hc x hx
  | halt cs ih =>
    intro a s next probas before after
    simp only [ctxs]
    induction cs generalizing a s with
    | nil => intro c hc; simp [ctxsAlt] at hc
    | cons d cs ihl =>
      intro c hc x hx
      rw [ctxsAlt] at hc
      rcases List.mem_append.1 hc with hc | hc
      · exact ih d (by simp) _ _ _ _ _ _ c hc x hx
      · exact ihl (fun c hc => ih c (by simp [hc])) _ _ c hc x hx

theorem after_range (n : N2P A) : ∀ a s next probas before after, ∀ c ∈ ctxs w wa n a s next probas before after, ∀ x ∈ c.after,
    x ∈ after ∨ s ≤ x ∧ x < s + n.size w := by
  induction n using N2P.induct with
  | hleaf x =>
    intro a s next probas before after c hc
    simp only [ctxs, List.mem_singleton] at hc
    subst hc
    exact fun x hx => Or.inl hx
  | hseq cs ih =>
    intro a s next probas before after
    simp only [ctxs, size_seq]
    generalize hdn : ([] : List Nat) = done
    clear hdn
    induction cs generalizing a s done with
    | nil => intro c hc; simp [ctxsSeq] at hc
    | cons d cs ihl =>
      intro c hc x hx
      rw [ctxsSeq] at hc
      rw [size_cons]
      rcases List.mem_append.1 hc with hc | hc
      · rcases ih d (by simp) _ _ _ _ _ _ c hc x hx with h | h
        · rcases List.mem_append.1 h with h | h
          · exact Or.inl h
          · rw [mem_statesOf] at h; right; omega
        · right; omega
      · rcases ihl (fun c hc => ih c (by simp [hc])) _ _ _ c hc x hx with h | h
        · exact Or.inl h
        · right; omega
  | halt cs ih =>
    intro a s next probas before after
    simp only [ctxs, size_alt]
    induction cs generalizing a s with
    | nil => intro c hc; simp [ctxsAlt] at hc
    | cons d cs ihl =>
      intro c hc x hx
      rw [ctxsAlt] at hc
      rw [size_cons]
      rcases List.mem_append.1 hc with hc | hc
      · rcases ih d (by simp) _ _ _ _ _ _ c hc x hx with h | h
        · exact Or.inl h
        · right; omega
      · rcases ihl (fun c hc => ih c (by simp [hc])) _ _ c hc x hx with h | h
        · exact Or.inl h
        · right; omega

theorem next_after (n : N2P A) : ∀ a s next probas before after, ∀ c ∈ ctxs w wa n a s next probas before after, ∀ y ∈ c.next,
    y ∈ next ∨ ∀ i < w, y + i ∈ c.after := by
  induction n using N2P.induct with
  | hleaf x =>
    intro a s next probas before after c hc
    simp only [ctxs, List.mem_singleton] at hc
    subst hc
    exact fun x hx => Or.inl hx
  | hseq cs ih =>
    intro a s next probas before after
    simp only [ctxs]
    generalize hdn : ([] : List Nat) = done
    clear hdn
    induction cs generalizing a s done with
    | nil => intro c hc; simp [ctxsSeq] at hc
    | cons d cs ihl =>
      intro c hc y hy
      rw [ctxsSeq] at hc
      rcases List.mem_append.1 hc with hc | hc
      · rcases ih d (by simp) _ _ _ _ _ _ c hc y hy with h | h
        · cases cs with
          | nil => exact Or.inl h
          | cons e cs =>
            right
            intro i hi
            refine after_sub d _ _ _ _ _ _ c hc _ (List.mem_append_right _ ?_)
            rw [mem_statesOf, size_cons]
            obtain ⟨k, h1, h2⟩ := init_range w e _ y h
            have : w * (k + 1) ≤ w * e.leaves.length := Nat.mul_le_mul_left w h1
            rw [Nat.mul_add] at this
            rw [h2, size, size]
            rw [size] at h2
            omega
        · exact Or.inr h
      · exact ihl (fun c hc => ih c (by simp [hc])) _ _ _ c hc y hy
  | halt cs ih =>
    intro a s next probas before after
    simp only [ctxs]
    induction cs generalizing a s with
    | nil => intro c hc; simp [ctxsAlt] at hc
    | cons d cs ihl =>
      intro c hc y hy
      rw [ctxsAlt] at hc
      rcases List.mem_append.1 hc with hc | hc
      · exact ih d (by simp) _ _ _ _ _ _ c hc y hy
      · exact ihl (fun c hc => ih c (by simp [hc])) _ _ c hc y hy

theorem ctxsSeq_after (cs : List (N2P A)) (a s : Nat) (next : List Nat) (probas : List ℚ) (before after done : List Nat) (c : Ctx A)
    (hc : c ∈ ctxsSeq w wa cs a s next probas before after done) (x : Nat) (hx : x ∈ c.after) :
    x ∈ after ∨ s ≤ x ∧ x < s + w * (leavesL cs).length := by
  induction cs generalizing a s done with
  | nil => simp [ctxsSeq] at hc
  | cons d cs ihl =>
    rw [ctxsSeq] at hc
    rw [size_cons]
    rcases List.mem_append.1 hc with hc | hc
    · rcases after_range d _ _ _ _ _ _ c hc x hx with h | h
      · rcases List.mem_append.1 h with h | h
        · exact Or.inl h
        · rw [mem_statesOf] at h; right; omega
      · right; omega
    · rcases ihl _ _ _ hc with h | h
      · exact Or.inl h
      · right; omega

theorem ctxsAlt_after (cs : List (N2P A)) (a s : Nat) (next : List Nat) (probas : List ℚ) (before after : List Nat) (c : Ctx A)
    (hc : c ∈ ctxsAlt w wa cs a s next probas before after) (x : Nat) (hx : x ∈ c.after) :
    x ∈ after ∨ s ≤ x ∧ x < s + w * (leavesL cs).length :=
  after_range (.alt cs) a s next probas before after c (by simpa [ctxs] using hc) x hx

/-- What is after a leaf that is after a leaf is after it. -/
theorem after_trans (n : N2P A) (hw : 0 < w) : ∀ a s next probas before after, (∀ x ∈ after, ¬ (s ≤ x ∧ x < s + n.size w)) →
    ∀ c ∈ ctxs w wa n a s next probas before after, ∀ c' ∈ ctxs w wa n a s next probas before after, ∀ i < w,
    c'.s + i ∈ c.after → ∀ x ∈ c'.after, x ∈ c.after := by
  induction n using N2P.induct with
  | hleaf x =>
    intro a s next probas before after hd c hc c' hc' i hi h
    simp only [ctxs, List.mem_singleton] at hc hc'
    subst hc hc'
    exact absurd ⟨by dsimp only; omega, by simp [size, leaves]; omega⟩ (hd _ h)
  | hseq cs ih =>
    intro a s next probas before after
    simp only [ctxs, size_seq]
    generalize hdn : ([] : List Nat) = done
    clear hdn
    induction cs generalizing a s done with
    | nil => intro _ c hc; simp [ctxsSeq] at hc
    | cons d cs ihl =>
      intro hd c hc c' hc' i hi h x hx
      rw [ctxsSeq] at hc hc'
      rw [size_cons] at hd
      rcases List.mem_append.1 hc with hc | hc <;> rcases List.mem_append.1 hc' with hc' | hc'
      · refine ih d (by simp) _ _ _ _ _ _ ?_ c hc c' hc' i hi h x hx
        intro y hy hy'
        rcases List.mem_append.1 hy with hy | hy
        · exact hd y hy (by omega)
        · rw [mem_statesOf] at hy; omega
      · refine after_sub d _ _ _ _ _ _ c hc _ ?_
        rw [List.mem_append, mem_statesOf]
        exact ctxsSeq_after cs _ _ _ _ _ _ _ c' hc' x hx
      · exfalso
        have h1 := ctxs_range d hw _ _ _ _ _ _ c' hc'
        rcases ctxsSeq_after cs _ _ _ _ _ _ _ c hc _ h with h2 | h2
        · exact hd _ h2 (by omega)
        · omega
      · exact ihl (fun c hc => ih c (by simp [hc])) _ _ _ (fun y hy h => hd y hy (by omega)) c hc c' hc' i hi h x hx
  | halt cs ih =>
    intro a s next probas before after
    simp only [ctxs, size_alt]
    induction cs generalizing a s with
    | nil => intro _ c hc; simp [ctxsAlt] at hc
    | cons d cs ihl =>
      intro hd c hc c' hc' i hi h x hx
      rw [ctxsAlt] at hc hc'
      rw [size_cons] at hd
      rcases List.mem_append.1 hc with hc | hc <;> rcases List.mem_append.1 hc' with hc' | hc'
      · exact ih d (by simp) _ _ _ _ _ _ (fun y hy h => hd y hy (by omega)) c hc c' hc' i hi h x hx
      · exfalso
        have h1 := ctxsAlt_range cs hw _ _ _ _ _ _ c' hc'
        rcases after_range d _ _ _ _ _ _ c hc _ h with h2 | h2
        · exact hd _ h2 (by omega)
        · omega
      · exfalso
        have h1 := ctxs_range d hw _ _ _ _ _ _ c' hc'
        rcases ctxsAlt_after cs _ _ _ _ _ _ c hc _ h with h2 | h2
        · exact hd _ h2 (by omega)
        · omega
      · exact ihl (fun c hc => ih c (by simp [hc])) _ _ (fun y hy h => hd y hy (by omega)) c hc c' hc' i hi h x hx

/-- What is after a leaf can be reached from it. -/
theorem reach_of_after (n : N2P A) (hw : 0 < w) (hf : Full n) : ∀ a s next probas before after, (∀ x ∈ after, ¬ (s ≤ x ∧ x < s + n.size w)) →
    Agree R (ctxs w wa n a s next probas before after) →
    ∀ c ∈ ctxs w wa n a s next probas before after, ∀ c' ∈ ctxs w wa n a s next probas before after, ∀ i < w,
    c'.s + i ∈ c.after → Relation.TransGen R c.s c'.s := by
  induction n using N2P.induct with
  | hleaf x =>
    intro a s next probas before after hd hag c hc c' hc' i hi h
    simp only [ctxs, List.mem_singleton] at hc hc'
    subst hc hc'
    exact absurd ⟨by dsimp only; omega, by simp [size, leaves]; omega⟩ (hd _ h)
  | hseq cs ih =>
    intro a s next probas before after
    obtain ⟨hne, hcs⟩ := hf
    clear hne
    rw [fullL_iff] at hcs
    simp only [ctxs, size_seq]
    generalize hdn : ([] : List Nat) = done
    clear hdn
    induction cs generalizing a s done with
    | nil => intro _ _ c hc; simp [ctxsSeq] at hc
    | cons d cs ihl =>
      intro hd hag c hc c' hc' i hi h
      rw [ctxsSeq] at hag hc hc'
      rw [size_cons] at hd
      have hag := hag.append
      rcases List.mem_append.1 hc with hc | hc <;> rcases List.mem_append.1 hc' with hc' | hc'
      · refine ih d (by simp) (hcs d (by simp)) _ _ _ _ _ _ ?_ hag.1 c hc c' hc' i hi h
        intro y hy hy'
        rcases List.mem_append.1 hy with hy | hy
        · exact hd y hy (by omega)
        · rw [mem_statesOf] at hy; omega
      · cases cs with
        | nil => simp [ctxsSeq] at hc'
        | cons e cs =>
          have hfull : Full (.seq (e :: cs)) := ⟨by simp, (fullL_iff _).2 fun c hc => hcs c (List.mem_cons_of_mem _ hc)⟩
          obtain ⟨x, h1, h2⟩ : ∃ x ∈ initSeq w (e :: cs) (s + d.size w), Relation.ReflTransGen R x c'.s :=
            reach_initSeq (e :: cs) (fun c hc => hcs c (List.mem_cons_of_mem _ hc)) _ _ _ _ _ _ _ hag.2 c' hc'
          exact (reach_next d (hcs d (by simp)) _ _ _ _ _ _ hag.1 c hc x h1).trans_left h2
      · exfalso
        have h1 := ctxs_range d hw _ _ _ _ _ _ c' hc'
        rcases ctxsSeq_after cs _ _ _ _ _ _ _ c hc _ h with h2 | h2
        · exact hd _ h2 (by omega)
        · omega
      · exact ihl (fun c hc => ih c (by simp [hc])) _ _ (fun c hc => hcs c (by simp [hc])) _ (fun y hy h => hd y hy (by omega)) hag.2 c hc c' hc' i hi h
  | halt cs ih =>
    intro a s next probas before after
    obtain ⟨hne, hcs⟩ := hf
    clear hne
    rw [fullL_iff] at hcs
    simp only [ctxs, size_alt]
    induction cs generalizing a s with
    | nil => intro _ _ c hc; simp [ctxsAlt] at hc
    | cons d cs ihl =>
      intro hd hag c hc c' hc' i hi h
      rw [ctxsAlt] at hag hc hc'
      rw [size_cons] at hd
      have hag := hag.append
      rcases List.mem_append.1 hc with hc | hc <;> rcases List.mem_append.1 hc' with hc' | hc'
      · exact ih d (by simp) (hcs d (by simp)) _ _ _ _ _ _ (fun y hy h => hd y hy (by omega)) hag.1 c hc c' hc' i hi h
      · exfalso
        have h1 := ctxsAlt_range cs hw _ _ _ _ _ _ c' hc'
        rcases after_range d _ _ _ _ _ _ c hc _ h with h2 | h2
        · exact hd _ h2 (by omega)
        · omega
      · exfalso
        have h1 := ctxs_range d hw _ _ _ _ _ _ c' hc'
        rcases ctxsAlt_after cs _ _ _ _ _ _ c hc _ h with h2 | h2
        · exact hd _ h2 (by omega)
        · omega
      · exact ihl (fun c hc => ih c (by simp [hc])) _ _ (fun c hc => hcs c (by simp [hc])) (fun y hy h => hd y hy (by omega)) hag.2 c hc c' hc' i hi h

/-! ### Words -/

theorem acc_cons {x z : Nat} {u : List Nat} (h : Acc R fin x (z :: u)) : x = z ∧ x ≠ fin ∧ ∃ y, R x y ∧ Acc R fin y u := by
  cases h with
  | step h1 h2 h3 => exact ⟨rfl, h1, _, h2, h3⟩

theorem acc_append {u : List Nat} : ∀ {x : Nat} {v : List Nat}, Acc R fin x (u ++ v) → ∃ y, Relation.ReflTransGen R x y ∧ Acc R fin y v := by
  induction u with
  | nil => intro x v h; exact ⟨x, .refl, h⟩
  | cons z u ih =>
    intro x v h
    obtain ⟨_, _, y, h1, h2⟩ := acc_cons h
    obtain ⟨y', h3, h4⟩ := ih h2
    exact ⟨y', .head h1 h3, h4⟩

theorem acc_extend (hR : ∀ x y, R x y → x ≠ fin) {x y : Nat} (h : Relation.ReflTransGen R x y) {q : List Nat} (hq : Acc R fin y q) :
    ∃ p, Acc R fin x (p ++ q) := by
  induction h using Relation.ReflTransGen.head_induction_on with
  | refl => exact ⟨[], hq⟩
  | head h1 _ ih =>
    obtain ⟨p, hp⟩ := ih
    exact ⟨_ :: p, Acc.step (hR _ _ h1) h1 hp⟩

theorem acc_trans (hR : ∀ x y, R x y → x ≠ fin) {x y : Nat} (h : Relation.TransGen R x y) {q : List Nat} (hq : Acc R fin y q) :
    ∃ p, Acc R fin x (x :: (p ++ q)) := by
  obtain ⟨z, h1, h2⟩ := Relation.TransGen.head'_iff.1 h
  obtain ⟨p, hp⟩ := acc_extend hR h2 hq
  exact ⟨p, Acc.step (hR _ _ h1) h1 hp⟩

/-! ### The root -/

/-- The contexts of the leaves of the root. -/
def rootCtxs (w wa a : Nat) (n : N2P A) (fin : Nat) : List (Ctx A) := ctxs w wa n a 0 [fin] [1] [] [fin]

/-- The successors of the leaves of the root. -/
def Succ (w wa a : Nat) (n : N2P A) (fin : Nat) (x y : Nat) : Prop := ∃ c ∈ rootCtxs w wa a n fin, c.s = x ∧ y ∈ c.next

section root
variable {a : Nat} {n : N2P A}

theorem root_get {k : Nat} {c : Ctx A} (h : (rootCtxs w wa a n fin)[k]? = some c) :
    n.leaves[k]? = some c.act ∧ c.a = a + wa * k ∧ c.s = w * k := by
  simpa using ctxs_get w wa n a 0 [fin] [1] [] [fin] k c h

theorem root_exists {k : Nat} (h : k < n.leaves.length) : ∃ c, (rootCtxs w wa a n fin)[k]? = some c := by
  rw [← ctxs_length w wa n a 0 [fin] [1] [] [fin]] at h
  exact ⟨_, List.getElem?_eq_getElem h⟩

theorem root_lt {k : Nat} {c : Ctx A} (h : (rootCtxs w wa a n fin)[k]? = some c) : k < n.leaves.length :=
  (List.getElem?_eq_some_iff.1 (root_get h).1).1

theorem root_inj (hw : 0 < w) {c c' : Ctx A} (h : c ∈ rootCtxs w wa a n fin) (h' : c' ∈ rootCtxs w wa a n fin) (hs : c.s = c'.s) : c = c' := by
  obtain ⟨k, hk⟩ := List.getElem?_of_mem h
  obtain ⟨j, hj⟩ := List.getElem?_of_mem h'
  have h1 := (root_get hk).2.2
  have h2 := (root_get hj).2.2
  have : k = j := Nat.eq_of_mul_eq_mul_left hw (by omega)
  subst this
  rw [hk] at hj
  exact Option.some.inj hj

theorem root_agree (hw : 0 < w) : Agree (Succ w wa a n fin) (rootCtxs w wa a n fin) := by
  intro c hc y
  constructor
  · rintro ⟨c', h1, h2, h3⟩
    rwa [← root_inj hw h1 hc h2]
  · exact fun h => ⟨c, hc, rfl, h⟩

theorem root_ne_fin (hw : 0 < w) (hfin : n.size w ≤ fin) : ∀ c ∈ rootCtxs w wa a n fin, c.s ≠ fin := by
  intro c hc
  have := ctxs_range n hw _ _ _ _ _ _ c hc
  omega

theorem succ_ne_fin (hw : 0 < w) (hfin : n.size w ≤ fin) (x y : Nat) (h : Succ w wa a n fin x y) : x ≠ fin := by
  obtain ⟨c, hc, rfl, _⟩ := h
  exact root_ne_fin hw hfin c hc

theorem acc_fin_nil (hw : 0 < w) (hfin : n.size w ≤ fin) {u : List Nat} (h : Acc (Succ w wa a n fin) fin fin u) : u = [] := by
  cases h with
  | fin => rfl
  | step h1 _ _ => exact absurd rfl h1

/-- The words of the successor relation are the linearisations. -/
theorem acc_root (hw : 0 < w) (hf : Full n) (hfin : n.size w ≤ fin) (ks : List Nat) :
    (∃ x ∈ n.init w 0, Acc (Succ w wa a n fin) fin x (ks.map (w * ·))) ↔ Lin n 0 ks := by
  rw [acc_node n hf a 0 [fin] [1] [] [fin] (root_agree hw) (root_ne_fin hw hfin)]
  constructor
  · rintro ⟨u1, u2, h1, h2, y, hy, h3⟩
    rw [List.mem_singleton] at hy
    subst hy
    rw [acc_fin_nil hw hfin h3, List.append_nil] at h1
    subst h1
    obtain ⟨ks', h4, h5⟩ := (linW_iff w n 0 _).1 (by simpa using h2)
    have : ks = ks' := List.map_injective_iff.2 (fun x y h => Nat.eq_of_mul_eq_mul_left hw h) h5
    rwa [this]
  · intro h
    exact ⟨ks.map (w * ·), [], by simp, by simpa using (linW_iff w n 0 _).2 ⟨ks, h, rfl⟩, fin, by simp, .fin⟩

/-- All words are sequences of first states. -/
theorem acc_root_map (hw : 0 < w) (hf : Full n) (hfin : n.size w ≤ fin) {x : Nat} (hx : x ∈ n.init w 0) {u : List Nat}
    (h : Acc (Succ w wa a n fin) fin x u) : ∃ ks, u = ks.map (w * ·) ∧ Lin n 0 ks := by
  obtain ⟨u1, u2, h1, h2, y, hy, h3⟩ := (acc_node n hf a 0 [fin] [1] [] [fin] (root_agree hw) (root_ne_fin hw hfin) u).1 ⟨x, hx, h⟩
  rw [List.mem_singleton] at hy
  subst hy
  rw [acc_fin_nil hw hfin h3, List.append_nil] at h1
  subst h1
  obtain ⟨ks', h4, h5⟩ := (linW_iff w n 0 _).1 (by simpa using h2)
  exact ⟨ks', h5, h4⟩

theorem root_coreach (hw : 0 < w) (hf : Full n) (hfin : n.size w ≤ fin) (c : Ctx A) (hc : c ∈ rootCtxs w wa a n fin) :
    ∃ q, Acc (Succ w wa a n fin) fin c.s q :=
  coreach n hf a 0 [fin] [1] [] [fin] (root_agree hw) (root_ne_fin hw hfin) (by simp) (fun y hy => ⟨[], by rw [List.mem_singleton] at hy; subst hy; exact .fin⟩) c hc

theorem root_word (hw : 0 < w) (hf : Full n) (hfin : n.size w ≤ fin) {k : Nat} {c : Ctx A} (hk : (rootCtxs w wa a n fin)[k]? = some c) {q : List Nat}
    (hq : Acc (Succ w wa a n fin) fin c.s q) : ∃ ps qs, q = qs.map (w * ·) ∧ Lin n 0 (ps ++ qs) := by
  obtain ⟨x, hx, h1⟩ := reach_init n hf a 0 [fin] [1] [] [fin] (root_agree hw) c (List.mem_of_getElem? hk)
  obtain ⟨p, h2⟩ := acc_extend (succ_ne_fin hw hfin) h1 hq
  obtain ⟨ks, h3, h4⟩ := acc_root_map hw hf hfin hx h2
  obtain ⟨ps, qs, rfl, _, rfl⟩ := List.append_eq_map_iff.1 h3
  exact ⟨ps, qs, rfl, h4⟩

theorem root_next_cases (hw : 0 < w) (hf : Full n) {k : Nat} {c : Ctx A} (hk : (rootCtxs w wa a n fin)[k]? = some c) {y : Nat} (hy : y ∈ c.next) :
    y = fin ∨ ∃ j < n.leaves.length, k < j ∧ y = w * j := by
  rcases ctxs_next w wa hw n hf a 0 [fin] [1] [] [fin] c (List.mem_of_getElem? hk) with ⟨h1, _⟩ | ⟨_, _, _, _, _, h6⟩
  · rw [h1] at hy
    exact Or.inl (by simpa using hy)
  · obtain ⟨j, h7, h8, h9⟩ := h6 y hy
    rw [(root_get hk).2.2] at h9
    rw [Nat.zero_add] at h8
    refine Or.inr ⟨j, h7, ?_, h8⟩
    rw [h8] at h9
    exact Nat.lt_of_mul_lt_mul_left h9

theorem root_next_probas (hw : 0 < w) (hf : Full n) (c : Ctx A) (hc : c ∈ rootCtxs w wa a n fin) :
    c.next.Nodup ∧ c.next ≠ [] ∧ c.probas.length = c.next.length ∧ c.probas.sum = 1 ∧ ∀ x ∈ c.probas, 0 < x := by
  rcases ctxs_next w wa hw n hf a 0 [fin] [1] [] [fin] c hc with ⟨h1, h2⟩ | ⟨h1, h2, h3, h4, h5, _⟩
  · rw [h1, h2]; simp
  · exact ⟨h1, h2, h3, h4, h5⟩

theorem root_next_leaf (hw : 0 < w) (hf : Full n) (hfin : n.size w ≤ fin) {k : Nat} {c : Ctx A} (hk : (rootCtxs w wa a n fin)[k]? = some c) {j : Nat}
    (hj : j < n.leaves.length) : w * j ∈ c.next ↔ FollowedBy n k j := by
  have hc := List.mem_of_getElem? hk
  have hs := (root_get hk).2.2
  constructor
  · intro h
    obtain ⟨c', hk'⟩ := root_exists (w := w) (wa := wa) (a := a) (fin := fin) hj
    have hs' := (root_get hk').2.2
    obtain ⟨q, hq⟩ := root_coreach hw hf hfin c' (List.mem_of_getElem? hk')
    have hstep : Acc (Succ w wa a n fin) fin c.s (c.s :: q) := .step (root_ne_fin hw hfin c hc) ⟨c, hc, rfl, by rw [hs']; exact h⟩ hq
    have hne := root_ne_fin hw hfin c' (List.mem_of_getElem? hk')
    cases hq with
    | fin => exact absurd rfl hne
    | step _ _ hq =>
      obtain ⟨ps, qs, h1, h2⟩ := root_word hw hf hfin hk hstep
      rw [hs, hs'] at h1
      match qs, h1 with
      | [], h1 => simp at h1
      | [_], h1 => simp at h1
      | x :: y :: qs, h1 =>
        simp only [List.map_cons, List.cons.injEq] at h1
        have e1 : k = x := Nat.eq_of_mul_eq_mul_left hw h1.1
        have e2 : j = y := Nat.eq_of_mul_eq_mul_left hw h1.2.1
        subst e1 e2
        exact ⟨ps, qs, h2⟩
  · rintro ⟨u, v, h⟩
    obtain ⟨x, _, hacc⟩ := (acc_root (wa := wa) (a := a) hw hf hfin _).2 h
    rw [List.map_append, List.map_cons, List.map_cons] at hacc
    obtain ⟨y, _, h1⟩ := acc_append hacc
    obtain ⟨rfl, _, z, h2, h3⟩ := acc_cons h1
    obtain ⟨rfl, _, _⟩ := acc_cons h3
    rw [← hs] at h2
    exact (root_agree hw c hc _).1 h2

theorem root_next_fin (hw : 0 < w) (hf : Full n) (hfin : n.size w ≤ fin) {k : Nat} {c : Ctx A} (hk : (rootCtxs w wa a n fin)[k]? = some c) :
    fin ∈ c.next ↔ IsLast n k := by
  have hc := List.mem_of_getElem? hk
  have hs := (root_get hk).2.2
  constructor
  · intro h
    have hstep : Acc (Succ w wa a n fin) fin c.s [c.s] := .step (root_ne_fin hw hfin c hc) ⟨c, hc, rfl, h⟩ .fin
    obtain ⟨ps, qs, h1, h2⟩ := root_word hw hf hfin hk hstep
    rw [hs] at h1
    match qs, h1 with
    | [], h1 => simp at h1
    | _ :: _ :: _, h1 => simp at h1
    | [x], h1 =>
      simp only [List.map_cons, List.cons.injEq] at h1
      have e1 : k = x := Nat.eq_of_mul_eq_mul_left hw h1.1
      subst e1
      exact ⟨ps, h2⟩
  · rintro ⟨u, h⟩
    obtain ⟨x, _, hacc⟩ := (acc_root (wa := wa) (a := a) hw hf hfin _).2 h
    rw [List.map_append, List.map_cons] at hacc
    obtain ⟨y, _, h1⟩ := acc_append hacc
    obtain ⟨rfl, _, z, h2, h3⟩ := acc_cons h1
    cases h3
    rw [← hs] at h2
    exact (root_agree hw c hc _).1 h2

theorem root_init (hw : 0 < w) (hf : Full n) (j : Nat) : w * j ∈ n.init w 0 ↔ IsFirst n j := by
  obtain ⟨fin, hfin⟩ : ∃ fin, n.size w ≤ fin := ⟨_, le_refl _⟩
  constructor
  · intro h
    obtain ⟨c, h1, h2⟩ := init_mem_ctxs (wa := 0) n 0 0 [fin] [1] [] [fin] _ h
    obtain ⟨q, hq⟩ := root_coreach (wa := 0) (a := 0) hw hf hfin c h1
    obtain ⟨ks, h3, h4⟩ := acc_root_map hw hf hfin (h2 ▸ h) hq
    have hne := root_ne_fin hw hfin c h1
    cases hq with
    | fin => exact absurd rfl hne
    | step _ _ hq =>
      match ks, h3 with
      | [], h3 => simp at h3
      | x :: ks, h3 =>
        simp only [List.map_cons, List.cons.injEq] at h3
        rw [h2] at h3
        have e1 : j = x := Nat.eq_of_mul_eq_mul_left hw h3.1
        subst e1
        exact ⟨ks, h4⟩
  · rintro ⟨u, h⟩
    obtain ⟨x, hx, hacc⟩ := (acc_root (wa := 0) (a := 0) hw hf hfin _).2 h
    rw [List.map_cons] at hacc
    obtain ⟨rfl, _⟩ := acc_cons hacc
    exact hx

theorem root_after_fin {k : Nat} {c : Ctx A} (hk : (rootCtxs w wa a n fin)[k]? = some c) : fin ∈ c.after :=
  after_sub n a 0 [fin] [1] [] [fin] c (List.mem_of_getElem? hk) fin (by simp)

theorem root_after (hw : 0 < w) (hf : Full n) (hfin : n.size w ≤ fin) {k : Nat} {c : Ctx A} (hk : (rootCtxs w wa a n fin)[k]? = some c) {j i : Nat}
    (hj : j < n.leaves.length) (hi : i < w) : w * j + i ∈ c.after ↔ Before n k j := by
  have hc := List.mem_of_getElem? hk
  have hs := (root_get hk).2.2
  obtain ⟨c', hk'⟩ := root_exists (w := w) (wa := wa) (a := a) (fin := fin) hj
  have hc' := List.mem_of_getElem? hk'
  have hs' := (root_get hk').2.2
  have hdis : ∀ x ∈ [fin], ¬ (0 ≤ x ∧ x < 0 + n.size w) := by
    intro x hx
    rw [List.mem_singleton] at hx
    omega
  constructor
  · intro h
    rw [← hs'] at h
    have h1 := reach_of_after n hw hf a 0 [fin] [1] [] [fin] hdis (root_agree hw) c hc c' hc' i hi h
    obtain ⟨q, hq⟩ := root_coreach hw hf hfin c' hc'
    obtain ⟨p, h2⟩ := acc_trans (succ_ne_fin hw hfin) h1 hq
    have hne := root_ne_fin hw hfin c' hc'
    cases hq with
    | fin => exact absurd rfl hne
    | step _ _ hq =>
      rename_i _ u _
      obtain ⟨ps, qs, h3, h4⟩ := root_word hw hf hfin hk h2
      rw [hs, hs'] at h3
      match qs, h3 with
      | [], h3 => simp at h3
      | x :: qs, h3 =>
        simp only [List.map_cons, List.cons.injEq] at h3
        obtain ⟨vs, ws, rfl, _, h5⟩ := List.append_eq_map_iff.1 h3.2
        match ws, h5 with
        | [], h5 => simp at h5
        | y :: ws, h5 =>
          simp only [List.map_cons, List.cons.injEq] at h5
          have e1 : k = x := Nat.eq_of_mul_eq_mul_left hw h3.1
          have e2 : y = j := Nat.eq_of_mul_eq_mul_left hw h5.1
          subst e1 e2
          exact ⟨ps, vs, ws, h4⟩
  · rintro ⟨u, v, v', h⟩
    obtain ⟨x, _, hacc⟩ := (acc_root (wa := wa) (a := a) hw hf hfin _).2 h
    rw [List.map_append, List.map_cons, List.map_append, List.map_cons] at hacc
    obtain ⟨y, _, h1⟩ := acc_append hacc
    obtain ⟨rfl, _, z, h2, h3⟩ := acc_cons h1
    obtain ⟨z', h4, h5⟩ := acc_append h3
    obtain ⟨rfl, _, _⟩ := acc_cons h5
    have h6 : Relation.TransGen (Succ w wa a n fin) (w * k) (w * j) := Relation.TransGen.head'_iff.2 ⟨z, h2, h4⟩
    have key : ∀ y, Relation.TransGen (Succ w wa a n fin) (w * k) y → y = fin ∨ ∃ d ∈ rootCtxs w wa a n fin, d.s = y ∧ ∀ i < w, y + i ∈ c.after := by
      intro y hy
      induction hy with
      | single hr =>
        rw [← hs] at hr
        have hr := (root_agree hw c hc _).1 hr
        rcases next_after n a 0 [fin] [1] [] [fin] c hc _ hr with h7 | h7
        · exact Or.inl (by simpa using h7)
        · rcases root_next_cases hw hf hk hr with h8 | ⟨j', h8, _, h9⟩
          · exact Or.inl h8
          · obtain ⟨d, hd⟩ := root_exists (w := w) (wa := wa) (a := a) (fin := fin) h8
            exact Or.inr ⟨d, List.mem_of_getElem? hd, by rw [(root_get hd).2.2, h9], h7⟩
      | tail _ hr ih =>
        rcases ih with h7 | ⟨d, h7, h8, h9⟩
        · exact absurd h7 (succ_ne_fin hw hfin _ _ hr)
        · rw [← h8] at hr
          have hr := (root_agree hw d h7 _).1 hr
          obtain ⟨k', hk''⟩ := List.getElem?_of_mem h7
          rcases next_after n a 0 [fin] [1] [] [fin] d h7 _ hr with h10 | h10
          · exact Or.inl (by simpa using h10)
          · rcases root_next_cases hw hf hk'' hr with h11 | ⟨j', h11, _, h12⟩
            · exact Or.inl h11
            · obtain ⟨e, he⟩ := root_exists (w := w) (wa := wa) (a := a) (fin := fin) h11
              refine Or.inr ⟨e, List.mem_of_getElem? he, by rw [(root_get he).2.2, h12], fun i hi => ?_⟩
              exact after_trans n hw a 0 [fin] [1] [] [fin] hdis c hc d h7 0 hw (by rw [h8]; exact h9 0 hw) _ (h10 i hi)
    rcases key _ h6 with h7 | ⟨_, _, _, h9⟩
    · have := root_ne_fin hw hfin c' hc'
      rw [hs', h7] at this
      exact absurd rfl this
    · exact h9 i hi

end root

end N2P
end Verif
