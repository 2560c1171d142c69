import Verif.Props.Htm
import Verif.Spec.CopyProba

/-! Property C18 (which copies keep the probabilities, and which trees cannot be copied). -/

set_option linter.unusedSectionVars false
set_option linter.unusedSimpArgs false

namespace Verif
open Spec

variable {A : Type}

theorem copyOf_sameProba (ops : ActOps A) (fmt : String → String) (t : Htm A) :
    ∀ t', CopyOf ops fmt t t' → (SameProba t t' ↔ Unbiased t) ∧ Unbiased t' := by
  induction t using Htm.induct with
  | hleaf a i p h =>
    intro t' ht
    cases t' with
    | leaf => simp [SameProba, Unbiased]
    | comb => simp [CopyOf] at ht
  | hcomb k cs i p n h pr ih =>
    intro t' ht
    cases t' with
    | leaf => simp [CopyOf] at ht
    | comb k' cs' i' p' n' h' pr' =>
      simp only [CopyOf] at ht
      obtain ⟨rfl, rfl, rfl, h4, h5⟩ := ht
      have key : (SameProbas cs cs' ↔ Unbiaseds cs) ∧ Unbiaseds cs' ∧ cs'.length = cs.length := by
        clear h5
        induction cs generalizing cs' with
        | nil =>
          cases cs' with
          | nil => simp [SameProbas, Unbiaseds]
          | cons => simp [CopyOfL] at h4
        | cons c cs ihc =>
          cases cs' with
          | nil => simp [CopyOfL] at h4
          | cons d ds =>
            simp only [CopyOfL] at h4
            obtain ⟨h1, h2⟩ := ih c (by simp) d h4.1
            obtain ⟨h3, h5, h6⟩ := ihc (fun c hc => ih c (by simp [hc])) ds h4.2
            simp only [SameProbas, Unbiaseds, h1, h3, List.length_cons, h6]
            exact ⟨trivial, ⟨h2, h5⟩, trivial⟩
      obtain ⟨k1, k2, k3⟩ := key
      simp only [SameProba, Unbiased, k1, k3]
      by_cases hk : k' = .alternative
      · rw [if_pos hk] at h5
        subst h5
        exact ⟨⟨fun h => ⟨fun _ => h.1.symm, h.2⟩, fun h => ⟨(h.1 hk).symm, h.2⟩⟩, fun _ => rfl, k2⟩
      · rw [if_neg hk] at h5
        subst h5
        exact ⟨⟨fun h => ⟨fun h' => absurd h' hk, h.2⟩, fun h => ⟨rfl, h.2⟩⟩, fun h' => absurd h' hk, k2⟩

/-- **C18 (probabilities, exact).**  A copy has the probabilities of the tree exactly if in every alternative of the tree
all children have the same probability; a copy of the copy always has those of the copy. -/
theorem C18_proba_partial (ops : ActOps A) (fmt fmt' : String → String) (t t' t'' : Htm A) (hb : Built t)
    (hc : ∀ a ∈ leaves t, ∃ a', ops.copy fmt a = .ok a' ∧ ops.name a' = fmt (ops.name a))
    (hc' : ∀ a ∈ leaves t', ∃ a', ops.copy fmt' a = .ok a' ∧ ops.name a' = fmt' (ops.name a))
    (h : t.deepCopy ops fmt = .ok t') (h' : t'.deepCopy ops fmt' = .ok t'') :
    (SameProba t t' ↔ Unbiased t) ∧ SameProba t' t'' := by
  obtain ⟨u, h1, h2, h3⟩ := deepCopy_spec ops fmt t hb hc
  rw [h1] at h
  cases h
  obtain ⟨v, h4, h5, -⟩ := deepCopy_spec ops fmt' _ h3 hc'
  rw [h4] at h'
  cases h'
  obtain ⟨k1, k2⟩ := copyOf_sameProba ops fmt t _ h2
  exact ⟨k1, (copyOf_sameProba ops fmt' _ _ h5).1.2 k2⟩

theorem deepCopy_error_iff (ops : ActOps A) (fmt : String → String) (hn : ∀ a a', ops.copy fmt a = .ok a' →
    ops.name a' = fmt (ops.name a)) (t : Htm A) (e : PyErr) : Built t → (t.deepCopy ops fmt = .error e ↔
      ∃ l a r, leaves t = l ++ a :: r ∧ (∀ b ∈ l, ∃ b', ops.copy fmt b = .ok b') ∧ ops.copy fmt a = .error e) := by
  have ok : ∀ t : Htm A, Built t → (∀ b ∈ leaves t, ∃ b', ops.copy fmt b = .ok b') →
      ∃ t', t.deepCopy ops fmt = .ok t' := fun t hb h =>
    let ⟨t', h1, _⟩ := deepCopy_spec ops fmt t hb (fun a ha => let ⟨a', h'⟩ := h a ha; ⟨a', h', hn a a' h'⟩)
    ⟨t', h1⟩
  -- the first leaf that raises, if there is one
  have first : ∀ as : List A, (∀ b ∈ as, ∃ b', ops.copy fmt b = .ok b') ∨
      ∃ e' l a r, as = l ++ a :: r ∧ (∀ b ∈ l, ∃ b', ops.copy fmt b = .ok b') ∧ ops.copy fmt a = .error e' := by
    intro as
    induction as with
    | nil => exact Or.inl (by simp)
    | cons x as ih =>
      cases hx : ops.copy fmt x with
      | error e' => exact Or.inr ⟨e', [], x, as, rfl, by simp, hx⟩
      | ok x' =>
        rcases ih with h | ⟨e', l, a, r, h1, h2, h3⟩
        · exact Or.inl (fun b hb => by
            rcases List.mem_cons.1 hb with rfl | hb
            · exact ⟨x', hx⟩
            · exact h b hb)
        · refine Or.inr ⟨e', x :: l, a, r, by simp [h1], fun b hb => ?_, h3⟩
          rcases List.mem_cons.1 hb with rfl | hb
          · exact ⟨x', hx⟩
          · exact h2 b hb
  have fwd : ∀ (t : Htm A), Built t → ∀ e l a r, leaves t = l ++ a :: r → (∀ b ∈ l, ∃ b', ops.copy fmt b = .ok b') →
      ops.copy fmt a = .error e → t.deepCopy ops fmt = .error e := by
    intro t
    induction t using Htm.induct with
    | hleaf a0 i p h =>
      intro _ e l a r hl hok he
      cases l with
      | nil =>
        simp only [leaves, List.nil_append, List.cons.injEq] at hl
        obtain ⟨rfl, -⟩ := hl
        simp [Htm.deepCopy, he, bind, Except.bind]
      | cons x l => simp [leaves] at hl
    | hcomb k cs i p n h pr ih =>
      intro hb e l a r hl hok he
      rw [Built] at hb
      have hb' := (builtL_iff cs).1 hb.2
      simp only [leaves] at hl
      have key : Htm.deepCopyL ops fmt cs = .error e := by
        clear hb
        induction cs generalizing l with
        | nil => simp [leavesL] at hl
        | cons c cs ihc =>
          rcases first (leaves c) with h0 | ⟨e', l', a', r', h1, h2, h3⟩
          · obtain ⟨c', hc'⟩ := ok c (hb' c (by simp)) h0
            simp only [leavesL] at hl
            rw [List.append_eq_append_iff] at hl
            rcases hl with ⟨m, h4, h5⟩ | ⟨m, h4, h5⟩
            · have := ihc (fun c hc => ih c (by simp [hc])) m h5
                (fun b hb => hok b (by rw [h4]; simp [hb])) (fun c hc => hb' c (by simp [hc]))
              simp [Htm.deepCopyL, hc', this, bind, Except.bind]
            · cases m with
              | nil =>
                have := ihc (fun c hc => ih c (by simp [hc])) [] (by simpa using h5.symm)
                  (by simp) (fun c hc => hb' c (by simp [hc]))
                simp [Htm.deepCopyL, hc', this, bind, Except.bind]
              | cons y m =>
                simp only [List.cons_append, List.cons.injEq] at h5
                obtain ⟨rfl, -⟩ := h5
                obtain ⟨b', hb⟩ := h0 a (by rw [h4]; simp)
                rw [hb] at he
                cases he
          · have hc' := ih c (by simp) (hb' c (by simp)) e' l' a' r' h1 h2 h3
            have : e' = e := by
              simp only [leavesL, h1, List.append_assoc, List.cons_append] at hl
              rw [List.append_eq_append_iff] at hl
              rcases hl with ⟨m, h4, h5⟩ | ⟨m, h4, h5⟩
              · cases m with
                | nil =>
                  simp only [List.nil_append, List.cons.injEq] at h5
                  rw [h5.1, he] at h3
                  cases h3; rfl
                | cons y m =>
                  simp only [List.cons_append, List.cons.injEq] at h5
                  obtain ⟨b', hb⟩ := hok a' (by rw [h4, h5.1]; simp)
                  rw [hb] at h3
                  cases h3
              · cases m with
                | nil =>
                  simp only [List.nil_append, List.cons.injEq] at h5
                  rw [← h5.1, he] at h3
                  cases h3; rfl
                | cons y m =>
                  simp only [List.cons_append, List.cons.injEq] at h5
                  obtain ⟨b', hb⟩ := h2 a (by rw [h4, h5.1]; simp)
                  rw [hb] at he
                  cases he
            subst this
            simp [Htm.deepCopyL, hc', bind, Except.bind]
      simp [Htm.deepCopy, key, bind, Except.bind]
  intro hb
  constructor
  · intro h
    rcases first (leaves t) with h0 | ⟨e', l, a, r, h1, h2, h3⟩
    · obtain ⟨t', ht⟩ := ok t hb h0
      rw [h] at ht
      cases ht
    · have := fwd t hb e' l a r h1 h2 h3
      rw [h] at this
      cases this
      exact ⟨l, a, r, h1, h2, h3⟩
  · rintro ⟨l, a, r, h1, h2, h3⟩
    exact fwd t hb e l a r h1 h2 h3

/-- **C18 (exceptions).**  A tree cannot be copied exactly if one of its actions cannot, and then the exception is that of
the first of them, from left to right. -/
theorem C18_raises_partial (ops : ActOps A) (fmt : String → String)
    (hn : ∀ a a', ops.copy fmt a = .ok a' → ops.name a' = fmt (ops.name a)) (t : Htm A) (hb : Built t) (e : PyErr) :
    t.deepCopy ops fmt = .error e ↔
      ∃ l a r, leaves t = l ++ a :: r ∧ (∀ b ∈ l, ∃ b', ops.copy fmt b = .ok b') ∧ ops.copy fmt a = .error e :=
  deepCopy_error_iff ops fmt hn t e hb

/-- Non-vacuity: an alternative of a leaf and a sequence, and an action that cannot be copied after one that can. -/
def pickyOps : ActOps String where
  name := fun n => n
  agent := fun _ => "None"
  copy := fun f n => if n = "weld" then .error .attributeError else .ok (f n)

example : ∃ t : Htm String, Built t ∧ Unbiased t ∧ leaves t = ["cut", "weld"] ∧
    t.deepCopy pickyOps id = .error .attributeError ∧ ∃ t', t.deepCopy abstractOps (· ++ "2") = .ok t' ∧
      leaves t' = ["cut2", "weld2"] ∧ SameProba t t' := by
  have hb : Built (.comb .alternative [.leaf "cut" none none false, .comb .sequential [.leaf "weld" none none true] none none
      "s" false none] none none "alt" false (some (List.replicate 2 (1 / ((2 : Nat) : ℚ)))) : Htm String) := by
    simp only [Built, builtL_iff]
    refine ⟨fun _ => ⟨by simp, _, rfl, uniform_distrib 2 (by decide)⟩, ?_⟩
    intro c hc
    simp only [List.mem_cons, List.not_mem_nil, or_false] at hc
    rcases hc with rfl | rfl <;> simp [Built, BuiltL]
  have hu : Unbiased (.comb .alternative [.leaf "cut" none none false, .comb .sequential [.leaf "weld" none none true] none none
      "s" false none] none none "alt" false (some (List.replicate 2 (1 / ((2 : Nat) : ℚ)))) : Htm String) := by
    simp [Unbiased, Unbiaseds]
  refine ⟨_, hb, hu, by simp [leaves, leavesL], ?_, ?_⟩
  · rw [C18_raises_partial _ _ (by intro a a' h; simp only [pickyOps] at h ⊢; split at h <;> cases h; rfl) _ hb]
    exact ⟨["cut"], "weld", [], by simp [leaves, leavesL], by simp [pickyOps], by simp [pickyOps]⟩
  · obtain ⟨t', h1, h2, -⟩ := deepCopy_spec abstractOps (· ++ "2") _ hb (fun a _ => ⟨_, rfl, rfl⟩)
    refine ⟨t', h1, ?_, (copyOf_sameProba _ _ _ _ h2).1.2 hu⟩
    simp only [Htm.deepCopy, Htm.deepCopyL, abstractOps, bind, Except.bind, pure, Except.pure] at h1
    rw [mkComb_ok _ _ _ _ _ _ _ (by simp) (by intro h; cases h)] at h1
    simp only at h1
    rw [mkComb_ok _ _ _ _ _ _ _ (by simp) (by intro _ ps hps; cases hps; exact uniform_distrib 2 (by decide))] at h1
    cases h1
    simp [leaves, leavesL]

end Verif
