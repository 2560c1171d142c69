import Verif.Proof.HtmPomdp

/-! Paths of states and linearisations. -/

set_option linter.unusedSectionVars false
set_option linter.unusedSimpArgs false

namespace Verif
open Spec N2P
variable {A : Type} {n : N2P A} {w : Nat} {E : Nat → Nat → Prop} {e : Nat}

theorem destutter_same (k : Nat) (l : List Nat) : (k :: k :: l).destutter (· ≠ ·) = (k :: l).destutter (· ≠ ·) := by
  rw [List.destutter_cons_cons]; simp [List.destutter_cons']

theorem destutter_diff (k j : Nat) (l : List Nat) (h : k ≠ j) : (k :: j :: l).destutter (· ≠ ·) = k :: (j :: l).destutter (· ≠ ·) := by
  rw [List.destutter_cons_cons, if_pos h]; simp [List.destutter_cons']

theorem visited_out (m s : Nat) (l : List Nat) (hs : w * m ≤ s) : visitedLeaves w m (s :: l) = visitedLeaves w m l := by
  unfold visitedLeaves
  rw [List.filter_cons_of_neg (by simpa using hs)]

theorem visited_same (hw : 0 < w) (m s s' : Nat) (l : List Nat) (hs : s < w * m) (hs' : s' < w * m) (h : s' / w = s / w) :
    visitedLeaves w m (s :: s' :: l) = visitedLeaves w m (s' :: l) := by
  unfold visitedLeaves
  rw [List.filter_cons_of_pos (by simpa using hs), List.filter_cons_of_pos (by simpa using hs'), List.map_cons, List.map_cons, h, destutter_same]

theorem visited_diff (m s s' : Nat) (l : List Nat) (hs : s < w * m) (hs' : s' < w * m) (h : s / w ≠ s' / w) :
    visitedLeaves w m (s :: s' :: l) = s / w :: visitedLeaves w m (s' :: l) := by
  unfold visitedLeaves
  rw [List.filter_cons_of_pos (by simpa using hs), List.filter_cons_of_pos (by simpa using hs'), List.map_cons, List.map_cons, destutter_diff _ _ _ h]

theorem visited_last (m s : Nat) (l : List Nat) (hs : s < w * m) (h : ∀ x ∈ l, w * m ≤ x) : visitedLeaves w m (s :: l) = [s / w] := by
  unfold visitedLeaves
  rw [List.filter_cons_of_pos (by simpa using hs), List.filter_eq_nil_iff.2 (by intro x hx; simpa using h x hx)]
  rfl

theorem visited_nil (m : Nat) (l : List Nat) (h : ∀ x ∈ l, w * m ≤ x) : visitedLeaves w m l = [] := by
  unfold visitedLeaves
  rw [List.filter_eq_nil_iff.2 (by intro x hx; simpa using h x hx)]
  rfl

/-- What a model must satisfy. -/
structure Follows (w : Nat) (n : N2P A) (E : Nat → Nat → Prop) (e : Nat) : Prop where
  leaf : ∀ s s', s < w * n.leaves.length → E s s' → (s' < w * n.leaves.length ∧ s' / w = s / w) ∨ IsNext w n (w * n.leaves.length) (s / w) s'
  out : ∀ s s', w * n.leaves.length ≤ s → E s s' → w * n.leaves.length ≤ s'
  step : ∀ k < n.leaves.length, ∀ z, IsNext w n (w * n.leaves.length) k z →
    ∃ mid, (∀ m ∈ mid, m < w * n.leaves.length ∧ m / w = k) ∧ (w * k :: (mid ++ [z])).IsChain E
  final : ∃ mid, (∀ m ∈ mid, w * n.leaves.length ≤ m) ∧ (w * n.leaves.length :: mid).IsChain E ∧ (w * n.leaves.length :: mid).getLast? = some e

theorem isNext_lt (hf : Full n) (k z : Nat) (h : IsNext w n (w * n.leaves.length) k z) :
    z = w * n.leaves.length ∨ ∃ j < n.leaves.length, k < j ∧ z = w * j := by
  rcases h with ⟨j, ⟨u, v, huv⟩, rfl⟩ | ⟨rfl, _⟩
  · obtain ⟨h1, h2⟩ := lin_range n 0 _ huv
    have := (h1 j (by simp)).2
    refine Or.inr ⟨j, by omega, ?_, rfl⟩
    rw [List.pairwise_append] at h2
    have h3 := h2.2.1
    rw [List.pairwise_cons] at h3
    exact h3.1 j (by simp)
  · exact Or.inl rfl

theorem succ_iff (hw : 0 < w) (hf : Full n) (k z : Nat) (hk : k < n.leaves.length) :
    Succ w 0 0 n (w * n.leaves.length) (w * k) z ↔ IsNext w n (w * n.leaves.length) k z := by
  obtain ⟨c, hc⟩ := root_exists (w := w) (wa := 0) (a := 0) (fin := w * n.leaves.length) hk
  rw [← root_next_iff hw hf (show n.size w ≤ w * n.leaves.length from le_refl _) hc]
  constructor
  · rintro ⟨c', h1, h2, h3⟩
    rwa [root_inj hw h1 (List.mem_of_getElem? hc) (by rw [h2, (root_get hc).2.2])] at h3
  · exact fun h => ⟨c, List.mem_of_getElem? hc, (root_get hc).2.2, h⟩

theorem path_out (hE : Follows w n E e) : ∀ (l : List Nat) (s : Nat), w * n.leaves.length ≤ s → (s :: l).IsChain E → ∀ x ∈ s :: l, w * n.leaves.length ≤ x := by
  intro l
  induction l with
  | nil => intro s hs _ x hx; rw [List.mem_singleton] at hx; omega
  | cons s' l ih =>
    intro s hs hc x hx
    rw [List.isChain_cons_cons] at hc
    rcases List.mem_cons.1 hx with rfl | hx
    · exact hs
    · exact ih s' (hE.out _ _ hs hc.1) hc.2 x hx

theorem path_acc (hw : 0 < w) (hf : Full n) (hE : Follows w n E e) (he : w * n.leaves.length ≤ e) : ∀ (l : List Nat) (s : Nat), s < w * n.leaves.length →
    (s :: l).IsChain E → (s :: l).getLast? = some e →
    Acc (Succ w 0 0 n (w * n.leaves.length)) (w * n.leaves.length) (w * (s / w)) ((visitedLeaves w n.leaves.length (s :: l)).map (w * ·)) ∧
    (visitedLeaves w n.leaves.length (s :: l)).head? = some (s / w) := by
  intro l
  induction l with
  | nil => intro s hs _ hl; simp at hl; omega
  | cons s' l ih =>
    intro s hs hc hl
    rw [List.isChain_cons_cons] at hc
    rw [List.getLast?_cons_cons] at hl
    have hk : s / w < n.leaves.length := Nat.div_lt_of_lt_mul hs
    have hne : w * (s / w) ≠ w * n.leaves.length := fun h => by
      have := Nat.eq_of_mul_eq_mul_left hw h
      omega
    rcases hE.leaf s s' hs hc.1 with ⟨h1, h2⟩ | h1
    · obtain ⟨h3, h4⟩ := ih s' h1 hc.2 hl
      rw [visited_same hw _ _ _ _ hs h1 h2, ← h2]
      exact ⟨h3, h4⟩
    · rcases isNext_lt hf _ _ h1 with rfl | ⟨j, hj, hkj, rfl⟩
      · have hout := path_out hE l _ le_rfl hc.2
        rw [visited_last _ _ _ hs hout]
        refine ⟨Acc.step hne ((succ_iff hw hf _ _ hk).2 h1) .fin, rfl⟩
      · have hj' : w * j < w * n.leaves.length := Nat.mul_lt_mul_of_pos_left hj hw
        have e1 : w * j / w = j := Nat.mul_div_cancel_left j hw
        obtain ⟨h3, h4⟩ := ih (w * j) hj' hc.2 hl
        rw [visited_diff _ _ _ _ hs hj' (by omega)]
        rw [e1] at h3
        exact ⟨Acc.step hne ((succ_iff hw hf _ _ hk).2 h1) h3, rfl⟩

theorem chain_cons_append {E : Nat → Nat → Prop} (x : Nat) (mid : List Nat) (z : Nat) (l : List Nat) (h1 : (x :: (mid ++ [z])).IsChain E) (h2 : (z :: l).IsChain E) :
    (x :: (mid ++ z :: l)).IsChain E := by
  induction mid generalizing x with
  | nil =>
    simp only [List.nil_append, List.isChain_cons_cons] at h1
    exact List.isChain_cons_cons.2 ⟨h1.1, h2⟩
  | cons y mid ih =>
    simp only [List.cons_append, List.isChain_cons_cons] at h1
    exact List.isChain_cons_cons.2 ⟨h1.1, ih y h1.2⟩

theorem acc_path (hw : 0 < w) (hf : Full n) (hE : Follows w n E e) {x : Nat} {u : List Nat}
    (h : Acc (Succ w 0 0 n (w * n.leaves.length)) (w * n.leaves.length) x u) :
    ∃ l, (x :: l).IsChain E ∧ (x :: l).getLast? = some e ∧ (visitedLeaves w n.leaves.length (x :: l)).map (w * ·) = u := by
  induction h with
  | fin =>
    obtain ⟨mid, h1, h2, h3⟩ := hE.final
    refine ⟨mid, h2, h3, ?_⟩
    rw [visited_nil _ _ (by intro x hx; rcases List.mem_cons.1 hx with rfl | hx; exacts [le_rfl, h1 x hx])]
    rfl
  | @step x y u h1 h2 h3 ih =>
    obtain ⟨l, hl1, hl2, hl3⟩ := ih
    obtain ⟨c, hc, rfl, hy⟩ := h2
    obtain ⟨k, hk⟩ := List.getElem?_of_mem hc
    have hklt := root_lt hk
    have hnext := (root_next_iff hw hf (le_refl _) hk y).1 hy
    rw [(root_get hk).2.2]
    obtain ⟨mid, hm1, hm2⟩ := hE.step k hklt y hnext
    have hk' : w * k < w * n.leaves.length := Nat.mul_lt_mul_of_pos_left hklt hw
    have e1 : w * k / w = k := Nat.mul_div_cancel_left k hw
    refine ⟨mid ++ y :: l, chain_cons_append _ _ _ _ hm2 hl1, ?_, ?_⟩
    · rw [← hl2, ← List.cons_append, List.getLast?_append, hl2]; rfl
    · have key : ∀ (mid : List Nat) (s : Nat), s < w * n.leaves.length → s / w = k → (∀ m ∈ mid, m < w * n.leaves.length ∧ m / w = k) →
          visitedLeaves w n.leaves.length (s :: (mid ++ y :: l)) = k :: visitedLeaves w n.leaves.length (y :: l) := by
        intro mid
        induction mid with
        | nil =>
          intro s hs hsk _
          rcases isNext_lt hf _ _ hnext with hy' | ⟨j, hj, hkj, rfl⟩
          · subst hy'
            have hout := path_out hE l _ le_rfl hl1
            rw [List.nil_append, visited_last _ _ _ hs hout, visited_nil _ _ hout, hsk]
          · have e2 : w * j / w = j := Nat.mul_div_cancel_left j hw
            rw [List.nil_append, visited_diff _ _ _ _ hs (Nat.mul_lt_mul_of_pos_left hj hw) (by omega), hsk]
        | cons m mid ihm =>
          intro s hs hsk hm
          obtain ⟨a1, a2⟩ := hm m (by simp)
          rw [List.cons_append, visited_same hw _ _ _ _ hs a1 (by omega)]
          exact ihm m a1 a2 (fun x hx => hm x (by simp [hx]))
      rw [key mid (w * k) hk' e1 hm1, List.map_cons, hl3]

/-- The paths visit the linearisations. -/
theorem paths_iff (hw : 0 < w) (hf : Full n) (hE : Follows w n E e) (he : w * n.leaves.length ≤ e) (ks : List Nat) :
    (∃ s ∈ n.init w 0, ∃ l, (s :: l).IsChain E ∧ (s :: l).getLast? = some e ∧ visitedLeaves w n.leaves.length (s :: l) = ks) ↔ Lin n 0 ks := by
  rw [← acc_root (wa := 0) (a := 0) hw hf (le_refl _)]
  constructor
  · rintro ⟨s, hs, l, h1, h2, rfl⟩
    obtain ⟨k, hk, rfl⟩ := init_range w n 0 s hs
    rw [Nat.zero_add] at *
    have := (path_acc hw hf hE he l (w * k) (Nat.mul_lt_mul_of_pos_left hk hw) h1 h2).1
    rw [Nat.mul_div_cancel_left k hw] at this
    exact ⟨w * k, hs, this⟩
  · rintro ⟨x, hx, h⟩
    obtain ⟨l, h1, h2, h3⟩ := acc_path hw hf hE h
    exact ⟨x, hx, l, h1, h2, List.map_injective_iff.2 (fun a b h => Nat.eq_of_mul_eq_mul_left hw h) h3⟩

end Verif
