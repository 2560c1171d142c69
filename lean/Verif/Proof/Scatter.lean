import Verif.Proof.NodeAfter
import Verif.Proof.Pomdp

/-! Assignments to lists of positions, and folds that touch each row once. -/

set_option linter.unusedSectionVars false
set_option linter.unusedSimpArgs false

namespace Verif

theorem scatter_not_mem (is : List Nat) : ∀ (vs : List ℚ) (f : Nat → ℚ) (z : Nat), z ∉ is → scatter f is vs z = f z := by
  induction is with
  | nil => intro vs f z _; cases vs <;> rfl
  | cons i is ih =>
    intro vs f z hz
    simp only [List.mem_cons, not_or] at hz
    cases vs with
    | nil => rfl
    | cons v vs => rw [scatter, ih _ _ _ hz.2]; simp [hz.1]

theorem scatter_get (is : List Nat) : ∀ (vs : List ℚ) (f : Nat → ℚ) (z i : Nat) (v : ℚ), is.Nodup → is[i]? = some z → vs[i]? = some v →
    scatter f is vs z = v := by
  induction is with
  | nil => intro vs f z i v _ h; simp at h
  | cons j is ih =>
    intro vs f z i v hn h1 h2
    rw [List.nodup_cons] at hn
    cases vs with
    | nil => simp at h2
    | cons w vs =>
      rw [scatter]
      cases i with
      | zero =>
        simp only [List.getElem?_cons_zero, Option.some.injEq] at h1 h2
        subst h1 h2
        rw [scatter_not_mem _ _ _ _ hn.1]; simp
      | succ i => exact ih vs _ z i v hn.2 (by simpa using h1) (by simpa using h2)

theorem scatter_mem (is : List Nat) (vs : List ℚ) (f : Nat → ℚ) (z : Nat) (hn : is.Nodup) (hl : is.length = vs.length) (hz : z ∈ is) :
    ∃ v ∈ vs, scatter f is vs z = v := by
  obtain ⟨i, hi, rfl⟩ := List.getElem_of_mem hz
  have hi' : i < vs.length := by omega
  exact ⟨vs[i], List.getElem_mem _, scatter_get is vs f _ i _ hn (by simp) (by simp [hi'])⟩

/-- The sum after an assignment. -/
theorem sumRange_update (N : Nat) (f : Nat → ℚ) (i : Nat) (v : ℚ) (hi : i < N) :
    sumRange N (fun x => if x = i then v else f x) = sumRange N f - f i + v := by
  induction N with
  | zero => omega
  | succ N ih =>
    rw [sumRange_succ, sumRange_succ]
    by_cases h : i = N
    · subst h
      rw [sumRange_congr _ _ f (fun k hk => by simp [show k ≠ i by omega])]
      simp
    · rw [ih (by omega), if_neg (by omega)]; ring

theorem scatter_sum (N : Nat) (is : List Nat) : ∀ (vs : List ℚ) (f : Nat → ℚ), is.Nodup → is.length = vs.length → (∀ i ∈ is, i < N) → (∀ i ∈ is, f i = 0) →
    sumRange N (scatter f is vs) = sumRange N f + vs.sum := by
  induction is with
  | nil =>
    intro vs f _ hl _ _
    have : vs = [] := List.eq_nil_of_length_eq_zero (by simpa using hl.symm)
    subst this
    simp [scatter]
  | cons i is ih =>
    intro vs f hn hl hN hf
    rw [List.nodup_cons] at hn
    cases vs with
    | nil => simp at hl
    | cons v vs =>
      rw [scatter, ih _ _ hn.2 (by simpa using hl) (fun j hj => hN j (by simp [hj])), sumRange_update _ _ _ _ (hN i (by simp)), hf i (by simp)]
      · simp; ring
      · intro j hj
        have : j ≠ i := by rintro rfl; exact hn.1 hj
        simp [this, hf j (by simp [hj])]

theorem scatter_nonneg (is : List Nat) : ∀ (vs : List ℚ) (f : Nat → ℚ) (z : Nat), 0 ≤ f z → (∀ v ∈ vs, 0 ≤ v) → 0 ≤ scatter f is vs z := by
  induction is with
  | nil => intro vs f z h _; cases vs <;> exact h
  | cons i is ih =>
    intro vs f z h hv
    cases vs with
    | nil => exact h
    | cons v vs =>
      refine ih vs _ z ?_ (fun w hw => hv w (by simp [hw]))
      split
      · exact hv v (by simp)
      · exact h

theorem scatter_map (f : Nat → ℚ) (g : ℚ → ℚ) (is : List Nat) (vs : List ℚ) (z : Nat) (hn : is.Nodup) (hl : is.length = vs.length) (hz : z ∈ is) :
    scatter f is (vs.map g) z = g (scatter (fun _ => 0) is vs z) := by
  obtain ⟨i, hi, rfl⟩ := List.getElem_of_mem hz
  have hi' : i < vs.length := by omega
  rw [scatter_get is vs _ _ i vs[i] hn (by simp) (by simp [hi']), scatter_get is (vs.map g) _ _ i (g vs[i]) hn (by simp) (by simp [hi'])]

/-- A fold in which only one element touches what is observed. -/
theorem foldl_obs {γ σ β : Type} (f : σ → γ → σ) (obs : σ → β) (b b' : β) : ∀ (l : List γ) (k : Nat) (c : γ), l[k]? = some c →
    (∀ (j : Nat) (c' : γ), j ≠ k → l[j]? = some c' → ∀ s, obs (f s c') = obs s) → (∀ s, obs s = b → obs (f s c) = b') →
    ∀ s, obs s = b → obs (l.foldl f s) = b' := by
  intro l
  have hpres : ∀ (l : List γ), (∀ (c' : γ), c' ∈ l → ∀ s, obs (f s c') = obs s) → ∀ s, obs (l.foldl f s) = obs s := by
    intro l
    induction l with
    | nil => intro _ s; rfl
    | cons c l ih => intro h s; rw [List.foldl_cons, ih (fun c' hc' => h c' (by simp [hc'])), h c (by simp)]
  induction l with
  | nil => intro k c h; simp at h
  | cons d l ih =>
    intro k c hk ho hown s hs
    rw [List.foldl_cons]
    cases k with
    | zero =>
      simp only [List.getElem?_cons_zero, Option.some.injEq] at hk
      subst hk
      rw [hpres l]
      · exact hown s hs
      · intro c' hc' s
        obtain ⟨j, hj, rfl⟩ := List.getElem_of_mem hc'
        exact ho (j + 1) _ (by omega) (by simp) s
    | succ k =>
      refine ih k c (by simpa using hk) (fun j c' hj hc' s => ho (j + 1) c' (by omega) (by simpa using hc') s) hown _ ?_
      rw [ho 0 d (by omega) (by simp)]
      exact hs

/-- A fold that does not touch what is observed. -/
theorem foldl_frame {γ σ β : Type} (f : σ → γ → σ) (obs : σ → β) : ∀ (l : List γ), (∀ (c' : γ), c' ∈ l → ∀ s, obs (f s c') = obs s) →
    ∀ s, obs (l.foldl f s) = obs s := by
  intro l
  induction l with
  | nil => intro _ s; rfl
  | cons c l ih => intro h s; rw [List.foldl_cons, ih (fun c' hc' => h c' (by simp [hc'])), h c (by simp)]

theorem foldlM_pure {γ σ : Type} (f : σ → γ → σ) (l : List γ) (s : σ) : l.foldlM (fun s c => (.ok (f s c) : Py σ)) s = .ok (l.foldl f s) := by
  induction l generalizing s with
  | nil => rfl
  | cons c l ih => simp [List.foldlM_cons, bind, Except.bind, ih]

end Verif
