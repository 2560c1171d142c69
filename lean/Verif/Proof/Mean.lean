import Verif.Spec.Mean
import Verif.Proof.Sampling
import Verif.Proof.SupKernel
import Mathlib.Algebra.BigOperators.Fin
import Mathlib.Algebra.BigOperators.Field
import Mathlib.Data.Fin.Tuple.Basic
import Mathlib.Tactic.FieldSimp
import Mathlib.Tactic.Ring

/-! Means over sequences of random numbers. -/

set_option linter.unusedSectionVars false
set_option linter.unusedSimpArgs false

namespace Verif
open Spec

/-! ### Means -/

theorem mean_congr {Ω : Type} [Fintype Ω] {f g : Ω → ℚ} (h : ∀ ω, f ω = g ω) : mean f = mean g := by rw [funext h]

theorem mean_const {Ω : Type} [Fintype Ω] [Nonempty Ω] (c : ℚ) : mean (fun _ : Ω => c) = c := by
  unfold mean
  rw [Finset.sum_const, Finset.card_univ, nsmul_eq_mul]
  have : (Fintype.card Ω : ℚ) ≠ 0 := by exact_mod_cast Fintype.card_ne_zero
  field_simp

theorem mean_add {Ω : Type} [Fintype Ω] (f g : Ω → ℚ) : mean (fun ω => f ω + g ω) = mean f + mean g := by
  unfold mean
  rw [Finset.sum_add_distrib, add_div]

theorem mean_mul {Ω : Type} [Fintype Ω] (c : ℚ) (f : Ω → ℚ) : mean (fun ω => c * f ω) = c * mean f := by
  unfold mean
  rw [← Finset.mul_sum, mul_div_assoc]

theorem mean_affine {Ω : Type} [Fintype Ω] [Nonempty Ω] (a c : ℚ) (f : Ω → ℚ) : mean (fun ω => a + c * f ω) = a + c * mean f := by
  rw [mean_add, mean_const, mean_mul]

theorem mean_equiv {A B : Type} [Fintype A] [Fintype B] (e : A ≃ B) (f : B → ℚ) : mean f = mean fun a => f (e a) := by
  unfold mean
  rw [Fintype.card_congr e, Equiv.sum_comp e f]

theorem mean_prod {A B : Type} [Fintype A] [Fintype B] (f : A × B → ℚ) : mean f = mean fun a => mean fun b => f (a, b) := by
  unfold mean
  rw [Fintype.sum_prod_type, Fintype.card_prod]
  push_cast
  rw [← Finset.sum_div, div_div, mul_comm (Fintype.card B : ℚ)]

theorem mean_append {α : Type} [Fintype α] (m n : Nat) (f : (Fin (m + n) → α) → ℚ) :
    mean f = mean fun v : Fin m → α => mean fun w : Fin n → α => f (Fin.append v w) := by
  rw [mean_equiv (Fin.appendEquiv m n) f, mean_prod]
  rfl

/-! ### Sequences of random numbers -/

/-- The `n` random numbers from the `g`-th. -/
def window {α : Type} (n g : Nat) (z : Nat → α) (i : Fin n) : α := z (g + i)

theorem overlay_append {α : Type} (g : Nat) {m n : Nat} (v : Fin m → α) (w : Fin n → α) (z : Nat → α) :
    overlay g (Fin.append v w) z = overlay (g + m) w (overlay g v z) := by
  funext k
  unfold overlay
  by_cases h1 : g ≤ k ∧ k < g + m
  · rw [dif_pos (by omega), dif_neg (by omega), dif_pos h1]
    have : (⟨k - g, by omega⟩ : Fin (m + n)) = Fin.castAdd n ⟨k - g, by omega⟩ := rfl
    rw [this, Fin.append_left]
  · by_cases h2 : g + m ≤ k ∧ k < g + m + n
    · rw [dif_pos (by omega), dif_pos h2]
      have : (⟨k - g, by omega⟩ : Fin (m + n)) = Fin.natAdd m ⟨k - (g + m), by omega⟩ := by
        apply Fin.ext
        simp only [Fin.natAdd_mk]
        omega
      rw [this, Fin.append_right]
    · rw [dif_neg (by omega), dif_neg h2, dif_neg h1]

theorem window_later {α : Type} (g : Nat) {m n : Nat} (w : Fin n → α) (z : Nat → α) : window m g (overlay (g + m) w z) = window m g z := by
  funext i
  unfold window overlay
  rw [dif_neg (by omega)]

theorem window_overlay {α : Type} (g : Nat) {m : Nat} (v : Fin m → α) (z : Nat → α) : window m g (overlay g v z) = v := by
  funext i
  unfold window overlay
  rw [dif_pos (by omega)]
  congr 1
  apply Fin.ext
  simp

/-- If at least `N` of the random numbers from the `g`-th are drawn, the mean of `F` is `c`. -/
def HasMean {α : Type} [Fintype α] (N g : Nat) (F : (Nat → α) → ℚ) (c : ℚ) : Prop :=
  ∀ n ≥ N, ∀ z, mean (fun ω : Fin n → α => F (overlay g ω z)) = c

section
variable {α : Type} [Fintype α] [Nonempty α]

theorem hasMean_const (g : Nat) (c : ℚ) : HasMean (α := α) 0 g (fun _ => c) c := fun _ _ _ => mean_const c

theorem HasMean.mono {N N' g : Nat} {F : (Nat → α) → ℚ} {c : ℚ} (h : HasMean N g F c) (hN : N ≤ N') : HasMean N' g F c :=
  fun n hn z => h n (by omega) z

theorem HasMean.congr {N g : Nat} {F G : (Nat → α) → ℚ} {c : ℚ} (h : HasMean N g F c) (e : ∀ z, G z = F z) : HasMean N g G c := by
  rw [show G = F from funext e]; exact h

/-- The next `m` random numbers are drawn, and the rest of the computation depends on them. -/
theorem hasMean_draw {N m g : Nat} {F : (Nat → α) → ℚ} (G : (Fin m → α) → (Nat → α) → ℚ) (c : (Fin m → α) → ℚ)
    (hF : ∀ z, F z = G (window m g z) z) (hG : ∀ w, HasMean N (g + m) (G w) (c w)) : HasMean (m + N) g F (mean c) := by
  intro n hn z
  obtain ⟨n2, rfl⟩ : ∃ n2, n = m + n2 := ⟨n - m, by omega⟩
  rw [mean_append]
  apply mean_congr
  intro v
  rw [← hG v n2 (by omega) (overlay g v z)]
  apply mean_congr
  intro w
  rw [hF, overlay_append, window_later, window_overlay]

end

/-! ### Rollouts -/

section
variable {α β η : Type} [Fintype α] [Nonempty α]

/-- A simulator that uses a sequence of random numbers: one for an action, `nt` for a transition and `nb` for a state of a belief. -/
structure DrawsFrom (simOf : (Nat → α) → Sim Nat β) (nA : Nat) (γ : ℚ) (Good : Nat → Prop) (nt nb : Nat)
    (tr : (Fin nt → α) → Nat → Nat → Nat × Nat × ℚ) (pick : α → Nat) (bel : (Fin nb → α) → β → Nat) (GoodB : β → Prop) : Prop where
  pos : 0 < nA
  discount : ∀ z, (simOf z).discount = γ
  actions : ∀ z, (simOf z).nActions = nA
  rand : ∀ z g, (simOf z).rand g = (.ok (pick (z g)), g + 1)
  move : ∀ z g a s, a < nA → Good s → (simOf z).sampleTransition a s g = (.ok (tr (window nt g z) a s), g + nt)
  stays : ∀ w a s, a < nA → Good s → Good (tr w a s).1
  belief : ∀ z g b, GoodB b → (simOf z).sampleBelief b g = (.ok (bel (window nb g z) b), g + nb)
  inside : ∀ w b, GoodB b → Good (bel w b)

/-- The mean of `c` applied to the result of a rollout. -/
def loopMean (hor : HorizonOps η) (nA : Nat) (γ : ℚ) {nt : Nat} (tr : (Fin nt → α) → Nat → Nat → Nat × Nat × ℚ) (pick : α → Nat) (c : ℚ → ℚ) :
    Nat → Nat → η → ℚ → ℚ → ℚ
  | 0, _, _, _, full => c full
  | k + 1, s, h, gamma, full =>
      if hor.isReached h then c full
      else mean fun x : Fin 1 → α => mean fun w : Fin nt → α =>
        loopMean hor nA γ tr pick c k (tr w (pick (x 0) % nA) s).1
          (hor.decrement (pick (x 0) % nA) s (tr w (pick (x 0) % nA) s).1 (tr w (pick (x 0) % nA) s).2.1 h) (gamma * γ)
          (full + gamma * (tr w (pick (x 0) % nA) s).2.2)

/-- The expected return of a rollout. -/
def loopValue (hor : HorizonOps η) (nA : Nat) (γ : ℚ) {nt : Nat} (tr : (Fin nt → α) → Nat → Nat → Nat × Nat × ℚ) (pick : α → Nat) :
    Nat → η → Nat → ℚ
  | 0, _, _ => 0
  | k + 1, h, s =>
      if hor.isReached h then 0
      else mean fun x : Fin 1 → α => mean fun w : Fin nt → α =>
        (tr w (pick (x 0) % nA) s).2.2 + γ * loopValue hor nA γ tr pick k
          (hor.decrement (pick (x 0) % nA) s (tr w (pick (x 0) % nA) s).1 (tr w (pick (x 0) % nA) s).2.1 h) (tr w (pick (x 0) % nA) s).1

theorem loopMean_affine (hor : HorizonOps η) (nA : Nat) (γ : ℚ) {nt : Nat} (tr : (Fin nt → α) → Nat → Nat → Nat × Nat × ℚ) (pick : α → Nat)
    (c0 : ℚ) : ∀ k s h gamma full, loopMean hor nA γ tr pick (fun x => x + c0) k s h gamma full =
      full + c0 + gamma * loopValue hor nA γ tr pick k h s := by
  intro k
  induction k with
  | zero => intro s h gamma full; simp [loopMean, loopValue]
  | succ k ih =>
      intro s h gamma full
      simp only [loopMean, loopValue]
      by_cases hr : hor.isReached h = true
      · rw [if_pos hr, if_pos hr]; ring
      · rw [if_neg hr, if_neg hr]
        simp only [ih]
        rw [← mean_affine]
        apply mean_congr
        intro x
        rw [← mean_affine]
        apply mean_congr
        intro w
        ring

variable {simOf : (Nat → α) → Sim Nat β} {nA : Nat} {γ : ℚ} {Good : Nat → Prop} {nt nb : Nat}
  {tr : (Fin nt → α) → Nat → Nat → Nat × Nat × ℚ} {pick : α → Nat} {bel : (Fin nb → α) → β → Nat} {GoodB : β → Prop}

theorem randomAction_eq (H : DrawsFrom simOf nA γ Good nt nb tr pick bel GoodB) (z : Nat → α) (g : Nat) :
    randomAction (simOf z) g = (.ok (pick (z g) % nA), g + 1) := by
  unfold randomAction
  rw [M.bind_of_ok (H.rand z g), H.actions, if_neg (by have := H.pos; omega)]
  rfl

theorem rolloutLoop_reached (sim : Sim Nat β) (hor : HorizonOps η) (bound s : Nat) (h : η) (gamma full : ℚ) (g : Nat) (hr : hor.isReached h = true) :
    rolloutLoop sim hor bound s h gamma full g = (.ok full, g) := by
  unfold rolloutLoop
  rw [if_pos hr]
  rfl

theorem rolloutLoop_step (H : DrawsFrom simOf nA γ Good nt nb tr pick bel GoodB) (hor : HorizonOps η) (bound s : Nat) (h : η) (gamma full : ℚ)
    (z : Nat → α) (g : Nat) (hr : ¬ hor.isReached h = true) (hs : Good s) :
    rolloutLoop (simOf z) hor (bound + 1) s h gamma full g =
      rolloutLoop (simOf z) hor bound (tr (window nt (g + 1) z) (pick (z g) % nA) s).1
        (hor.decrement (pick (z g) % nA) s (tr (window nt (g + 1) z) (pick (z g) % nA) s).1 (tr (window nt (g + 1) z) (pick (z g) % nA) s).2.1 h)
        (gamma * γ) (full + gamma * (tr (window nt (g + 1) z) (pick (z g) % nA) s).2.2) (g + 1 + nt) := by
  rw [rolloutLoop, if_neg hr]
  rw [M.bind_of_ok (randomAction_eq H z g), M.bind_of_ok (H.move z (g + 1) _ s (Nat.mod_lt _ H.pos) hs), H.discount]

/-- Rollouts that end return a number. -/
theorem rolloutLoop_ok (H : DrawsFrom simOf nA γ Good nt nb tr pick bel GoodB) (hor : HorizonOps η) (z : Nat → α) :
    ∀ k bound s h gamma full g, k ≤ bound → Good s → EndsIn hor k h → ∃ x g', rolloutLoop (simOf z) hor bound s h gamma full g = (.ok x, g') := by
  intro k
  induction k with
  | zero =>
      intro bound s h gamma full g _ _ he
      exact ⟨_, _, rolloutLoop_reached _ _ _ _ _ _ _ _ he⟩
  | succ k ih =>
      intro bound s h gamma full g hb hs he
      by_cases hr : hor.isReached h = true
      · exact ⟨_, _, rolloutLoop_reached _ _ _ _ _ _ _ _ hr⟩
      · obtain ⟨bound, rfl⟩ : ∃ b, bound = b + 1 := ⟨bound - 1, by omega⟩
        rw [rolloutLoop_step H hor bound s h gamma full z g hr hs]
        rcases he with he | he
        · exact absurd he hr
        · exact ih bound _ _ _ _ _ (by omega) (H.stays _ _ _ (Nat.mod_lt _ H.pos) hs) (he _ _ _ _)

/-- What follows a computation. -/
def thenNumber {S : Type} (r : Py ℚ × S) (f : ℚ → S → ℚ) : ℚ :=
  match r with
  | (.ok x, s) => f x s
  | (.error _, _) => 0

theorem rolloutLoop_mean (H : DrawsFrom simOf nA γ Good nt nb tr pick bel GoodB) (hor : HorizonOps η) {N' : Nat}
    (Φ : ℚ → Nat → (Nat → α) → ℚ) (c : ℚ → ℚ) (hΦ : ∀ x g, HasMean N' g (Φ x g) (c x)) :
    ∀ k bound s h gamma full g, k ≤ bound → Good s → EndsIn hor k h →
      HasMean (k * (1 + nt) + N') g (fun z => thenNumber (rolloutLoop (simOf z) hor bound s h gamma full g) fun x g' => Φ x g' z)
        (loopMean hor nA γ tr pick c k s h gamma full) := by
  intro k
  induction k with
  | zero =>
      intro bound s h gamma full g _ _ he
      refine ((hΦ full g).mono (by omega)).congr fun z => ?_
      rw [rolloutLoop_reached _ _ _ _ _ _ _ _ he]
      rfl
  | succ k ih =>
      intro bound s h gamma full g hb hs he
      by_cases hr : hor.isReached h = true
      · rw [loopMean, if_pos hr]
        refine ((hΦ full g).mono (by omega)).congr fun z => ?_
        rw [rolloutLoop_reached _ _ _ _ _ _ _ _ hr]
        rfl
      · obtain ⟨bound, rfl⟩ : ∃ b, bound = b + 1 := ⟨bound - 1, by omega⟩
        rw [loopMean, if_neg hr]
        have he' : ∀ a s s' o, EndsIn hor k (hor.decrement a s s' o h) := by
          rcases he with he | he
          · exact absurd he hr
          · exact he
        refine HasMean.mono (N := 1 + (nt + (k * (1 + nt) + N'))) ?_ (by rw [Nat.add_mul]; omega)
        refine hasMean_draw (fun x z => thenNumber (rolloutLoop (simOf z) hor bound (tr (window nt (g + 1) z) (pick (x 0) % nA) s).1
          (hor.decrement (pick (x 0) % nA) s (tr (window nt (g + 1) z) (pick (x 0) % nA) s).1 (tr (window nt (g + 1) z) (pick (x 0) % nA) s).2.1 h)
          (gamma * γ) (full + gamma * (tr (window nt (g + 1) z) (pick (x 0) % nA) s).2.2) (g + 1 + nt)) fun x g' => Φ x g' z) _ ?_ ?_
        · intro z
          rw [rolloutLoop_step H hor bound s h gamma full z g hr hs]
          rfl
        · intro x
          refine hasMean_draw (fun w z => thenNumber (rolloutLoop (simOf z) hor bound (tr w (pick (x 0) % nA) s).1
            (hor.decrement (pick (x 0) % nA) s (tr w (pick (x 0) % nA) s).1 (tr w (pick (x 0) % nA) s).2.1 h)
            (gamma * γ) (full + gamma * (tr w (pick (x 0) % nA) s).2.2) (g + 1 + nt)) fun x g' => Φ x g' z) _ ?_ ?_
          · intro z
            rfl
          · intro w
            exact ih bound _ _ _ _ _ (by omega) (H.stays _ _ _ (Nat.mod_lt _ H.pos) hs) (he' _ _ _ _)

/-- Several rollouts that end return a number. -/
theorem rollouts_ok (H : DrawsFrom simOf nA γ Good nt nb tr pick bel GoodB) (S : Search Nat β η) (z : Nat → α) (b : β) (hb : GoodB b) (h : η) (k : Nat)
    (hk : k ≤ S.bound) (he : EndsIn S.hor k (S.hor.copy h)) :
    ∀ n total g, ∃ x g', rollouts { S with sim := simOf z } b h n total g = (.ok x, g') := by
  intro n
  induction n with
  | zero => intro total g; exact ⟨_, _, rfl⟩
  | succ n ih =>
      intro total g
      obtain ⟨x, g', hx⟩ := rolloutLoop_ok H S.hor z k S.bound (bel (window nb g z) b) (S.hor.copy h) 1 0 (g + nb) hk (H.inside _ _ hb) he
      obtain ⟨y, g2, hy⟩ := ih (total + x) g'
      refine ⟨y, g2, ?_⟩
      rw [rollouts]
      rw [M.bind_of_ok (H.belief z g b hb), M.bind_of_ok hx]
      exact hy

theorem rollouts_mean (H : DrawsFrom simOf nA γ Good nt nb tr pick bel GoodB) (S : Search Nat β η) (b : β) (hb : GoodB b) (h : η) (k : Nat)
    (hk : k ≤ S.bound) (he : EndsIn S.hor k (S.hor.copy h)) {N' : Nat}
    (Φ : ℚ → Nat → (Nat → α) → ℚ) (c0 : ℚ) (hΦ : ∀ x g, HasMean N' g (Φ x g) (x + c0)) :
    ∀ n total g, HasMean (n * (nb + k * (1 + nt)) + N') g
      (fun z => thenNumber (rollouts { S with sim := simOf z } b h n total g) fun x g' => Φ x g' z)
        (total + c0 + n * mean fun w : Fin nb → α => loopValue S.hor nA γ tr pick k (S.hor.copy h) (bel w b)) := by
  intro n
  induction n with
  | zero =>
      intro total g
      have e : ∀ V : ℚ, total + c0 + ((0 : Nat) : ℚ) * V = total + c0 := fun V => by simp
      rw [e]
      exact ((hΦ total g).mono (by omega)).congr fun z => rfl
  | succ n ih =>
      intro total g
      set V : ℚ := mean fun w : Fin nb → α => loopValue S.hor nA γ tr pick k (S.hor.copy h) (bel w b) with hV
      have e : total + c0 + ((n + 1 : Nat) : ℚ) * V =
          mean fun w : Fin nb → α => loopMean S.hor nA γ tr pick (fun x => x + (total + c0 + n * V)) k (bel w b) (S.hor.copy h) 1 0 := by
        simp only [loopMean_affine]
        rw [mean_affine, ← hV]
        push_cast
        ring
      rw [e]
      refine HasMean.mono (N := nb + (k * (1 + nt) + (n * (nb + k * (1 + nt)) + N'))) ?_ (by rw [Nat.add_mul]; omega)
      refine hasMean_draw (fun w z => thenNumber (rolloutLoop (simOf z) S.hor S.bound (bel w b) (S.hor.copy h) 1 0 (g + nb)) fun x g' =>
        thenNumber (rollouts { S with sim := simOf z } b h n (total + x) g') fun x g' => Φ x g' z) _ ?_ ?_
      · intro z
        rw [rollouts]
        rw [M.bind_of_ok (H.belief z g b hb)]
        obtain ⟨x, g', hx⟩ := rolloutLoop_ok H S.hor z k S.bound (bel (window nb g z) b) (S.hor.copy h) 1 0 (g + nb) hk (H.inside _ _ hb) he
        rw [M.bind_of_ok hx]
        rw [hx]
        rfl
      · intro w
        refine rolloutLoop_mean H S.hor _ _ ?_ k S.bound (bel w b) (S.hor.copy h) 1 0 (g + nb) hk (H.inside _ _ hb) he
        intro x g'
        have := ih (total + x) g'
        have e2 : total + x + c0 + n * V = x + (total + c0 + n * V) := by ring
        rw [e2] at this
        exact this

end

/-! ### Exact models -/

/-- The number that `choice` returns. -/
def chosen (n : Nat) (f : Nat → ℚ) {D : Nat} (x : Fin D) : Nat :=
  match Pomdp.choice n ((List.range n).map f) (equidistant x) with
  | .ok i => i
  | .error _ => 0

theorem equidistant_range {D : Nat} (x : Fin D) : 0 ≤ equidistant x ∧ equidistant x < 1 := by
  have hD : (0 : ℚ) < D := by
    have := x.2
    exact_mod_cast (by omega : 0 < D)
  unfold equidistant
  refine ⟨by positivity, ?_⟩
  rw [div_lt_one hD]
  exact_mod_cast x.2

theorem chosen_eq (n : Nat) (f : Nat → ℚ) (h0 : ∀ i < n, 0 ≤ f i) (h1 : sumRange n f = 1) {D : Nat} (x : Fin D) :
    Pomdp.choice n ((List.range n).map f) (equidistant x) = .ok (chosen n f x) ∧ chosen n f x < n := by
  obtain ⟨i, hi, hn, _⟩ := (choice_spec n f h0 h1).1 _ (equidistant_range x).1 (equidistant_range x).2
  have : chosen n f x = i := by unfold chosen; rw [hi]
  rw [this]
  exact ⟨hi, hn⟩

theorem sumRange_eq_sum (n : Nat) (f : Nat → ℚ) : sumRange n f = ∑ i ∈ Finset.range n, f i := by
  induction n with
  | zero => simp [sumRange]
  | succ n ih => rw [sumRange_succ, ih, Finset.sum_range_succ]

/-- The mean of a number that depends on what is chosen. -/
theorem mean_chosen (n : Nat) (f : Nat → ℚ) (h0 : ∀ i < n, 0 ≤ f i) (h1 : sumRange n f = 1) {D : Nat} (hD : 0 < D)
    (hm : ∀ i < n, Multiple D (f i)) (H : Nat → ℚ) : mean (fun x : Fin D => H (chosen n f x)) = sumRange n fun i => f i * H i := by
  have hDq : (D : ℚ) ≠ 0 := by exact_mod_cast (by omega : D ≠ 0)
  have e : ∀ x : Fin D, H (chosen n f x) =
      ∑ i ∈ Finset.range n, if Pomdp.choice n ((List.range n).map f) (equidistant x) = .ok i then H i else 0 := by
    intro x
    obtain ⟨k1, k2⟩ := chosen_eq n f h0 h1 x
    rw [k1]
    simp [k2]
  unfold mean
  simp only [e]
  rw [Finset.sum_comm, Fintype.card_fin]
  have e2 : ∀ i ∈ Finset.range n, (∑ x : Fin D, if Pomdp.choice n ((List.range n).map f) (equidistant x) = .ok i then H i else 0) = D * (f i * H i) := by
    intro i hi
    rw [← Finset.sum_filter, Finset.sum_const, nsmul_eq_mul, choice_count n f h0 h1 hm i (Finset.mem_range.1 hi)]
    ring
  rw [Finset.sum_congr rfl e2, ← Finset.mul_sum, mul_div_cancel_left₀ _ hDq]
  exact (sumRange_eq_sum n _).symm

/-- The mean of a number that depends on an action drawn evenly. -/
theorem mean_mod {D n : Nat} (hD : 0 < D) (hn : n ∣ D) (H : Nat → ℚ) : mean (fun x : Fin D => H ((x : Nat) % n)) = sumRange n H / n := by
  obtain ⟨k, rfl⟩ := hn
  have hn : 0 < n := Nat.pos_of_mul_pos_right hD
  have hk : 0 < k := Nat.pos_of_mul_pos_left hD
  have hnq : (n : ℚ) ≠ 0 := by exact_mod_cast (by omega : n ≠ 0)
  have hkq : (k : ℚ) ≠ 0 := by exact_mod_cast (by omega : k ≠ 0)
  have e : (∑ x : Fin (n * k), H ((x : Nat) % n)) = k * sumRange n H := by
    rw [← Finset.sum_range (fun i => H (i % n)), ← sumRange_eq_sum, Nat.mul_comm, sumRange_mul]
    have : ∀ h : Nat, sumRange n (fun j => H ((h * n + j) % n)) = sumRange n H := by
      intro h
      apply sumRange_congr
      intro j hj
      rw [Nat.mul_comm, Nat.mul_add_mod, Nat.mod_eq_of_lt hj]
    simp only [this]
    rw [sumRange_eq_sum, Finset.sum_const, Finset.card_range, nsmul_eq_mul]
  unfold mean
  rw [e, Fintype.card_fin]
  push_cast
  field_simp

/-- The transition of an exact model for two random numbers. -/
def exactMove (p : Pomdp) (nS nO : Nat) {D : Nat} (w : Fin 2 → Fin D) (a s : Nat) : Nat × Nat × ℚ :=
  let s' := chosen nS (p.T.at_ a s) (w 0)
  let o := chosen nO (p.O.at_ a s') (w 1)
  (s', o, p.R.at_ a s s' o)

/-- The state of an exact belief for a random number. -/
def exactState (nS : Nat) {D : Nat} (w : Fin 1 → Fin D) (b : List ℚ) : Nat := chosen nS (fun i => b.getD i 0) (w 0)

theorem rows_of {p : Pomdp} {nS nA nO : Nat} (hp : Stochastic p nS nA nO) {a s : Nat} (ha : a < nA) (hs : s < nS) :
    ((∀ i < nS, 0 ≤ p.T.at_ a s i) ∧ sumRange nS (p.T.at_ a s) = 1) ∧ ((∀ i < nO, 0 ≤ p.O.at_ a s i) ∧ sumRange nO (p.O.at_ a s) = 1) := by
  obtain ⟨⟨_, _, _, _, h0, h1, h2, h3, h4, h5, _⟩, hT, hO⟩ := hp
  have k1 := hT a (by omega) s (by omega)
  have k2 := hO a (by omega) s (by omega)
  rw [h2] at k1
  rw [h5] at k2
  exact ⟨k1, k2⟩

theorem dist_map (nS : Nat) (b : List ℚ) (hb : b.length = nS) : (List.range nS).map (fun i => b.getD i 0) = b := by
  apply List.ext_getElem
  · simp [hb]
  · intro i h1 h2
    simp [h2]

theorem exact_draws {p : Pomdp} {nS nA nO : Nat} (hp : Stochastic p nS nA nO) (hA : 0 < nA) (D : Nat) :
    DrawsFrom (fun z : Nat → Fin D => exactSim p (realsOf z) (intsOf z)) nA p.discount (· < nS) 2 1 (exactMove p nS nO) (fun x => (x : Nat))
      (exactState nS) (IsDist nS) where
  pos := hA
  discount _ := rfl
  actions _ := hp.1.2.1
  rand _ _ := rfl
  move z g a s ha hs := by
    have k := rows_of hp ha hs
    have c1 := chosen_eq nS (p.T.at_ a s) k.1.1 k.1.2 (z g)
    have k' := rows_of hp ha c1.2
    have c2 := chosen_eq nO (p.O.at_ a (chosen nS (p.T.at_ a s) (z g))) k'.2.1 k'.2.2 (z (g + 1))
    show (p.sampleTransition (equidistant (z g)) (equidistant (z (g + 1))) a s, g + 2) = _
    have : p.sampleTransition (equidistant (z g)) (equidistant (z (g + 1))) a s = .ok (exactMove p nS nO (window 2 g z) a s) := by
      rw [show exactMove p nS nO (window 2 g z) a s = (chosen nS (p.T.at_ a s) (z g), chosen nO (p.O.at_ a (chosen nS (p.T.at_ a s) (z g))) (z (g + 1)),
        p.R.at_ a s (chosen nS (p.T.at_ a s) (z g)) (chosen nO (p.O.at_ a (chosen nS (p.T.at_ a s) (z g))) (z (g + 1)))) from rfl]
      rw [sampleTransition_eq_iff hp ha hs _ _ c1.2]
      exact ⟨c1.1, c2.1, rfl⟩
    rw [this]
  stays w a s ha hs := (chosen_eq nS (p.T.at_ a s) (rows_of hp ha hs).1.1 (rows_of hp ha hs).1.2 (w 0)).2
  belief z g b hb := by
    have c1 := chosen_eq nS (fun i => b.getD i 0) hb.2.1 hb.2.2 (z g)
    rw [dist_map nS b hb.1] at c1
    show (Pomdp.choice b.length b (equidistant (z g)), g + 1) = _
    rw [hb.1, c1.1]
    rfl
  inside w b hb := (chosen_eq nS (fun i => b.getD i 0) hb.2.1 hb.2.2 (w 0)).2

theorem mean_one {α : Type} [Fintype α] (f : α → ℚ) : mean (fun w : Fin 1 → α => f (w 0)) = mean f :=
  (mean_equiv (Equiv.funUnique (Fin 1) α).symm _)

theorem mean_two {α : Type} [Fintype α] (f : α → α → ℚ) : mean (fun w : Fin 2 → α => f (w 0) (w 1)) = mean fun x => mean fun y => f x y := by
  rw [mean_equiv (finTwoArrowEquiv α).symm, mean_prod]
  rfl

theorem loopValue_exact {η : Type} {p : Pomdp} {nS nA nO : Nat} (hp : Stochastic p nS nA nO) (hA : 0 < nA) {D : Nat} (hD : 0 < D) (hn : nA ∣ D)
    (hT : ∀ a < nA, ∀ s < nS, ∀ s' < nS, Multiple D (p.T.at_ a s s')) (hO : ∀ a < nA, ∀ s' < nS, ∀ o < nO, Multiple D (p.O.at_ a s' o))
    (hor : HorizonOps η) : ∀ k h s, s < nS →
      loopValue hor nA p.discount (exactMove p nS nO) (fun x : Fin D => (x : Nat)) k h s = randomValue p nS nA nO hor k h s := by
  intro k
  induction k with
  | zero => intro h s _; rfl
  | succ k ih =>
      intro h s hs
      simp only [loopValue, randomValue]
      by_cases hr : hor.isReached h = true
      · rw [if_pos hr, if_pos hr]
      · rw [if_neg hr, if_neg hr]
        rw [mean_one (fun x : Fin D => mean fun w : Fin 2 → Fin D => (exactMove p nS nO w ((x : Nat) % nA) s).2.2 +
          p.discount * loopValue hor nA p.discount (exactMove p nS nO) (fun x : Fin D => (x : Nat)) k
          (hor.decrement ((x : Nat) % nA) s (exactMove p nS nO w ((x : Nat) % nA) s).1 (exactMove p nS nO w ((x : Nat) % nA) s).2.1 h)
          (exactMove p nS nO w ((x : Nat) % nA) s).1)]
        rw [mean_mod hD hn (fun a => mean fun w : Fin 2 → Fin D => (exactMove p nS nO w a s).2.2 +
          p.discount * loopValue hor nA p.discount (exactMove p nS nO) (fun x : Fin D => (x : Nat)) k
          (hor.decrement a s (exactMove p nS nO w a s).1 (exactMove p nS nO w a s).2.1 h) (exactMove p nS nO w a s).1)]
        congr 1
        apply sumRange_congr
        intro a ha
        have k1 := rows_of hp ha hs
        refine (mean_two fun x y => p.R.at_ a s (chosen nS (p.T.at_ a s) x) (chosen nO (p.O.at_ a (chosen nS (p.T.at_ a s) x)) y) + p.discount *
          loopValue hor nA p.discount (exactMove p nS nO) (fun x : Fin D => (x : Nat)) k (hor.decrement a s (chosen nS (p.T.at_ a s) x)
            (chosen nO (p.O.at_ a (chosen nS (p.T.at_ a s) x)) y) h) (chosen nS (p.T.at_ a s) x)).trans ?_
        rw [mean_chosen nS (p.T.at_ a s) k1.1.1 k1.1.2 hD (hT a ha s hs) (fun s' => mean fun y => p.R.at_ a s s' (chosen nO (p.O.at_ a s') y) + p.discount *
          loopValue hor nA p.discount (exactMove p nS nO) (fun x : Fin D => (x : Nat)) k (hor.decrement a s s' (chosen nO (p.O.at_ a s') y) h) s')]
        apply sumRange_congr
        intro s' hs'
        have k2 := rows_of hp ha hs'
        rw [mean_chosen nO (p.O.at_ a s') k2.2.1 k2.2.2 hD (hO a ha s' hs') (fun o => p.R.at_ a s s' o + p.discount *
          loopValue hor nA p.discount (exactMove p nS nO) (fun x : Fin D => (x : Nat)) k (hor.decrement a s s' o h) s'), ← sumRange_mul_left]
        apply sumRange_congr
        intro o _
        rw [ih _ _ hs']
        ring

/-! ### Generic statements -/

section
variable {α β η : Type} [Fintype α] [Nonempty α]
variable {simOf : (Nat → α) → Sim Nat β} {nA : Nat} {γ : ℚ} {Good : Nat → Prop} {nt nb : Nat}
  {tr : (Fin nt → α) → Nat → Nat → Nat × Nat × ℚ} {pick : α → Nat} {bel : (Fin nb → α) → β → Nat} {GoodB : β → Prop}

theorem rollout_unbiased (H : DrawsFrom simOf nA γ Good nt nb tr pick bel GoodB) (hor : HorizonOps η) (k bound s g : Nat) (h : η) (hk : k ≤ bound)
    (hs : Good s) (he : EndsIn hor k h) :
    HasMean (k * (1 + nt)) g (fun z => numberOf (rolloutLoop (simOf z) hor bound s h 1 0 g)) (loopValue hor nA γ tr pick k h s) := by
  have := rolloutLoop_mean H hor (N' := 0) (fun x _ _ => x) (fun x => x + 0) (fun x g => by rw [add_zero]; exact hasMean_const g x) k bound s h 1 0 g hk hs he
  rw [loopMean_affine] at this
  rw [show (0 : ℚ) + 0 + 1 * loopValue hor nA γ tr pick k h s = loopValue hor nA γ tr pick k h s by ring] at this
  refine this.congr fun z => ?_
  obtain ⟨x, g', e⟩ := rolloutLoop_ok H hor z k bound s h 1 0 g hk hs he
  rw [e]
  rfl

theorem node_ok (H : DrawsFrom simOf nA γ Good nt nb tr pick bel GoodB) (S : Search Nat β η) (z : Nat → α) (i : Nat) (h : η) (t : Tree β) (g k : Nat)
    (hb : GoodB (t.nodes i).belief) (hr : ¬ S.hor.isReached h = true) (hk : k ≤ S.bound) (he : EndsIn S.hor k (S.hor.copy h)) (hi : 0 < S.rolloutIt) :
    ∃ x g', rollouts { S with sim := simOf z } (t.nodes i).belief h S.rolloutIt 0 g = (.ok x, g') ∧
      rolloutFromNode { S with sim := simOf z } i h ⟨t, g⟩ =
        (.ok (x / S.rolloutIt), ⟨t.upd i fun nd => { nd with avg := nd.avg.update S.alpha (x / S.rolloutIt) }, g'⟩) := by
  obtain ⟨x, g', e⟩ := rollouts_ok H S z (t.nodes i).belief hb h k hk he S.rolloutIt 0 g
  refine ⟨x, g', e, ?_⟩
  unfold rolloutFromNode
  rw [if_neg hr]
  have e1 : M.read (fun st : SearchState Nat β => (st.tree.nodes i).belief) ⟨t, g⟩ = (.ok (t.nodes i).belief, ⟨t, g⟩) := rfl
  rw [M.bind_of_ok e1]
  have e2 : onRng (σ := Nat) (rollouts { S with sim := simOf z } (t.nodes i).belief h S.rolloutIt 0) ⟨t, g⟩ = (.ok x, (⟨t, g'⟩ : SearchState Nat β)) := by
    unfold onRng
    rw [e]
  rw [M.bind_of_ok e2]
  have e3 : (M.lift (if S.rolloutIt = 0 then .error .zeroDivisionError else .ok (x / S.rolloutIt)) : M (SearchState Nat β) ℚ) ⟨t, g'⟩ =
      (.ok (x / S.rolloutIt), ⟨t, g'⟩) := by
    rw [if_neg (by omega)]
    rfl
  rw [M.bind_of_ok e3]
  rfl

theorem node_unbiased (H : DrawsFrom simOf nA γ Good nt nb tr pick bel GoodB) (S : Search Nat β η) (i : Nat) (h : η) (t : Tree β) (g k : Nat)
    (hb : GoodB (t.nodes i).belief) (hr : ¬ S.hor.isReached h = true) (hk : k ≤ S.bound) (he : EndsIn S.hor k (S.hor.copy h)) (hi : 0 < S.rolloutIt) :
    HasMean (S.rolloutIt * (nb + k * (1 + nt))) g (fun z => numberOf (rolloutFromNode { S with sim := simOf z } i h ⟨t, g⟩))
      (mean fun w : Fin nb → α => loopValue S.hor nA γ tr pick k (S.hor.copy h) (bel w (t.nodes i).belief)) := by
  have := rollouts_mean H S (t.nodes i).belief hb h k hk he (N' := 0) (fun x _ _ => x) 0 (fun x g => by rw [add_zero]; exact hasMean_const g x) S.rolloutIt 0 g
  set V : ℚ := mean fun w : Fin nb → α => loopValue S.hor nA γ tr pick k (S.hor.copy h) (bel w (t.nodes i).belief) with hV
  have hq : (S.rolloutIt : ℚ) ≠ 0 := by exact_mod_cast (by omega : S.rolloutIt ≠ 0)
  intro n hn z
  have key := this n (by omega) z
  have e : ∀ ω : Fin n → α, numberOf (rolloutFromNode { S with sim := simOf (overlay g ω z) } i h ⟨t, g⟩) = 1 / S.rolloutIt *
      thenNumber (rollouts { S with sim := simOf (overlay g ω z) } (t.nodes i).belief h S.rolloutIt 0 g) fun x _ => x := by
    intro ω
    obtain ⟨x, g', e1, e2⟩ := node_ok H S (overlay g ω z) i h t g k hb hr hk he hi
    rw [e1, e2]
    simp only [numberOf, thenNumber]
    ring
  rw [mean_congr e, mean_mul, key]
  field_simp
  ring

end

/-! ### The supportive model -/

/-- The state of a particle belief for a random number. -/
def particleState (n : Nat) {Ω : Type} {A : Nat} (w : Fin 1 → Ω × Fin A) (b : List Nat) : Nat := b.getD (((w 0).2 : Nat) % n) 0

theorem sup_draws {t : Htm SupAction} {m : SupPomdp} (hm : Constructed t m) (discount : ℚ) (n : Nat) (hn : 0 < n) {D K N A : Nat}
    (d : Nat → Nat → SupPomdp.Draws) (c : Nat → Nat → Nat) :
    DrawsFrom (supSimOf (D := D) (K := K) (N := N) (A := A) m discount n d c) m.nActions discount (· < m.nStates) 1 1 (fun w => supMove m (w 0).1)
      (fun x => (x.2 : Nat)) (particleState n) (fun b => b.length = n ∧ ∀ s ∈ b, s < m.nStates) where
  pos := by unfold SupPomdp.nActions; omega
  discount _ := rfl
  actions _ := by
    show (m.actions.map _).length = _
    rw [List.length_map]
    exact (C27_names hm).1
  rand _ _ := rfl
  move z g a s ha hs := by
    obtain ⟨s', o, r, h1, _⟩ := C25_transition hm (drawsOf (z g).1) a s true hs ha
    show (m.sampleTransition (drawsOf (z g).1) a s, g + 1) = (.ok (supMove m (z g).1 a s), g + 1)
    unfold supMove
    rw [h1]
  stays w a s ha hs := by
    obtain ⟨s', o, r, h1, h2, _⟩ := C25_transition hm (drawsOf (w 0).1) a s true hs ha
    unfold supMove
    rw [h1]
    exact h2
  belief z g b hb := by
    show (particleSample b n (z g).2, g + 1) = _
    unfold particleSample
    rw [if_neg (by omega)]
    have : ((z g).2 : Nat) % n < b.length := by rw [hb.1]; exact Nat.mod_lt _ hn
    rw [List.getElem?_eq_getElem this]
    simp only [particleState, window, Fin.isValue, Fin.val_zero, Nat.add_zero]
    rw [List.getD_eq_getElem?_getD, List.getElem?_eq_getElem this]
    rfl
  inside w b hb := by
    have : ((w 0).2 : Nat) % n < b.length := by rw [hb.1]; exact Nat.mod_lt _ hn
    unfold particleState
    rw [List.getD_eq_getElem?_getD, List.getElem?_eq_getElem this]
    exact hb.2 _ (List.getElem_mem _)

theorem loopValue_sup {η : Type} (m : SupPomdp) (discount : ℚ) {D K N A : Nat} (hA : 0 < A) (hn : m.nActions ∣ A)
    [Nonempty (Numbers m D K N)] (hor : HorizonOps η) : ∀ k h s,
      loopValue hor m.nActions discount (fun w : Fin 1 → Numbers m D K N × Fin A => supMove m (w 0).1) (fun x => (x.2 : Nat)) k h s =
        supRandomValue m discount D K N hor k h s := by
  haveI : Nonempty (Fin A) := ⟨⟨0, hA⟩⟩
  intro k
  induction k with
  | zero => intro h s; rfl
  | succ k ih =>
      intro h s
      simp only [loopValue, supRandomValue]
      by_cases hr : hor.isReached h = true
      · rw [if_pos hr, if_pos hr]
      · rw [if_neg hr, if_neg hr]
        simp only [ih]
        rw [mean_one (fun x : Numbers m D K N × Fin A => mean fun w : Fin 1 → Numbers m D K N × Fin A =>
          (supMove m (w 0).1 ((x.2 : Nat) % m.nActions) s).2.2 + discount * supRandomValue m discount D K N hor k
          (hor.decrement ((x.2 : Nat) % m.nActions) s (supMove m (w 0).1 ((x.2 : Nat) % m.nActions) s).1
            (supMove m (w 0).1 ((x.2 : Nat) % m.nActions) s).2.1 h) (supMove m (w 0).1 ((x.2 : Nat) % m.nActions) s).1), mean_prod]
        refine (mean_congr fun _ => mean_mod hA hn (fun a => mean fun w : Fin 1 → Numbers m D K N × Fin A =>
          (supMove m (w 0).1 a s).2.2 + discount * supRandomValue m discount D K N hor k
          (hor.decrement a s (supMove m (w 0).1 a s).1
            (supMove m (w 0).1 a s).2.1 h) (supMove m (w 0).1 a s).1)).trans ?_
        rw [mean_const]
        congr 1
        apply sumRange_congr
        intro a _
        rw [mean_one (fun x : Numbers m D K N × Fin A => (supMove m x.1 a s).2.2 + discount * supRandomValue m discount D K N hor k
          (hor.decrement a s (supMove m x.1 a s).1 (supMove m x.1 a s).2.1 h) (supMove m x.1 a s).1), mean_prod]
        apply mean_congr
        intro x
        exact mean_const (Ω := Fin A) ((supMove m x a s).2.2 + discount * supRandomValue m discount D K N hor k
          (hor.decrement a s (supMove m x a s).1 (supMove m x a s).2.1 h) (supMove m x a s).1)

theorem sum_getD (b : List Nat) (f : Nat → ℚ) : sumRange b.length (fun i => f (b.getD i 0)) = (b.map f).sum := by
  rw [sumRange_eq_sum]
  induction b with
  | nil => rfl
  | cons x b ih =>
      rw [List.length_cons, Finset.sum_range_succ']
      simp only [List.getD_cons_succ, List.map_cons, List.sum_cons, List.getD_cons_zero]
      rw [ih]
      ring

end Verif
