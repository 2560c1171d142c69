import Verif.Spec.SupKernel
import Mathlib.Data.Fintype.BigOperators
import Mathlib.Data.Fintype.Pi
import Mathlib.Algebra.Order.BigOperators.Group.Finset
import Mathlib.Algebra.BigOperators.Field
import Mathlib.Tactic.FieldSimp
import Mathlib.Tactic.Linarith
import Mathlib.Tactic.Ring

/-! Probabilities in finite sets. -/

set_option linter.unusedSectionVars false
set_option linter.unusedSimpArgs false

namespace Verif
open Spec

theorem chance_eq {Ω : Type} [Fintype Ω] (P : Ω → Prop) [DecidablePred P] : chance P = ((Finset.univ.filter P).card : ℚ) / Fintype.card Ω := by
  unfold chance
  rw [Nat.card_eq_fintype_card, Nat.card_eq_fintype_card, Fintype.card_subtype]

theorem chance_congr {Ω : Type} {P Q : Ω → Prop} (h : ∀ ω, P ω ↔ Q ω) : chance P = chance Q := by
  have : P = Q := funext fun ω => propext (h ω)
  rw [this]

theorem chance_false {Ω : Type} {P : Ω → Prop} (h : ∀ ω, ¬ P ω) : chance P = 0 := by
  unfold chance
  haveI : IsEmpty {ω // P ω} := ⟨fun x => h x.1 x.2⟩
  simp

theorem chance_true {Ω : Type} [Fintype Ω] [Nonempty Ω] {P : Ω → Prop} (h : ∀ ω, P ω) : chance P = 1 := by
  classical
  rw [chance_eq]
  have : Finset.univ.filter P = Finset.univ := Finset.filter_true_of_mem fun ω _ => h ω
  rw [this, Finset.card_univ]
  have : (Fintype.card Ω : ℚ) ≠ 0 := by exact_mod_cast Fintype.card_ne_zero
  field_simp

theorem chance_const {Ω : Type} [Fintype Ω] [Nonempty Ω] (p : Prop) [Decidable p] : chance (fun _ : Ω => p) = one p := by
  unfold one
  split
  · next h => exact chance_true fun _ => h
  · next h => exact chance_false fun _ => h

theorem chance_and {A B : Type} [Fintype A] [Fintype B] (P : A → Prop) (Q : B → Prop) :
    chance (fun ω : A × B => P ω.1 ∧ Q ω.2) = chance P * chance Q := by
  classical
  rw [chance_eq, chance_eq, chance_eq]
  have : (Finset.univ.filter fun ω : A × B => P ω.1 ∧ Q ω.2) = (Finset.univ.filter P) ×ˢ (Finset.univ.filter Q) := by
    ext ω
    simp
  rw [this, Finset.card_product, Fintype.card_prod]
  push_cast
  rw [mul_div_mul_comm]

theorem chance_fst {A B : Type} [Fintype A] [Fintype B] [Nonempty B] (P : A → Prop) : chance (fun ω : A × B => P ω.1) = chance P := by
  have := chance_and (A := A) (B := B) P (fun _ => True)
  rw [chance_true (fun _ => trivial), mul_one] at this
  rw [← this]
  exact chance_congr fun ω => by simp

theorem chance_snd {A B : Type} [Fintype A] [Fintype B] [Nonempty A] (P : B → Prop) : chance (fun ω : A × B => P ω.2) = chance P := by
  have := chance_and (A := A) (B := B) (fun _ => True) P
  rw [chance_true (fun _ => trivial), one_mul] at this
  rw [← this]
  exact chance_congr fun ω => by simp

theorem chance_or {Ω : Type} [Fintype Ω] (P Q : Ω → Prop) (h : ∀ ω, P ω → ¬ Q ω) : chance (fun ω => P ω ∨ Q ω) = chance P + chance Q := by
  classical
  rw [chance_eq, chance_eq, chance_eq, ← add_div]
  congr 1
  have : (Finset.univ.filter fun ω : Ω => P ω ∨ Q ω) = (Finset.univ.filter P) ∪ (Finset.univ.filter Q) := by
    ext ω
    simp
  rw [this, Finset.card_union_of_disjoint]
  · push_cast; rfl
  · rw [Finset.disjoint_filter]
    intro ω _ h1
    exact h ω h1

theorem chance_not {Ω : Type} [Fintype Ω] [Nonempty Ω] (P : Ω → Prop) : chance (fun ω => ¬ P ω) = 1 - chance P := by
  have h := chance_or P (fun ω => ¬ P ω) (fun ω h => by simpa using h)
  rw [chance_true (fun ω => by by_cases hp : P ω <;> simp [hp])] at h
  linarith

/-- Total probability. -/
theorem chance_total {A B : Type} [Fintype A] [Fintype B] (f : A → Nat) (n : Nat) (hf : ∀ a, f a < n) (P : Nat → B → Prop) :
    chance (fun ω : A × B => P (f ω.1) ω.2) = ∑ x ∈ Finset.range n, chance (fun a => f a = x) * chance (P x) := by
  classical
  have e : ∀ x, chance (fun a => f a = x) * chance (P x) = chance fun ω : A × B => f ω.1 = x ∧ P x ω.2 := fun x => (chance_and _ _).symm
  simp only [e]
  simp only [chance_eq]
  rw [← Finset.sum_div]
  congr 1
  rw [← Nat.cast_sum]
  congr 1
  rw [← Finset.card_biUnion]
  · congr 1
    ext ω
    simp only [Finset.mem_filter, Finset.mem_univ, true_and, Finset.mem_biUnion, Finset.mem_range]
    constructor
    · intro h
      exact ⟨f ω.1, hf _, rfl, h⟩
    · rintro ⟨x, _, rfl, h⟩
      exact h
  · intro x _ y _ hxy
    rw [Function.onFun, Finset.disjoint_filter]
    rintro ω _ ⟨rfl, _⟩ ⟨h, _⟩
    exact hxy h

theorem chance_pi {D : Nat} : ∀ {n : Nat} (Q : Fin n → Fin D → Prop), chance (fun u : Fin n → Fin D => ∀ i, Q i (u i)) = ∏ i, chance (Q i) := by
  classical
  intro n Q
  have : (Finset.univ.filter fun u : Fin n → Fin D => ∀ i, Q i (u i)) = Fintype.piFinset fun i => Finset.univ.filter (Q i) := by
    ext u
    simp [Fintype.mem_piFinset]
  rw [chance_eq, this, Fintype.card_piFinset, Fintype.card_fun]
  simp only [chance_eq]
  rw [Finset.prod_div_distrib]
  simp

theorem chance_lt {D : Nat} (hD : 0 < D) {p : ℚ} (hp : Multiple D p) (h1 : p ≤ 1) : chance (fun i : Fin D => equidistant i < p) = p := by
  classical
  obtain ⟨k, hk⟩ := hp
  have hDq : (0 : ℚ) < D := by exact_mod_cast hD
  have hkD : k ≤ D := by
    have : (k : ℚ) ≤ D := by rw [← hk]; nlinarith
    exact_mod_cast this
  rw [chance_eq]
  have e : (Finset.univ.filter fun i : Fin D => equidistant i < p) = Finset.univ.filter fun i : Fin D => (i : Nat) < k := by
    apply Finset.filter_congr
    intro i _
    unfold equidistant
    have : p = k / D := by rw [← hk]; field_simp
    rw [this, div_lt_div_iff_of_pos_right hDq]
    norm_cast
  have hc : (Finset.univ.filter fun i : Fin D => (i : Nat) < k).card = k := by
    have : (Finset.univ.filter fun i : Fin D => (i : Nat) < k).card = (Finset.range k).card := by
      refine Finset.card_bij (fun i _ => (i : Nat)) ?_ ?_ ?_
      · intro i hi; simpa using hi
      · intro i _ j _ h; exact Fin.ext h
      · intro b hb
        simp only [Finset.mem_range] at hb
        exact ⟨⟨b, by omega⟩, by simp [hb], rfl⟩
    rw [this, Finset.card_range]
  rw [e, hc, ← hk, Fintype.card_fin]
  field_simp

theorem chance_nlt {D : Nat} (hD : 0 < D) {p : ℚ} (hp : Multiple D p) (h1 : p ≤ 1) : chance (fun i : Fin D => ¬ equidistant i < p) = 1 - p := by
  haveI : Nonempty (Fin D) := ⟨⟨0, hD⟩⟩
  rw [chance_not, chance_lt hD hp h1]

theorem multiple_percent {D : Nat} (h : 100 ∣ D) (k : Nat) : Multiple D ((k : ℚ) / 100) := by
  obtain ⟨j, rfl⟩ := h
  exact ⟨j * k, by push_cast; ring⟩

/-- A number modulo the length of a list chooses evenly. -/
theorem card_mod_eq (n j : Nat) (hn : 0 < n) (q : Nat → Prop) [DecidablePred q] :
    ((List.range (n * j)).countP fun c => q (c % n)) = j * (List.range n).countP fun c => q c := by
  induction j with
  | zero => simp
  | succ j ih =>
      rw [Nat.mul_succ, List.range_add, List.countP_append, ih, List.countP_map, Nat.succ_mul]
      congr 1
      apply List.countP_congr
      intro c hc
      rw [List.mem_range] at hc
      simp [Nat.mod_eq_of_lt hc]

theorem countP_range_getElem (l : List Nat) (h : Nat) : ((List.range l.length).countP fun c => l[c]? = some h) = l.count h := by
  induction l with
  | nil => simp
  | cons x l ih =>
      rw [List.length_cons, List.range_succ_eq_map, List.countP_cons, List.countP_map, List.count_cons]
      have e : (fun c => decide ((x :: l)[c]? = some h)) ∘ Nat.succ = fun c => decide (l[c]? = some h) := by
        funext c
        simp
      rw [e, ih]
      simp

theorem card_fin_filter (K : Nat) (q : Nat → Prop) [DecidablePred q] :
    (Finset.univ.filter fun c : Fin K => q c).card = (List.range K).countP fun c => q c := by
  have h1 : (Finset.univ.filter fun c : Fin K => q c).card = ((Finset.range K).filter q).card := by
    refine Finset.card_bij (fun i _ => (i : Nat)) ?_ ?_ ?_
    · intro i hi; simpa using hi
    · intro i _ j _ h; exact Fin.ext h
    · intro b hb
      simp only [Finset.mem_filter, Finset.mem_range] at hb
      exact ⟨⟨b, hb.1⟩, by simp [hb], rfl⟩
  rw [h1, List.countP_eq_length_filter]
  rfl

theorem chance_choose (l : List Nat) (hl : l ≠ []) {K : Nat} (hK : 0 < K) (hd : l.length ∣ K) (h : Nat) :
    chance (fun c : Fin K => SupPomdp.choose l c = .ok h) = (l.count h : ℚ) / l.length := by
  classical
  have hpos : 0 < l.length := List.length_pos_iff.2 hl
  have e : ∀ c : Nat, SupPomdp.choose l c = .ok h ↔ l[c % l.length]? = some h := by
    intro c
    have := Nat.mod_lt c hpos
    simp [SupPomdp.choose, this]
  rw [chance_congr fun c : Fin K => e c, chance_eq]
  have h2 := card_fin_filter K fun c => l[c % l.length]? = some h
  obtain ⟨j, hj⟩ := hd
  have h3 := card_mod_eq l.length j hpos fun c => l[c]? = some h
  rw [countP_range_getElem, ← hj] at h3
  rw [h3] at h2
  have h4 : (Finset.univ.filter fun c : Fin K => l[(c : Nat) % l.length]? = some h).card = j * l.count h := by
    rw [← h2]
  rw [Fintype.card_fin]
  have h5 : ((Finset.univ.filter fun c : Fin K => l[(c : Nat) % l.length]? = some h).card : ℚ) = (j : ℚ) * l.count h := by
    exact_mod_cast h4
  have hj0 : (j : ℚ) ≠ 0 := by
    have : j ≠ 0 := by rintro rfl; omega
    exact_mod_cast this
  have hl0 : (l.length : ℚ) ≠ 0 := by exact_mod_cast (by omega : l.length ≠ 0)
  have hKq : (K : ℚ) = l.length * j := by exact_mod_cast hj
  rw [hKq]
  rw [div_eq_div_iff (by positivity) hl0]
  calc _ = ((Finset.univ.filter fun c : Fin K => l[(c : Nat) % l.length]? = some h).card : ℚ) * l.length := by
        congr!
    _ = _ := by rw [h5]; ring

end Verif
