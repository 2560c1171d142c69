import Verif.Num
import Mathlib.Tactic.Ring
import Mathlib.Tactic.Linarith
import Mathlib.Algebra.BigOperators.Group.List.Basic

/-! Lemmas on finite sums. -/

set_option linter.unusedSectionVars false
set_option linter.unusedSimpArgs false

namespace Verif

theorem sumRange_succ (n : Nat) (f : Nat → ℚ) : sumRange (n + 1) f = sumRange n f + f n := by
  simp [sumRange, List.range_succ]

theorem sumRange_congr (n : Nat) (f g : Nat → ℚ) (h : ∀ i < n, f i = g i) : sumRange n f = sumRange n g := by
  unfold sumRange
  congr 1
  apply List.map_congr_left
  intro i hi
  exact h i (by simpa using hi)

theorem sumRange_zero (n : Nat) : sumRange n (fun _ => 0) = 0 := by
  induction n with
  | zero => rfl
  | succ n ih => rw [sumRange_succ, ih]; simp

theorem sumRange_append (m n : Nat) (f : Nat → ℚ) : sumRange (m + n) f = sumRange m f + sumRange n (fun k => f (m + k)) := by
  induction n with
  | zero => simp [sumRange]
  | succ n ih => rw [← Nat.add_assoc, sumRange_succ, ih, sumRange_succ, add_assoc]

theorem sumRange_mul (a n : Nat) (f : Nat → ℚ) :
    sumRange (a * n) f = sumRange a (fun h => sumRange n (fun k => f (h * n + k))) := by
  induction a with
  | zero => simp [sumRange]
  | succ a ih => rw [Nat.succ_mul, sumRange_append, ih, sumRange_succ]

theorem sumRange_add (n : Nat) (f g : Nat → ℚ) : sumRange n (fun i => f i + g i) = sumRange n f + sumRange n g := by
  induction n with
  | zero => simp [sumRange]
  | succ n ih => simp only [sumRange_succ, ih]; ring

theorem sumRange_ite (n h : Nat) (c : ℚ) (hh : h < n) : sumRange n (fun i => if i = h then c else 0) = c := by
  induction n with
  | zero => omega
  | succ n ih =>
    rw [sumRange_succ]
    by_cases hn : n = h
    · subst hn
      rw [sumRange_congr n _ (fun _ => 0) (fun i hi => by rw [if_neg (by omega)]), sumRange_zero]
      simp
    · rw [ih (by omega), if_neg hn, add_zero]

theorem sumRange_nonneg (n : Nat) (f : Nat → ℚ) (h : ∀ i < n, 0 ≤ f i) : 0 ≤ sumRange n f := by
  induction n with
  | zero => simp [sumRange]
  | succ n ih =>
    rw [sumRange_succ]
    have := ih (fun i hi => h i (by omega))
    have := h n (by omega)
    linarith

theorem sumRange_comm (m n : Nat) (f : Nat → Nat → ℚ) :
    sumRange m (fun i => sumRange n (fun j => f i j)) = sumRange n (fun j => sumRange m (fun i => f i j)) := by
  induction m with
  | zero => exact (sumRange_zero n).symm
  | succ m ih => rw [sumRange_succ, ih, ← sumRange_add]; simp only [sumRange_succ]

theorem sum_eq_sumRange (l : List ℚ) : l.sum = sumRange l.length (fun i => l.getD i 0) := by
  unfold sumRange
  congr 1
  apply List.ext_getElem
  · simp
  · intro i h1 h2
    simp [List.getD_eq_getElem?_getD, h1]

end Verif
