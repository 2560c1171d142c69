import Verif.Model.Text
import Mathlib.Tactic.Ring
import Mathlib.Tactic.Linarith
import Mathlib.Tactic.IntervalCases

/-! Lemmas on text. -/

set_option linter.unusedSectionVars false
set_option linter.unusedSimpArgs false

namespace Verif

/-- A decimal digit. -/
def IsDigit (c : Char) : Prop := 48 ≤ c.toNat ∧ c.toNat ≤ 57

theorem isDigit_cases (c : Char) (h : IsDigit c) :
    c = '0' ∨ c = '1' ∨ c = '2' ∨ c = '3' ∨ c = '4' ∨ c = '5' ∨ c = '6' ∨ c = '7' ∨ c = '8' ∨ c = '9' := by
  obtain ⟨h1, h2⟩ := h
  have key : c = Char.ofNat c.toNat := (Char.ofNat_toNat c).symm
  generalize c.toNat = n at *
  subst key
  interval_cases n <;> decide

theorem isDigit_not_space (c : Char) (h : IsDigit c) : isSpace c = false := by
  rcases isDigit_cases c h with rfl | rfl | rfl | rfl | rfl | rfl | rfl | rfl | rfl | rfl <;> decide

theorem isDigit_ne (c : Char) (h : IsDigit c) : c ≠ '-' ∧ c ≠ '+' ∧ c ≠ ':' ∧ c ≠ ' ' ∧ c ≠ '\n' := by
  rcases isDigit_cases c h with rfl | rfl | rfl | rfl | rfl | rfl | rfl | rfl | rfl | rfl <;> decide

theorem digitVal_some (c : Char) (h : IsDigit c) : digitVal c = some (c.toNat - 48) := by
  unfold digitVal IsDigit at *
  rw [if_pos h]

theorem digitVal_ofNat (d : Nat) (h : d < 10) : digitVal (Char.ofNat (48 + d)) = some d := by
  interval_cases d <;> decide

theorem isDigit_ofNat (d : Nat) (h : d < 10) : IsDigit (Char.ofNat (48 + d)) := by
  unfold IsDigit
  interval_cases d <;> decide

theorem digitsVal_append (l : List Char) (c : Char) : ∀ (acc : Nat), digitsVal (l ++ [c]) acc =
    (digitsVal l acc).bind fun v => (digitVal c).map fun d => v * 10 + d := by
  induction l with
  | nil =>
    intro acc
    simp only [List.nil_append, digitsVal, Option.bind_some]
    cases digitVal c <;> rfl
  | cons x l ih =>
    intro acc
    simp only [List.cons_append, digitsVal]
    cases digitVal x with
    | none => rfl
    | some d => exact ih _

theorem showAux_spec : ∀ (fuel n : Nat), n < fuel →
    showAux fuel n ≠ [] ∧ (∀ c ∈ showAux fuel n, IsDigit c) ∧ digitsVal (showAux fuel n) 0 = some n := by
  intro fuel
  induction fuel with
  | zero => intro n h; omega
  | succ fuel ih =>
    intro n h
    simp only [showAux]
    split
    · rename_i hn
      refine ⟨by simp, ?_, ?_⟩
      · intro c hc
        simp only [List.mem_singleton] at hc
        subst hc
        exact isDigit_ofNat n hn
      · simp [digitsVal, digitVal_ofNat n hn]
    · rename_i hn
      obtain ⟨h1, h2, h3⟩ := ih (n / 10) (by omega)
      refine ⟨by simp, ?_, ?_⟩
      · intro c hc
        rw [List.mem_append] at hc
        rcases hc with hc | hc
        · exact h2 c hc
        · simp only [List.mem_singleton] at hc
          subst hc
          exact isDigit_ofNat _ (by omega)
      · rw [digitsVal_append, h3, digitVal_ofNat _ (by omega)]
        simp only [Option.bind_some, Option.map_some, Option.some.injEq]
        omega

theorem showNat_spec (n : Nat) : showNat n ≠ [] ∧ (∀ c ∈ showNat n, IsDigit c) ∧ parseNat (showNat n) = some n := by
  obtain ⟨h1, h2, h3⟩ := showAux_spec (n + 1) n (by omega)
  exact ⟨h1, h2, by unfold parseNat showNat; rw [if_neg h1]; exact h3⟩

/-! ### Stripping -/

theorem rstripBy_append (p : Char → Bool) (s w : List Char) (hw : ∀ c ∈ w, p c = true) :
    rstripBy p (s ++ w) = rstripBy p s := by
  unfold rstripBy
  rw [List.reverse_append]
  congr 1
  have hw' : ∀ c ∈ w.reverse, p c = true := fun c hc => hw c (List.mem_reverse.1 hc)
  generalize w.reverse = v at hw'
  induction v with
  | nil => rfl
  | cons c v ih =>
    rw [List.cons_append, List.dropWhile_cons, if_pos (hw' c (by simp))]
    exact ih (fun x hx => hw' x (by simp [hx]))

theorem rstripBy_self (p : Char → Bool) (s : List Char) (h : ∀ c, s.getLast? = some c → p c = false) : rstripBy p s = s := by
  unfold rstripBy
  cases hr : s.reverse with
  | nil => simpa using hr.symm
  | cons c v =>
    have hl : s.getLast? = some c := by rw [← List.head?_reverse, hr]; rfl
    rw [List.dropWhile_cons, if_neg (by rw [h c hl]; simp), ← hr, List.reverse_reverse]

theorem dropWhile_self (p : Char → Bool) (s : List Char) (h : ∀ c, s.head? = some c → p c = false) : s.dropWhile p = s := by
  cases s with
  | nil => rfl
  | cons c v => rw [List.dropWhile_cons, if_neg (by rw [h c rfl]; simp)]

theorem dropWhile_append_all (p : Char → Bool) (w s : List Char) (hw : ∀ c ∈ w, p c = true) :
    (w ++ s).dropWhile p = s.dropWhile p := by
  induction w with
  | nil => rfl
  | cons c w ih =>
    rw [List.cons_append, List.dropWhile_cons, if_pos (hw c (by simp))]
    exact ih (fun x hx => hw x (by simp [hx]))

/-- Stripping removes the surrounding white space of a text that neither starts nor ends with some. -/
theorem strip_pad (w1 s w2 : List Char) (h1 : ∀ c ∈ w1, isSpace c = true) (h2 : ∀ c ∈ w2, isSpace c = true)
    (hh : ∀ c, s.head? = some c → isSpace c = false) (hl : ∀ c, s.getLast? = some c → isSpace c = false) (hs : s ≠ []) :
    strip (w1 ++ s ++ w2) = s := by
  unfold strip
  rw [List.append_assoc, dropWhile_append_all _ _ _ h1]
  have : (s ++ w2).dropWhile isSpace = s ++ w2 := by
    apply dropWhile_self
    intro c hc
    cases s with
    | nil => exact absurd rfl hs
    | cons x s => exact hh c hc
  rw [this, rstripBy_append _ _ _ h2, rstripBy_self _ _ hl]

theorem digits_ends (s : List Char) (hd : ∀ c ∈ s, IsDigit c) :
    (∀ c, s.head? = some c → isSpace c = false) ∧ (∀ c, s.getLast? = some c → isSpace c = false) :=
  ⟨fun c hc => isDigit_not_space c (hd c (List.mem_of_mem_head? hc)),
    fun c hc => isDigit_not_space c (hd c (List.mem_of_mem_getLast? hc))⟩

theorem pyInt_digits (w1 s w2 : List Char) (h1 : ∀ c ∈ w1, isSpace c = true) (h2 : ∀ c ∈ w2, isSpace c = true)
    (hd : ∀ c ∈ s, IsDigit c) (hs : s ≠ []) (n : Nat) (hn : parseNat s = some n) : pyInt (w1 ++ s ++ w2) = .ok (n : Int) := by
  unfold pyInt
  rw [strip_pad w1 s w2 h1 h2 (digits_ends s hd).1 (digits_ends s hd).2 hs]
  cases s with
  | nil => exact absurd rfl hs
  | cons c cs =>
    obtain ⟨k1, k2, _⟩ := isDigit_ne c (hd c (by simp))
    simp only [if_neg k1, if_neg k2, hn, natOrError, one_mul]

/-- `int` reads back what `str` wrote, with white space around. -/
theorem pyInt_showInt (w1 w2 : List Char) (n : Int) (h1 : ∀ c ∈ w1, isSpace c = true) (h2 : ∀ c ∈ w2, isSpace c = true) :
    pyInt (w1 ++ showInt n ++ w2) = .ok n := by
  cases n with
  | ofNat n =>
    obtain ⟨k1, k2, k3⟩ := showNat_spec n
    exact pyInt_digits w1 (showNat n) w2 h1 h2 k2 k1 n k3
  | negSucc n =>
    obtain ⟨k1, k2, k3⟩ := showNat_spec (n + 1)
    unfold pyInt
    have hne : showInt (.negSucc n) ≠ [] := by simp [showInt]
    rw [strip_pad w1 (showInt (.negSucc n)) w2 h1 h2 _ _ hne]
    · simp only [showInt, if_true, k3, natOrError, Except.ok.injEq]
      rw [Int.negSucc_eq]
      push_cast
      ring
    · intro c hc
      simp only [showInt, List.head?_cons, Option.some.injEq] at hc
      subst hc
      decide
    · intro c hc
      simp only [showInt] at hc
      rw [List.getLast?_cons_of_ne_nil k1] at hc
      exact isDigit_not_space c (k2 c (List.mem_of_mem_getLast? hc))

/-- Characters of a written number. -/
theorem showInt_chars (n : Int) : showInt n ≠ [] ∧ (∀ c ∈ showInt n, isSpace c = false ∧ c ≠ ' ') ∧ showInt n ≠ ['-'] := by
  cases n with
  | ofNat n =>
    obtain ⟨k1, k2, k3⟩ := showNat_spec n
    refine ⟨k1, fun c hc => ⟨isDigit_not_space c (k2 c hc), (isDigit_ne c (k2 c hc)).2.2.2.1⟩, ?_⟩
    intro h
    have : showNat n = ['-'] := h
    exact (isDigit_ne '-' (k2 '-' (by rw [this]; simp))).1 rfl
  | negSucc n =>
    obtain ⟨k1, k2, k3⟩ := showNat_spec (n + 1)
    refine ⟨by simp [showInt], fun c hc => ?_, ?_⟩
    · simp only [showInt, List.mem_cons] at hc
      rcases hc with rfl | hc
      · decide
      · exact ⟨isDigit_not_space c (k2 c hc), (isDigit_ne c (k2 c hc)).2.2.2.1⟩
    · intro h
      simp only [showInt, List.cons.injEq, true_and] at h
      exact k1 h

/-! ### Splitting -/

theorem splitOn_ne_nil (sep : Char) (s : List Char) : splitOn sep s ≠ [] := by
  cases s with
  | nil => simp [splitOn]
  | cons c s =>
    simp only [splitOn]
    split
    · simp
    · split <;> simp

theorem splitOn_word (sep : Char) (w : List Char) (hw : ∀ c ∈ w, c ≠ sep) : splitOn sep w = [w] := by
  induction w with
  | nil => rfl
  | cons c w ih =>
    simp only [splitOn]
    rw [if_neg (hw c (by simp)), ih (fun x hx => hw x (by simp [hx]))]

theorem splitOn_append (sep : Char) (w s : List Char) (hw : ∀ c ∈ w, c ≠ sep) :
    splitOn sep (w ++ sep :: s) = w :: splitOn sep s := by
  induction w with
  | nil => simp [splitOn]
  | cons c w ih =>
    simp only [List.cons_append, splitOn]
    rw [if_neg (hw c (by simp)), ih (fun x hx => hw x (by simp [hx]))]

end Verif
