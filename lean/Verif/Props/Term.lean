import Verif.Proof.Term

/-!
# C95: progress bars show how much is done, replace each other, and are cleared if the numbers are short

The terminal is `Spec.Screen`: printed characters replace what is on the line, `\r` goes to its begin.
-/

namespace Verif
open Spec

/-- What is drawn: as many `#` of `size` as are done of `todo`, rounded down; points for the rest; the percentage on three columns; then the numbers.
The bar is full, and the percentage 100, if and only if all is done. -/
theorem C95_bar (done todo size : Nat) (count : Bool) (ht : 0 < todo) (h : done ≤ todo) :
    ∃ k percent : Nat, ∃ numbers : List Char,
      progressBar done todo count size = .ok (['['] ++ List.replicate k '#' ++ List.replicate (size - k) '.' ++ [' '] ++
        List.replicate (3 - (showNat percent).length) ' ' ++ showNat percent ++ ['%', ']', ' '] ++ numbers) ∧
      k ≤ size ∧ percent ≤ 100 ∧
      (k : ℚ) ≤ size * (done / todo) ∧ (size : ℚ) * (done / todo) < k + 1 ∧
      (percent : ℚ) ≤ 100 * (done / todo) ∧ (100 : ℚ) * (done / todo) < percent + 1 ∧
      (done = todo ↔ percent = 100) ∧ (0 < size → (done = todo ↔ k = size)) ∧
      (count = false → numbers = []) ∧
      (count = true → ∃ a b, numbers = [' '] ++ a ++ ['/'] ++ b ∧ readCount a = some done ∧ readCount b = some todo ∧
        todo / 10 ≤ a.length ∧ todo / 10 ≤ b.length ∧ a.length ≤ b.length) := by
  have hq : (0 : ℚ) < todo := by exact_mod_cast ht
  have floor : ∀ s : Nat, ((s * done / todo : Nat) : ℚ) ≤ s * (done / todo) ∧ (s : ℚ) * (done / todo) < (s * done / todo : Nat) + 1 := by
    intro s
    rw [← mul_div_assoc, le_div_iff₀ hq, div_lt_iff₀ hq]
    constructor
    · exact_mod_cast Nat.div_mul_le_self (s * done) todo
    · have := Nat.lt_div_mul_add (a := s * done) ht
      have h2 : s * done < (s * done / todo + 1) * todo := by rw [Nat.add_mul, Nat.one_mul]; exact this
      exact_mod_cast h2
  have full : ∀ s : Nat, 0 < s → (done = todo ↔ s * done / todo = s) := by
    intro s hs
    constructor
    · intro e; rw [e]; exact Nat.mul_div_cancel _ ht
    · intro e
      by_contra hne
      have hlt : done < todo := by omega
      have : s * done / todo < s := by
        apply Nat.div_lt_of_lt_mul
        rw [Nat.mul_comm todo]
        exact Nat.mul_lt_mul_of_pos_left hlt hs
      omega
  refine ⟨size * done / todo, 100 * done / todo, countText done todo count, ?_, hashes_le size h ht, hashes_le 100 h ht, (floor size).1, (floor size).2,
    by exact_mod_cast (floor 100).1, by exact_mod_cast (floor 100).2, full 100 (by omega), full size, ?_, ?_⟩
  · rw [progressBar_ok done size count ht]
    simp [barText, padPoints, padLeft]
  · intro hc; simp [countText, hc]
  · intro hc
    refine ⟨padLeft (todo / 10) (commas done), padLeft (todo / 10) (commas todo), ?_, readCount_padLeft _ _, readCount_padLeft _ _, ?_, ?_, ?_⟩
    · simp [countText, hc]
    · rw [padLeft_length]; omega
    · rw [padLeft_length]; omega
    · rw [padLeft_length, padLeft_length]
      have := commas_mono h
      omega

/-- Nothing to do is an error, unless there are more done than to do; then nothing is printed. -/
theorem C95_nothing (done todo size : Nat) (count : Bool) (pre : List Char) :
    (∀ e, progressBar done todo count size = .error e ↔ e = .zeroDivisionError ∧ todo = 0) ∧
    (∀ e, printProgressBar done todo count size pre = .error e ↔ e = .zeroDivisionError ∧ todo = 0 ∧ done = 0) ∧
    (printProgressBar done todo count size pre = .ok [] ↔ todo < done) := by
  refine ⟨?_, ?_, ?_⟩
  · intro e
    by_cases ht : todo = 0
    · unfold progressBar
      rw [if_pos ht]
      simp [ht, eq_comm]
    · rw [progressBar_ok _ _ _ (by omega)]
      simp [ht]
  · intro e
    by_cases h : todo < done
    · unfold printProgressBar
      rw [if_pos h]
      simp
      omega
    · by_cases ht : todo = 0
      · unfold printProgressBar progressBar
        rw [if_neg h, if_pos ht]
        have : done = 0 := by omega
        simp [ht, this, bind, Except.bind, eq_comm]
      · rw [print_ok _ _ _ (by omega) (by omega)]
        simp [ht]
  · by_cases h : todo < done
    · unfold printProgressBar
      rw [if_pos h]
      simp [h]
    · by_cases ht : todo = 0
      · unfold printProgressBar progressBar
        rw [if_neg h, if_pos ht]
        simp [h, bind, Except.bind]
      · rw [print_ok _ _ _ (by omega) (by omega)]
        simp [h]

/-- After printing, the line shows the prefix and the bar, followed by what was there behind; the cursor is at the begin of this line, or of a new line if
all is done. -/
theorem C95_print (done todo size : Nat) (count : Bool) (pre : List Char) (above : List (List Char)) (line : List Char) (hp : Plain pre) (ht : 0 < todo)
    (h : done ≤ todo) :
    ∃ out bar, printProgressBar done todo count size pre = .ok out ∧ progressBar done todo count size = .ok bar ∧
      Screen.puts ⟨above, line, 0⟩ out = (let shown := pre ++ bar ++ line.drop (pre ++ bar).length
        if done = todo then ⟨above ++ [shown], [], 0⟩ else ⟨above, shown, 0⟩) := by
  refine ⟨_, _, print_ok count size pre h ht, progressBar_ok done size count ht, ?_⟩
  rw [puts_print _ _ _ _ hp]
  simp only [lineText, List.append_assoc]

/-- Bars that are printed one after the other, while more and more gets done, replace each other completely: only the last one is seen. -/
theorem C95_redraw (todo size : Nat) (count : Bool) (pre : List Char) (above : List (List Char)) (hp : Plain pre) (ht : 0 < todo)
    (progress : List Nat) (last : Nat) (hs : (progress ++ [last]).Pairwise (· ≤ ·)) (hl : last ≤ todo) (hb : ∀ d ∈ progress, d < todo) :
    ∃ outs bar, (progress ++ [last]).mapM (fun d => printProgressBar d todo count size pre) = .ok outs ∧ progressBar last todo count size = .ok bar ∧
      Screen.puts ⟨above, [], 0⟩ outs.flatten = (if last = todo then ⟨above ++ [pre ++ bar], [], 0⟩ else ⟨above, pre ++ bar, 0⟩) := by
  obtain ⟨outs, h1, h2⟩ := puts_redraw todo count size hp ht above last hl progress [] hs hb (by simp)
  exact ⟨outs, _, h1, progressBar_ok last size count ht, by rw [h2]; rfl⟩

/-- A bar is cleared by `clear_progress_bar` if it has no numbers or less than 50 are to do; otherwise something is left. -/
theorem C95_clear_partial (done todo size : Nat) (count : Bool) (pre : List Char) (above : List (List Char)) (hp : Plain pre) (h : done < todo) :
    ∃ out, printProgressBar done todo count size pre = .ok out ∧
      ∃ line, Screen.puts ⟨above, [], 0⟩ (out ++ clearProgressBar count size pre) = ⟨above, line, 0⟩ ∧
        (Unseen line ↔ count = false ∨ todo < 50) := by
  refine ⟨_, print_ok count size pre (le_of_lt h) (by omega), List.replicate (7 + size + 12 * (if count then 1 else 0) + pre.length) ' ' ++
    (lineText done todo count size pre ++ List.drop (lineText done todo count size pre).length []).drop
      (7 + size + 12 * (if count then 1 else 0) + pre.length), ?_, ?_⟩
  · rw [puts_append, puts_print _ _ _ _ hp, if_neg (by omega), puts_clear]
  · rw [unseen_iff, List.drop_nil, List.append_nil, unseen_line count size pre (le_of_lt h) (by omega)]

/-- Progress bars are not always cleared. -/
theorem C95_false_clear : ∃ out, printProgressBar 1 50 true 50 [] = .ok out ∧
    ¬ Unseen (Screen.puts ⟨[], [], 0⟩ (out ++ clearProgressBar true 50 [])).line := by
  obtain ⟨out, h1, line, h2, h3⟩ := C95_clear_partial 1 50 50 true [] [] (by intro c hc; simp at hc) (by omega)
  refine ⟨out, h1, ?_⟩
  rw [h2]
  intro hu
  simpa using h3.1 hu

/-- A bar of 4 columns for 1 of 2, with a prefix. -/
example : printProgressBar 1 2 true 4 ['a', ' '] = .ok ("a [##..  50%]  1/2\r".toList) := by decide +kernel

/-- The hypotheses of `C95_redraw` hold for some progress. -/
example : ([0, 1, 1] ++ [3]).Pairwise (· ≤ ·) ∧ (3 : Nat) ≤ 3 ∧ (∀ d ∈ [0, 1, 1], d < 3) := by decide

end Verif
