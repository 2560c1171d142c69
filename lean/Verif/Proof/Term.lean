import Verif.Spec.Term
import Verif.Proof.Trajectory
import Mathlib.Data.Nat.Log

/-! Proofs about progress bars (C95). -/

set_option linter.unusedSectionVars false
set_option linter.unusedSimpArgs false

namespace Verif
open Spec

/-! ### Numbers -/

theorem showAux_log : ∀ (fuel n : Nat), n < fuel → (showAux fuel n).length = Nat.log 10 n + 1 := by
  intro fuel
  induction fuel with
  | zero => intro n h; omega
  | succ fuel ih =>
      intro n h
      unfold showAux
      by_cases hn : n < 10
      · rw [if_pos hn, Nat.log_of_lt hn]
        rfl
      · rw [if_neg hn, List.length_append, ih (n / 10) (by omega), Nat.log_of_one_lt_of_le (n := n) (by omega) (by omega)]
        rfl

theorem showNat_log (n : Nat) : (showNat n).length = Nat.log 10 n + 1 := showAux_log (n + 1) n (by omega)

theorem groupDigits_length : ∀ l : List Char, (groupDigits l).length = l.length + (l.length - 1) / 3
  | [] => by simp [groupDigits]
  | [_] => by simp [groupDigits]
  | [_, _] => by simp [groupDigits]
  | [_, _, _] => by simp [groupDigits]
  | a :: b :: c :: d :: l => by
      have := groupDigits_length (d :: l)
      simp only [groupDigits, List.length_cons] at *
      rw [this]
      omega

theorem groupDigits_filter : ∀ l : List Char, (∀ c ∈ l, IsDigit c) → (groupDigits l).filter (fun c => decide (c ≠ ',')) = l
  | [], _ => by simp [groupDigits]
  | [a], h => by
      simp only [groupDigits]
      exact List.filter_eq_self.2 fun c hc => by
        rcases isDigit_cases c (h c hc) with rfl | rfl | rfl | rfl | rfl | rfl | rfl | rfl | rfl | rfl <;> decide
  | [a, b], h => by
      simp only [groupDigits]
      exact List.filter_eq_self.2 fun c hc => by
        rcases isDigit_cases c (h c hc) with rfl | rfl | rfl | rfl | rfl | rfl | rfl | rfl | rfl | rfl <;> decide
  | [a, b, e], h => by
      simp only [groupDigits]
      exact List.filter_eq_self.2 fun c hc => by
        rcases isDigit_cases c (h c hc) with rfl | rfl | rfl | rfl | rfl | rfl | rfl | rfl | rfl | rfl <;> decide
  | a :: b :: c :: d :: l, h => by
      have ih := groupDigits_filter (d :: l) (fun x hx => h x (by simp at hx ⊢; tauto))
      have hne : ∀ x, IsDigit x → x ≠ ',' := by
        intro x hx
        rcases isDigit_cases x hx with rfl | rfl | rfl | rfl | rfl | rfl | rfl | rfl | rfl | rfl <;> decide
      have ha := hne a (h a (by simp))
      have hb := hne b (h b (by simp))
      have hc := hne c (h c (by simp))
      simp only [groupDigits]
      rw [List.filter_cons_of_pos (by simpa using ha), List.filter_cons_of_pos (by simpa using hb), List.filter_cons_of_pos (by simpa using hc),
        List.filter_cons_of_neg (by decide), ih]

theorem groupDigits_mem : ∀ (l : List Char) (c : Char), c ∈ groupDigits l → c ∈ l ∨ c = ','
  | [], c, h => by simp [groupDigits] at h
  | [_], c, h => by simp [groupDigits] at h; simp [h]
  | [_, _], c, h => by simp [groupDigits] at h; simp [h]
  | [_, _, _], c, h => by simp [groupDigits] at h; simp [h]
  | a :: b :: e :: d :: l, c, h => by
      simp only [groupDigits, List.mem_cons] at h
      rcases h with h | h | h | h | h
      · simp [h]
      · simp [h]
      · simp [h]
      · simp [h]
      · rcases groupDigits_mem (d :: l) c h with h | h
        · left; simp at h ⊢; tauto
        · exact Or.inr h

theorem groupDigits_head : ∀ l : List Char, (groupDigits l).head? = l.head?
  | [] => rfl
  | [_] => rfl
  | [_, _] => rfl
  | [_, _, _] => by simp [groupDigits]
  | a :: b :: c :: d :: l => by simp [groupDigits]

theorem commas_length (n : Nat) : (commas n).length = Nat.log 10 n + 1 + Nat.log 10 n / 3 := by
  unfold commas
  rw [List.length_reverse, groupDigits_length, List.length_reverse, showNat_log]
  simp

theorem commas_mono {m n : Nat} (h : m ≤ n) : (commas m).length ≤ (commas n).length := by
  rw [commas_length, commas_length]
  have := Nat.log_mono_right (b := 10) h
  omega

theorem commas_short {n : Nat} (h : n < 100) : (commas n).length ≤ 2 := by
  rw [commas_length]
  have : Nat.log 10 n < 2 := Nat.log_lt_of_lt_pow' (by omega) (by omega)
  omega

theorem commas_mem (n : Nat) (c : Char) (h : c ∈ commas n) : IsDigit c ∨ c = ',' := by
  unfold commas at h
  rw [List.mem_reverse] at h
  rcases groupDigits_mem _ _ h with h | h
  · exact Or.inl ((showNat_spec n).2.1 c (List.mem_reverse.1 h))
  · exact Or.inr h

/-- The last character of a number is a digit. -/
theorem commas_last (n : Nat) : ∃ u c, commas n = u ++ [c] ∧ IsDigit c := by
  have hne : commas n ≠ [] := by
    intro h
    have := commas_length n
    rw [h] at this
    simp at this
    omega
  refine ⟨(commas n).dropLast, (commas n).getLast hne, (List.dropLast_append_getLast hne).symm, ?_⟩
  have h1 : (commas n).getLast? = (showNat n).getLast? := by
    unfold commas
    rw [List.getLast?_reverse, groupDigits_head, List.head?_reverse]
  have h2 := List.getLast?_eq_some_getLast hne
  rw [h1] at h2
  exact (showNat_spec n).2.1 _ (List.mem_of_getLast? h2)

theorem readCount_padLeft (w n : Nat) : readCount (padLeft w (commas n)) = some n := by
  unfold readCount
  have h : (padLeft w (commas n)).filter (fun c => decide (c ≠ ',' ∧ c ≠ ' ')) = showNat n := by
    unfold padLeft
    rw [List.filter_append]
    have h1 : (List.replicate (w - (commas n).length) ' ').filter (fun c => decide (c ≠ ',' ∧ c ≠ ' ')) = [] := by
      apply List.filter_eq_nil_iff.2
      intro c hc
      rw [(List.mem_replicate.1 hc).2]
      decide
    have h2 : (commas n).filter (fun c => decide (c ≠ ',' ∧ c ≠ ' ')) = (commas n).filter (fun c => decide (c ≠ ',')) := by
      apply List.filter_congr
      intro c hc
      have : c ≠ ' ' := by
        rcases commas_mem n c hc with h | h
        · exact (isDigit_ne c h).2.2.2.1
        · rw [h]; decide
      simp [this]
    rw [h1, h2, List.nil_append]
    unfold commas
    rw [List.filter_reverse, groupDigits_filter, List.reverse_reverse]
    intro c hc
    exact (showNat_spec n).2.1 c (List.mem_reverse.1 hc)
  rw [h]
  exact readDigits_showNat n

/-! ### Texts -/

theorem padLeft_length (w : Nat) (t : List Char) : (padLeft w t).length = max w t.length := by
  simp [padLeft]
  omega

theorem padPoints_length (w : Nat) (t : List Char) : (padPoints w t).length = max w t.length := by
  simp [padPoints]
  omega

theorem padLeft_mem {w : Nat} {t : List Char} {c : Char} (h : c ∈ padLeft w t) : c = ' ' ∨ c ∈ t := by
  simp [padLeft] at h
  tauto

theorem countText_length (done todo : Nat) : (countText done todo true).length =
    2 + max (todo / 10) (commas done).length + max (todo / 10) (commas todo).length := by
  simp [countText, padLeft_length]
  omega

theorem percent_length {done todo : Nat} (h : done ≤ todo) (ht : 0 < todo) : (padLeft 3 (showNat (100 * done / todo))).length = 3 := by
  rw [padLeft_length, showNat_log]
  have h1 : 100 * done / todo ≤ 100 := by
    apply Nat.div_le_of_le_mul
    rw [Nat.mul_comm]
    exact Nat.mul_le_mul_right _ h
  have : Nat.log 10 (100 * done / todo) < 3 := Nat.log_lt_of_lt_pow' (by omega) (by omega)
  omega

theorem hashes_le {done todo : Nat} (size : Nat) (h : done ≤ todo) (ht : 0 < todo) : size * done / todo ≤ size := by
  apply Nat.div_le_of_le_mul
  rw [Nat.mul_comm todo]
  exact Nat.mul_le_mul_left _ h

/-- The bar without the numbers. -/
def barText (done todo size : Nat) : List Char :=
  ['['] ++ padPoints size (List.replicate (size * done / todo) '#') ++ [' '] ++ padLeft 3 (showNat (100 * done / todo)) ++ ['%', ']', ' ']

theorem barText_length {done todo : Nat} (size : Nat) (h : done ≤ todo) (ht : 0 < todo) : (barText done todo size).length = size + 8 := by
  have := hashes_le size h ht
  simp [barText, percent_length h ht, padPoints_length]
  omega

theorem progressBar_ok {todo : Nat} (done size : Nat) (count : Bool) (ht : 0 < todo) :
    progressBar done todo count size = .ok (barText done todo size ++ countText done todo count) := by
  unfold progressBar
  rw [if_neg (by omega)]
  rfl

theorem plain_append {a b : List Char} (ha : Plain a) (hb : Plain b) : Plain (a ++ b) := by
  intro c hc
  rcases List.mem_append.1 hc with h | h
  · exact ha c h
  · exact hb c h

theorem plain_padLeft (w : Nat) {t : List Char} (h : Plain t) : Plain (padLeft w t) := by
  intro c hc
  rcases padLeft_mem hc with h' | h'
  · rw [h']; decide
  · exact h c h'

theorem plain_replicate (n : Nat) {c : Char} (h : c ≠ '\r' ∧ c ≠ '\n') : Plain (List.replicate n c) := by
  intro d hd
  rw [(List.mem_replicate.1 hd).2]
  exact h

theorem plain_digit {c : Char} (h : IsDigit c) : c ≠ '\r' ∧ c ≠ '\n' := by
  rcases isDigit_cases c h with rfl | rfl | rfl | rfl | rfl | rfl | rfl | rfl | rfl | rfl <;> decide

theorem plain_commas (n : Nat) : Plain (commas n) := by
  intro c hc
  rcases commas_mem n c hc with h | h
  · exact plain_digit h
  · rw [h]; decide

theorem plain_bar (done todo size : Nat) : Plain (barText done todo size) := by
  unfold barText
  refine plain_append (plain_append (plain_append (plain_append ?_ ?_) ?_) ?_) ?_
  · unfold Plain; decide
  · exact plain_append (plain_replicate _ (by decide)) (plain_replicate _ (by decide))
  · unfold Plain; decide
  · exact plain_padLeft _ fun c hc => plain_digit ((showNat_spec _).2.1 c hc)
  · unfold Plain; decide

theorem plain_count (done todo : Nat) (count : Bool) : Plain (countText done todo count) := by
  unfold countText
  cases count
  · intro c hc; simp at hc
  · rw [if_pos rfl]
    refine plain_append (plain_append (plain_append ?_ (plain_padLeft _ (plain_commas _))) ?_) (plain_padLeft _ (plain_commas _))
    · unfold Plain; decide
    · unfold Plain; decide

/-- The text never gets shorter. -/
theorem text_mono {done done' todo : Nat} (count : Bool) (size : Nat) (h : done ≤ done') (h' : done' ≤ todo) (ht : 0 < todo) :
    (barText done todo size ++ countText done todo count).length ≤ (barText done' todo size ++ countText done' todo count).length := by
  rw [List.length_append, List.length_append, barText_length size (h.trans h') ht, barText_length size h' ht]
  cases count
  · simp [countText]
  · rw [countText_length, countText_length]
    have := commas_mono h
    omega

/-! ### The screen -/

theorem puts_nil (x : Screen) : x.puts [] = x := rfl

theorem puts_cons (x : Screen) (c : Char) (t : List Char) : x.puts (c :: t) = (x.put c).puts t := rfl

theorem puts_append (x : Screen) (s t : List Char) : x.puts (s ++ t) = (x.puts s).puts t := by
  simp [Screen.puts, List.foldl_append]

theorem puts_plain (above : List (List Char)) : ∀ (t u rest : List Char), Plain t →
    Screen.puts ⟨above, u ++ rest, u.length⟩ t = ⟨above, u ++ t ++ rest.drop t.length, u.length + t.length⟩ := by
  intro t
  induction t with
  | nil => intro u rest _; simp [puts_nil]
  | cons c t ih =>
      intro u rest h
      obtain ⟨h1, h2⟩ := h c (by simp)
      have hput : Screen.put ⟨above, u ++ rest, u.length⟩ c = ⟨above, (u ++ [c]) ++ rest.drop 1, (u ++ [c]).length⟩ := by
        unfold Screen.put
        rw [if_neg h1, if_neg h2]
        have : List.drop (u.length + 1) (u ++ rest) = rest.drop 1 := by
          rw [List.drop_append]
          simp
        have h3 : u.length - (u ++ rest).length = 0 := by simp
        simp [this, h3]
      rw [puts_cons, hput, ih (u ++ [c]) (rest.drop 1) (fun d hd => h d (by simp [hd]))]
      simp [Nat.add_comm, Nat.add_left_comm, List.drop_drop]

theorem puts_line (above : List (List Char)) (line t : List Char) (h : Plain t) :
    Screen.puts ⟨above, line, 0⟩ (t ++ ['\r']) = ⟨above, t ++ line.drop t.length, 0⟩ := by
  rw [puts_append]
  have := puts_plain above t [] line h
  simp only [List.nil_append, List.length_nil, Nat.zero_add] at this
  rw [this]
  rfl

/-- The prefix, the bar and the numbers. -/
def lineText (done todo : Nat) (count : Bool) (size : Nat) (pre : List Char) : List Char :=
  pre ++ (barText done todo size ++ countText done todo count)

theorem plain_line (done todo : Nat) (count : Bool) (size : Nat) {pre : List Char} (hp : Plain pre) : Plain (lineText done todo count size pre) :=
  plain_append hp (plain_append (plain_bar _ _ _) (plain_count _ _ _))

theorem line_mono {done done' todo : Nat} (count : Bool) (size : Nat) (pre : List Char) (h : done ≤ done') (h' : done' ≤ todo) (ht : 0 < todo) :
    (lineText done todo count size pre).length ≤ (lineText done' todo count size pre).length := by
  have := text_mono count size h h' ht
  unfold lineText
  rw [List.length_append, List.length_append (as := pre)]
  omega

theorem print_ok {done todo : Nat} (count : Bool) (size : Nat) (pre : List Char) (h : done ≤ todo) (ht : 0 < todo) :
    printProgressBar done todo count size pre = .ok (lineText done todo count size pre ++ ['\r'] ++ (if todo = done then ['\n'] else [])) := by
  unfold printProgressBar
  rw [if_neg (by omega), progressBar_ok _ _ _ ht]
  simp [lineText, bind, Except.bind, pure, Except.pure]

theorem puts_print (done todo : Nat) (count : Bool) (size : Nat) {pre : List Char} (hp : Plain pre) (above : List (List Char)) (line : List Char) :
    Screen.puts ⟨above, line, 0⟩ (lineText done todo count size pre ++ ['\r'] ++ (if todo = done then ['\n'] else [])) =
      if done = todo then ⟨above ++ [lineText done todo count size pre ++ line.drop (lineText done todo count size pre).length], [], 0⟩
      else ⟨above, lineText done todo count size pre ++ line.drop (lineText done todo count size pre).length, 0⟩ := by
  rw [puts_append, puts_line _ _ _ (plain_line _ _ _ _ hp)]
  by_cases e : done = todo
  · rw [if_pos e, if_pos e.symm]; rfl
  · rw [if_neg e, if_neg (fun h => e h.symm)]; rfl

theorem puts_redraw (todo : Nat) (count : Bool) (size : Nat) {pre : List Char} (hp : Plain pre) (ht : 0 < todo) (above : List (List Char)) (last : Nat)
    (hl : last ≤ todo) : ∀ (progress : List Nat) (line : List Char), (progress ++ [last]).Pairwise (· ≤ ·) → (∀ d ∈ progress, d < todo) →
    (∀ d ∈ progress ++ [last], line.length ≤ (lineText d todo count size pre).length) →
    ∃ outs, (progress ++ [last]).mapM (fun d => printProgressBar d todo count size pre) = .ok outs ∧
      Screen.puts ⟨above, line, 0⟩ outs.flatten =
        (if last = todo then ⟨above ++ [lineText last todo count size pre], [], 0⟩ else ⟨above, lineText last todo count size pre, 0⟩) := by
  intro progress
  induction progress with
  | nil =>
      intro line _ _ hlen
      refine ⟨[lineText last todo count size pre ++ ['\r'] ++ (if todo = last then ['\n'] else [])], ?_, ?_⟩
      · simp [print_ok count size pre hl ht, pure, Except.pure, bind, Except.bind]
      · have h1 : line.drop (lineText last todo count size pre).length = [] := List.drop_eq_nil_of_le (hlen last (by simp))
        rw [List.flatten_singleton, puts_print _ _ _ _ hp, h1, List.append_nil]
  | cons d progress ih =>
      intro line hs hb hlen
      have hd : d < todo := hb d (by simp)
      rw [List.cons_append, List.pairwise_cons] at hs
      obtain ⟨outs, h1, h2⟩ := ih (lineText d todo count size pre) hs.2 (fun e he => hb e (by simp [he])) (by
        intro e he
        refine line_mono count size pre (hs.1 e he) ?_ ht
        rcases List.mem_append.1 he with he | he
        · exact le_of_lt (hb e (by simp [he]))
        · rw [List.mem_singleton.1 he]; exact hl)
      refine ⟨(lineText d todo count size pre ++ ['\r'] ++ (if todo = d then ['\n'] else [])) :: outs, ?_, ?_⟩
      · rw [List.cons_append, List.mapM_cons, print_ok count size pre (le_of_lt hd) ht, h1]
        rfl
      · have h3 : line.drop (lineText d todo count size pre).length = [] := List.drop_eq_nil_of_le (hlen d (by simp))
        rw [List.flatten_cons, puts_append, puts_print _ _ _ _ hp, if_neg (by omega), h3, List.append_nil]
        exact h2

theorem puts_clear (count : Bool) (size : Nat) (pre : List Char) (above : List (List Char)) (line : List Char) :
    Screen.puts ⟨above, line, 0⟩ (clearProgressBar count size pre) =
      ⟨above, List.replicate (7 + size + 12 * (if count then 1 else 0) + pre.length) ' ' ++
        line.drop (7 + size + 12 * (if count then 1 else 0) + pre.length), 0⟩ := by
  unfold clearProgressBar
  rw [puts_line _ _ _ (plain_replicate _ (by decide)), List.length_replicate]

theorem unseen_iff (n : Nat) (line : List Char) : Unseen (List.replicate n ' ' ++ line) ↔ Unseen line := by
  unfold Unseen
  simp only [List.mem_append, List.mem_replicate]
  constructor
  · intro h c hc; exact h c (Or.inr hc)
  · rintro h c (hc | hc)
    · exact hc.2
    · exact h c hc

/-- What is left of the line after clearing it. -/
theorem unseen_line {done todo : Nat} (count : Bool) (size : Nat) (pre : List Char) (h : done ≤ todo) (ht : 0 < todo) :
    Unseen ((lineText done todo count size pre).drop (7 + size + 12 * (if count then 1 else 0) + pre.length)) ↔ count = false ∨ todo < 50 := by
  have hb := barText_length size h ht
  cases count with
  | false =>
      simp only [true_or, iff_true]
      have : lineText done todo false size pre = (pre ++ (['['] ++ padPoints size (List.replicate (size * done / todo) '#') ++ [' '] ++
          padLeft 3 (showNat (100 * done / todo)) ++ ['%', ']'])) ++ [' '] := by
        simp [lineText, barText, countText]
      have hl : (pre ++ (['['] ++ padPoints size (List.replicate (size * done / todo) '#') ++ [' '] ++
          padLeft 3 (showNat (100 * done / todo)) ++ ['%', ']'])).length = 7 + size + pre.length := by
        have := congrArg List.length this
        rw [List.length_append (bs := [' '])] at this
        simp only [lineText, List.length_append, hb, countText, List.length_nil, List.length_cons] at this ⊢
        simp at this ⊢
        omega
      rw [this, List.drop_left' (by rw [hl]; simp)]
      unfold Unseen
      simp
  | true =>
      simp only [Bool.true_eq_false, false_or, if_true]
      have hlen : (lineText done todo true size pre).length = pre.length + (size + 8) +
          (2 + max (todo / 10) (commas done).length + max (todo / 10) (commas todo).length) := by
        simp only [lineText, List.length_append, hb, countText_length]
        omega
      constructor
      · intro hu
        by_contra hn
        have h5 : 5 ≤ todo / 10 := by omega
        obtain ⟨u, c, hu2, hc⟩ := commas_last todo
        have hlast : ∃ w, lineText done todo true size pre = w ++ [c] := by
          refine ⟨pre ++ (barText done todo size ++ ([' '] ++ padLeft (todo / 10) (commas done) ++ ['/'] ++
            (List.replicate (todo / 10 - (commas todo).length) ' ' ++ u))), ?_⟩
          unfold lineText countText
          rw [if_pos rfl]
          conv_lhs => rw [show padLeft (todo / 10) (commas todo) = List.replicate (todo / 10 - (commas todo).length) ' ' ++ commas todo from rfl]
          conv_lhs => arg 2; arg 2; arg 2; arg 2; rw [hu2]
          simp [hu2]
        obtain ⟨w, hw⟩ := hlast
        have hwl := congrArg List.length hw
        rw [hlen, List.length_append] at hwl
        simp at hwl
        have hmem : c ∈ (lineText done todo true size pre).drop (7 + size + 12 * 1 + pre.length) := by
          rw [hw, List.drop_append_of_le_length (by omega)]
          simp
        have := hu c hmem
        exact (isDigit_ne c hc).2.2.2.1 this
      · intro hlt
        have h1 := commas_short (n := done) (by omega)
        have h2 := commas_short (n := todo) (by omega)
        rw [List.drop_eq_nil_of_le (by rw [hlen]; omega)]
        intro c hc
        simp at hc

end Verif
