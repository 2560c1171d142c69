import Verif.Spec.SolverFile
import Verif.Model.SolverFile
import Verif.Props.DumpRows
import Verif.Props.Trajectory

set_option linter.unusedSectionVars false
set_option linter.unusedSimpArgs false

/-! Lemmas for C100. -/

namespace Verif
open Spec

/-! ### Words -/

/-- Characters that end a word. -/
def IsCut (c : Char) : Prop := separates c = true ∨ c = ':'

theorem wordsAfter_sep {c : Char} (h : separates c = true) : ∀ (u w v : List Char),
    wordsAfter w (u ++ c :: v) = wordsAfter w u ++ wordsAfter [] v
  | [], w, v => by simp [wordsAfter, h]
  | a :: u, w, v => by
      simp only [List.cons_append, wordsAfter]
      split
      · rw [wordsAfter_sep h u, List.append_assoc]
      · split
        · rw [wordsAfter_sep h u]; simp
        · rw [wordsAfter_sep h u]

theorem wordsAfter_colon : ∀ (u w v : List Char),
    wordsAfter w (u ++ ':' :: v) = wordsAfter w u ++ [':'] :: wordsAfter [] v
  | [], w, v => by simp [wordsAfter, separates]
  | a :: u, w, v => by
      simp only [List.cons_append, wordsAfter]
      split
      · rw [wordsAfter_colon u, List.append_assoc]
      · split
        · rw [wordsAfter_colon u]; simp
        · rw [wordsAfter_colon u]

theorem wordsAfter_word : ∀ (u w : List Char), (∀ c ∈ u, separates c = false ∧ c ≠ ':') → wordsAfter w u = pending (w ++ u)
  | [], w, _ => by simp [wordsAfter]
  | a :: u, w, h => by
      have ha := h a (by simp)
      simp only [wordsAfter, ha.1, ha.2, if_false, Bool.false_eq_true]
      rw [wordsAfter_word u _ (fun c hc => h c (by simp [hc]))]
      simp

theorem fileWords_nil : fileWords [] = [] := by simp [fileWords, wordsAfter, pending]

theorem fileWords_word {u : List Char} (h0 : u ≠ []) (h : ∀ c ∈ u, separates c = false ∧ c ≠ ':') : fileWords u = [u] := by
  unfold fileWords
  rw [wordsAfter_word u [] h]
  simp [pending, h0]

/-- The text can be split before a character that ends a word. -/
theorem fileWords_before {c : Char} (h : IsCut c) (u v : List Char) : fileWords (u ++ c :: v) = fileWords u ++ fileWords (c :: v) := by
  unfold fileWords
  rcases h with h | rfl
  · rw [wordsAfter_sep h, show c :: v = [] ++ c :: v from rfl, wordsAfter_sep h]
    simp [wordsAfter, pending]
  · rw [wordsAfter_colon, show ':' :: v = [] ++ ':' :: v from rfl, wordsAfter_colon]
    simp [wordsAfter, pending]

/-- The text can be split after a character that ends a word. -/
theorem fileWords_after {c : Char} (h : IsCut c) (u v : List Char) : fileWords (u ++ [c] ++ v) = fileWords (u ++ [c]) ++ fileWords v := by
  unfold fileWords
  rw [List.append_assoc, List.singleton_append]
  rcases h with h | rfl
  · rw [wordsAfter_sep h, wordsAfter_sep h]
    simp [wordsAfter, pending]
  · rw [wordsAfter_colon, wordsAfter_colon]
    simp [wordsAfter, pending]

theorem fileWords_around {c d : Char} (hc : IsCut c) (hd : IsCut d) (u m v : List Char) :
    fileWords (u ++ (c :: m ++ [d]) ++ v) = fileWords u ++ fileWords (c :: m ++ [d]) ++ fileWords v := by
  rw [← List.append_assoc, fileWords_after hd (u ++ c :: m) v, List.append_assoc, List.cons_append, fileWords_before hc]

theorem isCut_space : IsCut ' ' := .inl (by decide)
theorem isCut_newline : IsCut '\n' := .inl (by decide)

theorem fileWords_newline (u v : List Char) : fileWords (u ++ '\n' :: v) = fileWords u ++ fileWords v := by
  unfold fileWords
  rw [wordsAfter_sep (by decide)]

theorem fileWords_intercalate {sep : List Char} (h0 : sep ≠ []) (h : ∀ c ∈ sep, separates c = true) (l : List (List Char)) :
    fileWords (sep.intercalate l) = l.flatMap fileWords := by
  have hsep : ∀ (s : List Char), (∀ c ∈ s, separates c = true) → ∀ u v, s ≠ [] → fileWords (u ++ s ++ v) = fileWords u ++ fileWords v := by
    intro s
    induction s with
    | nil => intro _ _ _ h; exact absurd rfl h
    | cons c s ih =>
        intro hs u v _
        rw [List.append_assoc, List.cons_append]
        unfold fileWords
        rw [wordsAfter_sep (hs c (by simp))]
        by_cases hn : s = []
        · subst hn; simp
        · have := ih (fun c hc => hs c (by simp [hc])) [] v hn
          simp only [List.nil_append] at this
          unfold fileWords at this
          rw [this]
          simp [wordsAfter, pending]
  induction l with
  | nil => simp [List.intercalate, fileWords_nil]
  | cons a l ih =>
      cases l with
      | nil => simp [List.intercalate]
      | cons b l =>
          have e : sep.intercalate (a :: b :: l) = a ++ sep ++ sep.intercalate (b :: l) := by
            simp [List.intercalate, List.intersperse]
          rw [e, hsep sep h _ _ h0, ih]
          simp only [List.flatMap_cons]

theorem strWords_intercalate (sep : String) (h0 : sep.toList ≠ []) (h : ∀ c ∈ sep.toList, separates c = true) (l : List String) :
    fileWords (sep.intercalate l).toList = l.flatMap fun t => fileWords t.toList := by
  rw [String.toList_intercalate, fileWords_intercalate h0 h, List.flatMap_map]

/-! ### Numbers -/

theorem toDigits_eq_showAux : ∀ (fuel n : Nat), n < fuel → Nat.toDigits 10 n = showAux fuel n
  | 0, n, h => by omega
  | fuel + 1, n, h => by
      unfold showAux
      have hd : ∀ k < 10, Nat.digitChar k = Char.ofNat (48 + k) := by decide
      split
      · rename_i hn
        rw [Nat.toDigits_of_lt_base hn, hd n hn]
      · rename_i hn
        rw [Nat.toDigits_of_base_le (by decide) (by omega), toDigits_eq_showAux fuel (n / 10) (by omega), hd _ (Nat.mod_lt _ (by decide))]

theorem toString_nat (n : Nat) : (toString n).toList = showNat n := by
  rw [Nat.toString_eq_ofList_toDigits, String.toList_ofList, toDigits_eq_showAux (n + 1) n (by omega)]
  rfl

theorem digit_no_cut {c : Char} (h : IsDigit c) : separates c = false ∧ c ≠ ':' := by
  unfold IsDigit at h
  constructor
  · simp only [separates, List.mem_cons, List.not_mem_nil, or_false, decide_eq_false_iff_not, not_or]
    refine ⟨?_, ?_, ?_, ?_⟩ <;> (rintro rfl; revert h; decide)
  · rintro rfl
    revert h
    decide

theorem showNat_words (n : Nat) : fileWords (showNat n) = [showNat n] :=
  fileWords_word (showNat_spec n).1 fun c hc => digit_no_cut ((showNat_spec n).2.1 c hc)

theorem fixedText_words (x : ℚ) : fileWords (fixedText 5 x) = [fixedText 5 x] := by
  apply fileWords_word
  · simp [fixedText]
  · intro c hc
    rcases fixedText_chars 5 x c hc with h | rfl | rfl
    · exact digit_no_cut h
    · decide
    · decide

theorem fixedText_five {x : ℚ} (h : FiveDecimals x) : readDecimal (fixedText 5 x) = some x := by
  obtain ⟨y, h1, h2, _⟩ := fixedText_read (d := 5) (by decide) x
  obtain ⟨k, rfl⟩ := h
  rw [h1, h2]
  have : (k : ℚ) / 100000 * 10 ^ 5 = (k : ℚ) := by norm_num
  rw [this, roundEven_int]
  norm_num

/-- The words of a row. -/
def rowWords (r : List ℚ) : List FileWord := r.map (fixedText 5)

theorem readNumbers_row : ∀ (r : List ℚ) (rest : List FileWord), (∀ x ∈ r, FiveDecimals x) →
    readNumbers r.length (rowWords r ++ rest) = some (r, rest)
  | [], rest, _ => rfl
  | x :: r, rest, h => by
      simp only [rowWords, List.map_cons, List.cons_append, List.length_cons, readNumbers]
      rw [fixedText_five (h x (by simp))]
      have := readNumbers_row r rest (fun y hy => h y (by simp [hy]))
      unfold rowWords at this
      simp [this]

theorem readMatrix_rows {c : Nat} : ∀ (m : List (List ℚ)) (rest : List FileWord), (∀ r ∈ m, r.length = c ∧ ∀ x ∈ r, FiveDecimals x) →
    readMatrix c m.length (m.flatMap rowWords ++ rest) = some (m, rest)
  | [], rest, _ => rfl
  | r :: m, rest, h => by
      obtain ⟨h1, h2⟩ := h r (by simp)
      have e := readNumbers_row r (m.flatMap rowWords ++ rest) h2
      rw [h1] at e
      simp only [List.flatMap_cons, List.append_assoc, List.length_cons, readMatrix, e, Option.bind_some,
        readMatrix_rows m rest (fun y hy => h y (by simp [hy])), Option.map_some]

/-- The error of one entry of a row, given the errors of the others and of the sum. -/
theorem error_at_one {n m : Nat} (hm : m < n) {f g : Nat → ℚ} {ε : ℚ} (h : ∀ i < n, i ≠ m → |f i - g i| ≤ ε)
    (hs : |sumRange n f - sumRange n g| ≤ ε) : |f m - g m| ≤ n * ε := by
  have hd : sumRange n f = sumRange n g + (f m - g m) + sumRange n (fun i => if i = m then 0 else f i - g i) := by
    conv_lhs => rw [show f = fun i => (g i + (if i = m then f m - g m else 0)) + (if i = m then 0 else f i - g i) from by
      funext i
      by_cases hi : i = m
      · subst hi; simp
      · simp [hi]]
    rw [sumRange_add, sumRange_add, sumRange_ite _ _ _ hm]
  have hup : sumRange n (fun i => (if i = m then 0 else f i - g i) + (if i = m then ε else 0)) ≤ sumRange n (fun _ => ε) := by
    apply sumRange_le
    intro i hi
    by_cases hne : i = m
    · simp [hne]
    · simp only [hne, if_false, add_zero]
      exact (abs_le.1 (h i hi hne)).2
  have hlo : sumRange n (fun _ => -ε) ≤ sumRange n (fun i => (if i = m then 0 else f i - g i) + (if i = m then -ε else 0)) := by
    apply sumRange_le
    intro i hi
    by_cases hne : i = m
    · simp [hne]
    · simp only [hne, if_false, add_zero]
      exact (abs_le.1 (h i hi hne)).1
  rw [sumRange_add, sumRange_ite _ _ _ hm, sumRange_const] at hup hlo
  obtain ⟨s1, s2⟩ := abs_le.1 hs
  exact abs_le.2 ⟨by linarith, by linarith⟩

theorem dump1_words {a : List ℚ} (ha : a ≠ []) : ∃ t r, dump1 fiveText a = .ok t ∧ fileWords t.toList = rowWords r ∧
    RowFor a.length (fun i => a.getD i 0) r := by
  obtain ⟨r, m, h1, h2, hm, _, h4, h5, h6⟩ := C41_row a ha
  refine ⟨" ".intercalate (r.map fiveText), r, by simp only [dump1, h1, bind, Except.bind, pure, Except.pure], ?_, h2, h6, ?_, ?_, ?_, ?_⟩
  · rw [strWords_intercalate _ (by decide) (by decide), List.flatMap_map]
    simp only [fiveText, String.toList_ofList, fixedText_words, rowWords, List.map_eq_flatMap]
  · have hround : ∀ x : ℚ, |around x - x| ≤ 1 / 200000 := fun x => by
      obtain ⟨b1, b2⟩ := around_bound x
      exact abs_le.2 ⟨by linarith, by linarith⟩
    refine ⟨m, hm, fun i hi hne => by rw [h4 i hi hne]; exact hround _, ?_⟩
    have hsum : |r.sum - a.sum| ≤ 1 / 200000 := by rw [h5]; exact hround _
    have hr : r.sum = sumRange a.length fun i => r.getD i 0 := by rw [sum_eq_sumRange, h2]
    rw [hr, sum_eq_sumRange a] at hsum
    have := error_at_one (f := fun i => r.getD i 0) (g := fun i => a.getD i 0) hm
      (fun i hi hne => by show |r.getD i 0 - a.getD i 0| ≤ _; rw [h4 i hi hne]; exact hround _) hsum
    rwa [mul_one_div] at this
  · rw [h5, ← sum_eq_sumRange]
    obtain ⟨b1, b2⟩ := around_bound a.sum
    exact abs_le.2 ⟨by linarith, by linarith⟩
  · intro hs
    rw [h5, sum_eq_sumRange, hs, around_one]
  · intro hs h0 hc
    exact short_rows a.length a ⟨rfl, h0, hs⟩ hc r h1

/-! ### Matrices and arrays -/

theorem mapM_map_ok {α β : Type} (f : α → Py β) (g : α → β) : ∀ l : List α, (∀ x ∈ l, f x = .ok (g x)) → l.mapM f = .ok (l.map g)
  | [], _ => rfl
  | x :: l, h => by
      have := mapM_map_ok f g l (fun y hy => h y (by simp [hy]))
      simp [List.mapM_cons, h x (by simp), this, bind, Except.bind, pure, Except.pure]

theorem rowFor_congr {c : Nat} {v w : Nat → ℚ} {r : List ℚ} (h : ∀ i < c, v i = w i) (hr : RowFor c v r) : RowFor c w r := by
  obtain ⟨h1, h2, ⟨m, hm, h3, h4⟩, h5, h6, h7⟩ := hr
  have e : sumRange c v = sumRange c w := sumRange_congr _ _ _ h
  exact ⟨h1, h2, ⟨m, hm, fun i hi hne => by rw [← h i hi]; exact h3 i hi hne, by rw [← h m hm]; exact h4⟩, by rw [← e]; exact h5,
    fun hs => h6 (by rw [e]; exact hs), fun hs h0 hc => h7 (by rw [e]; exact hs) (fun i hi => by rw [h i hi]; exact h0 i hi) hc⟩

/-- The rows of an array. -/
def rowsOf (k c : Nat) (v : Nat → Nat → ℚ) : List (List ℚ) := (List.range k).map fun j => (List.range c).map (v j)

/-- The words of a matrix. -/
def matrixWords (m : List (List ℚ)) : List FileWord := m.flatMap rowWords

theorem dump2_words (k : Nat) {c : Nat} (hc : 0 < c) (v : Nat → Nat → ℚ) :
    ∃ t m, dump2 fiveText (rowsOf k c v) = .ok t ∧ fileWords t.toList = matrixWords m ∧ MatrixFor k c v m := by
  have h : ∀ j, ∃ t r, dump1 fiveText ((List.range c).map (v j)) = .ok t ∧ fileWords t.toList = rowWords r ∧ RowFor c (v j) r := by
    intro j
    obtain ⟨t, r, h1, h2, h3⟩ := dump1_words (a := (List.range c).map (v j)) (by simp; omega)
    refine ⟨t, r, h1, h2, ?_⟩
    rw [List.length_map, List.length_range] at h3
    exact rowFor_congr (fun i hi => getD_map_range _ _ _ hi) h3
  choose T R h1 h2 h3 using h
  refine ⟨"\n".intercalate ((List.range k).map T), (List.range k).map R, ?_, ?_, by simp, ?_⟩
  · unfold dump2 rowsOf
    rw [List.mapM_map, mapM_map_ok (dump1 fiveText ∘ fun j => (List.range c).map (v j)) T _ (fun j _ => h1 j)]
    rfl
  · rw [strWords_intercalate _ (by decide) (by decide), List.flatMap_map, matrixWords, List.flatMap_map]
    simp only [h2]
  · intro i row hi
    rw [List.getElem?_map] at hi
    cases hr : (List.range k)[i]? with
    | none => rw [hr] at hi; cases hi
    | some j =>
        rw [hr] at hi
        cases hi
        obtain ⟨hl, he⟩ := List.getElem?_eq_some_iff.1 hr
        rw [List.getElem_range] at he
        subst he
        exact h3 i

theorem matrixWords_read {k c : Nat} {v : Nat → Nat → ℚ} {m : List (List ℚ)} (h : MatrixFor k c v m) (rest : List FileWord) :
    readMatrix c k (matrixWords m ++ rest) = some (m, rest) := by
  have := readMatrix_rows (c := c) m rest (fun r hr => by
    obtain ⟨i, hi⟩ := List.getElem?_of_mem hr
    obtain ⟨h1, h2, _⟩ := h.2 i r hi
    refine ⟨h1, fun x hx => ?_⟩
    obtain ⟨j, hj⟩ := List.getElem?_of_mem hx
    have := h2 j (by rw [← h1]; exact (List.getElem?_eq_some_iff.1 hj).1)
    rwa [List.getD_eq_getElem?_getD, hj] at this)
  rwa [h.1] at this

/-- The words of a block. -/
def blockWords (name x : String) (m : List (List ℚ)) : List FileWord :=
  fileWords name.toList ++ [':'] :: (fileWords x.toList ++ matrixWords m)

theorem header_words (name x r : String) : fileWords (name ++ " : " ++ x ++ "\n" ++ r).toList =
    fileWords name.toList ++ [':'] :: (fileWords x.toList ++ fileWords r.toList) := by
  simp only [String.toList_append]
  rw [show "\n".toList = ['\n'] from by decide, show " : ".toList = ' ' :: [':'] ++ [' '] from by decide,
    List.append_assoc _ ['\n'], List.singleton_append, fileWords_newline, fileWords_around isCut_space isCut_space,
    show fileWords (' ' :: [':'] ++ [' ']) = [[':']] from by decide]
  simp

theorem dump3_words (name : String) (X : Nat → String) (n k : Nat) {c : Nat} (hc : 0 < c) (v : Nat → Nat → Nat → ℚ) :
    ∃ t, ∃ m : Nat → List (List ℚ), dump3 fiveText name ((List.range n).map X) ((List.range n).map fun i => rowsOf k c (v i)) = .ok t ∧
      fileWords t.toList = (List.range n).flatMap (fun i => blockWords name (X i) (m i)) ∧ ∀ i, MatrixFor k c (v i) (m i) := by
  have h := fun i => dump2_words k hc (v i)
  choose T m h1 h2 h3 using h
  refine ⟨"\n".intercalate ((List.range n).map fun i => name ++ " : " ++ X i ++ "\n" ++ T i), m, ?_, ?_, h3⟩
  · unfold dump3
    rw [List.zip_map', List.mapM_map, mapM_map_ok _ (fun i => name ++ " : " ++ X i ++ "\n" ++ T i) _ (fun i _ => by
      simp only [Function.comp_apply, h1, bind, Except.bind, pure, Except.pure])]
    rfl
  · rw [strWords_intercalate _ (by decide) (by decide), List.flatMap_map]
    simp only [header_words, h2, blockWords]

theorem dump4_words (name : String) (X Y : Nat → String) (n s k : Nat) {c : Nat} (hc : 0 < c) (v : Nat → Nat → Nat → Nat → ℚ) :
    ∃ t, ∃ m : Nat → Nat → List (List ℚ), dump4 fiveText name ((List.range n).map X) ((List.range s).map Y)
        ((List.range n).map fun i => (List.range s).map fun j => rowsOf k c (v i j)) = .ok t ∧
      fileWords t.toList = (List.range n).flatMap (fun i => (List.range s).flatMap fun j =>
        blockWords name (X i ++ " : " ++ Y j) (m i j)) ∧ ∀ i j, MatrixFor k c (v i j) (m i j) := by
  have h := fun i => dump3_words name (fun j => X i ++ " : " ++ Y j) s k hc (v i)
  choose T m h1 h2 h3 using h
  refine ⟨"\n".intercalate ((List.range n).map T), m, ?_, ?_, h3⟩
  · unfold dump4
    rw [List.zip_map', List.mapM_map, mapM_map_ok _ T _ (fun i _ => by
      simp only [List.map_map]
      exact h1 i)]
    rfl
  · rw [strWords_intercalate _ (by decide) (by decide), List.flatMap_map]
    simp only [h2]

/-! ### Entries -/

/-- These words are read as this entry. -/
def EntryFor (S A Z : FileNames) (ws : List FileWord) (e : FileEntry) : Prop :=
  ∀ rest, ∃ k us, ws ++ rest = k :: [':'] :: us ∧ readEntryOf S A Z k us = some (e, rest)

theorem readEntries_blocks {S A Z : FileNames} : ∀ (bs : List (List FileWord × FileEntry)) (fuel : Nat), bs.length ≤ fuel →
    (∀ b ∈ bs, EntryFor S A Z b.1 b.2) → readEntries S A Z fuel (bs.flatMap Prod.fst) = some (bs.map Prod.snd)
  | [], fuel, _, _ => by cases fuel <;> rfl
  | b :: bs, 0, h, _ => by simp at h
  | b :: bs, fuel + 1, h, hb => by
      obtain ⟨k, us, h1, h2⟩ := hb b (by simp) (bs.flatMap Prod.fst)
      rw [List.flatMap_cons, h1]
      simp only [readEntries, if_pos, h2, Option.bind_some]
      rw [readEntries_blocks bs fuel (by simpa using h) (fun c hc => hb c (by simp [hc]))]
      rfl

theorem blocks_length {S A Z : FileNames} : ∀ (bs : List (List FileWord × FileEntry)), (∀ b ∈ bs, EntryFor S A Z b.1 b.2) →
    bs.length ≤ (bs.flatMap Prod.fst).length
  | [], _ => by simp
  | b :: bs, hb => by
      obtain ⟨k, us, h1, _⟩ := hb b (by simp) []
      have := blocks_length bs (fun c hc => hb c (by simp [hc]))
      simp only [List.append_nil] at h1
      simp only [List.flatMap_cons, List.length_append, List.length_cons, h1]
      omega

/-! ### Names -/

theorem reserved_no_number : ∀ w ∈ reservedWords, parseNat w = none := by decide

theorem showNat_not_reserved (n : Nat) : showNat n ∉ reservedWords := fun h => by
  have := reserved_no_number _ h
  rw [(showNat_spec n).2.2] at this
  cases this

/-- The text of the name with this index. -/
def nameTextAt (N : Names) (i : Nat) : String := (N.asList.map Name.toStr).getD i ""

theorem asList_texts (N : Names) : N.asList.map Name.toStr = (List.range N.asList.length).map (nameTextAt N) := by
  apply List.ext_getElem
  · simp
  · intro i h1 h2
    simp only [List.length_map] at h1
    simp [nameTextAt, h1]

theorem declarationOf_size (N : Names) : (declarationOf N).size = N.asList.length := by
  cases N <;> simp [declarationOf, FileNames.size, Names.asList]

theorem nameTextAt_count {n i : Nat} (hi : i < n) : (nameTextAt (.count n) i).toList = showNat i := by
  have : nameTextAt (.count n) i = toString i := by
    simp [nameTextAt, Names.asList, hi, Name.toStr]
  rw [this, toString_nat]

theorem nameTextAt_list {l : List Name} {i : Nat} (hi : i < l.length) : nameTextAt (.list l) i = (l[i]).toStr := by
  simp [nameTextAt, Names.asList, hi]

theorem nameTextAt_words {N : Names} (hw : Writable N) {i : Nat} (hi : i < N.asList.length) :
    fileWords (nameTextAt N i).toList = [(nameTextAt N i).toList] := by
  cases N with
  | count n =>
      rw [nameTextAt_count (by simpa [Names.asList] using hi)]
      exact showNat_words i
  | list l =>
      have hi' : i < l.length := hi
      obtain ⟨s, h1, h2, h3, _⟩ := hw l[i] (List.getElem_mem hi')
      rw [nameTextAt_list hi', h1]
      exact fileWords_word h2 h3

theorem nameTextAt_find {N : Names} (hw : Writable N) (hn : N.asList.Nodup) {i : Nat} (hi : i < N.asList.length) :
    (declarationOf N).find (nameTextAt N i).toList = some i := by
  cases N with
  | count n =>
      have hi' : i < n := by simpa [Names.asList] using hi
      rw [nameTextAt_count hi']
      simp [declarationOf, FileNames.find, (showNat_spec i).2.2, hi']
  | list l =>
      have hi' : i < l.length := hi
      have hn' : l.Nodup := hn
      rw [nameTextAt_list hi']
      simp only [declarationOf, FileNames.find, List.findIdx?_eq_some_iff_getElem]
      refine ⟨by simpa using hi', by simp, ?_⟩
      intro j hj
      simp only [List.getElem_map, decide_eq_true_eq]
      intro he
      obtain ⟨s, h1, _⟩ := hw l[i] (List.getElem_mem hi')
      obtain ⟨s', h1', _⟩ := hw (l[j]'(by omega)) (List.getElem_mem _)
      rw [h1, h1'] at he
      have hs : s' = s := String.toList_injective he
      have : l[j]'(by omega) = l[i] := by rw [h1, h1', hs]
      have := (List.Nodup.getElem_inj_iff hn').1 this
      omega

theorem takeWhile_word {p : FileWord → Bool} : ∀ (l : List FileWord) (k : FileWord) (rest : List FileWord), (∀ w ∈ l, p w = true) → p k = false →
    (l ++ k :: rest).takeWhile p = l ∧ (l ++ k :: rest).dropWhile p = k :: rest
  | [], k, rest, _, hk => by simp [hk]
  | a :: l, k, rest, h, hk => by
      have := takeWhile_word l k rest (fun w hw => h w (by simp [hw])) hk
      simp [h a (by simp), this]

theorem names_words (N : Names) (hw : Writable N) : ∃ l, fileWords (dumpListOrCount N).toList = l ∧ declared l = declarationOf N ∧
    ∀ w ∈ l, w ∉ reservedWords := by
  cases N with
  | count n =>
      refine ⟨[showNat n], ?_, ?_, ?_⟩
      · simp only [dumpListOrCount, toString_nat, showNat_words]
      · simp [declared, (showNat_spec n).2.2, declarationOf]
      · intro w h
        rw [List.mem_singleton.1 h]
        exact showNat_not_reserved n
  | list l =>
      refine ⟨l.map fun x => x.toStr.toList, ?_, ?_, ?_⟩
      · simp only [dumpListOrCount, dumpList]
        rw [strWords_intercalate _ (by decide) (by decide), List.flatMap_map, List.map_eq_flatMap]
        apply List.flatMap_congr
        intro x hx
        obtain ⟨s, rfl, h2, h3, _⟩ := hw x hx
        exact fileWords_word h2 h3
      · match l, hw with
        | [], _ => rfl
        | [x], hw =>
            obtain ⟨s, rfl, h2, h3, h4, _⟩ := hw x (by simp)
            simp [declared, declarationOf, Name.toStr, h4]
        | _ :: _ :: _, _ => rfl
      · intro w h
        obtain ⟨x, hx, rfl⟩ := List.mem_map.1 h
        obtain ⟨s, rfl, _, _, _, h5⟩ := hw x hx
        exact h5

theorem readNames_words (N : Names) (hw : Writable N) (k : FileWord) (hk : k ∈ reservedWords) (rest : List FileWord) :
    readNames (fileWords (dumpListOrCount N).toList ++ k :: rest) = (declarationOf N, k :: rest) := by
  obtain ⟨l, h1, h2, h3⟩ := names_words N hw
  obtain ⟨e1, e2⟩ := takeWhile_word (p := fun w => decide (w ∉ reservedWords)) l k rest (fun w hw' => by simpa using h3 w hw') (by simpa using hk)
  unfold readNames
  rw [h1, e1, e2, h2]

/-! ### The whole file -/

theorem entry_T {S A Z : Names} (hw : Writable A) (hn : A.asList.Nodup) {a : Nat} (ha : a < A.asList.length) {v : Nat → Nat → ℚ} {m : List (List ℚ)}
    (hm : MatrixFor S.asList.length S.asList.length v m) :
    EntryFor (declarationOf S) (declarationOf A) (declarationOf Z) (blockWords "T" (nameTextAt A a) m) (.T a m) := by
  intro rest
  refine ⟨['T'], (nameTextAt A a).toList :: (matrixWords m ++ rest), ?_, ?_⟩
  · simp only [blockWords, nameTextAt_words hw ha, show fileWords "T".toList = [['T']] from by decide]
    simp
  · simp only [readEntryOf, nameTextAt_find hw hn ha, Option.bind_some, if_pos, declarationOf_size, matrixWords_read hm, Option.map_some]

theorem entry_O {S A Z : Names} (hw : Writable A) (hn : A.asList.Nodup) {a : Nat} (ha : a < A.asList.length) {v : Nat → Nat → ℚ} {m : List (List ℚ)}
    (hm : MatrixFor S.asList.length Z.asList.length v m) :
    EntryFor (declarationOf S) (declarationOf A) (declarationOf Z) (blockWords "O" (nameTextAt A a) m) (.O a m) := by
  intro rest
  refine ⟨['O'], (nameTextAt A a).toList :: (matrixWords m ++ rest), ?_, ?_⟩
  · simp only [blockWords, nameTextAt_words hw ha, show fileWords "O".toList = [['O']] from by decide]
    simp
  · simp only [readEntryOf, nameTextAt_find hw hn ha, Option.bind_some, if_pos, declarationOf_size, matrixWords_read hm, Option.map_some,
      show ¬ (['O'] = ['T']) from by decide, if_false]

theorem entry_R {S A Z : Names} (hS : Writable S) (hw : Writable A) (hs : S.asList.Nodup) (hn : A.asList.Nodup) {a s : Nat} (ha : a < A.asList.length)
    (hs' : s < S.asList.length) {v : Nat → Nat → ℚ} {m : List (List ℚ)} (hm : MatrixFor S.asList.length Z.asList.length v m) :
    EntryFor (declarationOf S) (declarationOf A) (declarationOf Z) (blockWords "R" (nameTextAt A a ++ " : " ++ nameTextAt S s) m) (.R a s m) := by
  intro rest
  refine ⟨['R'], (nameTextAt A a).toList :: [':'] :: (nameTextAt S s).toList :: (matrixWords m ++ rest), ?_, ?_⟩
  · have : fileWords (nameTextAt A a ++ " : " ++ nameTextAt S s).toList = [(nameTextAt A a).toList, [':'], (nameTextAt S s).toList] := by
      simp only [String.toList_append]
      rw [show " : ".toList = ' ' :: [':'] ++ [' '] from by decide, fileWords_around isCut_space isCut_space, nameTextAt_words hw ha, nameTextAt_words hS hs',
        show fileWords (' ' :: [':'] ++ [' ']) = [[':']] from by decide]
      rfl
    simp only [blockWords, this, show fileWords "R".toList = [['R']] from by decide]
    simp
  · simp only [readEntryOf, nameTextAt_find hw hn ha, nameTextAt_find hS hs hs', Option.bind_some, if_pos, declarationOf_size, matrixWords_read hm,
      Option.map_some, show ¬ (['R'] = ['T']) from by decide, show ¬ (['R'] = ['O']) from by decide, if_false]

theorem preamble_words (d s a o : String) (hd : fileWords d.toList = [d.toList]) :
    fileWords ("discount: " ++ d ++ "\nvalues: reward\nstates: " ++ s ++ "\nactions: " ++ a ++ "\nobservations: " ++ o ++ "\n").toList =
      "discount".toList :: [':'] :: d.toList :: "values".toList :: [':'] :: "reward".toList :: "states".toList :: [':'] :: (fileWords s.toList ++
        ("actions".toList :: [':'] :: (fileWords a.toList ++ ("observations".toList :: [':'] :: fileWords o.toList)))) := by
  simp only [String.toList_append]
  rw [show "\n".toList = ['\n'] from by decide, fileWords_newline, fileWords_nil,
    show "\nobservations: ".toList = '\n' :: "observations:".toList ++ [' '] from by decide, fileWords_around isCut_newline isCut_space,
    show "\nactions: ".toList = '\n' :: "actions:".toList ++ [' '] from by decide, fileWords_around isCut_newline isCut_space,
    show "\nvalues: reward\nstates: ".toList = '\n' :: "values: reward\nstates:".toList ++ [' '] from by decide, fileWords_around isCut_newline isCut_space,
    show "discount: ".toList = "discount:".toList ++ [' '] from by decide, fileWords_after isCut_space, hd,
    show fileWords ("discount:".toList ++ [' ']) = ["discount".toList, [':']] from by decide,
    show fileWords ('\n' :: "values: reward\nstates:".toList ++ [' ']) = ["values".toList, [':'], "reward".toList, "states".toList, [':']] from by decide,
    show fileWords ('\n' :: "actions:".toList ++ [' ']) = ["actions".toList, [':']] from by decide,
    show fileWords ('\n' :: "observations:".toList ++ [' ']) = ["observations".toList, [':']] from by decide]
  simp

end Verif
