import Verif.Proof.SolverFile
import Verif.Props.Names

set_option linter.unusedSectionVars false
set_option linter.unusedSimpArgs false

/-! C100: the input file of the solver describes the model. -/

namespace Verif
open Spec

theorem arr3_rows (A : Arr3) : A.toList = (List.range A.n0).map fun i => rowsOf A.n1 A.n2 (A.at_ i) := rfl

theorem arr4_rows (A : Arr4) : A.toList = (List.range A.n0).map fun i => (List.range A.n1).map fun j => rowsOf A.n2 A.n3 (A.at_ i j) := rfl

theorem dump3_some (name : String) (X : Nat → String) (n k c : Nat) (hc : 0 < n → 0 < c) (v : Nat → Nat → Nat → ℚ) :
    ∃ t, ∃ m : Nat → List (List ℚ), dump3 fiveText name ((List.range n).map X) ((List.range n).map fun i => rowsOf k c (v i)) = .ok t ∧
      fileWords t.toList = (List.range n).flatMap (fun i => blockWords name (X i) (m i)) ∧ ∀ i < n, MatrixFor k c (v i) (m i) := by
  rcases Nat.eq_zero_or_pos n with rfl | e
  · exact ⟨"", fun _ => [], rfl, by simp [fileWords_nil], by omega⟩
  · obtain ⟨t, m, h1, h2, h3⟩ := dump3_words name X n k (hc e) v
    exact ⟨t, m, h1, h2, fun i _ => h3 i⟩

theorem dump4_some (name : String) (X Y : Nat → String) (n s k c : Nat) (hc : 0 < n → 0 < c) (v : Nat → Nat → Nat → Nat → ℚ) :
    ∃ t, ∃ m : Nat → Nat → List (List ℚ), dump4 fiveText name ((List.range n).map X) ((List.range s).map Y)
        ((List.range n).map fun i => (List.range s).map fun j => rowsOf k c (v i j)) = .ok t ∧
      fileWords t.toList = (List.range n).flatMap (fun i => (List.range s).flatMap fun j =>
        blockWords name (X i ++ " : " ++ Y j) (m i j)) ∧ ∀ i < n, ∀ j, MatrixFor k c (v i j) (m i j) := by
  rcases Nat.eq_zero_or_pos n with rfl | e
  · exact ⟨"", fun _ _ => [], rfl, by simp [fileWords_nil], by omega⟩
  · obtain ⟨t, m, h1, h2, h3⟩ := dump4_words name X Y n s k (hc e) v
    exact ⟨t, m, h1, h2, fun i _ j => h3 i j⟩

theorem keyword_cons {k : String} {w : FileWord} (h : w = k.toList) (ws : List FileWord) : keyword k (w :: [':'] :: ws) = some ws := by
  simp [keyword, h]

/-- The file of a good model. -/
theorem file_read (p : Pomdp) (hp : p.Good) (strNum : ℚ → String) (hd : ReadsAs (strNum p.discount) p.discount) (hS : Writable p.sNames)
    (hA : Writable p.aNames) (hO : Writable p.oNames) :
    ∃ t f, p.dump fiveText strNum = .ok t ∧ readSolverFile t.toList = some f ∧ FileDescribes f p := by
  obtain ⟨hsh, _, _, nS, nA, nO, _, _⟩ := (good_iff p).1 hp
  obtain ⟨hpos, hposO⟩ := good_pos p hp
  obtain ⟨_, _, _, e1, e2, e3, e4, e5, e6, e7, e8, e9, e10, e11⟩ := hsh
  have nS' : p.sNames.asList.Nodup := nS
  have nA' : p.aNames.asList.Nodup := nA
  obtain ⟨t0, r0, a1, a2, a3⟩ := dump1_words (a := p.start) (by rintro h; rw [h] at e1; simp at e1; omega)
  obtain ⟨tT, mT, b1, b2, b3⟩ := dump3_some "T" (nameTextAt p.aNames) p.nActions p.nStates p.nStates (fun _ => hpos) p.T.at_
  obtain ⟨tO, mO, c1, c2, c3⟩ := dump3_some "O" (nameTextAt p.aNames) p.nActions p.nStates p.nObservations hposO p.O.at_
  obtain ⟨tR, mR, d1, d2, d3⟩ := dump4_some "R" (nameTextAt p.aNames) (nameTextAt p.sNames) p.nActions p.nStates p.nStates p.nObservations hposO p.R.at_
  have tx : p.actions.map Name.toStr = (List.range p.nActions).map (nameTextAt p.aNames) := asList_texts p.aNames
  have ty : p.states.map Name.toStr = (List.range p.nStates).map (nameTextAt p.sNames) := asList_texts p.sNames
  rw [e1] at a3
  let bs : List (List FileWord × FileEntry) :=
    (List.range p.nActions).map (fun a => (blockWords "T" (nameTextAt p.aNames a) (mT a), .T a (mT a))) ++
    (List.range p.nActions).map (fun a => (blockWords "O" (nameTextAt p.aNames a) (mO a), .O a (mO a))) ++
    (List.range p.nActions).flatMap (fun a => (List.range p.nStates).map fun s =>
      (blockWords "R" (nameTextAt p.aNames a ++ " : " ++ nameTextAt p.sNames s) (mR a s), .R a s (mR a s)))
  have hb : ∀ b ∈ bs, EntryFor (declarationOf p.sNames) (declarationOf p.aNames) (declarationOf p.oNames) b.1 b.2 := by
    intro b hb
    simp only [bs, List.mem_append, List.mem_map, List.mem_flatMap, List.mem_range] at hb
    rcases hb with (⟨a, ha, rfl⟩ | ⟨a, ha, rfl⟩) | ⟨a, ha, s, hs, rfl⟩
    · exact entry_T hA nA' ha (b3 a ha)
    · exact entry_O hA nA' ha (c3 a ha)
    · exact entry_R hS hA nS' nA' ha hs (d3 a ha s)
  have hwords : bs.flatMap Prod.fst = fileWords tT.toList ++ (fileWords tO.toList ++ fileWords tR.toList) := by
    rw [b2, c2, d2]
    simp only [bs, List.flatMap_append, List.flatMap_map, List.flatMap_assoc, List.append_assoc]
  have hent : bs.map Prod.snd = (List.range p.nActions).map (fun a => FileEntry.T a (mT a)) ++ (List.range p.nActions).map (fun a => .O a (mO a)) ++
      (List.range p.nActions).flatMap (fun a => (List.range p.nStates).map fun s => .R a s (mR a s)) := by
    simp only [bs, List.map_append, List.map_map, List.map_flatMap]
    rfl
  have hdump : p.dump fiveText strNum = .ok ("\n\n".intercalate ["discount: " ++ strNum p.discount ++ "\nvalues: reward\nstates: " ++
      dumpListOrCount p.sNames ++ "\nactions: " ++ dumpListOrCount p.aNames ++ "\nobservations: " ++ dumpListOrCount p.oNames ++ "\n",
      "start: " ++ t0, tT, tO, tR]) := by
    unfold Pomdp.dump
    rw [tx, ty, arr3_rows, arr3_rows, arr4_rows, e2, e3, e4, e5, e6, e7, e8, e9, e10, e11, a1, b1, c1, d1]
    rfl
  refine ⟨_, ⟨p.discount, "reward".toList, declarationOf p.sNames, declarationOf p.aNames, declarationOf p.oNames, r0, bs.map Prod.snd⟩, hdump, ?_,
    rfl, rfl, rfl, rfl, rfl, a3, mT, mO, mR, hent, fun a ha => ⟨b3 a ha, c3 a ha, fun s _ => d3 a ha s⟩⟩
  · unfold readSolverFile
    rw [strWords_intercalate _ (by decide) (by decide)]
    simp only [List.flatMap_cons, List.flatMap_nil, List.append_nil]
    rw [preamble_words _ _ _ _ hd.1]
    have hstart : fileWords ("start: " ++ t0).toList = "start".toList :: [':'] :: rowWords r0 := by
      rw [String.toList_append, show "start: ".toList = "start:".toList ++ [' '] from by decide, fileWords_after isCut_space, a2,
        show fileWords ("start:".toList ++ [' ']) = ["start".toList, [':']] from by decide]
      rfl
    rw [hstart]
    simp only [List.cons_append, List.append_assoc]
    rw [keyword_cons rfl]
    simp only [Option.bind_some, readNumbers, hd.2, Option.map_some]
    rw [keyword_cons rfl]
    simp only [Option.bind_some, List.headD_cons]
    unfold readDeclarations
    rw [keyword_cons rfl]
    simp only [Option.bind_some]
    rw [readNames_words _ hS _ (by decide)]
    simp only
    rw [keyword_cons rfl]
    simp only [Option.bind_some]
    rw [readNames_words _ hA _ (by decide)]
    simp only
    rw [keyword_cons rfl]
    simp only [Option.bind_some]
    rw [readNames_words _ hO _ (by decide)]
    simp only
    unfold readBody
    rw [keyword_cons rfl]
    simp only [Option.bind_some, declarationOf_size]
    have hr := readNumbers_row r0 (bs.flatMap Prod.fst) (fun x hx => by
      obtain ⟨j, hj⟩ := List.getElem?_of_mem hx
      have := a3.2.1 j (by rw [← a3.1]; exact (List.getElem?_eq_some_iff.1 hj).1)
      rwa [List.getD_eq_getElem?_getD, hj] at this)
    rw [a3.1, hwords] at hr
    have hn : p.sNames.asList.length = p.nStates := rfl
    rw [hn, hr]
    simp only [Option.bind_some]
    rw [← hwords, readEntries_blocks bs _ (blocks_length bs hb) hb]
    rfl

/-- The file of a constructed model, read by the rules of the solver's format, declares the states, actions and observations, the
discount and rewards, and gives the start belief, the transition and observation probabilities of each action and the rewards of each
action and state. -/
theorem C100_file_partial (solver : Option String) (T O : Arr3) (R : Arr4) (start : List ℚ) (discount : ℚ)
    (states actions observations : Option (List Name)) (values : String) (p : Pomdp)
    (h : Pomdp.mk' solver T O R start discount states actions observations values = .ok p)
    (strNum : ℚ → String) (hd : ReadsAs (strNum discount) discount)
    (hS : Writable p.sNames) (hA : Writable p.aNames) (hO : Writable p.oNames) :
    ∃ t f, p.dump fiveText strNum = .ok t ∧ readSolverFile t.toList = some f ∧ FileDescribes f p := by
  obtain ⟨r, path, _, _, hg, rfl⟩ := (mk'_ok_iff ..).1 h
  exact file_read _ hg strNum hd hS hA hO

/-! ### Exact numbers -/

theorem fiveDecimals_near {x y : ℚ} (hx : FiveDecimals x) (hy : FiveDecimals y) (h : |x - y| ≤ 1 / 200000) : x = y := by
  obtain ⟨k, rfl⟩ := hx
  obtain ⟨l, rfl⟩ := hy
  obtain ⟨h1, h2⟩ := abs_le.1 h
  have a1 : ((k - l : Int) : ℚ) < 1 := by push_cast; linarith
  have a2 : (-1 : ℚ) < ((k - l : Int) : ℚ) := by push_cast; linarith
  have b1 : k - l < (1 : Int) := by exact_mod_cast a1
  have b2 : (-1 : Int) < k - l := by exact_mod_cast a2
  have : k = l := by omega
  rw [this]

theorem sumRange_fiveDecimals {v : Nat → ℚ} : ∀ n : Nat, (∀ i < n, FiveDecimals (v i)) → FiveDecimals (sumRange n v)
  | 0, _ => ⟨0, by simp [sumRange]⟩
  | n + 1, h => by
      obtain ⟨k, hk⟩ := sumRange_fiveDecimals n (fun i hi => h i (by omega))
      obtain ⟨l, hl⟩ := h n (by omega)
      exact ⟨k + l, by rw [sumRange_succ, hk, hl]; push_cast; ring⟩

theorem rowFor_exact {c : Nat} {v : Nat → ℚ} {row : List ℚ} (h : RowFor c v row) (hv : ∀ i < c, FiveDecimals (v i)) :
    row = (List.range c).map v := by
  obtain ⟨h1, h2, ⟨m, hm, h3, _⟩, h5, _⟩ := h
  have hne : ∀ i < c, i ≠ m → row.getD i 0 = v i := fun i hi hn => fiveDecimals_near (h2 i hi) (hv i hi) (h3 i hi hn)
  have hrow : row.sum = sumRange c fun i => row.getD i 0 := by rw [sum_eq_sumRange, h1]
  have hsum : row.sum = sumRange c v := fiveDecimals_near (by rw [hrow]; exact sumRange_fiveDecimals c h2) (sumRange_fiveDecimals c hv) h5
  have hme : row.getD m 0 = v m := by
    have := error_at_one (f := fun i => row.getD i 0) (g := v) (ε := 0) hm
      (fun i hi hn => by show |row.getD i 0 - v i| ≤ 0; rw [hne i hi hn]; simp) (by rw [← hrow, hsum]; simp)
    rw [mul_zero] at this
    have := abs_nonpos_iff.1 this
    linarith
  apply List.ext_getElem
  · simp [h1]
  · intro i a b
    have hi : i < c := by rw [← h1]; exact a
    have : row.getD i 0 = v i := by
      by_cases hn : i = m
      · rw [hn]; exact hme
      · exact hne i hi hn
    rw [List.getD_eq_getElem?_getD, List.getElem?_eq_getElem a] at this
    simpa using this

theorem matrixFor_exact {n c : Nat} {v : Nat → Nat → ℚ} {m : List (List ℚ)} (h : MatrixFor n c v m) (hv : ∀ i < n, ∀ j < c, FiveDecimals (v i j)) :
    m = (List.range n).map fun i => (List.range c).map (v i) := by
  apply List.ext_getElem
  · simp [h.1]
  · intro i a b
    have hi : i < n := by rw [← h.1]; exact a
    rw [rowFor_exact (h.2 i _ (List.getElem?_eq_getElem a)) (hv i hi)]
    simp

/-- If all the numbers of the model are multiples of 0.00001, then the file has exactly these numbers. -/
theorem C100_exact_partial (solver : Option String) (T O : Arr3) (R : Arr4) (start : List ℚ) (discount : ℚ)
    (states actions observations : Option (List Name)) (values : String) (p : Pomdp)
    (h : Pomdp.mk' solver T O R start discount states actions observations values = .ok p)
    (strNum : ℚ → String) (hd : ReadsAs (strNum discount) discount)
    (hS : Writable p.sNames) (hA : Writable p.aNames) (hO : Writable p.oNames)
    (h1 : ∀ s < p.nStates, FiveDecimals (start.getD s 0))
    (h2 : ∀ a < p.nActions, ∀ s < p.nStates, ∀ s' < p.nStates, FiveDecimals (T.at_ a s s'))
    (h3 : ∀ a < p.nActions, ∀ s < p.nStates, ∀ o < p.nObservations, FiveDecimals (O.at_ a s o))
    (h4 : ∀ a < p.nActions, ∀ s < p.nStates, ∀ s' < p.nStates, ∀ o < p.nObservations, FiveDecimals (p.R.at_ a s s' o)) :
    ∃ t, p.dump fiveText strNum = .ok t ∧ readSolverFile t.toList = some ⟨discount, "reward".toList, declarationOf p.sNames, declarationOf p.aNames,
      declarationOf p.oNames, (List.range p.nStates).map fun s => start.getD s 0,
      (List.range p.nActions).map (fun a => .T a ((List.range p.nStates).map fun s => (List.range p.nStates).map (T.at_ a s))) ++
      (List.range p.nActions).map (fun a => .O a ((List.range p.nStates).map fun s => (List.range p.nObservations).map (O.at_ a s))) ++
      (List.range p.nActions).flatMap (fun a => (List.range p.nStates).map fun s =>
        .R a s ((List.range p.nStates).map fun s' => (List.range p.nObservations).map (p.R.at_ a s s')))⟩ := by
  have hp := ((mk'_ok_iff ..).1 h)
  obtain ⟨r, path, _, _, hg, rfl⟩ := hp
  obtain ⟨t, f, e1, e2, e3, e4, e5, e6, e7, e8, mT, mO, mR, e9, e10⟩ :=
    file_read _ hg strNum hd hS hA hO
  refine ⟨t, e1, ?_⟩
  rw [e2]
  obtain ⟨fd, fv, fs, fa, fo, fb, fe⟩ := f
  simp only at e3 e4 e5 e6 e7 e8 e9
  subst e3 e4 e5 e6 e7 e9
  congr 2
  · exact rowFor_exact e8 h1
  · congr 1
    · congr 1
      · apply List.map_congr_left
        intro a ha
        rw [matrixFor_exact (e10 a (List.mem_range.1 ha)).1 (h2 a (List.mem_range.1 ha))]
      · apply List.map_congr_left
        intro a ha
        rw [matrixFor_exact (e10 a (List.mem_range.1 ha)).2.1 (h3 a (List.mem_range.1 ha))]
    · apply List.flatMap_congr
      intro a ha
      apply List.map_congr_left
      intro s hs
      rw [matrixFor_exact ((e10 a (List.mem_range.1 ha)).2.2 s (List.mem_range.1 hs)) (h4 a (List.mem_range.1 ha) s (List.mem_range.1 hs))]

/-! ### Names -/

theorem writable_of {N : Names} (h : ∀ x ∈ N.asList, ∃ s : String, x = .str s ∧ IsFileName s.toList) : Writable N := by
  cases N with
  | count n => trivial
  | list l => exact h

theorem digitsVal_digits : ∀ (w : List Char) (acc n : Nat), digitsVal w acc = some n → ∀ c ∈ w, digitVal c ≠ none
  | [], _, _, _ => by simp
  | a :: w, acc, n, h => by
      unfold digitsVal at h
      cases ha : digitVal a with
      | none => rw [ha] at h; cases h
      | some d =>
          rw [ha] at h
          intro c hc
          rcases List.mem_cons.1 hc with rfl | hc
          · rw [ha]; simp
          · exact digitsVal_digits w _ n h c hc

/-- A word with a dash can be a name. -/
theorem isFileName_dash {w : List Char} (h : '-' ∈ w) (hc : ∀ c ∈ w, separates c = false ∧ c ≠ ':') : IsFileName w := by
  refine ⟨(fun e => by rw [e] at h; simp at h), hc, ?_, fun hr => ?_⟩
  · cases hp : parseNat w with
    | none => rfl
    | some n =>
        unfold parseNat at hp
        rw [if_neg (fun e => by rw [e] at h; simp at h)] at hp
        exact absurd (by decide) (digitsVal_digits w 0 n hp '-' h)
  · have : ∀ w ∈ reservedWords, '-' ∉ w := by decide
    exact this w hr h

theorem toLower_cut (c : Char) (h : c.toLower ∈ cutChars) : c ∈ cutChars := by
  unfold Char.toLower at h
  split at h
  · rename_i hc
    exfalso
    have h2 := UInt32.le_iff_toNat_le.1 hc.2
    have h1 := UInt32.le_iff_toNat_le.1 hc.1
    have hall : ∀ d ∈ cutChars, d.val.toNat < 64 := by decide
    have := hall _ h
    simp only [UInt32.toNat_add, UInt32.reduceToNat] at this h1 h2
    simp at this h1 h2
    omega
  · exact h

theorem radix_word {w : String} (h : ∀ c ∈ w.toList, c ∉ cutChars) : ∀ c ∈ (nameRadix w).toList, separates c = false ∧ c ≠ ':' := by
  intro c hc
  unfold nameRadix at hc
  rw [String.toList_ofList] at hc
  obtain ⟨a, ha, rfl⟩ := List.mem_map.1 hc
  split
  · decide
  · rename_i hn
    have : a.toLower ∉ cutChars := fun e => h a ha (toLower_cut a e)
    simp only [cutChars, List.mem_cons, List.not_mem_nil, or_false, not_or] at this
    refine ⟨?_, this.2.2.2⟩
    simp only [separates, List.mem_cons, List.not_mem_nil, or_false, decide_eq_false_iff_not, not_or]
    exact ⟨hn, this.1, this.2.1, this.2.2.1⟩

theorem suffix_chars : ∀ l : List Nat, ∀ c ∈ (orderSuffix l).toList, c ∉ cutChars
  | [] => by simp [orderSuffix]
  | i :: l => by
      intro c hc
      simp only [orderSuffix, String.toList_append, List.mem_append, toString_nat] at hc
      rcases hc with (hc | hc) | hc
      · revert c
        decide
      · obtain ⟨h1, h2⟩ := digit_no_cut ((showNat_spec i).2.1 c hc)
        simp only [separates, List.mem_cons, List.not_mem_nil, or_false, decide_eq_false_iff_not, not_or] at h1
        simp only [cutChars, List.mem_cons, List.not_mem_nil, or_false, not_or]
        exact ⟨h1.2.1, h1.2.2.1, h1.2.2.2, h2⟩
      · exact suffix_chars l c hc

/-- The models made by `HTMToPOMDP` from tasks whose names have no tabs, newlines and colons (they may have blanks): the file declares
the names of the states, actions and observations, and describes the model. -/
theorem C100_tasks_partial (path : String) (exp : ℚ → ℚ) (h : HtmParams) (fuel : Nat) (t : Htm CAction) (hb : Built t) (hf : HFull t)
    (hd : callDepth t ≤ fuel) (p : Pomdp) (hp : htmToPomdp (some path) exp nameRadix h fuel t = .ok p)
    (hc : ∀ a ∈ Spec.leaves t, ∀ c ∈ a.name.toList, c ∉ cutChars) (strNum : ℚ → String) (h1 : ReadsAs (strNum 1) 1) :
    ∃ (L : List String) (text : String) (f : SolverFile), L.Perm ((orderNames CAction.name [] t).map nameRadix) ∧
      p.dump fiveText strNum = .ok text ∧ readSolverFile text.toList = some f ∧ FileDescribes f p ∧ f.discount = 1 ∧
      f.states = .list ((L.flatMap (fun x => ["init-" ++ x, "H-" ++ x, "R-" ++ x]) ++
        (if h.rewardState then ["end-reward", "end"] else ["end"])).map String.toList) ∧
      f.actions = .list (("wait" :: L.flatMap (fun x => ["phy-" ++ x, "com-ask-intention-" ++ x, "com-tell-intention-" ++ x,
        "com-ask-finished-" ++ x])).map String.toList) ∧
      f.observations = .list ((["none", "yes", "no", "error"] ++ (if h.loop ∨ h.rewardState then ["done"] else [])).map String.toList) := by
  obtain ⟨n, hn, ⟨hfn, -, -⟩, h4⟩ := htmToPomdp_ok (some path) exp nameRadix h fuel t hb hf hd
  have hperm := C99_names fuel t hb n hn
  rw [h4] at hp
  obtain ⟨hs, -, -, -, -, e5, e6, e7, e8, hg⟩ := htmConvert_ok path exp nameRadix h n hfn p hp
  rw [htmConvert_eq _ _ _ _ _ (full_noEmpty n hfn) hs, mk'_ok_iff] at hp
  obtain ⟨r, path', hr, _, _, hpe⟩ := hp
  have ns : p.sNames = .list (n.concat (leafStates nameRadix) ++ endStates h) := by rw [hpe]; rfl
  have na : p.aNames = .list (Name.str "wait" :: n.concat (leafActions nameRadix)) := by rw [hpe]; rfl
  have no : p.oNames = .list (htmObservations h) := by rw [hpe]; rfl
  have hword : ∀ a ∈ n.leaves, ∀ c ∈ (nameRadix a.name).toList, separates c = false ∧ c ≠ ':' := by
    intro a ha
    apply radix_word
    have : a.name ∈ orderNames CAction.name [] t := hperm.subset (List.mem_map_of_mem ha)
    obtain ⟨b, hb', l, hl⟩ := orderNames_mem _ _ _ _ this
    rw [hl, String.toList_append]
    intro c hc'
    rcases List.mem_append.1 hc' with hc' | hc'
    · exact hc b hb' c hc'
    · exact suffix_chars _ c hc'
  have hname : ∀ (pre : String), '-' ∈ pre.toList → (∀ c ∈ pre.toList, separates c = false ∧ c ≠ ':') → ∀ a ∈ n.leaves,
      IsFileName (pre ++ nameRadix a.name).toList := by
    intro pre h1 h2 a ha
    rw [String.toList_append]
    refine isFileName_dash (by simp [h1]) fun c hc' => ?_
    rcases List.mem_append.1 hc' with hc' | hc'
    · exact h2 c hc'
    · exact hword a ha c hc'
  have wS : Writable p.sNames := by
    rw [ns]
    intro x hx
    rcases List.mem_append.1 hx with hx | hx
    · obtain ⟨a, ha, hx⟩ := List.mem_flatMap.1 hx
      simp only [leafStates, List.map_cons, List.map_nil, List.mem_cons, List.not_mem_nil, or_false] at hx
      rcases hx with rfl | rfl | rfl
      · exact ⟨_, rfl, hname "init-" (by decide) (by decide) a ha⟩
      · exact ⟨_, rfl, hname "H-" (by decide) (by decide) a ha⟩
      · exact ⟨_, rfl, hname "R-" (by decide) (by decide) a ha⟩
    · have : x = .str "end-reward" ∨ x = .str "end" := by
        unfold endStates at hx
        split at hx <;> simp at hx <;> tauto
      rcases this with rfl | rfl
      · exact ⟨_, rfl, by unfold IsFileName; decide⟩
      · exact ⟨_, rfl, by unfold IsFileName; decide⟩
  have wA : Writable p.aNames := by
    rw [na]
    intro x hx
    rcases List.mem_cons.1 hx with rfl | hx
    · exact ⟨_, rfl, by unfold IsFileName; decide⟩
    · obtain ⟨a, ha, hx⟩ := List.mem_flatMap.1 hx
      simp only [leafActions, List.map_cons, List.map_nil, List.mem_cons, List.not_mem_nil, or_false] at hx
      rcases hx with rfl | rfl | rfl | rfl
      · exact ⟨_, rfl, hname ("phy" ++ "-") (by decide) (by decide) a ha⟩
      · exact ⟨_, rfl, hname ("com-ask-intention" ++ "-") (by decide) (by decide) a ha⟩
      · exact ⟨_, rfl, hname ("com-tell-intention" ++ "-") (by decide) (by decide) a ha⟩
      · exact ⟨_, rfl, hname ("com-ask-finished" ++ "-") (by decide) (by decide) a ha⟩
  have wO : Writable p.oNames := by
    rw [no]
    intro x hx
    have : x = .str "none" ∨ x = .str "yes" ∨ x = .str "no" ∨ x = .str "error" ∨ x = .str "done" := by
      unfold htmObservations at hx
      split at hx <;> simp at hx <;> tauto
    rcases this with rfl | rfl | rfl | rfl | rfl <;> exact ⟨_, rfl, by unfold IsFileName; decide⟩
  obtain ⟨text, f, g1, g2, g3⟩ := file_read p hg strNum (by rw [e5]; exact h1) wS wA wO
  have g4 := g3
  obtain ⟨d1, d2, d3, d4, d5, -⟩ := g4
  refine ⟨n.leaves.map fun a => nameRadix a.name, text, f, ?_, g1, g2, g3, by rw [d1, e5], ?_, ?_, ?_⟩
  · have := hperm.map nameRadix
    rwa [List.map_map] at this
  · rw [d3, ns]
    simp only [declarationOf, N2P.concat, List.map_append, List.map_flatMap, List.flatMap_map]
    congr 2
    unfold endStates
    split <;> rfl
  · rw [d4, na]
    simp only [declarationOf, N2P.concat, List.map_cons, List.map_flatMap, List.flatMap_map]
    rfl
  · rw [d5, no]
    unfold htmObservations
    split <;> rfl

/-- Two states, one of which has a blank in its name. -/
def blankStates : List Name := [.str "on table", .str "done"]

/-- Names with blanks are accepted by the constructor, but the solver cannot read the file. -/
theorem C100_false_blanks : ∃ T O R start p t, Pomdp.mk' (some "pomdp-solve") T O R start 1 (some blankStates) none none "reward" = .ok p ∧
    ReadsAs "1" 1 ∧ p.dump fiveText (fun _ => "1") = .ok t ∧ readSolverFile t.toList = none := by
  let T : Arr3 := ⟨1, 2, 2, fun _ _ s' => if s' = 1 then 1 else 0⟩
  let O : Arr3 := ⟨1, 2, 1, fun _ _ _ => 1⟩
  let R : Arr4 := ⟨1, 2, 2, 1, fun _ _ _ _ => 1⟩
  let p : Pomdp := ⟨.list blankStates, .count 1, .count 1, T, O, R, [1, 0], 1, "pomdp-solve"⟩
  have hp : Pomdp.mk' (some "pomdp-solve") T O R [1, 0] 1 (some blankStates) none none "reward" = .ok p := by
    rw [mk'_ok_iff]
    exact ⟨R, "pomdp-solve", rfl, rfl, by unfold Pomdp.Good; decide +kernel, rfl⟩
  obtain ⟨t, ht⟩ := C41_defined _ _ _ _ _ _ _ _ _ _ p hp fiveText (fun _ => "1")
  refine ⟨T, O, R, [1, 0], p, t, hp, by unfold ReadsAs; decide +kernel, ht, ?_⟩
  have he : p.dump fiveText (fun _ => "1") = .ok ("discount: 1\nvalues: reward\nstates: on table done\nactions: 1\nobservations: 1\n\n\nstart: 1.00000 0.00000\n\n" ++
      "T : 0\n0.00000 1.00000\n0.00000 1.00000\n\nO : 0\n1.00000\n1.00000\n\nR : 0 : on table\n1.00000\n1.00000\nR : 0 : done\n1.00000\n1.00000") := by
    decide +kernel
  rw [he] at ht
  cases ht
  have hn : (readSolverFile ("discount: 1\nvalues: reward\nstates: on table done\nactions: 1\nobservations: 1\n\n\nstart: 1.00000 0.00000\n\n" ++
      "T : 0\n0.00000 1.00000\n0.00000 1.00000\n\nO : 0\n1.00000\n1.00000\n\nR : 0 : on table\n1.00000\n1.00000\nR : 0 : done\n1.00000\n1.00000").toList).isNone = true := by
    decide +kernel
  exact Option.isNone_iff_eq_none.1 hn

theorem tiger_made : Pomdp.mk' (some "pomdp-solve") tiger.T tiger.O tiger.R tiger.start tiger.discount (some [.str "left", .str "right"])
    (some [.str "listen", .str "open-left", .str "open-right"]) none "reward" = .ok tiger := by
  rw [mk'_ok_iff]
  exact ⟨tiger.R, "pomdp-solve", rfl, rfl, by unfold Pomdp.Good; decide +kernel, rfl⟩

theorem tiger_writable : Writable tiger.sNames ∧ Writable tiger.aNames := by
  constructor
  · intro x hx
    simp only [List.mem_cons, List.not_mem_nil, or_false] at hx
    rcases hx with rfl | rfl <;> exact ⟨_, rfl, by unfold IsFileName; decide⟩
  · intro x hx
    simp only [List.mem_cons, List.not_mem_nil, or_false] at hx
    rcases hx with rfl | rfl | rfl <;> exact ⟨_, rfl, by unfold IsFileName; decide⟩

/-- Non-vacuity of C100: the tiger problem. -/
example : ∃ t f, tiger.dump fiveText (fun _ => "0.95") = .ok t ∧ readSolverFile t.toList = some f ∧ FileDescribes f tiger :=
  C100_file_partial (some "pomdp-solve") tiger.T tiger.O tiger.R tiger.start tiger.discount (some [.str "left", .str "right"])
    (some [.str "listen", .str "open-left", .str "open-right"]) none "reward" tiger tiger_made (fun _ => "0.95") (by unfold ReadsAs; decide +kernel)
    tiger_writable.1 tiger_writable.2 trivial

/-- Non-vacuity of C100: the numbers of the tiger problem are written exactly. -/
example : ∃ t f, tiger.dump fiveText (fun _ => "0.95") = .ok t ∧ readSolverFile t.toList = some f ∧ f.start = [1 / 2, 1 / 2] := by
  obtain ⟨t, h1, h2⟩ := C100_exact_partial (some "pomdp-solve") tiger.T tiger.O tiger.R tiger.start tiger.discount (some [.str "left", .str "right"])
    (some [.str "listen", .str "open-left", .str "open-right"]) none "reward" tiger tiger_made (fun _ => "0.95") (by unfold ReadsAs; decide +kernel)
    tiger_writable.1 tiger_writable.2 trivial
    (by
      intro s hs
      have hs : s < 2 := hs
      interval_cases s <;> exact ⟨50000, by norm_num [tiger]⟩)
    (by
      intro a _ s _ s' _
      simp only [tiger]
      split_ifs
      exacts [⟨100000, by norm_num⟩, ⟨0, by norm_num⟩, ⟨50000, by norm_num⟩])
    (by
      intro a _ s _ o _
      simp only [tiger]
      split_ifs
      exacts [⟨85000, by norm_num⟩, ⟨15000, by norm_num⟩, ⟨50000, by norm_num⟩])
    (by
      intro a _ s _ s' _ o _
      simp only [tiger]
      split_ifs
      exacts [⟨-100000, by norm_num⟩, ⟨-10000000, by norm_num⟩, ⟨1000000, by norm_num⟩])
  exact ⟨t, _, h1, h2, rfl⟩

/-- Non-vacuity of C100: the task of the stool. -/
example : ∃ p text f, htmToPomdp (some "pomdp-solve") (fun _ => 1 / 2) nameRadix demoParams 9 stoolTask = .ok p ∧
    p.dump fiveText (fun _ => "1") = .ok text ∧ readSolverFile text.toList = some f ∧ FileDescribes f p := by
  obtain ⟨p, hp, -⟩ := C99_stool "pomdp-solve" (fun _ => 1 / 2) demoParams 9 (by decide) rfl (by decide)
  obtain ⟨L, text, f, -, h2, h3, h4, -⟩ := C100_tasks_partial "pomdp-solve" (fun _ => 1 / 2) demoParams 9 stoolTask
    (by simp [stoolTask, stoolSeq, mountCentral, mountLegs, releaseCentral, mountTop, stoolLeaf, Built, BuiltL])
    (by simp [stoolTask, stoolSeq, mountCentral, mountLegs, releaseCentral, mountTop, stoolLeaf, HFull, HFullL]) (by decide) p hp (by decide +kernel)
    (fun _ => "1") (by unfold ReadsAs; decide +kernel)
  exact ⟨p, text, f, hp, h2, h3, h4⟩

end Verif
