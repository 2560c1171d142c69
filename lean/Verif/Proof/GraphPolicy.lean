import Verif.Model.GraphPolicy
import Verif.Spec.GraphPolicy
import Verif.Proof.Pomdp
import Verif.Proof.Text
import Verif.Props.Pomdp

/-! Lemmas on graph policies. -/

set_option linter.unusedSectionVars false
set_option linter.unusedSimpArgs false

namespace Verif
open Spec

/-! ### Parsing -/

/-- What `parse_value_function` does on the lines that are not blank. -/
def readPairs (fromstring : List Char → List ℚ) : List (List Char) → List Int → List (List ℚ) → Py (Bool × List Int × List (List ℚ))
  | [], as, vs => .ok (false, as, vs)
  | [a], as, vs => match pyInt a with
      | .error e => .error e
      | .ok n => .ok (true, as ++ [n], vs)
  | a :: v :: rest, as, vs => match pyInt a with
      | .error e => .error e
      | .ok n => readPairs fromstring rest (as ++ [n]) (vs ++ [fromstring v])

theorem parseVfLoop_filter (f : List Char → List ℚ) : ∀ (lines : List (List Char)) (ha : Bool) (as : List Int) (vs : List (List ℚ)),
    parseVfLoop f lines ha as vs = parseVfLoop f (lines.filter fun l => !isspace l) ha as vs := by
  intro lines
  induction lines with
  | nil => intros; rfl
  | cons l lines ih =>
    intro ha as vs
    by_cases h : isspace l = true
    · simp only [parseVfLoop, h, if_true, List.filter_cons, Bool.not_true, Bool.false_eq_true, if_false]
      exact ih ha as vs
    · have h : isspace l = false := by simpa using h
      simp only [List.filter_cons, h, Bool.not_false, if_true, parseVfLoop, Bool.false_eq_true, if_false]
      split
      · exact ih _ _ _
      · cases pyInt l with
        | error e => rfl
        | ok n => exact ih _ _ _

theorem parseVfLoop_pairs (f : List Char → List ℚ) (n : Nat) : ∀ (lines : List (List Char)), lines.length ≤ n →
    (∀ l ∈ lines, isspace l = false) → ∀ (as : List Int) (vs : List (List ℚ)),
    parseVfLoop f lines false as vs = readPairs f lines as vs := by
  induction n with
  | zero =>
    intro lines hl _ as vs
    have : lines = [] := List.eq_nil_of_length_eq_zero (by omega)
    subst this
    rfl
  | succ n ih =>
    intro lines hl hb as vs
    match lines, hl, hb with
    | [], _, _ => rfl
    | [a], _, hb =>
      simp only [parseVfLoop, readPairs, hb a (by simp), Bool.false_eq_true, if_false]
      cases pyInt a <;> rfl
    | a :: v :: rest, hl, hb =>
      simp only [parseVfLoop, readPairs, hb a (by simp), hb v (by simp), Bool.false_eq_true, if_false, if_true]
      cases pyInt a with
      | error e => rfl
      | ok k => exact ih rest (by simp at hl; omega) (fun l hl' => hb l (by simp [hl'])) _ _

theorem parseVf_eq (f : List Char → List ℚ) (lines : List (List Char)) :
    parseVfLoop f lines false [] [] = readPairs f (lines.filter fun l => !isspace l) [] [] := by
  rw [parseVfLoop_filter]
  apply parseVfLoop_pairs f _ _ (le_refl _)
  intro l hl
  have := (List.mem_filter.1 hl).2
  simpa using this

theorem readPairs_ok (f : List Char → List ℚ) (pairs : List (List Char × List Char)) (ns : List Int)
    (h : List.Forall₂ (fun x n => pyInt x.1 = .ok n) pairs ns) : ∀ (as : List Int) (vs : List (List ℚ)) (tail : List (List Char)),
    readPairs f (pairs.flatMap (fun x => [x.1, x.2]) ++ tail) as vs =
      readPairs f tail (as ++ ns) (vs ++ pairs.map fun x => f x.2) := by
  induction h with
  | nil => intro as vs tail; simp
  | cons h _ ih =>
    intro as vs tail
    simp only [List.flatMap_cons, List.cons_append, List.nil_append, readPairs, h]
    rw [ih]
    simp

theorem readPairs_lengths (f : List Char → List ℚ) (n : Nat) : ∀ (l : List (List Char)), l.length ≤ n →
    ∀ (as : List Int) (vs : List (List ℚ)) (r : Bool × List Int × List (List ℚ)), as.length = vs.length →
    readPairs f l as vs = .ok r → r.1 = false → r.2.1.length = r.2.2.length := by
  induction n with
  | zero =>
    intro l hl as vs r h hr h1
    have : l = [] := List.eq_nil_of_length_eq_zero (by omega)
    subst this
    simp only [readPairs, Except.ok.injEq] at hr
    subst hr
    exact h
  | succ n ih =>
    intro l hl as vs r h hr h1
    match l, hl with
    | [], _ =>
      simp only [readPairs, Except.ok.injEq] at hr
      subst hr
      exact h
    | [a], _ =>
      simp only [readPairs] at hr
      cases hp : pyInt a with
      | error e => rw [hp] at hr; cases hr
      | ok k => rw [hp] at hr; simp only [Except.ok.injEq] at hr; subst hr; cases h1
    | a :: v :: rest, hl =>
      simp only [readPairs] at hr
      cases hp : pyInt a with
      | error e => rw [hp] at hr; cases hr
      | ok k =>
        rw [hp] at hr
        exact ih rest (by simp at hl; omega) _ _ r (by simp [h]) hr h1

theorem pyInt_error (s : List Char) (e : PyErr) (h : pyInt s = .error e) : e = .valueError := by
  have hn : ∀ o sg, natOrError o sg = .error e → e = .valueError := by
    intro o sg h
    cases o with
    | none => cases h; rfl
    | some n => cases h
  unfold pyInt at h
  split at h
  · cases h; rfl
  · split at h
    · exact hn _ _ h
    · split at h
      · exact hn _ _ h
      · exact hn _ _ h

/-- The outcome of reading the lines. -/
theorem readPairs_cases (f : List Char → List ℚ) (n : Nat) : ∀ (l : List (List Char)), l.length ≤ n →
    ∀ (as : List Int) (vs : List (List ℚ)),
    (∃ (pairs : List (List Char × List Char)) (ns : List Int), l = pairs.flatMap (fun x => [x.1, x.2]) ∧ List.Forall₂ (fun x k => pyInt x.1 = .ok k) pairs ns ∧
      readPairs f l as vs = .ok (false, as ++ ns, vs ++ pairs.map fun x => f x.2)) ∨
    (∃ (pairs : List (List Char × List Char)) (ns : List Int) (a : List Char) (k : Int), l = pairs.flatMap (fun x => [x.1, x.2]) ++ [a] ∧ List.Forall₂ (fun x k => pyInt x.1 = .ok k) pairs ns ∧
      pyInt a = .ok k ∧ ∃ r, readPairs f l as vs = .ok (true, r)) ∨
    (∃ (pairs : List (List Char × List Char)) (ns : List Int) (a : List Char) (rest : List (List Char)), l = pairs.flatMap (fun x => [x.1, x.2]) ++ a :: rest ∧ List.Forall₂ (fun x k => pyInt x.1 = .ok k) pairs ns ∧
      pyInt a = .error .valueError ∧ readPairs f l as vs = .error .valueError) := by
  induction n with
  | zero =>
    intro l hl as vs
    have : l = [] := List.eq_nil_of_length_eq_zero (by omega)
    subst this
    exact Or.inl ⟨[], [], rfl, .nil, by simp [readPairs]⟩
  | succ n ih =>
    intro l hl as vs
    match l, hl with
    | [], _ => exact Or.inl ⟨[], [], rfl, .nil, by simp [readPairs]⟩
    | [a], _ =>
      cases hp : pyInt a with
      | error e =>
        have := pyInt_error a e hp
        subst this
        exact Or.inr (Or.inr ⟨[], [], a, [], rfl, .nil, hp, by simp [readPairs, hp]⟩)
      | ok k => exact Or.inr (Or.inl ⟨[], [], a, k, rfl, .nil, hp, _, by simp only [readPairs, hp]; rfl⟩)
    | a :: v :: rest, hl =>
      cases hp : pyInt a with
      | error e =>
        have := pyInt_error a e hp
        subst this
        exact Or.inr (Or.inr ⟨[], [], a, v :: rest, rfl, .nil, hp, by simp [readPairs, hp]⟩)
      | ok k =>
        simp only [readPairs, hp]
        rcases ih rest (by simp at hl; omega) (as ++ [k]) (vs ++ [f v]) with
          ⟨pairs, ns, h1, h2, h3⟩ | ⟨pairs, ns, b, kb, h1, h2, h3, h4⟩ | ⟨pairs, ns, b, rs, h1, h2, h3, h4⟩
        · exact Or.inl ⟨(a, v) :: pairs, k :: ns, by simp [h1], .cons hp h2, by rw [h3]; simp⟩
        · exact Or.inr (Or.inl ⟨(a, v) :: pairs, k :: ns, b, kb, by simp [h1], .cons hp h2, h3, h4⟩)
        · exact Or.inr (Or.inr ⟨(a, v) :: pairs, k :: ns, b, rs, by simp [h1], .cons hp h2, h3, h4⟩)

theorem vstack_ok {α : Type} (vs : List (List α)) (h : vs ≠ []) (k : Nat) (hk : ∀ v ∈ vs, v.length = k) : vstack vs = .ok vs := by
  cases vs with
  | nil => exact absurd rfl h
  | cons v vs =>
    simp only [vstack]
    rw [if_pos]
    rw [List.all_eq_true]
    intro w hw
    simp [hk w (by simp [hw]), hk v (by simp)]

theorem vstack_eq {α : Type} (vs ws : List (List α)) (h : vstack vs = .ok ws) : ws = vs ∧ vs ≠ [] := by
  cases vs with
  | nil => cases h
  | cons v vs =>
    simp only [vstack] at h
    split at h
    · cases h; exact ⟨rfl, by simp⟩
    · cases h

/-! ### Policy graph files -/

theorem joinWords_cons (w : List Char) (ws : List (List Char)) (h : ws ≠ []) : joinWords (w :: ws) = w ++ ' ' :: joinWords ws := by
  cases ws with
  | nil => exact absurd rfl h
  | cons => rfl

theorem splitOn_joinWords (ws : List (List Char)) (hw : ∀ w ∈ ws, ∀ c ∈ w, c ≠ ' ') (hne : ws ≠ []) : splitOn ' ' (joinWords ws) = ws := by
  induction ws with
  | nil => exact absurd rfl hne
  | cons w ws ih =>
    by_cases h : ws = []
    · subst h
      exact splitOn_word ' ' w (hw w (by simp))
    · rw [joinWords_cons w ws h, splitOn_append ' ' w _ (hw w (by simp)), ih (fun v hv => hw v (by simp [hv])) h]

theorem showTarget_chars (t : Option Int) : showTarget t ≠ [] ∧ ∀ c ∈ showTarget t, isSpace c = false ∧ c ≠ ' ' := by
  cases t with
  | none => exact ⟨by simp [showTarget], by simp [showTarget]; decide⟩
  | some t => exact ⟨(showInt_chars t).1, (showInt_chars t).2.1⟩

theorem parseTarget_show (t : Option Int) : parseTarget (showTarget t) = .ok t := by
  cases t with
  | none => rfl
  | some t =>
    unfold parseTarget showTarget
    rw [if_neg (showInt_chars t).2.2]
    have := pyInt_showInt [] [] t (by simp) (by simp)
    simp only [List.nil_append, List.append_nil] at this
    rw [this]
    rfl

theorem mapM_parseTarget (ts : List (Option Int)) : (ts.map showTarget).mapM parseTarget = .ok ts := by
  induction ts with
  | nil => rfl
  | cons t ts ih => simp [List.mapM_cons, parseTarget_show, ih, bind, Except.bind, pure, Except.pure]

/-- A line without its trailing white space. -/
theorem rstrip_line (s w : List Char) (hw : Blank w) (hl : ∀ c, s.getLast? = some c → isSpace c = false) :
    rstripBy isSpace (rstripBy (fun c => decide (c = '\n')) (s ++ w)) = s := by
  -- removing the line ends first does not change what is left at the end
  have key : ∀ v : List Char, (∀ c ∈ v, isSpace c = true) →
      ∃ v', rstripBy (fun c => decide (c = '\n')) (s ++ v) = s ++ v' ∧ ∀ c ∈ v', isSpace c = true := by
    intro v
    induction v using List.reverseRecOn with
    | nil =>
      intro _
      refine ⟨[], ?_, by simp⟩
      rw [List.append_nil]
      apply rstripBy_self
      intro c hc
      have := hl c hc
      simp only [decide_eq_false_iff_not]
      rintro rfl
      exact absurd this (by decide)
    | append_singleton v c ih =>
      intro hv
      by_cases hc : c = '\n'
      · obtain ⟨v', h1, h2⟩ := ih (fun x hx => hv x (by simp [hx]))
        refine ⟨v', ?_, h2⟩
        rw [← h1, ← List.append_assoc, rstripBy_append _ (s ++ v) [c] (by simp [hc])]
      · refine ⟨v ++ [c], ?_, hv⟩
        apply rstripBy_self
        intro d hd
        rw [← List.append_assoc, List.getLast?_append] at hd
        simp at hd
        subst hd
        simpa using hc
  obtain ⟨v', h1, h2⟩ := key w hw
  rw [h1, rstripBy_append _ _ _ h2, rstripBy_self _ _ hl]

theorem getLast?_append_ne {α : Type} (l m : List α) (h : m ≠ []) : (l ++ m).getLast? = m.getLast? := by
  rw [List.getLast?_append]
  cases hm : m.getLast? with
  | none => exact absurd (List.getLast?_eq_none_iff.1 hm) h
  | some x => rfl

theorem joinWords_last (ws : List (List Char)) (hne : ws ≠ []) (hw : ∀ w ∈ ws, w ≠ [] ∧ ∀ c ∈ w, isSpace c = false) :
    joinWords ws ≠ [] ∧ ∀ c, (joinWords ws).getLast? = some c → isSpace c = false := by
  induction ws with
  | nil => exact absurd rfl hne
  | cons w ws ih =>
    by_cases h : ws = []
    · subst h
      exact ⟨(hw w (by simp)).1, fun c hc => (hw w (by simp)).2 c (List.mem_of_mem_getLast? hc)⟩
    · obtain ⟨h1, h2⟩ := ih h (fun v hv => hw v (by simp [hv]))
      rw [joinWords_cons w ws h]
      refine ⟨by simp, fun c hc => h2 c ?_⟩
      rw [getLast?_append_ne _ _ (by simp), List.getLast?_cons_of_ne_nil h1] at hc
      exact hc

theorem showNat_eq_showInt (n : Nat) : showNat n = showInt (n : Int) := rfl

/-- The words read from a line of a policy graph. -/
theorem pgLine_words (i : Nat) (a : Int) (ts : List (Option Int)) (w : List Char) (hw : Blank w) :
    isspace (rstripBy isSpace (rstripBy (fun c => decide (c = '\n')) (pgLine i a ts ++ w))) = false ∧
    parsePgWords i (splitOn ' ' (rstripBy isSpace (rstripBy (fun c => decide (c = '\n')) (pgLine i a ts ++ w)))) = .ok (a, ts) := by
  have hi := showInt_chars (i : Int)
  have ha := showInt_chars a
  have hpi : pyInt (showInt (i : Int)) = .ok (i : Int) := by
    have := pyInt_showInt [] [] (i : Int) (by simp) (by simp)
    simpa using this
  have hpa : pyInt (showInt a) = .ok a := by
    have := pyInt_showInt [] [] a (by simp) (by simp)
    simpa using this
  have hns : ∀ l : List Char, (∃ c ∈ l, isSpace c = false) → isspace l = false := by
    rintro l ⟨c, hc, hs⟩
    unfold isspace
    have : l.all isSpace = false := by
      rw [List.all_eq_false]
      exact ⟨c, hc, by simp [hs]⟩
    simp [this]
  obtain ⟨c0, hc0⟩ := List.exists_mem_of_ne_nil _ hi.1
  have hsp : Blank [' ', ' '] := by intro c hc; simp at hc; subst hc; decide
  by_cases hts : ts = []
  · subst hts
    have heq : pgLine i a [] ++ w = (showInt (i : Int) ++ ' ' :: showInt a) ++ ([' ', ' '] ++ w) := by
      simp [pgLine, joinWords, showNat_eq_showInt]
    have hlast : ∀ c, (showInt (i : Int) ++ ' ' :: showInt a).getLast? = some c → isSpace c = false := by
      intro c hc
      rw [getLast?_append_ne _ _ (by simp), List.getLast?_cons_of_ne_nil ha.1] at hc
      exact (ha.2.1 c (List.mem_of_mem_getLast? hc)).1
    rw [heq, rstrip_line _ _ (by
      intro c hc
      rcases List.mem_append.1 hc with hc | hc
      · exact hsp c hc
      · exact hw c hc) hlast]
    refine ⟨hns _ ⟨c0, by simp [hc0], (hi.2.1 c0 hc0).1⟩, ?_⟩
    rw [splitOn_append ' ' _ _ (fun c hc => (hi.2.1 c hc).2), splitOn_word ' ' _ (fun c hc => (ha.2.1 c hc).2)]
    simp [parsePgWords, listGet, hpi, hpa, bind, Except.bind, pure, Except.pure]
  · have hwords : ∀ v ∈ ts.map showTarget, v ≠ [] ∧ ∀ c ∈ v, isSpace c = false ∧ c ≠ ' ' := by
      intro v hv
      obtain ⟨t, _, rfl⟩ := List.mem_map.1 hv
      exact showTarget_chars t
    have hne : ts.map showTarget ≠ [] := by simpa using hts
    obtain ⟨hj1, hj2⟩ := joinWords_last (ts.map showTarget) hne (fun v hv => ⟨(hwords v hv).1, fun c hc => ((hwords v hv).2 c hc).1⟩)
    have hlast : ∀ c, (pgLine i a ts).getLast? = some c → isSpace c = false := by
      intro c hc
      unfold pgLine at hc
      rw [getLast?_append_ne _ _ (by simp), List.getLast?_cons_of_ne_nil (by simp), getLast?_append_ne _ _ (by simp),
        List.getLast?_cons_of_ne_nil (by simp), List.getLast?_cons_of_ne_nil hj1] at hc
      exact hj2 c hc
    rw [rstrip_line _ _ hw hlast]
    refine ⟨hns _ ⟨c0, by simp only [pgLine, showNat_eq_showInt, List.mem_append]; exact Or.inl hc0, (hi.2.1 c0 hc0).1⟩, ?_⟩
    unfold pgLine
    rw [showNat_eq_showInt, splitOn_append ' ' _ _ (fun c hc => (hi.2.1 c hc).2), splitOn_append ' ' _ _ (fun c hc => (ha.2.1 c hc).2)]
    have : splitOn ' ' (' ' :: joinWords (ts.map showTarget)) = [] :: ts.map showTarget := by
      have := splitOn_append ' ' [] (joinWords (ts.map showTarget)) (by simp)
      rw [List.nil_append] at this
      rw [this, splitOn_joinWords _ (fun v hv c hc => ((hwords v hv).2 c hc).2) hne]
    rw [this]
    simp [parsePgWords, listGet, hpi, hpa, mapM_parseTarget, bind, Except.bind, pure, Except.pure, -List.mapM_map]

theorem parsePgLoop_append (pre rest : List (List Char)) : ∀ (i : Nat) (xs : List (Int × List (Option Int))),
    parsePgLoop pre i = .ok xs → parsePgLoop (pre ++ rest) i = (parsePgLoop rest (i + pre.length)).map (fun ys => xs ++ ys) := by
  induction pre with
  | nil =>
    intro i xs h
    cases h
    simp
    cases parsePgLoop rest i <;> rfl
  | cons l pre ih =>
    intro i xs h
    simp only [List.cons_append, parsePgLoop] at *
    split at h
    · rename_i hs
      rw [if_pos hs, ih (i + 1) xs h]
      simp [Nat.add_assoc, Nat.add_comm 1]
    · rename_i hs
      rw [if_neg hs]
      simp only [bind, Except.bind] at h ⊢
      split at h
      · cases h
      · rename_i x hx
        split at h
        · cases h
        · rename_i ys hys
          simp only [pure, Except.pure, Except.ok.injEq] at h
          subst h
          rw [ih (i + 1) ys hys]
          simp only [List.length_cons, Nat.add_assoc, Nat.add_comm 1]
          cases parsePgLoop rest (i + (pre.length + 1)) <;> rfl

/-! ### Nodes -/

theorem dot_eq (v b : List ℚ) (h : v.length = b.length) : dot v b = expected v b := by
  unfold dot expected
  induction v generalizing b with
  | nil =>
    cases b with
    | nil => rfl
    | cons => simp at h
  | cons x v ih =>
    cases b with
    | nil => simp at h
    | cons y b =>
      simp only [List.zipWith_cons_cons, List.sum_cons, List.length_cons]
      rw [ih b (by simpa using h), Nat.add_comm, sumRange_append]
      simp [sumRange, Nat.add_comm 1]

theorem bestNode_unique (values : List (List ℚ)) (b : List ℚ) (n m : Nat) (h1 : BestNode values b n) (h2 : BestNode values b m) :
    n = m := by
  rcases Nat.lt_trichotomy n m with h | h | h
  · have a1 := (h2.2 n h1.1).2 h
    have a2 := (h1.2 m h2.1).1
    exact absurd a1 (not_lt.2 a2)
  · exact h
  · have a1 := (h1.2 m h2.1).2 h
    have a2 := (h2.2 n h1.1).1
    exact absurd a1 (not_lt.2 a2)

theorem nodeFromBelief_spec (values : List (List ℚ)) (b : List ℚ) (hne : values ≠ []) (hl : ∀ v ∈ values, v.length = b.length) :
    ∃ n, nodeFromBelief values b = .ok n ∧ BestNode values b n := by
  obtain ⟨r, v, h1, h2, h3⟩ := argmax_spec (values.map fun v => dot v b) (by simpa using hne)
  have hr : r < values.length := by simpa using (List.getElem?_eq_some_iff.1 h2).1
  have hget : ∀ i, i < values.length → (values.map fun v => dot v b)[i]? = some (expected (values.getD i []) b) := by
    intro i hi
    rw [List.getElem?_map, List.getElem?_eq_getElem hi, Option.map_some,
      dot_eq _ _ (hl _ (List.getElem_mem hi)), List.getD_eq_getElem?_getD, List.getElem?_eq_getElem hi]
    rfl
  have hv : v = expected (values.getD r []) b := by
    rw [hget r hr] at h2
    exact (Option.some.inj h2).symm
  refine ⟨r, ?_, hr, ?_⟩
  · unfold nodeFromBelief
    rw [if_pos, h1]
    rw [List.all_eq_true]
    intro v hv
    simpa using hl v hv
  · intro i hi
    have := h3 i _ (hget i hi)
    rw [hv] at this
    exact this

theorem nodeFromBelief_error (values : List (List ℚ)) (b : List ℚ) (e : PyErr) (h : nodeFromBelief values b = .error e) :
    e = .valueError := by
  unfold nodeFromBelief at h
  split at h
  · unfold argmax at h
    split at h
    · cases h; rfl
    · cases h
  · cases h; rfl

theorem pyIndex_nat (n i : Nat) (h : i < n) : pyIndex n (i : Int) = .ok i := by
  unfold pyIndex
  rw [if_pos ⟨by omega, by omega⟩]
  simp

theorem listGet_ok {α : Type} (l : List α) (i : Nat) (x : α) (h : l[i]? = some x) : listGet l i = .ok x := by
  unfold listGet
  rw [h]

theorem getAction_nat (g : GraphPolicy) (n : Nat) (a : Name) (h : g.actions[n]? = some a) : g.getAction (n : Int) = .ok a := by
  have hn : n < g.actions.length := (List.getElem?_eq_some_iff.1 h).1
  unfold GraphPolicy.getAction
  rw [pyIndex_nat _ _ hn]
  exact listGet_ok _ _ _ h

theorem indexOf_spec (l : List Name) (x : Name) (h : x ∈ l) : ∃ i, indexOf l x = .ok i ∧ l[i]? = some x := by
  unfold indexOf
  cases hf : l.findIdx? (fun y => decide (y = x)) with
  | none =>
    rw [List.findIdx?_eq_none_iff] at hf
    have := hf x h
    simp at this
  | some i =>
    obtain ⟨h1, h2, _⟩ := List.findIdx?_eq_some_iff_getElem.1 hf
    refine ⟨i, rfl, ?_⟩
    rw [List.getElem?_eq_getElem h1]
    simpa using h2

theorem indexOf_nodup (l : List Name) (hl : l.Nodup) (i : Nat) (x : Name) (h : l[i]? = some x) : indexOf l x = .ok i := by
  obtain ⟨j, h1, h2⟩ := indexOf_spec l x (List.mem_of_getElem? h)
  have : j = i := by
    obtain ⟨hj, ej⟩ := List.getElem?_eq_some_iff.1 h2
    obtain ⟨hi, ei⟩ := List.getElem?_eq_some_iff.1 h
    exact (hl.getElem_inj_iff (hi := hj) (hj := hi)).1 (by rw [ej, ei])
  rw [h1, this]

end Verif
