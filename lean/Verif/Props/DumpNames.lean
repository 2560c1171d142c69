import Verif.Props.Pomdp

/-! Property C40 (which models keep the same solver file). -/

namespace Verif
open Spec

/-- The length of numbers in decimal notation. -/
theorem decimal_length (n : Nat) (hn : 0 < n) : (toString n).toList.length ≤ n := by
  rw [String.length_toList]
  exact (Nat.length_repr_le_iff hn).2 (Nat.lt_pow_self (by norm_num))

/-- The length of words separated by blanks. -/
theorem blanks_length : ∀ (l : List (List Char)), l ≠ [] → (∀ w ∈ l, 1 ≤ w.length) →
    2 * l.length ≤ ([' '].intercalate l).length + 1
  | [], h, _ => absurd rfl h
  | [w], _, h => by
      have := h w (by simp)
      simp [List.intercalate]
      omega
  | w :: v :: l, _, h => by
      have h1 := h w (by simp)
      have h2 := blanks_length (v :: l) (by simp) (fun x hx => h x (by simp [hx]))
      have h3 : [' '].intercalate (w :: v :: l) = w ++ ' ' :: [' '].intercalate (v :: l) := by
        simp [List.intercalate]
      rw [h3]
      simp only [List.length_append, List.length_cons] at h2 ⊢
      omega

/-- The count of the names and the list of the names that are used for it. -/
theorem count_and_list (n : Nat) (hn : 0 < n) :
    (dumpListOrCount (.count n)).toList.length ≤ (dumpListOrCount (.list (Names.count n).asList)).toList.length ∧
    dumpListOrCount (.count n) ≠ dumpListOrCount (.list (Names.count n).asList) := by
  have h1 := decimal_length n hn
  have h2 : 2 * n ≤ (dumpListOrCount (.list (Names.count n).asList)).toList.length + 1 := by
    have h := blanks_length ((List.range n).map fun i => (toString i).toList) (by simp; omega) (by
      intro w hw
      simp only [List.mem_map] at hw
      obtain ⟨i, -, rfl⟩ := hw
      rw [String.length_toList]
      exact Nat.length_repr_pos)
    simp only [List.length_map, List.length_range] at h
    simpa [dumpListOrCount, dumpList, Names.asList, String.toList_intercalate, Function.comp_def, Name.toStr] using h
  have h3 : (dumpListOrCount (.count n)).toList.length ≤ n := h1
  refine ⟨by omega, fun he => ?_⟩
  rw [← he] at h2
  have : n = 1 := by omega
  subst this
  revert he
  decide +kernel

/-- Names in the solver file before and after the dictionary. -/
theorem names_text (N : Names) (hN : 0 < N.asList.length ∨ ∃ l, N = .list l) :
    (dumpListOrCount N).toList.length ≤ (dumpListOrCount (.list N.asList)).toList.length ∧
    ((dumpListOrCount N).toList = (dumpListOrCount (.list N.asList)).toList → ∃ l, N = .list l) := by
  cases N with
  | list l => exact ⟨le_refl _, fun _ => ⟨l, rfl⟩⟩
  | count n =>
    have hn : 0 < n := by
      rcases hN with h | ⟨l, h⟩
      · simpa [Names.asList] using h
      · cases h
    obtain ⟨h1, h2⟩ := count_and_list n hn
    exact ⟨h1, fun h => absurd (String.toList_inj.1 h) h2⟩

/-- Three texts that are replaced by texts that are at least as long. -/
theorem three_texts {A B C E s t u s' t' u' : List Char} (hs : s.length ≤ s'.length) (ht : t.length ≤ t'.length) (hu : u.length ≤ u'.length)
    (h : A ++ (s' ++ (B ++ (t' ++ (C ++ (u' ++ E))))) = A ++ (s ++ (B ++ (t ++ (C ++ (u ++ E)))))) : s = s' ∧ t = t' ∧ u = u' := by
  have hl := congrArg List.length h
  simp only [List.length_append] at hl
  have h1 := List.append_cancel_left h
  obtain ⟨e1, h2⟩ := List.append_inj h1 (by omega)
  obtain ⟨e2, h3⟩ := List.append_inj (List.append_cancel_left h2) (by omega)
  obtain ⟨e3, -⟩ := List.append_inj (List.append_cancel_left h3) (by omega)
  exact ⟨e1.symm, e2.symm, e3.symm⟩

/-- **C40 (the solver file).**  The model that is read back from the dictionary has the same solver file exactly when all the
names were given to the constructor. -/
theorem C40_dump (solver : Option String) (T O : Arr3) (R : Arr4) (start : List ℚ) (discount : ℚ)
    (states actions observations : Option (List Name)) (values : String) (p q : Pomdp)
    (h : Pomdp.mk' solver T O R start discount states actions observations values = .ok p)
    (hq : Pomdp.fromDict solver p.toDict = .ok q) (fmt strNum : ℚ → String) :
    q.dump fmt strNum = p.dump fmt strNum ↔ states ≠ none ∧ actions ≠ none ∧ observations ≠ none := by
  have hA : 0 < T.n0 := by
    rcases Nat.eq_zero_or_pos T.n0 with h0 | h0
    · rw [C40_no_action _ _ _ _ _ _ _ _ _ _ _ h h0] at hq
      cases hq
    · exact h0
  constructor
  · intro he
    obtain ⟨q', hq', h1, h2, h3, h4, h5, h6, h7, h8, -⟩ := C40_roundtrip _ _ _ _ _ _ _ _ _ _ _ h hA
    rw [hq] at hq'
    cases hq'
    obtain ⟨text, ht⟩ := C41_defined _ _ _ _ _ _ _ _ _ _ _ h fmt strNum
    obtain ⟨r, path, hr, rfl, hg, hp⟩ := (mk'_ok_iff ..).1 h
    obtain ⟨⟨_, _, _, s0, s1, s2, s3, s4, s5, s6, s7, s8, s9, s10⟩, _⟩ := (good_iff _).1 hg
    obtain ⟨hS, hO⟩ := good_pos p hg
    have hA' : 0 < p.nActions := by rw [← s1, hp]; exact hA
    have hO := hO hA'
    have hqq := hq
    rw [fromDict_toDict p path hg hA'] at hqq
    have hn : q.sNames = .list p.sNames.asList ∧ q.aNames = .list p.aNames.asList ∧ q.oNames = .list p.oNames.asList := by
      cases hqq
      exact ⟨rfl, rfl, rfl⟩
    rw [ht] at he
    unfold Pomdp.dump at he ht
    rw [hn.1, hn.2.1, hn.2.2, h4, h5, h6, h7, h1.toList, h2.toList, h3.toList] at he
    simp only [bind, Except.bind, pure, Except.pure] at he ht
    cases e1 : dump1 fmt p.start with
    | error e => rw [e1] at ht; cases ht
    | ok t1 =>
    cases e2 : dump3 fmt "T" (p.actions.map Name.toStr) p.T.toList with
    | error e => rw [e1, e2] at ht; cases ht
    | ok t2 =>
    cases e3 : dump3 fmt "O" (p.actions.map Name.toStr) p.O.toList with
    | error e => rw [e1, e2, e3] at ht; cases ht
    | ok t3 =>
    cases e4 : dump4 fmt "R" (p.actions.map Name.toStr) (p.states.map Name.toStr) p.R.toList with
    | error e => rw [e1, e2, e3, e4] at ht; cases ht
    | ok t4 =>
    rw [e1, e2, e3, e4] at ht he
    simp only [Except.ok.injEq] at ht he
    rw [← ht] at he
    have hl := congrArg String.toList he
    simp only [String.toList_intercalate, List.map_cons, List.map_nil, List.intercalate, List.intersperse, List.flatten_cons, List.flatten_nil,
      String.toList_append, List.append_assoc] at hl
    have ks := names_text p.sNames (Or.inl hS)
    have ka := names_text p.aNames (Or.inl hA')
    have ko := names_text p.oNames (Or.inl hO)
    obtain ⟨f1, f2, f3⟩ := three_texts ks.1 ka.1 ko.1 (List.append_cancel_left (List.append_cancel_left hl))
    obtain ⟨l1, g1⟩ := ks.2 f1
    obtain ⟨l2, g2⟩ := ka.2 f2
    obtain ⟨l3, g3⟩ := ko.2 f3
    rw [hp] at g1 g2 g3
    refine ⟨?_, ?_, ?_⟩
    · rintro rfl; cases g1
    · rintro rfl; cases g2
    · rintro rfl; cases g3
  · rintro ⟨hs, ha, ho⟩
    obtain ⟨s, rfl⟩ := Option.ne_none_iff_exists'.1 hs
    obtain ⟨a, rfl⟩ := Option.ne_none_iff_exists'.1 ha
    obtain ⟨o, rfl⟩ := Option.ne_none_iff_exists'.1 ho
    obtain ⟨q', hq', hd⟩ := C40_dump_partial _ _ _ _ _ _ _ _ _ _ _ h hA fmt strNum
    rw [hq] at hq'
    cases hq'
    exact hd

/-- Non-vacuity: a model with default names and a model that is read back from its dictionary. -/
example : ∃ p q : Pomdp, Pomdp.mk' (some "pomdp-solve") tiger.T tiger.O tiger.R tiger.start tiger.discount none none none
      "reward" = .ok p ∧ Pomdp.fromDict (some "pomdp-solve") p.toDict = .ok q ∧ p.nStates = 2 := by
  obtain ⟨p, q, hp, hq, -⟩ := C40_false_dump
  refine ⟨p, q, hp, hq, ?_⟩
  obtain ⟨r, path, -, -, -, e⟩ := (mk'_ok_iff ..).1 hp
  rw [e]
  rfl

/-- Non-vacuity: a model with given names. -/
example : ∃ p q : Pomdp, Pomdp.mk' (some "pomdp-solve") tiger.T tiger.O tiger.R tiger.start tiger.discount
      (some [.str "left", .str "right"]) (some [.str "a", .str "b", .str "c"]) (some [.str "x", .str "y"]) "reward" = .ok p ∧
      Pomdp.fromDict (some "pomdp-solve") p.toDict = .ok q := by
  have hacc : ∃ p, Pomdp.mk' (some "pomdp-solve") tiger.T tiger.O tiger.R tiger.start tiger.discount
      (some [.str "left", .str "right"]) (some [.str "a", .str "b", .str "c"]) (some [.str "x", .str "y"]) "reward" = .ok p := by
    rw [C39_accepts]
    obtain ⟨_, hT, hO⟩ := tiger_stochastic
    refine ⟨Or.inl rfl, by simp, by norm_num [tiger], by norm_num [tiger], 2, 3, 2, by simp, by simp, by simp, rfl, ⟨rfl, rfl, rfl⟩,
      ⟨rfl, rfl, rfl⟩, ⟨rfl, rfl, rfl, rfl⟩, by norm_num [NearOne, tiger], ?_⟩
    intro a ha s hs
    have h1 := (hT a ha s hs).2
    have h2 := (hO a ha s hs).2
    constructor
    · rw [show sumRange 2 (tiger.T.at_ a s) = 1 from h1]; norm_num [NearOne]
    · rw [show sumRange 2 (tiger.O.at_ a s) = 1 from h2]; norm_num [NearOne]
  obtain ⟨p, hp⟩ := hacc
  obtain ⟨q, hq, _⟩ := C40_roundtrip _ _ _ _ _ _ _ _ _ _ _ hp (by decide)
  exact ⟨p, q, hp, hq⟩

end Verif
