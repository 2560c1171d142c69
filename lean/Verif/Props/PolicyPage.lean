import Verif.Proof.PolicyPage

/-! # C108: the page shows the policy -/

set_option linter.unusedSectionVars false
set_option linter.unusedSimpArgs false

namespace Verif
open Spec

theorem mkGraphPolicy_shape {actions observations : List Name} {transitions : List (List (Option Int))} {values : List (List ℚ)} {start : Option (List ℚ)}
    {init : Option Int} {g : GraphPolicy} (h : mkGraphPolicy actions observations transitions values start init = .ok g) :
    g.transitions.length = g.actions.length ∧ ∀ r ∈ g.transitions, r.length = g.observations.length := by
  unfold mkGraphPolicy at h
  split at h
  · rename_i hc
    cases hi : initNode actions.length values start init with
    | error e => rw [hi] at h; cases h
    | ok i =>
      rw [hi] at h
      cases h
      exact ⟨hc.1, hc.2.2⟩
  · cases h

theorem page_first {l : List Name} (h : l.Nodup) {i : Nat} {o : Name} (ho : l[i]? = some o) : FirstAt l o i :=
  ⟨ho, fun j hj hjo => by have := nodup_index _ h _ _ _ ho hjo; omega⟩

theorem cell_some {d : GraphDict} {i j : Nat} {t : Int} : pageEntry d i j = some t ↔ ∃ row, d.transitions[i]? = some row ∧ row[j]? = some (some t) := by
  unfold pageEntry
  rw [List.getD_eq_getElem?_getD, List.getD_eq_getElem?_getD]
  cases hr : d.transitions[i]? with
  | none => simp
  | some row =>
    cases hj : row[j]? with
    | none => simp [hj]
    | some x => simp [hj]

theorem shown_drawn (g : GraphPolicy) (showDone : Bool) {i j : Nat} (hj : j < g.observations.length) :
    shownAt showDone g.toDict i j = true ↔ ∃ t o, DrawnAt g showDone i j t o := by
  have ho : g.observations[j]? = some (obsOf g.toDict j) := by
    show _ = some (g.observations.getD j _)
    rw [List.getD_eq_getElem?_getD, List.getElem?_eq_getElem hj]; rfl
  constructor
  · intro h
    unfold shownAt at h
    cases hc : pageEntry g.toDict i j with
    | none => rw [hc] at h; cases h
    | some t =>
      rw [hc] at h
      refine ⟨t, _, cell_some.1 hc, ho, ?_⟩
      cases showDone with
      | true => exact .inl rfl
      | false => exact .inr (by simpa using h)
  · rintro ⟨t, o, h1, h2, h3⟩
    have := cell_some (d := g.toDict).2 h1
    rw [ho] at h2
    unfold shownAt
    rw [this]
    rw [← Option.some.inj h2] at h3
    cases showDone with
    | true => simp
    | false => simpa using h3

theorem marker_color (o : Name) : markerColor (arrowMarker o) = some (legendColor o) := by
  unfold arrowMarker
  split
  · rename_i h
    rcases h with rfl | rfl | rfl | rfl <;> decide
  · rename_i h
    push Not at h
    simp [markerColor, legendColor, h.1, h.2.1, h.2.2.1, h.2.2.2]

/-- **C108, partial** (strings for the actions, and transitions between nodes): the page has one circle for each node and one arrow for each transition. -/
theorem C108_shown_partial (g : GraphPolicy) (showDone : Bool) (hl : g.transitions.length = g.actions.length)
    (hr : ∀ r ∈ g.transitions, r.length = g.observations.length) (hs : ∀ a ∈ g.actions, ∃ s, a = .str s)
    (ht : ∀ row ∈ g.transitions, ∀ t, some t ∈ row → 0 ≤ t ∧ t < g.actions.length) :
    ∃ p, policyPage showDone g.toDict = .ok (.page p) ∧ ShowsPolicy g showDone p := by
  have htc : ∀ i j t, pageEntry g.toDict i j = some t → 0 ≤ t ∧ t < g.toDict.actions.length := by
    intro i j t h
    obtain ⟨row, h1, h2⟩ := cell_some.1 h
    exact ht row (List.mem_of_getElem? h1) t (List.mem_of_getElem? h2)
  have hno : tooManyNodes g.toDict = false := by
    rw [Bool.eq_false_iff]
    intro h
    obtain ⟨row, h1, t, h2, h3⟩ := (tooManyNodes_iff _).1 h
    have := (ht row h1 t h2).2
    have h3 : (g.actions.length : Int) ≤ t := h3
    omega
  refine ⟨⟨circlesOf g.toDict, pageArrows (circlesOf g.toDict) ((shownList showDone g.toDict).map (linkOf g.toDict)),
      g.observations.map fun o => (legendColor o, nameText o)⟩, ?_, ?_⟩
  · unfold policyPage
    rw [hno, pageNodes_ok _ hs]
    show (pageLinks showDone g.toDict (circlesOf g.toDict) >>= _) = _
    rw [pageLinks_ok showDone g.toDict hl htc]
    rfl
  · refine ⟨circlesOf_length _, ?_, circlesOf_nodup _, ?_, ?_, rfl⟩
    · intro i s hi
      refine ⟨⟨circleText i s, i, decide (pyInt (showInt g.init) = .ok (i : Int))⟩, pageAction s.toList, ?_, rfl, pageAction_spec _, ?_, ?_⟩
      · rw [circlesOf_get]
        show Option.map _ g.actions[i]? = _
        rw [hi]
        rfl
      · simp [circleText]
      · have := pyInt_showInt [] [] g.init (by simp) (by simp)
        simp at this
        simp [this]
    · refine ⟨shownList showDone g.toDict, shownList_nodup _ _, ?_, by simp [pageArrows], ?_⟩
      · intro i j
        constructor
        · intro h
          simp only [shownList, List.mem_flatMap, List.mem_map, List.mem_filter, List.mem_range] at h
          obtain ⟨i', -, j', ⟨hj, hsh⟩, he⟩ := h
          cases he
          exact (shown_drawn g showDone hj).1 hsh
        · rintro ⟨t, o, h⟩
          have hj : j < g.observations.length := (List.getElem?_eq_some_iff.1 h.2.1).1
          obtain ⟨row, h1, -⟩ := h.1
          have hi : i < g.transitions.length := (List.getElem?_eq_some_iff.1 h1).1
          simp only [shownList, List.mem_flatMap, List.mem_map, List.mem_filter, List.mem_range]
          exact ⟨i, hi, j, ⟨hj, (shown_drawn g showDone hj).2 ⟨t, o, h⟩⟩, rfl⟩
      · intro k i j hk
        have hmem : (i, j) ∈ shownList showDone g.toDict := List.mem_of_getElem? hk
        simp only [shownList, List.mem_flatMap, List.mem_map, List.mem_filter, List.mem_range] at hmem
        obtain ⟨i', hi, j', ⟨hj, hsh⟩, he⟩ := hmem
        cases he
        obtain ⟨t, o, hd⟩ := (shown_drawn g showDone hj).1 hsh
        have hcell := cell_some (d := g.toDict).2 hd.1
        have hobs : obsOf g.toDict j = o := by
          show g.observations.getD j _ = o
          rw [List.getD_eq_getElem?_getD, hd.2.1]; rfl
        have hnode : ∀ n < g.actions.length, ∃ c, (circlesOf g.toDict)[n]? = some c ∧ nodeByName (circlesOf g.toDict) (circleName g.toDict n) = some c := by
          intro n hn
          have hn' : n < (circlesOf g.toDict).length := by rw [circlesOf_length]; exact hn
          refine ⟨_, List.getElem?_eq_getElem hn', ?_⟩
          unfold circleName
          rw [List.getElem?_eq_getElem hn']
          exact nodeByName_circle _ (List.getElem?_eq_getElem hn')
        obtain ⟨c, hc1, hc2⟩ := hnode i (by rw [← hl]; exact hi)
        have htt := htc i j t hcell
        have htt2 : t < g.actions.length := htt.2
        obtain ⟨c', hc3, hc4⟩ := hnode t.toNat (by omega)
        refine ⟨⟨some c, (circlesOf g.toDict).length + k, some c', o, "link ".toList ++ nameText o, arrowMarker o⟩, t, o, ?_, hd, rfl, ⟨c, rfl, hc1⟩,
          ⟨c', rfl, htt.1, hc3⟩, rfl, marker_color o⟩
        have hk2 : (List.map (linkOf g.toDict) (shownList showDone g.toDict))[k]? = some (linkOf g.toDict (i, j)) := by
          rw [List.getElem?_map, hk]; rfl
        unfold pageArrows
        rw [List.getElem?_map, List.getElem?_zipIdx, hk2]
        simp only [Option.map_some, linkOf, hcell, Option.getD_some, hc2, hc4, hobs, Nat.zero_add]
    · constructor
      · unfold pageArrows
        rw [List.Nodup, List.pairwise_map, List.pairwise_map, List.pairwise_iff_getElem]
        intro a b ha hb hab h
        simp at h
        omega
      · intro a ha
        unfold pageArrows at ha
        obtain ⟨x, -, rfl⟩ := List.mem_map.1 ha
        simp

/-- The message is displayed exactly for the policies with a transition to a node after the last. -/
theorem C108_message (g : GraphPolicy) (showDone : Bool) : policyPage showDone g.toDict = .ok .message ↔
    ∃ row ∈ g.transitions, ∃ t, some t ∈ row ∧ (g.actions.length : Int) ≤ t := by
  have hiff := tooManyNodes_iff g.toDict
  constructor
  · intro h
    by_cases hm : tooManyNodes g.toDict = true
    · exact hiff.1 hm
    · exfalso
      unfold policyPage at h
      rw [if_neg hm] at h
      cases hn : pageNodes g.toDict with
      | error e => rw [hn] at h; cases h
      | ok nodes =>
        rw [hn] at h
        have h : (pageLinks showDone g.toDict nodes >>= _) = _ := h
        cases hk : pageLinks showDone g.toDict nodes with
        | error e => rw [hk] at h; cases h
        | ok links => rw [hk] at h; cases h
  · intro h
    unfold policyPage
    rw [if_pos (hiff.2 h)]

/-- Otherwise the page fails if an action is a number, or if a transition that must be drawn goes to a negative number. -/
theorem C108_fails (g : GraphPolicy) (showDone : Bool) (hl : ∀ row ∈ g.transitions, ∀ t, some t ∈ row → t < (g.actions.length : Int))
    (h : (∃ n, Name.int n ∈ g.actions) ∨ ∃ i j t o, DrawnAt g showDone i j t o ∧ t < 0) : policyPage showDone g.toDict = .error .typeError := by
  have hno : ¬ tooManyNodes g.toDict = true := by
    intro h
    obtain ⟨row, h1, t, h2, h3⟩ := (tooManyNodes_iff _).1 h
    have := hl row h1 t h2
    have h3 : (g.actions.length : Int) ≤ t := h3
    omega
  unfold policyPage
  rw [if_neg hno]
  by_cases hi : ∃ n, Name.int n ∈ g.actions
  · obtain ⟨n, hn⟩ := hi
    rw [pageNodes_error _ n hn]
    rfl
  · obtain ⟨i, j, t, o, hd, ht⟩ := h.resolve_left hi
    rw [pageNodes_ok]
    · show (pageLinks showDone g.toDict (circlesOf g.toDict) >>= _) = _
      have hj : j < g.observations.length := (List.getElem?_eq_some_iff.1 hd.2.1).1
      obtain ⟨row, h1, -⟩ := hd.1
      rw [pageLinks_error showDone g.toDict i j t (List.getElem?_eq_some_iff.1 h1).1 hj (cell_some.2 hd.1) (.inl ht)
        ((shown_drawn g showDone hj).2 ⟨t, o, hd⟩)]
      rfl
    · intro a ha
      cases a with
      | int n => exact absurd ⟨n, ha⟩ hi
      | str s => exact ⟨s, rfl⟩

/-- **C108, partial**: following the arrows of the observations is running the policy. -/
theorem C108_follow_partial (g : GraphPolicy) (p : PolicyPage) (hsh : ShowsPolicy g true p) (hl : g.transitions.length = g.actions.length)
    (hr : ∀ r ∈ g.transitions, r.length = g.observations.length) (hs : ∀ a ∈ g.actions, ∃ s, a = .str s)
    (ht : ∀ row ∈ g.transitions, ∀ t, some t ∈ row → 0 ≤ t ∧ t < g.actions.length) (ho : g.observations.Nodup) (w : List Name) :
    ∀ i < g.actions.length, ∀ k : Nat, ArrowWalk p i w k ↔ Reaches g (i : Int) w (k : Int) := by
  obtain ⟨ps, hps1, hps2, hps3, hps4⟩ := hsh.arrows
  have hcirc : ∀ {i : Nat} {c : PageNode}, p.circles[i]? = some c → c.id = i ∧ i < g.actions.length := by
    intro i c hc
    have hi : i < g.actions.length := by rw [← hsh.count]; exact (List.getElem?_eq_some_iff.1 hc).1
    obtain ⟨s, hs'⟩ := hs _ (List.getElem_mem hi)
    obtain ⟨c', l, h1, h2, -⟩ := hsh.circles i s (by rw [List.getElem?_eq_getElem hi, hs'])
    rw [hc] at h1
    cases h1
    exact ⟨h2, hi⟩
  have hnext : ∀ {i : Nat} (_ : i < g.actions.length) {j : Nat} {t : Int} {o : Name}, DrawnAt g true i j t o → g.next i o = .ok (some t) := by
    rintro i hi j t o ⟨⟨row, h1, h2⟩, h3, -⟩
    refine next_at g hl i i j o row (some t) ⟨hi, .inl rfl⟩ ⟨h3, ?_⟩ h1 h2
    intro i' hi' he
    have := nodup_index _ ho _ _ _ he h3
    omega
  induction w with
  | nil =>
    intro i hi k
    constructor
    · intro h; cases h; exact .nil _
    · intro h
      generalize hk : (k : Int) = k' at h
      cases h
      have : k = i := by omega
      subst this
      exact .nil _
  | cons o w ih =>
    intro i hi k
    constructor
    · intro h
      generalize ho' : o :: w = ow at h
      cases h with
      | nil => cases ho'
      | @cons _ _ a c c' w' ha hsrc hc htg hw =>
        cases ho'
        obtain ⟨n, hn⟩ := List.mem_iff_getElem?.1 ha
        have hlt : n < ps.length := by rw [← hps3]; exact (List.getElem?_eq_some_iff.1 hn).1
        obtain ⟨a', t, o', h1, h2, h3, ⟨d1, h4, h5⟩, ⟨d2, h6, h7, h8⟩, -⟩ := hps4 n ps[n].1 ps[n].2 (List.getElem?_eq_getElem hlt)
        rw [hn] at h1
        cases h1
        rw [hsrc] at h4
        cases h4
        rw [htg] at h6
        cases h6
        have e1 := (hcirc hc).1
        have e2 := (hcirc h5).1
        rw [← e2, e1] at h2
        subst h3
        have e3 := (hcirc h8).1
        have hlt2 := (hcirc h8).2
        refine .cons (hnext hi h2) ?_
        have := (ih c'.id (by rw [e3]; exact hlt2) k).1 hw
        rw [e3, Int.toNat_of_nonneg h7] at this
        exact this
    · intro h
      generalize ho' : o :: w = ow at h
      generalize hi' : (i : Int) = i' at h
      generalize hk : (k : Int) = k' at h
      cases h with
      | nil => cases ho'
      | @cons _ c1 _ o1 w1 hnx hw =>
        cases ho'
        subst hi' hk
        have hoin : o ∈ g.observations := by
          by_contra hno
          unfold GraphPolicy.next at hnx
          rw [indexOf_unknown _ _ hno] at hnx
          cases hnx
        obtain ⟨j, hj⟩ := List.mem_iff_getElem?.1 hoin
        have hi2 : i < g.transitions.length := by rw [hl]; exact hi
        have hjr : j < g.transitions[i].length := by rw [hr _ (List.getElem_mem hi2)]; exact (List.getElem?_eq_some_iff.1 hj).1
        have := next_at g hl i i j o _ _ ⟨hi, .inl rfl⟩ (page_first ho hj) (List.getElem?_eq_getElem hi2) (List.getElem?_eq_getElem hjr)
        rw [this] at hnx
        have hcell : g.transitions[i][j] = some c1 := Except.ok.inj hnx
        have hd : DrawnAt g true i j c1 o := ⟨⟨_, List.getElem?_eq_getElem hi2, by rw [List.getElem?_eq_getElem hjr, hcell]⟩, hj, .inl rfl⟩
        have hmem := (hps2 i j).2 ⟨c1, o, hd⟩
        obtain ⟨n, hn⟩ := List.mem_iff_getElem?.1 hmem
        obtain ⟨a, t, o', h1, h2, h3, ⟨d1, h4, h5⟩, ⟨d2, h6, h7, h8⟩, -⟩ := hps4 n i j hn
        have et : t = c1 := by
          have := hnext hi h2
          rw [show o' = o by have := h2.2.1; rw [hj] at this; exact (Option.some.inj this).symm, next_at g hl i i j o _ _ ⟨hi, .inl rfl⟩ (page_first ho hj)
            (List.getElem?_eq_getElem hi2) (List.getElem?_eq_getElem hjr), hcell] at this
          exact (Option.some.inj (Except.ok.inj this)).symm
        have eo : o' = o := by have := h2.2.1; rw [hj] at this; exact (Option.some.inj this).symm
        subst et eo h3
        refine .cons (List.mem_of_getElem? h1) h4 h5 h6 ?_
        refine (ih d2.id (by rw [(hcirc h8).1]; exact (hcirc h8).2) k).2 ?_
        rw [(hcirc h8).1, Int.toNat_of_nonneg h7]
        exact hw

theorem splitOn_none (t : List Char) (h : ' ' ∉ t) : splitOn ' ' t = [t] := by
  induction t with
  | nil => rfl
  | cons c t ih =>
    rw [splitOn, if_neg (fun e => h (by simp [e])), ih (fun e => h (by simp [e]))]

theorem showNat_word (n : Nat) (s : List Char) (hs : ∀ c ∈ s, ¬ IsDigit c) : s ≠ showNat n := by
  rintro rfl
  obtain ⟨h1, h2, -⟩ := showNat_spec n
  cases hn : showNat n with
  | nil => exact h1 hn
  | cons c l => exact hs c (by rw [hn]; simp) (h2 c (by rw [hn]; simp))

/-- The line, the head of an arrow and the legend of its observation have the same color, for the observations without spaces. -/
theorem C108_colors_partial (o : Name) (h : ' ' ∉ nameText o) :
    strokeColor ("link ".toList ++ nameText o) = some (legendColor o) ∧ markerColor (arrowMarker o) = some (legendColor o) := by
  refine ⟨?_, marker_color o⟩
  have hsplit : splitOn ' ' ("link ".toList ++ nameText o) = ["link".toList, nameText o] := by
    show splitOn ' ' ('l' :: 'i' :: 'n' :: 'k' :: ' ' :: nameText o) = _
    simp [splitOn, splitOn_none _ h]
  unfold strokeColor
  simp only [hsplit]
  cases o with
  | int n =>
    have hw : ∀ s : String, (∀ c ∈ s.toList, ¬ IsDigit c) → s.toList ∉ ["link".toList, nameText (.int n)] ∨ s.toList = "link".toList := by
      intro s hs
      by_cases he : s.toList = "link".toList
      · exact .inr he
      · left
        intro hm
        rcases List.mem_cons.1 hm with h | h
        · exact he h
        · exact showNat_word n s.toList hs (by simpa [nameText] using h)
    have d1 := (hw "error" (by unfold IsDigit; decide)).resolve_right (by decide)
    have d2 := (hw "no" (by unfold IsDigit; decide)).resolve_right (by decide)
    have d3 := (hw "yes" (by unfold IsDigit; decide)).resolve_right (by decide)
    have d4 := (hw "none" (by unfold IsDigit; decide)).resolve_right (by decide)
    rw [if_pos (by simp), if_neg d1, if_neg d2, if_neg d3, if_neg d4]
    simp [legendColor]
  | str s =>
    have he : ∀ s' : String, s'.toList ≠ "link".toList → (s'.toList ∈ ["link".toList, nameText (.str s)] ↔ Name.str s = .str s') := by
      intro s' hne
      constructor
      · intro hm
        rcases List.mem_cons.1 hm with h | h
        · exact absurd h hne
        · have : s'.toList = s.toList := by simpa [nameText] using h
          rw [String.toList_inj.1 this]
      · intro h
        cases h
        simp [nameText]
    rw [if_pos (by simp)]
    unfold legendColor
    simp only [he "error" (by decide), he "no" (by decide), he "yes" (by decide), he "none" (by decide)]
    by_cases h1 : Name.str s = .str "none"
    · simp [h1]
    · by_cases h2 : Name.str s = .str "yes"
      · simp [h2]
      · by_cases h3 : Name.str s = .str "no"
        · simp [h3]
        · by_cases h4 : Name.str s = .str "error"
          · simp [h4]
          · simp only [if_neg h1, if_neg h2, if_neg h3, if_neg h4]

theorem fakePath_ne (n : List Char) : fakePath n ≠ [] := fun h => absurd (List.append_eq_nil_iff.1 h).1 (by decide)

/-- The files that are asked for and the switch, for all sequences of actions of the user. -/
theorem C108_session (events : List PolicyEvent) :
    (policySession events).2 = "json/".toList ++ (match lastSelected events with | none => "test.json".toList | some n => fakePath n) ∧
    (policySession events).1.showDone = (lastSwitch events).getD true := by
  have hgen : ∀ (events : List PolicyEvent) (x : PolicyControls × List Char), x.2 = "json/".toList ++ x.1.file →
      (events.foldl (fun x e => policyEvent x.1 e) x).2 = "json/".toList ++ (match lastSelected events with | none => x.1.file | some n => fakePath n) ∧
      (events.foldl (fun x e => policyEvent x.1 e) x).1.showDone = (lastSwitch events).getD x.1.showDone := by
    intro events
    induction events with
    | nil => intro x hx; exact ⟨hx, rfl⟩
    | cons e events ih =>
      intro x hx
      rw [List.foldl_cons]
      have hne : ∀ n, fakePath n ≠ [] := fun n h => fakePath_ne n h
      cases e with
      | select n =>
        have he : policyEvent x.1 (.select n) = (⟨fakePath n, x.1.showDone⟩, "json/".toList ++ fakePath n) := by
          simp [policyEvent, loadPolicyFile, hne n]
        rw [he]
        obtain ⟨h1, h2⟩ := ih (⟨fakePath n, x.1.showDone⟩, "json/".toList ++ fakePath n) rfl
        rw [h1, h2]
        refine ⟨?_, rfl⟩
        rw [lastSelected]
        cases lastSelected events <;> rfl
      | refresh =>
        have he : policyEvent x.1 .refresh = (x.1, "json/".toList ++ x.1.file) := by simp [policyEvent, loadPolicyFile]
        rw [he]
        exact ih _ rfl
      | done b =>
        have he : policyEvent x.1 (.done b) = (⟨x.1.file, b⟩, "json/".toList ++ x.1.file) := by simp [policyEvent, loadPolicyFile]
        rw [he]
        obtain ⟨h1, h2⟩ := ih (⟨x.1.file, b⟩, "json/".toList ++ x.1.file) rfl
        rw [h1, h2]
        refine ⟨rfl, ?_⟩
        rw [lastSwitch]
        cases lastSwitch events <;> rfl
  exact hgen events _ (by simp [loadPolicyFile])

/-! ### Counterexamples -/

/-- **C108 is false**: a policy of a model with numbered actions is not shown. -/
theorem C108_false_numbers : ∃ g, mkGraphPolicy [.int 0] [.str "none"] [[some 0]] [[0]] none (some 0) = .ok g ∧
    ∀ showDone, policyPage showDone g.toDict = .error .typeError :=
  ⟨⟨[.int 0], [.str "none"], [[some 0]], [[0]], 0⟩, by decide +kernel, by decide +kernel⟩

/-- **C108 is false**: an initial node given by a negative number, which runs, is not marked. -/
theorem C108_false_initial : ∃ g p, mkGraphPolicy [.str "wait", .str "stop"] [.str "none"] [[some 0], [some 0]] [[0], [1]] none (some (-1)) = .ok g ∧
    g.getAction g.init = .ok (.str "stop") ∧ policyPage true g.toDict = .ok (.page p) ∧ ∀ c ∈ p.circles, c.initial = false :=
  ⟨⟨[.str "wait", .str "stop"], [.str "none"], [[some 0], [some 0]], [[0], [1]], -1⟩,
    ⟨[⟨"[0] wait".toList, 0, false⟩, ⟨"[1] stop".toList, 1, false⟩],
      [⟨some ⟨"[0] wait".toList, 0, false⟩, 2, some ⟨"[0] wait".toList, 0, false⟩, .str "none", "link none".toList, "arrowhead_none".toList⟩,
        ⟨some ⟨"[1] stop".toList, 1, false⟩, 3, some ⟨"[0] wait".toList, 0, false⟩, .str "none", "link none".toList, "arrowhead_none".toList⟩],
      [("#3c3c3c", "none".toList)]⟩, by decide +kernel, by decide +kernel, by decide +kernel, by decide +kernel⟩

/-- **C108 is false**: two actions of a model can have the same label. -/
theorem C108_false_labels : ("com-get-get".toList ≠ "com-get Get".toList) ∧ pageAction "com-get-get".toList = pageAction "com-get Get".toList := by
  decide +kernel

/-- **C108 is false**: an observation of two words is drawn with a color that is not that of the legend. -/
theorem C108_false_colors : strokeColor ("link ".toList ++ nameText (.str "no answer")) = some "#3894F0" ∧ legendColor (.str "no answer") = "#bbb" := by
  decide +kernel

/-- **C108 is false**: a file that is selected is never asked for by its name. -/
theorem C108_false_select (events : List PolicyEvent) (name n : List Char) (h : lastSelected events = some n) (hn : '\\' ∉ name) :
    (policySession events).2 ≠ "json/".toList ++ name := by
  rw [(C108_session events).1, h]
  intro he
  have he : "json/".toList ++ fakePath n = "json/".toList ++ name := he
  have := List.append_cancel_left he
  exact hn (by rw [← this]; exact List.mem_append_left _ (by decide))

/-! ### Non-vacuity -/

/-- A policy with three nodes. -/
def pagePolicy : GraphPolicy :=
  ⟨[.str "wait", .str "phy-get-left-leg", .str "com-intention"], [.str "none", .str "yes", .str "done"], [[some 1, none, none], [some 2, some 0, some 1], [none, some 0, none]],
    [[0], [1], [2]], 1⟩

example : ∃ p, policyPage false pagePolicy.toDict = .ok (.page p) ∧ ShowsPolicy pagePolicy false p ∧ p.arrows.length = 4 ∧
    p.circles.map PageNode.name = ["[0] wait".toList, "[1] P  GetLL".toList, "[2] C int".toList] := by
  obtain ⟨p, h1, h2⟩ := C108_shown_partial pagePolicy false rfl (by decide) (by simp [pagePolicy]) (by
    intro row hrow t ht
    simp [pagePolicy] at hrow
    rcases hrow with rfl | rfl | rfl <;> simp at ht <;> (try rcases ht with rfl | rfl | rfl) <;> (try subst ht) <;> decide)
  refine ⟨p, h1, h2, ?_⟩
  have : (match policyPage false pagePolicy.toDict with
    | .ok (.page p) => decide (p.arrows.length = 4 ∧ p.circles.map PageNode.name = ["[0] wait".toList, "[1] P  GetLL".toList, "[2] C int".toList])
    | _ => false) = true := by decide +kernel
  rw [h1] at this
  exact of_decide_eq_true this

end Verif
