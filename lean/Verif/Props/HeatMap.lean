import Verif.Proof.HeatMap

/-! Heat maps (C112). -/

set_option linter.unusedSectionVars false
set_option linter.unusedSimpArgs false

namespace Verif
open Spec

/-- **C112**, beliefs: the map shows the array, with the label of each state and of each belief in the middle of its column or row and nothing around; labels
that are not given are numbers; labels that are too few or too many raise. -/
theorem C112_beliefs (a : MeshArray) (states ylabels : Option (List (List Char))) (cmap : Option String) :
    ((∀ l, states = some l → l.length = a.cols) → (∀ l, ylabels = some l → l.length = a.rows.length) → ∃ ax,
      plotBeliefs a states ylabels cmap = .ok ax ∧ ax.cells = a.rows ∧ Covers ax a.rows.length a.cols ∧
        (∀ l, states = some l → LabelledBy ax.xticks l) ∧ (∀ l, ylabels = some l → LabelledBy ax.yticks l) ∧
        (states = none → LabelledBy ax.xticks ((List.range a.cols).map showNat)) ∧
        (ylabels = none → LabelledBy ax.yticks ((List.range a.rows.length).map showNat))) ∧
    ((∃ l, states = some l ∧ l.length ≠ a.cols) ∨ (∃ l, ylabels = some l ∧ l.length ≠ a.rows.length) →
      plotBeliefs a states ylabels cmap = .error .assertionError) := by
  have hn : ∀ n, (numberLabels n).length = n := by intro n; simp [numberLabels]
  constructor
  · intro h1 h2
    have e1 : (states.getD (numberLabels a.cols)).length = a.cols := by
      cases states with
      | none => exact hn _
      | some l => exact h1 l rfl
    have e2 : (ylabels.getD (numberLabels a.rows.length)).length = a.rows.length := by
      cases ylabels with
      | none => exact hn _
      | some l => exact h2 l rfl
    refine ⟨_, by rw [plotBeliefs, if_neg (by rw [e1]; simp), if_neg (by rw [e2]; simp)], rfl, ⟨rfl, rfl⟩, ?_, ?_, ?_, ?_⟩
    · rintro l rfl; exact ticksAt_labelled e1
    · rintro l rfl; exact ticksAt_labelled e2
    · rintro rfl; exact ticksAt_labelled e1
    · rintro rfl; exact ticksAt_labelled e2
  · intro h
    rw [plotBeliefs]
    split
    · rfl
    · rename_i hs
      rcases h with ⟨l, rfl, hl⟩ | ⟨l, rfl, hl⟩
      · exact absurd hl hs
      · exact if_pos hl

/-- **C112**, values: if there are values, one row for each action and one column for each state, the row of a node shows its values from the least of all the
values to the greatest of the row; a row whose values are all the least is blank.  Its label has its number and its action. -/
theorem C112_values {values : List (List ℚ)} {cols : Nat} {actions states : List Name} (hr : ∀ r ∈ values, r.length = cols) (hn : values ≠ [])
    (hc : 0 < cols) (ha : actions.length = values.length) (hs : states.length = cols) : ∃ ax m,
      plotValues values cols actions states = .ok ax ∧ LeastIn m values.flatten ∧ ax.cells.length = values.length ∧
      (∀ (i : Nat) r, values[i]? = some r → ∃ M, GreatestIn M r ∧ ax.cells[i]? = some (r.map fun v => if M = m then none else some ((v - m) / (M - m)))) ∧
      LabelledBy ax.xticks (states.map nameText) ∧ Covers ax values.length cols ∧ ax.yticks.length = values.length ∧
      ∀ (i : Nat) x, actions[i]? = some x → ax.yticks[i]? = some (((i : ℚ) + ((i : ℚ) + 1)) / 2, showNat i ++ ": ".toList ++ nameText x) := by
  have hne : ∀ r ∈ values, r ≠ [] := by
    intro r hr' h
    have := hr r hr'
    rw [h] at this
    simp at this
    omega
  obtain ⟨m, h1, h2⟩ := leastOf_ok (l := values.flatten) (by
    obtain ⟨r, l, rfl⟩ := List.exists_cons_of_ne_nil hn
    have := hne r (by simp)
    obtain ⟨x, t, rfl⟩ := List.exists_cons_of_ne_nil this
    simp)
  obtain ⟨rows, h3, h4, h5⟩ := scaleRows_ok values m hne
  have hlab : (rowLabels actions).length = rows.length := by simp [rowLabels, ha, h4]
  obtain ⟨ax, k1, k2, k3, k4, k5, _⟩ := (C112_beliefs ⟨rows, cols⟩ (some (states.map nameText)) (some (rowLabels actions)) none).1
    (by rintro l ⟨⟩; simpa using hs) (by rintro l ⟨⟩; exact hlab)
  refine ⟨ax, m, ?_, h2, by rw [k2]; exact h4, ?_, k4 _ rfl, ?_, ?_, ?_⟩
  · unfold plotValues
    rw [h1]
    show (do let rows ← (values.map fun (r : List ℚ) => r.map fun x => x - m).mapM scaleRow; plotBeliefs ⟨rows, cols⟩ (some (states.map nameText)) (some (rowLabels actions)) none) = _
    rw [h3]
    exact k1
  · rw [k2]; exact h5
  · unfold Covers at k3 ⊢
    simpa [h4] using k3
  · rw [(k5 _ rfl).1, hlab, h4]
  · intro i x hx
    have := (k5 _ rfl).2 i (showNat i ++ ": ".toList ++ nameText x) (by
      unfold rowLabels
      rw [List.getElem?_map, List.getElem?_zipIdx, hx]
      simp)
    exact this

/-- **C112**, colors of a row: they are between 0 and 1, in the order of the values, and the greatest value of the row has the darkest color. -/
theorem C112_row {values : List (List ℚ)} {cols : Nat} {actions states : List Name} {ax : MeshAxes} (hr : ∀ r ∈ values, r.length = cols)
    (hn : values ≠ []) (hc : 0 < cols) (ha : actions.length = values.length) (hs : states.length = cols)
    (h : plotValues values cols actions states = .ok ax) {i : Nat} {r : List ℚ} (hi : values[i]? = some r) {c : List (Option ℚ)}
    (hci : ax.cells[i]? = some c) :
    (∀ (j : Nat) x, c[j]? = some (some x) → 0 ≤ x ∧ x ≤ 1) ∧
    (∀ (j k : Nat) v w x y, r[j]? = some v → r[k]? = some w → c[j]? = some (some x) → c[k]? = some (some y) → (x < y ↔ v < w)) ∧
    (∀ (j : Nat) v, r[j]? = some v → GreatestIn v r → c[j]? = some (some 1) ∨ ∀ x ∈ c, x = none) := by
  obtain ⟨ax', m, h1, h2, _, h4, _⟩ := C112_values hr hn hc ha hs
  rw [h] at h1
  cases h1
  obtain ⟨M, hM, h5⟩ := h4 i r hi
  rw [hci] at h5
  have h5 := Option.some.inj h5
  have hrm : ∀ x ∈ r, m ≤ x := fun x hx => h2.2 x (List.mem_flatten.2 ⟨r, List.mem_of_getElem? hi, hx⟩)
  by_cases hMm : M = m
  · have hnone : ∀ x ∈ c, x = none := by
      intro x hx
      rw [h5] at hx
      obtain ⟨v, _, rfl⟩ := List.mem_map.1 hx
      rw [if_pos hMm]
    refine ⟨?_, ?_, fun j v _ _ => .inr hnone⟩
    · intro j x hj
      exact absurd (hnone _ (List.mem_of_getElem? hj)) (by simp)
    · intro j k v w x y _ _ hj _
      exact absurd (hnone _ (List.mem_of_getElem? hj)) (by simp)
  · have hpos : 0 < M - m := by
      have := hrm M hM.1
      rcases lt_or_eq_of_le this with h | h
      · linarith
      · exact absurd h.symm hMm
    have hcell : ∀ (j : Nat) v, r[j]? = some v → c[j]? = some (some ((v - m) / (M - m))) := by
      intro j v hj
      rw [h5, List.getElem?_map, hj, Option.map_some, if_neg hMm]
    have hinv : ∀ (j : Nat) x, c[j]? = some (some x) → ∃ v, r[j]? = some v ∧ x = (v - m) / (M - m) := by
      intro j x hj
      rw [h5, List.getElem?_map] at hj
      cases hv : r[j]? with
      | none => rw [hv] at hj; simp at hj
      | some v =>
        rw [hv, Option.map_some, if_neg hMm] at hj
        simp only [Option.some.injEq] at hj
        exact ⟨v, rfl, hj.symm⟩
    refine ⟨?_, ?_, ?_⟩
    · intro j x hj
      obtain ⟨v, hv, rfl⟩ := hinv j x hj
      have hvm := List.mem_of_getElem? hv
      have a1 := hrm v hvm
      have a2 := hM.2 v hvm
      exact ⟨div_nonneg (by linarith) hpos.le, (div_le_one hpos).2 (by linarith)⟩
    · intro j k v w x y hv hw hx hy
      have e1 := hcell j v hv
      have e2 := hcell k w hw
      rw [e1] at hx
      rw [e2] at hy
      simp only [Option.some.injEq] at hx hy
      subst hx hy
      rw [div_lt_div_iff_of_pos_right hpos]
      constructor <;> intro h <;> linarith
    · intro j v hv hg
      left
      rw [hcell j v hv, greatestIn_unique hg hM, div_self hpos.ne']

/-- **C112**, exceptions of `plot_values`: without values, and with a wrong number of states or actions. -/
theorem C112_fails {values : List (List ℚ)} {cols : Nat} {actions states : List Name} (hr : ∀ r ∈ values, r.length = cols) :
    (values.flatten = [] → plotValues values cols actions states = .error .valueError) ∧
      (values ≠ [] → 0 < cols → actions.length ≠ values.length ∨ states.length ≠ cols → plotValues values cols actions states = .error .assertionError) := by
  constructor
  · intro h
    unfold plotValues
    rw [h]
    rfl
  · intro hn hc h
    have hne : ∀ r ∈ values, r ≠ [] := by
      intro r hr' h
      have := hr r hr'
      rw [h] at this
      simp at this
      omega
    obtain ⟨m, h1, h2⟩ := leastOf_ok (l := values.flatten) (by
      obtain ⟨r, l, rfl⟩ := List.exists_cons_of_ne_nil hn
      have := hne r (by simp)
      obtain ⟨x, t, rfl⟩ := List.exists_cons_of_ne_nil this
      simp)
    obtain ⟨rows, h3, h4, _⟩ := scaleRows_ok values m hne
    unfold plotValues
    rw [h1]
    show (do let rows ← (values.map fun (r : List ℚ) => r.map fun x => x - m).mapM scaleRow; plotBeliefs ⟨rows, cols⟩ (some (states.map nameText)) (some (rowLabels actions)) none) = _
    rw [h3]
    refine (C112_beliefs ⟨rows, cols⟩ (some (states.map nameText)) (some (rowLabels actions)) none).2 ?_
    rcases h with h | h
    · exact .inr ⟨_, rfl, by simpa [rowLabels, h4] using h⟩
    · exact .inl ⟨_, rfl, by simpa using h⟩

/-- **C112** is false for different rows: the colors of two nodes cannot be compared.  The greatest values of two rows have the same color whatever they
are. -/
theorem C112_false_compare {values : List (List ℚ)} {cols : Nat} {actions states : List Name} {ax : MeshAxes} (hr : ∀ r ∈ values, r.length = cols)
    (hn : values ≠ []) (hc : 0 < cols) (ha : actions.length = values.length) (hs : states.length = cols)
    (h : plotValues values cols actions states = .ok ax) {i i' j j' : Nat} {r r' : List ℚ} {v v' m : ℚ} (hi : values[i]? = some r)
    (hi' : values[i']? = some r') (hj : r[j]? = some v) (hj' : r'[j']? = some v') (hv : GreatestIn v r) (hv' : GreatestIn v' r')
    (hm : LeastIn m values.flatten) (h1 : m < v) (h2 : m < v') :
    ∃ c c', ax.cells[i]? = some c ∧ ax.cells[i']? = some c' ∧ c[j]? = some (some 1) ∧ c'[j']? = some (some 1) := by
  obtain ⟨ax', m', k1, k2, _, k4, _⟩ := C112_values hr hn hc ha hs
  rw [h] at k1
  cases k1
  have hmm := leastIn_unique k2 hm
  subst hmm
  obtain ⟨M, hM, h5⟩ := k4 i r hi
  obtain ⟨M', hM', h5'⟩ := k4 i' r' hi'
  have e := greatestIn_unique hv hM
  have e' := greatestIn_unique hv' hM'
  subst e e'
  refine ⟨_, _, h5, h5', ?_, ?_⟩
  · rw [List.getElem?_map, hj, Option.map_some, if_neg h1.ne', div_self (by linarith)]
  · rw [List.getElem?_map, hj', Option.map_some, if_neg h2.ne', div_self (by linarith)]

/-- The values of two nodes: in the first state the second node is better, and is shown lighter. -/
example : plotValues [[2, 1], [3, 10]] 2 [.str "wait", .str "ask"] [.str "s", .str "t"] =
    .ok ⟨[[some 1, some 0], [some (2 / 9), some 1]], "Blues", [(1 / 2, "s".toList), (3 / 2, "t".toList)],
      [(1 / 2, "0: wait".toList), (3 / 2, "1: ask".toList)], (0, 2), (0, 2), true⟩ := by
  decide +kernel

/-- A node whose values are all the least is blank. -/
example : (plotValues [[1, 1], [3, 10]] 2 [.str "wait", .str "ask"] [.str "s", .str "t"]).map MeshAxes.cells =
    .ok [[none, none], [some (2 / 9), some 1]] := by
  decide +kernel

/-- **C112**, maps of colors: red if no entry is negative, blue if none is positive, otherwise the reversed blue; with a `nan` always the latter. -/
theorem C112_cmap (a : MeshArray) :
    ((∀ r ∈ a.rows, ∀ x ∈ r, ∃ v, x = some v ∧ 0 ≤ v) → cmapFromData a = "Reds") ∧
    ((∀ r ∈ a.rows, ∀ x ∈ r, ∃ v, x = some v ∧ v ≤ 0) → (∃ r ∈ a.rows, ∃ v, some v ∈ r ∧ v < 0) → cmapFromData a = "Blues") ∧
    ((∃ r ∈ a.rows, ∃ v, some v ∈ r ∧ v < 0) → (∃ r ∈ a.rows, ∃ v, some v ∈ r ∧ 0 < v) → cmapFromData a = "Blues_r") ∧
    ((∃ r ∈ a.rows, none ∈ r) → cmapFromData a = "Blues_r") := by
  have key : ∀ (q : ℚ → Bool), a.rows.flatten.all (cellIs q) = true ↔
      ∀ r ∈ a.rows, ∀ x ∈ r, ∃ v, x = some v ∧ q v = true := by
    intro q
    rw [List.all_eq_true]
    constructor
    · intro h r hr x hx
      have := h x (List.mem_flatten.2 ⟨r, hr, hx⟩)
      cases x with
      | none => simp [cellIs] at this
      | some v => exact ⟨v, rfl, this⟩
    · intro h x hx
      obtain ⟨r, hr, hx⟩ := List.mem_flatten.1 hx
      obtain ⟨v, rfl, hv⟩ := h r hr x hx
      exact hv
  have kp := key fun v => decide (0 ≤ v)
  have kn := key fun v => decide (v ≤ 0)
  simp only [decide_eq_true_eq] at kp kn
  have np : (∃ r ∈ a.rows, ∃ v, some v ∈ r ∧ v < 0) → ¬ ∀ r ∈ a.rows, ∀ x ∈ r, ∃ v, x = some v ∧ 0 ≤ v := by
    rintro ⟨r, hr, v, hv, hlt⟩ h
    obtain ⟨w, hw, h0⟩ := h r hr _ hv
    cases hw
    linarith
  have nn : (∃ r ∈ a.rows, ∃ v, some v ∈ r ∧ 0 < v) → ¬ ∀ r ∈ a.rows, ∀ x ∈ r, ∃ v, x = some v ∧ v ≤ 0 := by
    rintro ⟨r, hr, v, hv, hlt⟩ h
    obtain ⟨w, hw, h0⟩ := h r hr _ hv
    cases hw
    linarith
  refine ⟨?_, ?_, ?_, ?_⟩
  · intro h
    rw [cmapFromData, if_pos (kp.2 h)]
  · intro h h'
    rw [cmapFromData, if_neg (fun x => np h' (kp.1 x)), if_pos (kn.2 h)]
  · intro h h'
    rw [cmapFromData, if_neg (fun x => np h (kp.1 x)), if_neg (fun x => nn h' (kn.1 x))]
  · rintro ⟨r, hr, hx⟩
    rw [cmapFromData, if_neg, if_neg]
    · intro x
      obtain ⟨v, hv, _⟩ := kn.1 x r hr _ hx
      cases hv
    · intro x
      obtain ⟨v, hv, _⟩ := kp.1 x r hr _ hx
      cases hv

/-- **C112**, colors of curves: there are `n`, at different positions, from the beginning of the map; the end of the map is never reached. -/
theorem C112_colors (n : Nat) : (nColors n).length = n ∧ (nColors n).Nodup ∧ (∀ x ∈ nColors n, 0 ≤ x ∧ x < 1) ∧ (0 < n → (nColors n)[0]? = some 0) := by
  have hpos : ∀ i, i < n → (0 : ℚ) < n := fun i hi => by exact_mod_cast (Nat.lt_of_le_of_lt (Nat.zero_le i) hi)
  refine ⟨by simp [nColors], ?_, ?_, ?_⟩
  · unfold nColors
    refine List.Nodup.map_on ?_ List.nodup_range
    intro i hi j hj h
    have h0 := hpos i (List.mem_range.1 hi)
    have := (div_left_inj' h0.ne').1 h
    exact_mod_cast this
  · intro x hx
    obtain ⟨i, hi, rfl⟩ := List.mem_map.1 hx
    have hi := List.mem_range.1 hi
    have h0 := hpos i hi
    refine ⟨div_nonneg (by exact_mod_cast Nat.zero_le i) h0.le, (div_lt_one h0).2 (by exact_mod_cast hi)⟩
  · intro h
    unfold nColors
    rw [List.getElem?_map, List.getElem?_range h]
    simp

/-- **C112**, spines: those that are given are hidden, the others are made thin; ticks are removed from the axes that are given. -/
theorem C112_spines {f : Frame} {spines : List String} (h : ∀ n ∈ ["top", "bottom", "right", "left"] ++ spines, ∃ s ∈ f.spines, s.name = n)
    (ticks : Option (List Char)) : ∃ f', removeChartjunk f spines ticks none = .ok f' ∧
      f'.spines = f.spines.map (fun s => ⟨s.name, if s.name ∈ spines then false else s.visible,
        if s.name ∈ ["top", "bottom", "right", "left"] ∧ s.name ∉ spines then 1 / 2 else s.width⟩) ∧
      (∀ t, ticks = some t → (f'.xticks = true ↔ f.xticks = true ∧ 'x' ∉ t) ∧ (f'.yticks = true ↔ f.yticks = true ∧ 'y' ∉ t)) ∧
      (ticks = none → f'.xticks = f.xticks ∧ f'.yticks = f.yticks) := by
  have h1 := hideSpines_ok spines f fun n hn => h n (List.mem_append_right _ hn)
  have h2 := thin_ok spines ["top", "bottom", "right", "left"]
    { f with spines := f.spines.map fun s => if s.name ∈ spines then { s with visible := false } else s } (by
      intro n hn
      obtain ⟨s, hs, he⟩ := h n (List.mem_append_left _ hn)
      refine ⟨_, List.mem_map.2 ⟨s, hs, rfl⟩, ?_⟩
      split <;> exact he)
  have hsp : ((f.spines.map fun s => if s.name ∈ spines then { s with visible := false } else s).map fun s =>
      if s.name ∈ ["top", "bottom", "right", "left"] ∧ s.name ∉ spines then { s with width := 1 / 2 } else s) =
      f.spines.map (fun s => (⟨s.name, if s.name ∈ spines then false else s.visible,
        if s.name ∈ ["top", "bottom", "right", "left"] ∧ s.name ∉ spines then 1 / 2 else s.width⟩ : Spine)) := by
    rw [List.map_map]
    apply List.map_congr_left
    intro s _
    simp only [Function.comp]
    by_cases a : s.name ∈ spines
    · simp only [a, if_true, not_true_eq_false, and_false, if_false]
    · by_cases b : s.name ∈ ["top", "bottom", "right", "left"]
      · simp only [a, b, if_false, not_false_eq_true, and_true, if_true]
      · simp only [a, b, if_false, false_and]
  simp only [removeChartjunk, h1, thinSpines, h2, bind, Except.bind]
  cases ticks with
  | none =>
    refine ⟨_, rfl, hsp, by simp, fun _ => ⟨rfl, rfl⟩⟩
  | some t =>
    refine ⟨_, rfl, hsp, ?_, by simp⟩
    rintro t' ⟨⟩
    constructor
    · show (if 'x' ∈ t then false else f.xticks) = true ↔ _
      by_cases hx : 'x' ∈ t <;> simp [hx]
    · show (if 'y' ∈ t then false else f.yticks) = true ↔ _
      by_cases hx : 'y' ∈ t <;> simp [hx]

/-- **C112** is false for the labels of ticks: `remove_chartjunk` never removes them, it raises. -/
theorem C112_false_ticklabels {f : Frame} {spines : List String} (h : ∀ n ∈ ["top", "bottom", "right", "left"] ++ spines, ∃ s ∈ f.spines, s.name = n)
    (ticks : Option (List Char)) (t : List Char) : removeChartjunk f spines ticks (some t) = .error .typeError := by
  have h1 := hideSpines_ok spines f fun n hn => h n (List.mem_append_right _ hn)
  have h2 := thin_ok spines ["top", "bottom", "right", "left"]
    { f with spines := f.spines.map fun s => if s.name ∈ spines then { s with visible := false } else s } (by
      intro n hn
      obtain ⟨s, hs, he⟩ := h n (List.mem_append_left _ hn)
      refine ⟨_, List.mem_map.2 ⟨s, hs, rfl⟩, ?_⟩
      split <;> exact he)
  simp only [removeChartjunk, h1, thinSpines, h2, bind, Except.bind]

/-- The frame of new axes. -/
def newFrame : Frame := ⟨[⟨"left", true, 4 / 5⟩, ⟨"right", true, 4 / 5⟩, ⟨"bottom", true, 4 / 5⟩, ⟨"top", true, 4 / 5⟩], true, true⟩

/-- **C112**, `pcolormesh`: the array, with the labels that are given in the middle of the columns and rows, without spines and ticks. -/
theorem C112_mesh (a : MeshArray) (cmap : Option String) {xl yl : List (List Char)} (hx : xl = [] ∨ xl.length = a.cols)
    (hy : yl = [] ∨ yl.length = a.rows.length) {f : Frame} (hf : ∀ n ∈ ["top", "bottom", "right", "left"], ∃ s ∈ f.spines, s.name = n) :
    ∃ ax f', pcolorMesh a cmap xl yl f = .ok (ax, f') ∧ ax.cells = a.rows ∧ Covers ax a.rows.length a.cols ∧ LabelledBy ax.xticks xl ∧
      LabelledBy ax.yticks yl ∧ f'.xticks = false ∧ f'.yticks = false ∧ ∀ s ∈ f'.spines, s.name ∈ ["top", "bottom", "right", "left"] → s.visible = false := by
  obtain ⟨f', h1, h2, h3, _⟩ := C112_spines (f := f) (spines := ["top", "right", "bottom", "left"]) (by
    intro n hn
    apply hf
    simp at hn ⊢
    tauto) (some ['x', 'y'])
  have hlab : ∀ (l : List (List Char)) (n : Nat), l = [] ∨ l.length = n → LabelledBy (if l = [] then [] else (ticksAt n).zip l) l := by
    intro l n h
    by_cases hl : l = []
    · subst hl
      exact ⟨rfl, by simp⟩
    · rw [if_neg hl]
      exact ticksAt_labelled (h.resolve_left hl)
  obtain ⟨g1, g2⟩ := h3 _ rfl
  refine ⟨⟨a.rows, cmap.getD (cmapFromData a), if xl = [] then [] else (ticksAt a.cols).zip xl,
    if yl = [] then [] else (ticksAt a.rows.length).zip yl, (0, a.cols), (0, a.rows.length), false⟩, f', ?_, rfl, ⟨rfl, rfl⟩, hlab xl _ hx,
    hlab yl _ hy, ?_, ?_, ?_⟩
  · unfold pcolorMesh
    rw [h1]
    rfl
  · rw [Bool.eq_false_iff]; intro h; exact (g1.1 h).2 (by simp)
  · rw [Bool.eq_false_iff]; intro h; exact (g2.1 h).2 (by simp)
  · intro s hs hn
    rw [h2] at hs
    obtain ⟨s0, _, rfl⟩ := List.mem_map.1 hs
    show (if s0.name ∈ _ then false else s0.visible) = false
    have hn : s0.name ∈ ["top", "bottom", "right", "left"] := hn
    rw [if_pos]
    simp at hn ⊢
    tauto

/-- Non-vacuity of C112 for `pcolormesh`. -/
example : pcolorMesh ⟨[[some 1, some (-1)]], 2⟩ none ["a".toList, "b".toList] [] newFrame =
    .ok (⟨[[some 1, some (-1)]], "Blues_r", [(1 / 2, "a".toList), (3 / 2, "b".toList)], [], (0, 2), (0, 1), false⟩,
      ⟨[⟨"left", false, 4 / 5⟩, ⟨"right", false, 4 / 5⟩, ⟨"bottom", false, 4 / 5⟩, ⟨"top", false, 4 / 5⟩], false, false⟩) := by
  decide +kernel

end Verif
