import Verif.Spec.SnapDemo
import Verif.Props.Snap
import Verif.Props.TaskGraph

/-! The demonstrations of the snap circuit sample, and the texts of states and actions (C102). -/

set_option linter.unusedSectionVars false
set_option linter.unusedSimpArgs false

namespace Verif
open Spec BaseGraph TaskGraph

/-! ### Texts -/

theorem orientation_compass (o : Int) (h : AxisOk 4 o) : orientationName o = .ok (compass o) := by
  unfold orientationName
  have h1 : npIndex orientationNames.length o = .ok (o % 4).toNat := npIndex_ok 4 o h
  rw [h1]
  have h2 : o % 4 = 0 ∨ o % 4 = 1 ∨ o % 4 = 2 ∨ o % 4 = 3 := by omega
  unfold compass
  rcases h2 with h2 | h2 | h2 | h2 <;> rw [h2] <;> rfl

/-- **C102 (names).**  The name of an action has the label, the row and the column, and the orientation. -/
theorem C102_names (board : Nat × Nat) (part : SnapPart) (loc : SnapLoc) (h : PlacedOk board (loc, part)) :
    ∃ a, mkPlace board part loc = .ok a ∧ a.name = "Place " ++ part.label ++ atText loc ∧ a.part = part ∧ a.location = loc := by
  have ho := orientation_compass loc.2.2 h.2.2.2
  unfold mkPlace
  simp only [mkPresence_ok board part loc false h, mkPresence_ok board part loc true h, ho, bind, Except.bind]
  exact ⟨_, rfl, by simp [atText, String.append_assoc], rfl, rfl⟩

/-- **C102 (texts).**  The text of a state has the text of every part once, in some order. -/
theorem C102_texts (board : Nat × Nat) (parts : List (SnapLoc × SnapPart)) (h : ∀ e ∈ parts, PlacedOk board e) :
    ∃ order : List (SnapLoc × SnapPart), order.Nodup ∧ (∀ e, e ∈ order ↔ e ∈ parts) ∧
      stateText parts = .ok ("{" ++ ", ".intercalate (order.map partText) ++ "}") := by
  obtain ⟨ok0, d0, e0⟩ := tableOk_empty (α := SnapLoc × SnapPart) hashPlaced 3 le_rfl
  have l0 : LoadOk (List.replicate (2 ^ 3) (none : Option (SnapLoc × SnapPart))) := by
    unfold LoadOk
    rw [e0]
    simp
  obtain ⟨t, h1, ok1, d1, l1, m1⟩ := hsetOf_spec hashPlaced (fun x => hashTuple_lt _) parts _ ok0 d0 l0
  have hmem : ∀ e, e ∈ t.elems ↔ e ∈ parts := by
    intro e
    rw [m1, e0]
    simp
  refine ⟨t.elems, ?_, hmem, ?_⟩
  · show (t.filterMap id).Nodup
    unfold List.Nodup
    rw [List.pairwise_filterMap, List.pairwise_iff_getElem]
    intro i j hi hj hij x hx y hy hxy
    subst hxy
    have := table_unique hashPlaced t ok1 i j x (by rw [List.getElem?_eq_getElem hi]; exact congrArg some hx)
      (by rw [List.getElem?_eq_getElem hj]; exact congrArg some hy)
    omega
  · have htext : ∀ l : List (SnapLoc × SnapPart), (∀ e ∈ l, e ∈ parts) → l.mapM placedText = .ok (l.map partText) := by
      intro l
      induction l with
      | nil => intro _; rfl
      | cons e l ih =>
          intro hl
          rw [List.mapM_cons, ih fun x hx => hl x (List.mem_cons_of_mem _ hx)]
          unfold placedText
          rw [orientation_compass e.1.2.2 (h e (hl e List.mem_cons_self)).2.2.2]
          simp only [bind, Except.bind, pure, Except.pure, partText, atText, List.map_cons, String.append_assoc]
          rfl
    unfold stateText setOrder
    rw [show hsetOf hashPlaced (List.replicate 8 none) parts = .ok t from h1]
    simp only [bind, Except.bind]
    rw [htext _ fun e he => (hmem e).1 he]

/-! ### The demonstrations -/

theorem legOne_ok {p : Int × Int} (h1 : -7 ≤ p.1) (h2 : p.1 < 5) (h3 : -10 ≤ p.2) (h4 : p.2 < 9) :
    PlacedOk demoBoard (legOne p) ∧ PlacedOk demoBoard (legTwo p) := by
  unfold PlacedOk AxisOk demoBoard legOne legTwo
  simp only
  refine ⟨⟨?_, ?_, ?_, ?_⟩, ⟨?_, ?_, ?_, ?_⟩⟩ <;> constructor <;> push_cast <;> omega

/-- The check of an action on the board before and after. -/
theorem demoCheck_add {e : SnapLoc × SnapPart} (he : PlacedOk demoBoard e) {a : PlaceAct} (ha : mkPlace demoBoard e.2 e.1 = .ok a)
    (l : List (SnapLoc × SnapPart)) (hl : ∀ x ∈ l, PlacedOk demoBoard x ∧ ¬ SameCell demoBoard x e) :
    demoCheck a ⟨7, 10, l⟩ ⟨7, 10, l ++ [e]⟩ = true := by
  obtain ⟨r, h1, h2⟩ := C63_check_indices demoBoard e.2 e.1 he a ha ⟨7, 10, l⟩ ⟨7, 10, l ++ [e]⟩ rfl rfl (fun x hx => (hl x hx).1) (by
    intro x hx
    rcases List.mem_append.1 hx with hx | hx
    · exact (hl x hx).1
    · rw [List.mem_singleton.1 hx]; exact he)
  unfold demoCheck
  rw [h1]
  refine h2.2 ⟨?_, e, by simp, ?_⟩
  · rintro ⟨x, hx, hs⟩
    exact (hl x hx).2 hs
  · unfold SameCell
    exact ⟨rfl, rfl, rfl, rfl⟩

/-- The path for a position on the board, with negative numbers counted from the end. -/
theorem makeL_ok {p : Int × Int} (h1 : -7 ≤ p.1) (h2 : p.1 < 5) (h3 : -10 ≤ p.2) (h4 : p.2 < 9) :
    ∃ a0 a1, mkPlace demoBoard (legOne p).2 (legOne p).1 = .ok a0 ∧ mkPlace demoBoard (legTwo p).2 (legTwo p).1 = .ok a1 ∧
      pathMakeL p = .ok [.state ⟨7, 10, []⟩, .action a0, .state ⟨7, 10, [legOne p]⟩, .action a1,
        .state ⟨7, 10, [legOne p, legTwo p]⟩] ∧
      demoCheck a0 ⟨7, 10, []⟩ ⟨7, 10, [legOne p]⟩ = true ∧
      demoCheck a1 ⟨7, 10, [legOne p]⟩ ⟨7, 10, [legOne p, legTwo p]⟩ = true := by
  obtain ⟨o1, o2⟩ := legOne_ok h1 h2 h3 h4
  obtain ⟨a0, k1, _⟩ := (C63_construct demoBoard (legOne p).2 (legOne p).1).1 o1
  obtain ⟨a1, k2, _⟩ := (C63_construct demoBoard (legTwo p).2 (legTwo p).1).1 o2
  refine ⟨a0, a1, k1, k2, ?_, ?_, ?_⟩
  · unfold pathMakeL
    rw [if_pos (by unfold demoBoard; push_cast; omega), if_pos (by unfold demoBoard; push_cast; omega)]
    unfold makeL
    simp only
    rw [show mkPlace demoBoard ⟨0, "2"⟩ (p.1, p.2, 0) = .ok a0 from k1, show mkPlace demoBoard ⟨1, "2"⟩ (p.1 + 2, p.2, 1) = .ok a1 from k2]
    simp [bind, Except.bind, mkSnapState, setOf, setAdd, legOne, legTwo, demoBoard]
  · exact demoCheck_add o1 k1 [] (by simp)
  · refine demoCheck_add o2 k2 [legOne p] ?_
    intro x hx
    rw [List.mem_singleton.1 hx]
    refine ⟨o1, ?_⟩
    rintro ⟨h, _⟩
    revert h
    simp [legOne, legTwo]

theorem isPath_five {chk : PlaceAct → SnapState → SnapState → Bool} {s0 s1 s2 : SnapState} {a0 a1 : PlaceAct} (h1 : chk a0 s0 s1 = true)
    (h2 : chk a1 s1 s2 = true) : IsPath chk [.state s0, .action a0, .state s1, .action a1, .state s2] := by
  rw [← C01_checkPath]
  simp [checkPath, h1, h2]

/-- **C102 (paths).**  `path_make_L` raises `AssertionError` exactly if the position is on the last two rows, on the last column or
beyond, `IndexError` exactly if it is not and an index is too small for numpy; else it returns a valid path that demonstrates the L. -/
theorem C102_path (p : Int × Int) :
    (5 ≤ p.1 ∨ 9 ≤ p.2 → pathMakeL p = .error .assertionError) ∧
    (p.1 < 5 → p.2 < 9 → (p.1 < -7 ∨ p.2 < -10) → pathMakeL p = .error .indexError) ∧
    (-7 ≤ p.1 → p.1 < 5 → -10 ≤ p.2 → p.2 < 9 → ∃ path, pathMakeL p = .ok path ∧ IsPath demoCheck path ∧ Demonstrates p path) := by
  refine ⟨?_, ?_, ?_⟩
  · intro h
    unfold pathMakeL demoBoard
    push_cast
    by_cases h1 : p.1 < 5
    · rw [if_pos (by omega), if_neg (by omega)]
    · rw [if_neg (by omega)]
  · intro h1 h2 h3
    unfold pathMakeL
    rw [if_pos (by unfold demoBoard; push_cast; omega), if_pos (by unfold demoBoard; push_cast; omega)]
    unfold makeL
    have : mkPlace demoBoard ⟨0, "2"⟩ (p.1, p.2, 0) = .error .indexError := by
      refine (C63_construct demoBoard ⟨0, "2"⟩ (p.1, p.2, 0)).2 ?_
      unfold PlacedOk AxisOk demoBoard
      simp only
      push_cast
      omega
    simp only
    rw [this]
    rfl
  · intro h1 h2 h3 h4
    obtain ⟨a0, a1, k1, k2, k3, k4, k5⟩ := makeL_ok h1 h2 h3 h4
    refine ⟨_, k3, isPath_five k4 k5, _, _, _, a0, a1, rfl, ⟨rfl, rfl, rfl⟩, ⟨rfl, rfl, rfl⟩, rfl, rfl, rfl, ?_, ?_⟩
    · obtain ⟨a, h5, h6⟩ := (C63_construct demoBoard (legOne p).2 (legOne p).1).1 (legOne_ok h1 h2 h3 h4).1
      rw [k1] at h5
      cases h5
      exact h6
    · obtain ⟨a, h5, h6⟩ := (C63_construct demoBoard (legTwo p).2 (legTwo p).1).1 (legOne_ok h1 h2 h3 h4).2
      rw [k2] at h5
      cases h5
      exact h6

/-- **C102 (random).**  The random demonstrations are those of the positions where an L fits, and each of them is possible. -/
theorem C102_random : (∀ u, ∃ p, FitsL p ∧ randomPathMakeL u = pathMakeL p) ∧
    ∀ p, FitsL p → ∃ u, u.1 < 5 ∧ u.2 < 9 ∧ randomPathMakeL u = pathMakeL p := by
  refine ⟨fun u => ⟨(randInt 5 u.1, randInt 9 u.2), ?_, rfl⟩, ?_⟩
  · unfold FitsL randInt
    have h1 := Nat.mod_lt u.1 (show 0 < 5 by decide)
    have h2 := Nat.mod_lt u.2 (show 0 < 9 by decide)
    simp only
    omega
  · rintro ⟨r, c⟩ ⟨h1, h2, h3, h4⟩
    simp only at h1 h2 h3 h4
    refine ⟨(r.toNat, c.toNat), by simp only; omega, by simp only; omega, ?_⟩
    unfold randomPathMakeL randInt demoBoard
    simp only
    rw [show (7 - 2 : Nat) = 5 from rfl, show (10 - 1 : Nat) = 9 from rfl, Nat.mod_eq_of_lt (by omega), Nat.mod_eq_of_lt (by omega),
      Int.toNat_of_nonneg h1, Int.toNat_of_nonneg h3]

/-! ### The graph of the demonstrations -/

theorem nonempty_place : Nonempty PlaceAct := by
  obtain ⟨a, _⟩ := makeL_ok (p := (0, 0)) (by decide) (by decide) (by decide) (by decide)
  exact ⟨a⟩

/-- The action that adds a part. -/
noncomputable def placing (e : SnapLoc × SnapPart) : PlaceAct :=
  @Classical.epsilon PlaceAct nonempty_place fun a => mkPlace demoBoard e.2 e.1 = .ok a

theorem placing_eq {e : SnapLoc × SnapPart} {a : PlaceAct} (h : mkPlace demoBoard e.2 e.1 = .ok a) : placing e = a := by
  have := @Classical.epsilon_spec PlaceAct (fun a => mkPlace demoBoard e.2 e.1 = .ok a) ⟨a, h⟩
  have h2 : mkPlace demoBoard e.2 e.1 = .ok (placing e) := this
  rw [h] at h2
  cases h2
  rfl

/-- The empty board. -/
def board0 : SnapState := ⟨7, 10, []⟩
/-- The board with the first part of an L. -/
def board1 (p : Int × Int) : SnapState := ⟨7, 10, [legOne p]⟩
/-- The board with an L. -/
def board2 (p : Int × Int) : SnapState := ⟨7, 10, [legOne p, legTwo p]⟩

/-- The path of an L. -/
noncomputable def pathL (p : Int × Int) : List (Elem SnapState PlaceAct) :=
  [.state board0, .action (placing (legOne p)), .state (board1 p), .action (placing (legTwo p)), .state (board2 p)]

theorem pathL_ok {p : Int × Int} (h : FitsL p) : pathMakeL p = .ok (pathL p) ∧ IsPath demoCheck (pathL p) := by
  obtain ⟨h1, h2, h3, h4⟩ := h
  obtain ⟨a0, a1, k1, k2, k3, k4, k5⟩ := makeL_ok (p := p) (by omega) h2 (by omega) h4
  unfold pathL
  rw [placing_eq k1, placing_eq k2]
  exact ⟨k3, isPath_five k4 k5⟩

theorem legOne_inj {p q : Int × Int} (h : legOne p = legOne q) : p = q := by
  unfold legOne at h
  simp only [Prod.mk.injEq] at h
  exact Prod.ext h.1.1 h.1.2.1

theorem board1_inj {p q : Int × Int} (h : board1 p = board1 q) : p = q := by
  unfold board1 at h
  injection h with _ _ h
  injection h with h _
  exact legOne_inj h

theorem board2_inj {p q : Int × Int} (h : board2 p = board2 q) : p = q := by
  unfold board2 at h
  injection h with _ _ h
  injection h with h _
  exact legOne_inj h

theorem board01 (p : Int × Int) : board0 ≠ board1 p := by
  unfold board0 board1
  intro h
  injection h with _ _ h
  cases h

theorem board02 (p : Int × Int) : board0 ≠ board2 p := by
  unfold board0 board2
  intro h
  injection h with _ _ h
  cases h

theorem board12 (p q : Int × Int) : board1 p ≠ board2 q := by
  unfold board1 board2
  intro h
  injection h with _ _ h
  injection h with _ h
  cases h

theorem step_pathL (p : Int × Int) (s : SnapState) (a : PlaceAct) (s' : SnapState) :
    StepOf (pathL p) s a s' ↔ (s = board0 ∧ a = placing (legOne p) ∧ s' = board1 p) ∨
      (s = board1 p ∧ a = placing (legTwo p) ∧ s' = board2 p) := by
  unfold StepOf pathL
  constructor
  · rintro ⟨i, hi, h1, h2, h3⟩
    rcases i with _ | _ | _ | _ | _ | i
    · left
      simp only [List.getElem?_cons_zero, List.getElem?_cons_succ, zero_add, Option.some.injEq, Elem.state.injEq, Elem.action.injEq] at h1 h2 h3
      exact ⟨h1.symm, h2.symm, h3.symm⟩
    · omega
    · right
      simp only [List.getElem?_cons_zero, List.getElem?_cons_succ, zero_add, Option.some.injEq, Elem.state.injEq, Elem.action.injEq] at h1 h2 h3
      exact ⟨h1.symm, h2.symm, h3.symm⟩
    · omega
    · simp at h2
    · simp at h1
  · rintro (⟨rfl, rfl, rfl⟩ | ⟨rfl, rfl, rfl⟩)
    · exact ⟨0, rfl, rfl, rfl, rfl⟩
    · exact ⟨2, rfl, rfl, rfl, rfl⟩

theorem graphOfLs_addAll (ps : List (Int × Int)) (h : ∀ p ∈ ps, FitsL p) (g : TaskGraph SnapState PlaceAct) :
    graphOfLs ps g = .ok ((ps.map pathL).foldl (fun g p => caught (g.addPath demoCheck p) g) g) := by
  induction ps generalizing g with
  | nil => rfl
  | cons p ps ih =>
      obtain ⟨h1, h2⟩ := pathL_ok (h p List.mem_cons_self)
      obtain ⟨⟨g', h3⟩, _⟩ := (C02_errors demoCheck g (pathL p)).2.1 h2
      rw [graphOfLs, h1]
      simp only [bind, Except.bind, h3, List.map_cons, List.foldl_cons]
      rw [ih fun x hx => h x (List.mem_cons_of_mem _ hx)]
      rfl

/-- The transitions of the graph. -/
theorem demo_transitions (ps : List (Int × Int)) (h : ∀ p ∈ ps, FitsL p) (s : SnapState) (a : PlaceAct) (s' : SnapState) :
    (∃ x ∈ ps.map pathL, IsPath demoCheck x ∧ StepOf x s a s') ↔
      ∃ p ∈ ps, (s = board0 ∧ a = placing (legOne p) ∧ s' = board1 p) ∨
        (s = board1 p ∧ a = placing (legTwo p) ∧ s' = board2 p) := by
  constructor
  · rintro ⟨x, hx, _, hs⟩
    obtain ⟨p, hp, rfl⟩ := List.mem_map.1 hx
    exact ⟨p, hp, (step_pathL p s a s').1 hs⟩
  · rintro ⟨p, hp, hs⟩
    exact ⟨pathL p, List.mem_map_of_mem hp, (pathL_ok (h p hp)).2, (step_pathL p s a s').2 hs⟩

/-- **C102 (graph).**  The graph of the demonstrations of a list of positions recognises the empty path and these
demonstrations, and no other path. -/
theorem C102_graph (ps : List (Int × Int)) (h : ∀ p ∈ ps, FitsL p) :
    ∃ g, graphOfLs ps {} = .ok g ∧
      ∀ q, g.hasPath demoCheck q = .ok true ↔ q = [] ∨ ∃ p ∈ ps, pathMakeL p = .ok q := by
  refine ⟨_, graphOfLs_addAll ps h {}, ?_⟩
  intro q
  show (addAll demoCheck (ps.map pathL)).hasPath demoCheck q = .ok true ↔ _
  constructor
  · intro hq
    by_cases hp : IsPath demoCheck q
    · by_cases hne : q = []
      · exact Or.inl hne
      · right
        obtain ⟨⟨x, hx, _, s, hs1, hs2⟩, ⟨y, hy, _, t, ht1, ht2⟩, hst⟩ := (C02_hasPath demoCheck _ q hp hne).1 hq
        obtain ⟨p0, _, rfl⟩ := List.mem_map.1 hx
        obtain ⟨p1, _, rfl⟩ := List.mem_map.1 hy
        have e1 : board0 = s := by
          have : some (Elem.state board0 : Elem SnapState PlaceAct) = some (.state s) := hs1
          injection this with this
          injection this
        have e2 : board2 p1 = t := by
          have : some (Elem.state (board2 p1) : Elem SnapState PlaceAct) = some (.state t) := ht1
          injection this with this
          injection this
        subst e1 e2
        have hstep := fun s a s' hx => (demo_transitions ps h s a s').1 (hst s a s' hx)
        have hc := (C01_checkPath demoCheck q).2 hp
        rcases q with _ | ⟨x0, q⟩
        · exact absurd rfl hne
        have e0 : x0 = .state board0 := by
          have : some x0 = some (.state board0) := hs2
          injection this
        subst e0
        rcases q with _ | ⟨y1, q⟩
        · have : some (Elem.state board0 : Elem SnapState PlaceAct) = some (.state (board2 p1)) := ht2
          injection this with this
          injection this with this
          exact absurd this (board02 p1)
        rcases q with _ | ⟨y2, q⟩
        · rw [checkPath_two] at hc
          cases hc
        obtain ⟨_, a1, s1, _, rfl, rfl, _, hc1⟩ := (checkPath_cons3 _ _ _ _ _).1 hc
        obtain ⟨p, hpm, h1 | h1⟩ := hstep board0 a1 s1 ⟨0, rfl, rfl, rfl, rfl⟩
        swap
        · exact absurd h1.1 (board01 p)
        obtain ⟨_, rfl, rfl⟩ := h1
        rcases q with _ | ⟨y3, q⟩
        · have : some (Elem.state (board1 p) : Elem SnapState PlaceAct) = some (.state (board2 p1)) := ht2
          injection this with this
          injection this with this
          exact absurd this (board12 p p1)
        rcases q with _ | ⟨y4, q⟩
        · rw [checkPath_two] at hc1
          cases hc1
        obtain ⟨_, a2, s2, _, rfl, rfl, _, hc2⟩ := (checkPath_cons3 _ _ _ _ _).1 hc1
        obtain ⟨p2, hpm2, h1 | h1⟩ := hstep (board1 p) a2 s2 ⟨2, rfl, rfl, rfl, rfl⟩
        · exact absurd h1.1.symm (board01 p)
        obtain ⟨e3, rfl, rfl⟩ := h1
        obtain rfl := board1_inj e3
        rcases q with _ | ⟨y5, q⟩
        · exact ⟨p, hpm, (pathL_ok (h p hpm)).1⟩
        rcases q with _ | ⟨y6, q⟩
        · rw [checkPath_two] at hc2
          cases hc2
        obtain ⟨_, a3, s3, _, rfl, rfl, _, hc3⟩ := (checkPath_cons3 _ _ _ _ _).1 hc2
        obtain ⟨p3, hpm3, h1 | h1⟩ := hstep (board2 p) a3 s3 ⟨4, rfl, rfl, rfl, rfl⟩
        · exact absurd h1.1.symm (board02 p)
        · exact absurd h1.1.symm (board12 p3 p)
    · rw [((C02_errors demoCheck _ q).1 hp).2] at hq
      cases hq
  · rintro (rfl | ⟨p, hp, hq⟩)
    · exact (C02_errors demoCheck _ []).2.2
    · obtain ⟨h1, h2⟩ := pathL_ok (h p hp)
      rw [h1] at hq
      cases hq
      exact C02_added demoCheck _ _ (List.mem_map_of_mem hp) h2

/-- **C102 (dictionary).**  The dictionary of the graph has one node for the empty board, and for every distinct position two nodes and
two links.  This holds for every order of iteration. -/
theorem C102_dictionary (strN : SnapState → String) (strL : PlaceAct → String) (name : String) (ps : List (Int × Int))
    (h : ∀ p ∈ ps, FitsL p) (hne : ps ≠ []) (g : TaskGraph SnapState PlaceAct) (hg : graphOfLs ps {} = .ok g)
    (order : List (SnapState × PlaceAct × SnapState)) (nodeOrder : List SnapState)
    (ho : order.Perm g.toBaseGraph.allTransitions) (hno : nodeOrder.Perm (allNodes order)) :
    ∃ dict, asDictionary strN strL nodeOrder order name = .ok dict ∧ dict.nodes.length = 1 + 2 * ps.toFinset.card ∧
      dict.links.length = 2 * ps.toFinset.card := by
  rw [graphOfLs_addAll ps h {}] at hg
  cases hg
  obtain ⟨hw, _, _, ht, _⟩ := addAll_spec demoCheck (ps.map pathL)
  obtain ⟨n1, n2, dict, d1, _, d2, _, d3, _⟩ := asDictionary_wf strN strL name hw order nodeOrder ho hno
  have htr := fun s a s' => (ht s a s').trans (demo_transitions ps h s a s')
  have hc : ps.toFinset.card = ps.dedup.length := List.card_toFinset ps
  have hnd := List.nodup_dedup ps
  have hd : ∀ p, p ∈ ps.dedup ↔ p ∈ ps := fun p => List.mem_dedup
  refine ⟨dict, d1, ?_, ?_⟩
  · have hperm : nodeOrder.Perm (board0 :: (ps.dedup.map board1 ++ ps.dedup.map board2)) := by
      rw [List.perm_ext_iff_of_nodup n1]
      · intro n
        rw [n2, List.mem_cons, List.mem_append, List.mem_map, List.mem_map]
        constructor
        · rintro ⟨s, a, s', hx, hn⟩
          obtain ⟨p, hp, ⟨rfl, _, rfl⟩ | ⟨rfl, _, rfl⟩⟩ := (htr s a s').1 hx
          · rcases hn with rfl | rfl
            · exact Or.inl rfl
            · exact Or.inr (Or.inl ⟨p, (hd p).2 hp, rfl⟩)
          · rcases hn with rfl | rfl
            · exact Or.inr (Or.inl ⟨p, (hd p).2 hp, rfl⟩)
            · exact Or.inr (Or.inr ⟨p, (hd p).2 hp, rfl⟩)
        · rintro (rfl | ⟨p, hp, rfl⟩ | ⟨p, hp, rfl⟩)
          · obtain ⟨p, hp⟩ := List.exists_mem_of_ne_nil ps hne
            exact ⟨_, _, _, (htr _ _ _).2 ⟨p, hp, Or.inl ⟨rfl, rfl, rfl⟩⟩, Or.inl rfl⟩
          · exact ⟨_, _, _, (htr _ _ _).2 ⟨p, (hd p).1 hp, Or.inl ⟨rfl, rfl, rfl⟩⟩, Or.inr rfl⟩
          · exact ⟨_, _, _, (htr _ _ _).2 ⟨p, (hd p).1 hp, Or.inr ⟨rfl, rfl, rfl⟩⟩, Or.inr rfl⟩
      · rw [List.nodup_cons, List.nodup_append]
        refine ⟨?_, (List.nodup_map_iff_inj_on hnd).2 fun _ _ _ _ h => board1_inj h,
          (List.nodup_map_iff_inj_on hnd).2 fun _ _ _ _ h => board2_inj h, ?_⟩
        · rw [List.mem_append, List.mem_map, List.mem_map]
          rintro (⟨p, _, hx⟩ | ⟨p, _, hx⟩)
          · exact board01 p hx.symm
          · exact board02 p hx.symm
        · intro x hx y hy hxy
          obtain ⟨p, _, rfl⟩ := List.mem_map.1 hx
          obtain ⟨q, _, rfl⟩ := List.mem_map.1 hy
          exact board12 p q hxy
    rw [d2, hperm.length_eq, hc]
    simp
    omega
  · have hperm : order.Perm (ps.dedup.map (fun p => (board0, placing (legOne p), board1 p)) ++
        ps.dedup.map (fun p => (board1 p, placing (legTwo p), board2 p))) := by
      have on : order.Nodup := ho.nodup_iff.2 (nodup_all hw)
      rw [List.perm_ext_iff_of_nodup on]
      · rintro ⟨s, a, s'⟩
        rw [ho.mem_iff, List.mem_append, List.mem_map, List.mem_map]
        refine (mem_all hw s a s').trans ((htr s a s').trans ?_)
        constructor
        · rintro ⟨p, hp, ⟨rfl, rfl, rfl⟩ | ⟨rfl, rfl, rfl⟩⟩
          · exact Or.inl ⟨p, (hd p).2 hp, rfl⟩
          · exact Or.inr ⟨p, (hd p).2 hp, rfl⟩
        · rintro (⟨p, hp, hx⟩ | ⟨p, hp, hx⟩) <;> cases hx
          · exact ⟨p, (hd p).1 hp, Or.inl ⟨rfl, rfl, rfl⟩⟩
          · exact ⟨p, (hd p).1 hp, Or.inr ⟨rfl, rfl, rfl⟩⟩
      · rw [List.nodup_append]
        refine ⟨(List.nodup_map_iff_inj_on hnd).2 fun _ _ _ _ h => board1_inj (congrArg (fun x => x.2.2) h),
          (List.nodup_map_iff_inj_on hnd).2 fun _ _ _ _ h => board2_inj (congrArg (fun x => x.2.2) h), ?_⟩
        intro x hx y hy hxy
        obtain ⟨p, _, rfl⟩ := List.mem_map.1 hx
        obtain ⟨q, _, rfl⟩ := List.mem_map.1 hy
        exact board12 p q (congrArg (fun x => x.2.2) hxy)
    rw [d3, hperm.length_eq, hc]
    simp
    omega

/-- **C102 (equality).**  The states of demonstrations are equal for the code only if they have the same parts in the same order, so
that they have the same hash, and the actions only if they have the same part and location. -/
theorem C102_equal (p q : Int × Int) (hp : FitsL p) (hq : FitsL q) (P Q : List (Elem SnapState PlaceAct)) (h1 : pathMakeL p = .ok P)
    (h2 : pathMakeL q = .ok Q) :
    (∀ s t, .state s ∈ P → .state t ∈ Q → (s.eq t = true ↔ s = t)) ∧
    (∀ a b, .action a ∈ P → .action b ∈ Q → (a.toAct.eq b.toAct = .ok true ↔ a = b)) := by
  rw [(pathL_ok hp).1] at h1
  rw [(pathL_ok hq).1] at h2
  cases h1
  cases h2
  have m0 : board0 = mkSnapState demoBoard [] := rfl
  have m1 : ∀ p, board1 p = mkSnapState demoBoard [legOne p] := fun _ => rfl
  have m2 : ∀ p, board2 p = mkSnapState demoBoard [legOne p, legTwo p] := by
    intro p
    simp [board2, mkSnapState, setOf, setAdd, demoBoard, legOne, legTwo]
  refine ⟨?_, ?_⟩
  · intro s t hs ht
    have hs' : s = board0 ∨ s = board1 p ∨ s = board2 p := by simpa [pathL] using hs
    have ht' : t = board0 ∨ t = board1 q ∨ t = board2 q := by simpa [pathL] using ht
    have n2 : ∀ p, legOne p ≠ legTwo p := by intro p; simp [legOne, legTwo]
    constructor
    · intro h
      rcases hs' with rfl | rfl | rfl <;> rcases ht' with rfl | rfl | rfl <;> first | rfl | skip
      all_goals
        simp only [m0, m1, m2] at h ⊢
        have h := ((snapEq_iff _ _ _ _).1 h).2
        simp only [List.mem_cons, List.not_mem_nil, or_false] at h
      · exact absurd ((h (legOne q)).2 rfl) (by simp)
      · exact absurd ((h (legOne q)).2 (Or.inl rfl)) (by simp)
      · exact absurd ((h (legOne p)).1 rfl) (by simp)
      · rw [(h (legOne p)).1 rfl]
      · have a1 := (h (legOne q)).2 (Or.inl rfl)
        have a2 := (h (legTwo q)).2 (Or.inr rfl)
        exact absurd (a1.trans a2.symm) (n2 q)
      · exact absurd ((h (legOne p)).1 (Or.inl rfl)) (by simp)
      · have a1 := (h (legOne p)).1 (Or.inl rfl)
        have a2 := (h (legTwo p)).1 (Or.inr rfl)
        exact absurd (a1.trans a2.symm) (n2 p)
      · rcases (h (legOne p)).1 (Or.inl rfl) with e | e
        · rw [legOne_inj e]
        · simp [legOne, legTwo] at e
    · rintro rfl
      rcases hs' with rfl | rfl | rfl
      all_goals
        simp only [m0, m1, m2]
        exact (snapEq_iff _ _ _ _).2 ⟨rfl, fun _ => Iff.rfl⟩
  · intro a b ha hb
    have ha' : ∃ e, (e = legOne p ∨ e = legTwo p) ∧ a = placing e := by
      have : a = placing (legOne p) ∨ a = placing (legTwo p) := by simpa [pathL] using ha
      rcases this with h | h
      · exact ⟨_, Or.inl rfl, h⟩
      · exact ⟨_, Or.inr rfl, h⟩
    have hb' : ∃ e, (e = legOne q ∨ e = legTwo q) ∧ b = placing e := by
      have : b = placing (legOne q) ∨ b = placing (legTwo q) := by simpa [pathL] using hb
      rcases this with h | h
      · exact ⟨_, Or.inl rfl, h⟩
      · exact ⟨_, Or.inr rfl, h⟩
    obtain ⟨e, he, rfl⟩ := ha'
    obtain ⟨f, hf, rfl⟩ := hb'
    obtain ⟨p1, p2, p3, p4⟩ := hp
    obtain ⟨q1, q2, q3, q4⟩ := hq
    have oe : PlacedOk demoBoard e := by
      have := legOne_ok (p := p) (by omega) p2 (by omega) p4
      rcases he with rfl | rfl
      exacts [this.1, this.2]
    have of : PlacedOk demoBoard f := by
      have := legOne_ok (p := q) (by omega) q2 (by omega) q4
      rcases hf with rfl | rfl
      exacts [this.1, this.2]
    obtain ⟨a, b, r, k1, k2, k3, k4⟩ := C63_equal demoBoard e.2 f.2 e.1 f.1 oe of
    rw [placing_eq k1, placing_eq k2, k3]
    constructor
    · intro h
      injection h with h
      have hs := k4.1 h
      have : e = f := by
        unfold SameCell demoBoard at hs
        rcases he with rfl | rfl <;> rcases hf with rfl | rfl <;> simp only [legOne, legTwo] at hs ⊢
        · simp only [Prod.mk.injEq, and_true]; omega
        · omega
        · omega
        · simp only [Prod.mk.injEq, and_true]; omega
      subst this
      rw [k1] at k2
      cases k2
      rfl
    · rintro rfl
      have := k4.2 ?_
      · rw [this]
      · have i1 := (C63_construct demoBoard e.2 e.1).1 oe
        have i2 := (C63_construct demoBoard f.2 f.1).1 of
        obtain ⟨a', j1, j2, j3⟩ := i1
        obtain ⟨b', j4, j5, j6⟩ := i2
        rw [k1] at j1
        rw [k2] at j4
        cases j1
        cases j4
        unfold SameCell
        simp only [← j2, ← j3, ← j5, ← j6, and_self]

/-- Non-vacuity: two overlapping positions of the board, and the dictionary of their graph. -/
example : FitsL (4, 8) ∧ FitsL (2, 8) ∧ [((4, 8) : Int × Int), (2, 8), (4, 8)].toFinset.card = 2 := by
  unfold FitsL
  decide

/-- Non-vacuity: the text of a board of the sample. -/
example : stateText [legOne (3, 4), legTwo (3, 4)] = .ok "{2<0> at (3, 4) oriented north, 2<1> at (5, 4) oriented east}" ∨
    stateText [legOne (3, 4), legTwo (3, 4)] = .ok "{2<1> at (5, 4) oriented east, 2<0> at (3, 4) oriented north}" := by decide +kernel

end Verif
