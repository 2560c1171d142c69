import Verif.Spec.PolicyPage
import Verif.Proof.Text
import Verif.Proof.SolverFile
import Verif.Proof.BringNext
import Verif.Props.GraphPolicy

/-! Lemmas for C108: the page of policies. -/

set_option linter.unusedSectionVars false
set_option linter.unusedSimpArgs false

namespace Verif
open Spec

/-! ### Texts -/

theorem jsReplace_spec (old new : List Char) (ho : old ≠ []) : ∀ s, ReplacedFirst old new s (jsReplace old new s) := by
  intro s
  induction s with
  | nil =>
    right
    refine ⟨fun u v h => ?_, by rw [jsReplace, if_neg ho]⟩
    have h1 := congrArg List.length h
    have h2 : old.length ≠ 0 := fun h => ho (List.length_eq_zero_iff.1 h)
    simp only [List.length_append, List.length_nil] at h1
    omega
  | cons c s ih =>
    by_cases hp : old.isPrefixOf (c :: s) = true
    · left
      obtain ⟨v, hv⟩ := List.isPrefixOf_iff_prefix.1 hp
      refine ⟨[], v, by simp [hv], ?_, fun _ _ _ => by simp⟩
      rw [jsReplace, if_pos hp, ← hv]
      simp
    · have hno : ∀ v', c :: s ≠ old ++ v' := fun v' h => hp (List.isPrefixOf_iff_prefix.2 ⟨v', h.symm⟩)
      have hstep : ∀ u' v', c :: s = u' ++ old ++ v' → ∃ u'', u' = c :: u'' ∧ s = u'' ++ old ++ v' := by
        intro u' v' h
        cases u' with
        | nil => exact absurd (by simpa using h) (hno v')
        | cons x u'' =>
          simp at h
          exact ⟨u'', by rw [h.1], by simpa using h.2⟩
      rw [jsReplace, if_neg hp]
      rcases ih with ⟨u, v, h1, h2, h3⟩ | ⟨h1, h2⟩
      · left
        refine ⟨c :: u, v, by rw [h1]; simp, by rw [h2]; simp, ?_⟩
        intro u' v' h
        obtain ⟨u'', rfl, h'⟩ := hstep u' v' h
        have := h3 u'' v' h'
        simp
        exact this
      · right
        refine ⟨fun u v h => ?_, by rw [h2]⟩
        obtain ⟨u'', -, h'⟩ := hstep u v h
        exact h1 _ _ h'

theorem pageAction_spec (s : List Char) : Abbreviated abbreviations s (pageAction s) := by
  unfold pageAction abbreviations
  refine .cons (jsReplace_spec _ _ (by decide) _) (.cons (jsReplace_spec _ _ (by decide) _) (.cons (jsReplace_spec _ _ (by decide) _)
    (.cons (jsReplace_spec _ _ (by decide) _) (.cons (jsReplace_spec _ _ (by decide) _) (.cons (jsReplace_spec _ _ (by decide) _)
      (.cons (jsReplace_spec _ _ (by decide) _) (.cons (jsReplace_spec _ _ (by decide) _) (.nil _))))))))

theorem bracket_inj (x y : List Char) : ∀ (a b : List Char), (∀ c ∈ a, IsDigit c) → (∀ c ∈ b, IsDigit c) → a ++ (']' :: x) = b ++ (']' :: y) → a = b := by
  intro a
  have hb : ¬ IsDigit ']' := by unfold IsDigit; decide
  induction a with
  | nil =>
    intro b _ hb' h
    cases b with
    | nil => rfl
    | cons c b =>
      simp at h
      exact absurd (hb' c (by simp)) (by rw [← h.1]; exact hb)
  | cons c a ih =>
    intro b ha hb' h
    cases b with
    | nil =>
      simp at h
      exact absurd (ha c (by simp)) (by rw [h.1]; exact hb)
    | cons d b =>
      simp at h
      rw [h.1, ih b (fun c hc => ha c (by simp [hc])) (fun c hc => hb' c (by simp [hc])) h.2]

theorem showNat_inj {i j : Nat} (h : showNat i = showNat j) : i = j := by
  have h1 := (showNat_spec i).2.2
  rw [h, (showNat_spec j).2.2] at h1
  exact (Option.some.inj h1).symm

/-- The text of a circle. -/
def circleText (i : Nat) (s : String) : List Char := '[' :: showNat i ++ (']' :: ' ' :: pageAction s.toList)

theorem circleText_inj {i j : Nat} {s t : String} (h : circleText i s = circleText j t) : i = j := by
  simp [circleText] at h
  exact showNat_inj (bracket_inj _ _ _ _ (showNat_spec i).2.1 (showNat_spec j).2.1 h)

/-! ### The maximum -/

theorem d3Max_fold (l : List (Option Int)) : ∀ a : Option Int,
    match l.foldl d3MaxStep a with
    | none => a = none ∧ ∀ x ∈ l, x = none
    | some m => (a = some m ∨ some m ∈ l) ∧ (∀ t, a = some t → t ≤ m) ∧ ∀ t, some t ∈ l → t ≤ m := by
  induction l with
  | nil =>
    intro a
    cases a with
    | none => simp
    | some a => simp
  | cons x l ih =>
    intro a
    rw [List.foldl_cons]
    have := ih (d3MaxStep a x)
    revert this
    cases hm : l.foldl d3MaxStep (d3MaxStep a x) with
    | none =>
      rintro ⟨h1, h2⟩
      cases a with
      | none =>
        have : x = none := h1
        subst this
        exact ⟨rfl, fun y hy => by rcases List.mem_cons.1 hy with rfl | hy; rfl; exact h2 y hy⟩
      | some a =>
        exfalso
        cases x with
        | none => simp [d3MaxStep] at h1
        | some b => simp only [d3MaxStep] at h1; split at h1 <;> cases h1
    | some m =>
      rintro ⟨h1, h2, h3⟩
      cases a with
      | none =>
        refine ⟨?_, by simp, ?_⟩
        · rcases h1 with h | h
          · exact .inr (by rw [← show x = some m from h]; simp)
          · exact .inr (List.mem_cons_of_mem _ h)
        · intro t ht
          rcases List.mem_cons.1 ht with h | h
          · exact h2 t h.symm
          · exact h3 t h
      | some a =>
        cases x with
        | none =>
          refine ⟨?_, fun t ht => h2 t ht, ?_⟩
          · rcases h1 with h | h
            · exact .inl h
            · exact .inr (List.mem_cons_of_mem _ h)
          · intro t ht
            rcases List.mem_cons.1 ht with h | h
            · cases h
            · exact h3 t h
        | some b =>
          simp only [d3MaxStep] at h1 h2
          by_cases hab : b > a
          · rw [if_pos hab] at h1 h2
            have hbm := h2 b rfl
            refine ⟨?_, fun t ht => by cases ht; omega, ?_⟩
            · rcases h1 with h | h
              · exact .inr (by rw [h]; simp)
              · exact .inr (List.mem_cons_of_mem _ h)
            · intro t ht
              rcases List.mem_cons.1 ht with h | h
              · cases h; exact hbm
              · exact h3 t h
          · rw [if_neg hab] at h1 h2
            have ham := h2 a rfl
            refine ⟨?_, fun t ht => by cases ht; omega, ?_⟩
            · rcases h1 with h | h
              · exact .inl h
              · exact .inr (List.mem_cons_of_mem _ h)
            · intro t ht
              rcases List.mem_cons.1 ht with h | h
              · cases h; omega
              · exact h3 t h

theorem d3Max_none {l : List (Option Int)} (h : d3Max l = none) : ∀ x ∈ l, x = none := by
  have := d3Max_fold l none
  unfold d3Max at h
  rw [h] at this
  exact this.2

theorem d3Max_some {l : List (Option Int)} {m : Int} (h : d3Max l = some m) : some m ∈ l ∧ ∀ t, some t ∈ l → t ≤ m := by
  have := d3Max_fold l none
  unfold d3Max at h
  rw [h] at this
  refine ⟨?_, this.2.2⟩
  rcases this.1 with h | h
  · cases h
  · exact h

/-- The check finds exactly the targets that are too large. -/
theorem tooManyNodes_iff (d : GraphDict) : tooManyNodes d = true ↔ ∃ row ∈ d.transitions, ∃ t, some t ∈ row ∧ (d.actions.length : Int) ≤ t := by
  unfold tooManyNodes
  cases h : d3Max (d.transitions.map d3Max) with
  | none =>
    simp only [Bool.false_eq_true, false_iff]
    rintro ⟨row, hrow, t, ht, -⟩
    have := d3Max_none (d3Max_none h (d3Max row) (List.mem_map.2 ⟨row, hrow, rfl⟩)) _ ht
    cases this
  | some m =>
    obtain ⟨h1, h2⟩ := d3Max_some h
    rw [decide_eq_true_iff]
    constructor
    · intro hm
      obtain ⟨row, hrow, hr⟩ := List.mem_map.1 h1
      exact ⟨row, hrow, m, (d3Max_some hr).1, by omega⟩
    · rintro ⟨row, hrow, t, ht, hle⟩
      cases hr : d3Max row with
      | none => exact absurd (d3Max_none hr _ ht) (by simp)
      | some r =>
        have h3 := (d3Max_some hr).2 t ht
        have h4 := h2 r (List.mem_map.2 ⟨row, hrow, hr⟩)
        omega

/-! ### Circles -/

/-- The name of an action that is a string. -/
def strOf : Name → String
  | .int _ => ""
  | .str s => s

/-- The circles of the page. -/
def circlesOf (d : GraphDict) : List PageNode :=
  d.actions.zipIdx.map fun x => ⟨circleText x.2 (strOf x.1), x.2, decide (pyInt d.initial = .ok (x.2 : Int))⟩

theorem pageNodes_ok (d : GraphDict) (h : ∀ a ∈ d.actions, ∃ s, a = .str s) : pageNodes d = .ok (circlesOf d) := by
  unfold pageNodes circlesOf
  refine mapM_map_ok _ _ _ ?_
  rintro ⟨a, i⟩ hx
  obtain ⟨s, rfl⟩ := h a (List.fst_mem_of_mem_zipIdx hx)
  rfl

theorem pageNodes_error (d : GraphDict) (n : Nat) (h : Name.int n ∈ d.actions) : pageNodes d = .error .typeError := by
  unfold pageNodes
  refine mapM_error_of _ _ _ ?_ ?_
  · rintro ⟨a, i⟩ hx
    cases a with
    | int n => exact .inr rfl
    | str s => exact .inl ⟨_, rfl⟩
  · obtain ⟨i, hi⟩ := List.mem_iff_getElem?.1 h
    exact ⟨(.int n, i), List.mem_zipIdx_iff_getElem?.2 hi, rfl⟩

theorem circlesOf_length (d : GraphDict) : (circlesOf d).length = d.actions.length := by simp [circlesOf]

theorem circlesOf_get (d : GraphDict) (i : Nat) : (circlesOf d)[i]? = d.actions[i]?.map fun a =>
    ⟨circleText i (strOf a), i, decide (pyInt d.initial = .ok (i : Int))⟩ := by
  unfold circlesOf
  rw [List.getElem?_map, List.getElem?_zipIdx]
  cases d.actions[i]? <;> simp

theorem circlesOf_id {d : GraphDict} {i : Nat} {c : PageNode} (h : (circlesOf d)[i]? = some c) : c.id = i ∧ ∃ a, c.name = circleText i (strOf a) := by
  rw [circlesOf_get] at h
  cases ha : d.actions[i]? with
  | none => rw [ha] at h; cases h
  | some a => rw [ha] at h; cases h; exact ⟨rfl, a, rfl⟩

theorem circlesOf_nodup (d : GraphDict) : ((circlesOf d).map PageNode.name).Nodup := by
  rw [List.Nodup, List.pairwise_map]
  unfold circlesOf
  rw [List.pairwise_map, List.pairwise_iff_getElem]
  intro i j hi hj hij h
  have := circleText_inj h
  simp at this
  omega

theorem nodeByName_circle (d : GraphDict) {i : Nat} {c : PageNode} (h : (circlesOf d)[i]? = some c) : nodeByName (circlesOf d) c.name = some c := by
  have hm : c ∈ (circlesOf d).reverse := by simpa using List.mem_of_getElem? h
  unfold nodeByName
  cases hf : (circlesOf d).reverse.find? (fun n => decide (n.name = c.name)) with
  | none =>
    have := List.find?_eq_none.1 hf c hm
    simp at this
  | some c' =>
    have h1 := List.find?_some hf
    have h2 : c' ∈ circlesOf d := by simpa using List.mem_of_find?_eq_some hf
    have : c'.name = c.name := by simpa using h1
    rw [List.inj_on_of_nodup_map (circlesOf_nodup d) h2 (List.mem_of_getElem? h) this]

/-! ### Links -/

/-- The transition in the table. -/
def pageEntry (d : GraphDict) (i j : Nat) : Option Int := (d.transitions.getD i []).getD j none

/-- The observation. -/
def obsOf (d : GraphDict) (j : Nat) : Name := d.observations.getD j (.int 0)

/-- The text of the circle `i`. -/
def circleName (d : GraphDict) (i : Nat) : List Char := ((circlesOf d)[i]?.map PageNode.name).getD []

/-- Whether there is an arrow. -/
def shownAt (showDone : Bool) (d : GraphDict) (i j : Nat) : Bool :=
  (pageEntry d i j).isSome && !(!showDone && decide (obsOf d j = .str "done"))

/-- The positions of the arrows. -/
def shownList (showDone : Bool) (d : GraphDict) : List (Nat × Nat) :=
  (List.range d.transitions.length).flatMap fun i => ((List.range d.observations.length).filter fun j => shownAt showDone d i j).map fun j => (i, j)

/-- The link of a position. -/
def linkOf (d : GraphDict) (x : Nat × Nat) : PageLink := ⟨circleName d x.1, circleName d ((pageEntry d x.1 x.2).getD 0).toNat, obsOf d x.2⟩

theorem pageName_ok (d : GraphDict) (t : Int) (h0 : 0 ≤ t) (h1 : t < d.actions.length) : pageName (circlesOf d) t = .ok (circleName d t.toNat) := by
  unfold pageName circleName
  have : t.toNat < (circlesOf d).length := by rw [circlesOf_length]; omega
  rw [if_neg (by omega), List.getElem?_eq_getElem this]
  rfl

theorem pageName_error (nodes : List PageNode) (t : Int) (h : t < 0 ∨ (nodes.length : Int) ≤ t) : pageName nodes t = .error .typeError := by
  unfold pageName
  by_cases h0 : t < 0
  · rw [if_pos h0]
  · rw [if_neg h0, List.getElem?_eq_none (by omega)]

theorem pageCell_ok (showDone : Bool) (d : GraphDict) (i j : Nat) (hi : i < d.actions.length)
    (ht : ∀ t, pageEntry d i j = some t → 0 ≤ t ∧ t < d.actions.length) :
    pageCell showDone (circlesOf d) i (obsOf d j) (pageEntry d i j) = .ok (if shownAt showDone d i j then [linkOf d (i, j)] else []) := by
  unfold shownAt
  cases hc : pageEntry d i j with
  | none => simp [pageCell]
  | some t =>
    obtain ⟨h0, h1⟩ := ht t hc
    rw [pageCell]
    by_cases hd : showDone = false ∧ obsOf d j = .str "done"
    · rw [if_pos hd]
      simp [hd.1, hd.2]
    · rw [if_neg hd, pageName_ok d i (by omega) (by omega)]
      show (pageName (circlesOf d) t >>= _) = _
      rw [pageName_ok d t h0 h1]
      have : (!(!showDone && decide (obsOf d j = .str "done"))) = true := by
        cases showDone with
        | true => simp
        | false => simpa using hd
      simp only [Option.isSome_some, this, Bool.and_self, if_true]
      simp [linkOf, hc, bind, Except.bind, pure, Except.pure]

theorem flatMap_if {α β : Type} (f : α → Bool) (g : α → β) (l : List α) : (l.map fun x => if f x then [g x] else []).flatten = (l.filter f).map g := by
  induction l with
  | nil => rfl
  | cons x l ih =>
    rw [List.map_cons, List.flatten_cons, ih]
    by_cases h : f x = true
    · simp [h]
    · simp [h]

theorem pageLinks_ok (showDone : Bool) (d : GraphDict) (hl : d.transitions.length = d.actions.length)
    (ht : ∀ i j t, pageEntry d i j = some t → 0 ≤ t ∧ t < d.actions.length) :
    pageLinks showDone d (circlesOf d) = .ok ((shownList showDone d).map (linkOf d)) := by
  have hrow : ∀ i ∈ List.range d.transitions.length, pageRow showDone d (circlesOf d) i =
      .ok (((List.range d.observations.length).filter fun j => shownAt showDone d i j).map fun j => linkOf d (i, j)) := by
    intro i hi
    unfold pageRow
    have := mapM_map_ok (fun j => pageCell showDone (circlesOf d) i (obsOf d j) (pageEntry d i j)) (fun j => if shownAt showDone d i j then [linkOf d (i, j)] else [])
      (List.range d.observations.length) (fun j _ => pageCell_ok showDone d i j (by rw [← hl]; exact List.mem_range.1 hi) (ht i j))
    have h2 : (List.range d.observations.length).mapM (fun j => pageCell showDone (circlesOf d) i (d.observations.getD j (.int 0)) ((d.transitions.getD i []).getD j none)) = _ := this
    rw [h2]
    show Except.ok _ = _
    rw [flatMap_if]
  unfold pageLinks
  rw [mapM_map_ok _ _ _ hrow]
  show Except.ok _ = _
  congr 1
  unfold shownList
  rw [List.map_flatMap, List.flatMap_def]
  simp [Function.comp_def]

theorem pageLinks_error (showDone : Bool) (d : GraphDict) (i j : Nat) (t : Int) (hi : i < d.transitions.length) (hj : j < d.observations.length)
    (hc : pageEntry d i j = some t) (ht : t < 0 ∨ (d.actions.length : Int) ≤ t) (hs : shownAt showDone d i j = true) :
    pageLinks showDone d (circlesOf d) = .error .typeError := by
  have hcell : ∀ i o c, (∃ y, pageCell showDone (circlesOf d) i o c = .ok y) ∨ pageCell showDone (circlesOf d) i o c = .error .typeError := by
    have hname : ∀ t, (∃ y, pageName (circlesOf d) t = .ok y) ∨ pageName (circlesOf d) t = .error .typeError := by
      intro t
      unfold pageName
      split
      · exact .inr rfl
      · split
        · exact .inr rfl
        · exact .inl ⟨_, rfl⟩
    intro i o c
    cases c with
    | none => exact .inl ⟨_, rfl⟩
    | some t =>
      rw [pageCell]
      split
      · exact .inl ⟨_, rfl⟩
      · rcases hname i with ⟨y, hy⟩ | hy
        · rw [hy]
          rcases hname t with ⟨z, hz⟩ | hz
          · exact .inl ⟨[⟨y, z, o⟩], by show (pageName (circlesOf d) t >>= _) = _; rw [hz]; rfl⟩
          · exact .inr (by show (pageName (circlesOf d) t >>= _) = _; rw [hz]; rfl)
        · exact .inr (by rw [hy]; rfl)
  have hthis : pageCell showDone (circlesOf d) i (obsOf d j) (pageEntry d i j) = .error .typeError := by
    rw [hc, pageCell, if_neg]
    · cases hn : pageName (circlesOf d) (i : Int) with
      | error e =>
        unfold pageName at hn
        rw [if_neg (by omega)] at hn
        split at hn
        · cases hn; rfl
        · cases hn
      | ok y =>
        show (pageName (circlesOf d) t >>= _) = _
        rw [pageName_error _ t (by rw [circlesOf_length]; exact ht)]
        rfl
    · rintro ⟨h1, h2⟩
      simp [shownAt, h1, h2] at hs
  have hrows : ∀ k, (∃ y, pageRow showDone d (circlesOf d) k = .ok y) ∨ pageRow showDone d (circlesOf d) k = .error .typeError := by
    intro k
    unfold pageRow
    by_cases hex : ∃ j ∈ List.range d.observations.length, pageCell showDone (circlesOf d) k (d.observations.getD j (.int 0)) ((d.transitions.getD k []).getD j none) = .error .typeError
    · right
      rw [mapM_error_of _ .typeError _ (fun j _ => hcell _ _ _) hex]
      rfl
    · left
      obtain ⟨r, hr⟩ := mapM_ok_of (fun j => pageCell showDone (circlesOf d) k (d.observations.getD j (.int 0)) ((d.transitions.getD k []).getD j none))
        (List.range d.observations.length) (fun j hj => (hcell _ _ _).resolve_right fun h => hex ⟨j, hj, h⟩)
      rw [hr]
      exact ⟨_, rfl⟩
  unfold pageLinks
  rw [mapM_error_of _ .typeError _ (fun k _ => hrows k) ⟨i, List.mem_range.2 hi, ?_⟩]
  · rfl
  · unfold pageRow
    rw [mapM_error_of (fun j => pageCell showDone (circlesOf d) i (d.observations.getD j (.int 0)) ((d.transitions.getD i []).getD j none)) .typeError _
      (fun j _ => hcell _ _ _) ⟨j, List.mem_range.2 hj, hthis⟩]
    rfl

theorem shownList_nodup (showDone : Bool) (d : GraphDict) : (shownList showDone d).Nodup := by
  unfold shownList
  rw [List.nodup_flatMap]
  refine ⟨fun i _ => (List.nodup_range.filter _).map (fun a b h => by simpa using h), ?_⟩
  refine List.Pairwise.imp_of_mem ?_ List.nodup_range
  intro a b _ _ hab x hx hy
  simp at hx hy
  obtain ⟨j, -, rfl⟩ := hx
  obtain ⟨j', -, h⟩ := hy
  simp at h
  exact hab h.1.symm

end Verif
