import Verif.Spec.PomcpPage
import Verif.Proof.TrajPage
import Verif.Proof.Export

/-! Proofs about the page of search trees (C110). -/

set_option linter.unusedSectionVars false
set_option linter.unusedSimpArgs false

namespace Verif
open Spec

/-! ### The tree -/

theorem dictAt_unique {t s s' : PolicyDict} {p : List Nat} (h : DictAt t p s) (h' : DictAt t p s') : s = s' := by
  induction h with
  | nil t => cases h'; rfl
  | cons hk _ ih =>
    cases h' with
    | cons hk' hs' =>
      rw [hk] at hk'
      cases hk'
      exact ih hs'

theorem dictAt_snoc {t s : PolicyDict} {p : List Nat} {k : Nat} {u : PolicyDict} (h : DictAt t p s) (hk : (dictsIn s)[k]? = some u) : DictAt t (p ++ [k]) u := by
  induction h with
  | nil t =>
    cases t
    exact .cons hk (.nil _)
  | cons hk' _ ih => exact .cons hk' (ih hk)

theorem dictAt_append {t : PolicyDict} {p q : List Nat} {u : PolicyDict} (h : DictAt t (p ++ q) u) : ∃ s, DictAt t p s ∧ DictAt s q u := by
  induction p generalizing t with
  | nil => exact ⟨t, .nil _, h⟩
  | cons k p ih =>
    cases h with
    | cons hk hs =>
      obtain ⟨s, h1, h2⟩ := ih hs
      exact ⟨s, .cons hk h1, h2⟩

/-- The paths that are listed from a node at path `p`. -/
def DictBelow (op : List (List Nat)) (p : List Nat) (t : PolicyDict) (r : List Nat) (s : PolicyDict) : Prop :=
  DictAt t r s ∧ ∀ a b, r = a ++ b → b ≠ [] → p ++ a ∈ op

theorem dictBelow_cons {op : List (List Nat)} {p : List Nat} {i : PolicyInfo} {os : Option (List Name)} {cs : List PolicyDict} {k : Nat} {r : List Nat}
    {s : PolicyDict} : DictBelow op p (.mk i os cs) (k :: r) s ↔ p ∈ op ∧ ∃ t, cs[k]? = some t ∧ DictBelow op (p ++ [k]) t r s := by
  constructor
  · rintro ⟨h1, h2⟩
    cases h1 with
    | cons hk hs =>
      refine ⟨by simpa using h2 [] (k :: r) rfl (by simp), _, hk, hs, ?_⟩
      intro x y hxy hy
      have := h2 (k :: x) y (by rw [hxy]; rfl) hy
      rwa [List.append_assoc]
  · rintro ⟨hp, t, hk, hs, hop⟩
    refine ⟨.cons hk hs, ?_⟩
    intro x y hxy hy
    cases x with
    | nil => simpa using hp
    | cons z x =>
      rw [List.cons_append, List.cons.injEq] at hxy
      obtain ⟨rfl, hxy⟩ := hxy
      have := hop x y hxy hy
      rwa [List.append_assoc] at this

mutual
theorem pomNodes_mem (op : List (List Nat)) (p : List Nat) (t : PolicyDict) (q : List Nat) (s : PolicyDict) :
    (q, s) ∈ pomNodes op p t ↔ ∃ r, q = p ++ r ∧ DictBelow op p t r s := by
  match t with
  | .mk i os ks =>
    have ih := pomNodesList_mem op p 0 ks q s
    unfold pomNodes
    rw [List.mem_cons]
    constructor
    · rintro (h | h)
      · cases h
        exact ⟨[], by simp, .nil _, by intro x y hxy hy; simp at hxy; exact absurd hxy.2 hy⟩
      · split at h
        · rename_i hp
          obtain ⟨k, u, r, hk, rfl, hb⟩ := ih.1 h
          rw [Nat.zero_add] at hb ⊢
          exact ⟨k :: r, rfl, dictBelow_cons.2 ⟨hp, u, hk, hb⟩⟩
        · simp at h
    · rintro ⟨r, rfl, hb⟩
      cases r with
      | nil =>
        left
        have := dictAt_unique hb.1 (.nil _)
        rw [this, List.append_nil]
      | cons k r =>
        right
        obtain ⟨hp, u, hk, hb⟩ := dictBelow_cons.1 hb
        rw [if_pos hp]
        exact ih.2 ⟨k, u, r, hk, by rw [Nat.zero_add], by rw [Nat.zero_add]; exact hb⟩
theorem pomNodesList_mem (op : List (List Nat)) (p : List Nat) (i : Nat) (ks : List PolicyDict) (q : List Nat) (s : PolicyDict) :
    (q, s) ∈ pomNodesList op p i ks ↔ ∃ k t r, ks[k]? = some t ∧ q = p ++ (i + k) :: r ∧ DictBelow op (p ++ [i + k]) t r s := by
  match ks with
  | [] => simp [pomNodesList]
  | t :: ks =>
    have ih1 := pomNodes_mem op (p ++ [i]) t q s
    have ih2 := pomNodesList_mem op p (i + 1) ks q s
    unfold pomNodesList
    rw [List.mem_append, ih1, ih2]
    constructor
    · rintro (⟨r, rfl, hb⟩ | ⟨k, u, r, hk, rfl, hb⟩)
      · exact ⟨0, t, r, rfl, by simp, hb⟩
      · refine ⟨k + 1, u, r, hk, ?_, ?_⟩
        · rw [show i + (k + 1) = i + 1 + k by omega]
        · rw [show i + (k + 1) = i + 1 + k by omega]; exact hb
    · rintro ⟨k, u, r, hk, rfl, hb⟩
      cases k with
      | zero =>
        cases hk
        exact .inl ⟨r, by simp, hb⟩
      | succ k =>
        refine .inr ⟨k, u, r, hk, ?_, ?_⟩
        · rw [show i + (k + 1) = i + 1 + k by omega]
        · rw [show i + 1 + k = i + (k + 1) by omega]; exact hb
end

mutual
theorem pomNodes_nodup (op : List (List Nat)) (p : List Nat) (t : PolicyDict) : ((pomNodes op p t).map Prod.fst).Nodup := by
  match t with
  | .mk i os ks =>
    have ih := pomNodesList_nodup op p 0 ks
    unfold pomNodes
    rw [List.map_cons, List.nodup_cons]
    split
    · refine ⟨?_, ih⟩
      intro h
      obtain ⟨⟨q, s⟩, hm, hq⟩ := List.mem_map.1 h
      obtain ⟨k, t, r, _, rfl, _⟩ := (pomNodesList_mem op p 0 ks q s).1 hm
      simp at hq
    · simp
theorem pomNodesList_nodup (op : List (List Nat)) (p : List Nat) (i : Nat) (ks : List PolicyDict) : ((pomNodesList op p i ks).map Prod.fst).Nodup := by
  match ks with
  | [] => simp [pomNodesList]
  | t :: ks =>
    have ih1 := pomNodes_nodup op (p ++ [i]) t
    have ih2 := pomNodesList_nodup op p (i + 1) ks
    unfold pomNodesList
    rw [List.map_append, List.nodup_append]
    refine ⟨ih1, ih2, ?_⟩
    intro x hx y hy hxy
    obtain ⟨⟨q, s⟩, hm, rfl⟩ := List.mem_map.1 hx
    obtain ⟨⟨q', s'⟩, hm', rfl⟩ := List.mem_map.1 hy
    obtain ⟨r, rfl, _⟩ := (pomNodes_mem op _ t q s).1 hm
    obtain ⟨k, u, r', _, rfl, _⟩ := (pomNodesList_mem op p (i + 1) ks q' s').1 hm'
    simp at hxy
    omega
end

theorem pomNodeLinks_mem {op : List (List Nat)} {x : List Nat × PolicyDict} {q : List Nat} {o : List Char} :
    (q, o) ∈ pomNodeLinks op x ↔ x.1 ∈ op ∧ ∃ k c, (dictsIn x.2)[k]? = some c ∧ q = x.1 ++ [k] ∧ o = observedText (namesIn x.2) (infoIn c).observed := by
  obtain ⟨p, t⟩ := x
  cases t with
  | mk i os cs =>
    simp only [pomNodeLinks, dictsIn, namesIn]
    split
    · rename_i hp
      rw [List.mem_map]
      constructor
      · rintro ⟨⟨c, k⟩, hk, he⟩
        rw [List.mem_zipIdx_iff_getElem?] at hk
        cases he
        refine ⟨hp, k, c, hk, rfl, ?_⟩
        cases c; rfl
      · rintro ⟨_, k, c, hk, rfl, rfl⟩
        refine ⟨(c, k), List.mem_zipIdx_iff_getElem?.2 hk, ?_⟩
        cases c; rfl
    · rename_i hp
      simp [hp]

theorem pomLinks_mem (op : List (List Nat)) (d : PolicyDict) (q : List Nat) (o : List Char) :
    (q, o) ∈ (pomNodes op [] d).flatMap (pomNodeLinks op) ↔ ∃ p k s c, q = p ++ [k] ∧ DictAt d p s ∧ (dictsIn s)[k]? = some c ∧
      o = observedText (namesIn s) (infoIn c).observed ∧ (q, c) ∈ pomNodes op [] d := by
  rw [List.mem_flatMap]
  constructor
  · rintro ⟨⟨p, s⟩, hx, hl⟩
    obtain ⟨hp, k, c, hk, rfl, ho⟩ := pomNodeLinks_mem.1 hl
    obtain ⟨r, hr, hb⟩ := (pomNodes_mem op [] d _ _).1 hx
    rw [List.nil_append] at hr
    subst hr
    refine ⟨p, k, s, c, rfl, hb.1, hk, ho, (pomNodes_mem op [] d _ _).2 ⟨_, rfl, dictAt_snoc hb.1 hk, ?_⟩⟩
    intro a b hab hbne
    obtain ⟨b', z, rfl⟩ : ∃ b' z, b = b' ++ [z] := ⟨b.dropLast, b.getLast hbne, (List.dropLast_append_getLast hbne).symm⟩
    rw [← List.append_assoc] at hab
    have := List.append_inj' hab rfl
    by_cases hb' : b' = []
    · subst hb'
      rw [List.append_nil] at this
      have e : p = a := this.1
      rw [← e]
      simpa using hp
    · exact hb.2 a b' this.1 hb'
  · rintro ⟨p, k, s, c, rfl, hs, hk, ho, hm⟩
    obtain ⟨r, hr, hb⟩ := (pomNodes_mem op [] d _ _).1 hm
    rw [List.nil_append] at hr
    subst hr
    have hp : p ∈ op := by simpa using hb.2 p [k] rfl (by simp)
    refine ⟨(p, s), (pomNodes_mem op [] d _ _).2 ⟨p, rfl, hs, ?_⟩, pomNodeLinks_mem.2 ⟨hp, k, c, hk, rfl, ho⟩⟩
    intro a b hab hbne
    exact hb.2 a (b ++ [k]) (by rw [hab, List.append_assoc]) (by simp)

theorem pomNodeLinks_keys (op : List (List Nat)) (x : List Nat × PolicyDict) : ((pomNodeLinks op x).map Prod.fst).Nodup := by
  obtain ⟨p, t⟩ := x
  cases t with
  | mk i os cs =>
    simp only [pomNodeLinks]
    split
    · rw [List.map_map]
      have : (Prod.fst ∘ fun x : PolicyDict × Nat => (p ++ [x.2], observedText os (observedOf x.1))) = (fun k => p ++ [k]) ∘ Prod.snd := rfl
      rw [this, ← List.map_map, List.zipIdx_map_snd]
      refine (List.nodup_range' (step := 1) ..).map ?_
      intro i j h
      have h : p ++ [i] = p ++ [j] := h
      simpa using h
    · simp

theorem pomLinks_nodup (op : List (List Nat)) (nodes : List (List Nat × PolicyDict)) (h : (nodes.map Prod.fst).Nodup) :
    ((nodes.flatMap (pomNodeLinks op)).map Prod.fst).Nodup := by
  induction nodes with
  | nil => simp
  | cons x nodes ih =>
    rw [List.map_cons, List.nodup_cons] at h
    rw [List.flatMap_cons, List.map_append, List.nodup_append]
    refine ⟨pomNodeLinks_keys op x, ih h.2, ?_⟩
    intro a ha b hb hab
    obtain ⟨⟨q, o⟩, hl, rfl⟩ := List.mem_map.1 ha
    obtain ⟨⟨q', o'⟩, hl', rfl⟩ := List.mem_map.1 hb
    obtain ⟨_, k, c, _, h1, _⟩ := pomNodeLinks_mem.1 hl
    obtain ⟨y, hy, hl'⟩ := List.mem_flatMap.1 hl'
    obtain ⟨_, k', c', _, h1', _⟩ := pomNodeLinks_mem.1 hl'
    have hab : q = q' := hab
    rw [h1, h1'] at hab
    exact h.1 (List.mem_map.2 ⟨y, hy, (List.append_inj' hab rfl).1.symm⟩)

theorem shortenAction_spec (s : List Char) : Abbreviated pomAbbreviations s (shortenAction s) := by
  unfold shortenAction pomAbbreviations
  refine .cons (jsReplace_spec _ _ (by decide) _) (.cons (jsReplace_spec _ _ (by decide) _) (.cons (jsReplace_spec _ _ (by decide) _)
    (.cons (jsReplace_spec _ _ (by decide) _) (.cons (jsReplace_spec _ _ (by decide) _) (.cons (jsReplace_spec _ _ (by decide) _)
      (.cons (jsReplace_spec _ _ (by decide) _) (.cons (jsReplace_spec _ _ (by decide) _) (.nil _))))))))

/-- The text of a string, and nothing for a number. -/
def shortText : Name → List Char
  | .int _ => []
  | .str s => shortenAction s.toList

/-- The circle of a node. -/
def circleFor (e : PolicyDict) : PomcpCircle := ⟨shortText (infoIn e).action, false, ((infoIn e).action, (infoIn e).visits, (infoIn e).value)⟩

theorem pomUpdate_ok (d : PolicyDict) (op : List (List Nat)) (h : ∀ p e, DictAt d p e → ∃ s, (infoIn e).action = .str s) :
    pomUpdate d op = .ok ⟨(pomNodes op [] d).map fun x => (x.1, circleFor x.2), (pomNodes op [] d).flatMap (pomNodeLinks op)⟩ := by
  unfold pomUpdate
  rw [mapM_map_ok _ (fun x => (x.1, circleFor x.2))]
  · rfl
  · rintro ⟨p, e⟩ hx
    obtain ⟨r, hr, hb⟩ := (pomNodes_mem op [] d _ _).1 hx
    obtain ⟨s, hs⟩ := h _ _ hb.1
    cases e with
    | mk i os cs =>
      simp only [infoIn] at hs
      simp only [pomCircle, hs, shortenName, circleFor, infoIn, shortText]
      rfl

/-! ### The tables -/

theorem joinUpdate_length {α γ : Type} (f : γ → α → γ) (l : List γ) (data : List α) : (joinUpdate f l data).length = l.length := by
  induction l generalizing data with
  | nil => cases data <;> rfl
  | cons x l ih =>
    cases data with
    | nil => rfl
    | cons d data => simp [joinUpdate, ih]

theorem joinUpdate_get {α γ : Type} (f : γ → α → γ) (l : List γ) (data : List α) (j : Nat) (x : γ) (d : α) (hx : l[j]? = some x) (hd : data[j]? = some d) :
    (joinUpdate f l data)[j]? = some (f x d) := by
  induction l generalizing data j with
  | nil => simp at hx
  | cons y l ih =>
    cases data with
    | nil => simp at hd
    | cons e data =>
      cases j with
      | zero =>
        simp at hx hd
        subst hx; subst hd
        simp [joinUpdate]
      | succ j =>
        simp at hx hd
        simp [joinUpdate, ih _ _ hx hd]

theorem joinUpdate_all {α γ : Type} (g : α → γ) (l : List γ) (data : List α) (h : l.length = data.length) : joinUpdate (fun _ d => g d) l data = data.map g := by
  induction l generalizing data with
  | nil =>
    cases data with
    | nil => rfl
    | cons _ _ => simp at h
  | cons y l ih =>
    cases data with
    | nil => simp at h
    | cons e data => simp [joinUpdate, ih data (by simpa using h)]

theorem joinUpdate_map {α γ δ : Type} (f : γ → α → γ) (g : γ → δ) (h : ∀ x d, g (f x d) = g x) (l : List γ) (data : List α) :
    (joinUpdate f l data).map g = l.map g := by
  induction l generalizing data with
  | nil => cases data <;> rfl
  | cons y l ih =>
    cases data with
    | nil => rfl
    | cons e data => simp [joinUpdate, ih, h]

theorem joinEnter_length {α γ : Type} (old : List γ) (data : List α) (f : α → γ) : (joinEnter old data f).length = max old.length data.length := by
  unfold joinEnter
  simp
  omega

theorem joinEnter_get {α γ : Type} (old : List γ) (data : List α) (f : α → γ) (j : Nat) :
    (joinEnter old data f)[j]? = (old[j]?).or ((data[j]?).map f) := by
  unfold joinEnter
  rw [List.getElem?_append]
  split
  · rename_i h
    rw [List.getElem?_eq_getElem h]
    rfl
  · rename_i h
    rw [List.getElem?_eq_none (by omega : old.length ≤ j), List.getElem?_map, List.getElem?_drop, show old.length + (j - old.length) = j by omega]
    rfl

theorem newHeads_ok (old : List ActionHead) (actions : List Name) (h : ∀ a ∈ actions, ∃ s, a = .str s) :
    newHeads old actions = .ok (joinEnter old actions fun a => ⟨shortText a, false⟩) := by
  unfold newHeads joinEnter
  rw [mapM_map_ok _ shortText]
  · show Except.ok (old ++ ((actions.drop old.length).map shortText).map fun t => (⟨t, false⟩ : ActionHead)) = _
    rw [List.map_map]
    rfl
  · intro a ha
    obtain ⟨s, rfl⟩ := h a (List.mem_of_mem_drop ha)
    rfl

/-- What is true of the tables after the files have been read. -/
structure TablesOk (files : List PomcpFile) (t : PomcpTables) : Prop where
  states : ∀ j : Nat, t.stateHeads[j]? = (files.findSome? fun f => f.states[j]?).map nameText
  actions : ∀ j : Nat, (t.actionHeads.map ActionHead.text)[j]? = (files.findSome? fun f => f.actions[j]?).map shortText
  belief : t.belief.length = t.stateHeads.length
  values : t.values.length = t.actionHeads.length
  augmented : t.augmented.length = t.actionHeads.length
  visits : t.visits.length = t.actionHeads.length

theorem noTables_ok : TablesOk [] noTables := ⟨by simp [noTables], by simp [noTables], rfl, rfl, rfl, rfl⟩

theorem initTables_ok {files : List PomcpFile} {t : PomcpTables} (h : TablesOk files t) (f : PomcpFile) (hf : ∀ a ∈ f.actions, ∃ s, a = .str s) :
    ∃ t', initTables f t = .ok t' ∧ TablesOk (files ++ [f]) t' := by
  unfold initTables
  rw [newHeads_ok _ _ hf]
  refine ⟨_, rfl, ?_, ?_, ?_, ?_, ?_, ?_⟩
  · intro j
    show (joinEnter t.stateHeads f.states nameText)[j]? = _
    rw [joinEnter_get, h.states, List.findSome?_append]
    cases files.findSome? fun f => f.states[j]? <;> simp
  · intro j
    show ((joinEnter t.actionHeads f.actions fun a => ⟨shortText a, false⟩).map ActionHead.text)[j]? = _
    rw [List.getElem?_map, joinEnter_get, List.findSome?_append]
    have := h.actions j
    rw [List.getElem?_map] at this
    cases ho : files.findSome? fun f => f.actions[j]? with
    | some a =>
      rw [ho] at this
      cases hh : t.actionHeads[j]? with
      | none => rw [hh] at this; simp at this
      | some x => rw [hh] at this; simpa using this
    | none =>
      rw [ho] at this
      cases hh : t.actionHeads[j]? with
      | some x => rw [hh] at this; simp at this
      | none =>
        simp
        cases f.actions[j]? <;> rfl
  · show (joinEnter t.belief f.states _).length = (joinEnter t.stateHeads f.states _).length
    rw [joinEnter_length, joinEnter_length, h.belief]
  · show (joinEnter t.values f.actions _).length = (joinEnter t.actionHeads f.actions _).length
    rw [joinEnter_length, joinEnter_length, h.values]
  · show (joinEnter t.augmented f.actions _).length = (joinEnter t.actionHeads f.actions _).length
    rw [joinEnter_length, joinEnter_length, h.augmented]
  · show (joinEnter t.visits f.actions _).length = (joinEnter t.actionHeads f.actions _).length
    rw [joinEnter_length, joinEnter_length, h.visits]

theorem displayValues_ok {files : List PomcpFile} {t : PomcpTables} (h : TablesOk files t) (flat : ℚ) (f : PomcpFile) (i : PolicyInfo) :
    TablesOk files (displayValues flat f i t) := by
  refine ⟨h.states, ?_, ?_, ?_, ?_, ?_⟩
  · intro j
    rw [← h.actions j]
    show ((joinUpdate _ t.actionHeads f.actions).map ActionHead.text)[j]? = _
    rw [joinUpdate_map (fun (h : ActionHead) a => ⟨h.text, decide (a = i.action)⟩) ActionHead.text (fun _ _ => rfl)]
  · show (joinUpdate _ t.belief _).length = t.stateHeads.length
    rw [joinUpdate_length, h.belief]
  · show (joinUpdate _ t.values _).length = (joinUpdate _ t.actionHeads _).length
    rw [joinUpdate_length, joinUpdate_length, h.values]
  · show (joinUpdate _ t.augmented _).length = (joinUpdate _ t.actionHeads _).length
    rw [joinUpdate_length, joinUpdate_length, h.augmented]
  · show (joinUpdate _ t.visits _).length = (joinUpdate _ t.actionHeads _).length
    rw [joinUpdate_length, joinUpdate_length, h.visits]

/-! ### Sessions -/

/-- What is true of the page: `files` are the files that were read, `f` is the last one and `clicks` are the clicks since. -/
structure PomOk (files : List PomcpFile) (f : PomcpFile) (clicks : List (List Nat)) (s : PomcpPage) : Prop where
  file : s.file = f
  opened : ∀ p, p ∈ s.opened ↔ IsOpen clicks p
  tree : s.tree = ⟨(pomNodes s.opened [] f.root).map fun x => (x.1, circleFor x.2), (pomNodes s.opened [] f.root).flatMap (pomNodeLinks s.opened)⟩
  tables : TablesOk files s.tables

theorem pomLoad_ok {files : List PomcpFile} {t : PomcpTables} (h : TablesOk files t) (f : PomcpFile) (hf : FileOk f) :
    ∃ s, pomLoad f t = .ok s ∧ PomOk (files ++ [f]) f [] s := by
  obtain ⟨t', h1, h2⟩ := initTables_ok h f hf.actions
  unfold pomLoad
  rw [h1, pomUpdate_ok _ _ hf.nodes]
  have hr : rootChildren f.root = .ok () := by
    have := hf.root
    generalize f.root = r at this ⊢
    cases r with
    | mk i os cs =>
      cases os with
      | none => simp [namesIn] at this
      | some _ => rfl
  rw [hr]
  refine ⟨_, rfl, rfl, ?_, rfl, h2⟩
  intro p
  show p ∈ [[]] ↔ _
  unfold IsOpen
  by_cases hp : p = [] <;> simp [hp]

theorem pomClick_ok {files : List PomcpFile} {f : PomcpFile} {clicks : List (List Nat)} {s : PomcpPage} (h : PomOk files f clicks s) (hf : FileOk f)
    (p : List Nat) : ∃ s', pomClick s p = .ok s' ∧ PomOk files f (clicks ++ [p]) s' := by
  unfold pomClick
  rw [h.file, pomUpdate_ok _ _ hf.nodes]
  refine ⟨_, rfl, rfl, ?_, rfl, h.tables⟩
  intro q
  rw [isOpen_snoc]
  show q ∈ (if p ∈ s.opened then s.opened.filter (fun q => decide (q ≠ p)) else p :: s.opened) ↔ _
  have ho := h.opened
  by_cases hp : p ∈ s.opened
  · rw [if_pos hp, List.mem_filter]
    by_cases hq : q = p
    · subst hq
      simp [(ho q).1 hp]
    · simp [hq, ho q]
  · rw [if_neg hp, List.mem_cons]
    by_cases hq : q = p
    · subst hq
      simp only [true_or, if_true, true_iff]
      exact fun h => hp ((ho q).2 h)
    · simp [hq, ho q]

theorem pomHover_ok {files : List PomcpFile} {f : PomcpFile} {clicks : List (List Nat)} {s : PomcpPage} (h : PomOk files f clicks s) (flat : ℚ)
    (p : List Nat) : ∃ s', pomEvent flat s (.hover p) = .ok s' ∧ PomOk files f clicks s' := by
  unfold pomEvent
  simp only
  cases hp : pomShownAt s p with
  | none => exact ⟨s, rfl, h⟩
  | some e =>
    cases e with
    | mk i os cs => exact ⟨_, rfl, h.file, h.opened, h.tree, displayValues_ok h.tables flat s.file i⟩

theorem pomFold_ok (flat : ℚ) (evs : List PomcpEvent) : ∀ (files : List PomcpFile) (f : PomcpFile) (clicks : List (List Nat)) (s : PomcpPage),
    PomOk files f clicks s → FileOk f → (∀ g ∈ filesRead evs, FileOk g) →
      ∃ s', evs.foldlM (pomEvent flat) s = .ok s' ∧ PomOk (files ++ filesRead evs) (lastRead f clicks evs).1 (lastRead f clicks evs).2 s' := by
  induction evs with
  | nil => intro files f clicks s h _ _; exact ⟨s, rfl, by simpa [filesRead, lastRead] using h⟩
  | cons ev evs ih =>
    intro files f clicks s h hf hg
    rw [List.foldlM_cons]
    cases ev with
    | refresh g =>
      have hgk : FileOk g := hg g (by simp [filesRead])
      obtain ⟨s1, h1, h2⟩ := pomLoad_ok h.tables g hgk
      obtain ⟨s2, h3, h4⟩ := ih _ g [] s1 h2 hgk (fun x hx => hg x (by simp [filesRead, hx]))
      refine ⟨s2, ?_, by simpa [filesRead, lastRead] using h4⟩
      show (pomLoad g s.tables >>= _) = _
      rw [h1]
      exact h3
    | click p =>
      obtain ⟨s1, h1, h2⟩ := pomClick_ok h hf p
      obtain ⟨s2, h3, h4⟩ := ih _ f _ s1 h2 hf hg
      refine ⟨s2, ?_, by simpa [filesRead, lastRead] using h4⟩
      show (pomClick s p >>= _) = _
      rw [h1]
      exact h3
    | hover p =>
      obtain ⟨s1, h1, h2⟩ := pomHover_ok h flat p
      obtain ⟨s2, h3, h4⟩ := ih _ f _ s1 h2 hf hg
      refine ⟨s2, ?_, by simpa [filesRead, lastRead] using h4⟩
      rw [h1]
      exact h3

theorem pomSession_ok (flat : ℚ) (f : PomcpFile) (evs : List PomcpEvent) (hf : FileOk f) (hg : ∀ g ∈ filesRead evs, FileOk g) :
    ∃ s, pomSession flat f evs = .ok s ∧ PomOk (f :: filesRead evs) (lastRead f [] evs).1 (lastRead f [] evs).2 s := by
  obtain ⟨s1, h1, h2⟩ := pomLoad_ok noTables_ok f hf
  obtain ⟨s2, h3, h4⟩ := pomFold_ok flat evs _ f [] s1 h2 hf hg
  refine ⟨s2, ?_, by simpa using h4⟩
  unfold pomSession
  rw [h1]
  exact h3

/-! ### Values -/

theorem d3_fold (better : ℚ → ℚ → Bool) (le : ℚ → ℚ → Prop) (hr : ∀ a, le a a) (ht : ∀ a b c, le a b → le b c → le a c)
    (h1 : ∀ a b, better a b = true → le a b) (h2 : ∀ a b, better a b = false → le b a) (l : List (Option ℚ)) :
    ∀ acc, (l.foldl (d3Step better) acc = none ↔ acc = none ∧ ∀ v ∈ l, v = none) ∧
      ∀ m, l.foldl (d3Step better) acc = some m → (acc = some m ∨ some m ∈ l) ∧ (∀ x, acc = some x ∨ some x ∈ l → le x m) := by
  induction l with
  | nil =>
    intro acc
    refine ⟨by simp, ?_⟩
    intro m hm
    refine ⟨.inl hm, ?_⟩
    rintro x (hx | hx)
    · have hm : acc = some m := hm
      rw [hm] at hx
      cases hx
      exact hr _
    · simp at hx
  | cons v l ih =>
    intro acc
    rw [List.foldl_cons]
    obtain ⟨i1, i2⟩ := ih (d3Step better acc v)
    have hnone : d3Step better acc v = none ↔ acc = none ∧ v = none := by
      cases acc with
      | none => simp [d3Step]
      | some a =>
        cases v with
        | none => simp [d3Step]
        | some b =>
          simp only [d3Step]
          split <;> simp
    refine ⟨by rw [i1, hnone]; simp [and_assoc], ?_⟩
    intro m hm
    obtain ⟨j1, j2⟩ := i2 m hm
    have hstep : ∀ x, acc = some x ∨ v = some x → ∃ y, d3Step better acc v = some y ∧ le x y := by
      intro x hx
      cases acc with
      | none =>
        rcases hx with hx | hx
        · cases hx
        · exact ⟨x, hx, hr _⟩
      | some a =>
        cases v with
        | none =>
          rcases hx with hx | hx
          · exact ⟨x, hx, hr _⟩
          · cases hx
        | some b =>
          simp only [d3Step]
          cases hb : better a b with
          | true =>
            refine ⟨b, by simp, ?_⟩
            rcases hx with hx | hx
            · cases hx; exact h1 _ _ hb
            · cases hx; exact hr _
          | false =>
            refine ⟨a, by simp, ?_⟩
            rcases hx with hx | hx
            · cases hx; exact hr _
            · cases hx; exact h2 _ _ hb
    constructor
    · rcases j1 with j1 | j1
      · have : acc = some m ∨ v = some m := by
          cases acc with
          | none => exact .inr j1
          | some a =>
            cases v with
            | none => exact .inl j1
            | some b =>
              simp only [d3Step] at j1
              split at j1
              · exact .inr j1
              · exact .inl j1
        rcases this with h | h
        · exact .inl h
        · exact .inr (by simp [h])
      · exact .inr (by simp [j1])
    · rintro x (hx | hx)
      · obtain ⟨y, hy, hle⟩ := hstep x (.inl hx)
        exact ht _ _ _ hle (j2 y (.inl hy))
      · rcases List.mem_cons.1 hx with hx | hx
        · obtain ⟨y, hy, hle⟩ := hstep x (.inr hx.symm)
          exact ht _ _ _ hle (j2 y (.inl hy))
        · exact j2 x (.inr hx)

theorem d3MaxQ_none {l : List (Option ℚ)} : d3MaxQ l = none ↔ ∀ v ∈ l, v = none := by
  have := (d3_fold (fun a b => decide (a < b)) (· ≤ ·) le_refl (fun _ _ _ => le_trans) (by intro a b h; exact le_of_lt (by simpa using h))
    (by intro a b h; simpa using h) l none).1
  unfold d3MaxQ
  rw [this]
  simp

theorem d3MaxQ_some {l : List (Option ℚ)} {m : ℚ} (h : d3MaxQ l = some m) : IsLargest l m := by
  have := (d3_fold (fun a b => decide (a < b)) (· ≤ ·) le_refl (fun _ _ _ => le_trans) (by intro a b h; exact le_of_lt (by simpa using h))
    (by intro a b h; simpa using h) l none).2 m h
  exact ⟨by simpa using this.1, fun x hx => this.2 x (.inr hx)⟩

theorem d3MinQ_some {l : List (Option ℚ)} {m : ℚ} (h : d3MinQ l = some m) : some m ∈ l ∧ ∀ x, some x ∈ l → m ≤ x := by
  have := (d3_fold (fun a b => decide (b < a)) (fun a b => b ≤ a) le_refl (fun _ _ _ h h' => le_trans h' h) (by intro a b h; exact le_of_lt (by simpa using h))
    (by intro a b h; simpa using h) l none).2 m h
  exact ⟨by simpa using this.1, fun x hx => this.2 x (.inr hx)⟩

theorem d3MinQ_exists {l : List (Option ℚ)} (h : ∃ x, some x ∈ l) : ∃ m, d3MinQ l = some m := by
  have := (d3_fold (fun a b => decide (b < a)) (fun a b => b ≤ a) le_refl (fun _ _ _ h h' => le_trans h' h) (by intro a b h; exact le_of_lt (by simpa using h))
    (by intro a b h; simpa using h) l none).1
  cases hm : d3MinQ l with
  | some m => exact ⟨m, rfl⟩
  | none =>
    obtain ⟨x, hx⟩ := h
    have := (this.1 hm).2 _ hx
    cases this

theorem d3MaxQ_exists {l : List (Option ℚ)} (h : ∃ x, some x ∈ l) : ∃ m, d3MaxQ l = some m := by
  cases hm : d3MaxQ l with
  | some m => exact ⟨m, rfl⟩
  | none =>
    obtain ⟨x, hx⟩ := h
    have := d3MaxQ_none.1 hm _ hx
    cases this

theorem maxAbs_eq {l : List (Option ℚ)} {m : ℚ} (hle : ∀ y, some y ∈ l → |y| ≤ m) (hm : ∃ y, some y ∈ l ∧ |y| = m) : maxAbs l = m := by
  obtain ⟨y, hy, rfl⟩ := hm
  obtain ⟨k, hk⟩ := d3MaxQ_exists (l := l.map fun v => some |v.getD 0|) ⟨|y|, List.mem_map.2 ⟨some y, hy, rfl⟩⟩
  have := d3MaxQ_some hk
  unfold maxAbs
  rw [hk]
  apply le_antisymm
  · obtain ⟨v, hv, he⟩ := List.mem_map.1 this.1
    simp only [Option.some.injEq] at he
    show k ≤ |y|
    rw [← he]
    cases v with
    | none => simp
    | some x => exact hle x hv
  · exact this.2 _ (List.mem_map.2 ⟨some y, hy, rfl⟩)

theorem valueCells_show (flat : ℚ) (l : List (Option ℚ)) : RowShows l (valueCells flat l) := by
  refine ⟨by simp [valueCells], ?_⟩
  intro j v hj
  refine ⟨decide (v = d3MaxQ l), valueShade flat l v, by simp [valueCells, hj], ?_, ?_, ?_, ?_⟩
  · rintro x rfl
    have hmem : some x ∈ l := List.mem_of_getElem? hj
    obtain ⟨m, hm⟩ := d3MaxQ_exists ⟨x, hmem⟩
    have := d3MaxQ_some hm
    rw [hm, decide_eq_true_iff]
    constructor
    · intro h; cases h; exact this
    · intro h
      exact congrArg some (le_antisymm (this.2 x hmem) (h.2 m this.1))
  · rintro h rfl
    obtain ⟨m, hm⟩ := d3MaxQ_exists h
    rw [hm]
    rfl
  · cases v <;> simp [valueShade]
  · rintro x m rfl hpos hle hm
    simp only [valueShade]
    rw [maxAbs_eq hle hm, if_neg (ne_of_gt hpos)]

theorem maxVisits_ge (l : List Nat) : ∀ acc, acc ≤ l.foldl max acc ∧ (∀ n ∈ l, n ≤ l.foldl max acc) ∧ (l.foldl max acc = acc ∨ l.foldl max acc ∈ l) := by
  induction l with
  | nil => intro acc; simp
  | cons n l ih =>
    intro acc
    obtain ⟨h1, h2, h3⟩ := ih (max acc n)
    rw [List.foldl_cons]
    refine ⟨by omega, ?_, ?_⟩
    · intro m hm
      rcases List.mem_cons.1 hm with rfl | hm
      · omega
      · exact h2 m hm
    · rcases h3 with h3 | h3
      · rw [h3]
        rcases le_total acc n with h | h
        · right; simp [max_eq_right h]
        · left; exact max_eq_left h
      · right; simp [h3]

theorem maxVisits_spec (l : List Nat) (h : l ≠ []) : maxVisits l ∈ l ∧ ∀ n ∈ l, n ≤ maxVisits l := by
  obtain ⟨_, h2, h3⟩ := maxVisits_ge l 0
  refine ⟨?_, h2⟩
  rcases h3 with h3 | h3
  · obtain ⟨n, l', rfl⟩ := List.exists_cons_of_ne_nil h
    have := h2 n (by simp)
    rw [h3] at this
    unfold maxVisits
    rw [h3]
    simp; left; omega
  · exact h3

theorem visitCells_show (l : List Nat) : VisitsShow l (visitCells l) := by
  refine ⟨by simp [visitCells], ?_⟩
  intro j n hj
  have hmem : n ∈ l := List.mem_of_getElem? hj
  obtain ⟨h1, h2⟩ := maxVisits_spec l (by rintro rfl; simp at hj)
  refine ⟨if n > 0 then showNat n else [], decide (n = maxVisits l), decide (2 * n > maxVisits l), if n = 0 then none else some ((n : ℚ) / (maxVisits l : ℚ)),
    by simp only [visitCells, List.getElem?_map, hj, Option.map_some], ?_, ?_, ?_, ?_⟩
  · rw [decide_eq_true_iff]
    exact ⟨fun h => by rw [h]; exact h2, fun h => le_antisymm (h2 n hmem) (h _ h1)⟩
  · rw [decide_eq_true_iff]
    constructor
    · intro h m hm
      have := h2 m hm
      omega
    · intro h; exact h _ h1
  · rintro rfl; simp
  · intro hn
    refine ⟨by simp [hn], ?_⟩
    intro m hm hmax
    have : maxVisits l = m := le_antisymm (hmax _ h1) (h2 m hm)
    rw [this, if_neg (by omega)]

theorem d3MaxQ_eq {l : List (Option ℚ)} {m : ℚ} (h : IsLargest l m) : d3MaxQ l = some m := by
  obtain ⟨k, hk⟩ := d3MaxQ_exists ⟨m, h.1⟩
  have := d3MaxQ_some hk
  rw [hk]
  exact congrArg some (le_antisymm (h.2 _ this.1) (this.2 _ h.1))

theorem d3MinQ_eq {l : List (Option ℚ)} {m : ℚ} (h : some m ∈ l) (hle : ∀ x, some x ∈ l → m ≤ x) : d3MinQ l = some m := by
  obtain ⟨k, hk⟩ := d3MinQ_exists ⟨m, h⟩
  have := d3MinQ_some hk
  rw [hk]
  exact congrArg some (le_antisymm (this.2 _ h) (hle _ this.1))

theorem pageAugmented_bonus (f : PomcpFile) (i : PolicyInfo) (h : i.exploration.length = i.values.length) : WithBonus f i (pageAugmented f i) := by
  refine ⟨by simp [pageAugmented, h], ?_⟩
  intro j v e hv he
  have hj : (pageAugmented f i)[j]? = some (v.map fun v => v + curExplo f i.values * e.getD 0) := by
    unfold pageAugmented
    rw [List.getElem?_map, List.zip_eq_zipWith, List.getElem?_zipWith, hv, he]
    rfl
  refine ⟨?_, ?_⟩
  · rintro rfl; rw [hj]; rfl
  · rintro x c lo hi rfl hc hhi hlo hle
    rw [hj]
    unfold curExplo
    rw [hc, d3MaxQ_eq hhi, d3MinQ_eq hlo hle]
    rfl

end Verif
