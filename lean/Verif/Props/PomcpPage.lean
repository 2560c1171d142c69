import Verif.Proof.PomcpPage
import Verif.Props.Export

/-! # C110: the page of search trees -/

set_option linter.unusedSectionVars false
set_option linter.unusedSimpArgs false

namespace Verif
open Spec
variable {σ β η : Type}

theorem dictShown_iff {files : List PomcpFile} {f : PomcpFile} {clicks : List (List Nat)} {s : PomcpPage} (hs : PomOk files f clicks s) (p : List Nat)
    (e : PolicyDict) : (p, e) ∈ pomNodes s.opened [] f.root ↔ DictShown f.root clicks p e := by
  rw [pomNodes_mem]
  constructor
  · rintro ⟨r, hr, hb⟩
    rw [List.nil_append] at hr
    subst hr
    exact ⟨hb.1, fun q r h hr => (hs.opened q).1 (by simpa using hb.2 q r h hr)⟩
  · rintro ⟨h1, h2⟩
    exact ⟨p, rfl, h1, fun q r h hr => (hs.opened q).2 (h2 q r h hr)⟩

/-- Whatever the user does, the page displays exactly the nodes of the last file all of whose ancestors are open, each once, with the abbreviated action and
the action, the visits and the value as a title, and one link to each of them but the root, with the name that the entry `observed` of its target selects in
the list `observations` of its source.  No node is marked as the initial one. -/
theorem C110_tree_partial (flat : ℚ) (f : PomcpFile) (evs : List PomcpEvent) (hf : FileOk f) (hg : ∀ g ∈ filesRead evs, FileOk g) :
    ∃ s, pomSession flat f evs = .ok s ∧ (s.tree.nodes.map Prod.fst).Nodup ∧
      (∀ p, p ∈ s.tree.nodes.map Prod.fst ↔ ∃ e, DictShown (lastRead f [] evs).1.root (lastRead f [] evs).2 p e) ∧
      (∀ p x, (p, x) ∈ s.tree.nodes → ∃ e a, DictShown (lastRead f [] evs).1.root (lastRead f [] evs).2 p e ∧ (infoIn e).action = .str a ∧
        Abbreviated pomAbbreviations a.toList x.text ∧ x.title = (.str a, (infoIn e).visits, (infoIn e).value) ∧ x.initial = false) ∧
      (s.tree.links.map Prod.fst).Nodup ∧
      ∀ q o, (q, o) ∈ s.tree.links ↔ ∃ p k d e, q = p ++ [k] ∧ DictAt (lastRead f [] evs).1.root p d ∧
        DictShown (lastRead f [] evs).1.root (lastRead f [] evs).2 q e ∧
        ((∃ n, (infoIn e).observed.bind (fun j => ((namesIn d).getD [])[j]?) = some n ∧ o = nameText n) ∨
          ((infoIn e).observed.bind (fun j => ((namesIn d).getD [])[j]?) = none ∧ o = "undefined".toList)) := by
  obtain ⟨s, h1, h2⟩ := pomSession_ok flat f evs hf hg
  have hlast : FileOk (lastRead f [] evs).1 := by
    have : ∀ (evs : List PomcpEvent) (f : PomcpFile) (c : List (List Nat)), FileOk f → (∀ g ∈ filesRead evs, FileOk g) → FileOk (lastRead f c evs).1 := by
      intro evs
      induction evs with
      | nil => intro f c hf _; exact hf
      | cons ev evs ih =>
        intro f c hf hg
        cases ev with
        | refresh g => exact ih g [] (hg g (by simp [filesRead])) (fun x hx => hg x (by simp [filesRead, hx]))
        | click p => exact ih f _ hf hg
        | hover p => exact ih f _ hf hg
    exact this evs f [] hf hg
  have hd := dictShown_iff h2
  generalize hl : lastRead f [] evs = l at hd h2 hlast ⊢
  obtain ⟨g, clicks⟩ := l
  simp only at hd h2 hlast ⊢
  have hmap : s.tree.nodes.map Prod.fst = (pomNodes s.opened [] g.root).map Prod.fst := by
    rw [h2.tree, List.map_map]; rfl
  refine ⟨s, h1, ?_, ?_, ?_, ?_, ?_⟩
  · rw [hmap]; exact pomNodes_nodup _ _ _
  · intro p
    rw [hmap]
    constructor
    · intro h
      obtain ⟨⟨q, e⟩, hm, rfl⟩ := List.mem_map.1 h
      exact ⟨e, (hd q e).1 hm⟩
    · rintro ⟨e, he⟩
      exact List.mem_map.2 ⟨(p, e), (hd p e).2 he, rfl⟩
  · intro p x hx
    rw [h2.tree] at hx
    obtain ⟨⟨q, e⟩, hm, hxe⟩ := List.mem_map.1 hx
    obtain ⟨rfl, rfl⟩ := Prod.mk.inj hxe
    have hs := (hd q e).1 hm
    obtain ⟨a, ha⟩ := hlast.nodes _ _ hs.1
    refine ⟨e, a, hs, ha, ?_, ?_, rfl⟩
    · simp only [circleFor, ha, shortText]
      exact shortenAction_spec _
    · simp only [circleFor, ha]
  · rw [h2.tree]; exact pomLinks_nodup _ _ (pomNodes_nodup _ _ _)
  · intro q o
    rw [h2.tree]
    show (q, o) ∈ (pomNodes s.opened [] g.root).flatMap (pomNodeLinks s.opened) ↔ _
    rw [pomLinks_mem]
    have ht : ∀ (os : Option (List Name)) (k : Option Nat), o = observedText os k ↔
        (∃ n, (k.bind fun j => (os.getD [])[j]?) = some n ∧ o = nameText n) ∨ ((k.bind fun j => (os.getD [])[j]?) = none ∧ o = "undefined".toList) := by
      intro os k
      unfold observedText
      cases k.bind fun k => (os.getD [])[k]? <;> simp
    constructor
    · rintro ⟨p, k, d, e, rfl, hp, hk, ho, hm⟩
      exact ⟨p, k, d, e, rfl, hp, (hd _ _).1 hm, (ht _ _).1 ho⟩
    · rintro ⟨p, k, d, e, rfl, hp, he, ho⟩
      refine ⟨p, k, d, e, rfl, hp, ?_, (ht _ _).2 ho, (hd _ _).2 he⟩
      obtain ⟨d', h1', h2'⟩ := dictAt_append he.1
      have := dictAt_unique hp h1'
      subst this
      cases h2' with
      | cons hk hs =>
        cases hs
        exact hk

theorem policyOf_at {X : Exporter σ β} {t : Tree β} {d e : PolicyDict} {p : List Nat} (he : DictAt d p e) :
    ∀ {i : Nat} {ob : Option Nat}, PolicyOf X t i ob d → ∃ j ob', PolicyOf X t j ob' e := by
  induction he with
  | nil d => intro i ob h; exact ⟨i, ob, h⟩
  | @cons info os cs k c e p hk _ ih =>
    intro i ob h
    cases h with
    | closed _ _ => simp at hk
    | opened ha hinfo hnames hlen hcs =>
      rename_i a _
      have hlt : k < (successors t i a).length := by
        rw [← hlen]
        exact (List.getElem?_eq_some_iff.1 hk).1
      exact ih (hcs k _ _ c (List.getElem?_eq_getElem hlt) hk)

/-- If the file describes the policy found by a search, each link has the name of the observation after which its target was reached. -/
theorem C110_links (X : Exporter σ β) (t : Tree β) (flat : ℚ) (f : PomcpFile) (evs : List PomcpEvent) (hf : FileOk f) (hg : ∀ g ∈ filesRead evs, FileOk g)
    (i : Nat) (hp : PolicyOf X t i none (lastRead f [] evs).1.root) :
    ∃ s, pomSession flat f evs = .ok s ∧ ∀ p k o, (p ++ [k], o) ∈ s.tree.links → ∃ d e j ob a z n, DictAt (lastRead f [] evs).1.root p d ∧
      DictAt (lastRead f [] evs).1.root (p ++ [k]) e ∧ PolicyOf X t j ob d ∧ Recommended t j a ∧ X.sim.actions[a]? = some (infoIn d).action ∧
      (successors t j a)[k]? = some z ∧ PolicyOf X t z.2 (some k) e ∧ X.sim.observations[z.1]? = some n ∧ o = nameText n := by
  obtain ⟨s, h1, _, _, _, _, h2⟩ := C110_tree_partial flat f evs hf hg
  refine ⟨s, h1, ?_⟩
  intro p k o hl
  obtain ⟨p', k', d, e, hq, hd, he, ho⟩ := (h2 _ _).1 hl
  obtain ⟨e1, e2⟩ := List.append_inj' hq rfl
  subst e1
  cases e2
  obtain ⟨d', h1', h2'⟩ := dictAt_append he.1
  have := dictAt_unique hd h1'
  subst this
  obtain ⟨j, ob, hj⟩ := policyOf_at hd hp
  cases h2' with
  | @cons info os cs _ c _ _ hk hs =>
    cases hs
    cases hj with
    | closed _ _ => simp at hk
    | opened ha hinfo hnames hlen hcs =>
      rename_i a names
      have hlt : k < (successors t j a).length := by
        rw [← hlen]
        exact (List.getElem?_eq_some_iff.1 hk).1
      have hz : (successors t j a)[k]? = some (successors t j a)[k] := List.getElem?_eq_getElem hlt
      have hc := hcs k _ _ e hz hk
      have hobs : (infoIn e).observed = some k := by
        cases hc with
        | closed _ h => exact h.observed
        | opened _ h _ _ _ => exact h.observed
      have hnl : names.length = (successors t j a).length := by simpa using congrArg List.length hnames
      have hn : names[k]? = some names[k] := List.getElem?_eq_getElem (by omega)
      have hx : X.sim.observations[(successors t j a)[k].1]? = some names[k] := by
        have := congrArg (·[k]?) hnames
        simp only [List.getElem?_map, hn, hz, Option.map_some] at this
        exact (Option.some.inj this).symm
      refine ⟨_, e, j, ob, a, _, names[k], hd, he.1, .opened ha hinfo hnames hlen hcs, ha, hinfo.action, hz, hc, hx, ?_⟩
      simp only [namesIn, hobs, Option.bind_some, Option.getD_some, hn] at ho
      rcases ho with ⟨n, h, rfl⟩ | ⟨h, _⟩
      · cases h; rfl
      · cases h

theorem firstName_iff (names : PomcpFile → List Name) (files : List PomcpFile) (j : Nat) (n : Name) :
    FirstName names files j n ↔ (files.findSome? fun f => (names f)[j]?) = some n := by
  unfold FirstName
  rw [List.findSome?_eq_some_iff]

/-- Whatever the user does, the header of a column is that of the first of the files read so far that has this column. -/
theorem C110_headers (flat : ℚ) (f : PomcpFile) (evs : List PomcpEvent) (hf : FileOk f) (hg : ∀ g ∈ filesRead evs, FileOk g) :
    ∃ s, pomSession flat f evs = .ok s ∧
      (∀ (j : Nat) (x : List Char), s.tables.stateHeads[j]? = some x ↔ ∃ n, FirstName PomcpFile.states (f :: filesRead evs) j n ∧ x = nameText n) ∧
      (∀ (j : Nat) (n : Name), FirstName PomcpFile.actions (f :: filesRead evs) j n → ∃ a h, n = .str a ∧ s.tables.actionHeads[j]? = some h ∧
        Abbreviated pomAbbreviations a.toList h.text) ∧
      ∀ (j : Nat) (h : ActionHead), s.tables.actionHeads[j]? = some h → ∃ n, FirstName PomcpFile.actions (f :: filesRead evs) j n := by
  obtain ⟨s, h1, h2⟩ := pomSession_ok flat f evs hf hg
  have hstr : ∀ g ∈ f :: filesRead evs, ∀ a ∈ g.actions, ∃ s, a = .str s := by
    intro g hm
    rcases List.mem_cons.1 hm with rfl | hm
    · exact hf.actions
    · exact (hg g hm).actions
  refine ⟨s, h1, ?_, ?_, ?_⟩
  · intro j x
    rw [h2.tables.states, Option.map_eq_some_iff]
    constructor
    · rintro ⟨n, h, rfl⟩; exact ⟨n, (firstName_iff _ _ _ _).2 h, rfl⟩
    · rintro ⟨n, h, rfl⟩; exact ⟨n, (firstName_iff _ _ _ _).1 h, rfl⟩
  · intro j n
    have ht := h2.tables.actions j
    intro h
    have h' := (firstName_iff _ _ _ _).1 h
    rw [h', List.getElem?_map, Option.map_some, Option.map_eq_some_iff] at ht
    obtain ⟨hd, hh, ht⟩ := ht
    obtain ⟨l, g, r, he, hn, _⟩ := h
    obtain ⟨a, rfl⟩ := hstr g (by rw [he]; simp) n (List.mem_of_getElem? hn)
    refine ⟨a, hd, rfl, hh, ?_⟩
    rw [ht]
    exact shortenAction_spec _
  · intro j h hh
    have ht := h2.tables.actions j
    rw [List.getElem?_map, hh, Option.map_some] at ht
    obtain ⟨n, hn, _⟩ := Option.map_eq_some_iff.1 ht.symm
    exact ⟨n, (firstName_iff _ _ _ _).2 hn⟩

theorem findSome_const {γ δ : Type} {F : γ → Option δ} {v : Option δ} {l : List γ} (hl : l ≠ []) (h : ∀ x ∈ l, F x = v) : l.findSome? F = v := by
  induction l with
  | nil => exact absurd rfl hl
  | cons x l ih =>
    rw [List.findSome?_cons, h x (by simp)]
    cases v with
    | some _ => rfl
    | none =>
      by_cases hl : l = []
      · subst hl; rfl
      · exact ih hl fun y hy => h y (by simp [hy])

theorem lastRead_hover (p : List Nat) (evs : List PomcpEvent) : ∀ (f : PomcpFile) (c : List (List Nat)),
    lastRead f c (evs ++ [.hover p]) = lastRead f c evs := by
  induction evs with
  | nil => intro f c; rfl
  | cons ev evs ih =>
    intro f c
    cases ev <;> simp [lastRead, ih]

/-- Moving the mouse over a displayed node shows its belief, its values, its values with the bonus and its visits, and marks its action, if all the files read
so far have the same names of states and actions and the lists of the node have as many elements as there are names. -/
theorem C110_hover_partial (flat : ℚ) (f : PomcpFile) (evs : List PomcpEvent) (hf : FileOk f) (hg : ∀ g ∈ filesRead evs, FileOk g) (g : PomcpFile)
    (clicks : List (List Nat)) (hlast : lastRead f [] evs = (g, clicks)) (hsame : ∀ h ∈ f :: filesRead evs, h.states = g.states ∧ h.actions = g.actions)
    (p : List Nat) (e : PolicyDict) (he : DictShown g.root clicks p e) (hb : (infoIn e).belief.length = g.states.length)
    (hv : (infoIn e).values.length = g.actions.length) (hx : (infoIn e).exploration.length = g.actions.length)
    (hc : (infoIn e).childVisits.length = g.actions.length) :
    ∃ s, pomSession flat f (evs ++ [.hover p]) = .ok s ∧ s.tables.stateHeads = g.states.map nameText ∧
      s.tables.belief = (infoIn e).belief.map BeliefCell.shown ∧
      s.tables.actionHeads.length = g.actions.length ∧
      (∀ (j : Nat) (h : ActionHead), s.tables.actionHeads[j]? = some h → ∃ a : String, g.actions[j]? = some (.str a) ∧
        Abbreviated pomAbbreviations a.toList h.text ∧ (h.best = true ↔ (infoIn e).action = .str a)) ∧
      RowShows (infoIn e).values s.tables.values ∧ (∃ l, WithBonus g (infoIn e) l ∧ RowShows l s.tables.augmented) ∧
      VisitsShow (infoIn e).childVisits s.tables.visits := by
  obtain ⟨s, h1, h2⟩ := pomSession_ok flat f evs hf hg
  rw [hlast] at h2
  have hgk : FileOk g := by
    obtain ⟨s', _, _⟩ := pomSession_ok flat f evs hf hg
    have : g ∈ f :: filesRead evs := by
      have : ∀ (evs : List PomcpEvent) (f : PomcpFile) (c : List (List Nat)), (lastRead f c evs).1 ∈ f :: filesRead evs := by
        intro evs
        induction evs with
        | nil => intro f c; simp [lastRead]
        | cons ev evs ih =>
          intro f c
          cases ev with
          | refresh g => exact List.mem_cons_of_mem _ (ih g [])
          | click p => exact ih f _
          | hover p => exact ih f _
      simpa [hlast] using this evs f []
    rcases List.mem_cons.1 this with h | h
    · rw [h]; exact hf
    · exact hg g h
  have hev : pomEvent flat s (.hover p) = .ok { s with tables := displayValues flat g (infoIn e) s.tables } := by
    unfold pomEvent pomShownAt
    simp only
    rw [h2.file, dget_of_mem (pomNodes_nodup _ _ _) ((dictShown_iff h2 p e).2 he)]
    cases e
    rfl
  have hst : s.tables.stateHeads = g.states.map nameText := by
    apply List.ext_getElem?
    intro j
    rw [h2.tables.states, findSome_const (v := g.states[j]?) (by simp) (fun x hx => by rw [(hsame x hx).1]), List.getElem?_map]
  have hat : s.tables.actionHeads.map ActionHead.text = g.actions.map shortText := by
    apply List.ext_getElem?
    intro j
    rw [h2.tables.actions, findSome_const (v := g.actions[j]?) (by simp) (fun x hx => by rw [(hsame x hx).2]), List.getElem?_map]
  have hal : s.tables.actionHeads.length = g.actions.length := by simpa using congrArg List.length hat
  have hsl : s.tables.stateHeads.length = g.states.length := by simpa using congrArg List.length hst
  refine ⟨{ s with tables := displayValues flat g (infoIn e) s.tables }, ?_, hst, ?_, ?_, ?_, ?_, ?_, ?_⟩
  · unfold pomSession at h1 ⊢
    cases hl : pomLoad f noTables with
    | error x => rw [hl] at h1; cases h1
    | ok s0 =>
      rw [hl] at h1
      show (evs ++ [PomcpEvent.hover p]).foldlM (pomEvent flat) s0 = _
      rw [List.foldlM_append]
      have h1 : evs.foldlM (pomEvent flat) s0 = .ok s := h1
      rw [h1]
      show (pomEvent flat s (.hover p) >>= fun s => pure s) = _
      rw [hev]
      rfl
  · exact joinUpdate_all _ _ _ (by rw [h2.tables.belief, hsl, hb])
  · show (joinUpdate _ s.tables.actionHeads g.actions).length = _
    rw [joinUpdate_length, hal]
  · intro j h
    show (joinUpdate (fun (h : ActionHead) a => ⟨h.text, decide (a = (infoIn e).action)⟩) s.tables.actionHeads g.actions)[j]? = some h → _
    · intro hh
      have hj : j < g.actions.length := by
        have := (List.getElem?_eq_some_iff.1 hh).1
        rw [joinUpdate_length] at this
        omega
      have ha : g.actions[j]? = some g.actions[j] := List.getElem?_eq_getElem hj
      have hh' : s.tables.actionHeads[j]? = some (s.tables.actionHeads[j]'(by omega)) := List.getElem?_eq_getElem _
      obtain ⟨a, hs⟩ := hgk.actions _ (List.getElem_mem hj)
      rw [joinUpdate_get _ _ _ j _ _ hh' ha] at hh
      have htx := congrArg (·[j]?) hat
      simp only [List.getElem?_map, hh', ha, Option.map_some] at htx
      have htx := Option.some.inj htx
      rw [hs] at ha hh htx
      refine ⟨a, ha, ?_, ?_⟩
      · rw [← Option.some.inj hh]
        show Abbreviated _ _ (s.tables.actionHeads[j]'(by omega)).text
        rw [htx]
        exact shortenAction_spec _
      · rw [← Option.some.inj hh]
        simp only [decide_eq_true_eq, hs]
        exact eq_comm
  · have : (displayValues flat g (infoIn e) s.tables).values = valueCells flat (infoIn e).values := by
      show joinUpdate (fun _ c => c) s.tables.values _ = _
      rw [joinUpdate_all (fun c => c) _ _ (by rw [h2.tables.values, hal, ← hv]; simp [valueCells]), List.map_id']
    show RowShows _ (displayValues flat g (infoIn e) s.tables).values
    rw [this]
    exact valueCells_show _ _
  · refine ⟨_, pageAugmented_bonus g (infoIn e) (by omega), ?_⟩
    have : (displayValues flat g (infoIn e) s.tables).augmented = valueCells flat (pageAugmented g (infoIn e)) := by
      show joinUpdate (fun _ c => c) s.tables.augmented _ = _
      rw [joinUpdate_all (fun c => c) _ _ (by rw [h2.tables.augmented, hal]; simp [valueCells, pageAugmented]; omega), List.map_id']
    show RowShows _ (displayValues flat g (infoIn e) s.tables).augmented
    rw [this]
    exact valueCells_show _ _
  · have : (displayValues flat g (infoIn e) s.tables).visits = visitCells (infoIn e).childVisits := by
      show joinUpdate (fun _ c => c) s.tables.visits _ = _
      rw [joinUpdate_all (fun c => c) _ _ (by rw [h2.tables.visits, hal, ← hc]; simp [visitCells]), List.map_id']
    show VisitsShow _ (displayValues flat g (infoIn e) s.tables).visits
    rw [this]
    exact visitCells_show _

/-- The files that `export_pomcp` writes can be displayed, if the actions of the model are strings. -/
theorem C110_exported [DecidableEq β] (X : Exporter σ β) (shared : Bool) (hinj : shared = true → Function.Injective X.toList) (fuel : Nat) (st st' : SearchState σ β)
    (f : PomcpFile) (h : treePolicy X shared fuel st = (.ok f.root, st')) (ha : f.actions = X.sim.actions) (hs : ∀ a ∈ X.sim.actions, ∃ s, a = .str s) :
    FileOk f ∧ PolicyOf X st.tree 0 none f.root := by
  have hp := (C78_policy X shared fuel st st' _ h).1
  refine ⟨⟨by rw [ha]; exact hs, ?_, ?_⟩, hp⟩
  · intro p e he
    obtain ⟨j, ob, hj⟩ := policyOf_at he hp
    cases hj with
    | closed _ hi => exact hs _ (List.mem_of_getElem? hi.action)
    | opened _ hi _ _ _ => exact hs _ (List.mem_of_getElem? hi.action)
  · have hopen : openedIn f.root ≠ [] := by
      cases hsh : shared with
      | false =>
        rw [hsh] at h
        rw [C78_all_opened X fuel st st' _ h]
        cases f.root
        simp [beliefsIn]
      | true =>
        rw [hsh] at h
        have := (C78_opened_once X (hinj hsh) fuel st st' _ h).2
        intro h0
        have hb : (infoIn f.root).belief ∈ beliefsIn f.root := by
          cases f.root
          simp [beliefsIn, infoIn]
        rw [h0] at this
        exact absurd (this _ hb) (by simp)
    cases hp' : f.root with
    | mk i os cs =>
      rw [hp'] at hp hopen
      cases hp with
      | closed _ _ => simp [openedIn, openedInAll] at hopen
      | opened _ _ _ _ _ => rfl

/-! ### What the marks tell about the search -/

/-- A cell is marked. -/
def CellMarked (cells : List ValueCell) (a : Nat) (b : Bool) : Prop := ∃ v shade, cells[a]? = some (.shown v b shade)

theorem infoOf_values {X : Exporter σ β} {t : Tree β} {i a : Nat} {bl : List ℚ} {ob : Option Nat} {info : PolicyInfo} (hi : InfoOf X t i a bl ob info)
    (hn : 0 < nodeVisits t i) (b : Nat) (hb : b < (t.nodes i).children.length) :
    info.values[b]? = some (if actionVisits t i b = 0 then none else some (actionValue t i b)) := by
  rw [hi.values, List.getElem?_map, List.getElem?_range hb]
  simp only [Option.map_some, show nodeVisits t i ≠ 0 by omega, false_or]

theorem infoOf_terms {X : Exporter σ β} {t : Tree β} {i a : Nat} {bl : List ℚ} {ob : Option Nat} {info : PolicyInfo} (hi : InfoOf X t i a bl ob info)
    (b : Nat) (hb : b < (t.nodes i).children.length) :
    info.exploration[b]? = some (if actionVisits t i b = 0 then none else some (X.bonus (nodeVisits t i) (actionVisits t i b))) := by
  rw [hi.exploration, List.getElem?_map, List.getElem?_range hb]
  rfl

theorem mem_values {X : Exporter σ β} {t : Tree β} {i a : Nat} {bl : List ℚ} {ob : Option Nat} {info : PolicyInfo} (hi : InfoOf X t i a bl ob info)
    (hn : 0 < nodeVisits t i) (x : ℚ) : some x ∈ info.values ↔ ∃ b < (t.nodes i).children.length, actionVisits t i b ≠ 0 ∧ actionValue t i b = x := by
  rw [hi.values, List.mem_map]
  simp only [List.mem_range, show nodeVisits t i ≠ 0 by omega, false_or]
  constructor
  · rintro ⟨b, hb, h⟩
    split at h
    · cases h
    · rename_i hv
      exact ⟨b, hb, hv, Option.some.inj h⟩
  · rintro ⟨b, hb, hv, h⟩
    exact ⟨b, hb, by rw [if_neg hv, h]⟩

theorem explored_of_empty {t : Tree β} {i b : Nat} (h : unexplored t i = []) (hb : b < (t.nodes i).children.length) : actionVisits t i b ≠ 0 := by
  intro h0
  have : b ∈ unexplored t i := List.mem_filter.2 ⟨List.mem_range.2 hb, by simp [h0]⟩
  rw [h] at this
  simp at this

theorem exists_extremes (n : Nat) (hn : 0 < n) (v : Nat → ℚ) : ∃ x < n, ∃ y < n, ∀ z < n, v y ≤ v z ∧ v z ≤ v x := by
  induction n with
  | zero => omega
  | succ n ih =>
    by_cases h : n = 0
    · subst h
      refine ⟨0, by omega, 0, by omega, fun z hz => ?_⟩
      have : z = 0 := by omega
      subst this
      exact ⟨le_refl _, le_refl _⟩
    · obtain ⟨x, hx, y, hy, hxy⟩ := ih (by omega)
      have hmax : ∃ x' < n + 1, ∀ z < n + 1, v z ≤ v x' := by
        rcases le_total (v x) (v n) with hle | hle
        · refine ⟨n, by omega, fun z hz => ?_⟩
          by_cases hzn : z = n
          · rw [hzn]
          · exact le_trans (hxy z (by omega)).2 hle
        · refine ⟨x, by omega, fun z hz => ?_⟩
          by_cases hzn : z = n
          · rw [hzn]; exact hle
          · exact (hxy z (by omega)).2
      have hmin : ∃ y' < n + 1, ∀ z < n + 1, v y' ≤ v z := by
        rcases le_total (v y) (v n) with hle | hle
        · refine ⟨y, by omega, fun z hz => ?_⟩
          by_cases hzn : z = n
          · rw [hzn]; exact hle
          · exact (hxy z (by omega)).1
        · refine ⟨n, by omega, fun z hz => ?_⟩
          by_cases hzn : z = n
          · rw [hzn]
          · exact le_trans hle (hxy z (by omega)).1
      obtain ⟨x', hx', h1⟩ := hmax
      obtain ⟨y', hy', h2⟩ := hmin
      exact ⟨x', hx', y', hy', fun z hz => ⟨h2 z hz, h1 z hz⟩⟩

theorem rowShows_marks {l : List (Option ℚ)} {cells : List ValueCell} (h : RowShows l cells) (n : Nat) (v : Nat → ℚ) (hl : l.length = n)
    (hv : ∀ b < n, l[b]? = some (some (v b))) (a : Nat) (ha : a < n) (hmax : ∀ b < n, v b ≤ v a) (hfirst : ∀ b < a, v b < v a) :
    CellMarked cells a true ∧ ∀ b < a, CellMarked cells b false := by
  have hmem : ∀ x, some x ∈ l ↔ ∃ b < n, v b = x := by
    intro x
    constructor
    · intro hx
      obtain ⟨b, hb⟩ := List.mem_iff_getElem?.1 hx
      have hbn : b < n := by rw [← hl]; exact (List.getElem?_eq_some_iff.1 hb).1
      rw [hv b hbn] at hb
      exact ⟨b, hbn, by simpa using hb⟩
    · rintro ⟨b, hb, rfl⟩
      exact List.mem_of_getElem? (hv b hb)
  constructor
  · obtain ⟨best, shade, h1, h2, _⟩ := h.2 a _ (hv a ha)
    have : best = true := (h2 _ rfl).2 ⟨(hmem _).2 ⟨a, ha, rfl⟩, fun x hx => by obtain ⟨b, hb, rfl⟩ := (hmem x).1 hx; exact hmax b hb⟩
    subst this
    exact ⟨_, _, h1⟩
  · intro b hb
    obtain ⟨best, shade, h1, h2, _⟩ := h.2 b _ (hv b (by omega))
    have : best = false := by
      rw [Bool.eq_false_iff]
      intro ht
      have := ((h2 _ rfl).1 ht).2 _ ((hmem _).2 ⟨a, ha, rfl⟩)
      exact absurd (hfirst b hb) (not_lt.2 this)
    subst this
    exact ⟨_, _, h1⟩

/-- If all the actions of a node have been tried, the first marked cell of the row with the bonus is that of the action that UCT chooses, and the first marked
cell of the row of values is that of the recommended action. -/
theorem C110_uct_partial (S : Search σ β η) (X : Exporter σ β) (t : Tree β) (i a : Nat) (bl : List ℚ) (ob : Option Nat) (info : PolicyInfo)
    (hi : InfoOf X t i a bl ob info) (hbonus : X.bonus = S.bonus) (f : PomcpFile) (he : f.exploration = some S.exploration)
    (hr : f.relative = S.relative) (h0 : 0 ≤ S.exploration) (hn : 0 < nodeVisits t i) (hu : unexplored t i = []) (l : List (Option ℚ))
    (hl : WithBonus f info l) (cells cells' : List ValueCell) (hc : RowShows l cells) (hc' : RowShows info.values cells') :
    (∀ b, UctChoice S t i b → CellMarked cells b true ∧ ∀ b' < b, CellMarked cells b' false) ∧
      ∀ b, Recommended t i b → CellMarked cells' b true ∧ ∀ b' < b, CellMarked cells' b' false := by
  have hval : ∀ b < (t.nodes i).children.length, info.values[b]? = some (some (actionValue t i b)) := by
    intro b hb
    rw [infoOf_values hi hn b hb, if_neg (explored_of_empty hu hb)]
  have hvl : info.values.length = (t.nodes i).children.length := by rw [hi.values]; simp
  constructor
  · rintro b ⟨hb, _, hb2⟩
    obtain ⟨c, hw, hmax, hfirst⟩ := hb2 hu
    refine rowShows_marks hc _ (uctScore S t i c) (hl.1.trans hvl) ?_ b hb hmax hfirst
    intro z hz
    have hterm : info.exploration[z]? = some (some (X.bonus (nodeVisits t i) (actionVisits t i z))) := by
      rw [infoOf_terms hi z hz, if_neg (explored_of_empty hu hz)]
    obtain ⟨x, hx, y, hy, hxy⟩ := exists_extremes _ (by omega : 0 < (t.nodes i).children.length) (actionValue t i)
    have hlz := (hl.2 z _ _ (hval z hz) hterm).2 _ _ (actionValue t i y) (actionValue t i x) rfl he
      ⟨(mem_values hi hn _).2 ⟨x, hx, explored_of_empty hu hx, rfl⟩, fun w hw => by
        obtain ⟨b', hb', _, rfl⟩ := (mem_values hi hn _).1 hw; exact (hxy b' hb').2⟩
      ((mem_values hi hn _).2 ⟨y, hy, explored_of_empty hu hy, rfl⟩) (fun w hw => by
        obtain ⟨b', hb', _, rfl⟩ := (mem_values hi hn _).1 hw; exact (hxy b' hb').1)
    rw [hlz, hbonus, hr]
    unfold uctScore
    have : (if S.relative = true then S.exploration * (actionValue t i x - actionValue t i y) else S.exploration) = c := by
      unfold IsWeight at hw
      split
      · rename_i hrel
        by_cases hpos : 0 < S.exploration
        · rw [if_pos ⟨hrel, hpos⟩] at hw
          obtain ⟨d, ⟨x', hx', y', hy', hxy', rfl⟩, rfl⟩ := hw
          rw [le_antisymm ((hxy' x hx).2) ((hxy x' hx').2), le_antisymm ((hxy y' hy').1) ((hxy' y hy).1)]
        · have : S.exploration = 0 := le_antisymm (not_lt.1 hpos) h0
          rw [if_neg (by tauto)] at hw
          rw [hw, this, zero_mul]
      · rename_i hrel
        rw [if_neg (by tauto)] at hw
        exact hw.symm
    rw [this]
    rfl
  · rintro b ⟨hb, _, hb2⟩
    obtain ⟨hmax, hfirst⟩ := hb2 hu
    exact rowShows_marks hc' _ (actionValue t i) hvl hval b hb hmax hfirst

/-- If some actions have been tried and others have not, neither the action that UCT chooses nor the recommended one is marked in these rows; an action that
has been tried is. -/
theorem C110_false_uct (S : Search σ β η) (X : Exporter σ β) (t : Tree β) (i a : Nat) (bl : List ℚ) (ob : Option Nat) (info : PolicyInfo)
    (hi : InfoOf X t i a bl ob info) (f : PomcpFile) (c : ℚ) (he : f.exploration = some c)
    (hn : 0 < nodeVisits t i) (hu : unexplored t i ≠ []) (htried : ∃ b < (t.nodes i).children.length, 0 < actionVisits t i b) (l : List (Option ℚ))
    (hl : WithBonus f info l) (cells cells' : List ValueCell) (hc : RowShows l cells) (hc' : RowShows info.values cells') :
    (∀ b, UctChoice S t i b ∨ Recommended t i b → CellMarked cells b false ∧ CellMarked cells' b false) ∧
      ∃ b, 0 < actionVisits t i b ∧ CellMarked cells' b true := by
  obtain ⟨b0, hb0, hv0⟩ := htried
  have hsome : ∃ x, some x ∈ info.values := ⟨_, (mem_values hi hn _).2 ⟨b0, hb0, by omega, rfl⟩⟩
  obtain ⟨hi', hmax⟩ := d3MaxQ_exists hsome
  have hmax := d3MaxQ_some hmax
  obtain ⟨lo, hlo⟩ := d3MinQ_exists hsome
  have hlo := d3MinQ_some hlo
  constructor
  · intro b hb
    have hbu : b ∈ unexplored t i := by
      rcases hb with hb | hb
      · exact hb.2.1 hu
      · exact hb.2.1 hu
    obtain ⟨hbr, hbv⟩ := List.mem_filter.1 hbu
    have hbr := List.mem_range.1 hbr
    have hbv : actionVisits t i b = 0 := by simpa using hbv
    have hval : info.values[b]? = some none := by rw [infoOf_values hi hn b hbr, if_pos hbv]
    have hterm : info.exploration[b]? = some none := by rw [infoOf_terms hi b hbr, if_pos hbv]
    constructor
    · obtain ⟨best, shade, h1, _, h3, _⟩ := hc.2 b none ((hl.2 b _ _ hval hterm).1 rfl)
      have : best = false := h3 ⟨_, by
        have h0 := infoOf_values hi hn b0 hb0
        rw [if_neg (by omega)] at h0
        exact List.mem_of_getElem? ((hl.2 b0 _ _ h0 (infoOf_terms hi b0 hb0)).2 _ _ _ _ rfl he hmax hlo.1 hlo.2)⟩ rfl
      subst this
      exact ⟨_, _, h1⟩
    · obtain ⟨best, shade, h1, _, h3, _⟩ := hc'.2 b none hval
      have : best = false := h3 hsome rfl
      subst this
      exact ⟨_, _, h1⟩
  · obtain ⟨b, hb, hv, hx⟩ := (mem_values hi hn _).1 hmax.1
    refine ⟨b, by omega, ?_⟩
    have hval := infoOf_values hi hn b hb
    rw [if_neg hv, hx] at hval
    obtain ⟨best, shade, h1, h2, _⟩ := hc'.2 b _ hval
    have : best = true := (h2 _ rfl).2 hmax
    subst this
    exact ⟨_, _, h1⟩

/-! ### Failures and examples -/

/-- The page does not load a file with a number as an action, in the list of actions or near the root, or whose root has no list of children. -/
theorem C110_fails (flat : ℚ) (f : PomcpFile) (evs : List PomcpEvent)
    (h : (∃ n, Name.int n ∈ f.actions) ∨ namesIn f.root = none ∨ ∃ p e n, p.length ≤ 1 ∧ DictAt f.root p e ∧ (infoIn e).action = .int n) :
    pomSession flat f evs = .error .typeError := by
  have hload : pomLoad f noTables = .error .typeError := by
    have hshort : ∀ n, (∃ y, shortenName n = .ok y) ∨ shortenName n = .error .typeError := by
      intro n
      cases n with
      | int n => exact .inr rfl
      | str s => exact .inl ⟨_, rfl⟩
    unfold pomLoad
    by_cases hact : ∃ n, Name.int n ∈ f.actions
    · have : newHeads noTables.actionHeads f.actions = .error .typeError := by
        unfold newHeads
        rw [mapM_error_of _ .typeError _ (fun n _ => hshort n)]
        · rfl
        · obtain ⟨n, hn⟩ := hact
          exact ⟨_, hn, rfl⟩
      simp only [initTables, this]
      rfl
    · have hstr : ∀ a ∈ f.actions, ∃ s, a = .str s := by
        intro a ha
        cases a with
        | int n => exact absurd ⟨n, ha⟩ hact
        | str s => exact ⟨s, rfl⟩
      obtain ⟨t', h1, _⟩ := initTables_ok noTables_ok f hstr
      rw [h1]
      show (rootChildren f.root >>= fun _ => pomUpdate f.root [[]] >>= fun tree => pure (⟨f, [[]], tree, t'⟩ : PomcpPage)) = _
      rcases h with h | h | ⟨p, e, n, hp, he, hn⟩
      · exact absurd h hact
      · cases hr : f.root with
        | mk i os cs =>
          rw [hr] at h
          simp only [namesIn] at h
          subst h
          rfl
      · have hu : pomUpdate f.root [[]] = .error .typeError := by
          unfold pomUpdate
          have : ((pomNodes [[]] [] f.root).mapM fun x => (pomCircle x.2).map fun c => (x.1, c)) = .error .typeError := by
            refine mapM_error_of _ _ _ ?_ ⟨(p, e), ?_, ?_⟩
            · rintro ⟨q, d⟩ _
              cases d with
              | mk i os cs =>
                rcases hshort i.action with ⟨y, hy⟩ | hy
                · left; simp only [pomCircle, hy]; exact ⟨_, rfl⟩
                · right; simp only [pomCircle, hy]; rfl
            · refine (pomNodes_mem [[]] [] f.root p e).2 ⟨p, rfl, he, ?_⟩
              intro a b hab hb
              have hl : a.length + b.length ≤ 1 := by rw [hab, List.length_append] at hp; exact hp
              have : 0 < b.length := List.length_pos_iff.2 hb
              have : a = [] := List.length_eq_zero_iff.1 (by omega)
              simp [this]
            · cases e with
              | mk i os cs =>
                simp only [infoIn] at hn
                simp only [pomCircle, hn]
                rfl
          rw [this]
          rfl
        rw [hu]
        cases hr : rootChildren f.root with
        | ok _ => rfl
        | error x =>
          have : x = .typeError := by
            cases hq : f.root with
            | mk i os cs =>
              rw [hq] at hr
              cases os with
              | none => cases hr; rfl
              | some _ => cases hr
          rw [this]
          rfl
  unfold pomSession
  rw [hload]
  rfl

/-- The entries of a node of the examples. -/
def exampleInfo (action : String) (observed : Option Nat) (values : List (Option ℚ)) (visits : List Nat) : PolicyInfo :=
  ⟨1, visits.sum, [1], .str action, observed, values, values.map fun v => v.map fun _ => 1, visits⟩

/-- A file with two actions; the child of the root has not been visited. -/
def exampleFile (a b : String) : PomcpFile :=
  ⟨[.str "s"], [.str a, .str b], some 2, true,
    .mk (exampleInfo a none [some 1, some (-1)] [3, 1]) (some [.str "o"]) [.mk (exampleInfo b (some 0) [none, none] [0, 0]) (some []) []]⟩

theorem exampleFile_ok (a b : String) : FileOk (exampleFile a b) := by
  refine ⟨?_, ?_, rfl⟩
  · intro x hx
    simp [exampleFile] at hx
    rcases hx with rfl | rfl <;> exact ⟨_, rfl⟩
  · intro p e h
    unfold exampleFile at h
    cases h with
    | nil => exact ⟨_, rfl⟩
    | @cons _ _ _ k _ _ _ hk hs =>
      match k, hk with
      | 0, hk =>
        cases hk
        cases hs with
        | nil => exact ⟨_, rfl⟩
        | cons hk _ => simp at hk

/-- After a file with other actions is read, the headers are those of the first file, although the header of the action of a node is found by its position. -/
theorem C110_false_headers : ∃ s, pomSession 0 (exampleFile "com-ask" "wait") [.refresh (exampleFile "wait" "com-ask"), .hover []] = .ok s ∧
    s.tree.nodes.map (fun x => String.ofList x.2.text) = ["wait", "C-ask"] ∧
    s.tables.actionHeads.map (fun h => (String.ofList h.text, h.best)) = [("C-ask", true), ("wait", false)] :=
  ⟨_, rfl, by decide +kernel, by decide +kernel⟩

/-- In a node without visits every value is marked as the best one. -/
theorem C110_false_blank : ∃ s, pomSession 0 (exampleFile "com-ask" "wait") [.hover [0]] = .ok s ∧
    s.tables.values = [.shown none true none, .shown none true none] ∧ s.tables.augmented = [.shown none true none, .shown none true none] :=
  ⟨_, rfl, by decide +kernel, by decide +kernel⟩

/-- The rows of the root: the difference of the values is 2 and the weight is 2. -/
example : ∃ s, pomSession 0 (exampleFile "com-ask" "wait") [.click [0], .click [], .click [], .hover []] = .ok s ∧
    s.tables.values = [.shown (some 1) true (some 0), .shown (some (-1)) false (some 1)] ∧
    s.tables.augmented = [.shown (some 5) true (some 0), .shown (some 3) false (some (1 / 5))] ∧
    s.tables.visits = [.shown 3 (showNat 3) true true (some 1), .shown 1 (showNat 1) false false (some (1 / 3))] ∧
    s.tree.links.map (fun x => (x.1, String.ofList x.2)) = [([0], "o")] :=
  ⟨_, rfl, by decide +kernel, by decide +kernel, by decide +kernel, by decide +kernel⟩

/-- The hypotheses of `C110_hover_partial` hold for the root of the example. -/
example : ∀ evs, evs = [PomcpEvent.click [0]] → FileOk (exampleFile "a" "b") ∧ lastRead (exampleFile "a" "b") [] evs = (exampleFile "a" "b", [[0]]) ∧
    DictShown (exampleFile "a" "b").root [[0]] [] (exampleFile "a" "b").root := by
  rintro _ rfl
  refine ⟨exampleFile_ok _ _, rfl, .nil _, ?_⟩
  intro q r h hr
  have := congrArg List.length h
  rw [List.length_append, List.length_nil] at this
  exact absurd (List.length_eq_zero_iff.1 (by omega)) hr

/-- The search tree of the example of UCT. -/
def armTree (n : Nat) : SearchState Nat (List ℚ) :=
  runTreeOps (armSearch 1 true) ((armSearch 1 true).start [1] 0) (List.replicate n (.simulate 0 none))

/-- After two simulations both actions have been tried, after one only one of them. -/
example : unexplored (armTree 2).tree 0 = [] ∧ 0 < nodeVisits (armTree 2).tree 0 ∧ unexplored (armTree 1).tree 0 ≠ [] ∧ 0 < nodeVisits (armTree 1).tree 0 ∧
    ((∃ b < ((armTree 1).tree.nodes 0).children.length, 0 < actionVisits (armTree 1).tree 0 b)) := by
  refine ⟨by decide +kernel, by decide +kernel, by decide +kernel, by decide +kernel, 0, by decide +kernel, by decide +kernel⟩

/-- The export of such a tree can be displayed. -/
example (n : Nat) : ∃ d, FileOk ⟨[.str "s"], (exporterOf (armSearch 1 true)).sim.actions, some 1, true, d⟩ ∧
    PolicyOf (exporterOf (armSearch 1 true)) (armTree n).tree 0 none d := by
  obtain ⟨d, st', h⟩ := C78_returns (armSearch 1 true) (exporterOf (armSearch 1 true)) rfl (fun _ => ⟨_, _, rfl⟩) (by decide)
    (exactSim_observed _ _ _ (by decide)) [1] 0 (List.replicate n (.simulate 0 none)) _ rfl _ (Nat.lt_succ_self _)
  refine ⟨d, C110_exported (exporterOf (armSearch 1 true)) _ (fun _ _ _ h => h) _ (armTree n) st' ⟨_, _, _, _, d⟩ h rfl ?_⟩
  intro a ha
  have : a ∈ [Name.str "good", .str "bad"] := ha
  simp at this
  rcases this with rfl | rfl <;> exact ⟨_, rfl⟩

/-- Numbers as actions. -/
example : ∃ n, Name.int n ∈ (PomcpFile.mk [] [.int 0] none false (.mk (exampleInfo "a" none [] []) none [])).actions := ⟨0, by simp⟩

end Verif
