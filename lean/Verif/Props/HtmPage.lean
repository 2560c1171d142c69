import Verif.Proof.HtmPage
import Verif.Props.Htm

/-! The pages of task trees (C111). -/

set_option linter.unusedSectionVars false
set_option linter.unusedSimpArgs false

namespace Verif
open Spec

/-- **C111** (partial), nodes and links: after any events without exception, the elements are those of the nodes that must be displayed, one for each, and
the links those from a displayed open node to its children.  The ids in the tree must be different.  What is missing is what the elements show. -/
theorem C111_nodes_partial {fs : List Char → Option HtmContent} {file : List Char} {depth : Nat} {evs : List HtmEvent} {s : HtmPage}
    (h : htmSession fs file depth evs = .ok s) : ∃ x, Shows fs file depth evs x ∧
      (x = none → s.boxes = [] ∧ s.links = []) ∧
      (∀ d n clicks, x = some (d, n, clicks) →
        (∀ i, i ∈ s.boxes.map HtmBox.key ↔ ∃ p e, NodeShown d n clicks p e ∧ idIn e = i) ∧
        (∀ i j, (i, j) ∈ s.links ↔ ∃ p e k c, NodeShown d n clicks p e ∧ NodeShown d n clicks (p ++ [k]) c ∧ idIn e = i ∧ idIn c = j) ∧
        (DistinctIds d → (s.boxes.map HtmBox.key).Nodup)) := by
  obtain ⟨x, hx⟩ := shows_exists _ _ h
  have hd := shows_display hx s h
  refine ⟨x, hx, ?_, ?_⟩
  · rintro rfl
    exact hd.2
  · rintro d n clicks rfl
    obtain ⟨_, h2, h3, h4⟩ := hd
    have hmem : ∀ p e, (p, e) ∈ htmNodes s.opened [] d ↔ NodeShown d n clicks p e := by
      intro p e
      rw [htmNodes_mem]
      constructor
      · rintro ⟨r, rfl, h5, h6⟩
        exact ⟨h5, fun a b hab hb => (h2 a).1 (h6 a b hab hb)⟩
      · rintro ⟨h5, h6⟩
        exact ⟨p, rfl, h5, fun a b hab hb => (h2 a).2 (h6 a b hab hb)⟩
    refine ⟨?_, ?_, ?_⟩
    · intro i
      rw [h3, List.mem_map]
      constructor
      · rintro ⟨⟨p, e⟩, hm, rfl⟩; exact ⟨p, e, (hmem p e).1 hm, rfl⟩
      · rintro ⟨p, e, hm, rfl⟩; exact ⟨(p, e), (hmem p e).2 hm, rfl⟩
    · intro i j
      rw [h4, List.mem_flatMap]
      constructor
      · rintro ⟨⟨p, e⟩, hm, hl⟩
        unfold htmLinks at hl
        split at hl
        · rename_i ho
          obtain ⟨c, hc, hij⟩ := List.mem_map.1 hl
          rw [kids_subnodes] at hc
          obtain ⟨k, hk⟩ := List.mem_iff_getElem?.1 hc
          have hs := (hmem p e).1 hm
          simp only [Prod.mk.injEq, key_idIn] at hij
          refine ⟨p, e, k, c, hs, ⟨htmNodeAt_snoc hs.1 hk, ?_⟩, hij.1, hij.2⟩
          intro a b hab hb
          obtain ⟨b', z, rfl⟩ := List.eq_nil_or_concat b |>.resolve_left hb
          rw [List.concat_eq_append, ← List.append_assoc] at hab
          have hab := (List.append_inj' hab rfl).1
          by_cases hb' : b' = []
          · subst hb'
            rw [List.append_nil] at hab
            rw [← hab]
            exact (h2 p).1 ho
          · exact hs.2 a b' hab hb'
        · simp at hl
      · rintro ⟨p, e, k, c, hs, hc, rfl, rfl⟩
        refine ⟨(p, e), (hmem p e).2 hs, ?_⟩
        have ho : s.opened p = true := (h2 p).2 (hc.2 p [k] rfl (by simp))
        unfold htmLinks
        rw [if_pos ho]
        obtain ⟨e', h5, h6⟩ := htmNodeAt_append hc.1
        have := htmNodeAt_unique h5 hs.1
        subst this
        cases h6 with
        | cons hk hn =>
          cases hn
          refine List.mem_map.2 ⟨c, ?_, by rw [key_idIn, key_idIn]⟩
          rw [kids_subnodes]
          exact List.mem_of_getElem? hk
    · intro hdi
      rw [h3]
      exact htmNodes_keys _ _ hdi

/-- **C111** (partial), the first tree: as long as no other tree is read, each node that must be displayed has an element with its name after the
replacements, made once or more, its attributes, the mark of collapsed nodes exactly when it is closed and has children, and no symbol if it has no children;
a node at a depth less than the limit that was never clicked has the symbol of its combination. -/
theorem C111_first_partial {fs : List Char → Option HtmContent} {file : List Char} {depth : Nat} {evs : List HtmEvent} {s : HtmPage} {d : DNode} {n : Nat}
    {clicks : List (List Nat)} (h : htmSession fs file depth evs = .ok s) (hf : FirstTree fs file depth evs d n clicks) (hd : DistinctIds d)
    (hp : PlainAttributes d) {p : List Nat} {e : DNode} (hs : NodeShown d n clicks p e) : ∃ b ∈ s.boxes, b.key = idIn e ∧
      (∃ k, 1 ≤ k ∧ CleanedBy k (nameIn e).toList b.text) ∧
      (∀ t, Abbreviated htmReplacements (nameIn e).toList t → SettledName t → b.text = t) ∧
      (subnodes e ≠ [] → ¬ IsOpenAt n clicks p → b.cls = attributeClass e ++ " collapsed".toList) ∧
      (subnodes e = [] ∨ IsOpenAt n clicks p → b.cls = attributeClass e) ∧
      (subnodes e = [] ∨ combIn e = none → b.comb = none) ∧
      (∀ c sym, combIn e = some c → SymbolOf c sym → b.comb = none ∨ b.comb = some sym.toList) ∧
      (p = [] ∨ p.length < n → p ∉ clicks → subnodes e ≠ [] → ∀ c sym, combIn e = some c → SymbolOf c sym → b.comb = some sym.toList) := by
  have hD := shows_display (firstTree_shows hf) s h
  have hB := firstTree_boxes hf hd hp s h
  obtain ⟨_, h2, h3, _⟩ := hD
  have hm : (p, e) ∈ htmNodes s.opened [] d := by
    rw [htmNodes_mem]
    exact ⟨p, rfl, hs.1, fun a b hab hb => (h2 a).2 (hs.2 a b hab hb)⟩
  have hkey : idIn e ∈ s.boxes.map HtmBox.key := by
    rw [h3]
    exact List.mem_map.2 ⟨(p, e), hm, rfl⟩
  obtain ⟨b, hb, hbk⟩ := List.mem_map.1 hkey
  obtain ⟨⟨p', e'⟩, hx, k1, ⟨k, hk, k2⟩, k3, k4, k5⟩ := hB b hb
  simp only at hx k1 k2 k3 k4 k5
  have : p' = p := hd _ _ _ _ hx hs.1 (by rw [← k1, hbk])
  subst this
  have := htmNodeAt_unique hx hs.1
  subst this
  have hname : e'.title = (nameIn e').toList := by cases e'; rfl
  have hcomb : e'.combination = combIn e' := by cases e'; rfl
  rw [hname] at k2
  rw [hcomb, kids_subnodes] at k4 k5
  have hsym : ∀ c sym, SymbolOf c sym → c ≠ "" ∧ combSymbol c = sym.toList := by
    rintro c sym (⟨rfl, rfl⟩ | ⟨rfl, rfl⟩ | ⟨rfl, rfl⟩) <;> exact ⟨by decide, by decide⟩
  have hcol : ∀ {v : Bool}, isCollapsed s.opened (p', e') = v → b.cls = attributeClass e' ++ (if v then " collapsed".toList else []) := by
    rintro _ rfl
    exact k3
  have hic : isCollapsed s.opened (p', e') = (!(subnodes e').isEmpty && !s.opened p') := by
    unfold isCollapsed
    rw [kids_subnodes]
  refine ⟨b, hb, hbk, ⟨k, hk, k2 ▸ cleanTimes_spec _ _⟩, ?_, ?_, ?_, ?_, ?_, ?_⟩
  · intro t ht hts
    have hc := cleanTimes_spec k (nameIn e').toList
    rw [← k2] at hc
    exact cleanedBy_once hc hk ht hts
  · intro hne hop
    have ho : s.opened p' = false := by
      rw [Bool.eq_false_iff]
      exact fun hh => hop ((h2 p').1 hh)
    have := hcol (v := true) (by rw [hic, ho]; simpa using hne)
    simpa using this
  · intro hor
    have := hcol (v := false) (by
      rw [hic]
      rcases hor with he | ho
      · rw [he]; rfl
      · rw [(h2 p').2 ho]; simp)
    simpa using this
  · intro hor
    rcases k4 with k4 | ⟨k6, c, k7, _⟩
    · exact k4
    · rcases hor with he | he
      · exact absurd he k6
      · rw [he] at k7; cases k7
  · intro c sym hc hs'
    rcases k4 with k4 | ⟨_, c', k7, _, k8⟩
    · exact .inl k4
    · rw [hc] at k7
      cases k7
      rw [(hsym c sym hs').2] at k8
      exact .inr k8
  · intro a1 a2 a3 c sym hc hs'
    rw [k5 a1 a2 a3 c hc (hsym c sym hs').1, (hsym c sym hs').2]

/-- **C111**, exported trees: the ids in what `as_dictionary` gives are different and its attributes are harmless. -/
theorem C111_exported {A : Type} (ops : ActOps A) (t : Htm A) (name : Option String) :
    ∃ d, (taskAsDictionary ops (some t) name).2 = some d ∧ DistinctIds d ∧ PlainAttributes d := by
  obtain ⟨d, h1, h2, _, h4⟩ := C13_asDictionary ops t name
  refine ⟨d, by rw [h1], distinctIds_of_nodup ?_, ?_⟩
  · rw [h4]
    exact nodup_map_on List.nodup_range fun x _ y _ hxy => Int.ofNat.inj hxy
  · intro p e he u v
    obtain ⟨t', ht'⟩ := mirrors_at he h2
    exact plain_of_attributes (mirrors_attributes ht') u v

/-- **C111** is false: when another tree is read, each element whose id was already displayed keeps the name and the symbol of the earlier tree, and its
class changes only by the mark of collapsed nodes. -/
theorem C111_false_reload {fs : List Char → Option HtmContent} {file : List Char} {depth : Nat} {evs : List HtmEvent} {ev : HtmEvent} {s s' : HtmPage}
    (h : htmSession fs file depth evs = .ok s) (hr : Reads ev) (h' : htmSession fs file depth (evs ++ [ev]) = .ok s')
    (hd : ∀ d n clicks, Shows fs file depth evs (some (d, n, clicks)) → DistinctIds d) {b b' : HtmBox} (hb : b ∈ s.boxes) (hb' : b' ∈ s'.boxes)
    (hk : b'.key = b.key) : b'.text = b.text ∧ b'.comb = b.comb ∧
      (b'.cls = b.cls ∨ b'.cls = b.cls ++ " collapsed".toList ∨ ReplacedFirst " collapsed".toList [] b.cls b'.cls) := by
  have hn : (s.boxes.map HtmBox.key).Nodup := by
    obtain ⟨x, hx, h1, h2⟩ := C111_nodes_partial h
    cases x with
    | none => rw [(h1 rfl).1]; simp
    | some y => obtain ⟨d, n, clicks⟩ := y; exact (h2 d n clicks rfl).2.2 (hd d n clicks hx)
  rw [session_next h] at h'
  rcases event_read (envOk_session _ _ h) hr h' with ⟨_, _, _, q, _⟩ | ⟨d, s0, _, rfl, q, _⟩
  · rw [q] at hb'
    have : b' = b := by
      clear hd h hr h' q
      revert hb' hb hn
      induction s.boxes with
      | nil => intro hb; simp at hb
      | cons a l ih =>
        intro hb hb' hn
        rw [List.map_cons, List.nodup_cons] at hn
        rcases List.mem_cons.1 hb with h1 | h1
        · rcases List.mem_cons.1 hb' with h2 | h2
          · rw [h1, h2]
          · exact absurd (List.mem_map.2 ⟨b', h2, hk.trans (by rw [h1])⟩) hn.1
        · rcases List.mem_cons.1 hb' with h2 | h2
          · exact absurd (List.mem_map.2 ⟨b, h1, hk.symm.trans (by rw [h2])⟩) hn.1
          · exact ih h1 h2 hn.2
    subst this
    exact ⟨rfl, rfl, .inl rfl⟩
  · obtain ⟨k1, k2, c, k3⟩ := update_keeps (s := { s0 with cleaned := [] }) (by show (s0.boxes.map _).Nodup; rw [q]; exact hn)
      (show b ∈ s0.boxes by rw [q]; exact hb) hb' hk
    refine ⟨k1, k2, ?_⟩
    rw [k3]
    unfold updClass
    cases c with
    | true =>
      simp only [if_true]
      split
      · exact .inl rfl
      · exact .inr (.inl rfl)
    | false =>
      simp only [Bool.false_eq_true, if_false]
      exact .inr (.inr (jsReplace_spec _ _ (by decide) _))

/-- **C111**, exceptions: when a tree must be read, a message without a tree and a file without a tree or whose root has no children give a `TypeError`, and
a missing file an error; a message whose root has no children is displayed. -/
theorem C111_fails {fs : List Char → Option HtmContent} {file : List Char} {depth : Nat} {evs : List HtmEvent} {ev : HtmEvent} {s : HtmPage}
    (h : htmSession fs file depth evs = .ok s) (hr : Reads ev) :
    (∀ l, (evs ++ [ev]).filterMap messageIn = l ++ [none] → htmSession fs file depth (evs ++ [ev]) = .error .typeError) ∧
    (∀ l d, (evs ++ [ev]).filterMap messageIn = l ++ [some d] → ∃ s', htmSession fs file depth (evs ++ [ev]) = .ok s') ∧
    ((evs ++ [ev]).filterMap messageIn = [] → ∀ real, RealFile (lastSet selectedFile file (evs ++ [ev])) real →
      (real = [] → ∃ s', htmSession fs file depth (evs ++ [ev]) = .ok s') ∧
      (real ≠ [] → (lastSet diskSet fs (evs ++ [ev]) real = none → htmSession fs file depth (evs ++ [ev]) = .error .osError) ∧
        (lastSet diskSet fs (evs ++ [ev]) real = some none → htmSession fs file depth (evs ++ [ev]) = .error .typeError) ∧
        ∀ d, lastSet diskSet fs (evs ++ [ev]) real = some (some d) →
          (subnodes d = [] → htmSession fs file depth (evs ++ [ev]) = .error .typeError) ∧
            (subnodes d ≠ [] → ∃ s', htmSession fs file depth (evs ++ [ev]) = .ok s'))) := by
  rw [session_next h]
  obtain ⟨s1, h1, h2⟩ := event_reads (envOk_session _ _ h) hr
  refine ⟨?_, ?_, ?_⟩
  · intro l hl
    rw [h1 l none hl]; rfl
  · intro l d hl
    rw [h1 l (some d) hl]; exact ⟨_, rfl⟩
  · intro hm real hreal
    obtain ⟨k1, k2⟩ := h2 hm real hreal
    refine ⟨fun he => ⟨_, k2 he⟩, ?_⟩
    intro hne
    rw [k1 hne]
    refine ⟨?_, ?_, ?_⟩
    · intro hc; rw [hc]; rfl
    · intro hc; rw [hc]; rfl
    · intro d hc
      rw [hc]
      unfold htmFromFile
      constructor
      · intro hs
        simp only [kids_subnodes, hs]
        rfl
      · intro hs
        simp only [kids_subnodes]
        rw [if_neg (by simpa using hs)]
        exact ⟨_, rfl⟩

/-- A tree with the ids 0, 1 and 2. -/
def pageTreeA : DNode := .mk "a" 0 none (some "Sequential") [] (some [.mk "b" 1 (some 0) none [] none, .mk "c" 2 (some 0) none [] none])
/-- Another tree with these ids. -/
def pageTreeB : DNode := .mk "d" 0 none (some "Parallel") ["highlighted"] (some [.mk "e" 1 (some 0) none ["highlighted"] none, .mk "f" 2 (some 0) none [] none])
/-- A tree of depth 2. -/
def pageTreeC : DNode := .mk "r" 0 none (some "Alternative") []
  (some [.mk "REQUEST-ACTIONREQUEST-ACTION" 1 (some 0) (some "Sequential") [] (some [.mk "y" 2 (some 1) none [] none])])

/-- The elements and the links after a session. -/
def pageOf (fs : List Char → Option HtmContent) (file : List Char) (depth : Nat) (evs : List HtmEvent) : Py (List HtmBox × List (Int × Int)) :=
  (htmSession fs file depth evs).map fun s => (s.boxes, s.links)

/-- An element. -/
def boxOf (key : Int) (text cls : String) (comb : Option String) : HtmBox := ⟨key, text.toList, cls.toList, comb.map String.toList⟩

/-- **C111** is false: a second message with other names, another combination and other attributes leaves the page as it was, on the page that subscribes to
the topic, and so does a file that has changed. -/
theorem C111_false_refresh :
    pageOf (fun _ => none) [] 1000 [.message (some pageTreeA), .message (some pageTreeB)] =
      .ok ([boxOf 0 "a" "node " (some "→"), boxOf 1 "b" "node " none, boxOf 2 "c" "node " none], [(0, 1), (0, 2)]) ∧
    pageOf (fun _ => some (some pageTreeA)) "t.json".toList 1000 [.disk (fun _ => some (some pageTreeB)), .refresh] =
      .ok ([boxOf 0 "a" "node " (some "→"), boxOf 1 "b" "node " none, boxOf 2 "c" "node " none], [(0, 1), (0, 2)]) ∧
    pageOf (fun _ => some (some pageTreeB)) "t.json".toList 1000 [] =
      .ok ([boxOf 0 "d" "node highlighted" (some "||"), boxOf 1 "e" "node highlighted" none, boxOf 2 "f" "node " none], [(0, 1), (0, 2)]) := by
  decide +kernel

/-- **C111** is false: the name that is displayed depends on the number of updates: it changes when the root is closed and opened again. -/
theorem C111_false_names :
    pageOf (fun _ => some (some pageTreeC)) "t.json".toList 1000 [] =
      .ok ([boxOf 0 "r" "node " (some "v"), boxOf 1 " REQUEST-ACTION" "node " (some "→"), boxOf 2 "y" "node " none], [(0, 1), (1, 2)]) ∧
    pageOf (fun _ => some (some pageTreeC)) "t.json".toList 1000 [.click [], .click []] =
      .ok ([boxOf 0 "r" "node " (some "v"), boxOf 1 "  " "node " (some "→"), boxOf 2 "y" "node " none], [(0, 1), (1, 2)]) := by
  decide +kernel

/-- **C111** is false: a node that is closed when it appears never gets its symbol, and a node that is closed keeps it. -/
theorem C111_false_combination :
    pageOf (fun _ => some (some pageTreeC)) "t.json".toList 1 [.click [0]] =
      .ok ([boxOf 0 "r" "node " (some "v"), boxOf 1 " REQUEST-ACTION" "node " none, boxOf 2 "y" "node " none], [(0, 1), (1, 2)]) ∧
    pageOf (fun _ => some (some pageTreeC)) "t.json".toList 1 [] =
      .ok ([boxOf 0 "r" "node " (some "v"), boxOf 1 " REQUEST-ACTION" "node  collapsed" none], [(0, 1)]) ∧
    pageOf (fun _ => some (some pageTreeC)) "t.json".toList 2 [.click [0]] =
      .ok ([boxOf 0 "r" "node " (some "v"), boxOf 1 " REQUEST-ACTION" "node  collapsed" (some "→")], [(0, 1)]) := by
  decide +kernel

/-- **C111** is false: once a message has arrived, the file that the user selects is not displayed, even if it is missing. -/
theorem C111_false_select {fs : List Char → Option HtmContent} {file : List Char} {depth : Nat} {evs : List HtmEvent} {s : HtmPage} {d : DNode}
    {l : List HtmContent} (h : htmSession fs file depth evs = .ok s) (hl : evs.filterMap messageIn = l ++ [some d]) (f : List Char) :
    ∃ s', htmSession fs file depth (evs ++ [.select f]) = .ok s' ∧ s'.root = some d := by
  have hl' : (evs ++ [HtmEvent.select f]).filterMap messageIn = l ++ [some d] := by
    rw [List.filterMap_append, hl]
    simp [messageIn]
  obtain ⟨_, h2, _⟩ := C111_fails h (ev := .select f) trivial
  obtain ⟨s', hs'⟩ := h2 l d hl'
  refine ⟨s', hs', ?_⟩
  obtain ⟨x, hx⟩ := shows_exists _ _ h
  exact (shows_display (.read hx (ev := .select f) trivial (.inl ⟨l, hl'⟩)) s' hs').1

/-- Non-vacuity of C111: a session with a message, clicks and a button. -/
example : pageOf (fun _ => none) [] 1000 [.click [], .message (some pageTreeC), .click [0], .collapse, .click []] =
    .ok ([boxOf 0 "r" "node  collapsed" (some "v")], []) := by
  decide +kernel

/-- Non-vacuity of C111_first_partial: its hypotheses hold for a tree that is read from a file, with a click. -/
example : FirstTree (fun _ => some (some pageTreeC)) "t.json".toList 1 ([] ++ [.click [0]]) pageTreeC 1 ([] ++ [[0]]) ∧ DistinctIds pageTreeC ∧
    PlainAttributes pageTreeC ∧ NodeShown pageTreeC 1 ([] ++ [[0]]) [0, 0] (.mk "y" 2 (some 1) none [] none) := by
  refine ⟨.click (.start (.inr ⟨rfl, "t.json".toList, ?_, by decide, rfl⟩)), distinctIds_of_nodup (by decide), ?_, ?_⟩
  · have := withoutFakePath_spec "t.json".toList
    have e : withoutFakePath "t.json".toList = "t.json".toList := by decide +kernel
    rw [e] at this
    exact this
  · intro p e he
    apply plain_of_attributes
    left
    match p, he with
    | [], he => cases he; rfl
    | 0 :: [], he => cases he with | cons h1 h2 => cases h1; cases h2; rfl
    | 0 :: 0 :: [], he => cases he with | cons h1 h2 => cases h1; cases h2 with | cons h1 h2 => cases h1; cases h2; rfl
    | 0 :: 0 :: _ :: _, he =>
      cases he with
      | cons h1 h2 => cases h1; cases h2 with | cons h1 h2 => cases h1; cases h2 with | cons h1 h2 => cases h1
    | 0 :: (_ + 1) :: _, he => cases he with | cons h1 h2 => cases h1; cases h2 with | cons h1 h2 => cases h1
    | (_ + 1) :: _, he => cases he with | cons h1 h2 => cases h1
  · refine ⟨.cons rfl (.cons rfl (.nil _)), ?_⟩
    intro q r hqr hr
    match q, hqr with
    | [], _ => unfold IsOpenAt; decide
    | [a], hqr =>
      have : a = 0 := by simp at hqr; exact hqr.1.symm
      subst this
      unfold IsOpenAt; decide
    | a :: b :: q, hqr =>
      simp at hqr
      exact absurd hqr.2.2.2 hr

end Verif
