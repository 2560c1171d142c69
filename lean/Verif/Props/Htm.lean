import Verif.Proof.Htm

/-! Properties C13-C19 (task trees). -/

set_option linter.unusedSectionVars false
set_option linter.unusedSimpArgs false

namespace Verif
open Spec
variable {A : Type}

/-- **C13.**  `as_dictionary` gives the nodes the ids 0, 1, 2, ... in depth-first pre-order, every `parent` field is the
id of the enclosing node (`None` for the root), and the nested dictionaries have the shape, names, kinds and highlighted
attributes of the tree, with no `children` key on leaves. -/
theorem C13_asDictionary (ops : ActOps A) (t : Htm A) (name : Option String) :
    ∃ d, taskAsDictionary ops (some t) name = (name.getD "Hierarchical task tree", some d) ∧
      Mirrors ops t d ∧ ParentsOk none d ∧ dIds d = (List.range (nodes t).length).map Int.ofNat := by
  obtain ⟨h1, h2, h3, _⟩ := asDict_spec ops t none 0
  refine ⟨_, rfl, h1, h2, ?_⟩
  rw [h3]
  apply List.map_congr_left
  intro x _
  simp

/-- A tree with three levels used in the examples. -/
def exTree : Htm BaseAction :=
  .comb .sequential [.leaf ⟨"a", "human"⟩ (some 1) (some 0) false,
    .comb .alternative [.leaf ⟨"b", "robot"⟩ (some 3) (some 2) true, .leaf ⟨"c", "human"⟩ (some 4) (some 2) false]
      (some 2) (some 0) "choice" false (some [1/4, 3/4])] (some 0) none "root" false none

/-- Non-vacuity of C13. -/
example : dIds (exTree.asDict BaseAction.ops none 0).1 = [0, 1, 2, 3, 4] ∧ (nodes exTree).length = 5 := by
  constructor <;> rfl

theorem buildHtmL_error (ops : ActOps A) (cs : List (Htm A)) (p : Option Int)
    (h : ∀ c ∈ cs, ∀ (p : Option Int) g, (∃ d ∈ nodes c, d.kind = none ∨ d.highlighted = true) →
      buildHtm (c.asDict ops p g).1 = .error .keyError ∨ buildHtm (c.asDict ops p g).1 = .error .indexError)
    (h' : ∀ c ∈ cs, ∀ (p : Option Int) g, (∀ d ∈ nodes c, d.kind ≠ none ∧ d.highlighted = false) →
      ∃ t, buildHtm (c.asDict ops p g).1 = .ok t)
    (hex : ∃ c ∈ cs, ∃ d ∈ nodes c, d.kind = none ∨ d.highlighted = true) (g : Int) :
    buildHtmL (Htm.asDictL ops p cs g).1 = .error .keyError ∨
      buildHtmL (Htm.asDictL ops p cs g).1 = .error .indexError := by
  induction cs generalizing g with
  | nil => obtain ⟨c, hc, _⟩ := hex; simp at hc
  | cons c cs ih =>
    simp only [Htm.asDictL, buildHtmL, bind, Except.bind]
    by_cases hb : ∃ d ∈ nodes c, d.kind = none ∨ d.highlighted = true
    · rcases h c (by simp) p g hb with h1 | h1 <;> simp [h1]
    · have : ∀ d ∈ nodes c, d.kind ≠ none ∧ d.highlighted = false := by
        intro d hd
        have := fun hx => hb ⟨d, hd, hx⟩
        refine ⟨fun hk => this (Or.inl hk), ?_⟩
        by_contra hh
        exact this (Or.inr (by simpa using hh))
      obtain ⟨t, ht⟩ := h' c (by simp) p g this
      have hex' : ∃ c ∈ cs, ∃ d ∈ nodes c, d.kind = none ∨ d.highlighted = true := by
        obtain ⟨c', hc', hd⟩ := hex
        rcases List.mem_cons.1 hc' with rfl | hc'
        · exact absurd hd hb
        · exact ⟨c', hc', hd⟩
      rcases ih (fun c hc => h c (by simp [hc])) (fun c hc => h' c (by simp [hc])) hex' (Htm.asDict ops p c g).2 with
        h2 | h2 <;> simp [ht, h2]

theorem combinationClass_str (k : Kind) : combinationClass k.str = .ok k := by
  cases k <;> rfl

/-- Rebuilding a tree that has no leaf and nothing highlighted. -/
theorem buildHtm_noLeaf (ops : ActOps A) (t : Htm A) (hb : Built t) :
    ∀ (p : Option Int) (g : Int), (∀ d ∈ nodes t, d.kind ≠ none ∧ d.highlighted = false) →
      ∃ t', buildHtm (t.asDict ops p g).1 = .ok t' := by
  induction t using Htm.induct with
  | hleaf a i q hh =>
    intro p g h
    exact absurd rfl (h (.leaf a i q hh) (by simp [nodes])).1
  | hcomb k cs i q n hh pr ih =>
    intro p g h
    simp only [Built, builtL_iff] at hb
    have hh' : hh = false := (h (.comb k cs i q n hh pr) (by simp [nodes])).2
    have key : ∀ g, ∃ ts, buildHtmL (Htm.asDictL ops (some g) cs (g + 1)).1 = .ok ts ∧ ts.length = cs.length := by
      have : ∀ (cs' : List (Htm A)) (p : Option Int) (g : Int), (∀ c ∈ cs', c ∈ cs) →
          ∃ ts, buildHtmL (Htm.asDictL ops p cs' g).1 = .ok ts ∧ ts.length = cs'.length := by
        intro cs' p
        induction cs' with
        | nil => intro g _; exact ⟨[], rfl, rfl⟩
        | cons c cs' ihc =>
          intro g hsub
          have hc := hsub c (by simp)
          obtain ⟨t1, h1⟩ := ih c hc (hb.2 c hc) p g (fun d hd => h d (by
            simp only [nodes, nodesL_eq, List.mem_cons, List.mem_flatMap]
            exact Or.inr ⟨c, hc, hd⟩))
          obtain ⟨ts, h2, h3⟩ := ihc (Htm.asDict ops p c g).2 (fun c hc => hsub c (by simp [hc]))
          exact ⟨t1 :: ts, by simp [Htm.asDictL, buildHtmL, h1, h2, bind, Except.bind, pure, Except.pure], by simp [h3]⟩
      exact fun g => this cs (some g) (g + 1) (fun c hc => hc)
    obtain ⟨ts, h1, h2⟩ := key g
    have hm := mkComb_ok k ts (some g) p n false none
      (fun hk h0 => by
        subst h0
        simp at h2
        exact (hb.1 hk).1 (List.length_eq_zero_iff.1 h2.symm))
      (fun _ ps hps => by cases hps)
    refine ⟨.comb k ts (some g) p n false
      (if k = .alternative then some (List.replicate ts.length (1 / (ts.length : ℚ))) else none), ?_⟩
    simp only [Htm.asDict, buildHtm, hh', attrOf, Bool.false_eq_true, if_false, ne_eq, not_true_eq_false, h1,
      combinationOf, combinationClass_str, bind, Except.bind]
    exact hm

/-- **C14 is false of the code.**  For every tree that has a leaf or a highlighted node, reading back what `as_dictionary`
wrote raises (`KeyError: 'children'` or `IndexError`); and conversely reading back only works on trees without leaves. -/
theorem C14_false (ops : ActOps A) (t : Htm A) (hb : Built t) :
    ((∃ d ∈ nodes t, d.kind = none ∨ d.highlighted = true) →
      buildHtm (t.asDict ops none 0).1 = .error .keyError ∨ buildHtm (t.asDict ops none 0).1 = .error .indexError) ∧
    ((∃ t', buildHtm (t.asDict ops none 0).1 = .ok t') ↔ ∀ d ∈ nodes t, d.kind ≠ none ∧ d.highlighted = false) := by
  have key : ∀ (p : Option Int) (g : Int), (∃ d ∈ nodes t, d.kind = none ∨ d.highlighted = true) →
      buildHtm (t.asDict ops p g).1 = .error .keyError ∨ buildHtm (t.asDict ops p g).1 = .error .indexError := by
    induction t using Htm.induct with
    | hleaf a i q hh =>
      intro p g _
      cases hh with
      | false => left; simp [Htm.asDict, attrOf, buildHtm, buildLeaf]
      | true => right; simp [Htm.asDict, attrOf, buildHtm, buildLeaf]
    | hcomb k cs i q n hh pr ih =>
      intro p g hex
      simp only [Built, builtL_iff] at hb
      cases hh with
      | true => right; simp [Htm.asDict, attrOf, buildHtm, buildLeaf]
      | false =>
        have hex' : ∃ c ∈ cs, ∃ d ∈ nodes c, d.kind = none ∨ d.highlighted = true := by
          obtain ⟨d, hd, hd'⟩ := hex
          simp only [nodes, nodesL_eq, List.mem_cons, List.mem_flatMap] at hd
          rcases hd with rfl | ⟨c, hc, hd⟩
          · simp [Htm.kind, Htm.highlighted] at hd'
          · exact ⟨c, hc, d, hd, hd'⟩
        rcases buildHtmL_error ops cs (some g) (fun c hc => ih c hc (hb.2 c hc))
          (fun c hc => buildHtm_noLeaf ops c (hb.2 c hc)) hex' (g + 1) with h | h
        · left; simp [Htm.asDict, attrOf, buildHtm, h, bind, Except.bind]
        · right; simp [Htm.asDict, attrOf, buildHtm, h, bind, Except.bind]
  refine ⟨key none 0, ?_, fun h => buildHtm_noLeaf ops t hb none 0 h⟩
  rintro ⟨t', ht'⟩ d hd
  by_contra hn
  have : d.kind = none ∨ d.highlighted = true := by
    by_cases hk : d.kind = none
    · exact Or.inl hk
    · right
      by_contra hh
      exact hn ⟨hk, by simpa using hh⟩
  rcases key none 0 ⟨d, hd, this⟩ with h | h <;> rw [h] at ht' <;> cases ht'

/-- **C14 (partial).**  On every well-formed description in which leaves carry an agent attribute, `build_htm` returns the
tree that is described.  (Missing: the round trip of `as_dictionary`, which is false, `C14_false`.) -/
theorem C14_describes_partial (d : DNode) (h : Described d) : ∃ t, buildHtm d = .ok t ∧ Describes d t := by
  induction d using DNode.induct with
  | h n i p c a ch ih =>
    have h' : (∃ x ∈ a, x ≠ "highlighted") ∨ (a = [] ∧ ∃ cs, ch = some cs ∧ DescribedL cs ∧
        (c = some "Sequential" ∨ c = some "Parallel" ∨ (c = some "Alternative" ∧ cs ≠ []))) := by
      cases ch with
      | none => rw [Described] at h; exact Or.inl h
      | some cs =>
        rw [Described] at h
        rcases h with h | ⟨h1, h2, h3⟩
        · exact Or.inl h
        · exact Or.inr ⟨h1, cs, rfl, h2, h3⟩
    rcases h' with ⟨x, hx, hxh⟩ | ⟨rfl, cs, rfl, hcs, hk⟩
    · have hane : a ≠ [] := by rintro rfl; simp at hx
      have hfil : x ∈ a.filter (fun a => decide (a ≠ "highlighted")) := by simp [hx, hxh]
      rcases hf : a.filter (fun a => decide (a ≠ "highlighted")) with _ | ⟨y, ys⟩
      · rw [hf] at hfil; simp at hfil
      · refine ⟨.leaf ⟨n, y⟩ (some i) p false, ?_, ?_⟩
        · cases ch <;> simp only [buildHtm, hane, ne_eq, not_false_eq_true, if_true, buildLeaf] <;>
            simp only [ne_eq] at hf <;> rw [hf]
        · have hfind : a.find? (fun x => decide (x ≠ "highlighted")) = some y := by
            rw [← List.head?_filter, hf]
            rfl
          cases ch <;> simp only [Describes, true_and] <;> exact hfind
    · rw [describedL_iff] at hcs
      have key : ∃ ts, buildHtmL cs = .ok ts ∧ DescribesL cs ts ∧ ts.length = cs.length := by
        have ih' := ih cs rfl
        clear ih hk h
        induction cs with
        | nil => exact ⟨[], rfl, by simp [DescribesL], rfl⟩
        | cons c cs ihc =>
          obtain ⟨t, h1, h2⟩ := ih' c (by simp) (hcs c (by simp))
          obtain ⟨ts, h3, h4, h5⟩ := ihc (fun c hc => hcs c (by simp [hc])) (fun d hd => ih' d (by simp [hd]))
          exact ⟨t :: ts, by simp [buildHtmL, h1, h3, bind, Except.bind, pure, Except.pure],
            by simp [DescribesL, h2, h4], by simp [h5]⟩
      obtain ⟨ts, h1, h2, h3⟩ := key
      have hcomb : ∃ k : Kind, c = some k.str ∧ (k = .alternative → ts ≠ []) := by
        rcases hk with rfl | rfl | ⟨rfl, hne⟩
        · exact ⟨.sequential, rfl, by simp⟩
        · exact ⟨.parallel, rfl, by simp⟩
        · refine ⟨.alternative, rfl, fun _ h0 => ?_⟩
          subst h0
          simp at h3
          exact hne (List.length_eq_zero_iff.1 h3.symm)
      obtain ⟨k, rfl, hne⟩ := hcomb
      have hm := mkComb_ok k ts (some i) p n false none hne (fun _ ps hps => by cases hps)
      refine ⟨.comb k ts (some i) p n false
          (if k = .alternative then some (List.replicate ts.length (1 / (ts.length : ℚ))) else none), ?_, ?_⟩
      · simp only [buildHtm, ne_eq, not_true_eq_false, if_false, h1, combinationOf, combinationClass_str, bind, Except.bind]
        exact hm
      · simp only [Describes, true_and]
        exact h2

/-- Non-vacuity of C14: a description with a sequence of two leaves. -/
example : Described (.mk "root" 0 none (some "Sequential") [] (some
    [.mk "a" 1 (some 0) none ["human"] none, .mk "b" 2 (some 0) none ["highlighted", "robot"] none])) := by
  simp [Described, DescribedL]

/-- **C15 (parent).**  `find_parent_node(root, i)` returns a node of the tree one of whose children has index `i`; it
returns `None` iff no proper descendant of the root has index `i`; and when the indices of the descendants are distinct
it is the only node with a child of index `i`. -/
theorem C15_findParent (t : Htm A) (i : Option Int) :
    (∀ p, t.findParent i = some p → p ∈ nodes t ∧ ∃ c ∈ p.children, c.idx = i) ∧
    (t.findParent i = none ↔ ∀ d ∈ below t, d.idx ≠ i) ∧
    (((below t).map Htm.idx).Nodup → ∀ p q c, t.findParent i = some p → q ∈ nodes t → c ∈ q.children → c.idx = i →
      q = p) := by
  have hmem : ∀ p, t.findParent i = some p → ∃ c, (p, c) ∈ pairs t ∧ c.idx = i := by
    intro p hp
    rw [findParent_spec, Option.map_eq_some_iff] at hp
    obtain ⟨⟨p', c⟩, hf, rfl⟩ := hp
    exact ⟨c, List.mem_of_find?_eq_some hf, by have := List.find?_some hf; exact (of_decide_eq_true this).symm⟩
  refine ⟨?_, ?_, ?_⟩
  · intro p hp
    obtain ⟨c, hc, hi⟩ := hmem p hp
    rw [mem_pairs] at hc
    exact ⟨hc.1, c, hc.2, hi⟩
  · rw [findParent_spec, Option.map_eq_none_iff, List.find?_eq_none]
    rw [← pairs_snd]
    simp only [List.mem_map]
    constructor
    · rintro h d ⟨pc, hpc, rfl⟩ hd
      exact h pc hpc (by simp [hd])
    · intro h pc hpc
      simpa using fun e => h pc.2 ⟨pc, hpc, rfl⟩ e.symm
  · intro hnd p q c hp hq hc hi
    obtain ⟨c', hc', hi'⟩ := hmem p hp
    have hqc : (q, c) ∈ pairs t := (mem_pairs t q c).2 ⟨hq, hc⟩
    rw [← pairs_snd, List.map_map] at hnd
    have := List.inj_on_of_nodup_map hnd hqc hc' (by simp [hi, hi'])
    exact congrArg Prod.fst this

/-- **C15 (next human action).**  When all descendants have an index, `find_next_human_action(root, i)` returns the first
node in pre-order that is a human leaf with an index larger than `i`, and `None` iff there is none. -/
theorem C15_findNextHuman (ops : ActOps A) (t : Htm A) (cur : Int) (h : ∀ d ∈ below t, d.idx ≠ none) :
    (∃ r, t.findNextHuman ops cur = .ok r) ∧
    (t.findNextHuman ops cur = .ok none ↔ ∀ d ∈ below t, humanAfter ops cur d = false) ∧
    (∀ x, t.findNextHuman ops cur = .ok (some x) ↔
      ∃ before after, below t = before ++ x :: after ∧ humanAfter ops cur x = true ∧
        ∀ d ∈ before, humanAfter ops cur d = false) := by
  rw [findNextHuman_spec ops cur t h]
  refine ⟨⟨_, rfl⟩, ?_, ?_⟩
  · rw [Except.ok.injEq, List.find?_eq_none]
    simp
  · intro x
    rw [Except.ok.injEq, List.find?_eq_some_iff_append]
    constructor
    · rintro ⟨h1, as, bs, h2, h3⟩
      exact ⟨as, bs, h2, h1, fun d hd => by simpa using h3 d hd⟩
    · rintro ⟨as, bs, h2, h1, h3⟩
      exact ⟨h1, as, bs, h2, fun d hd => by simpa using h3 d hd⟩

/-- **C15 (corollary).**  When indices increase in pre-order, the result is the human leaf of smallest index above `i`. -/
theorem C15_smallest (ops : ActOps A) (t : Htm A) (cur : Int) (h : ∀ d ∈ below t, d.idx ≠ none)
    (hinc : (below t).Pairwise (fun a b => ∀ i j, a.idx = some i → b.idx = some j → i < j)) (x : Htm A)
    (hx : t.findNextHuman ops cur = .ok (some x)) :
    ∀ y ∈ below t, humanAfter ops cur y = true → ∀ i j, x.idx = some i → y.idx = some j → i ≤ j := by
  obtain ⟨before, after, h1, h2, h3⟩ := ((C15_findNextHuman ops t cur h).2.2 x).1 hx
  intro y hy hyh i j hi hj
  rw [h1] at hy hinc
  rcases List.mem_append.1 hy with hy | hy
  · rw [h3 y hy] at hyh
    cases hyh
  · rcases List.mem_cons.1 hy with rfl | hy
    · rw [hi] at hj
      cases hj
      exact le_refl _
    · have := (List.pairwise_cons.1 (List.pairwise_append.1 hinc).2.1).1 y hy i j hi hj
      omega

/-- Non-vacuity of C15. -/
example : (∀ d ∈ below exTree, d.idx ≠ none) ∧ ((below exTree).map Htm.idx).Nodup ∧
    (exTree.findParent (some 4)).map (Htm.name BaseAction.ops) = some "choice" ∧
    (exTree.findNextHuman BaseAction.ops 1).toOption.join.map (Htm.name BaseAction.ops) = some "c" := by
  refine ⟨?_, by decide, rfl, rfl⟩
  simp [exTree, below, Htm.children, nodesL, nodes, Htm.idx]

/-- **C16.**  `find_node_by_name(root, q)` returns the first proper descendant in pre-order whose lower-cased name
contains `q` as a substring, and `None` iff there is none. -/
theorem C16_findByName (ops : ActOps A) (lower : String → String) (q : String) (t : Htm A) :
    (t.findByName ops lower q = none ↔ ∀ d ∈ below t, ¬ q.toList <:+: (lower (d.name ops)).toList) ∧
    (∀ x, t.findByName ops lower q = some x ↔
      ∃ before after, below t = before ++ x :: after ∧ q.toList <:+: (lower (x.name ops)).toList ∧
        ∀ d ∈ before, ¬ q.toList <:+: (lower (d.name ops)).toList) := by
  rw [findByName_spec]
  refine ⟨?_, ?_⟩
  · rw [List.find?_eq_none]
    simp [pyIn_iff]
  · intro x
    rw [List.find?_eq_some_iff_append]
    simp only [pyIn_iff]
    constructor
    · rintro ⟨h1, as, bs, h2, h3⟩
      exact ⟨as, bs, h2, h1, fun d hd => by have := h3 d hd; rw [← pyIn_iff] at *; simpa using this⟩
    · rintro ⟨as, bs, h2, h1, h3⟩
      exact ⟨h1, as, bs, h2, fun d hd => by have := h3 d hd; rw [← pyIn_iff] at *; simpa using this⟩

/-- **C16 (corollary).**  `str.lower` never returns an upper-case ASCII letter, so a query with one never matches. -/
theorem C16_upper (ops : ActOps A) (lower : String → String) (q : String) (t : Htm A)
    (hlower : ∀ s, ∀ c ∈ (lower s).toList, ¬ ('A' ≤ c ∧ c ≤ 'Z')) (hq : ∃ c ∈ q.toList, 'A' ≤ c ∧ c ≤ 'Z') :
    t.findByName ops lower q = none := by
  rw [(C16_findByName ops lower q t).1]
  intro d _ hin
  obtain ⟨c, hc, hc'⟩ := hq
  exact hlower _ c (hin.subset hc) hc'

/-- Non-vacuity of C16. -/
example : (exTree.findByName BaseAction.ops (fun s => s) "oic").map (Htm.name BaseAction.ops) = some "choice" ∧
    exTree.findByName BaseAction.ops (fun s => s) "root" = none := by
  constructor
  · rfl
  · rfl

/-- **C18 (partial).**  For every tree whose leaf actions can be copied, `deep_copy(fmt)` returns a tree with the same
shape, kinds, highlighted flags and child order, each name replaced by `fmt` of it, in which alternatives have the uniform
distribution and the other nodes the probabilities of the original.  (Missing: keeping the probabilities of alternatives,
which is false, `C18_false_proba`.) -/
theorem C18_deepCopy_partial (ops : ActOps A) (fmt : String → String) (t : Htm A) (hb : Built t)
    (hc : ∀ a ∈ leaves t, ∃ a', ops.copy fmt a = .ok a' ∧ ops.name a' = fmt (ops.name a)) :
    ∃ t', t.deepCopy ops fmt = .ok t' ∧ CopyOf ops fmt t t' :=
  let ⟨t', h1, h2, _⟩ := deepCopy_spec ops fmt t hb hc
  ⟨t', h1, h2⟩

/-- `AbstractAction` objects, `task.py:217-231`: the copy has the new name (and the default agent). -/
def abstractOps : ActOps String where
  name := fun n => n
  agent := fun _ => "None"
  copy := fun f n => .ok (f n)

/-- **C18 is false of the code, probabilities.**  Copying an alternative with probabilities 1/4 and 3/4 gives 1/2 and
1/2. -/
theorem C18_false_proba :
    let t : Htm String := .comb .alternative [.leaf "a" none none false, .leaf "b" none none false] none none "alt"
      false (some [1/4, 3/4])
    Built t ∧ setProba 2 (some [1/4, 3/4]) = .ok [1/4, 3/4] ∧
    t.deepCopy abstractOps (fun n => n) = .ok (.comb .alternative
      [.leaf "a" none none false, .leaf "b" none none false] none none "alt" false (some [1/2, 1/2])) := by
  have hd : IsDistrib [1/4, 3/4] := by
    refine ⟨by simp, ?_, ?_⟩
    · intro p hp
      simp only [List.mem_cons, List.not_mem_nil, or_false] at hp
      rcases hp with rfl | rfl <;> norm_num
    · norm_num
  refine ⟨?_, setProba_some _ _ hd, ?_⟩
  · simp only [Built, builtL_iff]
    refine ⟨fun _ => ⟨by simp, _, rfl, hd⟩, ?_⟩
    intro c hc
    simp only [List.mem_cons, List.not_mem_nil, or_false] at hc
    rcases hc with rfl | rfl <;> simp [Built]
  · simp only [Htm.deepCopy, Htm.deepCopyL, abstractOps, bind, Except.bind, pure, Except.pure]
    rw [mkComb_ok _ _ _ _ _ _ _ (by simp) (by intro _ ps hps; cases hps; exact hd)]
    simp [List.replicate]

/-- **C17.**  `to_alternative` of a parallel node with `n` children returns an alternative, with the name of the node, of
`n!` sequences.  There is a list of orders of the positions, without repetition and containing every order, such that the
`i`-th sequence consists of copies of the children in the `i`-th order, every name suffixed by `' order-i'`. -/
theorem C17_toAlternative (ops : ActOps A) (cs : List (Htm A)) (name : String) (hl : Bool)
    (hb : ∀ c ∈ cs, Built c) (hc : ∀ i, ∀ a ∈ leavesL cs,
      ∃ a', ops.copy (orderFmt i) a = .ok a' ∧ ops.name a' = orderFmt i (ops.name a)) :
    ∃ (os : List (List Nat)) (seqs : List (Htm A)),
      os.Nodup ∧ (∀ o, o ∈ os ↔ o.Perm (List.range cs.length)) ∧ seqs.length = cs.length.factorial ∧
      toAlternative ops cs name hl = .ok (.comb .alternative seqs none none name hl
        (some (List.replicate seqs.length (1 / (seqs.length : ℚ))))) ∧
      List.Forall₂ (fun (oi : List Nat × Nat) s => ∃ picked copies,
        picked.map some = oi.1.map (fun k => cs[k]?) ∧ CopyOfL ops (orderFmt oi.2) picked copies ∧
        s = .comb .sequential copies none none (orderFmt oi.2 name) false none) os.zipIdx seqs := by
  obtain ⟨seqs, h1, h2, h3⟩ := toAlternative_spec ops cs name hl hb hc
  refine ⟨orders cs.length, seqs, nodup_orders _, mem_orders _, h1, h2, h3.imp ?_⟩
  rintro oi s ⟨picked, copies, h4, h5, _, h6⟩
  exact ⟨picked, copies, h4, h5, h6⟩

/-- **C17 (names).**  If the leaf names below the parallel node are distinct, so are all the leaf names of the result. -/
theorem C17_distinct (ops : ActOps A) (cs : List (Htm A)) (name : String) (hl : Bool)
    (hb : ∀ c ∈ cs, Built c) (hc : ∀ i, ∀ a ∈ leavesL cs,
      ∃ a', ops.copy (orderFmt i) a = .ok a' ∧ ops.name a' = orderFmt i (ops.name a))
    (hd : ((leavesL cs).map ops.name).Nodup) :
    ∃ t, toAlternative ops cs name hl = .ok t ∧ ((leaves t).map ops.name).Nodup := by
  obtain ⟨os, seqs, _, hmem, _, hok, hf⟩ := C17_toAlternative ops cs name hl hb hc
  refine ⟨_, hok, ?_⟩
  have hseq : ∀ (i : Nat) (hi : i < seqs.length), ∃ names : List String, names.Nodup ∧
      (leaves seqs[i]).map ops.name = names.map (orderFmt i) := by
    intro i hi
    rw [List.forall₂_iff_get] at hf
    have hi' : i < os.zipIdx.length := by rw [hf.1]; exact hi
    obtain ⟨picked, copies, h1, h2, h3⟩ := hf.2 i hi' hi
    simp only [List.get_eq_getElem, List.getElem_zipIdx, Nat.zero_add] at h1 h2 h3
    refine ⟨(leavesL picked).map ops.name, ?_, ?_⟩
    · have hperm : picked.Perm cs := by
        have ho := (hmem _).1 (List.getElem_mem (l := os) (n := i) (by simpa using hi'))
        have h4 := ho.map (fun k => cs[k]?)
        rw [← h1] at h4
        have h5 : (List.range cs.length).map (fun k => cs[k]?) = cs.map some := by
          apply List.ext_getElem
          · simp
          · intro j h1 h2
            simp at h1 h2 ⊢
        rw [h5] at h4
        have h6 := h4.filterMap id
        simpa [List.filterMap_map, Function.comp_def] using h6
      rw [leavesL_eq] at hd ⊢
      exact (((hperm.flatMap_right _).map _).nodup_iff).2 hd
    · rw [h3]
      simp only [leaves]
      rw [copyOfL_iff] at h2
      clear h1 h3 hok hi hi' hf
      induction h2 with
      | nil => simp [leavesL]
      | cons hcd hf ih => simp [leavesL, leafNames_copy ops _ _ _ hcd, ih]
  simp only [leaves, leavesL_eq]
  rw [List.map_flatMap, List.nodup_flatMap]
  refine ⟨?_, ?_⟩
  · intro s hs
    obtain ⟨i, hi, rfl⟩ := List.getElem_of_mem hs
    obtain ⟨names, h1, h2⟩ := hseq i hi
    rw [h2]
    exact h1.map (fun a b hab => (orderFmt_inj hab).2)
  · rw [List.pairwise_iff_getElem]
    intro i j hi hj hij x hx1 hx2
    obtain ⟨n1, _, h2⟩ := hseq i hi
    obtain ⟨n2, _, h4⟩ := hseq j hj
    simp only [h2, h4, List.mem_map] at hx1 hx2
    obtain ⟨a, _, rfl⟩ := hx1
    obtain ⟨b, _, hb⟩ := hx2
    have := (orderFmt_inj hb).1
    omega

/-- Non-vacuity of C17: two leaves. -/
example : (∀ i, ∀ a ∈ leavesL [Htm.leaf "a" none none false, .leaf "b" none none false],
      ∃ a', abstractOps.copy (orderFmt i) a = .ok a' ∧ abstractOps.name a' = orderFmt i (abstractOps.name a)) ∧
    permutations [0, 1, 2] = [[0, 1, 2], [0, 2, 1], [1, 0, 2], [1, 2, 0], [2, 0, 1], [2, 1, 0]] := by
  refine ⟨fun i a _ => ⟨_, rfl, rfl⟩, by decide⟩

/-- The value of `proba` after the constructor and a sequence of assignments whose exceptions are caught. -/
def probaAfter (n : Nat) (start : List ℚ) (assignments : List (Option (List ℚ))) : List ℚ :=
  assignments.foldl (fun cur a => caught (setProba n a) cur) start

/-- **C19 (partial).**  For an alternative with at least one child, whatever is given to the constructor it either raises
`ValueError` or succeeds, and after any sequence of assignments the probabilities are a distribution (up to the tolerance
of `np.isclose`).  An assignment is accepted iff it is `None` or a distribution, otherwise it raises `ValueError`; the
value in force is that of the last accepted assignment.  (Missing: probabilities given to the constructor and the length,
which are false, `C19_false_constructor`, `C19_false_length`.) -/
theorem C19_proba_partial (cs : List (Htm A)) (hne : cs ≠ []) (pr : Option (List ℚ)) (name : String) :
    (mkComb .alternative cs none none name false pr = .error .valueError ∨
      mkComb .alternative cs none none name false pr = .ok (.comb .alternative cs none none name false
        (some (List.replicate cs.length (1 / (cs.length : ℚ)))))) ∧
    (∀ as, IsDistrib (probaAfter cs.length (List.replicate cs.length (1 / (cs.length : ℚ))) as)) ∧
    (∀ ps, (IsDistrib ps → setProba cs.length (some ps) = .ok ps) ∧
      (¬ IsDistrib ps → setProba cs.length (some ps) = .error .valueError)) ∧
    (∀ as ps, IsDistrib ps → probaAfter cs.length (List.replicate cs.length (1 / (cs.length : ℚ))) (as ++ [some ps]) = ps) ∧
    (∀ as ps, ¬ IsDistrib ps → probaAfter cs.length (List.replicate cs.length (1 / (cs.length : ℚ))) (as ++ [some ps]) =
      probaAfter cs.length (List.replicate cs.length (1 / (cs.length : ℚ))) as) := by
  have hl : cs.length ≠ 0 := by simpa using hne
  refine ⟨?_, ?_, ?_, ?_, ?_⟩
  · by_cases h : ∀ ps, pr = some ps → IsDistrib ps
    · right
      rw [mkComb_ok _ _ _ _ _ _ _ (fun _ => hne) (fun _ => h)]
      simp
    · left
      simp only [not_forall] at h
      obtain ⟨ps, rfl, h⟩ := h
      simp [mkComb, setProba_some_error _ ps h, bind, Except.bind]
  · intro as
    suffices ∀ start, IsDistrib start → IsDistrib (probaAfter cs.length start as) from this _ (uniform_distrib _ hl)
    induction as with
    | nil => intro start h; exact h
    | cons a as ih =>
      intro start h
      simp only [probaAfter, List.foldl_cons]
      apply ih
      cases a with
      | none => rw [setProba_none _ hl]; exact uniform_distrib _ hl
      | some ps =>
        by_cases hps : IsDistrib ps
        · rw [setProba_some _ _ hps]; exact hps
        · rw [setProba_some_error _ _ hps]; exact h
  · exact fun ps => ⟨setProba_some _ ps, setProba_some_error _ ps⟩
  · intro as ps hps
    simp [probaAfter, List.foldl_append, setProba_some _ _ hps, caught]
  · intro as ps hps
    simp [probaAfter, List.foldl_append, setProba_some_error _ _ hps, caught]

/-- **C19 is false of the code, constructor.**  Valid probabilities given to the constructor are accepted and ignored. -/
theorem C19_false_constructor :
    mkComb .alternative [Htm.leaf "a" none none false, .leaf "b" none none false] none none "alt" false
        (some [1/4, 3/4]) =
      .ok (.comb .alternative [.leaf "a" none none false, .leaf "b" none none false] none none "alt" false
        (some [1/2, 1/2])) := by
  rw [mkComb_ok _ _ _ _ _ _ _ (by simp) (by
    intro _ ps hps
    cases hps
    refine ⟨by simp, ?_, ?_⟩
    · intro p hp
      simp only [List.mem_cons, List.not_mem_nil, or_false] at hp
      rcases hp with rfl | rfl <;> norm_num
    · norm_num)]
  simp [List.replicate]

/-- **C19 is false of the code, length.**  A single probability is accepted by an alternative with two children. -/
theorem C19_false_length : setProba 2 (some [1]) = .ok [1] :=
  setProba_some 2 [1] ⟨by simp, by simp, by norm_num⟩

/-- An alternative without children cannot be constructed: `ZeroDivisionError`. -/
theorem C19_noChildren (name : String) (h : Bool) :
    mkComb (A := A) .alternative [] none none name h none = .error .zeroDivisionError := by
  simp [mkComb, setProba, bind, Except.bind]

end Verif
