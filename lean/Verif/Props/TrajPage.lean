import Verif.Proof.TrajPage
import Verif.Props.GraphPolicy

/-! # C109: the page of trajectories -/

set_option linter.unusedSectionVars false
set_option linter.unusedSimpArgs false

namespace Verif
open Spec

theorem displayed_iff (t : TTree) (clicks : List (List Nat)) (s : TrajState) (hs : SessionOk t clicks s) (p : List Nat) (u : TTree) :
    (p, u) ∈ treeNodes s.opened [] t ↔ Displayed t clicks p u := by
  rw [treeNodes_mem]
  constructor
  · rintro ⟨r, hr, hb⟩
    rw [List.nil_append] at hr
    subst hr
    exact ⟨hb.1, fun q r h hr => (hs.opened q).1 (by simpa using hb.2 q r h hr)⟩
  · rintro ⟨h1, h2⟩
    exact ⟨p, rfl, h1, fun q r h hr => (hs.opened q).2 (h2 q r h hr)⟩

/-- Whatever the user clicks, the page displays exactly the nodes all of whose ancestors are open, each once, with the number of the node of the policy and
the action, and one link to each of them but the root. -/
theorem C109_nodes_partial (t : TTree) (ha : ∀ p s, SubAt t p s → ∃ a, TTree.actionOf s = .str a) (clicks : List (List Nat)) :
    ∃ s, trajSession t clicks = .ok s ∧
      (s.page.nodes.map Prod.fst).Nodup ∧ (∀ p, p ∈ s.page.nodes.map Prod.fst ↔ ∃ u, Displayed t clicks p u) ∧
      (∀ p x, (p, x) ∈ s.page.nodes → ∃ u, Displayed t clicks p u ∧ NodeText u x) ∧
      (s.page.links.map Prod.fst).Nodup ∧ (∀ p, p ∈ s.page.links.map Prod.fst ↔ p ≠ [] ∧ ∃ u, Displayed t clicks p u) := by
  obtain ⟨s, h1, h2⟩ := trajSession_ok t ha clicks
  have hd := displayed_iff t clicks s h2
  have hm : ∀ p, p ∈ s.page.nodes.map Prod.fst ↔ ∃ u, Displayed t clicks p u := by
    intro p
    rw [h2.page.nodes]
    constructor
    · intro h
      obtain ⟨⟨q, u⟩, hm, rfl⟩ := List.mem_map.1 h
      exact ⟨u, (hd q u).1 hm⟩
    · rintro ⟨u, hu⟩
      exact List.mem_map.2 ⟨(p, u), (hd p u).2 hu, rfl⟩
  refine ⟨s, h1, ?_, hm, ?_, ?_, ?_⟩
  · rw [h2.page.nodes]; exact treeNodes_nodup _ _ _
  · intro p x hx
    obtain ⟨u, hu⟩ := (hm p).1 (List.mem_map.2 ⟨_, hx, rfl⟩)
    obtain ⟨u', hu1, hu2⟩ := h2.page.text p x hx
    have := subAt_unique hu.1 hu1
    subst this
    refine ⟨u, hu, ?_⟩
    cases u with
    | node b a c os ks =>
      cases a with
      | int n => cases hu2
      | str a =>
        cases hu2
        exact ⟨a, _, rfl, pageAction_spec _, by simp [TTree.nodeOf]⟩
  · rw [h2.page.links]; exact treeLinks_nodup _ _ (treeNodes_nodup _ _ _)
  · intro p
    rw [h2.page.links, treeLinks_key]
    constructor
    · rintro ⟨h, u, hu⟩; exact ⟨h, u, (hd p u).1 hu⟩
    · rintro ⟨h, u, hu⟩; exact ⟨h, u, (hd p u).2 hu⟩

/-- Whatever the user clicks, the links from the root have the class and the arrow of the observation that leads to their target. -/
theorem C109_root_partial (t : TTree) (hw : WellLabelled t) (clicks : List (List Nat)) :
    ∃ s, trajSession t clicks = .ok s ∧ ∀ k a, ([k], a) ∈ s.page.links → ∃ o, (obsListOf t)[k]? = some o ∧
      a = ⟨"link ".toList ++ nameText o, "arrowhead_".toList ++ nameText o⟩ := by
  obtain ⟨s, h1, h2⟩ := trajSession_ok t (fun p u h => (hw p u h).2.2.2) clicks
  refine ⟨s, h1, ?_⟩
  intro k a hk
  obtain ⟨p, k', i, u, hq, hu, hlt, hroot, _, rfl⟩ := h2.page.attr _ _ hk
  have hp : p = [] := by
    have := congrArg List.length hq
    simp at this
    exact this
  subst hp
  cases hq
  have := subAt_unique hu (.nil _)
  subst this
  have hl := (hw [] u (.nil _)).1
  have e : (obsListOf u)[k]? = some ((obsListOf u)[k]'(by omega)) := List.getElem?_eq_getElem _
  refine ⟨_, e, ?_⟩
  rw [hroot rfl]
  unfold obsText
  rw [e]

/-- Whatever the user clicks, no other link has the class or the arrow of the observation that leads to its target: the position in the list of all the links
is taken for the number of the child. -/
theorem C109_false_labels (t : TTree) (hw : WellLabelled t) (clicks : List (List Nat)) :
    ∃ s, trajSession t clicks = .ok s ∧ ∀ p k a, p ≠ [] → (p ++ [k], a) ∈ s.page.links → ∃ u o, SubAt t p u ∧ (obsListOf u)[k]? = some o ∧
      a.cls ≠ "link ".toList ++ nameText o ∧ a.marker ≠ "arrowhead_".toList ++ nameText o := by
  obtain ⟨s, h1, h2⟩ := trajSession_ok t (fun p u h => (hw p u h).2.2.2) clicks
  refine ⟨s, h1, ?_⟩
  intro p k a hp hk
  obtain ⟨p', k', i, u, hq, hu, hlt, _, hdeep, rfl⟩ := h2.page.attr _ _ hk
  obtain ⟨e1, e2⟩ := List.append_inj' hq rfl
  subst e1
  cases e2
  obtain ⟨w1, w2, w3, _⟩ := hw p u hu
  have hlt' : k < (obsListOf u).length := by omega
  have hne := obsText_ne hlt' w2 w3 (hdeep hp)
  have e : (obsListOf u)[k]? = some ((obsListOf u)[k]) := List.getElem?_eq_getElem _
  have eo : obsText (obsListOf u) k = nameText (obsListOf u)[k] := by unfold obsText; rw [e]
  refine ⟨u, _, hu, e, ?_, ?_⟩
  · rw [← eo]; exact fun h => hne (List.append_cancel_left h)
  · rw [← eo]; exact fun h => hne (List.append_cancel_left h)

/-- The trees that `trajectory_tree` computes are of this kind, if the actions of the policy are strings and the observations of the model have different
texts, none of which is "undefined". -/
theorem C109_trees (g : GraphPolicy) (m : Pomdp) (h : Nat) (r r' : BRunner) (t : TTree) (ht : trajectoryTree g m h r = (.ok t, r'))
    (ha : ∀ a ∈ g.actions, ∃ s, a = .str s) (ho : (m.observations.map nameText).Nodup) (hu : "undefined".toList ∉ m.observations.map nameText) :
    WellLabelled t := by
  intro p s hs
  obtain ⟨h1, h2, h3⟩ := trajectoryTree_labels g m h r r' t ht p s hs
  refine ⟨h1, (h2.map _).nodup ho, fun hm => hu ((h2.map _).mem hm), ha _ h3⟩

/-- A number is not a text: the page does not load a tree whose root, or a child of whose root, has a number as its action. -/
theorem C109_fails (t : TTree) (k : List Nat) (u : TTree) (hk : k.length ≤ 1) (hu : SubAt t k u) (n : Nat) (ha : TTree.actionOf u = .int n) :
    trajLoad t = .error .typeError := by
  have hm : (k, u) ∈ treeNodes [[]] [] t := by
    refine (treeNodes_mem [[]] [] t k u).2 ⟨k, rfl, hu, ?_⟩
    intro a b hab hb
    have hl : a.length + b.length ≤ 1 := by rw [hab, List.length_append] at hk; exact hk
    have : 0 < b.length := List.length_pos_iff.2 hb
    have : a = [] := List.length_eq_zero_iff.1 (by omega)
    simp [this]
  have : drawNodes [] (treeNodes [[]] [] t) = .error .typeError := by
    refine mapM_error_of _ _ _ ?_ ⟨(k, u), hm, ?_⟩
    · rintro ⟨p, s⟩ _
      cases s with
      | node b a c os ks =>
        cases a with
        | int m => exact .inr rfl
        | str s => exact .inl ⟨_, rfl⟩
    · cases u
      simp only [TTree.actionOf] at ha
      subst ha
      rfl
  simp only [trajLoad, trajUpdate, this]
  rfl

/-! A tree of two levels, with the observations "none" and "yes" at both. -/

/-- A leaf. -/
def leafTree (n : Int) : TTree := .node [1] (.str "wait") n [] []
/-- The example. -/
def twoLevels : TTree :=
  .node [1] (.str "com-ask") 0 [.str "none", .str "yes"]
    [.node [1] (.str "com-ask") 1 [.str "none", .str "yes"] [leafTree 2, leafTree 3], leafTree 4]

theorem leafTree_sub {n : Int} {p : List Nat} {s : TTree} (h : SubAt (leafTree n) p s) : p = [] ∧ s = leafTree n := by
  unfold leafTree at h
  cases h with
  | nil => exact ⟨rfl, rfl⟩
  | cons hk _ => simp at hk

theorem leafTree_labelled (n : Int) : WellLabelled (leafTree n) := by
  intro p s h
  obtain ⟨_, rfl⟩ := leafTree_sub h
  exact ⟨rfl, by simp [leafTree, obsListOf], by simp [leafTree, obsListOf], "wait", rfl⟩

theorem twoLevels_labelled : WellLabelled twoLevels := by
  have hn : (([.str "none", .str "yes"] : List Name).map nameText).Nodup := by decide
  have hu : "undefined".toList ∉ ([.str "none", .str "yes"] : List Name).map nameText := by decide
  intro p s h
  unfold twoLevels at h
  cases h with
  | nil => exact ⟨rfl, hn, hu, _, rfl⟩
  | @cons _ _ _ _ _ k t _ _ hk hs =>
    match k, hk with
    | 0, hk =>
      cases hk
      cases hs with
      | nil => exact ⟨rfl, hn, hu, _, rfl⟩
      | @cons _ _ _ _ _ k t _ _ hk hs =>
        match k, hk with
        | 0, hk => cases hk; exact leafTree_labelled 2 _ _ hs
        | 1, hk => cases hk; exact leafTree_labelled 3 _ _ hs
    | 1, hk => cases hk; exact leafTree_labelled 4 _ _ hs

/-- In the example, after a click on the first child of the root there are four links; the last two have the class "link undefined". -/
example : ∃ s, trajSession twoLevels [[0]] = .ok s ∧ s.page.links.map (fun x => (x.1, String.ofList x.2.cls)) =
    [([0], "link none"), ([1], "link yes"), ([0, 0], "link undefined"), ([0, 1], "link undefined")] :=
  ⟨_, rfl, by decide +kernel⟩
/-- Its nodes. -/
example : ∃ s, trajSession twoLevels [[0]] = .ok s ∧ s.page.nodes.map (fun x => (x.1, String.ofList x.2)) =
    [([], "[0] C ask"), ([0], "[1] C ask"), ([0, 0], "[2] wait"), ([0, 1], "[3] wait"), ([1], "[4] wait")] :=
  ⟨_, rfl, by decide +kernel⟩
/-- A number as the action of the root. -/
example : SubAt (.node [1] (.int 0) 0 [] []) [] (.node [1] (.int 0) 0 [] []) ∧ TTree.actionOf (.node [1] (.int 0) 0 [] []) = .int 0 := ⟨.nil _, rfl⟩
/-- The tiger has string actions and observations with different texts. -/
example : (∀ a ∈ tigerPolicy.actions, ∃ s, a = .str s) ∧ (tiger.observations.map nameText).Nodup ∧
    "undefined".toList ∉ tiger.observations.map nameText := by
  refine ⟨?_, by decide +kernel, by decide +kernel⟩
  intro a ha
  cases a with
  | str s => exact ⟨s, rfl⟩
  | int n => exact absurd ha (by have : ∀ x ∈ tigerPolicy.actions, (match x with | .int _ => false | .str _ => true) = true := by decide +kernel
                                 intro h; exact absurd (this _ h) (by simp))

end Verif
