import Verif.Spec.TrajPage
import Verif.Proof.PolicyPage
import Verif.Proof.SolverFile
import Verif.Proof.BringNext
import Verif.Proof.BeliefRunner

/-! Proofs about the page of trajectories (C109). -/

set_option linter.unusedSectionVars false
set_option linter.unusedSimpArgs false

namespace Verif
open Spec

theorem subAt_unique {t s s' : TTree} {p : List Nat} (h : SubAt t p s) (h' : SubAt t p s') : s = s' := by
  induction h with
  | nil t => cases h'; rfl
  | cons hk _ ih =>
    cases h' with
    | cons hk' hs' =>
      rw [hk] at hk'
      cases hk'
      exact ih hs'

theorem subAt_snoc {t s : TTree} {p : List Nat} {k : Nat} {u : TTree} (h : SubAt t p s) (hk : (kidsOf s)[k]? = some u) : SubAt t (p ++ [k]) u := by
  induction h with
  | nil t =>
    cases t
    exact .cons hk (.nil _)
  | cons hk' _ ih => exact .cons hk' (ih hk)

theorem subAt_append {t : TTree} {p q : List Nat} {u : TTree} (h : SubAt t (p ++ q) u) : ∃ s, SubAt t p s ∧ SubAt s q u := by
  induction p generalizing t with
  | nil => exact ⟨t, .nil _, h⟩
  | cons k p ih =>
    cases h with
    | cons hk hs =>
      obtain ⟨s, h1, h2⟩ := ih hs
      exact ⟨s, .cons hk h1, h2⟩

/-! ### The nodes -/

/-- The paths that are listed from a node at path `p`. -/
def Below (op : Opened) (p : List Nat) (t : TTree) (r : List Nat) (s : TTree) : Prop :=
  SubAt t r s ∧ ∀ a b, r = a ++ b → b ≠ [] → p ++ a ∈ op

theorem below_cons {op : Opened} {p : List Nat} {b : List ℚ} {a : Name} {c : Int} {os : List Name} {ks : List TTree} {k : Nat} {r : List Nat} {s : TTree} :
    Below op p (.node b a c os ks) (k :: r) s ↔ p ∈ op ∧ ∃ t, ks[k]? = some t ∧ Below op (p ++ [k]) t r s := by
  constructor
  · rintro ⟨h1, h2⟩
    cases h1 with
    | cons hk hs =>
      refine ⟨by simpa using h2 [] (k :: r) rfl (by simp), _, hk, hs, ?_⟩
      intro x y hxy hy
      have := h2 (k :: x) y (by rw [hxy]; rfl) hy
      rwa [List.append_assoc]
  · rintro ⟨hp, t, hk, hs, hop⟩
    refine ⟨.cons hk hs, ?_⟩
    intro x y hxy hy
    cases x with
    | nil => simpa using hp
    | cons z x =>
      rw [List.cons_append, List.cons.injEq] at hxy
      obtain ⟨rfl, hxy⟩ := hxy
      have := hop x y hxy hy
      rwa [List.append_assoc] at this

mutual
theorem treeNodes_mem (op : Opened) (p : List Nat) (t : TTree) (q : List Nat) (s : TTree) :
    (q, s) ∈ treeNodes op p t ↔ ∃ r, q = p ++ r ∧ Below op p t r s := by
  match t with
  | .node b a c os ks =>
    have ih := treeNodesList_mem op p 0 ks q s
    unfold treeNodes
    rw [List.mem_cons]
    constructor
    · rintro (h | h)
      · cases h
        exact ⟨[], by simp, .nil _, by intro x y hxy hy; simp at hxy; exact absurd hxy.2 hy⟩
      · split at h
        · rename_i hp
          obtain ⟨k, u, r, hk, rfl, hb⟩ := ih.1 h
          rw [Nat.zero_add] at hb ⊢
          exact ⟨k :: r, rfl, below_cons.2 ⟨hp, u, hk, hb⟩⟩
        · simp at h
    · rintro ⟨r, rfl, hb⟩
      cases r with
      | nil =>
        left
        have := subAt_unique hb.1 (.nil _)
        rw [this, List.append_nil]
      | cons k r =>
        right
        obtain ⟨hp, u, hk, hb⟩ := below_cons.1 hb
        rw [if_pos hp]
        exact ih.2 ⟨k, u, r, hk, by rw [Nat.zero_add], by rw [Nat.zero_add]; exact hb⟩
theorem treeNodesList_mem (op : Opened) (p : List Nat) (i : Nat) (ks : List TTree) (q : List Nat) (s : TTree) :
    (q, s) ∈ treeNodesList op p i ks ↔ ∃ k t r, ks[k]? = some t ∧ q = p ++ (i + k) :: r ∧ Below op (p ++ [i + k]) t r s := by
  match ks with
  | [] => simp [treeNodesList]
  | t :: ks =>
    have ih1 := treeNodes_mem op (p ++ [i]) t q s
    have ih2 := treeNodesList_mem op p (i + 1) ks q s
    unfold treeNodesList
    rw [List.mem_append, ih1, ih2]
    constructor
    · rintro (⟨r, rfl, hb⟩ | ⟨k, u, r, hk, rfl, hb⟩)
      · exact ⟨0, t, r, rfl, by simp, hb⟩
      · refine ⟨k + 1, u, r, hk, ?_, ?_⟩
        · rw [show i + (k + 1) = i + 1 + k by omega]
        · rw [show i + (k + 1) = i + 1 + k by omega]; exact hb
    · rintro ⟨k, u, r, hk, rfl, hb⟩
      cases k with
      | zero =>
        cases hk
        exact .inl ⟨r, by simp, hb⟩
      | succ k =>
        refine .inr ⟨k, u, r, hk, ?_, ?_⟩
        · rw [show i + (k + 1) = i + 1 + k by omega]
        · rw [show i + 1 + k = i + (k + 1) by omega]; exact hb
end

mutual
theorem treeNodes_nodup (op : Opened) (p : List Nat) (t : TTree) : ((treeNodes op p t).map Prod.fst).Nodup := by
  match t with
  | .node b a c os ks =>
    have ih := treeNodesList_nodup op p 0 ks
    unfold treeNodes
    rw [List.map_cons, List.nodup_cons]
    split
    · refine ⟨?_, ih⟩
      intro h
      obtain ⟨⟨q, s⟩, hm, hq⟩ := List.mem_map.1 h
      obtain ⟨k, t, r, _, rfl, _⟩ := (treeNodesList_mem op p 0 ks q s).1 hm
      simp at hq
    · simp
theorem treeNodesList_nodup (op : Opened) (p : List Nat) (i : Nat) (ks : List TTree) : ((treeNodesList op p i ks).map Prod.fst).Nodup := by
  match ks with
  | [] => simp [treeNodesList]
  | t :: ks =>
    have ih1 := treeNodes_nodup op (p ++ [i]) t
    have ih2 := treeNodesList_nodup op p (i + 1) ks
    unfold treeNodesList
    rw [List.map_append, List.nodup_append]
    refine ⟨ih1, ih2, ?_⟩
    intro x hx y hy hxy
    obtain ⟨⟨q, s⟩, hm, rfl⟩ := List.mem_map.1 hx
    obtain ⟨⟨q', s'⟩, hm', rfl⟩ := List.mem_map.1 hy
    obtain ⟨r, rfl, _⟩ := (treeNodes_mem op _ t q s).1 hm
    obtain ⟨k, u, r', _, rfl, _⟩ := (treeNodesList_mem op p (i + 1) ks q' s').1 hm'
    simp at hxy
    omega
end

/-! ### The links -/

theorem nodeLinks_get {op : Opened} {x : List Nat × TTree} {i : Nat} {l : TreeLink} (h : (nodeLinks op x)[i]? = some l) :
    l.child = i ∧ l.source = x.1 ∧ x.1 ∈ op ∧ l.obs = obsListOf x.2 ∧ i < (kidsOf x.2).length := by
  obtain ⟨p, t⟩ := x
  cases t with
  | node b a c os ks =>
    simp only [nodeLinks] at h
    split at h
    · rename_i hp
      rw [List.getElem?_map] at h
      cases hr : (List.range ks.length)[i]? with
      | none => rw [hr] at h; cases h
      | some k =>
        rw [hr] at h
        cases h
        have := List.getElem?_eq_some_iff.1 hr
        obtain ⟨h1, h2⟩ := this
        simp at h1 h2
        subst h2
        exact ⟨rfl, rfl, hp, rfl, h1⟩
    · simp at h

theorem nodeLinks_length (op : Opened) (x : List Nat × TTree) (h : x.1 ∈ op) : (nodeLinks op x).length = (kidsOf x.2).length := by
  obtain ⟨p, t⟩ := x
  cases t
  simp only [nodeLinks]
  rw [if_pos (by exact h)]
  simp [kidsOf]

theorem nodeLinks_mem {op : Opened} {x : List Nat × TTree} {l : TreeLink} :
    l ∈ nodeLinks op x ↔ l.source = x.1 ∧ x.1 ∈ op ∧ l.obs = obsListOf x.2 ∧ l.child < (kidsOf x.2).length := by
  obtain ⟨p, t⟩ := x
  obtain ⟨o, q, k⟩ := l
  cases t
  simp only [nodeLinks]
  split
  · rename_i hp
    simp only [List.mem_map, List.mem_range, TreeLink.mk.injEq, obsListOf, kidsOf]
    constructor
    · rintro ⟨a, h, rfl, rfl, rfl⟩; exact ⟨rfl, hp, rfl, h⟩
    · rintro ⟨rfl, _, rfl, h⟩; exact ⟨k, h, rfl, rfl, rfl⟩
  · rename_i hp
    simp [hp]

theorem treeLinks_get {op : Opened} {nodes : List (List Nat × TTree)} {i : Nat} {l : TreeLink} (h : (treeLinks op nodes)[i]? = some l) :
    l.child ≤ i ∧ ∃ t, (l.source, t) ∈ nodes ∧ l.source ∈ op ∧ l.obs = obsListOf t ∧ l.child < (kidsOf t).length := by
  induction nodes generalizing i with
  | nil => simp [treeLinks] at h
  | cons x nodes ih =>
    have h : (nodeLinks op x ++ treeLinks op nodes)[i]? = some l := h
    rw [List.getElem?_append] at h
    split at h
    · obtain ⟨h1, h2, h3, h4, h5⟩ := nodeLinks_get h
      exact ⟨by omega, x.2, by rw [h2]; simp, by rw [h2]; exact h3, h4, by omega⟩
    · obtain ⟨h1, t, h2, h3⟩ := ih h
      exact ⟨by omega, t, by simp [h2], h3⟩

/-- The position of a link: the number of the child for the root, and more for the others. -/
theorem treeLinks_index {op : Opened} {t : TTree} {i : Nat} {l : TreeLink} (h : (treeLinks op (treeNodes op [] t))[i]? = some l) :
    (l.source = [] → i = l.child) ∧ (l.source ≠ [] → l.child < i) ∧
      ∃ s, SubAt t l.source s ∧ l.obs = obsListOf s ∧ l.child < (kidsOf s).length := by
  have hsub : ∃ s, SubAt t l.source s ∧ l.obs = obsListOf s ∧ l.child < (kidsOf s).length := by
    obtain ⟨_, s, h2, _, h4, h5⟩ := treeLinks_get h
    obtain ⟨r, hr, hb⟩ := (treeNodes_mem op [] t _ _).1 h2
    rw [List.nil_append] at hr
    rw [hr]
    exact ⟨s, hb.1, h4, h5⟩
  cases t with
  | node b a c os ks =>
    unfold treeNodes at h
    by_cases hp : ([] : List Nat) ∈ op
    · rw [if_pos hp] at h
      have h : (nodeLinks op ([], .node b a c os ks) ++ treeLinks op (treeNodesList op [] 0 ks))[i]? = some l := h
      rw [List.getElem?_append] at h
      split at h
      · obtain ⟨h1, h2, _⟩ := nodeLinks_get h
        exact ⟨fun _ => h1.symm, fun hne => absurd h2 hne, hsub⟩
      · rename_i hi
        rw [nodeLinks_length op _ hp] at h hi
        obtain ⟨h1, s, h2, _⟩ := treeLinks_get h
        obtain ⟨k, u, r, hk, hsrc, _⟩ := (treeNodesList_mem op [] 0 ks _ _).1 h2
        refine ⟨fun he => ?_, fun _ => ?_, hsub⟩
        · rw [he] at hsrc; simp at hsrc
        · have : k < ks.length := (List.getElem?_eq_some_iff.1 hk).1
          simp only [kidsOf] at h1 hi
          omega
    · rw [if_neg hp] at h
      have h : (nodeLinks op ([], .node b a c os ks) ++ [])[i]? = some l := h
      rw [List.append_nil] at h
      obtain ⟨_, _, h3, _⟩ := nodeLinks_get h
      exact absurd h3 hp

/-- The key of a link. -/
def TreeLink.key (l : TreeLink) : List Nat := l.source ++ [l.child]

theorem treeLinks_key (op : Opened) (t : TTree) (q : List Nat) :
    q ∈ (treeLinks op (treeNodes op [] t)).map TreeLink.key ↔ q ≠ [] ∧ ∃ s, (q, s) ∈ treeNodes op [] t := by
  constructor
  · intro h
    obtain ⟨l, hl, rfl⟩ := List.mem_map.1 h
    refine ⟨by simp [TreeLink.key], ?_⟩
    obtain ⟨x, hx, hl⟩ := List.mem_flatMap.1 hl
    obtain ⟨p, s⟩ := x
    obtain ⟨h1, h2, h3, h4⟩ := nodeLinks_mem.1 hl
    obtain ⟨r, hr, hb⟩ := (treeNodes_mem op [] t _ _).1 hx
    rw [List.nil_append] at hr
    subst hr
    simp only at h1 h2 h3 h4
    refine ⟨(kidsOf s)[l.child], (treeNodes_mem op [] t _ _).2 ⟨_, rfl, ?_, ?_⟩⟩
    · show SubAt t (l.source ++ [l.child]) _
      rw [h1]
      exact subAt_snoc hb.1 (List.getElem?_eq_getElem h4)
    · intro a b hab hbne
      have hab : l.source ++ [l.child] = a ++ b := hab
      rw [h1] at hab
      obtain ⟨b', z, rfl⟩ : ∃ b' z, b = b' ++ [z] := ⟨b.dropLast, b.getLast hbne, (List.dropLast_append_getLast hbne).symm⟩
      rw [← List.append_assoc] at hab
      have := List.append_inj' hab rfl
      by_cases hb' : b' = []
      · subst hb'
        rw [List.append_nil] at this
        rw [← this.1]
        simpa using h2
      · exact hb.2 a b' this.1 hb'
  · rintro ⟨hne, s, hs⟩
    obtain ⟨r, hr, hb⟩ := (treeNodes_mem op [] t _ _).1 hs
    rw [List.nil_append] at hr
    subst hr
    obtain ⟨p, k, rfl⟩ : ∃ b' z, q = b' ++ [z] := ⟨q.dropLast, q.getLast hne, (List.dropLast_append_getLast hne).symm⟩
    obtain ⟨u, hu1, hu2⟩ := subAt_append hb.1
    have hp : p ∈ op := by simpa using hb.2 p [k] rfl (by simp)
    have hk : k < (kidsOf u).length := by
      cases hu2 with
      | cons hk _ => exact (List.getElem?_eq_some_iff.1 hk).1
    refine List.mem_map.2 ⟨⟨obsListOf u, p, k⟩, List.mem_flatMap.2 ⟨(p, u), (treeNodes_mem op [] t _ _).2 ⟨p, rfl, hu1, ?_⟩, ?_⟩, rfl⟩
    · intro a b hab hbne
      refine hb.2 a (b ++ [k]) (by rw [hab, List.append_assoc]) (by simp)
    · exact nodeLinks_mem.2 ⟨rfl, hp, rfl, hk⟩

theorem nodeLinks_keys (op : Opened) (x : List Nat × TTree) : ((nodeLinks op x).map TreeLink.key).Nodup := by
  obtain ⟨p, t⟩ := x
  cases t with
  | node b a c os ks =>
    simp only [nodeLinks]
    split
    · rw [List.map_map]
      refine List.nodup_range.map ?_
      intro i j h
      have h : p ++ [i] = p ++ [j] := h
      simpa using h
    · simp

theorem treeLinks_nodup (op : Opened) (nodes : List (List Nat × TTree)) (h : (nodes.map Prod.fst).Nodup) :
    ((treeLinks op nodes).map TreeLink.key).Nodup := by
  induction nodes with
  | nil => simp [treeLinks]
  | cons x nodes ih =>
    rw [List.map_cons, List.nodup_cons] at h
    show ((nodeLinks op x ++ treeLinks op nodes).map TreeLink.key).Nodup
    rw [List.map_append, List.nodup_append]
    refine ⟨nodeLinks_keys op x, ih h.2, ?_⟩
    intro a ha b hb hab
    obtain ⟨l, hl, rfl⟩ := List.mem_map.1 ha
    obtain ⟨l', hl', rfl⟩ := List.mem_map.1 hb
    obtain ⟨h1, _⟩ := nodeLinks_mem.1 hl
    obtain ⟨y, hy, hl'⟩ := List.mem_flatMap.1 hl'
    obtain ⟨h1', _⟩ := nodeLinks_mem.1 hl'
    unfold TreeLink.key at hab
    have := (List.append_inj' hab rfl).1
    refine h.1 (List.mem_map.2 ⟨y, hy, ?_⟩)
    rw [← h1', ← h1, this]

/-! ### The page -/

/-- The page shows the tree with the nodes `op` open; the links have the observation of some position: for the root, the right one, for the others,
one after the right one. -/
structure PageOk (t : TTree) (op : Opened) (page : TrajPage) : Prop where
  nodes : page.nodes.map Prod.fst = (treeNodes op [] t).map Prod.fst
  text : ∀ p x, (p, x) ∈ page.nodes → ∃ s, SubAt t p s ∧ trajText s = .ok x
  links : page.links.map Prod.fst = (treeLinks op (treeNodes op [] t)).map TreeLink.key
  attr : ∀ q a, (q, a) ∈ page.links → ∃ p k i s, q = p ++ [k] ∧ SubAt t p s ∧ k < (kidsOf s).length ∧ (p = [] → i = k) ∧ (p ≠ [] → k < i) ∧
    a = ⟨"link ".toList ++ obsText (obsListOf s) i, "arrowhead_".toList ++ obsText (obsListOf s) i⟩

theorem drawNodes_ok (t : TTree) (nodes : List (List Nat × TTree)) (hn : ∀ x ∈ nodes, SubAt t x.1 x.2 ∧ ∃ y, trajText x.2 = .ok y)
    (old : List (List Nat × List Char)) (hold : ∀ p x, (p, x) ∈ old → ∃ s, SubAt t p s ∧ trajText s = .ok x) :
    ∃ ns, drawNodes old nodes = .ok ns ∧ ns.map Prod.fst = nodes.map Prod.fst ∧ ∀ p x, (p, x) ∈ ns → ∃ s, SubAt t p s ∧ trajText s = .ok x := by
  induction nodes with
  | nil => exact ⟨[], rfl, rfl, by simp⟩
  | cons z nodes ih =>
    obtain ⟨ns, h1, h2, h3⟩ := ih (fun x hx => hn x (by simp [hx]))
    obtain ⟨hz, y, hy⟩ := hn z (by simp)
    unfold drawNodes at h1 ⊢
    rw [List.mapM_cons, h1]
    cases hd : dget old z.1 with
    | some x =>
      refine ⟨(z.1, x) :: ns, rfl, by simp [h2], ?_⟩
      intro p w hpw
      rcases List.mem_cons.1 hpw with h | h
      · cases h
        exact hold _ _ (dget_mem hd)
      · exact h3 p w h
    | none =>
      rw [hy]
      refine ⟨(z.1, y) :: ns, rfl, by simp [h2], ?_⟩
      intro p w hpw
      rcases List.mem_cons.1 hpw with h | h
      · cases h
        exact ⟨_, hz, hy⟩
      · exact h3 p w h

theorem drawLinks_keys (old : List (List Nat × LinkPath)) (links : List TreeLink) : (drawLinks old links).map Prod.fst = links.map TreeLink.key := by
  unfold drawLinks
  rw [List.map_map]
  have : ∀ x ∈ links.zipIdx, (Prod.fst ∘ fun x : TreeLink × Nat => drawLink old x.1 x.2) x = TreeLink.key x.1 := by
    intro x _
    simp only [Function.comp_apply, drawLink]
    split <;> rfl
  rw [List.map_congr_left this]
  have h2 : links.zipIdx.map (fun x => TreeLink.key x.1) = (links.zipIdx.map Prod.fst).map TreeLink.key := by rw [List.map_map]; rfl
  rw [h2, List.zipIdx_map_fst]

/-- One update. -/
theorem trajUpdate_ok (t : TTree) (ha : ∀ p s, SubAt t p s → ∃ a, TTree.actionOf s = .str a) (op old : Opened) (page : TrajPage)
    (h : (∃ op', PageOk t op' page) ∨ page = ⟨[], []⟩) : ∃ page', trajUpdate t op page = .ok page' ∧ PageOk t op page' := by
  have htext : ∀ p x, (p, x) ∈ page.nodes → ∃ s, SubAt t p s ∧ trajText s = .ok x := by
    rcases h with ⟨op', h⟩ | rfl
    · exact h.text
    · simp
  have hattr : ∀ q a, (q, a) ∈ page.links → ∃ p k i s, q = p ++ [k] ∧ SubAt t p s ∧ k < (kidsOf s).length ∧ (p = [] → i = k) ∧ (p ≠ [] → k < i) ∧
      a = ⟨"link ".toList ++ obsText (obsListOf s) i, "arrowhead_".toList ++ obsText (obsListOf s) i⟩ := by
    rcases h with ⟨op', h⟩ | rfl
    · exact h.attr
    · simp
  obtain ⟨ns, h1, h2, h3⟩ := drawNodes_ok t (treeNodes op [] t) (by
    rintro ⟨p, s⟩ hx
    obtain ⟨r, hr, hb⟩ := (treeNodes_mem op [] t p s).1 hx
    rw [List.nil_append] at hr
    subst hr
    refine ⟨hb.1, ?_⟩
    obtain ⟨a, hact⟩ := ha _ _ hb.1
    cases s
    simp only [TTree.actionOf] at hact
    subst hact
    exact ⟨_, rfl⟩) page.nodes htext
  refine ⟨⟨ns, drawLinks page.links (treeLinks op (treeNodes op [] t))⟩, ?_, ?_⟩
  · simp only [trajUpdate, h1]
    rfl
  · refine ⟨h2, h3, drawLinks_keys _ _, ?_⟩
    intro q a hq
    obtain ⟨⟨l, i⟩, hl, hx⟩ := List.mem_map.1 hq
    simp only [drawLink] at hx
    have hget : (treeLinks op (treeNodes op [] t))[i]? = some l := by
      rw [List.mem_zipIdx_iff_getElem?] at hl
      exact hl
    obtain ⟨k1, k2, s, k3, k4, k5⟩ := treeLinks_index hget
    cases hd : dget page.links (l.source ++ [l.child]) with
    | some a' =>
      rw [hd] at hx
      cases hx
      exact hattr _ _ (dget_mem hd)
    | none =>
      rw [hd] at hx
      cases hx
      exact ⟨l.source, l.child, i, s, rfl, k3, k5, k1, k2, by rw [k4]⟩

/-- What is true of the page during a session. -/
structure SessionOk (t : TTree) (clicks : List (List Nat)) (s : TrajState) : Prop where
  opened : ∀ p, p ∈ s.opened ↔ IsOpen clicks p
  page : PageOk t s.opened s.page

theorem isOpen_snoc (clicks : List (List Nat)) (p q : List Nat) : IsOpen (clicks ++ [p]) q ↔ if q = p then ¬ IsOpen clicks q else IsOpen clicks q := by
  unfold IsOpen
  rw [List.count_append, List.count_singleton]
  by_cases h : q = p
  · subst h
    simp only [beq_self_eq_true, if_true]
    split <;> omega
  · have : (p == q) = false := by simp; exact fun h' => h h'.symm
    simp [h, this]

theorem trajClick_ok (t : TTree) (ha : ∀ p s, SubAt t p s → ∃ a, TTree.actionOf s = .str a) (clicks : List (List Nat)) (s : TrajState) (hs : SessionOk t clicks s)
    (p : List Nat) : ∃ s', trajClick t s p = .ok s' ∧ SessionOk t (clicks ++ [p]) s' := by
  unfold trajClick
  obtain ⟨page, h1, h2⟩ := trajUpdate_ok t ha (if p ∈ s.opened then s.opened.filter (fun q => decide (q ≠ p)) else p :: s.opened) [] s.page
    (.inl ⟨_, hs.page⟩)
  simp only [h1]
  refine ⟨_, rfl, ⟨?_, h2⟩⟩
  intro q
  rw [isOpen_snoc]
  show q ∈ (if p ∈ s.opened then s.opened.filter (fun q => decide (q ≠ p)) else p :: s.opened) ↔ _
  have ho := hs.opened
  by_cases hp : p ∈ s.opened
  · rw [if_pos hp, List.mem_filter]
    by_cases hq : q = p
    · subst hq
      simp [(ho q).1 hp]
    · simp [hq, ho q]
  · rw [if_neg hp, List.mem_cons]
    by_cases hq : q = p
    · subst hq
      simp only [true_or, if_true, true_iff]
      exact fun h => hp ((ho q).2 h)
    · simp [hq, ho q]

theorem trajSession_ok (t : TTree) (ha : ∀ p s, SubAt t p s → ∃ a, TTree.actionOf s = .str a) (clicks : List (List Nat)) :
    ∃ s, trajSession t clicks = .ok s ∧ SessionOk t clicks s := by
  have key : ∀ (clicks before : List (List Nat)) (s : TrajState), SessionOk t before s →
      ∃ s', clicks.foldlM (trajClick t) s = .ok s' ∧ SessionOk t (before ++ clicks) s' := by
    intro clicks
    induction clicks with
    | nil => intro before s hs; exact ⟨s, rfl, by simpa using hs⟩
    | cons p clicks ih =>
      intro before s hs
      obtain ⟨s1, h1, h2⟩ := trajClick_ok t ha before s hs p
      obtain ⟨s2, h3, h4⟩ := ih _ s1 h2
      refine ⟨s2, ?_, by simpa using h4⟩
      rw [List.foldlM_cons, h1]
      exact h3
  obtain ⟨page, h1, h2⟩ := trajUpdate_ok t ha [[]] [] ⟨[], []⟩ (.inr rfl)
  have hload : trajLoad t = .ok ⟨[[]], page⟩ := by
    unfold trajLoad
    rw [h1]
    rfl
  obtain ⟨s, h3, h4⟩ := key clicks [] ⟨[[]], page⟩ ⟨by
    intro p
    unfold IsOpen
    by_cases hp : p = [] <;> simp [hp], h2⟩
  refine ⟨s, ?_, by simpa using h4⟩
  unfold trajSession
  rw [hload]
  exact h3

theorem obsText_ne {os : List Name} {i k : Nat} (hk : k < os.length) (hn : (os.map nameText).Nodup) (hu : "undefined".toList ∉ os.map nameText) (h : k < i) :
    obsText os i ≠ obsText os k := by
  unfold obsText
  rw [List.getElem?_eq_getElem hk]
  cases hi : os[i]? with
  | none =>
    intro he
    have he : "undefined".toList = nameText os[k] := he
    exact hu (by rw [he]; exact List.mem_map_of_mem (List.getElem_mem hk))
  | some o =>
    intro he
    have he : nameText o = nameText os[k] := he
    have e1 : (os.map nameText)[i]? = some (nameText o) := by rw [List.getElem?_map, hi]; rfl
    have e2 : (os.map nameText)[k]? = some (nameText o) := by rw [List.getElem?_map, List.getElem?_eq_getElem hk, he]; rfl
    have := nodup_index _ hn _ _ _ e1 e2
    omega

/-- The trees of `trajectory_tree`. -/
theorem filterMap_labels (L : List Name) (c : List (Option TTree)) (h : L.length = c.length) :
    ((L.zip c).filterMap fun x => x.2.map fun _ => x.1).length = (c.filterMap id).length ∧
    ((L.zip c).filterMap fun x => x.2.map fun _ => x.1).Sublist L := by
  induction L generalizing c with
  | nil =>
    cases c with
    | nil => simp
    | cons _ _ => simp at h
  | cons o L ih =>
    cases c with
    | nil => simp at h
    | cons x c =>
      obtain ⟨h1, h2⟩ := ih c (by simpa using h)
      cases x with
      | none => exact ⟨by simpa using h1, by simpa using h2.cons o⟩
      | some t => exact ⟨by simpa using h1, by simpa using h2⟩

theorem treeLoop_length (body : Name → BRunner → Py (Option TTree) × BRunner) (L : List Name) :
    ∀ (r : BRunner) (c : List (Option TTree)) (r' : BRunner), treeLoop body L r = (.ok c, r') → L.length = c.length ∧
      ∀ x ∈ c, ∃ o r1 r2, body o r1 = (.ok x, r2) := by
  induction L with
  | nil =>
    intro r c r' h
    cases h
    simp
  | cons o L ih =>
    intro r c r' h
    unfold treeLoop at h
    cases hb : body o r with
    | mk res r1 =>
      rw [hb] at h
      cases res with
      | error e => cases h
      | ok x =>
        simp only at h
        cases hl : treeLoop body L r1 with
        | mk res2 r2 =>
          rw [hl] at h
          cases res2 with
          | error e => cases h
          | ok ts =>
            cases h
            obtain ⟨h1, h2⟩ := ih r1 ts _ hl
            refine ⟨by simp [h1], ?_⟩
            intro y hy
            rcases List.mem_cons.1 hy with rfl | hy
            · exact ⟨o, r, r1, hb⟩
            · exact h2 y hy

theorem recTree_some {g : GraphPolicy} {p : Pomdp} {sub : BRunner → Py TTree × BRunner} {o : Name} {r r' : BRunner} {t : TTree}
    (h : recTree g p sub o r = (.ok (some t), r')) : ∃ r1 r2, sub r1 = (.ok t, r2) := by
  unfold recTree at h
  cases hs : bStep g p o r with
  | mk res r1 =>
    rw [hs] at h
    cases res with
    | error e => cases e <;> cases h
    | ok _ =>
      simp only at h
      cases hsub : sub r1 with
      | mk res2 r2 =>
        rw [hsub] at h
        cases res2 with
        | error e => cases e <;> cases h
        | ok t' =>
          unfold recRestore at h
          simp only at h
          cases hr : bReset g r.belief r2 with
          | mk res3 r3 =>
            rw [hr] at h
            cases res3 with
            | error e => cases e <;> cases h
            | ok _ =>
              cases h
              exact ⟨r1, r2, hsub⟩

theorem getAction_mem {g : GraphPolicy} {n : Int} {a : Name} (h : g.getAction n = .ok a) : a ∈ g.actions := by
  unfold GraphPolicy.getAction at h
  cases hi : pyIndex g.actions.length n with
  | error e => rw [hi] at h; cases h
  | ok i =>
    rw [hi] at h
    have h : listGet g.actions i = .ok a := h
    unfold listGet at h
    cases hg : g.actions[i]? with
    | none => rw [hg] at h; cases h
    | some x =>
      rw [hg] at h
      cases h
      exact List.mem_of_getElem? hg

/-- Each node of a tree has one observation of the model for each child, in the order of the model, and an action of the policy. -/
theorem trajectoryTree_labels (g : GraphPolicy) (m : Pomdp) (h : Nat) : ∀ (r r' : BRunner) (t : TTree), trajectoryTree g m h r = (.ok t, r') →
    ∀ p s, SubAt t p s → (obsListOf s).length = (kidsOf s).length ∧ (obsListOf s).Sublist m.observations ∧ TTree.actionOf s ∈ g.actions := by
  have root : ∀ (sub : List (Option TTree)) (r r' : BRunner) (t : TTree), treeResult g m (.ok sub, r) = (.ok t, r') → m.observations.length = sub.length →
      (obsListOf t).length = (kidsOf t).length ∧ (obsListOf t).Sublist m.observations ∧ TTree.actionOf t ∈ g.actions ∧
      kidsOf t = sub.filterMap id := by
    intro sub r r' t ht hl
    unfold treeResult at ht
    simp only at ht
    cases ha : g.getAction r.current with
    | error e => rw [ha] at ht; cases ht
    | ok a =>
      rw [ha] at ht
      cases ht
      obtain ⟨h1, h2⟩ := filterMap_labels m.observations sub hl
      refine ⟨h1, h2, ?_, rfl⟩
      show a ∈ g.actions
      exact getAction_mem ha
  induction h with
  | zero =>
    intro r r' t ht
    unfold trajectoryTree at ht
    cases hl : treeLoop (fun _ r => (.ok none, r)) m.observations r with
    | mk res r1 =>
      rw [hl] at ht
      cases res with
      | error e => cases ht
      | ok c =>
        obtain ⟨k1, k2⟩ := treeLoop_length _ _ _ _ _ hl
        obtain ⟨h1, h2, h3, h4⟩ := root c r1 r' t ht k1
        intro p s hs
        cases hs with
        | nil => exact ⟨h1, h2, h3⟩
        | cons hk _ =>
          have : kidsOf _ = _ := h4
          simp only [kidsOf] at h4
          have hm := List.mem_of_getElem? hk
          rw [h4] at hm
          obtain ⟨x, hx, hx2⟩ := List.mem_filterMap.1 hm
          obtain ⟨_, _, _, hb⟩ := k2 x hx
          cases hb
          cases hx2
  | succ h ih =>
    intro r r' t ht
    unfold trajectoryTree at ht
    cases hl : treeLoop (recTree g m (trajectoryTree g m h)) m.observations r with
    | mk res r1 =>
      rw [hl] at ht
      cases res with
      | error e => cases ht
      | ok c =>
        obtain ⟨k1, k2⟩ := treeLoop_length _ _ _ _ _ hl
        obtain ⟨h1, h2, h3, h4⟩ := root c r1 r' t ht k1
        intro p s hs
        cases hs with
        | nil => exact ⟨h1, h2, h3⟩
        | cons hk hs =>
          simp only [kidsOf] at h4
          have hm := List.mem_of_getElem? hk
          rw [h4] at hm
          obtain ⟨x, hx, hx2⟩ := List.mem_filterMap.1 hm
          obtain ⟨_, _, _, hb⟩ := k2 x hx
          have hx2 : x = _ := hx2
          subst hx2
          obtain ⟨r2, r3, hsub⟩ := recTree_some hb
          exact ih _ _ _ hsub _ _ hs

end Verif
