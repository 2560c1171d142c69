import Verif.Spec.Pomcp
import Verif.Proof.Py
import Mathlib.Tactic.Linarith

/-! Views of a search tree after each elementary change. -/

set_option linter.unusedSectionVars false
set_option linter.unusedSimpArgs false

namespace Verif
open Spec
variable {σ β η : Type}

theorem sum_map_set {α : Type} (g : α → Nat) (l : List α) : ∀ (a : Nat) (x y : α), l[a]? = some x →
    ((l.set a y).map g).sum + g x = (l.map g).sum + g y := by
  induction l with
  | nil => intro a x y h; simp at h
  | cons z l ih =>
      intro a x y h
      cases a with
      | zero =>
          simp only [List.getElem?_cons_zero, Option.some.injEq] at h
          subst h
          simp only [List.set_cons_zero, List.map_cons, List.sum_cons]
          omega
      | succ a =>
          simp only [List.getElem?_cons_succ] at h
          have := ih a x y h
          simp only [List.set_cons_succ, List.map_cons, List.sum_cons]
          omega

theorem modify_eq_set {α : Type} (f : α → α) (l : List α) : ∀ (a : Nat) (x : α), l[a]? = some x →
    l.modify a f = l.set a (f x) := by
  induction l with
  | nil => intro a x h; simp at h
  | cons z l ih =>
      intro a x h
      cases a with
      | zero =>
          simp only [List.getElem?_cons_zero, Option.some.injEq] at h
          subst h
          simp
      | succ a =>
          simp only [List.getElem?_cons_succ] at h
          simp [ih a x h]

namespace Tree

theorem upd_same (t : Tree β) (i : Nat) (f : ONode β → ONode β) : (t.upd i f).nodes i = f (t.nodes i) := by simp [upd]

theorem upd_other (t : Tree β) {i j : Nat} (f : ONode β → ONode β) (h : j ≠ i) : (t.upd i f).nodes j = t.nodes j := by
  simp [upd, h]

theorem upd_size (t : Tree β) (i : Nat) (f : ONode β → ONode β) : (t.upd i f).size = t.size := rfl
theorem upd_lookup (t : Tree β) (i : Nat) (f : ONode β → ONode β) : (t.upd i f).lookup = t.lookup := rfl

/-- The tree after `safe_get_child` has created the action node. -/
def ensure (t : Tree β) (i a : Nat) : Tree β := t.upd i fun nd => { nd with children := nd.children.set a (some ⟨.new, []⟩) }

/-- The tree after `node.update`. -/
def bump (t : Tree β) (alpha : ℚ) (i : Nat) (x : ℚ) : Tree β := t.upd i fun nd => { nd with avg := nd.avg.update alpha x }

/-- The tree after `child.update`. -/
def bumpA (t : Tree β) (alpha : ℚ) (i a : Nat) (x : ℚ) : Tree β :=
  t.upd i fun nd => nd.updAction a fun c => { c with avg := c.avg.update alpha x }

/-- The tree after `children[o] = node`. -/
def link (t : Tree β) (i a o j : Nat) : Tree β :=
  t.upd i fun nd => nd.updAction a fun c => { c with children := dset c.children o j }

/-- The tree grows: nodes, beliefs, action nodes and links remain, counts do not decrease. -/
structure Grows (t t' : Tree β) : Prop where
  size : t.size ≤ t'.size
  belief : ∀ i, i < t.size → (t'.nodes i).belief = (t.nodes i).belief
  anode : ∀ i a, i < t.size → t.anode i a ≠ none → t'.anode i a ≠ none
  next : ∀ i a o j, i < t.size → t.next i a o = some j → t'.next i a o = some j
  visits : ∀ i, i < t.size → nodeVisits t i ≤ nodeVisits t' i
  avisits : ∀ i a, i < t.size → actionVisits t i a ≤ actionVisits t' i a

theorem Grows.refl (t : Tree β) : Grows t t :=
  ⟨le_rfl, fun _ _ => rfl, fun _ _ _ h => h, fun _ _ _ _ _ h => h, fun _ _ => le_rfl, fun _ _ _ => le_rfl⟩

theorem Grows.trans {t1 t2 t3 : Tree β} (h : Grows t1 t2) (h' : Grows t2 t3) : Grows t1 t3 where
  size := le_trans h.size h'.size
  belief i hi := by rw [h'.belief i (lt_of_lt_of_le hi h.size), h.belief i hi]
  anode i a hi ha := h'.anode i a (lt_of_lt_of_le hi h.size) (h.anode i a hi ha)
  next i a o j hi ho := h'.next i a o j (lt_of_lt_of_le hi h.size) (h.next i a o j hi ho)
  visits i hi := le_trans (h.visits i hi) (h'.visits i (lt_of_lt_of_le hi h.size))
  avisits i a hi := le_trans (h.avisits i a hi) (h'.avisits i a (lt_of_lt_of_le hi h.size))

/-! ### `ensure` -/

section ensure
variable {t : Tree β} {i a : Nat} (h : (t.nodes i).children[a]? = some none)
include h

theorem ensure_anode (j b : Nat) : (t.ensure i a).anode j b = if j = i ∧ b = a then some ⟨.new, []⟩ else t.anode j b := by
  have hl := (List.getElem?_eq_some_iff.1 h).1
  unfold anode ensure
  by_cases hj : j = i
  · subst hj
    rw [upd_same]
    by_cases hb : b = a
    · subst hb; simp [hl]
    · rw [List.getElem?_set_ne (fun e => hb e.symm)]; simp [hb]
  · rw [upd_other _ _ hj]; simp [hj]

theorem ensure_next (j b o : Nat) : (t.ensure i a).next j b o = t.next j b o := by
  unfold next
  rw [ensure_anode h]
  split
  · rename_i hj
    obtain ⟨rfl, rfl⟩ := hj
    simp [anode, h, dget]
  · rfl

theorem ensure_actionVisits (j b : Nat) : actionVisits (t.ensure i a) j b = actionVisits t j b := by
  unfold actionVisits
  rw [ensure_anode h]
  split
  · rename_i hj
    obtain ⟨rfl, rfl⟩ := hj
    simp [anode, h, visitsOf, Avg.new]
  · rfl

theorem ensure_actionSum (j : Nat) : actionSum (t.ensure i a) j = actionSum t j := by
  unfold actionSum ensure
  by_cases hj : j = i
  · subst hj
    rw [upd_same]
    have := sum_map_set visitsOf _ a none (some ⟨.new, []⟩) h
    simpa [visitsOf, Avg.new] using this
  · rw [upd_other _ _ hj]

end ensure

theorem ensure_nodeVisits (t : Tree β) (i a j : Nat) : nodeVisits (t.ensure i a) j = nodeVisits t j := by
  unfold nodeVisits ensure
  by_cases hj : j = i
  · subst hj; rw [upd_same]
  · rw [upd_other _ _ hj]

theorem ensure_avg (t : Tree β) (i a j : Nat) : ((t.ensure i a).nodes j).avg = (t.nodes j).avg := by
  unfold ensure
  by_cases hj : j = i
  · subst hj; rw [upd_same]
  · rw [upd_other _ _ hj]

theorem ensure_belief (t : Tree β) (i a j : Nat) : ((t.ensure i a).nodes j).belief = (t.nodes j).belief := by
  unfold ensure
  by_cases hj : j = i
  · subst hj; rw [upd_same]
  · rw [upd_other _ _ hj]

theorem ensure_length (t : Tree β) (i a j : Nat) :
    ((t.ensure i a).nodes j).children.length = (t.nodes j).children.length := by
  unfold ensure
  by_cases hj : j = i
  · subst hj; rw [upd_same]; simp
  · rw [upd_other _ _ hj]

theorem ensure_grows {t : Tree β} {i a : Nat} (h : (t.nodes i).children[a]? = some none) : Grows t (t.ensure i a) where
  size := le_rfl
  belief j _ := ensure_belief t i a j
  anode j b _ hb := by rw [ensure_anode h]; split <;> simp_all
  next j b o k _ hk := by rw [ensure_next h, hk]
  visits j _ := by rw [ensure_nodeVisits]
  avisits j b _ := by rw [ensure_actionVisits h]

/-! ### `bump` -/

theorem bump_avg (t : Tree β) (alpha : ℚ) (i : Nat) (x : ℚ) (j : Nat) :
    ((t.bump alpha i x).nodes j).avg = if j = i then (t.nodes j).avg.update alpha x else (t.nodes j).avg := by
  unfold bump
  by_cases hj : j = i
  · subst hj; rw [upd_same]; simp
  · rw [upd_other _ _ hj]; simp [hj]

theorem bump_nodeVisits (t : Tree β) (alpha : ℚ) (i : Nat) (x : ℚ) (j : Nat) :
    nodeVisits (t.bump alpha i x) j = nodeVisits t j + if j = i then 1 else 0 := by
  unfold nodeVisits
  rw [bump_avg]
  split <;> simp [Avg.update]

theorem bump_children (t : Tree β) (alpha : ℚ) (i : Nat) (x : ℚ) (j : Nat) :
    ((t.bump alpha i x).nodes j).children = (t.nodes j).children := by
  unfold bump
  by_cases hj : j = i
  · subst hj; rw [upd_same]
  · rw [upd_other _ _ hj]

theorem bump_belief (t : Tree β) (alpha : ℚ) (i : Nat) (x : ℚ) (j : Nat) :
    ((t.bump alpha i x).nodes j).belief = (t.nodes j).belief := by
  unfold bump
  by_cases hj : j = i
  · subst hj; rw [upd_same]
  · rw [upd_other _ _ hj]

theorem bump_anode (t : Tree β) (alpha : ℚ) (i : Nat) (x : ℚ) (j b : Nat) : (t.bump alpha i x).anode j b = t.anode j b := by
  unfold anode; rw [bump_children]

theorem bump_next (t : Tree β) (alpha : ℚ) (i : Nat) (x : ℚ) (j b o : Nat) :
    (t.bump alpha i x).next j b o = t.next j b o := by unfold next; rw [bump_anode]

theorem bump_actionVisits (t : Tree β) (alpha : ℚ) (i : Nat) (x : ℚ) (j b : Nat) :
    actionVisits (t.bump alpha i x) j b = actionVisits t j b := by unfold actionVisits; rw [bump_anode]

theorem bump_actionSum (t : Tree β) (alpha : ℚ) (i : Nat) (x : ℚ) (j : Nat) :
    actionSum (t.bump alpha i x) j = actionSum t j := by unfold actionSum; rw [bump_children]

theorem bump_grows (t : Tree β) (alpha : ℚ) (i : Nat) (x : ℚ) : Grows t (t.bump alpha i x) where
  size := le_rfl
  belief j _ := bump_belief ..
  anode j b _ hb := by rwa [bump_anode]
  next j b o k _ hk := by rwa [bump_next]
  visits j _ := by rw [bump_nodeVisits]; omega
  avisits j b _ := by rw [bump_actionVisits]

/-! ### Changes of an action node -/

theorem updA_anode (t : Tree β) (i a : Nat) (f : ANode → ANode) (j b : Nat) :
    (t.upd i fun nd => nd.updAction a f).anode j b = if j = i ∧ b = a then (t.anode j b).map f else t.anode j b := by
  unfold anode
  by_cases hj : j = i
  · subst hj
    rw [upd_same]
    unfold ONode.updAction
    by_cases hb : b = a
    · subst hb
      simp only [List.getElem?_modify, if_true, and_self]
      rcases (t.nodes j).children[b]? with _ | _ | _ <;> rfl
    · simp [List.getElem?_modify, hb, Ne.symm hb]
  · rw [upd_other _ _ hj]; simp [hj]

theorem updA_avg (t : Tree β) (i a : Nat) (f : ANode → ANode) (j : Nat) :
    ((t.upd i fun nd => nd.updAction a f).nodes j).avg = (t.nodes j).avg := by
  by_cases hj : j = i
  · subst hj; rw [upd_same]; rfl
  · rw [upd_other _ _ hj]

theorem updA_belief (t : Tree β) (i a : Nat) (f : ANode → ANode) (j : Nat) :
    ((t.upd i fun nd => nd.updAction a f).nodes j).belief = (t.nodes j).belief := by
  by_cases hj : j = i
  · subst hj; rw [upd_same]; rfl
  · rw [upd_other _ _ hj]

theorem updA_length (t : Tree β) (i a : Nat) (f : ANode → ANode) (j : Nat) :
    ((t.upd i fun nd => nd.updAction a f).nodes j).children.length = (t.nodes j).children.length := by
  by_cases hj : j = i
  · subst hj; rw [upd_same]; simp [ONode.updAction]
  · rw [upd_other _ _ hj]

theorem anode_some {t : Tree β} {i a : Nat} {c : ANode} (h : t.anode i a = some c) :
    (t.nodes i).children[a]? = some (some c) := by
  unfold anode at h
  rcases hc : (t.nodes i).children[a]? with _ | _ | _ <;> simp_all

theorem updA_actionSum {t : Tree β} {i a : Nat} {c : ANode} (h : t.anode i a = some c) (f : ANode → ANode) (j : Nat) :
    actionSum (t.upd i fun nd => nd.updAction a f) j + (if j = i then c.avg.n else 0) =
      actionSum t j + (if j = i then (f c).avg.n else 0) := by
  unfold actionSum
  by_cases hj : j = i
  · subst hj
    rw [upd_same]
    have h1 := anode_some h
    have h2 := modify_eq_set (Option.map f) _ a _ h1
    simp only [ONode.updAction, h2]
    have := sum_map_set visitsOf _ a (some c) ((some c).map f) h1
    simpa [visitsOf] using this
  · rw [upd_other _ _ hj]; simp [hj]

theorem bumpA_anode (t : Tree β) (alpha : ℚ) (i a : Nat) (x : ℚ) (j b : Nat) :
    (t.bumpA alpha i a x).anode j b =
      if j = i ∧ b = a then (t.anode j b).map (fun c => { c with avg := c.avg.update alpha x }) else t.anode j b :=
  updA_anode ..

theorem bumpA_next (t : Tree β) (alpha : ℚ) (i a : Nat) (x : ℚ) (j b o : Nat) :
    (t.bumpA alpha i a x).next j b o = t.next j b o := by
  unfold next
  rw [bumpA_anode]
  split
  · rcases t.anode j b with _ | c <;> rfl
  · rfl

theorem bumpA_actionVisits {t : Tree β} {i a : Nat} (h : t.anode i a ≠ none) (alpha x : ℚ) (j b : Nat) :
    actionVisits (t.bumpA alpha i a x) j b = actionVisits t j b + if j = i ∧ b = a then 1 else 0 := by
  unfold actionVisits
  rw [bumpA_anode]
  split
  · rename_i hj
    obtain ⟨rfl, rfl⟩ := hj
    obtain ⟨c, hc⟩ := Option.ne_none_iff_exists'.1 h
    simp [hc, visitsOf, Avg.update]
  · simp

theorem bumpA_actionSum {t : Tree β} {i a : Nat} (h : t.anode i a ≠ none) (alpha x : ℚ) (j : Nat) :
    actionSum (t.bumpA alpha i a x) j = actionSum t j + if j = i then 1 else 0 := by
  obtain ⟨c, hc⟩ := Option.ne_none_iff_exists'.1 h
  have := updA_actionSum hc (fun c => { c with avg := c.avg.update alpha x }) j
  show actionSum (t.upd i _) j = _
  by_cases hj : j = i
  · subst hj
    simp only [if_true, Avg.update] at this ⊢
    omega
  · simp only [hj, if_false] at this ⊢
    omega

theorem bumpA_grows {t : Tree β} {i a : Nat} (h : t.anode i a ≠ none) (alpha x : ℚ) : Grows t (t.bumpA alpha i a x) where
  size := le_rfl
  belief j _ := updA_belief ..
  anode j b _ hb := by rw [bumpA_anode]; split <;> simp_all
  next j b o k _ hk := by rwa [bumpA_next]
  visits j _ := by unfold nodeVisits bumpA; rw [updA_avg]
  avisits j b _ := by rw [bumpA_actionVisits h]; omega

theorem link_anode (t : Tree β) (i a o k : Nat) (j b : Nat) :
    (t.link i a o k).anode j b =
      if j = i ∧ b = a then (t.anode j b).map (fun c => { c with children := dset c.children o k }) else t.anode j b :=
  updA_anode ..

theorem link_next {t : Tree β} {i a : Nat} (h : t.anode i a ≠ none) (o k j b o' : Nat) :
    (t.link i a o k).next j b o' = if j = i ∧ b = a ∧ o' = o then some k else t.next j b o' := by
  unfold next
  rw [link_anode]
  by_cases hj : j = i ∧ b = a
  · obtain ⟨rfl, rfl⟩ := hj
    obtain ⟨c, hc⟩ := Option.ne_none_iff_exists'.1 h
    simp only [and_self, if_true, hc, Option.map_some, Option.bind_some, true_and]
    rw [dget_dset]
    by_cases ho : o' = o
    · simp [ho]
    · simp [ho, Ne.symm ho]
  · rw [if_neg hj, if_neg (fun e => hj ⟨e.1, e.2.1⟩)]

theorem link_actionVisits (t : Tree β) (i a o k j b : Nat) : actionVisits (t.link i a o k) j b = actionVisits t j b := by
  unfold actionVisits
  rw [link_anode]
  split
  · rcases t.anode j b with _ | c <;> rfl
  · rfl

theorem link_actionSum {t : Tree β} {i a : Nat} (h : t.anode i a ≠ none) (o k j : Nat) :
    actionSum (t.link i a o k) j = actionSum t j := by
  obtain ⟨c, hc⟩ := Option.ne_none_iff_exists'.1 h
  have := updA_actionSum hc (fun c => { c with children := dset c.children o k }) j
  show actionSum (t.upd i _) j = _
  by_cases hj : j = i
  · subst hj
    simp only [if_true] at this ⊢
    omega
  · simp only [hj, if_false] at this ⊢
    omega

theorem link_nodeVisits (t : Tree β) (i a o k j : Nat) : nodeVisits (t.link i a o k) j = nodeVisits t j := by
  unfold nodeVisits link; rw [updA_avg]

/-! ### New nodes -/

theorem alloc_same (t : Tree β) (n : Nat) (b : β) : (t.alloc n b).nodes t.size = ONode.new b n := by simp [alloc]

theorem alloc_other (t : Tree β) (n : Nat) (b : β) {i : Nat} (h : i ≠ t.size) : (t.alloc n b).nodes i = t.nodes i := by
  simp [alloc, h]

theorem new_anode {t : Tree β} {i n : Nat} {b : β} (h : t.nodes i = ONode.new b n) (a : Nat) : t.anode i a = none := by
  unfold anode
  rw [h]
  simp only [ONode.new, List.getElem?_replicate]
  split <;> rfl

theorem alloc_anode (t : Tree β) (n : Nat) (b : β) (i a : Nat) :
    (t.alloc n b).anode i a = if i = t.size then none else t.anode i a := by
  by_cases h : i = t.size
  · subst h; rw [new_anode (alloc_same t n b)]; simp
  · unfold anode; rw [alloc_other _ _ _ h]; simp [h]

theorem alloc_next (t : Tree β) (n : Nat) (b : β) (i a o : Nat) :
    (t.alloc n b).next i a o = if i = t.size then none else t.next i a o := by
  unfold next
  rw [alloc_anode]
  split <;> rfl

theorem alloc_nodeVisits (t : Tree β) (n : Nat) (b : β) (i : Nat) :
    nodeVisits (t.alloc n b) i = if i = t.size then 0 else nodeVisits t i := by
  unfold nodeVisits
  by_cases h : i = t.size
  · subst h; rw [alloc_same]; simp [ONode.new, Avg.new]
  · rw [alloc_other _ _ _ h]; simp [h]

theorem alloc_actionVisits (t : Tree β) (n : Nat) (b : β) (i a : Nat) :
    actionVisits (t.alloc n b) i a = if i = t.size then 0 else actionVisits t i a := by
  unfold actionVisits
  rw [alloc_anode]
  split <;> rfl

theorem new_actionSum {t : Tree β} {i n : Nat} {b : β} (h : t.nodes i = ONode.new b n) : actionSum t i = 0 := by
  unfold actionSum
  rw [h]
  simp [ONode.new, visitsOf]

theorem alloc_actionSum (t : Tree β) (n : Nat) (b : β) (i : Nat) :
    actionSum (t.alloc n b) i = if i = t.size then 0 else actionSum t i := by
  by_cases h : i = t.size
  · subst h; rw [new_actionSum (alloc_same t n b)]; simp
  · unfold actionSum; rw [alloc_other _ _ _ h]; simp [h]

theorem alloc_grows (t : Tree β) (n : Nat) (b : β) : Grows t (t.alloc n b) where
  size := Nat.le_succ _
  belief i hi := by rw [alloc_other _ _ _ (by omega)]
  anode i a hi h := by rw [alloc_anode, if_neg (by omega)]; exact h
  next i a o j hi h := by rw [alloc_next, if_neg (by omega)]; exact h
  visits i hi := by rw [alloc_nodeVisits, if_neg (by omega)]
  avisits i a hi := by rw [alloc_actionVisits, if_neg (by omega)]

end Tree

/-! ### Invariants -/

/-- `b'` can be the successor of `b`. -/
def Succ (sim : Sim σ β) (b : β) (a o : Nat) (b' : β) : Prop := ∃ g g', sim.successor b a o g = (.ok b', g')

/-- `b` can be obtained from `b0` by taking successors. -/
inductive Reach (sim : Sim σ β) (b0 : β) : β → Prop
  | base : Reach sim b0 b0
  | step {b : β} {a o : Nat} {b' : β} : Reach sim b0 b → Succ sim b a o b' → Reach sim b0 b'

/-- The invariant of a search tree with the belief `b0` at the root. -/
structure TInv [DecidableEq β] (S : Search σ β η) (b0 : β) (t : Tree β) : Prop where
  pos : 0 < t.size
  root : (t.nodes 0).belief = b0
  len : ∀ i, (t.nodes i).children.length = S.sim.nActions
  fresh : ∀ i, t.size ≤ i → nodeVisits t i = 0 ∧ ∀ a, t.anode i a = none
  range : ∀ i a o j, t.next i a o = some j → j < t.size ∧ (S.shared = false → i < j)
  succ : ∀ i a o j, t.next i a o = some j → Succ S.sim (t.nodes i).belief a o (t.nodes j).belief
  look : ∀ b j, dget t.lookup b = some j → j < t.size ∧ (t.nodes j).belief = b
  reach : ∀ i, i < t.size → Reach S.sim b0 (t.nodes i).belief
  sum : ∀ i, actionSum t i ≤ nodeVisits t i
  plainRoot : S.shared = false → nodeVisits t 0 = actionSum t 0
  plain : S.shared = false → ∀ i, nodeVisits t i ≤ actionSum t i + 1
  keys : ∀ i a c, t.anode i a = some c → (c.children.map Prod.fst).Nodup

variable [DecidableEq β] {S : Search σ β η} {b0 : β}

theorem TInv.ensure {t : Tree β} (ht : TInv S b0 t) {i a : Nat} (hi : i < t.size)
    (h : (t.nodes i).children[a]? = some none) : TInv S b0 (t.ensure i a) where
  pos := ht.pos
  root := by rw [Tree.ensure_belief]; exact ht.root
  len j := by rw [Tree.ensure_length]; exact ht.len j
  fresh j hj := by
    have h1 : t.size ≤ j := hj
    obtain ⟨h2, h3⟩ := ht.fresh j h1
    refine ⟨by rw [Tree.ensure_nodeVisits]; exact h2, fun b => ?_⟩
    rw [Tree.ensure_anode h, if_neg (by omega)]
    exact h3 b
  range j b o k hk := by rw [Tree.ensure_next h] at hk; exact ht.range j b o k hk
  succ j b o k hk := by rw [Tree.ensure_next h] at hk; rw [Tree.ensure_belief, Tree.ensure_belief]; exact ht.succ j b o k hk
  look b j hj := by rw [Tree.ensure_belief]; exact ht.look b j hj
  reach j hj := by rw [Tree.ensure_belief]; exact ht.reach j hj
  sum j := by rw [Tree.ensure_nodeVisits, Tree.ensure_actionSum h]; exact ht.sum j
  plainRoot hs := by rw [Tree.ensure_nodeVisits, Tree.ensure_actionSum h]; exact ht.plainRoot hs
  plain hs j := by rw [Tree.ensure_nodeVisits, Tree.ensure_actionSum h]; exact ht.plain hs j
  keys j b c hc := by
    rw [Tree.ensure_anode h] at hc
    split at hc
    · cases hc; simp
    · exact ht.keys j b c hc

/-- A visit of a node without a visit of one of its actions. -/
theorem TInv.bump {t : Tree β} (ht : TInv S b0 t) {i : Nat} (hi : i < t.size)
    (hn : S.shared = false → i ≠ 0 ∧ nodeVisits t i = actionSum t i) (x : ℚ) : TInv S b0 (t.bump S.alpha i x) where
  pos := ht.pos
  root := by rw [Tree.bump_belief]; exact ht.root
  len j := by rw [Tree.bump_children]; exact ht.len j
  fresh j hj := by
    have h1 : t.size ≤ j := hj
    obtain ⟨h2, h3⟩ := ht.fresh j h1
    refine ⟨by rw [Tree.bump_nodeVisits, if_neg (by omega)]; exact h2, fun b => ?_⟩
    rw [Tree.bump_anode]
    exact h3 b
  range j b o k hk := by rw [Tree.bump_next] at hk; exact ht.range j b o k hk
  succ j b o k hk := by rw [Tree.bump_next] at hk; rw [Tree.bump_belief, Tree.bump_belief]; exact ht.succ j b o k hk
  look b j hj := by rw [Tree.bump_belief]; exact ht.look b j hj
  reach j hj := by rw [Tree.bump_belief]; exact ht.reach j hj
  sum j := by rw [Tree.bump_nodeVisits, Tree.bump_actionSum]; have := ht.sum j; omega
  plainRoot hs := by
    rw [Tree.bump_nodeVisits, Tree.bump_actionSum, if_neg (Ne.symm (hn hs).1)]; exact ht.plainRoot hs
  plain hs j := by
    rw [Tree.bump_nodeVisits, Tree.bump_actionSum]
    have := ht.plain hs j
    by_cases hj : j = i
    · subst hj; have := (hn hs).2; simp only [if_true]; omega
    · simp only [hj, if_false]; omega
  keys j b c hc := by rw [Tree.bump_anode] at hc; exact ht.keys j b c hc

/-- A visit of an action and of its node. -/
theorem TInv.both {t : Tree β} (ht : TInv S b0 t) {i a : Nat} (hi : i < t.size) (ha : t.anode i a ≠ none) (x : ℚ) :
    TInv S b0 ((t.bumpA S.alpha i a x).bump S.alpha i x) where
  pos := ht.pos
  root := by rw [Tree.bump_belief]; unfold Tree.bumpA; rw [Tree.updA_belief]; exact ht.root
  len j := by rw [Tree.bump_children]; unfold Tree.bumpA; rw [Tree.updA_length]; exact ht.len j
  fresh j hj := by
    have h1 : t.size ≤ j := hj
    obtain ⟨h2, h3⟩ := ht.fresh j h1
    refine ⟨?_, fun b => ?_⟩
    · rw [Tree.bump_nodeVisits, if_neg (by omega)]
      unfold nodeVisits Tree.bumpA
      rw [Tree.updA_avg]
      exact h2
    · rw [Tree.bump_anode, Tree.bumpA_anode, if_neg (by omega)]
      exact h3 b
  range j b o k hk := by rw [Tree.bump_next, Tree.bumpA_next] at hk; exact ht.range j b o k hk
  succ j b o k hk := by
    rw [Tree.bump_next, Tree.bumpA_next] at hk
    rw [Tree.bump_belief, Tree.bump_belief]
    unfold Tree.bumpA
    rw [Tree.updA_belief, Tree.updA_belief]
    exact ht.succ j b o k hk
  look b j hj := by rw [Tree.bump_belief]; unfold Tree.bumpA; rw [Tree.updA_belief]; exact ht.look b j hj
  reach j hj := by rw [Tree.bump_belief]; unfold Tree.bumpA; rw [Tree.updA_belief]; exact ht.reach j hj
  sum j := by
    rw [Tree.bump_nodeVisits, Tree.bump_actionSum, Tree.bumpA_actionSum ha]
    have h1 : nodeVisits (t.bumpA S.alpha i a x) j = nodeVisits t j := by unfold nodeVisits Tree.bumpA; rw [Tree.updA_avg]
    rw [h1]
    have := ht.sum j
    omega
  plainRoot hs := by
    rw [Tree.bump_nodeVisits, Tree.bump_actionSum, Tree.bumpA_actionSum ha]
    have h1 : nodeVisits (t.bumpA S.alpha i a x) 0 = nodeVisits t 0 := by unfold nodeVisits Tree.bumpA; rw [Tree.updA_avg]
    rw [h1, ht.plainRoot hs]
  plain hs j := by
    rw [Tree.bump_nodeVisits, Tree.bump_actionSum, Tree.bumpA_actionSum ha]
    have h1 : nodeVisits (t.bumpA S.alpha i a x) j = nodeVisits t j := by unfold nodeVisits Tree.bumpA; rw [Tree.updA_avg]
    rw [h1]
    have := ht.plain hs j
    omega
  keys j b c hc := by
    rw [Tree.bump_anode, Tree.bumpA_anode] at hc
    split at hc
    · obtain ⟨d, hd, rfl⟩ := Option.map_eq_some_iff.1 hc
      exact ht.keys j b d hd
    · exact ht.keys j b c hc

theorem TInv.alloc {t : Tree β} (ht : TInv S b0 t) {b : β} (hb : Reach S.sim b0 b) : TInv S b0 (t.alloc S.sim.nActions b) where
  pos := Nat.succ_pos _
  root := by rw [Tree.alloc_other _ _ _ (by have := ht.pos; omega)]; exact ht.root
  len j := by
    by_cases h : j = t.size
    · subst h; rw [Tree.alloc_same]; simp [ONode.new]
    · rw [Tree.alloc_other _ _ _ h]; exact ht.len j
  fresh j hj := by
    have h1 : t.size + 1 ≤ j := hj
    obtain ⟨h2, h3⟩ := ht.fresh j (by omega)
    refine ⟨by rw [Tree.alloc_nodeVisits, if_neg (by omega)]; exact h2, fun b => ?_⟩
    rw [Tree.alloc_anode, if_neg (by omega)]
    exact h3 b
  range j b' o k hk := by
    rw [Tree.alloc_next] at hk
    by_cases h : j = t.size
    · simp [h] at hk
    · rw [if_neg h] at hk
      obtain ⟨h1, h2⟩ := ht.range j b' o k hk
      exact ⟨Nat.lt_succ_of_lt h1, h2⟩
  succ j b' o k hk := by
    rw [Tree.alloc_next] at hk
    by_cases h : j = t.size
    · simp [h] at hk
    · rw [if_neg h] at hk
      obtain ⟨h1, h2⟩ := ht.range j b' o k hk
      rw [Tree.alloc_other _ _ _ h, Tree.alloc_other _ _ _ (by omega)]
      exact ht.succ j b' o k hk
  look b' j hj := by
    obtain ⟨h1, h2⟩ := ht.look b' j hj
    exact ⟨Nat.lt_succ_of_lt h1, by rw [Tree.alloc_other _ _ _ (by omega)]; exact h2⟩
  reach j hj := by
    by_cases h : j = t.size
    · subst h; rw [Tree.alloc_same]; exact hb
    · have h1 : j < t.size + 1 := hj
      rw [Tree.alloc_other _ _ _ h]; exact ht.reach j (by omega)
  sum j := by rw [Tree.alloc_actionSum, Tree.alloc_nodeVisits]; have := ht.sum j; split <;> omega
  plainRoot hs := by
    rw [Tree.alloc_actionSum, Tree.alloc_nodeVisits]; have := ht.plainRoot hs; split <;> omega
  plain hs j := by rw [Tree.alloc_actionSum, Tree.alloc_nodeVisits]; have := ht.plain hs j; split <;> omega
  keys j b' c hc := by
    rw [Tree.alloc_anode] at hc
    split at hc
    · cases hc
    · exact ht.keys j b' c hc

theorem TInv.link {t : Tree β} (ht : TInv S b0 t) {i a o k : Nat} (hi : i < t.size) (ha : t.anode i a ≠ none)
    (hk : k < t.size) (hp : S.shared = false → i < k) (hr : Succ S.sim (t.nodes i).belief a o (t.nodes k).belief) :
    TInv S b0 (t.link i a o k) where
  pos := ht.pos
  root := by unfold Tree.link; rw [Tree.updA_belief]; exact ht.root
  len j := by unfold Tree.link; rw [Tree.updA_length]; exact ht.len j
  fresh j hj := by
    have h1 : t.size ≤ j := hj
    obtain ⟨h2, h3⟩ := ht.fresh j h1
    refine ⟨by rw [Tree.link_nodeVisits]; exact h2, fun b => ?_⟩
    rw [Tree.link_anode, if_neg (by omega)]
    exact h3 b
  range j b o' m hm := by
    rw [Tree.link_next ha] at hm
    split at hm
    · rename_i hj
      obtain ⟨rfl, rfl, rfl⟩ := hj
      simp only [Option.some.injEq] at hm
      subst hm
      exact ⟨hk, hp⟩
    · exact ht.range j b o' m hm
  succ j b o' m hm := by
    rw [Tree.link_next ha] at hm
    unfold Tree.link
    rw [Tree.updA_belief, Tree.updA_belief]
    split at hm
    · rename_i hj
      obtain ⟨rfl, rfl, rfl⟩ := hj
      simp only [Option.some.injEq] at hm
      subst hm
      exact hr
    · exact ht.succ j b o' m hm
  look b' j hj := by unfold Tree.link; rw [Tree.updA_belief]; exact ht.look b' j hj
  reach j hj := by unfold Tree.link; rw [Tree.updA_belief]; exact ht.reach j hj
  sum j := by rw [Tree.link_actionSum ha, Tree.link_nodeVisits]; exact ht.sum j
  plainRoot hs := by rw [Tree.link_actionSum ha, Tree.link_nodeVisits]; exact ht.plainRoot hs
  plain hs j := by rw [Tree.link_actionSum ha, Tree.link_nodeVisits]; exact ht.plain hs j
  keys j b c hc := by
    rw [Tree.link_anode] at hc
    split at hc
    · obtain ⟨d, hd, rfl⟩ := Option.map_eq_some_iff.1 hc
      exact nodup_keys_dset (ht.keys j b d hd) _ _
    · exact ht.keys j b c hc

theorem TInv.register {t : Tree β} (ht : TInv S b0 t) {b : β} {j : Nat} (hj : j < t.size) (hb : (t.nodes j).belief = b) :
    TInv S b0 { t with lookup := dset t.lookup b j } where
  pos := ht.pos
  root := ht.root
  len := ht.len
  fresh := ht.fresh
  range := ht.range
  succ := ht.succ
  look b' k hk := by
    change dget (dset t.lookup b j) b' = some k at hk
    rw [dget_dset] at hk
    split at hk
    · rename_i h
      simp only [Option.some.injEq] at hk
      subst hk; subst h
      exact ⟨hj, hb⟩
    · exact ht.look b' k hk
  reach := ht.reach
  sum := ht.sum
  plainRoot := ht.plainRoot
  plain := ht.plain
  keys := ht.keys

theorem TInv.init (b : β) : TInv S b (Tree.init S.shared S.sim.nActions b) := by
  have h0 : ∀ t : Tree β, t.nodes = (fun _ => ONode.new b S.sim.nActions) → t.size = 1 →
      (∀ b' j, dget t.lookup b' = some j → j < 1 ∧ b = b') → TInv S b t := by
    intro t hn hs hl
    have ha : ∀ i a, t.anode i a = none := fun i a => Tree.new_anode (b := b) (n := S.sim.nActions) (by rw [hn]) a
    have hx : ∀ i a o, t.next i a o = none := fun i a o => by unfold Tree.next; rw [ha]; rfl
    have hv : ∀ i, nodeVisits t i = 0 := fun i => by unfold nodeVisits; rw [hn]; rfl
    have hsum : ∀ i, actionSum t i = 0 := fun i => Tree.new_actionSum (b := b) (n := S.sim.nActions) (by rw [hn])
    exact {
      pos := by omega
      root := by rw [hn]; rfl
      len := fun i => by rw [hn]; simp [ONode.new]
      fresh := fun i _ => ⟨hv i, ha i⟩
      range := fun i a o j h => by rw [hx] at h; cases h
      succ := fun i a o j h => by rw [hx] at h; cases h
      look := fun b' j h => by obtain ⟨h1, h2⟩ := hl b' j h; exact ⟨by omega, by rw [hn]; exact h2⟩
      reach := fun i _ => by rw [hn]; exact .base
      sum := fun i => by rw [hsum]; omega
      plainRoot := fun _ => by rw [hsum, hv]
      plain := fun _ i => by rw [hv]; omega
      keys := fun i a c h => by rw [ha] at h; cases h }
  unfold Tree.init Tree.nodeFor
  split
  · simp only [dget]
    refine h0 _ ?_ rfl ?_
    · funext j; simp [Tree.alloc]
    · intro b' j h
      simp only [dset, dget] at h
      split at h
      · rename_i e
        simp only [Option.some.injEq] at h
        exact ⟨by omega, e⟩
      · simp at h
  · refine h0 _ ?_ rfl ?_
    · funext j; simp [Tree.alloc]
    · intro b' j h
      simp [Tree.alloc, dget] at h

end Verif
