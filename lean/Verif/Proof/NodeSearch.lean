import Verif.Proof.Export
import Verif.Proof.TreeShape
import Verif.Model.NodeSearch
import Verif.Spec.NodeSearch
import Mathlib.Data.String.Basic

/-! The enumeration of a search tree. -/

set_option linter.unusedSectionVars false
set_option linter.unusedSimpArgs false

namespace Verif
open Spec
variable {σ β η : Type}

/-! ### The entries that are pushed -/

theorem namesAt_getD {names : List Name} : ∀ {l : List Nat}, (∀ o ∈ l, o < names.length) →
    namesAt names l = .ok (l.map fun o => names.getD o (.int o))
  | [], _ => rfl
  | o :: l, h => by
      have ho := h o List.mem_cons_self
      have hl := namesAt_getD (names := names) (l := l) fun o ho => h o (List.mem_cons_of_mem _ ho)
      simp [namesAt, labelAt, hl, List.getElem?_eq_getElem ho, bind, Except.bind]

theorem initChildren_eq (l : List (Option ANode)) :
    initChildren l = (List.range l.length).flatMap fun a => (((l[a]?).join).map fun c => (a, c)).toList := by
  induction l using List.reverseRecOn with
  | nil => rfl
  | append_singleton l x ih =>
      have h1 : initChildren (l ++ [x]) = initChildren l ++ (x.map fun c => (l.length, c)).toList := by
        unfold initChildren
        rw [List.zipIdx_append, List.filterMap_append]
        congr 1
        cases x <;> simp
      have h2 : (List.range l.length).flatMap (fun a => ((((l ++ [x])[a]?).join).map fun c => (a, c)).toList) =
          (List.range l.length).flatMap fun a => (((l[a]?).join).map fun c => (a, c)).toList := by
        refine List.flatMap_congr fun a ha => ?_
        rw [List.getElem?_append_left (List.mem_range.1 ha)]
      rw [h1, ih, List.length_append, List.length_singleton, List.range_succ, List.flatMap_append, h2]
      congr 1
      cases x <;> simp

theorem foldl_dset_self {κ α : Type} [DecidableEq κ] : ∀ (l acc : List (κ × α)), ((acc ++ l).map Prod.fst).Nodup →
    l.foldl (fun d x => dset d x.1 x.2) acc = acc ++ l := by
  have hset : ∀ (acc : List (κ × α)) (k : κ) (v : α), k ∉ acc.map Prod.fst → dset acc k v = acc ++ [(k, v)] := by
    intro acc
    induction acc with
    | nil => intro k v _; rfl
    | cons x acc ih =>
        intro k v hk
        simp only [List.map_cons, List.mem_cons, not_or] at hk
        obtain ⟨a, b⟩ := x
        rw [List.cons_append, ← ih k v hk.2]
        simp only [dset]
        rw [if_neg (fun e => hk.1 e.symm)]
  intro l
  induction l with
  | nil => intro acc _; simp
  | cons x l ih =>
      intro acc h
      rw [List.foldl_cons, hset, ih]
      · simp
      · simpa using h
      · intro hk
        rw [List.map_append, List.nodup_append] at h
        exact h.2.2 _ hk x.1 (by simp) rfl

/-- The entry of the queue for a history and its node. -/
def entryOf (t : Tree β) (x : List Name × Nat) : QueueEntry := ⟨(t.nodes x.2).avg.value, x.1, x.2⟩

/-- What the names and the tree must fulfil. -/
structure Named (sim : Sim σ β) (t : Tree β) : Prop where
  actions : sim.actions.Nodup
  observations : sim.observations.Nodup
  len : ∀ i, (t.nodes i).children.length = sim.actions.length
  keys : ∀ i a, ((successors t i a).map Prod.fst).Nodup
  range : ∀ i a x, x ∈ successors t i a → x.1 < sim.observations.length

variable {sim : Sim σ β} {t : Tree β}

theorem getD_inj {l : List Name} (h : l.Nodup) {a b : Nat} (ha : a < l.length) (hb : b < l.length)
    (hab : l.getD a (.int a) = l.getD b (.int b)) : a = b := by
  rw [List.getD_eq_getElem?_getD, List.getD_eq_getElem?_getD, List.getElem?_eq_getElem ha, List.getElem?_eq_getElem hb] at hab
  exact (List.Nodup.getElem_inj_iff h).1 hab

theorem childrenDict_eq (h : Named sim t) (i : Nat) : childrenDict sim.actions (t.nodes i) =
    .ok ((initChildren (t.nodes i).children).map fun x => (sim.actions.getD x.1 (.int x.1), x.2)) := by
  unfold childrenDict
  have hr : ∀ o ∈ (initChildren (t.nodes i).children).map Prod.fst, o < sim.actions.length := by
    intro o ho
    rw [initChildren_eq] at ho
    obtain ⟨x, hx, rfl⟩ := List.mem_map.1 ho
    obtain ⟨a, ha, hx⟩ := List.mem_flatMap.1 hx
    rw [List.mem_range, h.len] at ha
    rw [Option.mem_toList, Option.map_eq_some_iff] at hx
    obtain ⟨c, _, rfl⟩ := hx
    exact ha
  rw [namesAt_getD hr]
  simp only [bind, Except.bind, Except.ok.injEq]
  rw [List.map_map, List.zip_map', foldl_dset_self]
  · rfl
  · rw [List.nil_append, List.map_map]
    have : (Prod.fst ∘ fun x : Nat × ANode => (((fun o => sim.actions.getD o (.int o)) ∘ Prod.fst) x, x.2)) =
        (fun o => sim.actions.getD o (.int o)) ∘ Prod.fst := rfl
    rw [this, ← List.map_map]
    refine List.Nodup.map_on (fun a ha b hb hab => getD_inj h.actions (hr a ha) (hr b hb) hab) ?_
    have : (initChildren (t.nodes i).children).map Prod.fst = (List.range (t.nodes i).children.length).filter
        fun a => decide (((t.nodes i).children[a]?).join ≠ none) := by
      rw [initChildren_eq, List.map_flatMap]
      generalize List.range _ = l
      induction l with
      | nil => rfl
      | cons a l ih =>
          rw [List.flatMap_cons, List.filter_cons, ih]
          rcases ((t.nodes i).children[a]?).join with _ | c <;> simp
    rw [this]
    exact List.nodup_range.filter _

theorem pushesOf_eq (h : List Name) (a : Name) (c : ANode) (hr : ∀ x ∈ c.children, x.1 < sim.observations.length) :
    pushesOf sim.observations t h a c =
      .ok ((c.children.map fun oj => (h ++ [a, sim.observations.getD oj.1 (.int oj.1)], oj.2)).map (entryOf t)) := by
  unfold pushesOf
  rw [namesAt_getD (by
    intro o ho
    obtain ⟨x, hx, rfl⟩ := List.mem_map.1 ho
    exact hr x hx)]
  simp only [bind, Except.bind, Except.ok.injEq]
  rw [List.map_map, List.zip_map', List.map_map, List.map_map]
  rfl

theorem pushesAll_eq (h : List Name) : ∀ (d : List (Name × ANode)), (∀ y ∈ d, ∀ x ∈ y.2.children, x.1 < sim.observations.length) →
    pushesAll sim.observations t h d = .ok ((d.flatMap fun y => y.2.children.map fun oj =>
      (h ++ [y.1, sim.observations.getD oj.1 (.int oj.1)], oj.2)).map (entryOf t))
  | [], _ => rfl
  | (a, c) :: d, hr => by
      unfold pushesAll
      rw [pushesOf_eq h a c (hr _ List.mem_cons_self), pushesAll_eq h d fun y hy => hr y (List.mem_cons_of_mem _ hy)]
      simp [bind, Except.bind]

theorem offspring_eq (h : Named sim t) (x : List Name × Nat) : offspring sim t x =
    (initChildren (t.nodes x.2).children).flatMap fun y => y.2.children.map fun oj =>
      (x.1 ++ [sim.actions.getD y.1 (.int y.1), sim.observations.getD oj.1 (.int oj.1)], oj.2) := by
  unfold offspring
  rw [initChildren_eq, h.len, List.flatMap_assoc]
  refine List.flatMap_congr fun a _ => ?_
  unfold successors Tree.anode histNames
  rcases ((t.nodes x.2).children[a]?).join with _ | c <;> simp

theorem pushesAfter_eq (h : Named sim t) (x : List Name × Nat) : pushesAfter sim t (entryOf t x) = .ok ((offspring sim t x).map (entryOf t)) := by
  unfold pushesAfter
  have hd : childrenDict sim.actions (t.nodes (entryOf t x).node) = _ := childrenDict_eq h x.2
  rw [hd]
  simp only [bind, Except.bind]
  rw [pushesAll_eq]
  · rw [offspring_eq h, List.flatMap_map]
    rfl
  · intro y hy z hz
    obtain ⟨w, hw, rfl⟩ := List.mem_map.1 hy
    rw [initChildren_eq] at hw
    obtain ⟨a, ha, hw⟩ := List.mem_flatMap.1 hw
    rw [Option.mem_toList, Option.map_eq_some_iff] at hw
    obtain ⟨c, hc, rfl⟩ := hw
    refine h.range x.2 a z ?_
    unfold successors Tree.anode
    rw [hc]
    exact hz

/-! ### The order of the heap -/

theorem nameLess_total {a b : Name} (h : a ≠ b) : a.less b = true ∨ b.less a = true := by
  rcases a with a | a <;> rcases b with b | b <;> simp only [Name.less, decide_eq_true_eq, or_true, true_or]
  · exact Nat.lt_or_gt_of_ne fun e => h (by rw [e])
  · exact lt_or_gt_of_ne fun e => h (by rw [e])

theorem nameLess_trans {a b c : Name} (h1 : a.less b = true) (h2 : b.less c = true) : a.less c = true := by
  rcases a with a | a <;> rcases b with b | b <;> rcases c with c | c <;> simp only [Name.less, decide_eq_true_eq] at * <;>
    first | exact lt_trans h1 h2 | exact absurd h1 (by decide) | exact absurd h2 (by decide) | trivial

theorem nameLess_irrefl (a : Name) : a.less a = false := by
  rcases a with a | a <;> simp [Name.less]

theorem histLess_total : ∀ {h h' : List Name}, h ≠ h' → histLess h h' = true ∨ histLess h' h = true
  | [], [], h => (h rfl).elim
  | [], _ :: _, _ => Or.inl rfl
  | _ :: _, [], _ => Or.inr rfl
  | a :: h, b :: h', hne => by
      unfold histLess
      by_cases hab : a = b
      · subst hab
        simp only [if_true]
        exact histLess_total fun e => hne (by rw [e])
      · rw [if_neg hab, if_neg (fun e => hab e.symm)]
        exact nameLess_total hab

theorem histLess_trans : ∀ {h1 h2 h3 : List Name}, histLess h1 h2 = true → histLess h2 h3 = true → histLess h1 h3 = true
  | [], [], _, h, _ => by cases h
  | [], _ :: _, [], _, h => by cases h
  | [], _ :: _, _ :: _, _, _ => rfl
  | _ :: _, [], _, h, _ => by cases h
  | _ :: _, _ :: _, [], _, h => by cases h
  | a :: h1, b :: h2, c :: h3, k1, k2 => by
      unfold histLess at k1 k2 ⊢
      by_cases hab : a = b
      · subst hab
        rw [if_pos rfl] at k1
        by_cases hac : a = c
        · subst hac
          rw [if_pos rfl] at k2 ⊢
          exact histLess_trans k1 k2
        · rw [if_neg hac] at k2 ⊢
          exact k2
      · rw [if_neg hab] at k1
        by_cases hbc : b = c
        · subst hbc
          rw [if_neg hab]
          exact k1
        · rw [if_neg hbc] at k2
          have h := nameLess_trans k1 k2
          rw [if_neg]
          · exact h
          · rintro rfl
            rw [nameLess_irrefl] at h
            cases h

theorem histLess_before : ∀ {h h' : List Name}, histLess h h' = true → ListBefore h h'
  | [], [], h => by cases h
  | [], b :: l, _ => Or.inl ⟨b, l, rfl⟩
  | _ :: _, [], h => by cases h
  | a :: h, b :: h', k => by
      unfold histLess at k
      by_cases hab : a = b
      · subst hab
        rw [if_pos rfl] at k
        rcases histLess_before k with ⟨c, l, rfl⟩ | ⟨p, c, d, l, l', rfl, rfl, h1, h2⟩
        · exact Or.inl ⟨c, l, rfl⟩
        · exact Or.inr ⟨a :: p, c, d, l, l', rfl, rfl, h1, h2⟩
      · rw [if_neg hab] at k
        refine Or.inr ⟨[], a, b, h, h', rfl, rfl, hab, ?_⟩
        rcases a with a | a <;> rcases b with b | b <;> simp [Name.less, NameBefore] at * <;> exact k

theorem entryLess_total {e e' : QueueEntry} (h : e.hist ≠ e'.hist) : e.less e' = true ∨ e'.less e = true := by
  unfold QueueEntry.less
  by_cases hv : e.value = e'.value
  · rw [if_pos hv, if_pos hv.symm]
    exact histLess_total h
  · rw [if_neg hv, if_neg (fun k => hv k.symm)]
    simp only [decide_eq_true_eq, neg_lt_neg_iff]
    exact (lt_or_gt_of_ne hv).symm

theorem entryLess_trans {e1 e2 e3 : QueueEntry} (h1 : e1.less e2 = true) (h2 : e2.less e3 = true) : e1.less e3 = true := by
  unfold QueueEntry.less at *
  by_cases h12 : e1.value = e2.value
  · rw [if_pos h12] at h1
    rw [h12]
    by_cases h23 : e2.value = e3.value
    · rw [if_pos h23] at h2 ⊢
      exact histLess_trans h1 h2
    · rw [if_neg h23] at h2 ⊢
      exact h2
  · rw [if_neg h12] at h1
    by_cases h23 : e2.value = e3.value
    · rw [← h23, if_neg h12]
      exact h1
    · rw [if_neg h23] at h2
      simp only [decide_eq_true_eq, neg_lt_neg_iff] at *
      have := h2.trans h1
      rw [if_neg this.ne']
      exact decide_eq_true this

theorem popLast_eq : ∀ {q : List QueueEntry} {e : QueueEntry} {r : List QueueEntry}, popLast q = some (e, r) → q = r ++ [e]
  | [], _, _, h => by cases h
  | x :: q, e, r, h => by
      unfold popLast at h
      rcases hp : popLast q with _ | ⟨y, s⟩
      · rw [hp] at h
        cases h
        cases q with
        | nil => rfl
        | cons z q =>
            unfold popLast at hp
            split at hp <;> cases hp
      · rw [hp] at h
        cases h
        rw [popLast_eq hp]
        rfl

theorem popLast_none {q : List QueueEntry} (h : popLast q = none) : q = [] := by
  cases q with
  | nil => rfl
  | cons z q =>
      unfold popLast at h
      split at h <;> cases h

theorem popHeap_none {q : List QueueEntry} (h : popHeap q = none) : q = [] := by
  cases q with
  | nil => rfl
  | cons z q =>
      unfold popHeap at h
      split at h
      · cases h
      · split at h <;> cases h

theorem popHeap_eq : ∀ {q : List QueueEntry} {e : QueueEntry} {r : List QueueEntry}, (q.map QueueEntry.hist).Nodup → popHeap q = some (e, r) →
    ∃ a b, q = a ++ e :: b ∧ r = a ++ b ∧ ∀ y ∈ r, e.less y = true
  | [], _, _, _, h => by cases h
  | x :: q, e, r, hn, h => by
      unfold popHeap at h
      rcases hp : popHeap q with _ | ⟨y, s⟩
      · rw [hp] at h
        cases h
        rw [popHeap_none hp]
        exact ⟨[], [], rfl, rfl, by simp⟩
      · rw [hp] at h
        rw [List.map_cons, List.nodup_cons] at hn
        obtain ⟨a, b, h1, h2, h3⟩ := popHeap_eq hn.2 hp
        simp only at h
        split at h
        · rename_i hl
          cases h
          refine ⟨x :: a, b, by rw [h1]; rfl, by rw [h2]; rfl, ?_⟩
          intro z hz
          rcases List.mem_cons.1 hz with rfl | hz
          · exact hl
          · exact h3 z hz
        · rename_i hl
          cases h
          have hxy : x.less y = true := by
            rcases entryLess_total (e := x) (e' := y) (fun k => hn.1 (by rw [k, h1]; simp)) with k | k
            · exact k
            · exact (hl k).elim
          refine ⟨[], q, rfl, rfl, ?_⟩
          intro z hz
          rw [h1] at hz
          rcases List.mem_append.1 hz with hz | hz
          · exact entryLess_trans hxy (h3 z (by rw [h2]; exact List.mem_append_left _ hz))
          · rcases List.mem_cons.1 hz with rfl | hz
            · exact hxy
            · exact entryLess_trans hxy (h3 z (by rw [h2]; exact List.mem_append_right _ hz))

theorem entryOf_inj {x y : List Name × Nat} (h : entryOf t x = entryOf t y) : x = y := by
  unfold entryOf at h
  simp only [QueueEntry.mk.injEq] at h
  exact Prod.ext h.2.1 h.2.2

/-- The function `pop` of an order on a queue without repeated histories. -/
theorem popFor_spec {order : String} {pop : List QueueEntry → Option (QueueEntry × List QueueEntry)} (hpop : popFor order = .ok pop)
    (l : List (List Name × Nat)) (hn : (l.map Prod.fst).Nodup) : (pop (l.map (entryOf t)) = none ∧ l = []) ∨
      ∃ x ∈ l, pop (l.map (entryOf t)) = some (entryOf t x, (l.erase x).map (entryOf t)) ∧ Picks t l x order := by
  have hnl : l.Nodup := List.Nodup.of_map _ hn
  have hsplit : ∀ (a b : List QueueEntry) (e : QueueEntry), l.map (entryOf t) = a ++ e :: b →
      ∃ x ∈ l, entryOf t x = e ∧ (l.erase x).map (entryOf t) = a ++ b := by
    intro a b e hab
    obtain ⟨la, lb, rfl, h1, h2⟩ := List.map_eq_append_iff.1 hab
    obtain ⟨x, lb', rfl, h3, h4⟩ := List.map_eq_cons_iff.1 h2
    refine ⟨x, by simp, h3, ?_⟩
    have hx : x ∉ la := fun hx => by
      rw [List.nodup_append] at hnl
      exact hnl.2.2 x hx x List.mem_cons_self rfl
    rw [List.erase_append_right _ hx, List.erase_cons_head, List.map_append, h1, h4]
  unfold popFor at hpop
  split at hpop
  · rename_i ho
    cases hpop
    subst ho
    cases l with
    | nil => exact Or.inl ⟨rfl, rfl⟩
    | cons x l => exact Or.inr ⟨x, List.mem_cons_self, by rw [List.erase_cons_head]; rfl, .breadth rfl⟩
  · split at hpop
    · rename_i ho
      cases hpop
      subst ho
      rcases hp : popLast (l.map (entryOf t)) with _ | ⟨e, r⟩
      · exact Or.inl ⟨rfl, List.map_eq_nil_iff.1 (popLast_none hp)⟩
      · have h1 := popLast_eq hp
        obtain ⟨x, hx, rfl, h2⟩ := hsplit r [] e h1
        rw [List.append_nil] at h2
        refine Or.inr ⟨x, hx, by rw [h2], .depth ?_⟩
        have h3 : (l.map (entryOf t)).getLast? = some (entryOf t x) := by rw [h1]; simp
        rw [List.getLast?_map] at h3
        obtain ⟨y, hy, hxy⟩ := Option.map_eq_some_iff.1 h3
        rw [hy, entryOf_inj hxy]
    · split at hpop
      · rename_i ho
        cases hpop
        subst ho
        rcases hp : popHeap (l.map (entryOf t)) with _ | ⟨e, r⟩
        · exact Or.inl ⟨rfl, List.map_eq_nil_iff.1 (popHeap_none hp)⟩
        · obtain ⟨a, b, h1, h2, h3⟩ := popHeap_eq (by rw [List.map_map]; exact hn) hp
          obtain ⟨x, hx, rfl, h4⟩ := hsplit a b e h1
          refine Or.inr ⟨x, hx, by rw [h4, h2], .q hx ?_⟩
          intro y hy hyx
          have hm : entryOf t y ∈ r := by
            rw [h2, ← h4]
            exact List.mem_map_of_mem ((List.mem_erase_of_ne hyx).2 hy)
          have := h3 _ hm
          unfold QueueEntry.less entryOf at this
          simp only at this
          split at this
          · rename_i hv
            exact Or.inr ⟨hv.symm, histLess_before this⟩
          · simp only [decide_eq_true_eq, neg_lt_neg_iff] at this
            exact Or.inl this
      · cases hpop

/-! ### The histories that wait -/

theorem offspring_mem {x y : List Name × Nat} : y ∈ offspring sim t x ↔
    ∃ a < sim.actions.length, ∃ oj ∈ successors t x.2 a, y = (x.1 ++ histNames sim [(a, oj.1)], oj.2) := by
  unfold offspring
  rw [List.mem_flatMap]
  constructor
  · rintro ⟨a, ha, hy⟩
    obtain ⟨oj, h1, rfl⟩ := List.mem_map.1 hy
    exact ⟨a, List.mem_range.1 ha, oj, h1, rfl⟩
  · rintro ⟨a, ha, oj, h1, rfl⟩
    exact ⟨a, List.mem_range.2 ha, List.mem_map.2 ⟨oj, h1, rfl⟩⟩

theorem offspring_hist {x y : List Name × Nat} (h : y ∈ offspring sim t x) : ∃ m n, y.1 = x.1 ++ [m, n] := by
  obtain ⟨a, _, oj, _, rfl⟩ := offspring_mem.1 h
  exact ⟨_, _, rfl⟩

theorem hist_cut {h h' : List Name} {m n m' n' : Name} (e : h ++ [m, n] = h' ++ [m', n']) : h = h' ∧ m = m' ∧ n = n' := by
  have := List.append_inj' e rfl
  exact ⟨this.1, by simpa using this.2⟩

theorem offspring_nodup (hs : Named sim t) (x : List Name × Nat) : ((offspring sim t x).map Prod.fst).Nodup := by
  unfold offspring
  rw [List.map_flatMap, List.nodup_flatMap]
  constructor
  · intro a ha
    rw [List.map_map]
    have : (Prod.fst ∘ fun oj : Nat × Nat => (x.1 ++ histNames sim [(a, oj.1)], oj.2)) =
      (fun o => x.1 ++ histNames sim [(a, o)]) ∘ Prod.fst := rfl
    rw [this, ← List.map_map]
    refine List.Nodup.map_on ?_ (hs.keys x.2 a)
    intro o ho o' ho' e
    obtain ⟨z, hz, rfl⟩ := List.mem_map.1 ho
    obtain ⟨z', hz', rfl⟩ := List.mem_map.1 ho'
    exact getD_inj hs.observations (hs.range _ _ _ hz) (hs.range _ _ _ hz') (hist_cut e).2.2
  · refine List.nodup_range.imp_of_mem ?_
    intro a b ha hb hab h1 h2 h3
    rw [List.mem_map] at h2 h3
    obtain ⟨z, hz, rfl⟩ := h2
    obtain ⟨z', hz', h4⟩ := h3
    obtain ⟨oj, _, rfl⟩ := List.mem_map.1 hz
    obtain ⟨oj', _, rfl⟩ := List.mem_map.1 hz'
    exact hab (getD_inj hs.actions (List.mem_range.1 ha) (List.mem_range.1 hb) (hist_cut h4).2.1.symm)

/-- The root and the offspring. -/
def known (sim : Sim σ β) (t : Tree β) (found : List (List Name × Nat)) : List (List Name × Nat) :=
  ([], 0) :: found.flatMap (offspring sim t)

theorem known_nodup (hs : Named sim t) {found : List (List Name × Nat)} (hn : (found.map Prod.fst).Nodup) :
    ((known sim t found).map Prod.fst).Nodup := by
  unfold known
  rw [List.map_cons, List.nodup_cons]
  constructor
  · intro h
    obtain ⟨y, hy, e⟩ := List.mem_map.1 h
    obtain ⟨x, _, hx⟩ := List.mem_flatMap.1 hy
    obtain ⟨m, n, k⟩ := offspring_hist hx
    rw [e] at k
    simp at k
  · rw [List.map_flatMap, List.nodup_flatMap]
    refine ⟨fun x _ => offspring_nodup hs x, ?_⟩
    have : found.Pairwise (fun x y => x.1 ≠ y.1) := List.pairwise_map.1 hn
    refine this.imp ?_
    intro x y hxy h h2 h3
    obtain ⟨z, hz, rfl⟩ := List.mem_map.1 h2
    obtain ⟨z', hz', e⟩ := List.mem_map.1 h3
    obtain ⟨m, n, k⟩ := offspring_hist hz
    obtain ⟨m', n', k'⟩ := offspring_hist hz'
    rw [e, k] at k'
    exact hxy (hist_cut k').1

theorem eq_of_hist {l : List (List Name × Nat)} (hn : (l.map Prod.fst).Nodup) {x y : List Name × Nat} (hx : x ∈ l) (hy : y ∈ l)
    (h : x.1 = y.1) : x = y := List.inj_on_of_nodup_map hn hx hy h

/-- What holds of the histories found. -/
structure FoundInv (sim : Sim σ β) (t : Tree β) (found : List (List Name × Nat)) : Prop where
  nodup : (found.map Prod.fst).Nodup
  closed : ∀ x ∈ found, x ∈ known sim t found

theorem waiting_mem {found : List (List Name × Nat)} {x : List Name × Nat} : x ∈ waiting sim t found ↔ x ∈ known sim t found ∧ x ∉ found := by
  unfold waiting known
  rw [List.mem_filter]
  simp

theorem waiting_nodup (hs : Named sim t) {found : List (List Name × Nat)} (hf : FoundInv sim t found) :
    ((waiting sim t found).map Prod.fst).Nodup :=
  (known_nodup hs hf.nodup).sublist (List.filter_sublist.map _)

theorem known_snoc (found : List (List Name × Nat)) (x : List Name × Nat) : known sim t (found ++ [x]) = known sim t found ++ offspring sim t x := by
  unfold known
  simp

theorem FoundInv.snoc (hs : Named sim t) {found : List (List Name × Nat)} (hf : FoundInv sim t found) {x : List Name × Nat}
    (hx : x ∈ waiting sim t found) : FoundInv sim t (found ++ [x]) ∧
      waiting sim t (found ++ [x]) = (waiting sim t found).erase x ++ offspring sim t x := by
  obtain ⟨hk, hnf⟩ := waiting_mem.1 hx
  have hnew : x.1 ∉ found.map Prod.fst := by
    intro h
    obtain ⟨y, hy, e⟩ := List.mem_map.1 h
    rw [eq_of_hist (known_nodup hs hf.nodup) (hf.closed y hy) hk e] at hy
    exact hnf hy
  have hnodup : ((found ++ [x]).map Prod.fst).Nodup := by
    rw [List.map_append, List.nodup_append]
    refine ⟨hf.nodup, by simp, ?_⟩
    intro a ha b hb
    rw [List.map_singleton, List.mem_singleton] at hb
    rintro rfl
    exact hnew (hb ▸ ha)
  have hf' : FoundInv sim t (found ++ [x]) := by
    refine ⟨hnodup, fun y hy => ?_⟩
    rw [known_snoc]
    refine List.mem_append_left _ ?_
    rcases List.mem_append.1 hy with hy | hy
    · exact hf.closed y hy
    · rw [List.mem_singleton.1 hy]
      exact hk
  refine ⟨hf', ?_⟩
  have hoff : ∀ y ∈ offspring sim t x, y ∉ found ++ [x] := by
    intro y hy hmem
    have hkn := known_nodup hs hnodup
    rw [known_snoc, List.map_append, List.nodup_append] at hkn
    have hyk : y ∈ known sim t found := by
      rcases List.mem_append.1 hmem with h | h
      · exact hf.closed y h
      · rw [List.mem_singleton.1 h]
        exact hk
    exact hkn.2.2 _ (List.mem_map_of_mem hyk) _ (List.mem_map_of_mem hy) rfl
  have h1 : waiting sim t (found ++ [x]) = (known sim t found).filter (fun y => decide (y ∉ found ++ [x])) ++
      (offspring sim t x).filter (fun y => decide (y ∉ found ++ [x])) := by
    rw [← List.filter_append, ← known_snoc]
    rfl
  rw [h1, List.filter_eq_self.2 (fun y hy => decide_eq_true (hoff y hy)),
    List.Nodup.erase_eq_filter (List.Nodup.of_map _ (waiting_nodup hs hf))]
  congr 1
  unfold waiting
  rw [List.filter_filter]
  refine List.filter_congr fun y _ => ?_
  by_cases hy : y = x
  · simp [hy]
  · simp [hy]

/-- The loop: what it returns, and that it raises no exception. -/
theorem searchLoop_spec (hs : Named sim t) {order : String} {pop : List QueueEntry → Option (QueueEntry × List QueueEntry)}
    (hpop : popFor order = .ok pop) (maxNodes : Option Int) : ∀ (bound : Nat) (found : List (List Name × Nat)), FoundInv sim t found →
    ∃ more, FoundInv sim t (found ++ more) ∧
      (∀ pre x post, more = pre ++ x :: post → Picks t (waiting sim t (found ++ pre)) x order ∧
        (∀ k : Int, maxNodes = some k → ((found ++ pre).length : Int) < k)) ∧
      ((searchLoop sim t pop maxNodes bound ((waiting sim t found).map (entryOf t)) (found.map (entryOf t)) =
          .ok ((found ++ more).map (entryOf t)) ∧
          (waiting sim t (found ++ more) = [] ∨ ∃ k : Int, maxNodes = some k ∧ k ≤ ((found ++ more).length : Int))) ∨
        (searchLoop sim t pop maxNodes bound ((waiting sim t found).map (entryOf t)) (found.map (entryOf t)) = .error .unfinished ∧
          more.length = bound)) := by
  intro bound
  induction bound with
  | zero =>
      intro found hf
      exact ⟨[], by simpa using hf, by simp, Or.inr ⟨rfl, rfl⟩⟩
  | succ bound ih =>
      intro found hf
      unfold searchLoop
      by_cases hm : moreNodes maxNodes (found.map (entryOf t)) = true
      · rw [if_pos hm]
        rcases popFor_spec (t := t) hpop (waiting sim t found) (waiting_nodup hs hf) with ⟨h1, h2⟩ | ⟨x, hx, h1, h2⟩
        · refine ⟨[], by simpa using hf, by simp, Or.inl ⟨?_, Or.inl (by simpa using h2)⟩⟩
          rw [h1]
          simp
        · obtain ⟨hf', hw⟩ := hf.snoc hs hx
          obtain ⟨more, i1, i2, i3⟩ := ih (found ++ [x]) hf'
          have hmax : ∀ k : Int, maxNodes = some k → (found.length : Int) < k := by
            intro k hk
            unfold moreNodes at hm
            rw [hk] at hm
            simpa using hm
          refine ⟨x :: more, by simpa using i1, ?_, ?_⟩
          · intro pre y post e
            cases pre with
            | nil =>
                cases e
                rw [List.append_nil]
                exact ⟨h2, hmax⟩
            | cons z pre =>
                simp only [List.cons_append, List.cons.injEq] at e
                obtain ⟨rfl, e⟩ := e
                have := i2 pre y post e
                simpa using this
          · rw [h1]
            simp only
            rw [pushesAfter_eq hs]
            simp only [bind, Except.bind]
            rw [hw] at i3
            simpa using i3
      · rw [if_neg hm]
        refine ⟨[], by simpa using hf, by simp, Or.inl ⟨by simp, Or.inr ?_⟩⟩
        unfold moreNodes at hm
        rcases hk : maxNodes with _ | k
        · rw [hk] at hm
          simp at hm
        · rw [hk] at hm
          exact ⟨k, rfl, by simpa using hm⟩

end Verif
