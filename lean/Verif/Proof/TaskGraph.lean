import Verif.Model.TaskGraph
import Verif.Proof.Py
import Mathlib.Tactic.Common

/-! Lemmas about `Verif.Model.TaskGraph`. -/

set_option linter.unusedSectionVars false
set_option linter.unusedSimpArgs false

namespace Verif
namespace BaseGraph
variable {N L : Type} [DecidableEq N] [DecidableEq L]

/-- Representation invariant: a dictionary has each key once and a set has each element once. -/
structure WF (g : BaseGraph N L) : Prop where
  keys : (g.transitions.map Prod.fst).Nodup
  sets : ∀ kv ∈ g.transitions, kv.2.Nodup

theorem wf_empty : WF ({} : BaseGraph N L) := ⟨by simp, by simp⟩

theorem wf_add {g : BaseGraph N L} (h : WF g) (s : N) (l : L) (d : N) : WF (g.addTransition s l d) := by
  refine ⟨nodup_keys_dset h.keys _ _, ?_⟩
  intro kv hkv
  rw [addTransition, mem_dset h.keys] at hkv
  rcases hkv with ⟨_, hkv⟩ | rfl
  · exact h.sets kv hkv
  · apply nodup_setAdd
    rcases hg : dget g.transitions s with _ | out
    · simp
    · exact h.sets _ (dget_mem hg)

theorem wf_remove {g g' : BaseGraph N L} (h : WF g) {s : N} {l : L} {d : N}
    (hr : g.removeTransition s l d = .ok g') : WF g' := by
  unfold removeTransition at hr
  split at hr
  · cases hr
  · rename_i out ho
    split at hr
    · cases hr
      refine ⟨nodup_keys_dset h.keys _ _, ?_⟩
      intro kv hkv
      simp only at hkv
      rw [mem_dset h.keys] at hkv
      rcases hkv with ⟨_, hkv⟩ | rfl
      · exact h.sets kv hkv
      · exact (h.sets _ (dget_mem ho)).erase _
    · cases hr

theorem has_iff {g : BaseGraph N L} {s : N} {l : L} {d : N} :
    g.hasTransition s l d = true ↔ ∃ out, dget g.transitions s = some out ∧ (l, d) ∈ out := by
  unfold hasTransition
  split
  · rename_i out h
    simp [h]
  · rename_i h
    simp [h]

theorem has_add (g : BaseGraph N L) (s : N) (l : L) (d : N) (s' : N) (l' : L) (d' : N) :
    (g.addTransition s l d).hasTransition s' l' d' = true ↔
      g.hasTransition s' l' d' = true ∨ (s', l', d') = (s, l, d) := by
  simp only [has_iff, addTransition, dget_dset]
  by_cases h : s = s'
  · subst h
    rcases hg : dget g.transitions s with _ | out
    · simp
    · simp
  · simp [h, Ne.symm h]

theorem remove_ok_iff (g : BaseGraph N L) (s : N) (l : L) (d : N) :
    (∃ g', g.removeTransition s l d = .ok g') ↔ g.hasTransition s l d = true := by
  rw [has_iff]
  unfold removeTransition
  rcases hg : dget g.transitions s with _ | out
  · simp
  · by_cases h : (l, d) ∈ out <;> simp [h]

theorem remove_error (g : BaseGraph N L) (s : N) (l : L) (d : N) (h : g.hasTransition s l d = false) :
    g.removeTransition s l d = .error .keyError := by
  have : ¬ g.hasTransition s l d = true := by simp [h]
  rw [has_iff] at this
  unfold removeTransition
  rcases hg : dget g.transitions s with _ | out
  · rfl
  · have h' : (l, d) ∉ out := fun hm => this ⟨out, hg, hm⟩
    simp [h']

theorem has_remove {g g' : BaseGraph N L} (hw : WF g) {s : N} {l : L} {d : N}
    (hr : g.removeTransition s l d = .ok g') (s' : N) (l' : L) (d' : N) :
    g'.hasTransition s' l' d' = true ↔ g.hasTransition s' l' d' = true ∧ (s', l', d') ≠ (s, l, d) := by
  unfold removeTransition at hr
  rcases hg : dget g.transitions s with _ | out
  · simp [hg] at hr
  · by_cases h : (l, d) ∈ out
    · simp [hg, h] at hr
      subst hr
      simp only [has_iff, dget_dset]
      by_cases hs : s = s'
      · subst hs
        have hn := hw.sets _ (dget_mem hg)
        simp only [if_true, Option.some.injEq, exists_eq_left', hg]
        rw [hn.mem_erase_iff]
        simp
        tauto
      · simp [hs, Ne.symm hs]
    · simp [hg, h] at hr

theorem mem_all {g : BaseGraph N L} (hw : WF g) (s : N) (l : L) (d : N) :
    (s, l, d) ∈ g.allTransitions ↔ g.hasTransition s l d = true := by
  rw [has_iff]
  unfold allTransitions
  simp only [List.mem_flatMap, List.mem_map, Prod.mk.injEq]
  constructor
  · rintro ⟨kv, hkv, ld, hld, rfl, rfl, rfl⟩
    exact ⟨kv.2, dget_of_mem hw.keys hkv, hld⟩
  · rintro ⟨out, ho, hm⟩
    exact ⟨(s, out), dget_mem ho, (l, d), hm, rfl, rfl, rfl⟩

theorem nodup_all {g : BaseGraph N L} (hw : WF g) : g.allTransitions.Nodup := by
  unfold allTransitions
  obtain ⟨hk, hs⟩ := hw
  generalize g.transitions = t at hk hs
  induction t with
  | nil => simp
  | cons kv t ih =>
    simp only [List.map_cons, List.nodup_cons] at hk
    rw [List.flatMap_cons, List.nodup_append]
    refine ⟨?_, ih hk.2 (fun x hx => hs x (List.mem_cons_of_mem _ hx)), ?_⟩
    · refine (List.nodup_map_iff_inj_on (hs kv (List.mem_cons_self ..))).2 ?_
      intro x _ y _ hxy
      simp only [Prod.mk.injEq] at hxy
      exact Prod.ext hxy.2.1 hxy.2.2
    · intro a ha b hb hab
      simp only [List.mem_map] at ha
      simp only [List.mem_flatMap, List.mem_map] at hb
      obtain ⟨ld, _, rfl⟩ := ha
      obtain ⟨kv', hkv', ld', _, rfl⟩ := hb
      simp only [Prod.mk.injEq] at hab
      exact hk.1 (List.mem_map.2 ⟨kv', hkv', hab.1.symm⟩)

theorem eq_iff {g h : BaseGraph N L} (hg : WF g) (hh : WF h) :
    g.eq h = true ↔ (∀ k, k ∈ g.transitions.map Prod.fst ↔ k ∈ h.transitions.map Prod.fst) ∧
      ∀ s l d, g.hasTransition s l d = true ↔ h.hasTransition s l d = true := by
  unfold eq
  simp only [Bool.and_eq_true, decide_eq_true_eq, List.all_eq_true]
  constructor
  · rintro ⟨hlen, hall⟩
    have hsub : ∀ k, k ∈ g.transitions.map Prod.fst → k ∈ h.transitions.map Prod.fst := by
      intro k hk
      obtain ⟨kv, hkv, rfl⟩ := List.mem_map.1 hk
      have := hall kv hkv
      by_contra hc
      rw [← dget_eq_none] at hc
      simp [hc] at this
    have hperm : (g.transitions.map Prod.fst).Perm (h.transitions.map Prod.fst) := by
      apply List.Subperm.perm_of_length_le
      · exact List.subperm_of_subset hg.keys hsub
      · simp [hlen]
    refine ⟨fun k => hperm.mem_iff, ?_⟩
    intro s l d
    rw [has_iff, has_iff]
    by_cases hk : s ∈ g.transitions.map Prod.fst
    · obtain ⟨kv, hkv, rfl⟩ := List.mem_map.1 hk
      have h1 := hall kv hkv
      have h2 := dget_of_mem hg.keys hkv
      rcases h3 : dget h.transitions kv.1 with _ | out
      · simp [h3] at h1
      · rw [h3] at h1
        simp only [setEq_iff] at h1
        simp [h2, h1]
    · have hk' : s ∉ h.transitions.map Prod.fst := fun h' => hk (hperm.mem_iff.2 h')
      rw [← dget_eq_none] at hk hk'
      simp [hk, hk']
  · rintro ⟨hk, ht⟩
    have hperm : (g.transitions.map Prod.fst).Perm (h.transitions.map Prod.fst) :=
      (List.perm_ext_iff_of_nodup hg.keys hh.keys).2 hk
    refine ⟨by simpa using hperm.length_eq, ?_⟩
    intro kv hkv
    have h2 := dget_of_mem hg.keys hkv
    rcases h3 : dget h.transitions kv.1 with _ | out
    · exfalso
      rw [dget_eq_none, ← hk] at h3
      exact h3 (List.mem_map.2 ⟨kv, hkv, rfl⟩)
    · simp only [setEq_iff]
      intro x
      have := ht kv.1 x.1 x.2
      rw [has_iff, has_iff, h2, h3] at this
      simpa using this

/-! ### compact -/

/-- The triple a boundary transition is replaced by. -/
def contract (emp : L) (nodes : List N) (new : N) (t : N × L × N) : N × L × N :=
  (if t.1 ∈ nodes then new else t.1, emp, if t.2.2 ∈ nodes then new else t.2.2)

theorem compactStep_spec (emp : L) (nodes : List N) (new : N) (g : BaseGraph N L) (hw : WF g) (t : N × L × N)
    (ht : g.hasTransition t.1 t.2.1 t.2.2 = true) :
    ∃ g', compactStep emp nodes new g t = .ok g' ∧ WF g' ∧
      ∀ u : N × L × N, g'.hasTransition u.1 u.2.1 u.2.2 = true ↔
        (g.hasTransition u.1 u.2.1 u.2.2 = true ∧ (u = t → t.1 ∉ nodes ∧ t.2.2 ∉ nodes)) ∨
        (¬ (t.1 ∈ nodes ↔ t.2.2 ∈ nodes) ∧ u = contract emp nodes new t) := by
  obtain ⟨s, l, d⟩ := t
  simp only at ht
  obtain ⟨g', hg'⟩ := (remove_ok_iff g s l d).2 ht
  have hw' := wf_remove hw hg'
  have hr := has_remove hw hg'
  by_cases h1 : s ∈ nodes <;> by_cases h2 : d ∈ nodes <;>
    simp only [compactStep, contract, h1, h2, hg', decide_true, decide_false, Bool.or_true, Bool.or_false,
      Bool.true_or, Bool.and_true, Bool.and_false, Bool.not_true, Bool.not_false, if_true, if_false,
      Bool.false_eq_true, not_true, not_false_eq_true, and_true, and_false, imp_false, implies_true, iff_true, iff_false,
      false_and, or_false, not_not, true_and]
  · exact ⟨g', rfl, hw', fun u => hr u.1 u.2.1 u.2.2⟩
  · exact ⟨_, rfl, wf_add hw' _ _ _, fun u => by rw [has_add, hr]⟩
  · exact ⟨_, rfl, wf_add hw' _ _ _, fun u => by rw [has_add, hr]⟩
  · exact ⟨g, rfl, hw, fun u => Iff.rfl⟩

theorem foldlM_compact (emp : L) (nodes : List N) (new : N) (post pre : List (N × L × N)) (g : BaseGraph N L)
    (hw : WF g) (hn : (pre ++ post).Nodup)
    (hg : ∀ u : N × L × N, g.hasTransition u.1 u.2.1 u.2.2 = true ↔
      u ∈ post ∨ (u ∈ pre ∧ u.1 ∉ nodes ∧ u.2.2 ∉ nodes) ∨
      ∃ t ∈ pre, ¬ (t.1 ∈ nodes ↔ t.2.2 ∈ nodes) ∧ u = contract emp nodes new t) :
    ∃ g', post.foldlM (compactStep emp nodes new) g = .ok g' ∧ WF g' ∧
      ∀ u : N × L × N, g'.hasTransition u.1 u.2.1 u.2.2 = true ↔
      (u ∈ pre ++ post ∧ u.1 ∉ nodes ∧ u.2.2 ∉ nodes) ∨
      ∃ t ∈ pre ++ post, ¬ (t.1 ∈ nodes ↔ t.2.2 ∈ nodes) ∧ u = contract emp nodes new t := by
  induction post generalizing pre g with
  | nil => exact ⟨g, rfl, hw, by simpa using hg⟩
  | cons t post ih =>
    have ht : g.hasTransition t.1 t.2.1 t.2.2 = true := (hg t).2 (Or.inl (List.mem_cons_self ..))
    obtain ⟨g1, h1, hw1, hs1⟩ := compactStep_spec emp nodes new g hw t ht
    have hn' : ((pre ++ [t]) ++ post).Nodup := by simpa using hn
    have := ih (pre ++ [t]) g1 hw1 hn' (by
      intro u
      rw [hs1, hg]
      by_cases hut : u = t
      · subst hut
        have hup : u ∉ post := by
          have := hn'
          simp [List.nodup_append, List.nodup_cons] at this
          tauto
        constructor
        · rintro (⟨_, h⟩ | ⟨h1, h2⟩)
          · exact Or.inr (Or.inl ⟨by simp, h rfl⟩)
          · exact Or.inr (Or.inr ⟨u, by simp, h1, h2⟩)
        · rintro (h | ⟨_, h⟩ | ⟨t', ht', hx, hu⟩)
          · exact absurd h hup
          · exact Or.inl ⟨Or.inl (by simp), fun _ => h⟩
          · by_cases hcl : u.1 ∉ nodes ∧ u.2.2 ∉ nodes
            · exact Or.inl ⟨Or.inl (by simp), fun _ => hcl⟩
            · right
              -- `u` is a contracted triple that touches `nodes`: contracting it again gives `u`
              obtain ⟨s, l, d⟩ := u
              obtain ⟨s', l', d'⟩ := t'
              simp only [contract, Prod.mk.injEq] at hu hx hcl ⊢
              obtain ⟨rfl, rfl, rfl⟩ := hu
              by_cases a : s' ∈ nodes <;> by_cases b : d' ∈ nodes <;> by_cases c : new ∈ nodes <;>
                simp_all
      · simp only [List.mem_append, List.mem_cons, hut, List.not_mem_nil, or_false, false_or, false_implies,
          and_true]
        constructor
        · rintro ((h | h | ⟨t', h1, h2⟩) | h)
          · exact Or.inl h
          · exact Or.inr (Or.inl h)
          · exact Or.inr (Or.inr ⟨t', Or.inl h1, h2⟩)
          · exact Or.inr (Or.inr ⟨t, Or.inr rfl, h⟩)
        · rintro (h | h | ⟨t', h1 | rfl, h2⟩)
          · exact Or.inl (Or.inl h)
          · exact Or.inl (Or.inr (Or.inl h))
          · exact Or.inl (Or.inr (Or.inr ⟨t', h1, h2⟩))
          · exact Or.inr h2)
    obtain ⟨g', hg', hw', hs'⟩ := this
    refine ⟨g', ?_, hw', by simpa using hs'⟩
    rw [List.foldlM_cons, h1]
    exact hg'

/-! ### as_dictionary -/

theorem mem_allNodes (order : List (N × L × N)) (acc : List N) (n : N) :
    n ∈ order.foldl (fun ns t => setAdd (setAdd ns t.1) t.2.2) acc ↔
      n ∈ acc ∨ ∃ t ∈ order, n = t.1 ∨ n = t.2.2 := by
  induction order generalizing acc with
  | nil => simp
  | cons t order ih =>
    rw [List.foldl_cons, ih]
    simp only [mem_setAdd, List.mem_cons, exists_eq_or_imp, or_assoc]

theorem nodup_allNodes (order : List (N × L × N)) (acc : List N) (h : acc.Nodup) :
    (order.foldl (fun ns t => setAdd (setAdd ns t.1) t.2.2) acc).Nodup := by
  induction order generalizing acc with
  | nil => exact h
  | cons t order ih => exact ih _ (nodup_setAdd (nodup_setAdd h _) _)

theorem dget_ids (ns : List N) (k : Nat) (acc : List (N × Nat)) (hn : ns.Nodup) (n : N) :
    dget ((ns.zipIdx k).foldl (fun d ni => dset d ni.1 ni.2) acc) n =
      if n ∈ ns then some (k + ns.idxOf n) else dget acc n := by
  induction ns generalizing k acc with
  | nil => simp
  | cons m ns ih =>
    rw [List.zipIdx_cons, List.foldl_cons, ih _ _ (List.nodup_cons.1 hn).2]
    have hm := (List.nodup_cons.1 hn).1
    by_cases h : m = n
    · subst h
      simp [hm, dget_dset]
    · by_cases h2 : n ∈ ns
      · simp [h, h2, List.idxOf_cons, Ne.symm h]
        omega
      · simp [h, h2, dget_dset, Ne.symm h]

end BaseGraph

/-! ### paths -/

section paths
variable {S A : Type}

theorem checkPath_cons3 (chk : A → S → S → Bool) (x y z : Elem S A) (r : List (Elem S A)) :
    checkPath chk (x :: y :: z :: r) = true ↔
      ∃ s a s', x = .state s ∧ y = .action a ∧ z = .state s' ∧ chk a s s' = true ∧
        checkPath chk (z :: r) = true := by
  cases x <;> cases y <;> cases z <;> simp [checkPath]

theorem checkPath_two (chk : A → S → S → Bool) (x y : Elem S A) : checkPath chk [x, y] = false := by
  cases x <;> cases y <;> simp [checkPath]

theorem checkPath_one (chk : A → S → S → Bool) (x : Elem S A) :
    checkPath chk [x] = true ↔ ∃ s, x = .state s := by
  cases x <;> simp [checkPath]

theorem splitPath_getElem {α : Type} (p : List α) (k : Nat) :
    (splitPath p)[k]? =
      match p[2 * k]?, p[2 * k + 1]?, p[2 * k + 2]? with
      | some x, some y, some z => some (x, y, z)
      | _, _, _ => none := by
  induction p using splitPath.induct generalizing k with
  | case1 x y z rest ih =>
    cases k with
    | zero => simp [splitPath]
    | succ k =>
      have h1 : 2 * (k + 1) = 2 * k + 1 + 1 := by omega
      rw [splitPath, List.getElem?_cons_succ, ih, h1]
      simp
  | case2 p h =>
    have : p.length ≤ 2 := by
      match p, h with
      | [], _ => simp
      | [_], _ => simp
      | [_, _], _ => simp
      | x :: y :: z :: r, h => exact absurd rfl (h x y z r)
    have h2 : p[2 * k + 2]? = none := by simp; omega
    have h3 : splitPath p = [] := by
      match p, h with
      | [], _ => rfl
      | [_], _ => rfl
      | [_, _], _ => rfl
      | x :: y :: z :: r, h => exact absurd rfl (h x y z r)
    rw [h3, h2]
    split <;> simp_all

theorem mem_typedSteps (p : List (Elem S A)) (s : S) (a : A) (s' : S) :
    (s, a, s') ∈ typedSteps p ↔
      ∃ k, p[2 * k]? = some (.state s) ∧ p[2 * k + 1]? = some (.action a) ∧ p[2 * k + 2]? = some (.state s') := by
  unfold typedSteps
  rw [List.mem_filterMap]
  constructor
  · rintro ⟨⟨x, y, z⟩, hm, ht⟩
    obtain ⟨k, hk⟩ := List.mem_iff_getElem?.1 hm
    rw [splitPath_getElem] at hk
    refine ⟨k, ?_⟩
    cases x <;> cases y <;> cases z <;> simp at ht
    obtain ⟨rfl, rfl, rfl⟩ := ht
    split at hk <;> simp_all
  · rintro ⟨k, h1, h2, h3⟩
    refine ⟨(.state s, .action a, .state s'), ?_, rfl⟩
    rw [List.mem_iff_getElem?]
    exact ⟨k, by rw [splitPath_getElem, h1, h2, h3]⟩

theorem checkPath_head {chk : A → S → S → Bool} {p : List (Elem S A)} (h : checkPath chk p = true) (hne : p ≠ []) :
    ∃ s, p.head? = some (.state s) := by
  match p, h, hne with
  | [x], h, _ =>
    obtain ⟨s, rfl⟩ := (checkPath_one chk x).1 h
    exact ⟨s, rfl⟩
  | [x, y], h, _ => rw [checkPath_two] at h; cases h
  | x :: y :: z :: r, h, _ =>
    obtain ⟨s, _, _, rfl, _⟩ := (checkPath_cons3 chk x y z r).1 h
    exact ⟨s, rfl⟩

theorem checkPath_last {chk : A → S → S → Bool} (p : List (Elem S A)) (h : checkPath chk p = true) (hne : p ≠ []) :
    ∃ s, p.getLast? = some (.state s) := by
  induction p using splitPath.induct with
  | case1 x y z rest ih =>
    obtain ⟨_, _, _, _, _, _, _, h'⟩ := (checkPath_cons3 chk x y z rest).1 h
    obtain ⟨s, hs⟩ := ih h' (by simp)
    exact ⟨s, by simpa [List.getLast?_cons_cons] using hs⟩
  | case2 p hp =>
    match p, h, hne, hp with
    | [x], h, _, _ =>
      obtain ⟨s, rfl⟩ := (checkPath_one chk x).1 h
      exact ⟨s, rfl⟩
    | [x, y], h, _, _ => rw [checkPath_two] at h; cases h
    | x :: y :: z :: r, _, _, hp => exact absurd rfl (hp x y z r)

end paths

namespace TaskGraph
variable {S A : Type} [DecidableEq S] [DecidableEq A]
open BaseGraph

theorem foldl_add (ts : List (S × A × S)) (b : BaseGraph S A) (hw : WF b) :
    WF (ts.foldl (fun b t => b.addTransition t.1 t.2.1 t.2.2) b) ∧
    (∀ s l d, (ts.foldl (fun b t => b.addTransition t.1 t.2.1 t.2.2) b).hasTransition s l d = true ↔
      b.hasTransition s l d = true ∨ (s, l, d) ∈ ts) ∧
    (∀ k, k ∈ (ts.foldl (fun b t => b.addTransition t.1 t.2.1 t.2.2) b).transitions.map Prod.fst ↔
      k ∈ b.transitions.map Prod.fst ∨ ∃ t ∈ ts, k = t.1) := by
  induction ts generalizing b with
  | nil => simp [hw]
  | cons t ts ih =>
    obtain ⟨h1, h2, h3⟩ := ih (b.addTransition t.1 t.2.1 t.2.2) (wf_add hw _ _ _)
    rw [List.foldl_cons]
    refine ⟨h1, ?_, ?_⟩
    · intro s l d
      rw [h2, has_add, List.mem_cons, or_assoc]
    · intro k
      rw [h3, addTransition, mem_keys_dset, List.mem_map]
      simp only [List.mem_cons, exists_eq_or_imp, List.mem_map, or_assoc]

theorem mem_addEnds_initial (g : TaskGraph S A) (chk : A → S → S → Bool) (p : List (Elem S A))
    (h : checkPath chk p = true) (s : S) :
    (s ∈ (g.addEnds p).initial ↔ s ∈ g.initial ∨ p.head? = some (.state s)) ∧
    (s ∈ (g.addEnds p).terminal ↔ s ∈ g.terminal ∨ p.getLast? = some (.state s)) := by
  unfold addEnds
  rcases eq_or_ne p [] with rfl | hne
  · simp
  · obtain ⟨s0, h0⟩ := checkPath_head h hne
    obtain ⟨s1, h1⟩ := checkPath_last p h hne
    rw [h0, h1]
    simp
    constructor <;> constructor <;> (rintro (h | h) <;> simp [h])

theorem addEnds_base (g : TaskGraph S A) (p : List (Elem S A)) : (g.addEnds p).toBaseGraph = g.toBaseGraph := by
  unfold addEnds
  split <;> rfl

end TaskGraph
end Verif
