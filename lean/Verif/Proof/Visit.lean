import Verif.Proof.BeliefRunner

/-! Lemmas on `visit`. -/

set_option linter.unusedSectionVars false
set_option linter.unusedSimpArgs false

namespace Verif
open Spec

theorem sqDist_eq (n : Nat) (a b : List ℚ) (ha : a.length = n) (hb : b.length = n) : sqDist a b = distSq n a b := by
  unfold sqDist distSq
  induction n generalizing a b with
  | zero =>
    have := List.eq_nil_of_length_eq_zero ha
    subst this
    rfl
  | succ n ih =>
    match a, b, ha, hb with
    | x :: a, y :: b, ha, hb =>
      simp only [List.zipWith_cons_cons, List.sum_cons]
      rw [ih a b (by simpa using ha) (by simpa using hb), Nat.add_comm n 1, sumRange_append]
      simp [sumRange, Nat.add_comm 1]

theorem sqDist_self (a : List ℚ) : sqDist a a = 0 := by
  unfold sqDist
  induction a with
  | nil => rfl
  | cons x a ih => simp only [List.zipWith_cons_cons, List.sum_cons, ih]; ring

theorem closest_spec (nodes : List (List ℚ)) (b : List ℚ) (h : nodes ≠ []) :
    ∃ i, closest nodes b = some (i, sqDist (nodes.getD i []) b) ∧ i < nodes.length ∧
      ∀ j < nodes.length, sqDist (nodes.getD i []) b ≤ sqDist (nodes.getD j []) b := by
  obtain ⟨r, v, h1, h2, h3⟩ := argmax_spec (nodes.map fun n => - sqDist n b) (by simpa using h)
  have hr : r < nodes.length := by simpa using (List.getElem?_eq_some_iff.1 h2).1
  have hget : ∀ i, i < nodes.length → (nodes.map fun n => - sqDist n b)[i]? = some (- sqDist (nodes.getD i []) b) := by
    intro i hi
    rw [List.getElem?_map, List.getElem?_eq_getElem hi, Option.map_some, List.getD_eq_getElem?_getD, List.getElem?_eq_getElem hi]
    rfl
  refine ⟨r, by simp only [closest, h1], hr, fun j hj => ?_⟩
  have := (h3 j _ (hget j hj)).1
  rw [hget r hr] at h2
  rw [← Option.some.inj h2] at this
  linarith

/-- An entry of the table of transitions. -/
def entry (t : List (List (Option Int))) (i io : Nat) : Option Int := (t.getD i []).getD io none

/-- Invariant of `visit`: `k` nodes have been taken from the queue, and the entries in `Done` have been filled. -/
structure VInv (g : GraphPolicy) (p : Pomdp) (nS nO : Nat) (x : Aux) (k : Nat) (Done : Nat → Nat → Prop) : Prop where
  ltrans : x.trans.length = x.nodes.length
  lacts : x.actions.length = x.nodes.length
  dist : ∀ b ∈ x.nodes, IsDist nS b
  apart : ∀ i j, i < j → j < x.nodes.length → tolSq ≤ sqDist (x.nodes.getD i []) (x.nodes.getD j [])
  acts : ∀ i < x.nodes.length, ∃ act, x.actions[i]? = some act ∧ PolicyAction g (x.nodes.getD i []) act
  rows : ∀ row ∈ x.trans, row.length = nO
  closed : ∀ i < x.nodes.length, ∀ io j, entry x.trans i io = some j → ∃ n : Nat, j = n ∧ n < x.nodes.length ∧
    ∃ b', PolicyPosterior g p nS (x.nodes.getD i []) io b' ∧ sqDist (x.nodes.getD n []) b' < tolSq
  le : k ≤ x.nodes.length
  queue : x.queue = List.range' k (x.nodes.length - k)
  complete : ∀ i io, Done i io → (entry x.trans i io = none ↔ ¬ ∃ b', PolicyPosterior g p nS (x.nodes.getD i []) io b')
  todo : ∀ i io, ¬ Done i io → entry x.trans i io = none
  doneLt : ∀ i io, Done i io → i < x.nodes.length

theorem getD_of_le {α : Type} (l : List α) (i : Nat) (d : α) (h : l.length ≤ i) : l.getD i d = d := by
  rw [List.getD_eq_getElem?_getD, List.getElem?_eq_none h]; rfl

theorem getD_append_left' {α : Type} (l m : List α) (i : Nat) (d : α) (h : i < l.length) : (l ++ m).getD i d = l.getD i d := by
  simp [List.getD_eq_getElem?_getD, List.getElem?_append_left h]

theorem getD_append_last {α : Type} (l : List α) (x d : α) : (l ++ [x]).getD l.length d = x := by
  simp [List.getD_eq_getElem?_getD]

theorem getD_mem {α : Type} (l : List α) (i : Nat) (d : α) (h : i < l.length) : l.getD i d ∈ l := by
  rw [List.getD_eq_getElem?_getD, List.getElem?_eq_getElem h]
  exact List.getElem_mem h

theorem sqDist_symm (a b : List ℚ) : sqDist a b = sqDist b a := by
  unfold sqDist
  rw [List.zipWith_comm]
  congr 1
  apply congrArg (fun f => List.zipWith f b a)
  funext x y
  ring

theorem entry_append (t : List (List (Option Int))) (row : List (Option Int)) (hrow : ∀ x ∈ row, x = none) (i io : Nat) :
    entry (t ++ [row]) i io = entry t i io := by
  unfold entry
  by_cases h : i < t.length
  · rw [getD_append_left' _ _ _ _ h]
  · by_cases h' : i = t.length
    · subst h'
      rw [getD_append_last]
      have : t.getD t.length [] = [] := by simp [List.getD_eq_getElem?_getD]
      rw [this]
      by_cases hio : io < row.length
      · rw [hrow _ (getD_mem row io none hio)]; rfl
      · simp [List.getD_eq_getElem?_getD, List.getElem?_eq_none (not_lt.1 hio)]
    · have h1 : (t ++ [row]).getD i [] = [] := by
        rw [List.getD_eq_getElem?_getD, List.getElem?_eq_none (by simp; omega)]; rfl
      have h2 : t.getD i [] = [] := by
        rw [List.getD_eq_getElem?_getD, List.getElem?_eq_none (by omega)]; rfl
      rw [h1, h2]

variable (g : GraphPolicy) (p : Pomdp) (nS nA nO : Nat)

/-- Adding a node that is far from the others. -/
theorem auxAdd_spec (hp : Stochastic p nS nA nO) (hf : Fits g p nS) (x : Aux) (k : Nat) (Done : Nat → Nat → Prop)
    (hx : VInv g p nS nO x k Done) (b : List ℚ) (hb : IsDist nS b)
    (hfar : ∀ i < x.nodes.length, tolSq ≤ sqDist (x.nodes.getD i []) b) :
    ∃ y, auxAdd g p x b = .ok (x.nodes.length, y) ∧ VInv g p nS nO y k Done ∧ y.nodes = x.nodes ++ [b] ∧
      ∀ i io, entry y.trans i io = entry x.trans i io := by
  obtain ⟨n, h1, h2⟩ := nodeFromBelief_spec g.values b hf.1 (fun v hv => by rw [hf.2.2.1 v hv, hb.1])
  have hna : n < g.actions.length := by rw [← hf.2.1]; exact h2.1
  have hact : g.actions[n]? = some g.actions[n] := List.getElem?_eq_getElem hna
  refine ⟨⟨x.nodes ++ [b], x.queue ++ [x.nodes.length], x.trans ++ [p.observations.map fun _ => none], x.actions ++ [g.actions[n]]⟩,
    ?_, ?_, rfl, ?_⟩
  · unfold auxAdd
    rw [h1]
    simp only [bind, Except.bind, getAction_nat g n _ hact, pure, Except.pure]
  · have hent : ∀ i io, entry (x.trans ++ [p.observations.map fun _ => none]) i io = entry x.trans i io :=
      entry_append _ _ (by simp)
    have hsh := hp.1
    obtain ⟨_, _, hO, _⟩ := hsh
    constructor
    · simp [hx.ltrans]
    · simp [hx.lacts]
    · intro c hc
      rcases List.mem_append.1 hc with hc | hc
      · exact hx.dist c hc
      · simp only [List.mem_singleton] at hc; subst hc; exact hb
    · intro i j hij hj
      simp only [List.length_append, List.length_singleton] at hj
      rw [getD_append_left' _ _ _ _ (by omega)]
      by_cases hj' : j < x.nodes.length
      · rw [getD_append_left' _ _ _ _ hj']
        exact hx.apart i j hij hj'
      · have : j = x.nodes.length := by omega
        subst this
        rw [getD_append_last]
        exact hfar i hij
    · intro i hi
      simp only [List.length_append, List.length_singleton] at hi
      by_cases hi' : i < x.nodes.length
      · obtain ⟨act, k1, k2⟩ := hx.acts i hi'
        refine ⟨act, ?_, by rw [getD_append_left' _ _ _ _ hi']; exact k2⟩
        rw [List.getElem?_append_left (by rw [hx.lacts]; exact hi')]
        exact k1
      · have : i = x.nodes.length := by omega
        subst this
        refine ⟨g.actions[n], ?_, ?_⟩
        · rw [← hx.lacts]; simp
        · rw [getD_append_last]; exact ⟨n, h2, hact⟩
    · intro row hrow
      rcases List.mem_append.1 hrow with hrow | hrow
      · exact hx.rows row hrow
      · simp only [List.mem_singleton] at hrow; subst hrow; simp [hO]
    · intro i hi io j hj
      rw [hent] at hj
      have hi' : i < x.nodes.length := by
        by_contra hc
        have : entry x.trans i io = none := by
          unfold entry
          rw [getD_of_le x.trans i [] (by rw [hx.ltrans]; omega)]
          rfl
        rw [this] at hj
        cases hj
      obtain ⟨m, e1, e2, b', e3, e4⟩ := hx.closed i hi' io j hj
      refine ⟨m, e1, by simp; omega, b', ?_, ?_⟩
      · rw [getD_append_left' _ _ _ _ hi']; exact e3
      · rw [getD_append_left' _ _ _ _ e2]; exact e4
    · have := hx.le; simp; omega
    · have := hx.le
      show x.queue ++ [x.nodes.length] = _
      rw [hx.queue]
      have e : (x.nodes ++ [b]).length - k = (x.nodes.length - k) + 1 := by simp; omega
      rw [e, List.range'_concat]
      congr 2
      omega
    · intro i io hd
      have hi := hx.doneLt i io hd
      rw [hent, getD_append_left' _ _ _ _ hi]
      exact hx.complete i io hd
    · intro i io hd
      rw [hent]
      exact hx.todo i io hd
    · intro i io hd
      have := hx.doneLt i io hd
      simp; omega
  · exact entry_append _ _ (by simp)

theorem tolSq_pos : (0 : ℚ) < tolSq := by norm_num [tolSq]

/-- The node of a belief. -/
theorem auxIndex_spec (hp : Stochastic p nS nA nO) (hf : Fits g p nS) (x : Aux) (k : Nat) (Done : Nat → Nat → Prop)
    (hx : VInv g p nS nO x k Done) (b : List ℚ) (hb : IsDist nS b) :
    ∃ j y, auxIndex g p x b = .ok (j, y) ∧ VInv g p nS nO y k Done ∧ j < y.nodes.length ∧
      sqDist (y.nodes.getD j []) b < tolSq ∧ (∃ suf, y.nodes = x.nodes ++ suf ∧ suf.length ≤ 1) ∧
      ∀ i io, entry y.trans i io = entry x.trans i io := by
  by_cases hne : x.nodes = []
  · obtain ⟨y, h1, h2, h3, h4⟩ := auxAdd_spec g p nS nA nO hp hf x k Done hx b hb (by rw [hne]; simp)
    refine ⟨x.nodes.length, y, ?_, h2, by rw [h3]; simp, ?_, ⟨[b], h3, by simp⟩, h4⟩
    · unfold auxIndex
      have : closest x.nodes b = none := by rw [hne]; rfl
      rw [this]
      exact h1
    · rw [h3, getD_append_last, sqDist_self]; exact tolSq_pos
  · obtain ⟨i, h1, h2, h3⟩ := closest_spec x.nodes b hne
    unfold auxIndex
    rw [h1]
    by_cases hd : sqDist (x.nodes.getD i []) b < tolSq
    · refine ⟨i, x, by simp only [if_pos hd], hx, h2, hd, ⟨[], by simp, by simp⟩, fun _ _ => rfl⟩
    · obtain ⟨y, k1, k2, k3, k4⟩ := auxAdd_spec g p nS nA nO hp hf x k Done hx b hb
        (fun j hj => le_trans (not_lt.1 hd) (h3 j hj))
      refine ⟨x.nodes.length, y, by simp only [if_neg hd]; exact k1, k2, by rw [k3]; simp, ?_, ⟨[b], k3, by simp⟩, k4⟩
      rw [k3, getD_append_last, sqDist_self]; exact tolSq_pos

theorem entry_set (t : List (List (Option Int))) (ib io : Nat) (v : Int) (hib : ib < t.length) (hio : io < (t.getD ib []).length)
    (i jo : Nat) : entry (setTrans t ib io v) i jo = if i = ib ∧ jo = io then some v else entry t i jo := by
  unfold entry setTrans
  by_cases hi : i = ib
  · subst hi
    have : (t.set i ((t.getD i []).set io (some v))).getD i [] = (t.getD i []).set io (some v) := by
      rw [List.getD_eq_getElem?_getD, List.getElem?_set_self hib]; rfl
    rw [this]
    by_cases hj : jo = io
    · subst hj
      rw [List.getD_eq_getElem?_getD, List.getElem?_set_self hio]; simp
    · rw [List.getD_eq_getElem?_getD, List.getElem?_set_ne (Ne.symm hj), List.getD_eq_getElem?_getD]; simp [hj]
  · have : (t.set ib ((t.getD ib []).set io (some v))).getD i [] = t.getD i [] := by
      rw [List.getD_eq_getElem?_getD, List.getElem?_set_ne (Ne.symm hi), ← List.getD_eq_getElem?_getD]
    rw [this]; simp [hi]

/-- Recording a transition. -/
theorem setTrans_spec (x : Aux) (k : Nat) (Done : Nat → Nat → Prop) (hx : VInv g p nS nO x k Done) (ib io j : Nat)
    (hib : ib < x.nodes.length) (hio : io < nO) (hj : j < x.nodes.length) (b' : List ℚ)
    (hpost : PolicyPosterior g p nS (x.nodes.getD ib []) io b') (hd : sqDist (x.nodes.getD j []) b' < tolSq) :
    VInv g p nS nO { x with trans := setTrans x.trans ib io j } k (fun i jo => Done i jo ∨ (i = ib ∧ jo = io)) := by
  have hib' : ib < x.trans.length := by rw [hx.ltrans]; exact hib
  have hio' : io < (x.trans.getD ib []).length := by rw [hx.rows _ (getD_mem x.trans ib [] hib')]; exact hio
  have hent := entry_set x.trans ib io (j : Int) hib' hio'
  constructor
  · simp [setTrans, hx.ltrans]
  · exact hx.lacts
  · exact hx.dist
  · exact hx.apart
  · exact hx.acts
  · intro row hrow
    simp only [setTrans] at hrow
    rcases List.mem_or_eq_of_mem_set hrow with h | h
    · exact hx.rows row h
    · rw [h, List.length_set, hx.rows _ (getD_mem x.trans ib [] hib')]
  · intro i hi jo t ht
    have ht' : entry (setTrans x.trans ib io j) i jo = some t := ht
    rw [hent] at ht'
    by_cases h : i = ib ∧ jo = io
    · rw [if_pos h] at ht'
      obtain ⟨rfl, rfl⟩ := h
      exact ⟨j, (Option.some.inj ht').symm, hj, b', hpost, hd⟩
    · rw [if_neg h] at ht'
      exact hx.closed i hi jo t ht'
  · exact hx.le
  · exact hx.queue
  · intro i jo h
    show entry (setTrans x.trans ib io j) i jo = none ↔ _
    rw [hent]
    split
    · rename_i h'
      obtain ⟨rfl, rfl⟩ := h'
      simp only [false_iff, reduceCtorEq, not_not]
      exact ⟨b', hpost⟩
    · rename_i h'
      rcases h with h | h
      · exact hx.complete i jo h
      · exact absurd h h'
  · intro i jo h
    show entry (setTrans x.trans ib io j) i jo = none
    rw [hent, if_neg (fun h' => h (Or.inr h'))]
    exact hx.todo i jo (fun h' => h (Or.inl h'))
  · intro i jo h
    rcases h with h | ⟨rfl, rfl⟩
    · exact hx.doneLt i jo h
    · exact hib

/-- Nothing to record. -/
theorem skip_spec (x : Aux) (k : Nat) (Done : Nat → Nat → Prop) (hx : VInv g p nS nO x k Done) (ib io : Nat)
    (hib : ib < x.nodes.length) (hno : ¬ ∃ b', PolicyPosterior g p nS (x.nodes.getD ib []) io b') :
    VInv g p nS nO x k (fun i jo => Done i jo ∨ (i = ib ∧ jo = io)) := by
  refine { hx with complete := ?_, todo := fun i jo h => hx.todo i jo (fun h' => h (Or.inl h')), doneLt := ?_ }
  · intro i jo h
    rcases h with h | ⟨rfl, rfl⟩
    · exact hx.complete i jo h
    · by_cases hd : Done i jo
      · exact hx.complete i jo hd
      · rw [hx.todo i jo hd]
        simpa using hno
  · intro i jo h
    rcases h with h | ⟨rfl, rfl⟩
    · exact hx.doneLt i jo h
    · exact hib

theorem resetStep_cases (hp : Stochastic p nS nA nO) (hf : Fits g p nS) (hdn : NamesDistinct p) (b : List ℚ) (hb : IsDist nS b)
    (io : Nat) (o : Name) (ho : p.observations[io]? = some o) :
    (resetStep g p b o = .error .impossible ∧ ¬ ∃ b', PolicyPosterior g p nS b io b') ∨
    (∃ b', resetStep g p b o = .ok b' ∧ IsDist nS b' ∧ PolicyPosterior g p nS b io b') := by
  obtain ⟨n, h1, m, hm, hbest⟩ := bReset_ok g p nS hf b hb.1 ⟨[], 0⟩
  have hv : BRunner.Valid g nS ⟨b, n⟩ := ⟨hb, m, hm, hbest⟩
  obtain ⟨act, a, oi, k1, k2, k3, _, _, hcase⟩ := bStep_cases g p nS nA nO hp hf ⟨b, n⟩ hv o (List.mem_of_getElem? ho)
  have hoi := nodup_index _ hdn.2 _ _ _ ho k3
  subst hoi
  unfold resetStep
  rw [h1]
  rcases hcase with ⟨hz, hs⟩ | ⟨r1, hpost, hv1, _, hs⟩
  · left
    simp only [hs]
    refine ⟨trivial, ?_⟩
    rintro ⟨b', act', a', q1, q2, q3⟩
    have e1 := policyAction_unique g b _ _ k1 q1
    subst e1
    have e2 := nodup_index _ hdn.1 _ _ _ k2 q2
    subst e2
    exact q3.1 hz
  · right
    simp only [hs]
    exact ⟨r1.belief, rfl, hv1.1, act, a, k1, k2, hpost⟩

theorem drop_cons_get {α : Type} (l : List α) (i : Nat) (x : α) (xs : List α) (h : l.drop i = x :: xs) :
    l[i]? = some x ∧ l.drop (i + 1) = xs ∧ i < l.length := by
  have h1 : l[i]? = some x := by
    have := congrArg List.head? h
    rw [List.head?_drop] at this
    exact this
  refine ⟨h1, ?_, (List.getElem?_eq_some_iff.1 h1).1⟩
  rw [← List.tail_drop, h]
  rfl

/-- All the observations of a node. -/
theorem visitObs_spec (hp : Stochastic p nS nA nO) (hf : Fits g p nS) (hdn : NamesDistinct p) (ib k : Nat) (Done : Nat → Nat → Prop) :
    ∀ (L : List Name) (io : Nat) (x : Aux), p.observations.drop io = L →
      VInv g p nS nO x k (fun i jo => Done i jo ∨ (i = ib ∧ jo < io)) → ib < x.nodes.length →
      ∃ y, visitObs g p ib L io x = .ok y ∧ VInv g p nS nO y k (fun i jo => Done i jo ∨ (i = ib ∧ jo < nO)) ∧
        ∃ suf, y.nodes = x.nodes ++ suf ∧ suf.length ≤ L.length := by
  have hO : p.observations.length = nO := hp.1.2.2.1
  intro L
  induction L with
  | nil =>
    intro io x hL hx hib
    refine ⟨x, rfl, ?_, [], by simp, by simp⟩
    have hge : nO ≤ io := by
      have := congrArg List.length hL
      simp at this
      omega
    have hset : (fun i jo => Done i jo ∨ (i = ib ∧ jo < nO)) = (fun i jo => (Done i jo ∨ (i = ib ∧ jo < nO))) := rfl
    -- columns beyond the last observation hold nothing
    refine { hx with complete := ?_, todo := ?_, doneLt := ?_ }
    · intro i jo h
      apply hx.complete
      rcases h with h | ⟨h1, h2⟩
      · exact Or.inl h
      · exact Or.inr ⟨h1, by omega⟩
    · intro i jo h
      by_cases h' : Done i jo ∨ (i = ib ∧ jo < io)
      · rcases h' with h' | ⟨rfl, h2⟩
        · exact absurd (Or.inl h') h
        · have hjo : nO ≤ jo := by
            by_contra hc
            exact h (Or.inr ⟨rfl, by omega⟩)
          unfold entry
          have hlen := hx.rows _ (getD_mem x.trans i [] (by rw [hx.ltrans]; exact hib))
          exact getD_of_le _ _ _ (by omega)
      · exact hx.todo i jo h'
    · intro i jo h
      rcases h with h | ⟨rfl, _⟩
      · exact hx.doneLt i jo (Or.inl h)
      · exact hib
  | cons o L ih =>
    intro io x hL hx hib
    obtain ⟨ho, hL', hio⟩ := drop_cons_get _ _ _ _ hL
    rw [hO] at hio
    have hpred : (fun i jo => (Done i jo ∨ (i = ib ∧ jo < io)) ∨ (i = ib ∧ jo = io)) =
        (fun i jo => Done i jo ∨ (i = ib ∧ jo < io + 1)) := by
      funext i jo
      apply propext
      constructor
      · rintro ((h | ⟨h1, h2⟩) | ⟨h1, h2⟩)
        · exact Or.inl h
        · exact Or.inr ⟨h1, by omega⟩
        · exact Or.inr ⟨h1, by omega⟩
      · rintro (h | ⟨h1, h2⟩)
        · exact Or.inl (Or.inl h)
        · by_cases h3 : jo = io
          · exact Or.inr ⟨h1, h3⟩
          · exact Or.inl (Or.inr ⟨h1, by omega⟩)
    have hbd : IsDist nS (x.nodes.getD ib []) := hx.dist _ (getD_mem x.nodes ib [] hib)
    rcases resetStep_cases g p nS nA nO hp hf hdn _ hbd io o ho with ⟨h1, h2⟩ | ⟨b', h1, h2, h3⟩
    · have hx' := skip_spec g p nS nO x k _ hx ib io hib h2
      rw [hpred] at hx'
      obtain ⟨y, k1, k2, suf, k3, k4⟩ := ih (io + 1) x hL' hx' hib
      exact ⟨y, by simp only [visitObs, h1]; exact k1, k2, suf, k3, by simp; omega⟩
    · obtain ⟨j, y, k1, k2, k3, k4, ⟨suf, k5, k6⟩, k7⟩ := auxIndex_spec g p nS nA nO hp hf x k _ hx b' h2
      have hib' : ib < y.nodes.length := by rw [k5]; simp; omega
      have hpost : PolicyPosterior g p nS (y.nodes.getD ib []) io b' := by
        rw [k5, getD_append_left' _ _ _ _ hib]; exact h3
      have hy := setTrans_spec g p nS nO y k _ k2 ib io j hib' hio k3 b' hpost k4
      rw [hpred] at hy
      obtain ⟨z, l1, l2, suf', l3, l4⟩ := ih (io + 1) _ hL' hy hib'
      refine ⟨z, ?_, l2, suf ++ suf', ?_, by simp; omega⟩
      · simp only [visitObs, h1, bind, Except.bind, k1]
        exact l1
      · rw [l3]
        show y.nodes ++ suf' = _
        rw [k5, List.append_assoc]

/-- One node. -/
theorem visit_one (hp : Stochastic p nS nA nO) (hf : Fits g p nS) (hdn : NamesDistinct p) (x : Aux) (k : Nat)
    (hx : VInv g p nS nO x k (fun i jo => i < k ∧ jo < nO)) (ib : Nat) (rest : List Nat) (hq : x.queue = ib :: rest) :
    ∃ y, visitObs g p ib p.observations 0 { x with queue := rest } = .ok y ∧
      VInv g p nS nO y (k + 1) (fun i jo => i < k + 1 ∧ jo < nO) ∧
      ∃ suf, y.nodes = x.nodes ++ suf ∧ suf.length ≤ nO := by
  have hO : p.observations.length = nO := hp.1.2.2.1
  have hqe := hx.queue
  rw [hq] at hqe
  have hk : k < x.nodes.length := by
    by_contra hc
    have : x.nodes.length - k = 0 := by omega
    rw [this] at hqe
    cases hqe
  obtain ⟨m, hm⟩ : ∃ m, x.nodes.length - k = m + 1 := ⟨x.nodes.length - k - 1, by omega⟩
  rw [hm, List.range'_succ] at hqe
  injection hqe with e1 e2
  subst e1
  have hx' : VInv g p nS nO { x with queue := rest } (ib + 1) (fun i jo => (i < ib ∧ jo < nO) ∨ (i = ib ∧ jo < 0)) := by
    refine { ltrans := hx.ltrans, lacts := hx.lacts, dist := hx.dist, apart := hx.apart, acts := hx.acts, rows := hx.rows,
             closed := hx.closed, le := hk, queue := ?_, complete := ?_, todo := ?_, doneLt := ?_ }
    · show rest = _
      rw [e2]
      congr 1
      show m = x.nodes.length - (ib + 1)
      omega
    · intro i jo h
      rcases h with h | ⟨_, h⟩
      · exact hx.complete i jo h
      · omega
    · intro i jo h
      exact hx.todo i jo (fun h' => h (Or.inl h'))
    · intro i jo h
      rcases h with h | ⟨_, h⟩
      · exact hx.doneLt i jo h
      · omega
  obtain ⟨y, h1, h2, suf, h3, h4⟩ := visitObs_spec g p nS nA nO hp hf hdn ib (ib + 1) _ p.observations 0 _ rfl hx' hk
  refine ⟨y, h1, ?_, suf, h3, by omega⟩
  have hpred : (fun i jo => (i < ib ∧ jo < nO) ∨ (i = ib ∧ jo < nO)) = (fun i jo => i < ib + 1 ∧ jo < nO) := by
    funext i jo
    apply propext
    constructor
    · rintro (⟨h1, h2⟩ | ⟨h1, h2⟩) <;> exact ⟨by omega, h2⟩
    · rintro ⟨h1, h2⟩
      by_cases h : i = ib
      · exact Or.inr ⟨h, h2⟩
      · exact Or.inl ⟨by omega, h2⟩
  rw [← hpred]
  exact h2

theorem visitLoop_mono (maxNodes : Nat) : ∀ (fuel : Nat) (x y : Aux), visitLoop g p maxNodes fuel x = .ok (some y) →
    ∀ fuel', fuel ≤ fuel' → visitLoop g p maxNodes fuel' x = .ok (some y) := by
  intro fuel
  induction fuel with
  | zero =>
    intro x y h fuel' _
    simp only [visitLoop] at h
    split at h
    · rename_i hc
      cases h
      cases fuel' with
      | zero => simp only [visitLoop, if_pos hc]
      | succ f =>
        simp only [visitLoop]
        rcases hc with hc | hc
        · split
          · rfl
          · rw [hc]
        · rw [if_pos hc]
    · cases h
  | succ fuel ih =>
    intro x y h fuel' hle
    obtain ⟨f, rfl⟩ : ∃ f, fuel' = f + 1 := ⟨fuel' - 1, by omega⟩
    simp only [visitLoop] at h ⊢
    split
    · rename_i hc; rw [if_pos hc] at h; exact h
    · rename_i hc
      rw [if_neg hc] at h
      split
      · rename_i hq; rw [hq] at h; exact h
      · rename_i ib rest hq
        rw [hq] at h
        simp only [bind, Except.bind] at h ⊢
        split at h
        · cases h
        · rename_i z hz
          exact ih z y h f (by omega)

/-- The whole loop ends, after at most `maxNodes + nO + 1 - k` iterations. -/
theorem visitLoop_spec (hp : Stochastic p nS nA nO) (hf : Fits g p nS) (hdn : NamesDistinct p) (maxNodes : Nat) :
    ∀ (fuel : Nat) (x : Aux) (k : Nat), VInv g p nS nO x k (fun i jo => i < k ∧ jo < nO) →
      x.nodes.length ≤ max 1 (maxNodes + nO) → max 1 (maxNodes + nO) - k ≤ fuel →
      ∃ y k', visitLoop g p maxNodes fuel x = .ok (some y) ∧ VInv g p nS nO y k' (fun i jo => i < k' ∧ jo < nO) ∧
        y.nodes.length ≤ max 1 (maxNodes + nO) ∧ (k' = y.nodes.length ∨ maxNodes < y.nodes.length) ∧
        ∃ suf, y.nodes = x.nodes ++ suf := by
  intro fuel
  induction fuel with
  | zero =>
    intro x k hx hlen hfuel
    have hk := hx.le
    have hkl : k = x.nodes.length := by omega
    have hq : x.queue = [] := by rw [hx.queue, hkl]; simp
    refine ⟨x, k, ?_, hx, hlen, Or.inl hkl, [], by simp⟩
    simp only [visitLoop]
    rw [if_pos (Or.inl hq)]
  | succ fuel ih =>
    intro x k hx hlen hfuel
    simp only [visitLoop]
    by_cases hm : x.nodes.length > maxNodes
    · exact ⟨x, k, by rw [if_pos hm], hx, hlen, Or.inr hm, [], by simp⟩
    · rw [if_neg hm]
      cases hq : x.queue with
      | nil =>
        have hkl : k = x.nodes.length := by
          have := hx.queue
          rw [hq] at this
          have := congrArg List.length this
          simp at this
          have := hx.le
          omega
        exact ⟨x, k, rfl, hx, hlen, Or.inl hkl, [], by simp⟩
      | cons ib rest =>
        obtain ⟨y, h1, h2, suf, h3, h4⟩ := visit_one g p nS nA nO hp hf hdn x k hx ib rest hq
        simp only [h1, bind, Except.bind]
        obtain ⟨z, k', l1, l2, l3, l4, suf', l5⟩ := ih y (k + 1) h2 (by rw [h3]; simp; omega) (by omega)
        exact ⟨z, k', l1, l2, l3, l4, suf ++ suf', by rw [l5, h3, List.append_assoc]⟩

end Verif
