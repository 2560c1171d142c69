import Verif.Proof.GraphPolicy

/-! Lemmas on belief runners and trajectory trees. -/

set_option linter.unusedSectionVars false
set_option linter.unusedSimpArgs false

namespace Verif
open Spec

theorem list_ext_getD (a b : List ℚ) (hl : a.length = b.length) (h : ∀ i < a.length, a.getD i 0 = b.getD i 0) : a = b := by
  apply List.ext_getElem hl
  intro i h1 h2
  have := h i h1
  rw [List.getD_eq_getElem?_getD, List.getD_eq_getElem?_getD, List.getElem?_eq_getElem h1, List.getElem?_eq_getElem h2] at this
  simpa using this

theorem posterior_unique (p : Pomdp) (nS a o : Nat) (b b1 b2 : List ℚ) (h1 : IsPosterior p nS a o b b1)
    (h2 : IsPosterior p nS a o b b2) : b1 = b2 := by
  apply list_ext_getD _ _ (by rw [h1.2.1, h2.2.1])
  intro i hi
  rw [h1.2.1] at hi
  rw [h1.2.2 i hi, h2.2.2 i hi]

theorem policyAction_unique (g : GraphPolicy) (b : List ℚ) (a1 a2 : Name) (h1 : PolicyAction g b a1) (h2 : PolicyAction g b a2) :
    a1 = a2 := by
  obtain ⟨n, k1, k2⟩ := h1
  obtain ⟨m, l1, l2⟩ := h2
  have := bestNode_unique _ _ _ _ k1 l1
  subst this
  rw [k2] at l2
  exact Option.some.inj l2

theorem nodup_index {α : Type} (l : List α) (hl : l.Nodup) (i j : Nat) (x : α) (h1 : l[i]? = some x) (h2 : l[j]? = some x) : i = j := by
  obtain ⟨hi, ei⟩ := List.getElem?_eq_some_iff.1 h1
  obtain ⟨hj, ej⟩ := List.getElem?_eq_some_iff.1 h2
  exact (hl.getElem_inj_iff (hi := hi) (hj := hj)).1 (by rw [ei, ej])

theorem bReset_ok (g : GraphPolicy) (p : Pomdp) (nS : Nat) (hf : Fits g p nS) (b : List ℚ) (hb : b.length = nS) (r : BRunner) :
    ∃ n, bReset g b r = (.ok (), ⟨b, n⟩) ∧ ∃ m : Nat, n = m ∧ BestNode g.values b m := by
  obtain ⟨n, h1, h2⟩ := nodeFromBelief_spec g.values b hf.1 (fun v hv => by rw [hf.2.2.1 v hv, hb])
  exact ⟨n, by unfold bReset; rw [h1], n, rfl, h2⟩

/-- A step of a belief runner. -/
theorem bStep_cases (g : GraphPolicy) (p : Pomdp) (nS nA nO : Nat) (hp : Stochastic p nS nA nO) (hf : Fits g p nS) (r : BRunner)
    (hr : BRunner.Valid g nS r) (on : Name) (hon : on ∈ p.observations) :
    ∃ act a o, PolicyAction g r.belief act ∧ p.actions[a]? = some act ∧ p.observations[o]? = some on ∧ a < nA ∧ o < nO ∧
      ((obsProb p nS a o r.belief = 0 ∧ bStep g p on r = (.error .impossible, r)) ∨
       (∃ r1, IsPosterior p nS a o r.belief r1.belief ∧ BRunner.Valid g nS r1 ∧ p.beliefUpdate a o r.belief = .ok r1.belief ∧
        bStep g p on r = (.ok (), r1))) := by
  obtain ⟨hb, n, hcur, hn⟩ := hr
  have hna : n < g.actions.length := by rw [← hf.2.1]; exact hn.1
  have hact : g.actions[n]? = some g.actions[n] := List.getElem?_eq_getElem hna
  obtain ⟨a, ha1, ha2⟩ := indexOf_spec p.actions g.actions[n] (hf.2.2.2 _ (List.getElem_mem hna))
  obtain ⟨o, ho1, ho2⟩ := indexOf_spec p.observations on hon
  have hsh := hp.1
  obtain ⟨_, hA, hO, _⟩ := hsh
  have haA : a < nA := by rw [← hA]; exact (List.getElem?_eq_some_iff.1 ha2).1
  have hoO : o < nO := by rw [← hO]; exact (List.getElem?_eq_some_iff.1 ho2).1
  have hpost : bPosterior g p r on = p.beliefUpdate a o r.belief := by
    unfold bPosterior
    rw [hcur, getAction_nat g n _ hact]
    simp only [bind, Except.bind, ha1, ho1]
  refine ⟨g.actions[n], a, o, ⟨n, hn, hact⟩, ha2, ho2, haA, hoO, ?_⟩
  by_cases hz : obsProb p nS a o r.belief = 0
  · left
    refine ⟨hz, ?_⟩
    unfold bStep
    rw [hpost, (C37_impossible p nS nA nO hp a o haA hoO r.belief hb).2 hz]
  · right
    obtain ⟨b', h1, h2, h3, _⟩ := C37_posterior p nS nA nO hp a o haA hoO r.belief hb hz
    obtain ⟨m, hm, hm'⟩ := bReset_ok g p nS hf b' h2.1 r
    refine ⟨⟨b', m⟩, ⟨hz, h2.1, h3⟩, ⟨h2, hm'⟩, h1, ?_⟩
    unfold bStep
    rw [hpost, h1]
    exact hm

/-- Inversion of `Follows`, with the action and observation indices. -/
theorem follows_cons (g : GraphPolicy) (p : Pomdp) (hd : NamesDistinct p) (nS : Nat) (b : List ℚ) (act : Name) (a o : Nat) (on : Name)
    (h1 : PolicyAction g b act) (h2 : p.actions[a]? = some act) (h3 : p.observations[o]? = some on) (hist : List (Nat × Nat))
    (w : List Name) (b2 : List ℚ) (hf : Follows g p nS b hist (on :: w) b2) :
    ∃ b1 hist', IsPosterior p nS a o b b1 ∧ Follows g p nS b1 hist' w b2 ∧ hist = (a, o) :: hist' := by
  cases hf with
  | cons k1 k2 k3 k4 k5 =>
    have e1 := policyAction_unique g b _ _ h1 k1
    subst e1
    have e2 := nodup_index _ hd.1 _ _ _ h2 k2
    subst e2
    have e3 := nodup_index _ hd.2 _ _ _ h3 k3
    subst e3
    exact ⟨_, _, k4, k5, rfl⟩

theorem follows_obs_mem (g : GraphPolicy) (p : Pomdp) (nS : Nat) (b : List ℚ) (hist : List (Nat × Nat)) (w : List Name) (b' : List ℚ)
    (h : Follows g p nS b hist w b') : ∀ o ∈ w, o ∈ p.observations := by
  induction h with
  | nil => intro o ho; simp at ho
  | cons _ _ h3 _ _ ih =>
    intro o ho
    rcases List.mem_cons.1 ho with rfl | ho
    · exact List.mem_of_getElem? h3
    · exact ih o ho

theorem follows_append (g : GraphPolicy) (p : Pomdp) (nS : Nat) (b b1 b2 : List ℚ) (h1 h2 : List (Nat × Nat)) (w1 w2 : List Name)
    (hf : Follows g p nS b h1 w1 b1) (hg : Follows g p nS b1 h2 w2 b2) : Follows g p nS b (h1 ++ h2) (w1 ++ w2) b2 := by
  induction hf with
  | nil => exact hg
  | cons k1 k2 k3 k4 _ ih => exact .cons k1 k2 k3 k4 (ih hg)

/-! ### Trees -/

theorem treeLoop_spec (body : Name → BRunner → Py (Option TTree) × BRunner) (r : BRunner) (Q : Name → Option TTree → Prop) :
    ∀ L : List Name, (∀ o ∈ L, ∃ x, body o r = (.ok x, r) ∧ Q o x) →
      ∃ c, treeLoop body L r = (.ok c, r) ∧ List.Forall₂ Q L c := by
  intro L
  induction L with
  | nil => intro _; exact ⟨[], rfl, .nil⟩
  | cons o L ih =>
    intro h
    obtain ⟨x, h1, h2⟩ := h o (by simp)
    obtain ⟨c, h3, h4⟩ := ih (fun o ho => h o (by simp [ho]))
    exact ⟨x :: c, by simp only [treeLoop, h1, h3], .cons h2 h4⟩

theorem tree_lookup (Q : Name → Option TTree → Prop) (L : List Name) (c : List (Option TTree)) (h : List.Forall₂ Q L c) (hL : L.Nodup)
    (o : Name) :
    (o ∈ L → ∃ x, Q o x ∧ dget (((L.zip c).filterMap fun x => x.2.map fun _ => x.1).zip (c.filterMap id)) o = x) ∧
    (o ∉ L → dget (((L.zip c).filterMap fun x => x.2.map fun _ => x.1).zip (c.filterMap id)) o = none) := by
  induction h with
  | nil => simp [dget]
  | cons hq _ ih =>
    rename_i y x L c hf
    obtain ⟨hy, hL⟩ := List.nodup_cons.1 hL
    obtain ⟨ih1, ih2⟩ := ih hL
    cases x with
    | none =>
      simp only [List.zip_cons_cons, List.filterMap_cons, Option.map_none, id]
      constructor
      · intro ho
        rcases List.mem_cons.1 ho with rfl | ho
        · exact ⟨none, hq, ih2 hy⟩
        · exact ih1 ho
      · intro ho
        exact ih2 (fun h => ho (by simp [h]))
    | some t =>
      simp only [List.zip_cons_cons, List.filterMap_cons, Option.map_some, id, dget]
      constructor
      · intro ho
        rcases List.mem_cons.1 ho with rfl | ho
        · exact ⟨some t, hq, by simp⟩
        · have : ¬ y = o := fun h => hy (h ▸ ho)
          rw [if_neg this]
          exact ih1 ho
      · intro ho
        have : ¬ y = o := fun h => ho (by simp [h])
        rw [if_neg this]
        exact ih2 (fun h => ho (by simp [h]))

/-- The trees computed by `trajectory_tree`. -/
theorem trajectoryTree_spec (g : GraphPolicy) (p : Pomdp) (nS nA nO : Nat) (hp : Stochastic p nS nA nO) (hf : Fits g p nS)
    (hd : NamesDistinct p) (h : Nat) : ∀ r, BRunner.Valid g nS r →
      ∃ t, trajectoryTree g p h r = (.ok t, r) ∧ TreeOf g p nS h r.belief t := by
  -- common part: a root with the right children
  have root : ∀ (h : Nat) (r : BRunner) (hr : BRunner.Valid g nS r) (c : List (Option TTree)) (Q : Name → Option TTree → Prop),
      List.Forall₂ Q p.observations c →
      (∀ o ∈ p.observations, ∀ t, Q o (some t) → ∃ h', h = h' + 1 ∧ ∃ hist b1, Follows g p nS r.belief hist [o] b1 ∧ TreeOf g p nS h' b1 t) →
      (∀ o ∈ p.observations, Q o none → h = 0 ∨ ∀ hist b1, ¬ Follows g p nS r.belief hist [o] b1) →
      ∃ t, treeResult g p (.ok c, r) = (.ok t, r) ∧ TreeOf g p nS h r.belief t := by
    intro h r hr c Q hQ hsome hnone
    obtain ⟨hb, n, hcur, hn⟩ := hr
    have hna : n < g.actions.length := by rw [← hf.2.1]; exact hn.1
    have hact : g.actions[n]? = some g.actions[n] := List.getElem?_eq_getElem hna
    refine ⟨_, by simp only [treeResult, hcur, getAction_nat g n _ hact]; rfl, ?_⟩
    intro w
    cases w with
    | nil =>
      refine ⟨?_, fun _ _ _ _ => ⟨_, rfl⟩⟩
      intro t' ht'
      simp only [TTree.at_, Option.some.injEq] at ht'
      subst ht'
      exact ⟨by simp, [], r.belief, .nil _, rfl, n, rfl, hn, hact⟩
    | cons o w =>
      simp only [TTree.at_]
      obtain ⟨l1, l2⟩ := tree_lookup Q _ _ hQ hd.2 o
      by_cases ho : o ∈ p.observations
      · obtain ⟨x, hx, hdget⟩ := l1 ho
        rw [hdget]
        cases x with
        | none =>
          refine ⟨by simp, ?_⟩
          intro hl hist b' hfol
          rcases hnone o ho hx with h0 | h0
          · simp at hl; omega
          · cases hfol with
            | cons k1 k2 k3 k4 k5 => exact absurd (.cons k1 k2 k3 k4 (.nil _)) (h0 _ _)
        | some t =>
          obtain ⟨h', rfl, hist1, b1, hfol1, htree⟩ := hsome o ho t hx
          obtain ⟨m1, m2⟩ := htree w
          refine ⟨?_, ?_⟩
          · intro t' ht'
            obtain ⟨k1, hist2, b', k2, k3⟩ := m1 t' ht'
            refine ⟨by simp; omega, hist1 ++ hist2, b', ?_, k3⟩
            exact follows_append g p nS _ _ _ _ _ [o] w hfol1 k2
          · intro hl hist b' hfol
            cases hfol with
            | cons k1 k2 k3 k4 k5 =>
              obtain ⟨b1', _, q1, q2, _⟩ := follows_cons g p hd nS _ _ _ _ _ k1 k2 k3 _ _ _ hfol1
              have e := posterior_unique p nS _ _ _ _ _ k4 q1
              subst e
              cases q2
              exact m2 (by simp at hl; omega) _ _ k5
      · rw [l2 ho]
        refine ⟨by simp, ?_⟩
        intro _ hist b' hfol
        exact absurd (follows_obs_mem g p nS _ _ _ _ hfol o (by simp)) ho
  induction h with
  | zero =>
    intro r hr
    obtain ⟨c, h1, h2⟩ := treeLoop_spec (fun _ r => (.ok none, r)) r (fun _ x => x = none) p.observations
      (fun o _ => ⟨none, rfl, rfl⟩)
    obtain ⟨t, h3, h4⟩ := root 0 r hr c _ h2 (by intro o _ t ht; cases ht) (by intro o _ _; exact Or.inl rfl)
    exact ⟨t, by simp only [trajectoryTree, h1, h3], h4⟩
  | succ h ih =>
    intro r hr
    obtain ⟨c, h1, h2⟩ := treeLoop_spec (recTree g p (trajectoryTree g p h)) r
      (fun o x => match x with
        | none => ∀ hist b1, ¬ Follows g p nS r.belief hist [o] b1
        | some t => ∃ hist b1, Follows g p nS r.belief hist [o] b1 ∧ TreeOf g p nS h b1 t) p.observations (by
      intro o ho
      obtain ⟨act, a, oi, ha, ha1, ho1, _, _, hcase⟩ := bStep_cases g p nS nA nO hp hf r hr o ho
      rcases hcase with ⟨hz, hs⟩ | ⟨r1, hpost, hv, _, hs⟩
      · refine ⟨none, by simp only [recTree, hs, catchImpossible], ?_⟩
        intro hist b1 hfol
        obtain ⟨_, _, q1, _⟩ := follows_cons g p hd nS _ _ _ _ _ ha ha1 ho1 _ _ _ hfol
        exact q1.1 hz
      · obtain ⟨t, ht1, ht2⟩ := ih r1 hv
        obtain ⟨m, hm, k, hk, hk2⟩ := bReset_ok g p nS hf r.belief hr.1.1 r1
        refine ⟨some t, ?_, [(a, oi)], r1.belief, .cons ha ha1 ho1 hpost (.nil _), ht2⟩
        simp only [recTree, hs, ht1, recRestore, hm, catchImpossible]
        obtain ⟨_, n, hcur, hn⟩ := hr
        have := bestNode_unique _ _ _ _ hk2 hn
        subst this
        congr 1
        cases r
        simp only at hcur
        rw [hk, ← hcur])
    obtain ⟨t, h3, h4⟩ := root (h + 1) r hr c _ h2 (by
      intro o _ t ht
      exact ⟨h, rfl, ht⟩) (by intro o _ hn; exact Or.inr hn)
    exact ⟨t, by simp only [trajectoryTree, h1, h3], h4⟩

end Verif
