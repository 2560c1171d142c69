import Verif.Spec.StartTrees
import Verif.Props.GraphPolicy

/-! Proofs about the trees from several start states (C48). -/

set_option linter.unusedSectionVars false
set_option linter.unusedSimpArgs false

namespace Verif
open Spec

/-- A belief times a number. -/
def times (c : ℚ) (b : List ℚ) : List ℚ := b.map (c * ·)

theorem times_getD (c : ℚ) (b : List ℚ) (i : Nat) : (times c b).getD i 0 = c * b.getD i 0 := by
  simp only [times, List.getD_eq_getElem?_getD, List.getElem?_map]
  cases b[i]? <;> simp

theorem dot_times (c : ℚ) (v b : List ℚ) : dot v (times c b) = c * dot v b := by
  unfold dot times
  induction v generalizing b with
  | nil => simp
  | cons x v ih =>
    cases b with
    | nil => simp
    | cons y b =>
      simp only [List.map_cons, List.zipWith_cons_cons, List.sum_cons, ih]
      ring

theorem argmaxFrom_times {c : ℚ} (hc : 0 < c) (l : List ℚ) : ∀ i best v, argmaxFrom (times c l) i best (c * v) = argmaxFrom l i best v := by
  induction l with
  | nil => intro i best v; rfl
  | cons x l ih =>
    intro i best v
    show (if c * v < c * x then _ else _) = if v < x then _ else _
    by_cases h : v < x
    · rw [if_pos h, if_pos (mul_lt_mul_of_pos_left h hc)]
      exact ih _ _ _
    · rw [if_neg h, if_neg (by rw [mul_lt_mul_iff_right₀ hc]; exact h)]
      exact ih _ _ _

theorem nodeFromBelief_times {c : ℚ} (hc : 0 < c) (values : List (List ℚ)) (b : List ℚ) : nodeFromBelief values (times c b) = nodeFromBelief values b := by
  unfold nodeFromBelief
  have e : (times c b).length = b.length := by simp [times]
  rw [e]
  congr 1
  have : (values.map fun v => dot v (times c b)) = times c (values.map fun v => dot v b) := by
    simp [times, dot_times, List.map_map, Function.comp_def]
    intro v _
    exact dot_times c v b
  rw [this]
  cases values.map fun v => dot v b with
  | nil => rfl
  | cons x l => exact congrArg Except.ok (argmaxFrom_times hc l _ _ _)

theorem sum_times {α : Type} (c : ℚ) (l : List α) (f : α → ℚ) : (l.map fun i => c * f i).sum = c * (l.map f).sum := by
  induction l with
  | nil => simp
  | cons x l ih => rw [List.map_cons, List.map_cons, List.sum_cons, List.sum_cons, ih]; ring

theorem sumRange_times (n : Nat) (c : ℚ) (f : Nat → ℚ) : sumRange n (fun i => c * f i) = c * sumRange n f := by
  unfold sumRange
  exact sum_times c _ f

theorem joint_times (p : Pomdp) (a o : Nat) (c : ℚ) (b : List ℚ) : p.joint a o (times c b) = times c (p.joint a o b) := by
  unfold Pomdp.joint
  simp only [times, List.map_map]
  refine List.map_congr_left fun s' _ => ?_
  simp only [Function.comp_apply]
  have : (fun s => (List.map (fun x => c * x) b).getD s 0 * p.T.at_ a s s') = fun s => c * (b.getD s 0 * p.T.at_ a s s') := by
    funext s
    have := times_getD c b s
    unfold times at this
    rw [this]
    ring
  rw [this, sumRange_times]
  ring

theorem beliefUpdate_times {c : ℚ} (hc : 0 < c) (p : Pomdp) (a o : Nat) (b : List ℚ) : p.beliefUpdate a o (times c b) = p.beliefUpdate a o b := by
  unfold Pomdp.beliefUpdate
  have e : (times c b).length = b.length := by simp [times]
  have s : (times c (p.joint a o b)).sum = c * (p.joint a o b).sum := by
    have := sum_times c (p.joint a o b) id
    rw [List.map_id] at this
    exact this
  rw [e, joint_times, s]
  have z : c * (p.joint a o b).sum = 0 ↔ (p.joint a o b).sum = 0 := by
    rw [mul_eq_zero]
    exact ⟨fun h => h.resolve_left hc.ne', Or.inr⟩
  have m : ((times c (p.joint a o b)).map fun x => x / (c * (p.joint a o b).sum)) = (p.joint a o b).map fun x => x / (p.joint a o b).sum := by
    unfold times
    rw [List.map_map]
    refine List.map_congr_left fun x _ => ?_
    exact mul_div_mul_left _ _ hc.ne'
  simp only [z, m]

theorem bPosterior_times {c : ℚ} (hc : 0 < c) (g : GraphPolicy) (p : Pomdp) (b : List ℚ) (n : Int) (o : Name) :
    bPosterior g p ⟨times c b, n⟩ o = bPosterior g p ⟨b, n⟩ o := by
  unfold bPosterior
  simp only [beliefUpdate_times hc]

theorem bReset_times {c : ℚ} (hc : 0 < c) {g : GraphPolicy} {b : List ℚ} {r r' : BRunner} {n : Int} (h : bReset g b r = (.ok (), ⟨b, n⟩)) :
    bReset g (times c b) r' = (.ok (), ⟨times c b, n⟩) := by
  unfold bReset at h ⊢
  rw [nodeFromBelief_times hc]
  cases hn : nodeFromBelief g.values b with
  | error e => rw [hn] at h; cases h
  | ok m =>
    rw [hn] at h
    cases h
    rfl

section
variable {g : GraphPolicy} {p : Pomdp} {nS nA nO : Nat}

/-- A valid runner is as `reset` leaves it. -/
theorem valid_reset {r r' : BRunner} (hf : Fits g p nS) (hr : BRunner.Valid g nS r) : bReset g r.belief r' = (.ok (), r) := by
  obtain ⟨hb, n, hcur, hn⟩ := hr
  obtain ⟨m, h1, k, rfl, h3⟩ := bReset_ok g p nS hf r.belief hb.1 r'
  have : k = n := bestNode_unique _ _ _ _ h3 hn
  rw [h1, this, ← hcur]

theorem recTree_times {c : ℚ} (hc : 0 < c) (hp : Stochastic p nS nA nO) (hf : Fits g p nS) (hd : NamesDistinct p) (h : Nat) (r : BRunner)
    (hr : BRunner.Valid g nS r) (o : Name) (ho : o ∈ p.observations) :
    ∃ x, recTree g p (trajectoryTree g p h) o r = (.ok x, r) ∧ recTree g p (trajectoryTree g p h) o ⟨times c r.belief, r.current⟩ = (.ok x, ⟨times c r.belief, r.current⟩) := by
  obtain ⟨act, a, o', h1, h2, h3, h4, h5, hcs⟩ := bStep_cases g p nS nA nO hp hf r hr o ho
  have post := bPosterior_times hc g p r.belief r.current o
  rcases hcs with ⟨_, k⟩ | ⟨r1, _, k2, _, k4⟩
  · have kp : bPosterior g p r o = .error .impossible := by
      unfold bStep at k
      cases hb : bPosterior g p r o with
      | error e => rw [hb] at k; cases k; rfl
      | ok b =>
        rw [hb] at k
        simp only [bReset] at k
        cases hn : nodeFromBelief g.values b with
        | ok m => rw [hn] at k; cases k
        | error e =>
          rw [hn] at k
          have := nodeFromBelief_error _ _ _ hn
          rw [this] at k
          cases k
    have k' : bStep g p o ⟨times c r.belief, r.current⟩ = (.error .impossible, ⟨times c r.belief, r.current⟩) := by
      unfold bStep
      rw [post, show bPosterior g p ⟨r.belief, r.current⟩ o = _ from kp]
    exact ⟨none, by unfold recTree; rw [k]; rfl, by unfold recTree; rw [k']; rfl⟩
  · obtain ⟨t, t1, _⟩ := trajectoryTree_spec g p nS nA nO hp hf hd h r1 k2
    have k' : bStep g p o ⟨times c r.belief, r.current⟩ = (.ok (), r1) := by
      unfold bStep at k4 ⊢
      rw [post]
      cases hb : bPosterior g p r o with
      | error e => rw [hb] at k4; cases k4
      | ok b =>
        rw [hb] at k4
        simp only [bReset] at k4 ⊢
        cases hn : nodeFromBelief g.values b with
        | error e => rw [hn] at k4; cases k4
        | ok m => rw [hn] at k4; exact k4
    have back := valid_reset (r' := r1) hf hr
    have back' := bReset_times (r' := r1) hc (n := r.current) (show bReset g r.belief r1 = (.ok (), ⟨r.belief, r.current⟩) from back)
    refine ⟨some t, ?_, ?_⟩
    · unfold recTree
      rw [k4]
      simp only [t1, recRestore, back]
      rfl
    · unfold recTree
      rw [k']
      simp only [t1, recRestore, back']
      rfl

/-- The tree from a multiple of a belief: only the belief at the root is another. -/
theorem trajectoryTree_times {c : ℚ} (hc : 0 < c) (hp : Stochastic p nS nA nO) (hf : Fits g p nS) (hd : NamesDistinct p) (h : Nat) (r : BRunner)
    (hr : BRunner.Valid g nS r) : ∃ t, trajectoryTree g p h r = (.ok t, r) ∧ TreeOf g p nS h r.belief t ∧
      trajectoryTree g p h ⟨times c r.belief, r.current⟩ = (.ok (TTree.withBelief (times c r.belief) t), ⟨times c r.belief, r.current⟩) := by
  obtain ⟨t, t1, t2⟩ := trajectoryTree_spec g p nS nA nO hp hf hd h r hr
  refine ⟨t, t1, t2, ?_⟩
  have fin : ∀ cs, treeResult g p (.ok cs, r) = (.ok t, r) →
      treeResult g p (.ok cs, ⟨times c r.belief, r.current⟩) = (.ok (TTree.withBelief (times c r.belief) t), ⟨times c r.belief, r.current⟩) := by
    intro cs e
    unfold treeResult at e ⊢
    simp only at e ⊢
    cases ha : g.getAction r.current with
    | error _ => rw [ha] at e; cases e
    | ok a =>
      rw [ha] at e
      cases e
      rfl
  cases h with
  | zero =>
    unfold trajectoryTree at t1 ⊢
    have loop : ∀ (L : List Name) (r : BRunner), treeLoop (fun _ r => (.ok none, r)) L r = (.ok (L.map fun _ => none), r) := by
      intro L r
      induction L with
      | nil => rfl
      | cons o L ih => simp only [treeLoop, ih]; rfl
    rw [loop] at t1 ⊢
    exact fin _ t1
  | succ h =>
    unfold trajectoryTree at t1 ⊢
    have loop : ∀ L : List Name, (∀ o ∈ L, o ∈ p.observations) → ∃ cs, treeLoop (recTree g p (trajectoryTree g p h)) L r = (.ok cs, r) ∧
        treeLoop (recTree g p (trajectoryTree g p h)) L ⟨times c r.belief, r.current⟩ = (.ok cs, ⟨times c r.belief, r.current⟩) := by
      intro L
      induction L with
      | nil => intro _; exact ⟨[], rfl, rfl⟩
      | cons o L ih =>
        intro hL
        obtain ⟨x, x1, x2⟩ := recTree_times hc hp hf hd h r hr o (hL o (by simp))
        obtain ⟨cs, c1, c2⟩ := ih fun o ho => hL o (by simp [ho])
        exact ⟨x :: cs, by simp only [treeLoop, x1, c1], by simp only [treeLoop, x2, c2]⟩
    obtain ⟨cs, c1, c2⟩ := loop p.observations fun _ h => h
    rw [c1] at t1
    rw [c2]
    exact fin _ t1

end

/-! ### The start -/

theorem evenStart_times (start : List ℚ) (h : ∃ x ∈ start, x ≠ 0) :
    0 < (start.countP (fun x => decide (x ≠ 0)) : ℚ) ∧ startIndicator start = times (start.countP (fun x => decide (x ≠ 0)) : ℚ) (evenStart start) := by
  have pos : 0 < start.countP (fun x => decide (x ≠ 0)) := by
    obtain ⟨x, hx, hne⟩ := h
    exact List.countP_pos_iff.2 ⟨x, hx, by simpa using hne⟩
  have pos' : 0 < (start.countP (fun x => decide (x ≠ 0)) : ℚ) := by exact_mod_cast pos
  refine ⟨pos', ?_⟩
  unfold startIndicator times evenStart
  rw [List.map_map]
  refine List.map_congr_left fun x _ => ?_
  simp only [Function.comp_apply]
  split
  · simp
  · rw [mul_one_div_cancel pos'.ne']

theorem evenStart_sum (start : List ℚ) (c : ℚ) : (start.map fun x => if x = 0 then 0 else c).sum = start.countP (fun x => decide (x ≠ 0)) * c := by
  induction start with
  | nil => simp
  | cons x l ih =>
    rw [List.map_cons, List.sum_cons, ih]
    by_cases hx : x = 0
    · rw [List.countP_cons_of_neg (by simpa using hx), if_pos hx, zero_add]
    · rw [List.countP_cons_of_pos (by simpa using hx), if_neg hx]
      push_cast
      ring

theorem sumRange_getD (l : List ℚ) : sumRange l.length (fun i => l.getD i 0) = l.sum := by
  unfold sumRange
  congr 1
  apply List.ext_getElem
  · simp
  · intro i h1 h2
    simp [List.getD_eq_getElem?_getD, h2]

theorem evenStart_dist {nS : Nat} (start : List ℚ) (hl : start.length = nS) (h : ∃ x ∈ start, x ≠ 0) : IsDist nS (evenStart start) := by
  obtain ⟨pos, -⟩ := evenStart_times start h
  have e : (evenStart start).length = nS := by simp [evenStart, hl]
  refine ⟨e, fun i hi => ?_, ?_⟩
  · simp only [evenStart, List.getD_eq_getElem?_getD, List.getElem?_map]
    cases start[i]? with
    | none => simp
    | some x =>
      simp only [Option.map_some, Option.getD_some]
      split
      · exact le_refl _
      · exact (one_div_pos.2 pos).le
  · rw [← e, sumRange_getD]
    unfold evenStart
    rw [evenStart_sum, mul_one_div_cancel pos.ne']

end Verif
