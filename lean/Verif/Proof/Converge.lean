import Verif.Proof.UctRun
import Mathlib.Algebra.Order.BigOperators.Group.Finset
import Mathlib.Algebra.BigOperators.Group.Finset.Basic

/-! The averages of a search tree in models without randomness. -/

set_option linter.unusedSectionVars false
set_option linter.unusedSimpArgs false

namespace Verif.Uct
open Spec
variable {σ β : Type} [DecidableEq β]
variable {S : Search σ β Int} {b0 : β} {nx ob : Nat → Nat → Nat} {rew : Nat → Nat → ℚ} {lo up L H : ℚ}

/-- What is used of the tree before a simulation. -/
structure Wf (S : Search σ β Int) (t : Tree β) : Prop where
  ord : ∀ i a o j, t.next i a o = some j → i < j ∧ j < t.size
  free : ∀ k, t.size ≤ k → ∀ b, actAvg t k b = .new ∧ ∀ o, t.next k b o = none
  len : ∀ i, (t.nodes i).children.length = S.sim.nActions

theorem _root_.Verif.TInv.wf {t : Tree β} (ht : TInv S b0 t) (hs : S.shared = false) : Wf S t := by
  refine ⟨fun i a o j h => ⟨(ht.range i a o j h).2 hs, (ht.range i a o j h).1⟩, fun k hk b => ?_, ht.len⟩
  have := (ht.fresh k hk).2 b
  refine ⟨by unfold actAvg; rw [this]; rfl, fun o => by unfold Tree.next; rw [this]; rfl⟩

/-- The nodes before the start of a simulation do not change; no node disappears. -/
theorem Run.low {i s h : Nat} {t t' : Tree β} {x : ℚ} (hr : Run S nx ob rew L H i s h t t' x) (hw : Wf S t) (hi : i < t.size) :
    (∀ k < i, nodeAvg t' k = nodeAvg t k ∧ ∀ b, actAvg t' k b = actAvg t k b) ∧ t.size ≤ t'.size ∧
      ∀ k b o j, t.next k b o = some j → t'.next k b o = some j := by
  induction hr with
  | stop => exact ⟨fun _ _ => ⟨rfl, fun _ => rfl⟩, le_rfl, fun _ _ _ _ h => h⟩
  | grow i s h a t t' y hch hn hy hsize hnext hnode hact =>
      refine ⟨fun k hk => ⟨?_, fun b => ?_⟩, hsize.le, fun k b o j hj => ?_⟩
      · rw [hnode, if_neg (by omega), if_neg (by omega)]
      · rw [hact, if_neg (by omega)]
      · rw [hnext]
        split
        · rename_i hc
          obtain ⟨rfl, rfl, rfl⟩ := hc
          rw [hn] at hj; cases hj
        · exact hj
  | down i s h a j t t1 t' y hch hn hrun hsize hnext hnode hact ih =>
      obtain ⟨h1, h2⟩ := hw.ord i a (ob a s) j hn
      obtain ⟨k1, k2, k3⟩ := ih hw h2
      refine ⟨fun k hk => ⟨?_, fun b => ?_⟩, by omega, fun k b o j hj => by rw [hnext]; exact k3 k b o j hj⟩
      · rw [hnode, if_neg (by omega)]; exact (k1 k (by omega)).1
      · rw [hact, if_neg (by omega)]; exact (k1 k (by omega)).2 b

/-- Each action gets at most one more visit, and if so it has been chosen. -/
theorem Run.chosen {i s h : Nat} {t t' : Tree β} {x : ℚ} (hr : Run S nx ob rew L H i s h t t' x) (hw : Wf S t) (hi : i < t.size) :
    (∀ k b, actionVisits t' k b = actionVisits t k b ∨ (actionVisits t' k b = actionVisits t k b + 1 ∧ UctChoice S t k b)) ∧
      ∀ k, nodeVisits t k ≤ nodeVisits t' k ∨ t.size ≤ k := by
  induction hr with
  | stop => exact ⟨fun _ _ => .inl rfl, fun _ => .inl le_rfl⟩
  | grow i s h a t t' y hch hn hy hsize hnext hnode hact =>
      refine ⟨fun k b => ?_, fun k => ?_⟩
      · rw [actionVisits_eq, actionVisits_eq, hact]
        split
        · rename_i hc
          obtain ⟨rfl, rfl⟩ := hc
          exact .inr ⟨rfl, hch⟩
        · exact .inl rfl
      · rw [nodeVisits_eq, nodeVisits_eq, hnode]
        split
        · rename_i hc
          subst hc
          left; simp [Avg.update]
        · split
          · right; omega
          · exact .inl le_rfl
  | down i s h a j t t1 t' y hch hn hrun hsize hnext hnode hact ih =>
      obtain ⟨h1, h2⟩ := hw.ord i a (ob a s) j hn
      obtain ⟨k1, k2⟩ := ih hw h2
      obtain ⟨low, _⟩ := hrun.low hw h2
      refine ⟨fun k b => ?_, fun k => ?_⟩
      · rw [actionVisits_eq, actionVisits_eq, hact]
        split
        · rename_i hc
          obtain ⟨rfl, rfl⟩ := hc
          rw [(low k h1).2]
          exact .inr ⟨rfl, hch⟩
        · have := k1 k b
          rw [actionVisits_eq, actionVisits_eq] at this
          exact this
      · rw [nodeVisits_eq, nodeVisits_eq, hnode]
        split
        · rename_i hc
          subst hc
          rw [(low k h1).1]
          left; simp [Avg.update]
        · have := k2 k
          rw [nodeVisits_eq, nodeVisits_eq] at this
          exact this

section
variable (S nx ob rew)

/-- The average of an action in terms of the average of the node behind it. -/
def Arc (lab : Nat → Nat × Nat) (t : Tree β) (i a : Nat) : Prop :=
  (∀ j, t.next i a (ob a (lab i).2) = some j →
    (actAvg t i a).total = (actAvg t i a).n * rew a (lab i).2 + S.sim.discount * (nodeAvg t j).total ∧
      (0 < (lab j).1 → (nodeAvg t j).n = (actAvg t i a).n)) ∧
  (t.next i a (ob a (lab i).2) = none → actAvg t i a = .new)

variable (L H)

/-- The invariant; the horizon and the state of each node are given by `lab`, and `E` are the nodes that have been changed, but not
yet their parents. -/
structure DInv (lab : Nat → Nat × Nat) (E : Nat → Prop) (t : Tree β) : Prop where
  edge : ∀ i a o j, t.next i a o = some j → ∃ h, (lab i).1 = h + 1 ∧ o = ob a (lab i).2 ∧ lab j = (h, nx a (lab i).2)
  uniq : ∀ i a o i' a' o' k, t.next i a o = some k → t.next i' a' o' = some k → i = i' ∧ a = a'
  lower : ∀ i, (((nodeAvg t i).n : ℚ) - ∑ a ∈ Finset.range S.sim.nActions, ((actAvg t i a).n : ℚ)) * L ≤
    (nodeAvg t i).total - ∑ a ∈ Finset.range S.sim.nActions, (actAvg t i a).total
  upper : ∀ i, (nodeAvg t i).total - ∑ a ∈ Finset.range S.sim.nActions, (actAvg t i a).total ≤
    (((nodeAvg t i).n : ℚ) - ∑ a ∈ Finset.range S.sim.nActions, ((actAvg t i a).n : ℚ)) * H
  zero : ∀ i, (lab i).1 = 0 → nodeAvg t i = .new
  arc : ∀ i a, (∀ o j, t.next i a o = some j → ¬ E j) → Arc S ob rew lab t i a

end

theorem update_zero (v : Avg) (x : ℚ) : v.update 0 x = ⟨v.n + 1, v.total + x⟩ := by
  unfold Avg.update
  simp

theorem sum_update {n a : Nat} (ha : a < n) (f g : Nat → ℚ) (x : ℚ) (h : ∀ b, g b = if b = a then f a + x else f b) :
    ∑ b ∈ Finset.range n, g b = ∑ b ∈ Finset.range n, f b + x := by
  have : ∀ b ∈ Finset.range n, g b = f b + if b = a then x else 0 := by
    intro b _
    rw [h]
    by_cases hb : b = a
    · rw [if_pos hb, if_pos hb, hb]
    · rw [if_neg hb, if_neg hb, add_zero]
  rw [Finset.sum_congr rfl this, Finset.sum_add_distrib, Finset.sum_ite_eq' ]
  simp [ha]

/-- The invariant is kept by a simulation. -/
theorem Run.keeps {i s h : Nat} {t t' : Tree β} {x : ℚ} (hr : Run S nx ob rew L H i s h t t' x) (hα : S.alpha = 0) (hw : Wf S t)
    (hi : i < t.size) (lab : Nat → Nat × Nat) (hlab : lab i = (h, s)) (hd : DInv S nx ob rew L H lab (fun _ => False) t) (hf : FreshNew t) :
    ∃ lab', (∀ k < t.size, lab' k = lab k) ∧ DInv S nx ob rew L H lab' (fun k => k = i) t' ∧
      (nodeAvg t' i).total = (nodeAvg t i).total + x ∧ (nodeAvg t' i).n = (nodeAvg t i).n + if h = 0 then 0 else 1 := by
  induction hr generalizing lab with
  | stop i s t =>
      have h0 := hd.zero i (by rw [hlab])
      refine ⟨lab, fun _ _ => rfl, ⟨hd.edge, hd.uniq, hd.lower, hd.upper, hd.zero, fun i a _ => hd.arc i a fun _ _ _ h => h⟩, ?_, by simp⟩
      rw [h0]
      simp [Avg.value, Avg.new]
  | grow i s h a t t' y hch hn hy hsize hnext hnode hact =>
      rw [hα] at hnode hact
      simp only [update_zero] at hnode hact
      have ha : a < S.sim.nActions := by rw [← hw.len i]; exact hch.1
      have hne : t.size ≠ i := by omega
      obtain ⟨lab', hl⟩ : ∃ lab' : Nat → Nat × Nat, lab' = fun k => if k = t.size then (h, nx a s) else lab k := ⟨_, rfl⟩
      have hl1 : ∀ k, k ≠ t.size → lab' k = lab k := fun k hk => by rw [hl]; simp [hk]
      have hl2 : lab' t.size = (h, nx a s) := by rw [hl]; simp
      have hli : lab' i = (h + 1, s) := by rw [hl1 i hne.symm, hlab]
      have hai : actAvg t i a = .new := by
        have := (hd.arc i a (fun _ _ _ h => h)).2
        rw [hlab] at this
        exact this hn
      have hold : ∀ k b o j, t.next k b o = some j → k ≠ t.size ∧ j ≠ t.size := fun k b o j hj => by
        obtain ⟨h1, h2⟩ := hw.ord k b o j hj
        omega
      have hxn : ∀ k b o j, t'.next k b o = some j → (k = i ∧ b = a ∧ o = ob a s ∧ j = t.size) ∨ t.next k b o = some j := by
        intro k b o j hj
        rw [hnext] at hj
        split at hj
        · rename_i hc
          left
          exact ⟨hc.1, hc.2.1, hc.2.2, by simpa using hj.symm⟩
        · exact .inr hj
      have hsumn : ∀ k, ∑ b ∈ Finset.range S.sim.nActions, ((actAvg t' k b).n : ℚ) =
          ∑ b ∈ Finset.range S.sim.nActions, ((actAvg t k b).n : ℚ) + if k = i then 1 else 0 := by
        intro k
        by_cases hk : k = i
        · subst hk
          rw [if_pos rfl]
          apply sum_update ha
          intro b
          rw [hact]
          by_cases hb : b = a
          · rw [if_pos ⟨rfl, hb⟩, if_pos hb]; push_cast; rfl
          · rw [if_neg (fun h => hb h.2), if_neg hb]
        · rw [if_neg hk, add_zero]
          apply Finset.sum_congr rfl
          intro b _
          rw [hact, if_neg (fun h => hk h.1)]
      have hsumt : ∀ k, ∑ b ∈ Finset.range S.sim.nActions, (actAvg t' k b).total =
          ∑ b ∈ Finset.range S.sim.nActions, (actAvg t k b).total + if k = i then rew a s + S.sim.discount * y else 0 := by
        intro k
        by_cases hk : k = i
        · subst hk
          rw [if_pos rfl]
          apply sum_update ha
          intro b
          rw [hact]
          by_cases hb : b = a
          · rw [if_pos ⟨rfl, hb⟩, if_pos hb]
          · rw [if_neg (fun h => hb h.2), if_neg hb]
        · rw [if_neg hk, add_zero]
          apply Finset.sum_congr rfl
          intro b _
          rw [hact, if_neg (fun h => hk h.1)]
      have hfreen : ∑ b ∈ Finset.range S.sim.nActions, ((actAvg t t.size b).n : ℚ) = 0 := by
        apply Finset.sum_eq_zero
        intro b _
        rw [(hw.free t.size le_rfl b).1]
        simp [Avg.new]
      have hfreet : ∑ b ∈ Finset.range S.sim.nActions, (actAvg t t.size b).total = 0 := by
        apply Finset.sum_eq_zero
        intro b _
        rw [(hw.free t.size le_rfl b).1]
        simp [Avg.new]
      refine ⟨lab', fun k hk => hl1 k (by omega), ⟨?_, ?_, ?_, ?_, ?_, ?_⟩, ?_, ?_⟩
      · intro k b o j hj
        rcases hxn k b o j hj with ⟨rfl, rfl, rfl, rfl⟩ | hj
        · exact ⟨h, by rw [hli], by rw [hli], by rw [hl2, hli]⟩
        · obtain ⟨q1, q2⟩ := hold k b o j hj
          rw [hl1 k q1, hl1 j q2]
          exact hd.edge k b o j hj
      · intro k b o k' b' o' j h1 h2
        rcases hxn k b o j h1 with ⟨rfl, rfl, rfl, rfl⟩ | h1
        · rcases hxn _ _ _ _ h2 with ⟨rfl, rfl, _, _⟩ | h2
          · exact ⟨rfl, rfl⟩
          · exact absurd rfl (hold _ _ _ _ h2).2
        · rcases hxn _ _ _ _ h2 with ⟨rfl, rfl, _, rfl⟩ | h2
          · exact absurd rfl (hold _ _ _ _ h1).2
          · exact hd.uniq _ _ _ _ _ _ _ h1 h2
      · intro k
        rw [hsumn, hsumt, hnode]
        by_cases hk : k = i
        · subst hk
          rw [if_pos rfl, if_pos rfl, if_pos rfl]
          have := hd.lower k
          push_cast
          rw [show ((nodeAvg t k).n : ℚ) + 1 - (∑ b ∈ Finset.range S.sim.nActions, ((actAvg t k b).n : ℚ) + 1) =
            (nodeAvg t k).n - ∑ b ∈ Finset.range S.sim.nActions, ((actAvg t k b).n : ℚ) by ring]
          linarith
        · rw [if_neg hk, if_neg hk, if_neg hk]
          by_cases hk2 : k = t.size
          · subst hk2
            rw [if_pos rfl, hfreen, hfreet]
            rcases hy with ⟨rfl, _⟩ | ⟨h0, hy1, _⟩
            · rw [if_pos rfl]; simp [Avg.new]
            · rw [if_neg (by omega)]; simp [Avg.new]; exact hy1
          · rw [if_neg hk2]
            simpa using hd.lower k
      · intro k
        rw [hsumn, hsumt, hnode]
        by_cases hk : k = i
        · subst hk
          rw [if_pos rfl, if_pos rfl, if_pos rfl]
          have := hd.upper k
          push_cast
          rw [show ((nodeAvg t k).n : ℚ) + 1 - (∑ b ∈ Finset.range S.sim.nActions, ((actAvg t k b).n : ℚ) + 1) =
            (nodeAvg t k).n - ∑ b ∈ Finset.range S.sim.nActions, ((actAvg t k b).n : ℚ) by ring]
          linarith
        · rw [if_neg hk, if_neg hk, if_neg hk]
          by_cases hk2 : k = t.size
          · subst hk2
            rw [if_pos rfl, hfreen, hfreet]
            rcases hy with ⟨rfl, _⟩ | ⟨h0, _, hy1⟩
            · rw [if_pos rfl]; simp [Avg.new]
            · rw [if_neg (by omega)]; simp [Avg.new]; exact hy1
          · rw [if_neg hk2]
            simpa using hd.upper k
      · intro k hk
        by_cases hk1 : k = i
        · subst hk1
          rw [hli] at hk; simp at hk
        · rw [hnode, if_neg hk1]
          by_cases hk2 : k = t.size
          · subst hk2
            rw [hl2] at hk
            rw [if_pos rfl, if_pos hk]
          · rw [if_neg hk2]
            rw [hl1 k hk2] at hk
            exact hd.zero k hk
      · intro k b hE
        by_cases hkb : k = i ∧ b = a
        · obtain ⟨rfl, rfl⟩ := hkb
          have hnx : t'.next k b (ob b s) = some t.size := by rw [hnext]; simp
          unfold Arc
          rw [hli]
          simp only
          rw [hnx]
          refine ⟨fun j hj => ?_, fun h => by cases h⟩
          obtain rfl : t.size = j := by simpa using hj
          rw [hact, if_pos ⟨rfl, rfl⟩, hnode, if_neg hne, if_pos rfl, hai, hl2]
          rcases hy with ⟨rfl, rfl⟩ | ⟨h0, _⟩
          · simp [Avg.new]
          · rw [if_neg (by omega)]
            simp [Avg.new]
        · have hb : actAvg t' k b = actAvg t k b := by rw [hact, if_neg hkb]
          unfold Arc
          by_cases hk2 : k = t.size
          · subst hk2
            obtain ⟨f1, f2⟩ := hw.free t.size le_rfl b
            have hnone : ∀ o, t'.next t.size b o = none := fun o => by
              rw [hnext, if_neg (fun h => hne h.1)]; exact f2 o
            rw [hnone, hb, f1]
            exact ⟨fun j hj => (by cases hj), fun _ => rfl⟩
          · rw [hl1 k hk2]
            have hnx : ∀ o, t'.next k b o = t.next k b o := fun o => by
              rw [hnext, if_neg (fun h => hkb ⟨h.1, h.2.1⟩)]
            rw [hnx, hb]
            obtain ⟨q1, q2⟩ := hd.arc k b (fun _ _ _ h => h)
            refine ⟨fun j hj => ?_, q2⟩
            have hjE : j ≠ i := hE _ j (by rw [hnx]; exact hj)
            have hj2 := (hold _ _ _ _ hj).2
            rw [hnode, if_neg hjE, if_neg hj2, hl1 j hj2]
            exact q1 j hj
      · rw [hnode, if_pos rfl]
      · rw [hnode, if_pos rfl]; simp
  | down i s h a j t t1 t' y hch hn hrun hsize hnext hnode hact ih =>
      rw [hα] at hnode hact
      simp only [update_zero] at hnode hact
      have ha : a < S.sim.nActions := by rw [← hw.len i]; exact hch.1
      obtain ⟨h1, h2⟩ := hw.ord i a (ob a s) j hn
      obtain ⟨h', q1, _, q2⟩ := hd.edge i a _ j hn
      rw [hlab] at q1 q2
      simp only [Nat.add_right_cancel_iff] at q1
      subst q1
      obtain ⟨lab', l1, l2, l3, l4⟩ := ih hw h2 lab q2 hd hf
      obtain ⟨low, hsz, hpres⟩ := hrun.low hw h2
      have hli : lab' i = (h + 1, s) := by rw [l1 i hi, hlab]
      have hlj : lab' j = (h, nx a s) := by rw [l1 j h2, q2]
      have hn1 := hpres i a (ob a s) j hn
      have hji : j ≠ i := by omega
      have hai : actAvg t1 i a = actAvg t i a := (low i h1).2 a
      have hsumn : ∀ k, ∑ b ∈ Finset.range S.sim.nActions, ((actAvg t' k b).n : ℚ) =
          ∑ b ∈ Finset.range S.sim.nActions, ((actAvg t1 k b).n : ℚ) + if k = i then 1 else 0 := by
        intro k
        by_cases hk : k = i
        · subst hk
          rw [if_pos rfl]
          apply sum_update ha
          intro b
          rw [hact]
          by_cases hb : b = a
          · rw [if_pos ⟨rfl, hb⟩, if_pos hb]; push_cast; rfl
          · rw [if_neg (fun h => hb h.2), if_neg hb]
        · rw [if_neg hk, add_zero]
          apply Finset.sum_congr rfl
          intro b _
          rw [hact, if_neg (fun h => hk h.1)]
      have hsumt : ∀ k, ∑ b ∈ Finset.range S.sim.nActions, (actAvg t' k b).total =
          ∑ b ∈ Finset.range S.sim.nActions, (actAvg t1 k b).total + if k = i then rew a s + S.sim.discount * y else 0 := by
        intro k
        by_cases hk : k = i
        · subst hk
          rw [if_pos rfl]
          apply sum_update ha
          intro b
          rw [hact]
          by_cases hb : b = a
          · rw [if_pos ⟨rfl, hb⟩, if_pos hb]
          · rw [if_neg (fun h => hb h.2), if_neg hb]
        · rw [if_neg hk, add_zero]
          apply Finset.sum_congr rfl
          intro b _
          rw [hact, if_neg (fun h => hk h.1)]
      refine ⟨lab', l1, ⟨?_, ?_, ?_, ?_, ?_, ?_⟩, ?_, ?_⟩
      · intro k b o m hm
        rw [hnext] at hm
        exact l2.edge k b o m hm
      · intro k b o k' b' o' m hm hm'
        rw [hnext] at hm hm'
        exact l2.uniq _ _ _ _ _ _ _ hm hm'
      · intro k
        rw [hsumn, hsumt, hnode]
        by_cases hk : k = i
        · subst hk
          rw [if_pos rfl, if_pos rfl, if_pos rfl]
          have := l2.lower k
          push_cast
          rw [show ((nodeAvg t1 k).n : ℚ) + 1 - (∑ b ∈ Finset.range S.sim.nActions, ((actAvg t1 k b).n : ℚ) + 1) =
            (nodeAvg t1 k).n - ∑ b ∈ Finset.range S.sim.nActions, ((actAvg t1 k b).n : ℚ) by ring]
          linarith
        · rw [if_neg hk, if_neg hk, if_neg hk]
          simpa using l2.lower k
      · intro k
        rw [hsumn, hsumt, hnode]
        by_cases hk : k = i
        · subst hk
          rw [if_pos rfl, if_pos rfl, if_pos rfl]
          have := l2.upper k
          push_cast
          rw [show ((nodeAvg t1 k).n : ℚ) + 1 - (∑ b ∈ Finset.range S.sim.nActions, ((actAvg t1 k b).n : ℚ) + 1) =
            (nodeAvg t1 k).n - ∑ b ∈ Finset.range S.sim.nActions, ((actAvg t1 k b).n : ℚ) by ring]
          linarith
        · rw [if_neg hk, if_neg hk, if_neg hk]
          simpa using l2.upper k
      · intro k hk
        by_cases hk1 : k = i
        · subst hk1
          rw [hli] at hk; simp at hk
        · rw [hnode, if_neg hk1]
          exact l2.zero k hk
      · intro k b hE
        by_cases hkb : k = i ∧ b = a
        · obtain ⟨rfl, rfl⟩ := hkb
          unfold Arc
          rw [hli]
          simp only
          rw [hnext, hn1]
          refine ⟨fun m hm => ?_, fun h => by cases h⟩
          obtain rfl : j = m := by simpa using hm
          rw [hact, if_pos ⟨rfl, rfl⟩, hnode, if_neg hji, hai, hlj, l3, l4]
          have := (hd.arc k b (fun _ _ _ h => h)).1 j (by rw [hlab]; exact hn)
          rw [hlab, q2] at this
          obtain ⟨t1', t2'⟩ := this
          simp only at t1' t2' ⊢
          refine ⟨?_, fun hp => ?_⟩
          · rw [t1']
            push_cast
            ring
          · rw [if_neg (by omega), t2' hp]
        · have hb : actAvg t' k b = actAvg t1 k b := by rw [hact, if_neg hkb]
          have hne : ∀ o m, t1.next k b o = some m → m ≠ j := by
            intro o m hm he
            subst he
            exact hkb (l2.uniq _ _ _ _ _ _ _ hm hn1)
          unfold Arc
          rw [hnext, hb]
          obtain ⟨r1, r2⟩ := l2.arc k b (fun o m hm he => hne o m hm he)
          refine ⟨fun m hm => ?_, r2⟩
          have hmi : m ≠ i := hE _ m (by rw [hnext]; exact hm)
          rw [hnode, if_neg hmi]
          exact r1 m hm
      · rw [hnode, if_pos rfl, (low i h1).1]
      · rw [hnode, if_pos rfl, (low i h1).1]; simp

end Verif.Uct
