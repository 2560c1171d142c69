import Verif.Proof.ConvergeRun

/-! The shape of a search tree in a model without randomness, for all averages. -/

set_option linter.unusedSectionVars false
set_option linter.unusedSimpArgs false

namespace Verif.Uct
open Spec
variable {σ β : Type} [DecidableEq β]
variable {S : Search σ β Int} {b0 : β} {nx ob : Nat → Nat → Nat} {rew : Nat → Nat → ℚ} {lo up L H : ℚ} {n s0 : Nat}

section
variable (nx ob)

/-- The part of the invariant that does not depend on how the averages are computed. -/
structure LInv (lab : Nat → Nat × Nat) (E : Nat → Prop) (t : Tree β) : Prop where
  edge : ∀ i a o j, t.next i a o = some j → ∃ h, (lab i).1 = h + 1 ∧ o = ob a (lab i).2 ∧ lab j = (h, nx a (lab i).2)
  uniq : ∀ i a o i' a' o' k, t.next i a o = some k → t.next i' a' o' = some k → i = i' ∧ a = a'
  zero : ∀ i, (lab i).1 = 0 → nodeAvg t i = .new
  cnt : ∀ i a, (∀ o j, t.next i a o = some j → ¬ E j) →
    (∀ j, t.next i a (ob a (lab i).2) = some j → 0 < (lab j).1 → (nodeAvg t j).n = (actAvg t i a).n) ∧
      (t.next i a (ob a (lab i).2) = none → actAvg t i a = .new)

end

/-- This part is kept by a simulation. -/
theorem Run.shape {i s h : Nat} {t t' : Tree β} {x : ℚ} (hr : Run S nx ob rew L H i s h t t' x) (hw : Wf S t)
    (hi : i < t.size) (lab : Nat → Nat × Nat) (hlab : lab i = (h, s)) (hd : LInv nx ob lab (fun _ => False) t) :
    ∃ lab', (∀ k < t.size, lab' k = lab k) ∧ LInv nx ob lab' (fun k => k = i) t' ∧
      (nodeAvg t' i).n = (nodeAvg t i).n + if h = 0 then 0 else 1 := by
  induction hr generalizing lab with
  | stop i s t =>
      exact ⟨lab, fun _ _ => rfl, ⟨hd.edge, hd.uniq, hd.zero, fun i a _ => hd.cnt i a fun _ _ _ h => h⟩, by simp⟩
  | grow i s h a t t' y hch hn hy hsize hnext hnode hact =>
      have hne : t.size ≠ i := by omega
      obtain ⟨lab', hl⟩ : ∃ lab' : Nat → Nat × Nat, lab' = fun k => if k = t.size then (h, nx a s) else lab k := ⟨_, rfl⟩
      have hl1 : ∀ k, k ≠ t.size → lab' k = lab k := fun k hk => by rw [hl]; simp [hk]
      have hl2 : lab' t.size = (h, nx a s) := by rw [hl]; simp
      have hli : lab' i = (h + 1, s) := by rw [hl1 i hne.symm, hlab]
      have hai : actAvg t i a = .new := by
        have := (hd.cnt i a (fun _ _ _ h => h)).2
        rw [hlab] at this
        exact this hn
      have hold : ∀ k b o j, t.next k b o = some j → k ≠ t.size ∧ j ≠ t.size := fun k b o j hj => by
        obtain ⟨h1, h2⟩ := hw.ord k b o j hj
        omega
      have hxn : ∀ k b o j, t'.next k b o = some j → (k = i ∧ b = a ∧ o = ob a s ∧ j = t.size) ∨ t.next k b o = some j := by
        intro k b o j hj
        rw [hnext] at hj
        split at hj
        · rename_i hc
          left
          exact ⟨hc.1, hc.2.1, hc.2.2, by simpa using hj.symm⟩
        · exact .inr hj
      refine ⟨lab', fun k hk => hl1 k (by omega), ⟨?_, ?_, ?_, ?_⟩, ?_⟩
      · intro k b o j hj
        rcases hxn k b o j hj with ⟨rfl, rfl, rfl, rfl⟩ | hj
        · exact ⟨h, by rw [hli], by rw [hli], by rw [hl2, hli]⟩
        · obtain ⟨q1, q2⟩ := hold k b o j hj
          rw [hl1 k q1, hl1 j q2]
          exact hd.edge k b o j hj
      · intro k b o k' b' o' j h1 h2
        rcases hxn k b o j h1 with ⟨rfl, rfl, rfl, rfl⟩ | h1
        · rcases hxn _ _ _ _ h2 with ⟨rfl, rfl, _, _⟩ | h2
          · exact ⟨rfl, rfl⟩
          · exact absurd rfl (hold _ _ _ _ h2).2
        · rcases hxn _ _ _ _ h2 with ⟨rfl, rfl, _, rfl⟩ | h2
          · exact absurd rfl (hold _ _ _ _ h1).2
          · exact hd.uniq _ _ _ _ _ _ _ h1 h2
      · intro k hk
        by_cases hk1 : k = i
        · subst hk1
          rw [hli] at hk; simp at hk
        · rw [hnode, if_neg hk1]
          by_cases hk2 : k = t.size
          · subst hk2
            rw [hl2] at hk
            rw [if_pos rfl, if_pos hk]
          · rw [if_neg hk2]
            rw [hl1 k hk2] at hk
            exact hd.zero k hk
      · intro k b hE
        by_cases hkb : k = i ∧ b = a
        · obtain ⟨rfl, rfl⟩ := hkb
          have hnx : t'.next k b (ob b s) = some t.size := by rw [hnext]; simp
          rw [hli]
          simp only
          rw [hnx]
          refine ⟨fun j hj => ?_, fun h => by cases h⟩
          obtain rfl : t.size = j := by simpa using hj
          rw [hact, if_pos ⟨rfl, rfl⟩, hnode, if_neg hne, if_pos rfl, hai, hl2]
          intro h0
          rw [if_neg (by simp at h0; omega)]
          simp [Avg.new, Avg.update]
        · have hb : actAvg t' k b = actAvg t k b := by rw [hact, if_neg hkb]
          by_cases hk2 : k = t.size
          · subst hk2
            obtain ⟨f1, f2⟩ := hw.free t.size le_rfl b
            have hnone : ∀ o, t'.next t.size b o = none := fun o => by
              rw [hnext, if_neg (fun h => hne h.1)]; exact f2 o
            rw [hnone, hb, f1]
            exact ⟨fun j hj => (by cases hj), fun _ => rfl⟩
          · rw [hl1 k hk2]
            have hnx : ∀ o, t'.next k b o = t.next k b o := fun o => by
              rw [hnext, if_neg (fun h => hkb ⟨h.1, h.2.1⟩)]
            rw [hnx, hb]
            obtain ⟨q1, q2⟩ := hd.cnt k b (fun _ _ _ h => h)
            refine ⟨fun j hj => ?_, q2⟩
            have hjE : j ≠ i := hE _ j (by rw [hnx]; exact hj)
            have hj2 := (hold _ _ _ _ hj).2
            rw [hnode, if_neg hjE, if_neg hj2, hl1 j hj2]
            exact q1 j hj
      · rw [hnode, if_pos rfl]; simp [Avg.update]
  | down i s h a j t t1 t' y hch hn hrun hsize hnext hnode hact ih =>
      obtain ⟨h1, h2⟩ := hw.ord i a (ob a s) j hn
      obtain ⟨h', q1, _, q2⟩ := hd.edge i a _ j hn
      rw [hlab] at q1 q2
      simp only [Nat.add_right_cancel_iff] at q1
      subst q1
      obtain ⟨lab', l1, l2, l4⟩ := ih hw h2 lab q2 hd
      obtain ⟨low, hsz, hpres⟩ := hrun.low hw h2
      have hli : lab' i = (h + 1, s) := by rw [l1 i hi, hlab]
      have hlj : lab' j = (h, nx a s) := by rw [l1 j h2, q2]
      have hn1 := hpres i a (ob a s) j hn
      have hji : j ≠ i := by omega
      have hai : actAvg t1 i a = actAvg t i a := (low i h1).2 a
      refine ⟨lab', l1, ⟨?_, ?_, ?_, ?_⟩, ?_⟩
      · intro k b o m hm
        rw [hnext] at hm
        exact l2.edge k b o m hm
      · intro k b o k' b' o' m hm hm'
        rw [hnext] at hm hm'
        exact l2.uniq _ _ _ _ _ _ _ hm hm'
      · intro k hk
        by_cases hk1 : k = i
        · subst hk1
          rw [hli] at hk; simp at hk
        · rw [hnode, if_neg hk1]
          exact l2.zero k hk
      · intro k b hE
        by_cases hkb : k = i ∧ b = a
        · obtain ⟨rfl, rfl⟩ := hkb
          rw [hli]
          simp only
          rw [hnext, hn1]
          refine ⟨fun m hm => ?_, fun h => by cases h⟩
          obtain rfl : j = m := by simpa using hm
          rw [hact, if_pos ⟨rfl, rfl⟩, hnode, if_neg hji, hai, hlj, l4]
          have := (hd.cnt k b (fun _ _ _ h => h)).1 j (by rw [hlab]; exact hn)
          rw [q2] at this
          intro hp
          rw [if_neg (by simp at hp; omega), this hp]
          rfl
        · have hb : actAvg t' k b = actAvg t1 k b := by rw [hact, if_neg hkb]
          have hne : ∀ o m, t1.next k b o = some m → m ≠ j := by
            intro o m hm he
            subst he
            exact hkb (l2.uniq _ _ _ _ _ _ _ hm hn1)
          rw [hnext, hb]
          obtain ⟨r1, r2⟩ := l2.cnt k b (fun o m hm he => hne o m hm he)
          refine ⟨fun m hm => ?_, r2⟩
          have hmi : m ≠ i := hE _ m (by rw [hnext]; exact hm)
          rw [hnode, if_neg hmi]
          exact r1 m hm
      · rw [hnode, if_pos rfl, (low i h1).1]; simp [Avg.update]

/-- The action returned by `get_action`, if all the actions have been tried. -/
theorem getAction_ok {k : Nat} {r : SearchRunner σ β} {st1 : SearchState σ β} (hm : simulateMany S r.node k r.search = (.ok (), st1))
    (hall : ∀ x < (st1.tree.nodes r.node).children.length, actionVisits st1.tree r.node x ≠ 0) (hpos : 0 < nodeVisits st1.tree r.node)
    (hlen : (st1.tree.nodes r.node).children.length = S.sim.nActions) (hA : 0 < S.sim.nActions) :
    ∃ a nm r', searchGetAction S k r = (.ok nm, r') ∧ a < S.sim.nActions ∧ S.sim.actions[a]? = some nm ∧
      ∀ b < S.sim.nActions, actionValue st1.tree r.node b ≤ actionValue st1.tree r.node a := by
  have hu : notInit (st1.tree.nodes r.node).children = [] := by
    rw [← unexplored_eq]
    unfold unexplored
    rw [List.filter_eq_nil_iff]
    intro x hx
    simpa using hall x (List.mem_range.1 hx)
  obtain ⟨a, _, ha, _⟩ := argmax_spec ((augmentedValues S.bonus 0 false (st1.tree.nodes r.node)).map (·.getD 0)) (by
    unfold augmentedValues
    intro h0
    have := congrArg List.length h0
    simp [hlen] at this
    omega)
  have hbest : getBestAction S.sim S.bonus 0 false r.node st1 = (.ok a, st1) := by
    unfold getBestAction
    rw [M.bind_of_ok (show M.read (fun st : SearchState σ β => st.tree.nodes r.node) st1 = (.ok (st1.tree.nodes r.node), st1) from rfl)]
    rw [if_pos (by rw [hu]; rfl)]
    unfold greedyAction
    rw [if_pos (show (st1.tree.nodes r.node).avg.n > 0 from hpos), ha]
    rfl
  obtain ⟨b1, b2⟩ := best_value hall hbest
  rw [hlen] at b1 b2
  have hnm : S.sim.actions[a]? = some (S.sim.actions[a]'b1) := List.getElem?_eq_getElem b1
  refine ⟨a, S.sim.actions[a]'b1, { r with search := st1, last := some a }, ?_, b1, hnm, b2⟩
  unfold searchGetAction
  rw [M.bind_of_ok (show M.read (fun st : SearchRunner σ β => st.node) r = (.ok r.node, r) from rfl)]
  rw [M.bind_of_ok (show onSearch (simulateMany S r.node k) r = (.ok (), { r with search := st1 }) by unfold onSearch; rw [hm])]
  rw [M.bind_of_ok (show onSearch (getBestAction S.sim S.bonus 0 false r.node) { r with search := st1 } = (.ok a, { r with search := st1 }) by
    unfold onSearch; simp only [hbest])]
  rw [M.bind_of_ok (show (M.modify fun st : SearchRunner σ β => { st with last := some a }) { r with search := st1 } =
    (.ok (), { r with search := st1, last := some a }) from rfl)]
  rw [hnm]
  rfl

end Verif.Uct
