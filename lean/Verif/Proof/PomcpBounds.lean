import Verif.Proof.PomcpSim
import Mathlib.Tactic.Linarith
import Mathlib.Tactic.Ring
import Mathlib.Tactic.FieldSimp

/-! Bounds on the values in a search tree. -/

set_option linter.unusedSectionVars false
set_option linter.unusedSimpArgs false

namespace Verif
open Spec
variable {σ β η : Type}

/-- The total is the sum of `n` numbers between `L` and `H`. -/
def AvgOk (L H : ℚ) (v : Avg) : Prop := v.n * L ≤ v.total ∧ v.total ≤ v.n * H

theorem AvgOk.new (L H : ℚ) : AvgOk L H .new := by simp [AvgOk, Avg.new]

theorem AvgOk.update {L H alpha x : ℚ} {v : Avg} (h : AvgOk L H v) (h0 : 0 ≤ alpha) (h1 : alpha ≤ 1) (hL : L ≤ x) (hH : x ≤ H) :
    AvgOk L H (v.update alpha x) := by
  obtain ⟨a, b⟩ := h
  have hn : (0 : ℚ) ≤ v.n := Nat.cast_nonneg _
  unfold AvgOk Avg.update
  push_cast
  constructor
  · have e1 : 0 ≤ (v.total + x - (v.n + 1) * L) * (1 - alpha) := mul_nonneg (by linarith) (by linarith)
    have e2 : 0 ≤ alpha * (v.n + 1) * (x - L) := mul_nonneg (mul_nonneg h0 (by linarith)) (by linarith)
    nlinarith
  · have e1 : 0 ≤ ((v.n + 1) * H - (v.total + x)) * (1 - alpha) := mul_nonneg (by linarith) (by linarith)
    have e2 : 0 ≤ alpha * (v.n + 1) * (H - x) := mul_nonneg (mul_nonneg h0 (by linarith)) (by linarith)
    nlinarith

theorem AvgOk.value {L H : ℚ} {v : Avg} (h : AvgOk L H v) (hL : L ≤ 0) (hH : 0 ≤ H) : L ≤ v.value ∧ v.value ≤ H := by
  unfold Avg.value
  split
  · exact ⟨hL, hH⟩
  · rename_i hn
    have hn' : (0 : ℚ) < v.n := by exact_mod_cast Nat.pos_of_ne_zero hn
    obtain ⟨a, b⟩ := h
    constructor
    · rw [le_div_iff₀ hn']; linarith
    · rw [div_le_iff₀ hn']; linarith

/-- The values of all the nodes are within bounds. -/
def BInv (L H : ℚ) (t : Tree β) : Prop :=
  (∀ i, AvgOk L H (t.nodes i).avg) ∧ ∀ i a c, t.anode i a = some c → AvgOk L H c.avg

section
variable {sim : Sim σ β} {lo up L H : ℚ}
variable (hr : RewardsIn sim lo up) (hL0 : L ≤ 0) (hH0 : 0 ≤ H) (hd : 0 ≤ sim.discount)
variable (hL : L ≤ lo + sim.discount * L) (hH : up + sim.discount * H ≤ H)
include hr hL0 hH0 hd hL hH

theorem rolloutLoop_bounds (hor : HorizonOps η) : ∀ (bound s : Nat) (h : η) (gamma full : ℚ) (g : σ), 0 ≤ gamma →
    M.Post (rolloutLoop sim hor bound s h gamma full) g
      (fun x _ => full + gamma * L ≤ x ∧ x ≤ full + gamma * H) (fun _ _ => True) := by
  intro bound
  induction bound with
  | zero =>
      intro s h gamma full g hg
      unfold rolloutLoop
      apply M.post_ite
      · intro _
        rw [M.post_pure]
        constructor <;> nlinarith
      · intro _
        exact M.post_raise.2 trivial
  | succ k ih =>
      intro s h gamma full g hg
      unfold rolloutLoop
      apply M.post_ite
      · intro _
        rw [M.post_pure]
        constructor <;> nlinarith
      · intro _
        refine M.post_bind (Q1 := fun _ _ => True) (E1 := fun _ _ => True) (by rw [M.post_iff]; simp) (fun _ _ _ => trivial) ?_
        intro a g1 _ _
        refine M.post_bind (Q1 := fun x _ => lo ≤ x.2.2 ∧ x.2.2 ≤ up) (E1 := fun _ _ => True) ?_ (fun _ _ _ => trivial) ?_
        · rw [M.post_iff]
          exact ⟨fun x g' h => hr a s g1 x g' h, fun _ _ _ => trivial⟩
        · rintro x g2 _ ⟨h1, h2⟩
          refine M.post_mono (ih x.1 _ _ _ g2 (mul_nonneg hg hd)) ?_ (fun _ _ h => h)
          rintro y g3 ⟨h3, h4⟩
          have e1 : 0 ≤ gamma * (x.2.2 + sim.discount * L - L) := mul_nonneg hg (by linarith)
          have e2 : 0 ≤ gamma * (H - (x.2.2 + sim.discount * H)) := mul_nonneg hg (by linarith)
          constructor <;> nlinarith

end

section
variable [DecidableEq β] {b0 : β} {S : Search σ β η} {lo up L H : ℚ}
variable (hr : RewardsIn S.sim lo up) (hL0 : L ≤ 0) (hH0 : 0 ≤ H) (hd : 0 ≤ S.sim.discount)
variable (hL : L ≤ lo + S.sim.discount * L) (hH : up + S.sim.discount * H ≤ H)
include hr hL0 hH0 hd hL hH

theorem rollouts_bounds (b : β) (h : η) : ∀ (k : Nat) (total : ℚ) (g : σ),
    M.Post (rollouts S b h k total) g (fun x _ => total + k * L ≤ x ∧ x ≤ total + k * H) (fun _ _ => True) := by
  intro k
  induction k with
  | zero => intro total g; exact M.post_pure.2 (by simp)
  | succ k ih =>
      intro total g
      unfold rollouts
      refine M.post_bind (Q1 := fun _ _ => True) (E1 := fun _ _ => True) (by rw [M.post_iff]; simp) (fun _ _ _ => trivial) ?_
      intro s g1 _ _
      refine M.post_bind (rolloutLoop_bounds hr hL0 hH0 hd hL hH S.hor S.bound s (S.hor.copy h) 1 0 g1 (by norm_num))
        (fun _ _ h => h) ?_
      rintro x g2 _ ⟨h1, h2⟩
      refine M.post_mono (ih (total + x) g2) ?_ (fun _ _ h => h)
      rintro y g3 ⟨h3, h4⟩
      push_cast
      constructor <;> linarith

variable (ha0 : 0 ≤ S.alpha) (ha1 : S.alpha ≤ 1)
include ha0 ha1

theorem rolloutFromNode_bounds (i : Nat) (h : η) (st : SearchState σ β) (hb : BInv L H st.tree) :
    M.Post (rolloutFromNode S i h) st (fun y st' => (L ≤ y ∧ y ≤ H) ∧ BInv L H st'.tree) (fun _ st' => BInv L H st'.tree) := by
  refine M.post_mono (rolloutFromNode_post (S := S) i h st) ?_ ?_
  · rintro y s1 (⟨_, rfl, rfl⟩ | ⟨_, h0, x, hx, rfl, ht⟩)
    · exact ⟨⟨hL0, hH0⟩, hb⟩
    · obtain ⟨h1, h2⟩ := (M.post_iff.1 (rollouts_bounds hr hL0 hH0 hd hL hH _ h S.rolloutIt 0 st.rng)).1 _ _ hx
      have hpos : (0 : ℚ) < S.rolloutIt := by exact_mod_cast Nat.pos_of_ne_zero h0
      have hy : L ≤ x / S.rolloutIt ∧ x / S.rolloutIt ≤ H := by
        constructor
        · rw [le_div_iff₀ hpos]; linarith
        · rw [div_le_iff₀ hpos]; linarith
      refine ⟨hy, ?_⟩
      rw [ht]
      refine ⟨fun j => ?_, fun j a c hc => ?_⟩
      · rw [Tree.bump_avg]
        split
        · exact (hb.1 j).update ha0 ha1 hy.1 hy.2
        · exact hb.1 j
      · rw [Tree.bump_anode] at hc; exact hb.2 j a c hc
  · rintro e s1 ⟨h1, _⟩
    rw [h1]; exact hb


theorem expand_bounds {i a o : Nat} {h : η} {st : SearchState σ β} (ht : TInv S b0 st.tree) (hi : i < st.tree.size)
    (ha : st.tree.anode i a ≠ none) (hn : st.tree.next i a o = none) (hb : BInv L H st.tree) :
    M.Post (expand S i a o h) st (fun y st' => (L ≤ y ∧ y ≤ H) ∧ BInv L H st'.tree) (fun _ st' => BInv L H st'.tree) := by
  unfold expand
  refine M.post_try (Q1 := fun y st' => (L ≤ y ∧ y ≤ H) ∧ BInv L H st'.tree) (E1 := fun _ st' => BInv L H st'.tree) ?_
    (fun _ _ _ h => h) (fun _ _ _ h => h) ?_
  · refine M.post_bind (createChild_post ht hi ha hn) ?_ ?_
    · rintro e s1 ⟨h1, _⟩
      rw [h1]; exact hb
    · rintro j s1 _ ⟨_, _, _, _, _, _, g7, _, g8, _⟩
      apply rolloutFromNode_bounds hr hL0 hH0 hd hL hH ha0 ha1
      refine ⟨fun k => ?_, fun k b c hc => ?_⟩
      · rcases g7 k with h | h <;> rw [h]
        · exact hb.1 k
        · exact .new _ _
      · obtain ⟨c', hc', he⟩ := g8 k b c hc
        rw [he]; exact hb.2 k b c' hc'
  · intro s1 _ h1
    exact M.post_pure.2 ⟨⟨hL0, hH0⟩, h1⟩

theorem simulate_bounds : ∀ (fuel i s : Nat) (h : η) (act : Option Nat) (st : SearchState σ β), TInv S b0 st.tree →
    i < st.tree.size → BInv L H st.tree →
    M.Post (simulate S fuel i s h act) st (fun y st' => (L ≤ y ∧ y ≤ H) ∧ BInv L H st'.tree) (fun _ st' => BInv L H st'.tree) := by
  intro fuel
  induction fuel with
  | zero => intro i s h act st _ _ hb; exact M.post_raise.2 hb
  | succ fuel ih =>
      intro i s h act st ht hi hb
      unfold simulate
      apply M.post_ite
      · intro _
        rw [M.post_read]
        exact ⟨(hb.1 i).value hL0 hH0, hb⟩
      · intro _
        refine M.post_bind chooseAction_post (fun e s1 h1 => by rw [h1]; exact hb) ?_
        intro a s1 _ h1
        have ht1 : TInv S b0 s1.tree := by rw [h1]; exact ht
        have hi1 : i < s1.tree.size := by rw [h1]; exact hi
        refine M.post_bind (safeGetChild_post (a := a) ht1 hi1) (fun e s2 h2 => by rw [h2.1, h1]; exact hb) ?_
        rintro _ s2 _ ⟨_, ht2, _, _, ha2, _, hav, hs2, _, han⟩
        rw [h1] at hs2 hav han
        have hb2 : BInv L H s2.tree := by
          refine ⟨fun j => by rw [hav]; exact hb.1 j, fun j b c hc => ?_⟩
          rcases han j b c hc with h | h
          · exact hb.2 j b c h
          · rw [h]; exact .new _ _
        refine M.post_bind (Q1 := fun x s3 => s3.tree = s2.tree ∧ lo ≤ x.2.2 ∧ x.2.2 ≤ up) (E1 := fun _ s3 => s3.tree = s2.tree)
          (onRng_tree _ _ (fun x g hx => ⟨rfl, hr a s _ x g hx⟩) (fun _ _ _ => rfl)) (fun e s3 h3 => by rw [h3]; exact hb2) ?_
        rintro x s3 _ ⟨h3, hx1, hx2⟩
        apply M.post_read_bind
        have ht3 : TInv S b0 s3.tree := by rw [h3]; exact ht2
        have hi3 : i < s3.tree.size := by rw [h3, hs2]; exact hi
        have ha3 : s3.tree.anode i a ≠ none := by rw [h3]; exact ha2
        have hb3 : BInv L H s3.tree := by rw [h3]; exact hb2
        refine M.post_bind (Q1 := fun y s5 => (L ≤ y ∧ y ≤ H) ∧ BInv L H s5.tree)
          (E1 := fun _ s5 => BInv L H s5.tree) ?_ (fun _ _ h => h) ?_
        · rcases hj : s3.tree.next i a x.2.1 with _ | j
          · exact expand_bounds hr hL0 hH0 hd hL hH ha0 ha1 ht3 hi3 ha3 hj hb3
          · exact ih j _ _ _ _ ht3 (ht3.range i a _ j hj).1 hb3
        · rintro y s5 _ ⟨⟨hy1, hy2⟩, hb5⟩
          rw [M.post_of_ok (updateBoth_run ..)]
          have e1 : S.sim.discount * L ≤ S.sim.discount * y := mul_le_mul_of_nonneg_left hy1 hd
          have e2 : S.sim.discount * y ≤ S.sim.discount * H := mul_le_mul_of_nonneg_left hy2 hd
          have hv1 : L ≤ x.2.2 + S.sim.discount * y := by linarith
          have hv2 : x.2.2 + S.sim.discount * y ≤ H := by linarith
          refine ⟨⟨hv1, hv2⟩, fun j => ?_, fun j b c hc => ?_⟩
          · show AvgOk L H ((Tree.bump _ _ _ _).nodes j).avg
            rw [Tree.bump_avg]
            unfold Tree.bumpA
            rw [Tree.updA_avg]
            split
            · exact (hb5.1 j).update ha0 ha1 hv1 hv2
            · exact hb5.1 j
          · change (Tree.bump _ _ _ _).anode j b = some c at hc
            rw [Tree.bump_anode, Tree.bumpA_anode] at hc
            split at hc
            · obtain ⟨c', hc', rfl⟩ := Option.map_eq_some_iff.1 hc
              exact (hb5.2 j b c' hc').update ha0 ha1 hv1 hv2
            · exact hb5.2 j b c hc

theorem simulateFromNode_bounds (i : Nat) (act : Option Nat) (st : SearchState σ β) (ht : TInv S b0 st.tree) (hi : i < st.tree.size)
    (hb : BInv L H st.tree) :
    M.Post (simulateFromNode S i act) st (fun _ st' => BInv L H st'.tree) (fun _ st' => BInv L H st'.tree) := by
  unfold simulateFromNode
  apply M.post_read_bind
  refine M.post_bind (Q1 := fun _ s3 => s3.tree = st.tree) (E1 := fun _ s3 => s3.tree = st.tree)
    (onRng_tree _ _ (fun _ _ _ => rfl) (fun _ _ _ => rfl)) (fun e s3 h3 => by rw [h3]; exact hb) ?_
  intro s s2 _ h2
  refine M.post_bind (simulate_bounds hr hL0 hH0 hd hL hH ha0 ha1 S.fuel i s S.horizon act s2 (by rw [h2]; exact ht)
    (by rw [h2]; exact hi) (by rw [h2]; exact hb)) (fun _ _ h => h) ?_
  intro x s3 _ h3
  exact M.post_pure.2 h3.2

omit hr hL0 hH0 hd hL hH ha0 ha1 in
theorem getNodeFrom_bounds : ∀ (h : List (Nat × Nat)) (i : Nat) (st : SearchState σ β), TInv S b0 st.tree → i < st.tree.size →
    BInv L H st.tree →
    M.Post (getNodeFrom S i h) st (fun _ st' => BInv L H st'.tree) (fun _ st' => BInv L H st'.tree) := by
  intro h
  induction h with
  | nil => intro i st _ _ hb; exact M.post_pure.2 hb
  | cons ao h ih =>
      intro i st ht hi hb
      obtain ⟨a, o⟩ := ao
      unfold getNodeFrom
      have h1 := getNodeStep_post (S := S) i a o st ht hi
      have h2 : M.Post (getNodeStep S i a o) st (fun _ st' => BInv L H st'.tree) (fun _ st' => BInv L H st'.tree) := by
        unfold getNodeStep
        refine M.post_bind (safeGetChild_post (a := a) ht hi) (fun e s2 h2 => by rw [h2.1]; exact hb) ?_
        rintro _ s2 _ ⟨_, ht2, _, _, ha2, _, hav, hs2, _, han⟩
        have hb2 : BInv L H s2.tree := by
          refine ⟨fun j => by rw [hav]; exact hb.1 j, fun j b c hc => ?_⟩
          rcases han j b c hc with h | h
          · exact hb.2 j b c h
          · rw [h]; exact .new _ _
        apply M.post_read_bind
        rcases hj : s2.tree.next i a o with _ | j
        · refine M.post_mono (createChild_post ht2 (by rw [hs2]; exact hi) ha2 hj) ?_ ?_
          · rintro j s1 ⟨_, _, _, _, _, _, g7, _, g8, _⟩
            refine ⟨fun k => ?_, fun k b c hc => ?_⟩
            · rcases g7 k with h | h <;> rw [h]
              · exact hb2.1 k
              · exact .new _ _
            · obtain ⟨c', hc', he⟩ := g8 k b c hc
              rw [he]; exact hb2.2 k b c' hc'
          · rintro e s1 ⟨h1, _⟩
            rw [h1]; exact hb2
        · exact M.post_pure.2 hb2
      have h3 : M.Post (getNodeStep S i a o) st (fun j st' => TInv S b0 st'.tree ∧ j < st'.tree.size ∧ BInv L H st'.tree)
          (fun _ st' => BInv L H st'.tree) := by
        rw [M.post_iff] at h1 h2 ⊢
        exact ⟨fun j s1 hs => ⟨(h1.1 j s1 hs).1, (h1.1 j s1 hs).2.2.2.2.1, h2.1 j s1 hs⟩, fun e s1 hs => h2.2 e s1 hs⟩
      refine M.post_bind h3 (fun _ _ h => h) ?_
      rintro j s1 _ ⟨k1, k2, k3⟩
      exact ih j s1 k1 k2 k3

theorem runTreeOp_bounds (op : TreeOp) (st : SearchState σ β) (ht : TInv S b0 st.tree) (hb : BInv L H st.tree) :
    BInv L H (runTreeOp S st op).tree := by
  cases op with
  | simulate i a =>
      show BInv L H (if i < st.tree.size then (simulateFromNode S i a st).2 else st).tree
      split
      · rename_i hi
        have hp := simulateFromNode_bounds hr hL0 hH0 hd hL hH ha0 ha1 i a st ht hi hb
        exact post_state (m := simulateFromNode S i a) (P := fun s' => BInv L H s'.tree) hp
      · exact hb
  | getNode h =>
      have hp := getNodeFrom_bounds h 0 st ht ht.pos hb
      exact post_state (m := getNode S h) (P := fun s' => BInv L H s'.tree) hp

theorem runTreeOps_bounds (ops : List TreeOp) : ∀ (st : SearchState σ β), TInv S b0 st.tree → BInv L H st.tree →
    BInv L H (runTreeOps S st ops).tree := by
  induction ops with
  | nil => intro st _ hb; exact hb
  | cons op ops ih =>
      intro st ht hb
      exact ih _ (runTreeOp_inv op st ht).1 (runTreeOp_bounds hr hL0 hH0 hd hL hH ha0 ha1 op st ht hb)

omit hr hL0 hH0 hd hL hH ha0 ha1 in
theorem BInv.init (b : β) : BInv L H (Tree.init S.shared S.sim.nActions b) := by
  have h0 : ∀ t : Tree β, t.nodes = (fun _ => ONode.new b S.sim.nActions) → BInv L H t := by
    intro t hn
    refine ⟨fun i => by rw [hn]; exact .new _ _, fun i a c hc => ?_⟩
    rw [Tree.new_anode (b := b) (n := S.sim.nActions) (by rw [hn])] at hc
    cases hc
  unfold Tree.init Tree.nodeFor
  split
  · simp only [dget]
    refine h0 _ ?_
    funext j; simp [Tree.alloc]
  · refine h0 _ ?_
    funext j; simp [Tree.alloc]

end
end Verif
