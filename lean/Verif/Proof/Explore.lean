import Verif.Spec.Explore
import Verif.Props.PomcpUct
import Verif.Props.PomcpRunner

/-! The exploration of a search tree. -/

set_option linter.unusedSectionVars false
set_option linter.unusedSimpArgs false

namespace Verif
open Spec
variable {σ β η : Type} [DecidableEq β]

namespace Explore

/-- One simulation, with the choice of the first action. -/
theorem step {S : Search σ β η} {b0 : β} (hq : QuietSim S.sim) (hh : S.hor.isReached S.horizon = false) {i : Nat} {st st' : SearchState σ β}
    (ht : TInv S b0 st.tree) (hi : i < st.tree.size) (hrun : simulateFromNode S i none st = (.ok (), st')) :
    ∃ path : List (Nat × Nat), ∃ a, UctChoice S st.tree i a ∧ (i, a) ∈ path ∧ (∀ y ∈ path, UctChoice S st.tree y.1 y.2) ∧
      nodeVisits st.tree i + 1 ≤ nodeVisits st'.tree i ∧
      ∀ j c, actionVisits st'.tree j c = actionVisits st.tree j c + path.count (j, c) := by
  have hp := simulateFromNode_proj S i none ⟨st.tree, (st.rng, [])⟩
  rw [show eraseLog (⟨st.tree, (st.rng, [])⟩ : SearchState (σ × List Ev) β) = st from rfl, hrun] at hp
  rcases hl : simulateFromNode (loggedSearch S) i none ⟨st.tree, (st.rng, [])⟩ with ⟨r, st2⟩
  rw [hl] at hp
  simp only [Prod.mk.injEq] at hp
  obtain ⟨rfl, rfl⟩ := hp
  obtain ⟨s, x, path, evs, rolls, ending, _, tr, hfirst⟩ := simulateFromNode_trace hq (st := ⟨st.tree, (st.rng, [])⟩) ht hi hl
  obtain ⟨a, p, rfl, h1, _, h2⟩ := hfirst hh
  refine ⟨_, a, h1 rfl, List.mem_cons_self, ?_, ?_, tr.acts⟩
  · intro y hy
    rcases List.mem_cons.1 hy with rfl | hy
    · exact h1 rfl
    · exact h2 y hy
  · have := tr.nodes i
    show nodeVisits st.tree i + 1 ≤ nodeVisits st2.tree i
    rw [this]
    simp only [List.map_cons, List.count_cons_self]
    omega

/-- The visits of the actions, each counted at most `M` times. -/
def capped (t : Tree β) (i M n : Nat) : Nat := ((List.range n).map fun a => min (actionVisits t i a) M).sum

theorem sum_le_mul (f : Nat → Nat) (M : Nat) : ∀ l : List Nat, (∀ x ∈ l, f x ≤ M) → (l.map f).sum ≤ l.length * M := by
  intro l
  induction l with
  | nil => simp
  | cons x l ih =>
      intro h
      have h1 := h x (by simp)
      have h2 := ih fun y hy => h y (by simp [hy])
      simp only [List.map_cons, List.sum_cons, List.length_cons]
      rw [Nat.add_mul]
      omega

theorem capped_le (t : Tree β) (i M n : Nat) : capped t i M n ≤ n * M := by
  have := sum_le_mul (fun a => min (actionVisits t i a) M) M (List.range n) fun _ _ => min_le_right _ _
  simpa [capped] using this

theorem sum_lt {f g : Nat → Nat} : ∀ {l : List Nat}, (∀ x ∈ l, f x ≤ g x) → ∀ a ∈ l, f a < g a → (l.map f).sum < (l.map g).sum := by
  intro l
  induction l with
  | nil => intro _ a h; cases h
  | cons x l ih =>
      intro h a ha hlt
      have hle : ∀ l : List Nat, (∀ x ∈ l, f x ≤ g x) → (l.map f).sum ≤ (l.map g).sum := by
        intro l
        induction l with
        | nil => simp
        | cons y l ih =>
            intro h
            have := h y (by simp)
            have := ih fun z hz => h z (by simp [hz])
            simp only [List.map_cons, List.sum_cons]
            omega
      simp only [List.map_cons, List.sum_cons]
      have h1 := h x (by simp)
      have h2 : ∀ y ∈ l, f y ≤ g y := fun y hy => h y (by simp [hy])
      rcases List.mem_cons.1 ha with rfl | ha
      · have := hle l h2
        omega
      · have := ih h2 a ha hlt
        omega

/-- An action with many visits is not chosen while another one has few. -/
theorem choice_rare {S : Search σ β η} {t : Tree β} {i a c K N : Nat} {L H : ℚ} (h : UctChoice S t i a) (hrel : S.relative = false)
    (he : 0 < S.exploration) (hv : ∀ x, L ≤ actionValue t i x ∧ actionValue t i x ≤ H)
    (hN : ∀ n m j, N ≤ n → N ≤ m → 0 < j → j < K → S.bonus n m + (H - L) / S.exploration < S.bonus n j) (hpos : 0 < N)
    (hn : N ≤ nodeVisits t i) (hc : c < (t.nodes i).children.length) (hcK : actionVisits t i c < K) : actionVisits t i a < N := by
  obtain ⟨h1, h2, h3⟩ := h
  by_cases hu : unexplored t i = []
  · obtain ⟨w, hw, hbest, _⟩ := h3 hu
    unfold IsWeight at hw
    rw [if_neg (by rw [hrel]; simp)] at hw
    subst hw
    by_contra hlt
    have hlt := not_lt.1 hlt
    have h0 : 0 < actionVisits t i c := by
      apply Nat.pos_of_ne_zero
      intro h0
      have : c ∈ unexplored t i := List.mem_filter.2 ⟨List.mem_range.2 hc, by simpa using h0⟩
      rw [hu] at this
      cases this
    have h4 := hN _ _ _ hn hlt h0 hcK
    have h5 := hbest c hc
    unfold uctScore at h5
    have h6 := mul_lt_mul_of_pos_left h4 he
    rw [mul_add, mul_div_cancel₀ _ he.ne'] at h6
    have h7 := (hv c).1
    have h8 := (hv a).2
    linarith
  · have := (List.mem_filter.1 (h2 hu)).2
    simp only [decide_eq_true_eq] at this
    omega

/-- A missing amount of visits. -/
def missing (t : Tree β) (i N n : Nat) : Nat := (N - nodeVisits t i) + (n * N - capped t i N n)

theorem many {S : Search σ β η} {b0 : β} (hq : QuietSim S.sim) (hh : S.hor.isReached S.horizon = false) (hrel : S.relative = false)
    (he : 0 < S.exploration) {L H : ℚ} (hb : ∀ i (st st' : SearchState σ β), TInv S b0 st.tree → i < st.tree.size → BInv L H st.tree →
      simulateFromNode S i none st = (.ok (), st') → BInv L H st'.tree) (hL0 : L ≤ 0) (hH0 : 0 ≤ H) {K N : Nat}
    (hN : ∀ n m j, N ≤ n → N ≤ m → 0 < j → j < K → S.bonus n m + (H - L) / S.exploration < S.bonus n j) (hpos : 0 < N) (i : Nat) :
    ∀ (n : Nat) (st st' : SearchState σ β), TInv S b0 st.tree → i < st.tree.size → BInv L H st.tree →
      simulateMany S i n st = (.ok (), st') → missing st.tree i N S.sim.nActions < n →
      ∀ c < S.sim.nActions, K ≤ actionVisits st'.tree i c := by
  intro n
  induction n with
  | zero => intro st st' _ _ _ _ hm; omega
  | succ n ih =>
      intro st st' ht hi hB h hm c hc
      obtain ⟨_, s1, h1, h2⟩ := M.bind_ok h
      obtain ⟨ht1, hg⟩ := (M.post_iff.1 (simulateFromNode_post i none st ht hi)).1 _ _ h1
      have hi1 := lt_of_lt_of_le hi hg.size
      obtain ⟨path, a, k1, k2, _, k3, k4⟩ := step hq hh ht hi h1
      have hmono : ∀ (n : Nat) (s s' : SearchState σ β), TInv S b0 s.tree → i < s.tree.size → simulateMany S i n s = (.ok (), s') →
          actionVisits s.tree i c ≤ actionVisits s'.tree i c := by
        intro n
        induction n with
        | zero => intro s s' _ _ h; cases h; exact le_refl _
        | succ n ih =>
            intro s s' hs hi h
            obtain ⟨_, s1, h1, h2⟩ := M.bind_ok h
            obtain ⟨ht1, hg⟩ := (M.post_iff.1 (simulateFromNode_post i none s hs hi)).1 _ _ h1
            obtain ⟨path, a, _, _, _, _, k4⟩ := step hq hh hs hi h1
            have := ih s1 s' ht1 (lt_of_lt_of_le hi hg.size) h2
            have := k4 i c
            omega
      by_cases hK : K ≤ actionVisits st.tree i c
      · exact hK.trans (hmono (n + 1) st st' ht hi h)
      · refine ih s1 st' ht1 hi1 (hb i st s1 ht hi hB h1) h2 ?_ c hc
        have ha : a < S.sim.nActions := by rw [← ht.len i]; exact k1.1
        have hle : ∀ x ∈ List.range S.sim.nActions, min (actionVisits st.tree i x) N ≤ min (actionVisits s1.tree i x) N := by
          intro x _
          have := k4 i x
          omega
        have hcnt : 0 < path.count (i, a) := List.count_pos_iff.2 k2
        by_cases hn : N ≤ nodeVisits st.tree i
        · have hv : ∀ x, L ≤ actionValue st.tree i x ∧ actionValue st.tree i x ≤ H := by
            intro x
            unfold actionValue
            rcases hx : st.tree.anode i x with _ | d
            · exact ⟨hL0, hH0⟩
            · exact (hB.2 i x d hx).value hL0 hH0
          have hr := choice_rare k1 hrel he hv hN hpos hn (by rw [ht.len]; exact hc) (not_le.1 hK)
          have hlt := sum_lt hle a (List.mem_range.2 ha) (by have := k4 i a; omega)
          have := capped_le s1.tree i N S.sim.nActions
          unfold missing at hm ⊢
          unfold capped at *
          omega
        · have hsum : capped st.tree i N S.sim.nActions ≤ capped s1.tree i N S.sim.nActions := List.sum_le_sum hle
          unfold missing at hm ⊢
          omega

end Explore

end Verif
