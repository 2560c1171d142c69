import Verif.Proof.ConvergeAlpha
import Verif.Props.Explore
import Mathlib.Analysis.SpecialFunctions.Pow.Asymptotics

/-! Searches in models without randomness: C88. -/

set_option linter.unusedSectionVars false
set_option linter.unusedSimpArgs false

namespace Verif
open Spec
variable {σ β : Type} [DecidableEq β]

/-- The bonus of the code, `sqrt (log n / m)`, even when computed with errors, vanishes for the actions that are often tried. -/
theorem C88_bonus (r : ℝ) (hr0 : 0 ≤ r) (hr1 : r < 1) (bonus : Nat → Nat → ℚ) (h : ApproxUcb r bonus) : Fades bonus := by
  refine ⟨fun n m hn hm => ?_, fun share e hs he => ?_⟩
  · have h1 := (abs_le.1 (h n m hn hm)).1
    have h2 : 0 ≤ √(Real.log n / m) := Real.sqrt_nonneg _
    have : (0 : ℝ) ≤ bonus n m := by nlinarith
    exact_mod_cast this
  · have hs' : (0 : ℝ) < share := by exact_mod_cast hs
    have he' : (0 : ℝ) < e := by exact_mod_cast he
    have hc : (0 : ℝ) < share * (e / 2) ^ 2 := by positivity
    have hlim := (Real.isLittleO_log_id_atTop).def hc
    obtain ⟨X, hX⟩ := Filter.eventually_atTop.1 hlim
    refine ⟨max 1 ⌈X⌉₊, fun n m hn hm => ?_⟩
    have hn1 : 1 ≤ n := (le_max_left _ _).trans hn
    have hnX : X ≤ n := (Nat.le_ceil X).trans (by exact_mod_cast (le_max_right _ _).trans hn)
    have hn0 : (0 : ℝ) < n := by exact_mod_cast hn1
    have hmr : (share : ℝ) * n ≤ m := by exact_mod_cast hm
    have hm0 : (0 : ℝ) < m := lt_of_lt_of_le (mul_pos hs' hn0) hmr
    have hm1 : 1 ≤ m := by exact_mod_cast hm0
    have hlog := hX n hnX
    have hl0 : 0 ≤ Real.log n := Real.log_nonneg (by exact_mod_cast hn1)
    rw [Real.norm_of_nonneg hl0] at hlog
    simp only [id, Real.norm_of_nonneg hn0.le] at hlog
    have hsq : √(Real.log n / m) ≤ e / 2 := by
      rw [Real.sqrt_le_left (by positivity), div_le_iff₀ hm0]
      calc Real.log n ≤ share * (e / 2) ^ 2 * n := hlog
        _ = (e / 2) ^ 2 * (share * n) := by ring
        _ ≤ (e / 2) ^ 2 * m := mul_le_mul_of_nonneg_left hmr (by positivity)
    have h1 := (abs_le.1 (h n m hn1 hm1)).2
    have h2 : 0 ≤ √(Real.log n / m) := Real.sqrt_nonneg _
    have : (bonus n m : ℝ) ≤ e := by nlinarith
    exact_mod_cast this

section
variable {p : Pomdp} {nS nA nO : Nat} {u : Nat → ℚ} {c : Nat → Nat} {nx ob : Nat → Nat → Nat}

/-- The exact model of a POMDP without randomness has no randomness, whatever the draws. -/
theorem C88_exact (hp : Stochastic p nS nA nO) (hu : ∀ k, 0 ≤ u k ∧ u k < 1) (hw : WithoutChance p nS nA nO nx ob) :
    Determined (exactSim p u c) nx ob (fun a s => p.R.at_ a s (nx a s) (ob a s)) ∧ Finds (exactSim p u c) ∧
    ∀ b s0, IsDist nS b → (∀ s < nS, 0 < b.getD s 0 → s = s0) → StartsIn (exactSim p u c) b s0 := by
  refine ⟨fun a s g x g' h => ?_, fun b a o g h => ?_, fun b s0 hb hs0 g s g' h => ?_⟩
  · have h' : p.sampleTransition (u g) (u (g + 1)) a s = .ok x := congrArg Prod.fst h
    by_cases hr : p.T.n0 ≤ a ∨ p.T.n1 ≤ s
    · unfold Pomdp.sampleTransition at h'
      rw [if_pos hr] at h'
      cases h'
    · obtain ⟨_, _, _, _, t0, t1, _⟩ := hp.1
      have ha : a < nA := by omega
      have hs : s < nS := by omega
      obtain ⟨s', o, r, e1, e2, e3, e4, e5, e6⟩ := (C71_transition p nS nA nO hp a s ha hs).1 (u g) (u (g + 1)) (hu g).1 (hu g).2 (hu _).1 (hu _).2
      rw [e1] at h'
      cases h'
      obtain ⟨w1, w2⟩ := hw a ha s hs
      obtain rfl := w1 s' e2 e4
      obtain rfl := w2 o e3 e5
      rw [e6]
  · have h' : (do let b' ← p.beliefUpdate a o b; arrayBelief b') = .error .maxSamplesReached := h
    unfold Pomdp.beliefUpdate arrayBelief at h'
    simp only [bind, Except.bind] at h'
    split at h'
    · rename_i e he
      split at he
      · cases he; cases h'
      · split at he
        · cases he; cases h'
        · split at he
          · cases he; cases h'
          · split at he
            · cases he; cases h'
            · cases he
    · split at h' <;> cases h'
  · have h' : Pomdp.choice b.length b (u g) = .ok s := congrArg Prod.fst h
    have hl : b = (List.range nS).map (fun i => b.getD i 0) := by
      apply List.ext_getElem
      · simp [hb.1]
      · intro i h1 h2
        simp [h1]
    obtain ⟨i, e1, e2, e3⟩ := (choice_spec nS (fun i => b.getD i 0) hb.2.1 hb.2.2).1 (u g) (hu g).1 (hu g).2
    rw [← hl] at e1
    rw [hb.1, e1] at h'
    cases h'
    exact hs0 s e2 e3

end

section
variable (S : Search σ β Int) (b : β) (nx ob : Nat → Nat → Nat) (rew : Nat → Nat → ℚ) (s0 n : Nat)
variable (hdet : Determined S.sim nx ob rew) (hfind : Finds S.sim) (hstart : StartsIn S.sim b s0) (hq : QuietSim S.sim)
variable (hhor : S.hor = nTransitions) (hh : S.horizon = (n : Int)) (hn : 0 < n) (hs : S.shared = false) (hα : S.alpha = 0)
variable (hrel : S.relative = false) (he : 0 < S.exploration) (hbonus : FavoursRare S.bonus) (hfade : Fades S.bonus)
variable (lo hi : ℚ) (hr : RewardsIn S.sim lo hi) (hd0 : 0 ≤ S.sim.discount) (hd1 : S.sim.discount < 1) (hA : 0 < S.sim.nActions)
include hdet hfind hstart hq hhor hh hn hs hα hrel he hbonus hfade hr hd0 hd1 hA

/-- In a model without randomness, with an absolute exploration and plain averages (`alpha` is 0), the estimated value of the root
converges to the optimal return, whatever the draws. -/
theorem C88_value_partial (v : ℚ) (hv : IsOptimum S.sim.discount nx rew S.sim.nActions n s0 v) (e : ℚ) (he0 : 0 < e) :
    ∃ N, ∀ (k : Nat) (rng : σ) (st' : SearchState σ β), N ≤ k → simulateMany S 0 k (S.start b rng) = (.ok (), st') →
      |(st'.tree.nodes 0).avg.value - v| ≤ e := by
  have hp : 0 < 1 - S.sim.discount := by linarith
  have hr' : RewardsIn S.sim (min lo 0) (max hi 0) := fun a s g x g' h =>
    ⟨(min_le_left _ _).trans (hr a s g x g' h).1, (hr a s g x g' h).2.trans (le_max_left _ _)⟩
  have hL0 : min lo 0 / (1 - S.sim.discount) ≤ 0 := div_nonpos_of_nonpos_of_nonneg (min_le_right _ _) hp.le
  have hH0 : 0 ≤ max hi 0 / (1 - S.sim.discount) := div_nonneg (le_max_right _ _) hp.le
  have key : ∀ x : ℚ, x / (1 - S.sim.discount) = x + S.sim.discount * (x / (1 - S.sim.discount)) := by
    intro x
    have := hp.ne'
    field_simp
    ring
  have hvo : v = Uct.opt S nx rew n s0 := by
    obtain ⟨⟨p1, q1, e1⟩, m1⟩ := hv
    obtain ⟨⟨p2, q2, e2⟩, m2⟩ := Uct.opt_isOptimum (nx := nx) (rew := rew) hA hd0 n s0
    have h1 := m1 p2 q2
    have h2 := m2 p1 q1
    rw [e2] at h1
    rw [e1] at h2
    exact le_antisymm h2 h1
  obtain ⟨N, hN⟩ := Uct.Conv.all (nx := nx) (ob := ob) (rew := rew) (L := min lo 0 / (1 - S.sim.discount))
    (H := max hi 0 / (1 - S.sim.discount)) (n := n) (s0 := s0) hrel he hbonus hfade hA hd0 hd1.le n s0 e he0
  refine ⟨N, fun k rng st' hk h => ?_⟩
  obtain ⟨lab, r1, r2, _, r4⟩ := Uct.tree_after hr' hL0 hH0 hd0 (key _).le (key _).ge hq hdet hfind hhor hs hh hstart hα hn k rng st' h
  rw [hvo]
  exact hN lab st'.tree r1 0 r2 (by rw [r4]; exact hk)

/-- In such a model, with enough simulations, `get_action` returns the first action of an optimal plan, whatever the draws. -/
theorem C88_action_partial : ∃ N, ∀ (k : Nat) (rng : σ) (nm : Name) (r' : SearchRunner σ β), N ≤ k →
    searchGetAction S k (S.runner b rng) = (.ok nm, r') →
    ∃ a p, S.sim.actions[a]? = some nm ∧ IsPlan S.sim.nActions n (a :: p) ∧
      ∀ p', IsPlan S.sim.nActions n p' → planReturn S.sim.discount nx rew s0 p' ≤ planReturn S.sim.discount nx rew s0 (a :: p) := by
  have hp : 0 < 1 - S.sim.discount := by linarith
  have hr' : RewardsIn S.sim (min lo 0) (max hi 0) := fun a s g x g' h =>
    ⟨(min_le_left _ _).trans (hr a s g x g' h).1, (hr a s g x g' h).2.trans (le_max_left _ _)⟩
  have hL0 : min lo 0 / (1 - S.sim.discount) ≤ 0 := div_nonpos_of_nonpos_of_nonneg (min_le_right _ _) hp.le
  have hH0 : 0 ≤ max hi 0 / (1 - S.sim.discount) := div_nonneg (le_max_right _ _) hp.le
  have key : ∀ x : ℚ, x / (1 - S.sim.discount) = x + S.sim.discount * (x / (1 - S.sim.discount)) := by
    intro x
    have := hp.ne'
    field_simp
    ring
  obtain ⟨m, rfl⟩ : ∃ m, n = m + 1 := ⟨n - 1, by omega⟩
  have hcq : ∀ a < S.sim.nActions, Uct.ConvQ S nx ob rew (min lo 0 / (1 - S.sim.discount)) (max hi 0 / (1 - S.sim.discount)) (m + 1) s0 m s0 a :=
    fun a _ => Uct.Conv.act hd0 hd1.le (Uct.Conv.all hrel he hbonus hfade hA hd0 hd1.le m (nx a s0))
  obtain ⟨⟨a0, ha0, hopt⟩, hmax⟩ := Uct.opt_spec (nx := nx) (rew := rew) hA m s0
  -- enough simulations to tell each action from an optimal one
  obtain ⟨N, hN⟩ := Uct.uniform (n := S.sim.nActions) (P := fun a N => Uct.qopt S nx rew m s0 a < Uct.opt S nx rew (m + 1) s0 → ∀ lab t,
      Uct.Reached S nx ob rew (min lo 0 / (1 - S.sim.discount)) (max hi 0 / (1 - S.sim.discount)) (m + 1) s0
        (Uct.Facts S nx ob rew (min lo 0 / (1 - S.sim.discount)) (max hi 0 / (1 - S.sim.discount))) lab t →
      lab 0 = (m + 1, s0) → N ≤ nodeVisits t 0 → actionValue t 0 a < actionValue t 0 a0)
    (fun a m1 m2 hm hP hsub lab t h1 h2 h3 => hP hsub lab t h1 h2 (hm.trans h3)) (fun a ha => by
      by_cases hsub : Uct.qopt S nx rew m s0 a < Uct.opt S nx rew (m + 1) s0
      · obtain ⟨N, hN⟩ := Uct.close hrel he hbonus hcq ((Uct.opt S nx rew (m + 1) s0 - Uct.qopt S nx rew m s0 a) / 4) (by linarith)
        refine ⟨N, fun _ lab t h1 h2 h3 => ?_⟩
        have e1 := (abs_le.1 (hN lab t h1 0 h2 h3 a ha).2).2
        have e2 := (abs_le.1 (hN lab t h1 0 h2 h3 a0 ha0).2).1
        rw [hopt] at e2
        linarith
      · exact ⟨0, fun h => absurd h hsub⟩)
  obtain ⟨N1, hN1⟩ := Uct.close hrel he hbonus hcq 1 (by norm_num)
  refine ⟨max N N1, fun k rng nm r' hk h => ?_⟩
  obtain ⟨st1, a, hm, hg, hname⟩ := Uct.getAction_parts h
  obtain ⟨lab, r1, r2, r3, r4⟩ := Uct.tree_after hr' hL0 hH0 hd0 (key _).le (key _).ge hq hdet hfind hhor hs hh hstart hα hn k rng st1 hm
  have hall : ∀ x < (st1.tree.nodes 0).children.length, actionVisits st1.tree 0 x ≠ 0 := by
    intro x hx
    rw [r3.len] at hx
    have := (hN1 lab st1.tree r1 0 r2 (by rw [r4]; exact (le_max_right _ _).trans hk) x hx).1
    omega
  have hg' : getBestAction S.sim S.bonus 0 false 0 st1 = (.ok a, (getBestAction S.sim S.bonus 0 false 0 st1).2) := Prod.ext hg rfl
  obtain ⟨b1, b2⟩ := Uct.best_value hall hg'
  rw [r3.len] at b1 b2
  have hq' : Uct.qopt S nx rew m s0 a = Uct.opt S nx rew (m + 1) s0 := by
    rcases (hmax a b1).eq_or_lt with h | h
    · exact h
    · exact absurd (b2 a0 ha0) (not_le.2 (hN a b1 h lab st1.tree r1 r2 (by rw [r4]; exact (le_max_left _ _).trans hk)))
  obtain ⟨⟨p, hp1, hp2⟩, _⟩ := Uct.opt_isOptimum (nx := nx) (rew := rew) hA hd0 m (nx a s0)
  obtain ⟨_, hbest⟩ := Uct.opt_isOptimum (nx := nx) (rew := rew) hA hd0 (m + 1) s0
  refine ⟨a, p, hname, ⟨by simp [hp1.1], by simpa using ⟨b1, hp1.2⟩⟩, fun p' hp' => ?_⟩
  have : planReturn S.sim.discount nx rew s0 (a :: p) = Uct.opt S nx rew (m + 1) s0 := by
    show rew a s0 + S.sim.discount * planReturn S.sim.discount nx rew (nx a s0) p = _
    rw [hp2, ← hq']
    rfl
  rw [this]
  exact hbest p' hp'

end

/-! ### A search that does not converge -/

/-- The state after an action: the first action leads from the start to the cliff, the second one to the meadow. -/
def cliffNext (a s : Nat) : Nat := if s = 0 then (if a = 0 then 1 else 2) else s

/-- The rewards: nothing at the start, 1 for walking along the cliff, -10000 for jumping, and 1/2 in the meadow. -/
def cliffRew (a s : Nat) : ℚ := if s = 0 then 0 else if s = 1 then (if a = 0 then 1 else -10000) else 1 / 2

/-- A model without randomness. -/
def cliffPomdp : Pomdp where
  sNames := .list [.str "start", .str "cliff", .str "meadow"]
  aNames := .list [.str "left", .str "right"]
  oNames := .list [.str "o"]
  T := ⟨2, 3, 3, fun a s s' => if s' = cliffNext a s then 1 else 0⟩
  O := ⟨2, 3, 1, fun _ _ _ => 1⟩
  R := ⟨2, 3, 3, 1, fun a s _ _ => cliffRew a s⟩
  start := [1, 0, 0]
  discount := 1 / 2
  solverPath := "pomdp-solve"

/-- A search in this model with a horizon of two transitions. -/
def cliffSearch (alpha e : ℚ) (bonus : Nat → Nat → ℚ) : Search Nat (List ℚ) Int :=
  { loopSearch false 2 with
    sim := exactSim cliffPomdp (fun _ => 0) (fun _ => 0)
    exploration := e
    alpha := alpha
    bonus := bonus }

theorem cliff_stochastic : Stochastic cliffPomdp 3 2 1 := by
  refine ⟨by simp [Shaped, cliffPomdp, Pomdp.states, Pomdp.actions, Pomdp.observations, Names.asList], ?_, ?_⟩
  · intro i hi j hj
    have hi : i < 2 := hi
    have hj : j < 3 := hj
    refine ⟨fun k _ => ?_, ?_⟩
    · show (0 : ℚ) ≤ if k = cliffNext i j then 1 else 0
      split <;> norm_num
    · show sumRange 3 (fun k => if k = cliffNext i j then (1 : ℚ) else 0) = 1
      have : cliffNext i j < 3 := by unfold cliffNext; split <;> [split <;> omega; omega]
      interval_cases cliffNext i j <;> simp [sumRange, List.range_succ]
  · intro i _ j _
    exact ⟨fun _ _ => by norm_num [cliffPomdp], by simp [cliffPomdp, sumRange, List.range_succ]⟩

theorem cliff_dist : IsDist 3 [(1 : ℚ), 0, 0] :=
  ⟨rfl, by intro i hi; interval_cases i <;> norm_num, by simp [sumRange, List.range_succ]⟩

theorem cliff_chance : WithoutChance cliffPomdp 3 2 1 cliffNext (fun _ _ => 0) := by
  intro a _ s _
  refine ⟨fun s' _ h => ?_, fun o ho h => ?_⟩
  · change (0 : ℚ) < if s' = cliffNext a s then 1 else 0 at h
    by_contra hne
    rw [if_neg hne] at h
    exact lt_irrefl _ h
  · show o = 0
    omega

theorem cliff_rewards (alpha e : ℚ) (bonus : Nat → Nat → ℚ) : RewardsIn (cliffSearch alpha e bonus).sim (-10000) 1 := by
  intro a s g x g' h
  have h' := (C88_exact (c := fun _ => 0) (u := fun _ => 0) cliff_stochastic (fun _ => by norm_num) cliff_chance).1 a s g x g' h
  rw [h']
  show (-10000 : ℚ) ≤ cliffRew a s ∧ cliffRew a s ≤ 1
  unfold cliffRew
  split
  · norm_num
  · split
    · split <;> norm_num
    · norm_num

section
variable {bonus : Nat → Nat → ℚ} {e : ℚ}

local notation "CS" => cliffSearch (1 / 1000) e bonus
local notation "CRun" => Uct.Run (cliffSearch (1 / 1000) e bonus) cliffNext (fun _ _ => 0) cliffRew (-20000) 2

/-- What is known of the trees of this search. -/
structure CliffInv (e : ℚ) (bonus : Nat → Nat → ℚ) (lab : Nat → Nat × Nat) (t : Tree (List ℚ)) : Prop where
  base : Uct.Base (cliffSearch (1 / 1000) e bonus) (-20000) 2 t
  root : lab 0 = (2, 0)
  shape : Uct.LInv cliffNext (fun _ _ => 0) lab (fun _ => False) t
  safe : ((Uct.actAvg t 0 1).n : ℚ) / 4 - 20000 ≤ (Uct.actAvg t 0 1).total
  risky : (Uct.actAvg t 0 0).total ≤ ((Uct.actAvg t 0 0).n : ℚ) / 2 + 1

/-- The return of a simulation from a node with a horizon of one transition. -/
theorem cliff_last {t t' : Tree (List ℚ)} {lab : Nat → Nat × Nat} (hd : Uct.LInv cliffNext (fun _ _ => 0) lab (fun _ => False) t) {j s : Nat} {y : ℚ}
    (hl : lab j = (1, s)) (h : CRun j s 1 t t' y) : ∃ a, y = cliffRew a s ∧
      ∀ k b, actionVisits t' k b = actionVisits t k b + if k = j ∧ b = a then 1 else 0 := by
  cases h with
  | grow _ _ _ a _ _ y hch hn hy hsize hnext hnode hact =>
      obtain ⟨_, rfl⟩ | ⟨h, _⟩ := hy
      · refine ⟨a, by simp, fun k b => ?_⟩
        rw [Uct.actionVisits_eq, Uct.actionVisits_eq, hact]
        split
        · rename_i hc
          obtain ⟨rfl, rfl⟩ := hc
          rfl
        · rfl
      · omega
  | down _ _ _ a m _ t1 _ y hch hn hrun hsize hnext hnode hact =>
      cases hrun
      obtain ⟨h, e1, _, e2⟩ := hd.edge _ _ _ _ hn
      rw [hl] at e1
      have h0 : (lab m).1 = 0 := by rw [e2]; simpa using e1.symm
      rw [hd.zero m h0] at hact
      refine ⟨a, by rw [hd.zero m h0]; simp [Avg.value, Avg.new], fun k b => ?_⟩
      rw [Uct.actionVisits_eq, Uct.actionVisits_eq, hact]
      split
      · rename_i hc
        obtain ⟨rfl, rfl⟩ := hc
        rfl
      · rfl

theorem cliff_nActions : (CS).sim.nActions = 2 := rfl

/-- A simulation keeps what is known; the value of the first action is negative each time a simulation jumps. -/
theorem cliff_step {t t' : Tree (List ℚ)} {lab : Nat → Nat × Nat} {x : ℚ} (hi : CliffInv e bonus lab t) (hr : CRun 0 0 2 t t' x)
    (hb : Uct.Base (CS) (-20000) 2 t') :
    ∃ lab', (∀ k < t.size, lab' k = lab k) ∧ CliffInv e bonus lab' t' ∧ nodeVisits t' 0 = nodeVisits t 0 + 1 ∧
      ∀ j, t.next 0 0 0 = some j → actionVisits t' j 1 ≠ actionVisits t j 1 → (Uct.actAvg t' 0 0).total < 0 := by
  obtain ⟨lab', l1, l2, l3⟩ := hr.shape hi.base.wf hi.base.pos lab hi.root hi.shape
  have hfull : Uct.LInv cliffNext (fun _ _ => 0) lab' (fun _ => False) t' :=
    ⟨l2.edge, l2.uniq, l2.zero, fun i a _ => l2.cnt i a fun o j hj he => by
      have := (hb.wf.ord i a o j hj).1
      omega⟩
  have hroot : lab' 0 = (2, 0) := by rw [l1 0 hi.base.pos, hi.root]
  -- the update of the root
  obtain ⟨a, ha, hact, hx, hjump⟩ : ∃ a < 2, (∀ b, Uct.actAvg t' 0 b = if b = a then (Uct.actAvg t 0 a).update (1 / 1000) x else Uct.actAvg t 0 b) ∧
      ((Uct.actAvg t 0 a = .new ∧ -10000 ≤ x ∧ x ≤ 1) ∨ ∃ a', x = 1 / 2 * cliffRew a' (cliffNext a 0)) ∧
      ∀ j, t.next 0 0 0 = some j → actionVisits t' j 1 ≠ actionVisits t j 1 → a = 0 ∧ x = -5000 := by
    cases hr with
    | grow _ _ _ a _ _ y hch hn hy hsize hnext hnode hact =>
        have ha : a < 2 := by have := hch.1; rw [hi.base.wf.len] at this; exact this
        refine ⟨a, ha, fun b => ?_, .inl ⟨?_, ?_, ?_⟩, fun j hj hne => ?_⟩
        · rw [hact]
          by_cases hb : b = a
          · rw [if_pos ⟨rfl, hb⟩, if_pos hb]; rfl
          · rw [if_neg (fun h => hb h.2), if_neg hb]
        · have := (hi.shape.cnt 0 a (fun _ _ _ h => h)).2
          exact this hn
        · obtain ⟨h, _⟩ | ⟨_, h1, h2⟩ := hy
          · omega
          · show (-10000 : ℚ) ≤ 0 + 1 / 2 * y
            linarith
        · obtain ⟨h, _⟩ | ⟨_, h1, h2⟩ := hy
          · omega
          · show (0 : ℚ) + 1 / 2 * y ≤ 1
            linarith
        · exfalso
          apply hne
          have hj0 := (hi.base.wf.ord 0 0 0 j hj).1
          rw [Uct.actionVisits_eq, Uct.actionVisits_eq, hact, if_neg (by omega)]
    | down _ _ _ a m _ t1 _ y hch hn hrun hsize hnext hnode hact =>
        have ha : a < 2 := by have := hch.1; rw [hi.base.wf.len] at this; exact this
        obtain ⟨h, e1, _, e2⟩ := hi.shape.edge _ _ _ _ hn
        rw [hi.root] at e1 e2
        have hlm : lab m = (1, cliffNext a 0) := by
          obtain rfl : h = 1 := by simp only at e1; omega
          exact e2
        obtain ⟨a', h1, h2⟩ := cliff_last hi.shape hlm hrun
        obtain ⟨w1, w2⟩ := hi.base.wf.ord _ _ _ _ hn
        obtain ⟨low, _⟩ := hrun.low hi.base.wf w2
        have hxe : cliffRew a 0 + (CS).sim.discount * y = 1 / 2 * cliffRew a' (cliffNext a 0) := by
          rw [h1]
          show (0 : ℚ) + 1 / 2 * _ = _
          ring
        refine ⟨a, ha, fun b => ?_, .inr ⟨a', hxe⟩, fun j hj hne => ?_⟩
        · rw [hact]
          by_cases hb : b = a
          · rw [if_pos ⟨rfl, hb⟩, if_pos hb, (low 0 w1).2]; rfl
          · rw [if_neg (fun h => hb h.2), if_neg hb, (low 0 w1).2]
        · have hj0 := (hi.base.wf.ord 0 0 0 j hj).1
          have h3 := h2 j 1
          rw [Uct.actionVisits_eq, hact, if_neg (by omega), ← Uct.actionVisits_eq, h3] at hne
          by_cases hc : j = m ∧ 1 = a'
          · obtain ⟨rfl, rfl⟩ := hc
            obtain ⟨_, rfl⟩ := hi.shape.uniq _ _ _ _ _ _ _ hn hj
            refine ⟨rfl, ?_⟩
            rw [hxe]
            norm_num [cliffRew, cliffNext]
          · rw [if_neg hc] at hne
            exact absurd rfl hne
  refine ⟨lab', l1, ⟨hb, hroot, hfull, ?_, ?_⟩, ?_, ?_⟩
  · rw [hact]
    by_cases h1 : 1 = a
    · subst h1
      rw [if_pos rfl]
      have hs := hi.safe
      have hn0 : (0 : ℚ) ≤ (Uct.actAvg t 0 1).n := Nat.cast_nonneg _
      unfold Avg.update
      push_cast
      rcases hx with ⟨h0, hx1, hx2⟩ | ⟨a', rfl⟩
      · rw [h0]
        simp only [Avg.new]
        push_cast
        linarith
      · have : cliffRew a' (cliffNext 1 0) = 1 / 2 := by simp [cliffRew, cliffNext]
        rw [this]
        linarith
    · rw [if_neg h1]; exact hi.safe
  · rw [hact]
    by_cases h1 : 0 = a
    · subst h1
      rw [if_pos rfl]
      have hs := hi.risky
      have hn0 : (0 : ℚ) ≤ (Uct.actAvg t 0 0).n := Nat.cast_nonneg _
      unfold Avg.update
      push_cast
      rcases hx with ⟨h0, hx1, hx2⟩ | ⟨a', hx⟩
      · rw [h0]
        simp only [Avg.new]
        push_cast
        linarith
      · have : x ≤ 1 / 2 := by
          rw [hx]
          have : cliffRew a' (cliffNext 0 0) ≤ 1 := by
            simp only [cliffRew, cliffNext]
            norm_num
            split <;> norm_num
          linarith
        have := mul_le_mul_of_nonneg_left this hn0
        linarith
    · rw [if_neg h1]; exact hi.risky
  · rw [Uct.nodeVisits_eq, Uct.nodeVisits_eq, l3]
    simp
  · intro j hj hne
    obtain ⟨rfl, rfl⟩ := hjump j hj hne
    rw [hact, if_pos rfl]
    have hs := hi.risky
    have hn0 : (0 : ℚ) ≤ (Uct.actAvg t 0 0).n := Nat.cast_nonneg _
    unfold Avg.update
    push_cast
    linarith

/-- The state of this search after `k` simulations. -/
def cliffState (alpha e : ℚ) (bonus : Nat → Nat → ℚ) (k : Nat) : SearchState Nat (List ℚ) :=
  runTreeOps (cliffSearch alpha e bonus) ((cliffSearch alpha e bonus).start [1, 0, 0] 0) (List.replicate k (.simulate 0 none))

theorem cliffState_succ (alpha e : ℚ) (bonus : Nat → Nat → ℚ) (k : Nat) : simulateFromNode (cliffSearch alpha e bonus) 0 none
    (cliffState alpha e bonus k) = (.ok (), cliffState alpha e bonus (k + 1)) := by
  have hpos : 0 < (cliffState alpha e bonus k).tree.size := (runTreeOps_inv (S := cliffSearch alpha e bonus) (b0 := [1, 0, 0]) _ _ (TInv.init _)).1.pos
  obtain ⟨s1, h1⟩ := C54_never_raises (c := fun _ => 0) cliff_stochastic (by omega) (u := fun _ => 0)
    (fun _ => by norm_num) (cliffSearch alpha e bonus) rfl Int.toNat nTransitions_bounded Nat.zero_lt_one (show 2 < 100 by omega)
    (show 2 ≤ 100 by omega) [1, 0, 0] cliff_dist 0 (List.replicate k (.simulate 0 none)) 0 hpos none (by simp)
  have h2 : cliffState alpha e bonus (k + 1) = s1 := by
    unfold cliffState at hpos ⊢
    unfold runTreeOps at h1 hpos ⊢
    rw [List.replicate_succ', List.foldl_append]
    show (if 0 < _ then (simulateFromNode (cliffSearch alpha e bonus) 0 none _).2 else _) = s1
    rw [if_pos hpos, h1]
  rw [h2]
  exact h1

theorem cliff_many (alpha e : ℚ) (bonus : Nat → Nat → ℚ) : ∀ k m, simulateMany (cliffSearch alpha e bonus) 0 k (cliffState alpha e bonus m) =
    (.ok (), cliffState alpha e bonus (m + k)) := by
  intro k
  induction k with
  | zero => intro m; rfl
  | succ k ih =>
      intro m
      show (simulateFromNode _ 0 none >>= fun _ => simulateMany _ 0 k) _ = _
      rw [M.bind_of_ok (cliffState_succ alpha e bonus m), ih (m + 1)]
      congr 2
      omega

/-- A simulation of this search. -/
theorem cliff_one (k : Nat) (r2 : TInv (CS) [1, 0, 0] (cliffState (1 / 1000) e bonus k).tree)
    (r3 : BInv (-20000) 2 (cliffState (1 / 1000) e bonus k).tree) (r4 : Uct.FreshNew (cliffState (1 / 1000) e bonus k).tree) :
    (∃ x, CRun 0 0 2 (cliffState (1 / 1000) e bonus k).tree (cliffState (1 / 1000) e bonus (k + 1)).tree x) ∧
      TInv (CS) [1, 0, 0] (cliffState (1 / 1000) e bonus (k + 1)).tree ∧ BInv (-20000) 2 (cliffState (1 / 1000) e bonus (k + 1)).tree ∧
      Uct.FreshNew (cliffState (1 / 1000) e bonus (k + 1)).tree := by
  obtain ⟨d1, d2, d3⟩ := C88_exact (c := fun _ => 0) (u := fun _ => 0) cliff_stochastic (fun _ => by norm_num) cliff_chance
  exact Uct.one (S := CS) (n := 2) (s0 := 0) (lo := -10000) (up := 1) (cliff_rewards _ e bonus) (by norm_num)
    (by norm_num) (by show (0 : ℚ) ≤ 1 / 2; norm_num) (by show (-20000 : ℚ) ≤ -10000 + 1 / 2 * -20000; norm_num)
    (by show (1 : ℚ) + 1 / 2 * 2 ≤ 2; norm_num) (by show (0 : ℚ) ≤ 1 / 1000; norm_num) (by show (1 / 1000 : ℚ) ≤ 1; norm_num)
    (exactSim_quiet _ _ _) d1 d2 rfl rfl rfl
    (d3 _ 0 cliff_dist (by intro s hs h; interval_cases s <;> [rfl; exact absurd h (by norm_num); exact absurd h (by norm_num)]))
    r2 r3 r4 (cliffState_succ _ e bonus k)

/-- The trees of this search. -/
theorem cliff_reached (k : Nat) : ∃ lab, Uct.Reached (CS) cliffNext (fun _ _ => 0) cliffRew (-20000) 2 2 0 (CliffInv e bonus) lab
      (cliffState (1 / 1000) e bonus k).tree ∧ TInv (CS) [1, 0, 0] (cliffState (1 / 1000) e bonus k).tree ∧
      BInv (-20000) 2 (cliffState (1 / 1000) e bonus k).tree ∧ Uct.FreshNew (cliffState (1 / 1000) e bonus k).tree ∧
      nodeVisits (cliffState (1 / 1000) e bonus k).tree 0 = k := by
  induction k with
  | zero =>
      obtain ⟨h1, h2, h3⟩ := Uct.start_new (S := CS) (b0 := [1, 0, 0]) 0
      have ht : TInv (CS) [1, 0, 0] (cliffState (1 / 1000) e bonus 0).tree := TInv.init _
      have hb : BInv (-20000) 2 (cliffState (1 / 1000) e bonus 0).tree := BInv.init (S := CS) _
      refine ⟨fun _ => (2, 0), .init _ _ (fun i a => by rw [Uct.actionVisits_eq]; exact congrArg Avg.n (h2 i a))
        ⟨Uct.base_of ht hb rfl (by norm_num) (by norm_num), rfl, ⟨fun i a o j h => ?_, fun i a o i' a' o' k h => ?_, fun i _ => h1 i, fun i a _ =>
          ⟨fun j h => ?_, fun _ => h2 i a⟩⟩, ?_, ?_⟩, ht, hb, fun i _ => h1 i, congrArg Avg.n (h1 0)⟩
      · exact absurd (h.symm.trans (h3 i a o)) (by simp)
      · exact absurd (h.symm.trans (h3 i a o)) (by simp)
      · exact absurd (h.symm.trans (h3 i a _)) (by simp)
      · rw [show Uct.actAvg (cliffState (1 / 1000) e bonus 0).tree 0 1 = .new from h2 0 1]
        norm_num [Avg.new]
      · rw [show Uct.actAvg (cliffState (1 / 1000) e bonus 0).tree 0 0 = .new from h2 0 0]
        norm_num [Avg.new]
  | succ k ih =>
      obtain ⟨lab, r1, r2, r3, r4, r5⟩ := ih
      obtain ⟨⟨x, hrun⟩, k1, k2, k3⟩ := cliff_one k r2 r3 r4
      obtain ⟨lab', l1, l2, l3, _⟩ := cliff_step r1.prop hrun (Uct.base_of k1 k2 rfl (by norm_num) (by norm_num))
      exact ⟨lab', .step _ _ _ _ x r1 hrun l1 l2, k1, k2, k3, by rw [l3, r5]⟩

/-- One more simulation. -/
theorem cliff_jump (k j : Nat) (hj : (cliffState (1 / 1000) e bonus k).tree.next 0 0 0 = some j) :
    (cliffState (1 / 1000) e bonus (k + 1)).tree.next 0 0 0 = some j ∧
      (actionVisits (cliffState (1 / 1000) e bonus (k + 1)).tree j 1 ≠ actionVisits (cliffState (1 / 1000) e bonus k).tree j 1 →
        (Uct.actAvg (cliffState (1 / 1000) e bonus (k + 1)).tree 0 0).total < 0) := by
  obtain ⟨lab, r1, r2, r3, r4, _⟩ := cliff_reached (bonus := bonus) (e := e) k
  obtain ⟨⟨x, hrun⟩, k1, k2, _⟩ := cliff_one k r2 r3 r4
  obtain ⟨_, _, hpres⟩ := hrun.low r1.prop.base.wf r1.prop.base.pos
  obtain ⟨_, _, _, _, h⟩ := cliff_step r1.prop hrun (Uct.base_of k1 k2 rfl (by norm_num) (by norm_num))
  exact ⟨hpres _ _ _ _ hj, h j hj⟩

end

/-- The property is false for averages with the default `alpha` of 1/1000: in a model without randomness, whatever the positive
exploration and a bonus that favours rare actions, there are arbitrarily many simulations after which `get_action` returns an action
that no optimal plan starts with. -/
theorem C88_false_alpha (e : ℚ) (he : 0 < e) (bonus : Nat → Nat → ℚ) (hbonus : FavoursRare bonus) (N : Nat) :
    (∃ k r', N ≤ k ∧ searchGetAction (cliffSearch (1 / 1000) e bonus) k ((cliffSearch (1 / 1000) e bonus).runner [1, 0, 0] 0) =
      (.ok (.str "right"), r')) ∧
    IsOptimum (1 / 2) cliffNext cliffRew 2 2 0 (1 / 2) ∧
    ∀ p, IsPlan 2 2 (1 :: p) → planReturn (1 / 2) cliffNext cliffRew 0 (1 :: p) = 1 / 4 := by
  refine ⟨?_, ⟨⟨[0, 0], ⟨rfl, by simp⟩, by norm_num [planReturn, cliffRew, cliffNext]⟩, fun p hp => ?_⟩, fun p hp => ?_⟩
  · have often := fun K => Uct.often (nx := cliffNext) (ob := fun _ _ => 0) (rew := cliffRew) (n := 2) (s0 := 0)
      (S := cliffSearch (1 / 1000) e bonus) (fun lab t (hf : CliffInv e bonus lab t) => hf.base) rfl he hbonus K
    obtain ⟨N1, h1⟩ := often 80000
    obtain ⟨k0, hk0⟩ : ∃ k0, k0 = max N N1 := ⟨_, rfl⟩
    have hroot : ∀ k, k0 ≤ k → ∀ a < 2, 80000 ≤ actionVisits (cliffState (1 / 1000) e bonus k).tree 0 a := by
      intro k hk a ha
      obtain ⟨lab, r1, _, _, _, r5⟩ := cliff_reached (bonus := bonus) (e := e) k
      exact h1 lab _ r1 0 a ha (by rw [r5]; exact ((le_max_right _ _).trans hk0.ge).trans hk)
    -- the node at the cliff
    obtain ⟨j, hj⟩ : ∃ j, (cliffState (1 / 1000) e bonus k0).tree.next 0 0 0 = some j := by
      obtain ⟨lab, r1, _⟩ := cliff_reached (bonus := bonus) (e := e) k0
      rcases hx : (cliffState (1 / 1000) e bonus k0).tree.next 0 0 0 with _ | j
      · have := (r1.prop.shape.cnt 0 0 (fun _ _ _ h => h)).2 hx
        have h2 := hroot k0 le_rfl 0 (by omega)
        rw [Uct.actionVisits_eq, this] at h2
        simp [Avg.new] at h2
      · exact ⟨j, rfl⟩
    have hjk : ∀ d, (cliffState (1 / 1000) e bonus (k0 + d)).tree.next 0 0 0 = some j := by
      intro d
      induction d with
      | zero => exact hj
      | succ d ih => exact (cliff_jump (k0 + d) j ih).1
    -- a jump after `k0`
    obtain ⟨d, hd⟩ : ∃ d, actionVisits (cliffState (1 / 1000) e bonus (k0 + d + 1)).tree j 1 ≠
        actionVisits (cliffState (1 / 1000) e bonus (k0 + d)).tree j 1 := by
      by_contra hno
      push Not at hno
      have hconst : ∀ d, actionVisits (cliffState (1 / 1000) e bonus (k0 + d)).tree j 1 = actionVisits (cliffState (1 / 1000) e bonus k0).tree j 1 := by
        intro d
        induction d with
        | zero => rfl
        | succ d ih => rw [← ih]; exact hno d
      obtain ⟨N2, h2⟩ := often (actionVisits (cliffState (1 / 1000) e bonus k0).tree j 1 + 1)
      obtain ⟨N3, h3⟩ := often N2
      obtain ⟨lab, r1, _, _, _, r5⟩ := cliff_reached (bonus := bonus) (e := e) (k0 + N3)
      have e1 := h3 lab _ r1 0 0 (show 0 < 2 by omega) (by rw [r5]; omega)
      obtain ⟨h, q1, _, q2⟩ := r1.prop.shape.edge _ _ _ _ (hjk N3)
      rw [r1.prop.root] at q1
      have e2 := (r1.prop.shape.cnt 0 0 (fun _ _ _ h => h)).1 j (hjk N3) (by rw [q2]; simp only at q1 ⊢; omega)
      have e3 := h2 lab _ r1 j 1 (show 1 < 2 by omega) (by rw [Uct.nodeVisits_eq, e2, ← Uct.actionVisits_eq]; exact e1)
      rw [hconst N3] at e3
      omega
    have hneg := (cliff_jump (k0 + d) j (hjk d)).2 hd
    obtain ⟨lab, r1, r2, _, _, r5⟩ := cliff_reached (bonus := bonus) (e := e) (k0 + d + 1)
    have hall := hroot (k0 + d + 1) (by omega)
    obtain ⟨a, nm, r', g1, g2, g3, g4⟩ := Uct.getAction_ok (S := cliffSearch (1 / 1000) e bonus) (k := k0 + d + 1)
      (r := (cliffSearch (1 / 1000) e bonus).runner [1, 0, 0] 0) (st1 := cliffState (1 / 1000) e bonus (k0 + d + 1))
      (by have := cliff_many (1 / 1000) e bonus (k0 + d + 1) 0; rw [Nat.zero_add] at this; exact this)
      (fun x hx => by
        have hx' : x < 2 := by have h := r2.len 0; exact lt_of_lt_of_eq hx h
        have := hall x hx'
        show actionVisits (cliffState (1 / 1000) e bonus (k0 + d + 1)).tree 0 x ≠ 0
        omega)
      (by show 0 < nodeVisits (cliffState (1 / 1000) e bonus (k0 + d + 1)).tree 0; rw [r5]; omega) (r2.len 0) (show 0 < 2 by omega)
    refine ⟨k0 + d + 1, r', by have := le_max_left N N1; omega, ?_⟩
    have v0 : actionValue (cliffState (1 / 1000) e bonus (k0 + d + 1)).tree 0 0 < 0 := by
      have hv := hall 0 (by omega)
      rw [Uct.actionVisits_eq] at hv
      rw [Uct.actionValue_eq, Uct.value_eq (by omega)]
      exact div_neg_of_neg_of_pos hneg (by exact_mod_cast (show 0 < (Uct.actAvg (cliffState (1 / 1000) e bonus (k0 + d + 1)).tree 0 0).n by omega))
    have v1 : 0 ≤ actionValue (cliffState (1 / 1000) e bonus (k0 + d + 1)).tree 0 1 := by
      have hv := hall 1 (by omega)
      rw [Uct.actionVisits_eq] at hv
      have hvq : (80000 : ℚ) ≤ (Uct.actAvg (cliffState (1 / 1000) e bonus (k0 + d + 1)).tree 0 1).n := by exact_mod_cast hv
      rw [Uct.actionValue_eq, Uct.value_eq (by omega)]
      have := r1.prop.safe
      apply div_nonneg <;> linarith
    have h01 := g4 1 (show 1 < 2 by omega)
    change actionValue (cliffState (1 / 1000) e bonus (k0 + d + 1)).tree 0 1 ≤ actionValue (cliffState (1 / 1000) e bonus (k0 + d + 1)).tree 0 a at h01
    have ha : a = 1 := by
      have : a < 2 := g2
      rcases Nat.lt_or_ge a 1 with h | h
      · obtain rfl : a = 0 := by omega
        linarith
      · omega
    subst ha
    have : nm = .str "right" := by
      change some (Name.str "right") = some nm at g3
      simpa using g3.symm
    rw [g1, this]
  · obtain ⟨h1, h2⟩ := hp
    match p, h1, h2 with
    | [a, b], _, h2 =>
        have ha := h2 a (by simp)
        have hb := h2 b (by simp)
        interval_cases a <;> interval_cases b <;> norm_num [planReturn, cliffRew, cliffNext]
  · obtain ⟨h1, h2⟩ := hp
    match p, h1, h2 with
    | [b], _, h2 => norm_num [planReturn, cliffRew, cliffNext]

/-- With plain averages, this search finds the optimal action. -/
example : ∃ N, ∀ k, N ≤ k → ∀ nm r', searchGetAction (cliffSearch 0 100 roundedUcb) k ((cliffSearch 0 100 roundedUcb).runner [1, 0, 0] 0) =
    (.ok nm, r') → nm = .str "left" := by
  obtain ⟨d1, d2, d3⟩ := C88_exact (c := fun _ => 0) (u := fun _ => 0) cliff_stochastic (fun _ => by norm_num) cliff_chance
  obtain ⟨N, hN⟩ := C88_action_partial (cliffSearch 0 100 roundedUcb) [1, 0, 0] cliffNext (fun _ _ => 0) cliffRew 0 2 d1 d2
    (d3 _ 0 cliff_dist (by intro s hs h; interval_cases s <;> [rfl; exact absurd h (by norm_num); exact absurd h (by norm_num)]))
    (exactSim_quiet _ _ _) rfl rfl (by omega) rfl rfl rfl (by show (0 : ℚ) < 100; norm_num)
    (C87_bonus (1 / 2) (by norm_num) (by norm_num) _ roundedUcb_approx) (C88_bonus (1 / 2) (by norm_num) (by norm_num) _ roundedUcb_approx)
    (-10000) 1 (cliff_rewards _ _ _) (by show (0 : ℚ) ≤ 1 / 2; norm_num) (by show (1 / 2 : ℚ) < 1; norm_num) (show 0 < 2 by omega)
  refine ⟨N, fun k hk nm r' h => ?_⟩
  obtain ⟨a, p, h1, h2, h3⟩ := hN k 0 nm r' hk h
  have hbest := h3 [0, 0] ⟨rfl, by simp [cliffSearch, exactSim, cliffPomdp, Sim.nActions, Pomdp.actions, Names.asList]⟩
  have ha : a < 2 := h2.2 a (by simp)
  change planReturn (1 / 2) cliffNext cliffRew 0 [0, 0] ≤ planReturn (1 / 2) cliffNext cliffRew 0 (a :: p) at hbest
  obtain ⟨_, _, hright⟩ := C88_false_alpha 1 (by norm_num) roundedUcb (C87_bonus (1 / 2) (by norm_num) (by norm_num) _ roundedUcb_approx) 0
  interval_cases a
  · change some (Name.str "left") = some nm at h1
    simpa using h1.symm
  · rw [hright p h2] at hbest
    norm_num [planReturn, cliffRew, cliffNext] at hbest

/-- The estimated value of its root converges to 1/2. -/
example : ∀ e : ℚ, 0 < e → ∃ N, ∀ k st', N ≤ k →
    simulateMany (cliffSearch 0 100 roundedUcb) 0 k ((cliffSearch 0 100 roundedUcb).start [1, 0, 0] 0) = (.ok (), st') →
    |(st'.tree.nodes 0).avg.value - 1 / 2| ≤ e := by
  intro e he
  obtain ⟨d1, d2, d3⟩ := C88_exact (c := fun _ => 0) (u := fun _ => 0) cliff_stochastic (fun _ => by norm_num) cliff_chance
  obtain ⟨_, hopt, _⟩ := C88_false_alpha 1 (by norm_num) roundedUcb (C87_bonus (1 / 2) (by norm_num) (by norm_num) _ roundedUcb_approx) 0
  obtain ⟨N, hN⟩ := C88_value_partial (cliffSearch 0 100 roundedUcb) [1, 0, 0] cliffNext (fun _ _ => 0) cliffRew 0 2 d1 d2
    (d3 _ 0 cliff_dist (by intro s hs h; interval_cases s <;> [rfl; exact absurd h (by norm_num); exact absurd h (by norm_num)]))
    (exactSim_quiet _ _ _) rfl rfl (by omega) rfl rfl rfl (by show (0 : ℚ) < 100; norm_num)
    (C87_bonus (1 / 2) (by norm_num) (by norm_num) _ roundedUcb_approx) (C88_bonus (1 / 2) (by norm_num) (by norm_num) _ roundedUcb_approx)
    (-10000) 1 (cliff_rewards _ _ _) (by show (0 : ℚ) ≤ 1 / 2; norm_num) (by show (1 / 2 : ℚ) < 1; norm_num) (show 0 < 2 by omega) (1 / 2) hopt e he
  exact ⟨N, fun k st' => hN k 0 st'⟩

end Verif
