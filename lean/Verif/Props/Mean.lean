import Verif.Proof.Mean
import Verif.Proof.HtmTarget
import Verif.Props.Pomdp

/-!
# C93: rollouts are unbiased estimates of the value of the random policy
-/

set_option linter.unusedSectionVars false

namespace Verif
open Spec SupState SupPomdp

/-- C93: a rollout in an explicit model.  If every number is drawn from the same number of equally likely ones, of which every probability and
the chance of every action are multiples, then the rollout returns a number, and its mean is the expected discounted return of actions drawn
evenly, whatever the random numbers used before and after. -/
theorem C93_rollout {η : Type} {p : Pomdp} {nS nA nO : Nat} (hp : Stochastic p nS nA nO) (hA : 0 < nA) {D : Nat} (hD : 0 < D) (hn : nA ∣ D)
    (hT : ∀ a < nA, ∀ s < nS, ∀ s' < nS, Multiple D (p.T.at_ a s s')) (hO : ∀ a < nA, ∀ s' < nS, ∀ o < nO, Multiple D (p.O.at_ a s' o))
    (hor : HorizonOps η) (k bound s g n : Nat) (h : η) (hk : k ≤ bound) (hs : s < nS) (he : EndsIn hor k h) (hl : 3 * k ≤ n) (z : Nat → Fin D) :
    (∀ ω : Fin n → Fin D, ∃ x g', rolloutLoop (exactSim p (realsOf (overlay g ω z)) (intsOf (overlay g ω z))) hor bound s h 1 0 g = (.ok x, g')) ∧
    mean (fun ω : Fin n → Fin D => numberOf (rolloutLoop (exactSim p (realsOf (overlay g ω z)) (intsOf (overlay g ω z))) hor bound s h 1 0 g)) =
      randomValue p nS nA nO hor k h s := by
  haveI : Nonempty (Fin D) := ⟨⟨0, hD⟩⟩
  have H := exact_draws hp hA D
  refine ⟨fun ω => rolloutLoop_ok H hor _ k bound s h 1 0 g hk hs he, ?_⟩
  rw [rollout_unbiased H hor k bound s g h hk hs he n (by omega) z, loopValue_exact hp hA hD hn hT hO hor k h s hs]

/-- C93: the rollouts from a node of the tree of an explicit model.  The value returned by `rollout_from_node` updates the node, and its mean is
the expected discounted return from the belief of the node. -/
theorem C93_node {η : Type} {p : Pomdp} {nS nA nO : Nat} (hp : Stochastic p nS nA nO) (hA : 0 < nA) {D : Nat} (hD : 0 < D) (hn : nA ∣ D)
    (hT : ∀ a < nA, ∀ s < nS, ∀ s' < nS, Multiple D (p.T.at_ a s s')) (hO : ∀ a < nA, ∀ s' < nS, ∀ o < nO, Multiple D (p.O.at_ a s' o))
    (S : Search Nat (List ℚ) η) (i k g n : Nat) (h : η) (t : Tree (List ℚ)) (hb : IsDist nS (t.nodes i).belief)
    (hm : ∀ s < nS, Multiple D ((t.nodes i).belief.getD s 0)) (hr : S.hor.isReached h = false) (hi : 0 < S.rolloutIt) (hk : k ≤ S.bound)
    (he : EndsIn S.hor k (S.hor.copy h)) (hl : S.rolloutIt * (1 + 3 * k) ≤ n) (z : Nat → Fin D) :
    (∀ ω : Fin n → Fin D, ∃ x g', rolloutFromNode { S with sim := exactSim p (realsOf (overlay g ω z)) (intsOf (overlay g ω z)) } i h ⟨t, g⟩ =
      (.ok x, ⟨t.upd i fun nd => { nd with avg := nd.avg.update S.alpha x }, g'⟩)) ∧
    mean (fun ω : Fin n → Fin D =>
      numberOf (rolloutFromNode { S with sim := exactSim p (realsOf (overlay g ω z)) (intsOf (overlay g ω z)) } i h ⟨t, g⟩)) =
      sumRange nS fun s => (t.nodes i).belief.getD s 0 * randomValue p nS nA nO S.hor k (S.hor.copy h) s := by
  haveI : Nonempty (Fin D) := ⟨⟨0, hD⟩⟩
  have H := exact_draws hp hA D
  have hr' : ¬ S.hor.isReached h = true := by rw [hr]; decide
  refine ⟨fun ω => ?_, ?_⟩
  · obtain ⟨x, g', _, e⟩ := node_ok H S (overlay g ω z) i h t g k hb hr' hk he hi
    exact ⟨_, _, e⟩
  · rw [node_unbiased H S i h t g k hb hr' hk he hi n (by rw [Nat.mul_comm k]; exact hl) z]
    refine (mean_one fun x : Fin D => loopValue S.hor nA p.discount (exactMove p nS nO) (fun x : Fin D => (x : Nat)) k (S.hor.copy h)
      (chosen nS (fun i_1 => (t.nodes i).belief.getD i_1 0) x)).trans ?_
    rw [mean_chosen nS (fun s => (t.nodes i).belief.getD s 0) hb.2.1 hb.2.2 hD hm
      (fun s => loopValue S.hor nA p.discount (exactMove p nS nO) (fun x : Fin D => (x : Nat)) k (S.hor.copy h) s)]
    apply sumRange_congr
    intro s hs
    rw [loopValue_exact hp hA hD hn hT hO S.hor k _ s hs]

/-- C93: the rollouts from a node of the tree of the supportive simulator, with particle beliefs.  The mean of the returned value is the mean over
the particles of the expected discounted return of actions drawn evenly. -/
theorem C93_supportive {η : Type} {t : Htm SupAction} {m : SupPomdp} (hm : Constructed t m) (discount : ℚ) {np D K N A : Nat} (hnp : 0 < np)
    (hA : 0 < A) (hD : 0 < D) (hK : 0 < K) (hn : m.nActions ∣ A) (hn' : np ∣ A) (d : Nat → Nat → SupPomdp.Draws) (c : Nat → Nat → Nat)
    (S : Search Nat (List Nat) η) (i k g n : Nat) (h : η) (tr : Tree (List Nat)) (hb : (tr.nodes i).belief.length = np)
    (hs : ∀ s ∈ (tr.nodes i).belief, s < m.nStates) (hr : S.hor.isReached h = false) (hi : 0 < S.rolloutIt) (hk : k ≤ S.bound)
    (he : EndsIn S.hor k (S.hor.copy h)) (hl : S.rolloutIt * (1 + 2 * k) ≤ n) (z : Nat → Numbers m D K N × Fin A) :
    (∀ ω : Fin n → Numbers m D K N × Fin A, ∃ x g', rolloutFromNode { S with sim := supSimOf m discount np d c (overlay g ω z) } i h ⟨tr, g⟩ =
      (.ok x, ⟨tr.upd i fun nd => { nd with avg := nd.avg.update S.alpha x }, g'⟩)) ∧
    mean (fun ω : Fin n → Numbers m D K N × Fin A =>
      numberOf (rolloutFromNode { S with sim := supSimOf m discount np d c (overlay g ω z) } i h ⟨tr, g⟩)) =
      ((tr.nodes i).belief.map fun s => supRandomValue m discount D K N S.hor k (S.hor.copy h) s).sum / np := by
  haveI : Nonempty (Fin D) := ⟨⟨0, hD⟩⟩
  haveI : Nonempty (Fin K) := ⟨⟨0, hK⟩⟩
  haveI : Nonempty (Fin A) := ⟨⟨0, hA⟩⟩
  have H := sup_draws (D := D) (K := K) (N := N) (A := A) hm discount np hnp d c
  have hr' : ¬ S.hor.isReached h = true := by rw [hr]; decide
  refine ⟨fun ω => ?_, ?_⟩
  · obtain ⟨x, g', _, e⟩ := node_ok H S (overlay g ω z) i h tr g k ⟨hb, hs⟩ hr' hk he hi
    exact ⟨_, _, e⟩
  · rw [node_unbiased H S i h tr g k ⟨hb, hs⟩ hr' hk he hi n (by rw [Nat.mul_comm k]; exact hl) z]
    simp only [loopValue_sup m discount hA hn S.hor]
    refine (mean_one fun x : Numbers m D K N × Fin A => supRandomValue m discount D K N S.hor k (S.hor.copy h)
      ((tr.nodes i).belief.getD ((x.2 : Nat) % np) 0)).trans ?_
    rw [mean_prod]
    refine (mean_congr fun _ => mean_mod hA hn' fun j => supRandomValue m discount D K N S.hor k (S.hor.copy h) ((tr.nodes i).belief.getD j 0)).trans ?_
    rw [mean_const]
    congr 1
    rw [← hb]
    exact sum_getD _ _

/-- C93: `NTransitionsHorizon(n)` is reached after `n` transitions. -/
theorem C93_horizon : ∀ (k : Nat) (n : Int), n ≤ k → EndsIn nTransitions k n
  | 0, n, h => by simpa [EndsIn, nTransitions] using h
  | k + 1, n, h => .inr fun _ _ _ _ => C93_horizon k (n - 1) (by push_cast at h; omega)

/-- C93: `FinishedOrNTransitionsHorizon(n, …)` is reached after at most `n` transitions. -/
theorem C93_horizon_finished (isFinal : Nat → Bool) : ∀ (k : Nat) (h : FinHorizon), h.n ≤ k → EndsIn (finishedOrN isFinal) k h
  | 0, h, hn => by
      have : h.n ≤ 0 := by exact_mod_cast hn
      simp [EndsIn, finishedOrN, this]
  | k + 1, h, hn => .inr fun _ _ _ _ => C93_horizon_finished isFinal k _ (by
      have : (finishedOrN isFinal).decrement 0 0 0 0 h = ⟨h.n - 1, isFinal 0⟩ := rfl
      show h.n - 1 ≤ k
      push_cast at hn
      omega)

/-! ### Non-vacuity -/

/-- The tiger problem, with 300 equally likely numbers: two transitions are worth a mean of -91/3 each, of which the second is discounted. -/
example : Stochastic tiger 2 3 2 ∧ 3 ∣ 300 ∧ (∀ a < 3, ∀ s < 2, ∀ s' < 2, Multiple 300 (tiger.T.at_ a s s')) ∧
    (∀ a < 3, ∀ s' < 2, ∀ o < 2, Multiple 300 (tiger.O.at_ a s' o)) ∧ EndsIn nTransitions 2 2 ∧
    randomValue tiger 2 3 2 nTransitions 2 2 0 = -91 / 3 * (1 + 95 / 100) ∧ IsDist 2 ([1 / 2, 1 / 2] : List ℚ) ∧
    ∀ s < 2, Multiple 300 (([1 / 2, 1 / 2] : List ℚ).getD s 0) := by
  refine ⟨tiger_stochastic, by decide, ?_, ?_, C93_horizon 2 2 (by decide), by decide +kernel, ?_, ?_⟩
  · intro a ha s hs s' hs'
    interval_cases a <;> interval_cases s <;> interval_cases s' <;>
      first | exact ⟨300, by decide +kernel⟩ | exact ⟨0, by decide +kernel⟩ | exact ⟨150, by decide +kernel⟩
  · intro a ha s hs s' hs'
    interval_cases a <;> interval_cases s <;> interval_cases s' <;>
      first | exact ⟨255, by decide +kernel⟩ | exact ⟨45, by decide +kernel⟩ | exact ⟨150, by decide +kernel⟩
  · refine ⟨rfl, ?_, by decide +kernel⟩
    intro i hi
    interval_cases i <;> decide +kernel
  · intro s hs
    interval_cases s <;> exact ⟨150, by decide +kernel⟩

/-- The supportive simulator with nine actions and four particles. -/
example : ∃ (t : Htm SupAction) (m : SupPomdp), Constructed t m ∧ m.nActions ∣ 36 ∧ 4 ∣ 36 ∧ ([0, 1, 1, 2] : List Nat).length = 4 ∧
    ∀ s ∈ [0, 1, 1, 2], s < m.nStates := by
  obtain ⟨h1, h2, h3, h4, h5⟩ := exSup_ok
  obtain ⟨m, hm, _⟩ := (C70_accepts exSup h1 h2 {} (fun l => l) (fun _ _ => Iff.rfl) 3 h5).1 ⟨h3, h4⟩
  have hk : (mkSupPomdp {} (fun l => l) 3 exSup).toOption.map
      (fun m => decide (m.nActions ∣ 36 ∧ 4 ∣ 36 ∧ ([0, 1, 1, 2] : List Nat).length = 4 ∧ ∀ s ∈ [0, 1, 1, 2], s < m.nStates)) = some true := by
    decide +kernel
  rw [hm] at hk
  simp only [Except.toOption, Option.map_some, Option.some.injEq, decide_eq_true_eq] at hk
  exact ⟨exSup, m, ⟨h1, h2, {}, fun l => l, 3, fun _ _ => Iff.rfl, h5, hm⟩, hk⟩

end Verif
