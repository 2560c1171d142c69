import Verif.Proof.Accuracy
import Verif.Props.Returns
import Verif.Props.SupExperiment
import Verif.Props.Evaluation

/-!
# C119: how near the means of the figures are to the expected values
-/

set_option linter.unusedSectionVars false
set_option linter.unusedSimpArgs false

namespace Verif
open Spec SupState SupPomdp

/-! ### Losses -/

theorem conds_loss (m : SupPomdp) (hg : 0 ≤ m.par.costGet) (u : Nat → ℚ) : ∀ (l : List ((Nat × Nat) × Nat)) (x : SupState),
    -(l.length * m.par.costGet) ≤ (m.updateForConditions u l x).2 := by
  intro l
  induction l with
  | nil => intro x; simp [updateForConditions]
  | cons co l ih =>
      intro x
      have h1 : -m.par.costGet ≤ (m.updateForCondition x co.1.1 co.1.2 (u co.2)).2 := by
        unfold updateForCondition costGetOf
        split_ifs <;> simp [hg]
      have h2 := ih (m.updateForCondition x co.1.1 co.1.2 (u co.2)).1
      unfold updateForConditions
      simp only [List.length_cons]
      push_cast
      linarith

theorem trans_loss {m : SupPomdp} (hg : 0 ≤ m.par.costGet) {C : Nat} (hC : ∀ conds ∈ m.conditions, conds.length ≤ C) {d : Draws}
    {x y : SupState} {n : Nat} {c : ℚ} (h : m.updateForTransition d x n = .ok (y, c)) : -(C * m.par.costGet) ≤ c := by
  unfold updateForTransition at h
  split at h
  · rename_i ss conds h1 h2
    cases hc : choose ss d.succ with
    | error e => rw [hc] at h; cases h
    | ok z =>
        rw [hc] at h
        simp only [bind, Except.bind, pure, Except.pure] at h
        have := conds_loss m hg d.consume conds.zipIdx (x.setHtm z)
        rw [Except.ok.inj h] at this
        have hl : ((conds.zipIdx.length : Nat) : ℚ) ≤ C := by
          rw [List.length_zipIdx]
          exact_mod_cast hC _ (List.mem_of_getElem? h2)
        have := mul_le_mul_of_nonneg_right hl hg
        simp only at *
        linarith
  · cases h

theorem cleanCost_le {m : SupPomdp} (hg : 0 ≤ m.par.costGet) (x : SupState) : cleanCost m x ≤ m.objects.length * m.par.costGet := by
  unfold cleanCost
  refine (List.sum_le_card_nsmul _ m.par.costGet ?_).trans ?_
  · intro q hq
    simp only [List.mem_map] at hq
    obtain ⟨o, _, rfl⟩ := hq
    have : (x.getBit o : ℚ) ≤ 1 := by
      have : x.getBit o ≤ 1 := by unfold getBit; omega
      exact_mod_cast this
    have := mul_le_mul_of_nonneg_left this hg
    linarith
  · simp

theorem Outcome.loss {m : SupPomdp} {css : List (List (Nat × String))} (hw : m.WF css) (hg : 0 ≤ m.par.costGet)
    (hh : 0 ≤ m.par.costHold) (hi : 0 ≤ m.par.costIntrinsic) (hf : 0 ≤ m.par.rFinal) (hs : 0 ≤ m.par.rSubtask) (hp : 0 ≤ m.par.rPreference)
    {C : Nat} (hC : ∀ conds ∈ m.conditions, conds.length ≤ C) {d : Draws} {a : Nat} {x y : SupState} {random : Bool} {o : Nat} {r : ℚ}
    (hx : SameShape (m.toState 0) x) (h : Outcome m d a x random (y, o, r)) :
    (y.htm = x.htm ∧ -max m.par.costHold m.par.costIntrinsic ≤ r) ∨
      (x.htm = m.htmClean ∧ y.htm = m.htmFinal ∧ -(m.objects.length * m.par.costGet) ≤ r) ∨
      (x.htm < m.nodes.length ∧ (∃ ss, m.succs[x.htm]? = some ss ∧ y.htm ∈ ss) ∧
        -max m.par.costHold m.par.costIntrinsic - (m.par.costHold + C * m.par.costGet) ≤ r) := by
  have m1 : m.par.costHold ≤ max m.par.costHold m.par.costIntrinsic := le_max_left _ _
  have m2 : m.par.costIntrinsic ≤ max m.par.costHold m.par.costIntrinsic := le_max_right _ _
  have hac : actCost m a ≤ m.par.costHold := by unfold actCost; split <;> simp [hh]
  have ut : ∀ z c, x.htm < m.nodes.length → m.updateForTransition d x x.htm = .ok (z, c) →
      ∃ ss, m.succs[x.htm]? = some ss ∧ z.htm ∈ ss := by
    intro z c hl hu
    obtain ⟨y, r, ss, h1, _, h2, h3, _⟩ := updateForTransition_spec hw d x x.htm hl hx
    rw [hu] at h1
    cases h1
    exact ⟨ss, h2, h3⟩
  cases h with
  | final => exact Or.inl ⟨rfl, by linarith⟩
  | finish _ h =>
      have := cleanCost_le hg x
      exact Or.inr (Or.inl ⟨h, htm_setHtm _ _, by linarith⟩)
  | cleanHold => exact Or.inl ⟨rfl, by linarith⟩
  | failed => exact Or.inl ⟨rfl, by linarith⟩
  | good hl _ _ _ _ y c hu =>
      have := trans_loss hg hC hu
      exact Or.inr (Or.inr ⟨hl, ut _ _ hl hu, by linarith⟩)
  | other _ hl _ _ _ y c hu =>
      have := trans_loss hg hC hu
      have hc : -m.par.costHold ≤ correction m x := by unfold correction; split <;> linarith
      exact Or.inr (Or.inr ⟨hl, ut _ _ hl hu, by linarith⟩)
  | ask => exact Or.inl ⟨rfl, by linarith⟩
  | there => exact Or.inl ⟨rfl, by linarith⟩
  | missed => exact Or.inl ⟨rfl, by linarith⟩
  | moved _ obj ho =>
      exact Or.inl ⟨htm_setBit _ _ _ (by split <;> omega) (bits_lt hx obj ho), by linarith⟩

theorem run_loss {t : Htm SupAction} {m : SupPomdp} (hc : Constructed t m) {css : List (List (Nat × String))} (hw : m.WF css)
    (hg : 0 ≤ m.par.costGet) (hh : 0 ≤ m.par.costHold) (hi : 0 ≤ m.par.costIntrinsic) (hf : 0 ≤ m.par.rFinal) (hs : 0 ≤ m.par.rSubtask)
    (hp : 0 ≤ m.par.rPreference) {C : Nat} (hC : ∀ conds ∈ m.conditions, conds.length ≤ C) :
    ∀ (l : List (Nat × Nat × ℚ)) (s : Nat), s < m.nStates → Run m s l →
      (htmOf m s = m.htmFinal → -(l.length * max m.par.costHold m.par.costIntrinsic) ≤ totalReward l) ∧
      ∀ c : Nat, Remaining m (htmOf m s) c → -worstLoss m l.length c C ≤ totalReward l := by
  have m0 : 0 ≤ max m.par.costHold m.par.costIntrinsic := le_max_of_le_left hh
  have p0 : 0 ≤ m.par.costHold + C * m.par.costGet := add_nonneg hh (mul_nonneg (by positivity) hg)
  have o0 : 0 ≤ m.objects.length * m.par.costGet := mul_nonneg (by positivity) hg
  intro l
  induction l with
  | nil =>
      intro s _ _
      refine ⟨fun _ => by simp [totalReward], fun c _ => ?_⟩
      have : (0 : ℚ) ≤ c * (m.par.costHold + C * m.par.costGet) := mul_nonneg (by positivity) p0
      show -_ ≤ (0 : ℚ)
      unfold worstLoss
      simp only [List.length_nil, Nat.cast_zero, zero_mul, zero_add]
      linarith
  | cons e l ih =>
      obtain ⟨a, s1, r⟩ := e
      intro s hs hrun
      obtain ⟨⟨d, random, o, hst⟩, hl⟩ := hrun
      obtain ⟨y, o', r', h1, h2, h3, h4, h5⟩ := sample_outcome hw d a s random hs (run_ok_action hc hst)
      rw [hst] at h1
      cases h1
      obtain ⟨i1, i2⟩ := ih y.s h5 hl
      have hy : htmOf m y.s = y.htm := by rw [htmOf_eq, h4]
      have hx : (m.perturb d s random).htm = htmOf m s := (perturb_spec m d s random).2.1
      have hb := h2.loss hw hg hh hi hf ‹0 ≤ m.par.rSubtask› hp hC (perturb_shape m d s random)
      rw [hx, ← hy] at hb
      have et : totalReward ((a, y.s, r) :: l) = r + totalReward l := by simp [totalReward]
      have el : (((a, y.s, r) :: l).length : ℚ) = l.length + 1 := by simp
      rw [et]
      refine ⟨fun hfin => ?_, fun c hrem => ?_⟩
      · rw [el]
        rcases hb with ⟨e, hr0⟩ | ⟨e, _⟩ | ⟨e, _⟩
        · have := i1 (e.trans hfin)
          linarith
        · unfold htmFinal at hfin; unfold htmClean at e; omega
        · unfold htmFinal at hfin; omega
      · have hw0 : ∀ c : Nat, worstLoss m ((a, y.s, r) :: l).length c C = worstLoss m l.length c C + max m.par.costHold m.par.costIntrinsic := by
          intro c
          unfold worstLoss
          rw [el]
          ring
        rw [hw0]
        rcases hb with ⟨e, hr0⟩ | ⟨e, e', hr0⟩ | ⟨e, ⟨ss, hss, hj⟩, hr0⟩
        · have := i2 c (by rw [e]; exact hrem)
          linarith
        · have := i1 e'
          have : (0 : ℚ) ≤ c * (m.par.costHold + C * m.par.costGet) := mul_nonneg (by positivity) p0
          unfold worstLoss
          linarith
        · obtain ⟨hc1, hrem'⟩ := hrem.step hw e hss hj
          have := i2 (c - 1) hrem'
          have ec : ((c - 1 : Nat) : ℚ) = (c : ℚ) - 1 := by push_cast [Nat.cast_sub hc1]; ring
          unfold worstLoss at this ⊢
          rw [ec] at this
          linarith

/-! ### Evaluations are runs of the model -/

/-- The simulator of an evaluation draws from the supportive model. -/
def Simulates {σ : Type} (mo : EvalModel σ) (m : SupPomdp) : Prop :=
  (∀ g s g', mo.sampleStart g = (.ok s, g') → ∃ c u v, m.sampleStart c u v = .ok s) ∧
  ∀ a s g x g', mo.sampleTransition a s g = (.ok x, g') → ∃ d random, m.sampleTransition d a s random = .ok x

theorem evalLoop_run {σ : Type} {mo : EvalModel σ} {m : SupPomdp} (hs : Simulates mo m) (pol : EvalPolicy σ) (γ : ℚ) :
    ∀ (bound : Nat) (h : FinHorizon) (ep ep' : Episode) (g g' : σ) (s : Nat), evalLoop mo pol γ bound h ep g = (.ok ep', g') →
      ep.states.getLast? = some s → ∃ l, Run m s l ∧ ep'.rewards = ep.rewards ++ l.map (fun x => x.2.2) ∧ l.length ≤ h.n.toNat := by
  intro bound
  induction bound with
  | zero =>
      intro h ep ep' g g' s he _
      unfold evalLoop at he
      split at he
      · cases he
        exact ⟨[], trivial, by simp, by simp⟩
      · simp [M.raise] at he
  | succ k ih =>
      intro h ep ep' g g' s he hl
      unfold evalLoop at he
      split at he
      · cases he
        exact ⟨[], trivial, by simp, by simp⟩
      · next hr =>
        change (M.lift (lastOf ep.states) >>= fun s => _) g = _ at he
        obtain ⟨s', g1, h1, he⟩ := M.bind_ok he
        have es : lastOf ep.states = .ok s := by unfold lastOf; rw [hl]
        rw [es] at h1
        cases h1
        obtain ⟨y, g2, h2, he⟩ := M.bind_ok he
        obtain ⟨l, i1, i2, i3⟩ := ih _ _ _ _ _ y.2.1 he (by simp [Episode.add])
        have hstep : ∃ d random, m.sampleTransition d y.1 s random = .ok y.2 := by
          unfold evalStep at h2
          obtain ⟨name, g3, h3, h2⟩ := M.bind_ok h2
          obtain ⟨a, g4, h4, h2⟩ := M.bind_ok h2
          obtain ⟨x, g5, h5, h2⟩ := M.bind_ok h2
          obtain ⟨o, g6, h6, h2⟩ := M.bind_ok h2
          obtain ⟨_, g7, h7, h2⟩ := M.bind_ok h2
          cases h2
          exact hs.2 _ _ _ _ _ h5
        obtain ⟨d, random, hd⟩ := hstep
        have hn : 0 < h.n := by
          simp only [finishedOrN, Bool.or_eq_true, decide_eq_true_eq, not_or] at hr
          omega
        refine ⟨(y.1, y.2.1, y.2.2.2) :: l, ⟨⟨d, random, y.2.2.1, hd⟩, i1⟩, ?_, ?_⟩
        · rw [i2]
          simp [Episode.add]
        · have : (h.n - 1).toNat + 1 ≤ h.n.toNat := by omega
          simp only [List.length_cons]
          simp only [finishedOrN] at i3
          omega

theorem evaluation_run {σ : Type} {mo : EvalModel σ} {m : SupPomdp} (hs : Simulates mo m) (hd : mo.discount = 1) (pol : EvalPolicy σ)
    {k : Int} {discount : Bool} {bound : Nat} {g g' : σ} {ep : Episode} (h : simulateOneEvaluation mo pol k discount bound g = (.ok ep, g')) :
    ∃ s l, (∃ c u v, m.sampleStart c u v = .ok s) ∧ Run m s l ∧ ep.ret = totalReward l ∧ l.length ≤ k.toNat := by
  have hret := C60_undiscounted_partial k discount bound g g' ep (.inr hd) h
  unfold simulateOneEvaluation at h
  obtain ⟨i, g0, h0, h⟩ := M.bind_ok h
  obtain ⟨_, g1, h1, h⟩ := M.bind_ok h
  obtain ⟨s, g2, h2, h⟩ := M.bind_ok h
  obtain ⟨ep1, g3, h3, h⟩ := M.bind_ok h
  obtain ⟨n, g4, h4, h⟩ := M.bind_ok h
  cases h
  obtain ⟨l, r1, r2, r3⟩ := evalLoop_run hs pol _ _ _ _ _ _ _ s h3 rfl
  refine ⟨s, l, hs.1 _ _ _ h2, r1, ?_, r3⟩
  rw [hret]
  show ep1.rewards.sum = _
  rw [r2]
  rfl

theorem loopModel_simulates (m : SupPomdp) (w : LoopDraws) : Simulates (loopModel m 1 w) m := by
  refine ⟨fun g s g' h => ⟨w.start, w.startPrefs, w.startObjects, ?_⟩, fun a s g x g' h => ⟨w.step g.calls, true, ?_⟩⟩
  · exact (Prod.mk.inj h).1
  · exact (Prod.mk.inj h).1

theorem searchModel_simulates (W : ExpWorld) (m : SupPomdp) (n : Nat) :
    Simulates (searchModel (supSim m 1 n W.sim W.choices) m.isFinal W.calls (startSampler W m)) m := by
  refine ⟨fun g s g' h => ⟨(W.starts g.search.rng).1, (W.starts g.search.rng).2.1, (W.starts g.search.rng).2.2, ?_⟩,
    fun a s g x g' h => ⟨W.sim g.search.rng 0, true, ?_⟩⟩
  · exact (Prod.mk.inj h).1
  · exact (Prod.mk.inj h).1

theorem py_bind_ok {α β : Type} {x : Py α} {f : α → Py β} {b : β} (h : (x >>= f) = .ok b) : ∃ a, x = .ok a ∧ f a = .ok b := by
  cases x with
  | error e => cases h
  | ok a => exact ⟨a, rfl, h⟩

/-- The evaluations of an experiment are runs of its model. -/
theorem target_run {W : ExpWorld} {m : SupPomdp} {pol : ExpPolicy} {k : Int} {p : Params} {target : Nat → Py Episode}
    (ht : pol.target W m k p = .ok target) {seed : Nat} {ep : Episode} (he : target seed = .ok ep) :
    ∃ s l, (∃ c u v, m.sampleStart c u v = .ok s) ∧ Run m s l ∧ ep.ret = totalReward l ∧ l.length ≤ k.toNat := by
  have search : ∀ {η : Type} (hor : HorizonOps η) (h0 : η) (c : PomcpConfig) (w : Int), searchTarget W m c (expSearch W m c hor h0) w k = .ok target →
      ∃ s l, (∃ c u v, m.sampleStart c u v = .ok s) ∧ Run m s l ∧ ep.ret = totalReward l ∧ l.length ≤ k.toNat := by
    intro η hor h0 c w h
    unfold searchTarget at h
    split at h
    · cases h
    · split at h
      · cases h
      · cases h
        unfold searchEvaluation at he
        exact evaluation_run (searchModel_simulates W m c.nParticles.toNat) rfl _ (Prod.ext he rfl)
  cases pol with
  | scripted x =>
      obtain ⟨v, _, ht⟩ := py_bind_ok ht
      unfold scriptedTarget at ht
      split at ht
      · cases ht
      · cases ht
        exact evaluation_run (loopModel_simulates m _) rfl _ (Prod.ext he rfl)
  | pomcp c =>
      obtain ⟨v, _, ht⟩ := py_bind_ok ht
      obtain ⟨w, _, ht⟩ := py_bind_ok ht
      split at ht
      · exact search _ _ _ _ ht
      · exact search _ _ _ _ ht

/-! ### C119 -/

theorem target_seeded (pol : ExpPolicy) (W : ExpWorld) (es : List PoolEvent) {n G : Nat} (ω : Fin n → Fin G) (m : SupPomdp) (k : Int) (p : Params) :
    pol.target (seeded W es ω) m k p = pol.target W m k p := by
  cases pol <;> rfl

theorem sum_range_fin {n G : Nat} (F : Nat → ℚ) (ω : Fin n → Fin G) :
    ((List.range n).map fun w => F (if h : w < n then (ω ⟨w, h⟩ : Nat) else 0)).sum = ∑ i, F (ω i) := by
  rw [← List.sum_ofFn]
  congr 1
  apply List.ext_getElem
  · simp
  · intro i h1 h2
    have : i < n := by simpa using h1
    simp [this]

section
variable {cls : ExpClass} {W : ExpWorld} {p : Params} {debug : Bool} {n G : Nat} {m : SupPomdp} {pol : ExpPolicy} {target : Nat → Py Episode}
  {es : (Fin n → Fin G) → List PoolEvent} {R : (Fin n → Fin G) → ExpResults}

/-- **C119 (what is shown).**  The mean and the variance that are shown for a run are those of the values of the evaluations with the seeds of
its workers; all these evaluations succeed. -/
theorem C119_results (h : Repeats cls W p debug m pol target es R) (value : Episode → ℚ) (ω : Fin n → Fin G) :
    meanBy value (R ω) = sampleMean (valueAt target value) ω ∧ varianceBy value (R ω) = sampleVar (valueAt target value) ω ∧
      (R ω).evaluations.length = n ∧ ∀ i, (target (ω i)).isOk = true := by
  have hr := h.runs ω
  have hn : dget (debugged p debug) "n_evaluations" = some (.num ((n : Int) : ℚ)) := by rw [h.number]; simp
  have hrun : cls.run (seeded W (es ω) ω) p debug = (do
      let evaluations ← evaluateAll (seeded W (es ω) ω) target n
      pure ⟨debugged p debug, evaluations⟩) := by
    unfold ExpClass.run
    simp only [h.init ω, target_seeded, h.target, read_some hn, asInt_int, bind, Except.bind]
  rw [hrun] at hr
  rcases evaluateAll_cases (seeded W (es ω) ω) target n (h.calm ω) with hc | ⟨rs, hc, hperm, hok⟩ | ⟨hc, -⟩
  · rw [hc] at hr; cases hr
  · rw [hc] at hr
    have hR : (R ω).evaluations = rs := by rw [← Except.ok.inj hr]
    rw [Int.toNat_natCast] at hperm hok
    have hs : ∀ F : Episode → ℚ, (rs.map F).sum = ∑ i, F (episodeOr (target (ω i))) := by
      intro F
      rw [(hperm.map F).sum_eq, List.map_map]
      exact sum_range_fin (fun x => F (episodeOr (target x))) ω
    have hl : rs.length = n := by rw [hperm.length_eq]; simp
    have hm : meanBy value (R ω) = sampleMean (valueAt target value) ω := by
      unfold meanBy sampleMean valueAt
      rw [hR, hs, hl]
    refine ⟨hm, ?_, by rw [hR, hl], fun i => ?_⟩
    · unfold varianceBy
      rw [hm, hR, hs, hl]
      rfl
    · have := hok i i.2
      simpa [seeded] using this
  · rw [hc] at hr; cases hr

/-- All the evaluations succeed. -/
theorem repeats_ok (h : Repeats cls W p debug m pol target es R) (hn : 0 < n) (seed : Fin G) : ∃ ep, target seed = .ok ep := by
  have := (C119_results h (fun _ => 0) fun _ => seed).2.2.2 ⟨0, hn⟩
  cases ht : target seed with
  | ok ep => exact ⟨ep, rfl⟩
  | error e => rw [ht] at this; cases this

variable [NeZero G]

/-- **C119 (no bias).**  Over the seeds of the workers, the mean that is shown is on average the mean over the evaluations with all the seeds. -/
theorem C119_mean (h : Repeats cls W p debug m pol target es R) (hn : 0 < n) (value : Episode → ℚ) :
    mean (fun ω => meanBy value (R ω)) = mean (valueAt (G := G) target value) := by
  simp only [(C119_results h value _).1]
  exact mean_sampleMean hn _

/-- **C119 (error).**  Its mean squared error is the variance over the evaluations with all the seeds, divided by the number of evaluations. -/
theorem C119_error (h : Repeats cls W p debug m pol target es R) (hn : 0 < n) (value : Episode → ℚ) :
    mean (fun ω => (meanBy value (R ω) - mean (valueAt (G := G) target value)) ^ 2) = varianceIn (valueAt (G := G) target value) / n := by
  simp only [(C119_results h value _).1]
  exact mean_error hn _

/-- **C119 (variance).**  The variance that is shown is on average too small by the factor `1 - 1/n`, since `np.var` divides by `n`: for a
single evaluation it is 0. -/
theorem C119_variance (h : Repeats cls W p debug m pol target es R) (hn : 0 < n) (value : Episode → ℚ) :
    mean (fun ω => varianceBy value (R ω)) = (1 - 1 / n) * varianceIn (valueAt (G := G) target value) := by
  simp only [(C119_results h value _).2.1]
  exact mean_sampleVar hn _

/-- **C119 (Chebyshev).**  The mean that is shown is at a distance of `ε` or more for at most a proportion `variance / (n ε²)` of the seeds. -/
theorem C119_chebyshev (h : Repeats cls W p debug m pol target es R) (hn : 0 < n) (value : Episode → ℚ) {ε : ℚ} (hε : 0 < ε) :
    proportion (fun ω => ε ≤ |meanBy value (R ω) - mean (valueAt (G := G) target value)|) ≤
      varianceIn (valueAt (G := G) target value) / (n * ε ^ 2) := by
  simp only [(C119_results h value _).1]
  exact chebyshev hn _ hε

/-- **C119 (Hoeffding).**  If the values of the evaluations are between `lo` and `hi`, this proportion decreases exponentially with the number
of evaluations. -/
theorem C119_hoeffding (h : Repeats cls W p debug m pol target es R) (hn : 0 < n) (value : Episode → ℚ) {lo hi ε : ℚ}
    (hv : ∀ seed ep, target seed = .ok ep → lo ≤ value ep ∧ value ep ≤ hi) (hε : 0 < ε) :
    ((proportion fun ω => ε ≤ |meanBy value (R ω) - mean (valueAt (G := G) target value)| : ℚ) : ℝ) ≤
      2 * Real.exp (-(2 * n * (ε : ℝ) ^ 2 / ((hi : ℝ) - lo) ^ 2)) := by
  simp only [(C119_results h value _).1]
  refine hoeffding hn _ (fun seed => ?_) hε
  obtain ⟨ep, he⟩ := repeats_ok h hn seed
  have := hv _ _ he
  unfold valueAt
  rw [he]
  exact this

end

/-- **C119 (range).**  The return of an evaluation is at least minus the most that can be lost, and at most the most that can be earned. -/
theorem C119_range {t : Htm SupAction} {W : ExpWorld} {m : SupPomdp} {pol : ExpPolicy} {k : Int} {p : Params} {target : Nat → Py Episode}
    (hc : Constructed t m) {N C : Nat} (hN : WordLength t N) (hC : ∀ conds ∈ m.conditions, conds.length ≤ C)
    (hp : m.par.pPreferences.length ≤ m.par.nPreferences) (hm : SensibleRewards m) (ht : pol.target W m k p = .ok target)
    {seed : Nat} {ep : Episode} (he : target seed = .ok ep) : -worstLoss m k.toNat N C ≤ ep.ret ∧ ep.ret ≤ bestGain m N := by
  obtain ⟨s, l, ⟨c, u, v, hs⟩, hl, hret, hk⟩ := target_run ht he
  obtain ⟨s', h1, h2, h3⟩ := C25_start hc hp c u v
  rw [hs] at h1
  cases h1
  obtain ⟨css, hw⟩ := constructed_wf hc
  have hrem : Remaining m (htmOf m s) N := ⟨by have := hw.init_ok _ h3; omega, fun q hq => tpath_length hc hN h3 hq⟩
  rw [hret]
  constructor
  · have h4 := (run_loss hc hw hm.get hm.hold hm.intrinsic hm.final hm.subtask hm.preference hC l s h2 hl).2 N hrem
    refine le_trans ?_ h4
    have h5 : (l.length : ℚ) ≤ k.toNat := by exact_mod_cast hk
    have h6 := mul_le_mul_of_nonneg_right h5 (le_max_of_le_left hm.hold : 0 ≤ max m.par.costHold m.par.costIntrinsic)
    unfold worstLoss
    linarith
  · exact C76_bound hc hN hm.get hm.hold hm.intrinsic hm.final (add_nonneg hm.subtask (le_max_left _ _)) s h2 h3 l hl

/-- **C119 (accuracy).**  In the experiments on the supportive model, the mean return that is shown is at a distance of `ε` or more from the
mean over all the seeds for at most a proportion `2 exp(-2 n ε² / w²)` of the seeds, where `w` is the most that can be earned plus the most
that can be lost. -/
theorem C119_accuracy {cls : ExpClass} {W : ExpWorld} {p : Params} {debug : Bool} {n G : Nat} [NeZero G] {t : Htm SupAction} {m : SupPomdp}
    {pol : ExpPolicy} {target : Nat → Py Episode} {es : (Fin n → Fin G) → List PoolEvent} {R : (Fin n → Fin G) → ExpResults}
    (h : Repeats cls W p debug m pol target es R) (hn : 0 < n) (hc : Constructed t m) {N C : Nat} (hN : WordLength t N)
    (hC : ∀ conds ∈ m.conditions, conds.length ≤ C) (hp : m.par.pPreferences.length ≤ m.par.nPreferences) (hm : SensibleRewards m)
    {ε : ℚ} (hε : 0 < ε) :
    ((proportion fun ω => ε ≤ |meanBy Episode.ret (R ω) - mean (valueAt (G := G) target Episode.ret)| : ℚ) : ℝ) ≤
      2 * Real.exp (-(2 * n * (ε : ℝ) ^ 2 / ((bestGain m N : ℝ) + worstLoss m cls.maxHorizon.toNat N C) ^ 2)) := by
  have := C119_hoeffding h hn Episode.ret (fun seed ep he => C119_range hc hN hC hp hm h.target he) hε
  push_cast at this
  rw [sub_neg_eq_add] at this
  exact this

/-! ### Non-vacuity -/

theorem demo_pool {α : Type} (res : Nat → α) (seeds : Nat → Nat) :
    ((poolStart 2 2).run res seeds demoWorld.events).pc = .done (.ok [res (seeds 1), res (seeds 0)]) := by
  simp [demoWorld, Pool.run, Pool.step, poolStart, List.replicate, Pool.parent, Pool.stillWorking, Pool.cleanSlot, Pool.fillSlot, Pool.getOne,
    Pool.collectOne]

/-- The run of two evaluations ends. -/
theorem demo_evaluates (target : Nat → Py Episode) (hok : ∀ seed, (target seed).isOk = true) {G : Nat} (ω : Fin 2 → Fin G) :
    ∃ rs, evaluateAll (seeded demoWorld demoWorld.events ω) target 2 = .ok rs := by
  refine ⟨[episodeOr (target (ω 1)), episodeOr (target (ω 0))], ?_⟩
  have hf : (seeded demoWorld demoWorld.events ω).events.filter (workerEvent target (seeded demoWorld demoWorld.events ω).seeds) = demoWorld.events := by
    refine List.filter_eq_self.2 fun e he => ?_
    change e ∈ demoWorld.events at he
    simp only [demoWorld, List.mem_append, List.mem_replicate, List.mem_cons, List.not_mem_nil, or_false] at he
    rcases he with (((⟨-, rfl⟩ | rfl | rfl) | ⟨-, rfl⟩) | rfl | rfl) | ⟨-, rfl⟩ <;> simp [workerEvent, hok]
  have h := demo_pool (fun seed => episodeOr (target seed)) (seeded demoWorld demoWorld.events ω).seeds
  unfold evaluateAll
  have e1 : (seeded demoWorld demoWorld.events ω).cpus = 2 := rfl
  have e2 : (2 : Int).toNat = 2 := rfl
  rw [hf, e1, e2, h]
  rfl

/-- The hypotheses of the theorems hold for two evaluations of the policy `always-hold` in the preference job, with the seeds of
`np.random.randint(2 ** 32)`. -/
example : ∃ m pol target, ∃ R : (Fin 2 → Fin (2 ^ 32)) → ExpResults, ∃ C,
    Repeats preferenceJob demoWorld (preferenceJob.parameters (some [("policy", .str "always-hold"), ("n_evaluations", .num 2)])) false m pol target
      (fun _ => demoWorld.events) R ∧ Constructed (supLeaf (assembleLeg "leg")) m ∧ WordLength (supLeaf (assembleLeg "leg")) 1 ∧
      (∀ conds ∈ m.conditions, conds.length ≤ C) ∧ m.par.pPreferences.length ≤ m.par.nPreferences ∧ SensibleRewards m := by
  set p := preferenceJob.parameters (some [("policy", .str "always-hold"), ("n_evaluations", .num 2)]) with hp
  obtain ⟨m, h5, h6, h7, h8, h9⟩ := preference_model (W := demoWorld) (fun _ _ => Iff.rfl) (by decide) (p := debugged p false) (q := 3 / 10) (c := 0)
    (by rfl) (.inr ⟨by rfl, rfl⟩)
  have hpr : m.par.pPreferences.length ≤ m.par.nPreferences := by rw [h8]; simp [preferenceExpected]
  obtain ⟨⟨y, hy, hy'⟩, -⟩ := scripted_exist h5 h6 1
  have hv : dget (debugged p false) "policy" = some (.str "always-hold") := by rfl
  have hi : preferenceJob.initRun demoWorld (debugged p false) = .ok (m, .scripted y) := by
    rw [h9]
    simp only [preferencePolicy, read_some hv, hy, bind, Except.bind]
    rfl
  obtain ⟨a, st, ha⟩ := warmup_ok h5 h6 hy' demoWorld.warm
  have hw : dget (debugged p false) "n_warmup" = some (.num 2000) := by rfl
  let target : Nat → Py Episode := fun seed =>
    (simulateOneEvaluation (loopModel m 1 (demoWorld.draws seed)) (loopPolicy y.1 (demoWorld.draws seed)) preferenceJob.maxHorizon true demoWorld.bound
      ⟨st, 0, 0⟩).1
  have ht : (ExpPolicy.scripted y).target demoWorld m preferenceJob.maxHorizon (debugged p false) = .ok target := by
    show (do let _ ← (debugged p false).read "n_warmup"; scriptedTarget demoWorld m y preferenceJob.maxHorizon) = _
    rw [read_some hw]
    show scriptedTarget demoWorld m y preferenceJob.maxHorizon = _
    unfold scriptedTarget
    rw [ha]
  have hok : ∀ seed, (target seed).isOk = true := by
    intro seed
    obtain ⟨ep, st', s, g1, -⟩ := C74_finishes h5 h6 hpr hy' 1 (demoWorld.draws seed) 15 true demoWorld.bound (by decide) ⟨st, 0, 0⟩
      (leaf_wordLength _) (le_of_eq h7)
    have : target seed = .ok ep := by
      show (simulateOneEvaluation _ _ 15 _ _ _).1 = _
      rw [g1]
    rw [this]
    rfl
  have hn : dget (debugged p false) "n_evaluations" = some (.num ((2 : Int) : ℚ)) := by rfl
  have hrun : ∀ ω : Fin 2 → Fin (2 ^ 32), ∃ r, preferenceJob.run (seeded demoWorld demoWorld.events ω) p false = .ok r := by
    intro ω
    obtain ⟨rs, hrs⟩ := demo_evaluates target hok ω
    refine ⟨⟨debugged p false, rs⟩, ?_⟩
    have hi' : preferenceJob.initRun (seeded demoWorld demoWorld.events ω) (debugged p false) = .ok (m, .scripted y) := hi
    unfold ExpClass.run
    simp only [hi', target_seeded, ht, read_some hn, asInt_int, bind, Except.bind, hrs]
    rfl
  refine ⟨m, .scripted y, target, fun ω => (hrun ω).choose, (m.conditions.map List.length).sum,
    ⟨fun _ => hi, ht, by rw [hn]; rfl, fun _ => demoWorld_noKill, fun ω => (hrun ω).choose_spec⟩, h5, leaf_wordLength _, ?_, hpr, ?_⟩
  · intro conds hconds
    exact List.le_sum_of_mem (List.mem_map_of_mem hconds)
  · constructor <;> rw [h8] <;> norm_num [preferenceExpected]

end Verif
