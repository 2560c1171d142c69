import Verif.Proof.PrefLine

/-!
# C114: the expected returns against the probability of the preference
-/

set_option linter.unusedSectionVars false

namespace Verif
open Spec SupState SupPomdp

section
variable {μ : Type} {t : Htm SupAction} {m : SupPomdp} {pol : EvalPolicy μ} {Q : μ → Prop} {D K N : Nat}

theorem expectedReturn_eq (hm : Constructed t m) (hn : 1 ≤ m.par.nPreferences) (hp : Answers m pol Q) (δ : ℚ) (discount : Bool) (hD : 0 < D)
    (hK : 0 < K) (k bound : Nat) (hb : k ≤ bound) (g : Nat) (q : μ) (n : Nat) (hk : k + 1 ≤ n) (z : Nat → EvalNumbers m D K N) {p : ℚ}
    (hpm : Multiple D p) (h1 : p ≤ 1) :
    expectedReturn (withPreference m p) (D := D) (K := K) (N := N) pol δ discount k bound g q n z =
      p * mean (fun ω : StartNumbers m D K => lateValue m pol D K N (if discount then δ else 1) k (pol.reset q).2 (startIf m 1 ω.1 (numberAt ω.2.2))) +
      (1 - p) * mean (fun ω : StartNumbers m D K => lateValue m pol D K N (if discount then δ else 1) k (pol.reset q).2 (startIf m 0 ω.1 (numberAt ω.2.2))) := by
  have h := (C94_evaluation (constructed_with hm p) hn (answers_with hp p) δ discount hD hK k bound hb g q n hk z).2
  unfold expectedReturn
  rw [h]
  have e := mean_start (K := K) hn hD hK hpm h1 (fun s => lateValue m pol D K N (if discount then δ else 1) k (pol.reset q).2 s)
  rw [← e]
  apply mean_congr
  intro ω
  rw [lateValue_with]

theorem mean_between {Ω : Type} [Fintype Ω] [Nonempty Ω] {f : Ω → ℚ} {a b : ℚ} (h : ∀ ω, a ≤ f ω ∧ f ω ≤ b) : a ≤ mean f ∧ mean f ≤ b := by
  have hc : (0 : ℚ) < Fintype.card Ω := by exact_mod_cast Fintype.card_pos
  unfold mean
  rw [le_div_iff₀ hc, div_le_iff₀ hc]
  constructor
  · have := Finset.card_nsmul_le_sum Finset.univ f a fun ω _ => (h ω).1
    rw [nsmul_eq_mul, Finset.card_univ] at this
    linarith
  · have := Finset.sum_le_card_nsmul Finset.univ f b fun ω _ => (h ω).2
    rw [nsmul_eq_mul, Finset.card_univ] at this
    linarith

theorem leavesDone_range {m : SupPomdp} {pol : EvalPolicy μ} [Nonempty (Numbers m D K N)] : ∀ (k : Nat) (q : μ) (s : Nat),
    0 ≤ leavesDone m pol D K N k q s ∧ leavesDone m pol D K N k q s ≤ k := by
  intro k
  induction k with
  | zero => intro q s; simp [leavesDone]
  | succ k ih =>
    intro q s
    unfold leavesDone
    apply mean_between
    intro ω
    obtain ⟨h1, h2⟩ := ih (afterStep pol q (supMove m ω (chosenAction m pol q) s).2.1) (supMove m ω (chosenAction m pol q) s).1
    have h3 : (0 : ℚ) ≤ k := by positivity
    push_cast
    split_ifs <;> constructor <;> linarith

/-- C114: in the experiment on preferences, the expected return of a policy is an affine function of the probability of the preference: it is the
mean of the expected returns with people who have the preference and with people who do not, with the weights `p` and `1 - p`. -/
theorem C114_line (hm : Constructed t m) (hn : 1 ≤ m.par.nPreferences) (hp : Answers m pol Q) (δ : ℚ) (discount : Bool) (hD : 0 < D)
    (hK : 0 < K) (k bound : Nat) (hb : k ≤ bound) (g : Nat) (q : μ) (n : Nat) (hk : k + 1 ≤ n) (z : Nat → EvalNumbers m D K N) {p : ℚ}
    (hpm : Multiple D p) (h1 : p ≤ 1) :
    expectedReturn (withPreference m p) (D := D) (K := K) (N := N) pol δ discount k bound g q n z =
      p * expectedReturn (withPreference m 1) (D := D) (K := K) (N := N) pol δ discount k bound g q n z +
        (1 - p) * expectedReturn (withPreference m 0) (D := D) (K := K) (N := N) pol δ discount k bound g q n z := by
  rw [expectedReturn_eq hm hn hp δ discount hD hK k bound hb g q n hk z hpm h1,
    expectedReturn_eq hm hn hp δ discount hD hK k bound hb g q n hk z ⟨D, by ring⟩ (le_refl 1),
    expectedReturn_eq hm hn hp δ discount hD hK k bound hb g q n hk z ⟨0, by simp⟩ (by norm_num)]
  ring

/-- C114: with probability 1 every start state has the preference, with probability 0 none has. -/
theorem C114_ends (hm : Constructed t m) (hn : 1 ≤ m.par.nPreferences) (ω : StartNumbers m D K) :
    bit (startOf (withPreference m 1) (D := D) (K := K) ω) (m.objects.length + 1) = 1 ∧
      bit (startOf (withPreference m 0) (D := D) (K := K) ω) (m.objects.length + 1) = 0 := by
  rw [startOf_one, startOf_zero]
  obtain ⟨h, _, _⟩ := sameButPref_start hm hn ω.1 (numberAt ω.2.2)
  exact ⟨(h.2.2.2 rfl).2, (h.2.2.2 rfl).1⟩

/-- C114: if no policy of a class exceeds `B` at one probability and `B'` at another, none exceeds the chord in between: the best expected return is
a convex function of the probability, so knowledge of the preference is worth most for intermediate probabilities. -/
theorem C114_convex (hm : Constructed t m) (hn : 1 ≤ m.par.nPreferences) (δ : ℚ) (discount : Bool) (hD : 0 < D) (hK : 0 < K) (k bound : Nat)
    (hb : k ≤ bound) (g : Nat) (q : μ) (n : Nat) (hk : k + 1 ≤ n) (z : Nat → EvalNumbers m D K N) {p p' w B B' : ℚ} (hw : 0 ≤ w ∧ w ≤ 1)
    (hpm : Multiple D p ∧ p ≤ 1) (hpm' : Multiple D p' ∧ p' ≤ 1) (hmid : Multiple D (w * p + (1 - w) * p'))
    (policies : EvalPolicy μ → Prop) (hpol : ∀ pol, policies pol → ∃ Q, Answers m pol Q)
    (h1 : ∀ pol, policies pol → expectedReturn (withPreference m p) (D := D) (K := K) (N := N) pol δ discount k bound g q n z ≤ B)
    (h2 : ∀ pol, policies pol → expectedReturn (withPreference m p') (D := D) (K := K) (N := N) pol δ discount k bound g q n z ≤ B')
    (pol : EvalPolicy μ) (hin : policies pol) :
    expectedReturn (withPreference m (w * p + (1 - w) * p')) (D := D) (K := K) (N := N) pol δ discount k bound g q n z ≤ w * B + (1 - w) * B' := by
  obtain ⟨Q, hp⟩ := hpol pol hin
  have a := h1 pol hin
  have b := h2 pol hin
  have hle : w * p + (1 - w) * p' ≤ 1 := by nlinarith [hw.1, hw.2, hpm.2, hpm'.2]
  rw [C114_line hm hn hp δ discount hD hK k bound hb g q n hk z hpm.1 hpm.2] at a
  rw [C114_line hm hn hp δ discount hD hK k bound hb g q n hk z hpm'.1 hpm'.2] at b
  rw [C114_line hm hn hp δ discount hD hK k bound hb g q n hk z hmid hle]
  nlinarith [mul_le_mul_of_nonneg_left a hw.1, mul_le_mul_of_nonneg_left b (sub_nonneg.2 hw.2)]

/-- C114: a policy that never holds and never asks has the same expected return for all probabilities, if the rewards do not depend on the
preference (`reward_independent_preference` false). -/
theorem C114_flat (hm : Constructed t m) (hn : 1 ≤ m.par.nPreferences) (hp : Answers m pol Q) (hh : NeverHolds m pol Q)
    (hr : m.par.rewardIndependentPreference = false) (δ : ℚ) (discount : Bool) (hD : 0 < D) (hK : 0 < K) (k bound : Nat) (hb : k ≤ bound) (g : Nat)
    (q : μ) (n : Nat) (hk : k + 1 ≤ n) (z : Nat → EvalNumbers m D K N) {p p' : ℚ} (hpm : Multiple D p ∧ p ≤ 1) (hpm' : Multiple D p' ∧ p' ≤ 1) :
    expectedReturn (withPreference m p) (D := D) (K := K) (N := N) pol δ discount k bound g q n z =
      expectedReturn (withPreference m p') (D := D) (K := K) (N := N) pol δ discount k bound g q n z := by
  rw [expectedReturn_eq hm hn hp δ discount hD hK k bound hb g q n hk z hpm.1 hpm.2,
    expectedReturn_eq hm hn hp δ discount hD hK k bound hb g q n hk z hpm'.1 hpm'.2]
  obtain ⟨q', h1, h2⟩ := hp.reset q
  have e : mean (fun ω : StartNumbers m D K => lateValue m pol D K N (if discount then δ else 1) k (pol.reset q).2 (startIf m 1 ω.1 (numberAt ω.2.2))) =
      mean (fun ω : StartNumbers m D K => lateValue m pol D K N (if discount then δ else 1) k (pol.reset q).2 (startIf m 0 ω.1 (numberAt ω.2.2))) := by
    apply mean_congr
    intro ω
    obtain ⟨g1, g2, g3⟩ := sameButPref_start hm hn ω.1 (numberAt ω.2.2)
    have := values_sameButPref (D := D) (K := K) (N := N) hm hn hp hh (c := false) (Or.inl ⟨rfl, hr⟩) (if discount then δ else 1) hD hK k (pol.reset q).2 _ _
      (by rw [h1]; exact h2) g2 g3 (sameButPref_mono g1)
    exact (this.2.1 rfl).symm
  rw [e]
  ring

/-- C114: if the rewards are made independent of the preference (`reward_independent_preference`, as in the experiments) and the preference
does not change during an evaluation, the expected return without discount of a policy that never holds and never asks decreases by
`r_preference - cost_hold` for each leaf that people complete, per unit of the probability. -/
theorem C114_slope (hm : Constructed t m) (hn : 1 ≤ m.par.nPreferences) (hp : Answers m pol Q) (hh : NeverHolds m pol Q)
    (hr : m.par.rewardIndependentPreference = true) (hc : m.par.pChangePreference ≤ 0) (δ : ℚ) (discount : Bool) (hd : discount = false ∨ δ = 1)
    (hD : 0 < D) (hK : 0 < K) (k bound : Nat) (hb : k ≤ bound) (g : Nat) (q : μ) (n : Nat) (hk : k + 1 ≤ n) (z : Nat → EvalNumbers m D K N) {p : ℚ}
    (hpm : Multiple D p) (h1 : p ≤ 1) :
    expectedReturn (withPreference m p) (D := D) (K := K) (N := N) pol δ discount k bound g q n z =
      expectedReturn (withPreference m 0) (D := D) (K := K) (N := N) pol δ discount k bound g q n z -
        p * ((m.par.rPreference - m.par.costHold) * meanLeaves (withPreference m 0) pol D K N k q) := by
  haveI : Nonempty (Fin D) := ⟨⟨0, hD⟩⟩
  haveI : Nonempty (Fin K) := ⟨⟨0, hK⟩⟩
  rw [expectedReturn_eq hm hn hp δ discount hD hK k bound hb g q n hk z hpm h1,
    expectedReturn_eq hm hn hp δ discount hD hK k bound hb g q n hk z ⟨0, by simp⟩ (by norm_num)]
  have ed : (if discount then δ else 1) = 1 := by rcases hd with rfl | rfl <;> simp
  rw [ed]
  obtain ⟨q', h1, h2⟩ := hp.reset q
  have el : meanLeaves (withPreference m 0) pol D K N k q =
      mean (fun ω : StartNumbers m D K => leavesDone m pol D K N k (pol.reset q).2 (startIf m 0 ω.1 (numberAt ω.2.2))) := by
    unfold meanLeaves
    apply mean_congr
    intro ω
    rw [leavesDone_with]
    exact congrArg (leavesDone m pol D K N k (pol.reset q).2) (startOf_zero (m := m) (D := D) (K := K) ω)
  have e : mean (fun ω : StartNumbers m D K => lateValue m pol D K N 1 k (pol.reset q).2 (startIf m 0 ω.1 (numberAt ω.2.2))) =
      mean (fun ω : StartNumbers m D K => lateValue m pol D K N 1 k (pol.reset q).2 (startIf m 1 ω.1 (numberAt ω.2.2))) +
        (m.par.rPreference - m.par.costHold) * meanLeaves (withPreference m 0) pol D K N k q := by
    rw [el, ← mean_mul, ← mean_add]
    apply mean_congr
    intro ω
    obtain ⟨g1, g2, g3⟩ := sameButPref_start hm hn ω.1 (numberAt ω.2.2)
    have := values_sameButPref (D := D) (K := K) (N := N) hm hn hp hh (c := true) (Or.inr ⟨rfl, hr, hc⟩) 1 hD hK k (pol.reset q).2 _ _
      (by rw [h1]; exact h2) g2 g3 g1
    rw [(late_undiscounted k _ _).2, (late_undiscounted k _ _).2, this.2.2]
    rfl
  rw [e]
  ring

/-- C114: the expected number of leaves that people complete is between 0 and the number of transitions, so the decrease is that large at most. -/
theorem C114_leaves (hD : 0 < D) (hK : 0 < K) (k : Nat) (q : μ) :
    0 ≤ meanLeaves (withPreference m 0) pol D K N k q ∧ meanLeaves (withPreference m 0) pol D K N k q ≤ k := by
  haveI : Nonempty (Fin D) := ⟨⟨0, hD⟩⟩
  haveI : Nonempty (Fin K) := ⟨⟨0, hK⟩⟩
  exact mean_between fun ω => leavesDone_range k _ _

theorem leavesDone_wait (hm : Constructed t m) (hD : 0 < D) (hK : 0 < K) (k : Nat) {q : μ} {s : Nat} (h0 : chosenAction m pol q = 0)
    (hs : s < m.nStates) (hl : htmOf m s < m.nodes.length) : 1 ≤ leavesDone m pol D K N (k + 1) q s := by
  haveI : Nonempty (Fin D) := ⟨⟨0, hD⟩⟩
  haveI : Nonempty (Fin K) := ⟨⟨0, hK⟩⟩
  obtain ⟨css, hw⟩ := constructed_wf hm
  unfold leavesDone
  refine (mean_between (b := (k : ℚ) + 1) fun ω => ?_).1
  have hk : (0 : ℚ) ≤ k := by positivity
  obtain ⟨y, o, r, e1, e2, e3, e4, e5⟩ := sample_outcome hw (drawsOf ω) 0 s true hs (by unfold nActions; omega)
  have hne : htmOf m (supMove m ω (chosenAction m pol q) s).1 ≠ htmOf m s := by
    rw [h0]
    unfold supMove
    rw [e1]
    show (m.toState y.s).htm ≠ (m.toState s).htm
    rw [e4]
    have hx := (perturb_spec m (drawsOf ω) s true).2.1
    have hl' : (m.toState s).htm < m.nodes.length := hl
    have hF : m.htmFinal = m.nodes.length + 1 := rfl
    have hC : m.htmClean = m.nodes.length := rfl
    cases e2 with
    | final _ h => exfalso; omega
    | finish _ h => exfalso; omega
    | cleanHold h => exfalso; omega
    | failed h => exfalso; omega
    | good _ _ _ _ hg => exfalso; rcases hg with ⟨_, hg⟩ | ⟨_, hg⟩ <;> omega
    | other _ h needs hn hg x' c hu =>
      obtain ⟨z, c3, ss, g1, g2, g3, g4, g5⟩ := updateForTransition_spec hw (drawsOf ω) _ _ h (perturb_shape _ _ _ _)
      rw [hu] at g1
      cases g1
      have := (hw.succs_ok _ _ g3).2 _ g4
      omega
    | ask h => exfalso; omega
    | there h => exfalso; omega
    | missed h => exfalso; omega
    | moved h => exfalso; omega
  obtain ⟨h1, h2⟩ := leavesDone_range (m := m) (pol := pol) (D := D) (K := K) (N := N) k (afterStep pol q (supMove m ω (chosenAction m pol q) s).2.1)
    (supMove m ω (chosenAction m pol q) s).1
  rw [if_pos ⟨hl, hne⟩]
  split_ifs <;> constructor <;> linarith

/-- C114: hence such a policy, if it begins with wait, gets strictly less the likelier the preference, by `r_preference - cost_hold` at least per unit
of the probability: the option does not make the expected return of a robot that never holds independent of the preference. -/
theorem C114_decreasing (hm : Constructed t m) (hn : 1 ≤ m.par.nPreferences) (hp : Answers m pol Q) (hh : NeverHolds m pol Q)
    (hr : m.par.rewardIndependentPreference = true) (hc : m.par.pChangePreference ≤ 0) (hg : m.par.costHold ≤ m.par.rPreference) (δ : ℚ) (discount : Bool)
    (hd : discount = false ∨ δ = 1) (hD : 0 < D) (hK : 0 < K) (k bound : Nat) (hb : k + 1 ≤ bound) (g : Nat) (q : μ)
    (hq : chosenAction m pol (pol.reset q).2 = 0) (n : Nat) (hk : k + 2 ≤ n) (z : Nat → EvalNumbers m D K N) {p p' : ℚ} (hpm : Multiple D p)
    (hpm' : Multiple D p') (hle : p ≤ p') (h1 : p' ≤ 1) :
    expectedReturn (withPreference m p') (D := D) (K := K) (N := N) pol δ discount (k + 1 : Nat) bound g q n z ≤
      expectedReturn (withPreference m p) (D := D) (K := K) (N := N) pol δ discount (k + 1 : Nat) bound g q n z -
        (p' - p) * (m.par.rPreference - m.par.costHold) := by
  haveI : Nonempty (Fin D) := ⟨⟨0, hD⟩⟩
  haveI : Nonempty (Fin K) := ⟨⟨0, hK⟩⟩
  rw [C114_slope hm hn hp hh hr hc δ discount hd hD hK (k + 1) bound hb g q n hk z hpm' h1,
    C114_slope hm hn hp hh hr hc δ discount hd hD hK (k + 1) bound hb g q n hk z hpm (le_trans hle h1)]
  have hL : 1 ≤ meanLeaves (withPreference m 0) pol D K N (k + 1) q := by
    unfold meanLeaves
    refine (mean_between (b := ((k + 1 : Nat) : ℚ)) fun ω => ?_).1
    refine ⟨?_, (leavesDone_range _ _ _).2⟩
    obtain ⟨s, e1, e2, e3⟩ := C25_start (constructed_with hm 0) hn ω.1 (numberAt ω.2.1) (numberAt ω.2.2)
    have es : startOf (withPreference m 0) ω = s := by unfold startOf; rw [e1]
    rw [es]
    obtain ⟨css, hw⟩ := constructed_wf (constructed_with hm 0)
    exact leavesDone_wait (constructed_with hm 0) hD hK k hq e2 (hw.init_ok _ e3)
  nlinarith [mul_nonneg (mul_nonneg (sub_nonneg.2 hle) (sub_nonneg.2 hg)) (sub_nonneg.2 hL)]

end

/-! ### Non-vacuity -/

/-- The policy that waits. -/
def waitingPolicy : EvalPolicy Unit where
  reset := fun q => (.ok (), q)
  getAction := fun q => (.ok (.str "wait"), q)
  step _ := fun q => (.ok (), q)

/-- The alternatives of the experiment with rewards that are independent of the preference, the policy that waits and the scripted policy: they meet the
hypotheses, and so do the probabilities of the experiment. -/
example : ∃ (m : SupPomdp) (x : SeqPolicy × SeqState), Constructed (taskChoice alternativeWords) m ∧ 1 ≤ m.par.nPreferences ∧
    m.par.rewardIndependentPreference = true ∧ m.par.pChangePreference ≤ 0 ∧ m.par.costHold < m.par.rPreference ∧
    (∃ Q, Answers m (scriptedAlone x.1 fun i => i) Q) ∧ Answers m waitingPolicy (fun _ => True) ∧ NeverHolds m waitingPolicy (fun _ => True) ∧
    chosenAction m waitingPolicy (waitingPolicy.reset ()).2 = 0 ∧ Multiple 100 (3 / 10) ∧ Multiple 100 (1 / 2) := by
  obtain ⟨m, h1, h2, h3, h4, h5⟩ := choice_ok alternativeWords (N := 4) (by decide) (by decide) (by decide) { rewardIndependentPreference := true, pChangePreference := 0 }
    (fun l => l) (fun _ _ => Iff.rfl) 3 (by decide)
  obtain ⟨⟨y, hy, hy'⟩, _⟩ := scripted_exist h2 h3 4
  have hc : ∀ q, chosenAction m waitingPolicy q = 0 := fun q => by
    show (m.actions.map Name.str).idxOf (.str "wait") = 0
    unfold SupPomdp.actions
    rfl
  refine ⟨m, y, h2, by rw [h5], by rw [h5], by rw [h5], by rw [h5]; decide +kernel, C94_scripted h2 h3 hy' _, ⟨fun q => ⟨q, rfl, trivial⟩, ?_⟩,
    fun q _ => Or.inl (hc q), hc _, ⟨30, by norm_num⟩, ⟨50, by norm_num⟩⟩
  intro q _
  refine ⟨.str "wait", q, rfl, ?_, fun d s s' o r _ _ => ⟨q, rfl, trivial⟩⟩
  unfold SupPomdp.actions
  simp

/-- The same without the option, for `C114_flat`. -/
example : ∃ m : SupPomdp, Constructed (taskChoice alternativeWords) m ∧ 1 ≤ m.par.nPreferences ∧ m.par.rewardIndependentPreference = false := by
  obtain ⟨m, h1, h2, h3, h4, h5⟩ := choice_ok alternativeWords (N := 4) (by decide) (by decide) (by decide) { rewardIndependentPreference := false }
    (fun l => l) (fun _ _ => Iff.rfl) 3 (by decide)
  exact ⟨m, h2, by rw [h5], by rw [h5]⟩

end Verif
