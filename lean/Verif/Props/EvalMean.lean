import Verif.Proof.EvalMean
import Verif.Props.ClosedLoop

/-!
# C94: evaluations are unbiased estimates of the value of the policy
-/

set_option linter.unusedSectionVars false

namespace Verif
open Spec SupState SupPomdp

section
variable {μ : Type} {t : Htm SupAction} {m : SupPomdp} {pol : EvalPolicy μ} {Q : μ → Prop} {D K N : Nat}

/-- C94: an evaluation of any policy, with any memory and its own random numbers, returns, and the mean of its return over the random numbers of
the simulator, whatever those used before and after, is the expected sum of the rewards, each multiplied by the power of the discount given
by the number of transitions after it. -/
theorem C94_evaluation (hm : Constructed t m) (hpl : m.par.pPreferences.length ≤ m.par.nPreferences) (hp : Answers m pol Q) (δ : ℚ)
    (discount : Bool) (hD : 0 < D) (hK : 0 < K) (k bound : Nat) (hb : k ≤ bound) (g : Nat) (q : μ) (n : Nat) (hn : k + 1 ≤ n)
    (z : Nat → EvalNumbers m D K N) :
    (∀ ω : Fin n → EvalNumbers m D K N, ∃ ep st,
      simulateOneEvaluation (drawnModel m δ (overlay g ω z)) (ownMemory pol) k discount bound (g, q) = (.ok ep, st)) ∧
    mean (fun ω : Fin n → EvalNumbers m D K N =>
      returnOf (simulateOneEvaluation (drawnModel m δ (overlay g ω z)) (ownMemory pol) k discount bound (g, q))) =
      mean fun ω : StartNumbers m D K => lateValue m pol D K N (if discount then δ else 1) k (pol.reset q).2 (startOf m ω) :=
  ⟨fun ω => (evaluation_ok hm hpl hp δ k discount bound (by omega) _ g q).1,
    evaluation_mean hm hpl hp δ discount hD hK k bound hb g q n (by omega) z⟩

/-- C94: without discount (as in the experiments, whose models have the discount 1), the mean of the return is the expected sum of the rewards
obtained by the policy in at most `max_horizon` transitions, until a final state. -/
theorem C94_undiscounted (hm : Constructed t m) (hpl : m.par.pPreferences.length ≤ m.par.nPreferences) (hp : Answers m pol Q) (δ : ℚ)
    (discount : Bool) (hd : discount = false ∨ δ = 1) (hD : 0 < D) (hK : 0 < K) (k bound : Nat) (hb : k ≤ bound) (g : Nat) (q : μ) (n : Nat)
    (hn : k + 1 ≤ n) (z : Nat → EvalNumbers m D K N) :
    mean (fun ω : Fin n → EvalNumbers m D K N =>
      returnOf (simulateOneEvaluation (drawnModel m δ (overlay g ω z)) (ownMemory pol) k discount bound (g, q))) =
      mean fun ω : StartNumbers m D K => policyValue m pol D K N k (pol.reset q).2 (startOf m ω) := by
  haveI : Nonempty (Fin D) := ⟨⟨0, hD⟩⟩
  haveI : Nonempty (Fin K) := ⟨⟨0, hK⟩⟩
  rw [(C94_evaluation hm hpl hp δ discount hD hK k bound hb g q n hn z).2]
  have e : (if discount then δ else 1) = 1 := by rcases hd with rfl | rfl <;> simp
  rw [e]
  exact mean_congr fun ω => (late_undiscounted k _ _).2

/-- C94: a horizon that is not positive ends the evaluation at once, with return 0. -/
theorem C94_no_transition (hm : Constructed t m) (hpl : m.par.pPreferences.length ≤ m.par.nPreferences) (hp : Answers m pol Q) (δ : ℚ)
    (discount : Bool) (maxHorizon : Int) (hh : maxHorizon ≤ 0) (bound : Nat) (z : Nat → EvalNumbers m D K N) (g : Nat) (q : μ) :
    returnOf (simulateOneEvaluation (drawnModel m δ z) (ownMemory pol) maxHorizon discount bound (g, q)) = 0 := by
  rw [(evaluation_ok hm hpl hp δ maxHorizon discount bound (by omega) z g q).2, evalLoop_reached _ _ _ _ _ _ _ (by simp [finishedOrN, hh])]
  rfl

/-- C94: the scripted policies of the experiments are such policies. -/
theorem C94_scripted (hm : Constructed t m) (tools : NeedsTools m) {x : SeqPolicy × SeqState} {L : Nat} {nexts : List String}
    (hx : ScriptedPolicy m.seqModel x L nexts) (next : Nat → Nat) : ∃ Q, Answers m (scriptedAlone x.1 next) Q := by
  obtain ⟨h1, h2, h3⟩ := C62_supportive hm tools.1 tools.2
  have ok : SeqOk m.seqModel := ⟨h1, h2⟩
  have hv : "hold V" ∈ m.seqModel.actions := by simp [seqModel, SupPomdp.actions]
  exact ⟨_, scripted_answers hm ok (scripted_holdPol ok hv hx (by simp [seqModel, nHtmStates])) next⟩

end

/-! ### Non-vacuity -/

/-- The alternatives of the experiment and their policies. -/
example : ∃ m x y, Constructed (taskChoice alternativeWords) m ∧ NeedsTools m ∧ m.par.pPreferences.length ≤ m.par.nPreferences ∧
    ScriptedPolicy m.seqModel x m.nodes.length ["hold H"] ∧ ScriptedPolicy m.seqModel y 4 ["hold H", "hold V"] := by
  obtain ⟨m, h1, h2, h3, h4, h5⟩ := choice_ok alternativeWords (N := 4) (by decide) (by decide) (by decide) {} (fun l => l)
    (fun _ _ => Iff.rfl) 3 (by decide)
  obtain ⟨⟨y, hy, hy'⟩, ⟨x, hx, hx'⟩⟩ := scripted_exist h2 h3 4
  exact ⟨m, y, x, h2, h3, by rw [h5]; decide, hy', hx'⟩

end Verif
