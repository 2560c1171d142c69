import Verif.Proof.Mean
import Verif.Proof.ClosedLoop
import Verif.Spec.EvalMean

/-! Proofs about the means of evaluations (C94). -/

set_option linter.unusedSectionVars false
set_option linter.unusedSimpArgs false

namespace Verif
open Spec SupState SupPomdp

section
variable {μ : Type} {t : Htm SupAction} {m : SupPomdp} {pol : EvalPolicy μ} {Q : μ → Prop} {D K N : Nat}

theorem indexOfName_chosen (hm : Constructed t m) (hp : Answers m pol Q) {q : μ} (hq : Q q) :
    ∃ name, pol.getAction q = (.ok name, (pol.getAction q).2) ∧ indexOfName (m.actions.map .str) name = .ok (chosenAction m pol q) ∧
      chosenAction m pol q < m.nActions := by
  obtain ⟨name, q', h1, h2, h3⟩ := hp.action q hq
  refine ⟨name, by rw [h1], ?_, ?_⟩
  · unfold indexOfName chosenAction
    rw [if_pos h2, h1]
  · unfold chosenAction
    rw [h1]
    have := List.idxOf_lt_length_of_mem h2
    rw [List.length_map, (C27_names hm).1] at this
    exact this

theorem supMove_ok (hm : Constructed t m) (ω : Numbers m D K N) {a s : Nat} (ha : a < m.nActions) (hs : s < m.nStates) :
    m.sampleTransition (drawsOf ω) a s = .ok (supMove m ω a s) ∧ (supMove m ω a s).1 < m.nStates ∧ (supMove m ω a s).2.1 < nObservations := by
  obtain ⟨s', o, r, h1, h2, h3⟩ := C25_transition hm (drawsOf ω) a s true hs ha
  unfold supMove
  rw [h1]
  exact ⟨rfl, h2, h3⟩

theorem afterStep_ok (hm : Constructed t m) (hp : Answers m pol Q) {q : μ} (hq : Q q) (ω : Numbers m D K N) {s : Nat} (hs : s < m.nStates) :
    ∃ name, nameAt supObservations (supMove m ω (chosenAction m pol q) s).2.1 = .ok name ∧
      pol.step name (pol.getAction q).2 = (.ok (), afterStep pol q (supMove m ω (chosenAction m pol q) s).2.1) ∧
      Q (afterStep pol q (supMove m ω (chosenAction m pol q) s).2.1) := by
  obtain ⟨name, q', h1, h2, h3⟩ := hp.action q hq
  obtain ⟨_, _, _, h8⟩ := indexOfName_chosen hm hp hq
  obtain ⟨h5, h6, h7⟩ := supMove_ok hm ω h8 hs
  have ec : chosenAction m pol q = (m.actions.map Name.str).idxOf name := by
    unfold chosenAction
    rw [h1]
  set y := supMove m ω (chosenAction m pol q) s with hy
  have hl : y.2.1 < supObservations.length := h7
  have e : supObservations[y.2.1]? = some supObservations[y.2.1] := List.getElem?_eq_getElem hl
  have hg : supObservations.getD y.2.1 (.str "") = supObservations[y.2.1] := by rw [List.getD_eq_getElem?_getD, e]; rfl
  obtain ⟨q'', h9, h10⟩ := h3 (drawsOf ω) s y.1 y.2.1 y.2.2 hs (by rw [← ec]; exact h5)
  refine ⟨supObservations[y.2.1], ?_, ?_, ?_⟩
  · unfold nameAt
    rw [e]
  · unfold afterStep
    rw [← hg, h1, h9]
  · unfold afterStep
    rw [h1, h9]
    exact h10

theorem evalStep_drawn (hm : Constructed t m) (hp : Answers m pol Q) (γ : ℚ) (z : Nat → EvalNumbers m D K N) {q : μ} (hq : Q q) {s : Nat}
    (hs : s < m.nStates) (g : Nat) :
    evalStep (drawnModel m γ z) (ownMemory pol) s (g, q) =
      (.ok (chosenAction m pol q, supMove m (z g).2 (chosenAction m pol q) s),
        (g + 1, afterStep pol q (supMove m (z g).2 (chosenAction m pol q) s).2.1)) := by
  obtain ⟨name, h1, h2, h3⟩ := indexOfName_chosen hm hp hq
  obtain ⟨h4, h5, h6⟩ := supMove_ok hm (z g).2 h3 hs
  obtain ⟨name2, h7, h8, h9⟩ := afterStep_ok hm hp hq (z g).2 hs
  unfold evalStep
  have e1 : (ownMemory pol).getAction (g, q) = (.ok name, (g, (pol.getAction q).2)) := by
    show ((pol.getAction q).1, (g, (pol.getAction q).2)) = _
    rw [h1]
  rw [M.bind_of_ok e1]
  have e2 : (M.lift (indexOfName (drawnModel (μ := μ) m γ z).actions name) : M (Nat × μ) Nat) (g, (pol.getAction q).2) =
      (.ok (chosenAction m pol q), (g, (pol.getAction q).2)) := by
    show (indexOfName (m.actions.map .str) name, _) = _
    rw [h2]
  rw [M.bind_of_ok e2]
  have e3 : (drawnModel m γ z).sampleTransition (chosenAction m pol q) s (g, (pol.getAction q).2) =
      (.ok (supMove m (z g).2 (chosenAction m pol q) s), (g + 1, (pol.getAction q).2)) := by
    show (m.sampleTransition (drawsOf (z g).2) (chosenAction m pol q) s, _) = _
    rw [h4]
  rw [M.bind_of_ok e3]
  have e4 : (M.lift (nameAt (drawnModel (μ := μ) m γ z).observations (supMove m (z g).2 (chosenAction m pol q) s).2.1) : M (Nat × μ) Name)
      (g + 1, (pol.getAction q).2) = (.ok name2, (g + 1, (pol.getAction q).2)) := by
    show (nameAt supObservations _, _) = _
    rw [h7]
  rw [M.bind_of_ok e4]
  have e5 : (ownMemory pol).step name2 (g + 1, (pol.getAction q).2) =
      (.ok (), (g + 1, afterStep pol q (supMove m (z g).2 (chosenAction m pol q) s).2.1)) := by
    show ((pol.step name2 (pol.getAction q).2).1, (g + 1, (pol.step name2 (pol.getAction q).2).2)) = _
    rw [h8]
  rw [M.bind_of_ok e5]
  rfl

theorem evalLoop_drawn (hm : Constructed t m) (hp : Answers m pol Q) (γ δ : ℚ) (z : Nat → EvalNumbers m D K N) {q : μ} (hq : Q q) {s : Nat}
    (hs : s < m.nStates) (g bound : Nat) (h : FinHorizon) (hr : ¬ (finishedOrN m.isFinal).isReached h = true) (ep : Episode)
    (hl : ep.states.getLast? = some s) :
    evalLoop (drawnModel m δ z) (ownMemory pol) γ (bound + 1) h ep (g, q) =
      evalLoop (drawnModel m δ z) (ownMemory pol) γ bound
        ⟨h.n - 1, m.isFinal (supMove m (z g).2 (chosenAction m pol q) s).1⟩
        (ep.add γ (chosenAction m pol q, supMove m (z g).2 (chosenAction m pol q) s))
        (g + 1, afterStep pol q (supMove m (z g).2 (chosenAction m pol q) s).2.1) := by
  have hr' : ¬ (finishedOrN (drawnModel (μ := μ) m δ z).isFinal).isReached h = true := hr
  rw [evalLoop, if_neg hr']
  have e1 : (M.lift (lastOf ep.states) : M (Nat × μ) Nat) (g, q) = (.ok s, (g, q)) := by
    show (lastOf ep.states, _) = _
    unfold lastOf
    rw [hl]
  rw [M.bind_of_ok e1, M.bind_of_ok (evalStep_drawn hm hp δ z hq hs g)]
  rfl

theorem evalLoop_reached {σ : Type} (mo : EvalModel σ) (p : EvalPolicy σ) (γ : ℚ) (bound : Nat) (h : FinHorizon) (ep : Episode) (g : σ)
    (hr : (finishedOrN mo.isFinal).isReached h = true) : evalLoop mo p γ bound h ep g = (.ok ep, g) := by
  unfold evalLoop
  rw [if_pos hr]
  rfl

theorem evalLoop_ok (hm : Constructed t m) (hp : Answers m pol Q) (γ δ : ℚ) (z : Nat → EvalNumbers m D K N) :
    ∀ (k bound : Nat) (h : FinHorizon) (ep : Episode) (g : Nat) q s, h.n ≤ k → k ≤ bound → Q q → s < m.nStates → ep.states.getLast? = some s →
      ∃ ep' st', evalLoop (drawnModel m δ z) (ownMemory pol) γ bound h ep (g, q) = (.ok ep', st') := by
  intro k
  induction k with
  | zero =>
      intro bound h ep g q s hn _ _ _ _
      refine ⟨_, _, evalLoop_reached _ _ _ _ _ _ _ ?_⟩
      have : h.n ≤ 0 := by exact_mod_cast hn
      simp [finishedOrN, this]
  | succ k ih =>
      intro bound h ep g q s hn hb hq hs hl
      by_cases hr : (finishedOrN m.isFinal).isReached h = true
      · exact ⟨_, _, evalLoop_reached _ _ _ _ _ _ _ hr⟩
      · obtain ⟨bound, rfl⟩ : ∃ b, bound = b + 1 := ⟨bound - 1, by omega⟩
        obtain ⟨name, h1, h2, h3⟩ := indexOfName_chosen hm hp hq
        obtain ⟨h4, h5, h6⟩ := supMove_ok hm (z g).2 h3 hs
        obtain ⟨name2, h7, h8, h9⟩ := afterStep_ok hm hp hq (z g).2 hs
        rw [evalLoop_drawn hm hp γ δ z hq hs g bound h hr ep hl]
        refine ih bound _ _ _ _ _ (by push_cast at hn; show h.n - 1 ≤ k; omega) (by omega) h9 h5 ?_
        simp [Episode.add]

theorem evalLoop_mean (hm : Constructed t m) (hp : Answers m pol Q) (γ δ : ℚ) (hD : 0 < D) (hK : 0 < K) :
    ∀ (k bound : Nat) (n : Int) (ep : Episode) (g : Nat) q s, n = k → k ≤ bound → Q q → s < m.nStates → ep.states.getLast? = some s →
      HasMean k g (fun z : Nat → EvalNumbers m D K N => returnOf (evalLoop (drawnModel m δ z) (ownMemory pol) γ bound ⟨n, false⟩ ep (g, q)))
        (ep.ret * lengthWeight m pol D K N γ k q s + lateValue m pol D K N γ k q s) := by
  haveI : Nonempty (Fin D) := ⟨⟨0, hD⟩⟩
  haveI : Nonempty (Fin K) := ⟨⟨0, hK⟩⟩
  intro k
  induction k with
  | zero =>
      intro bound n ep g q s hn _ _ _ _
      have e : ep.ret * lengthWeight m pol D K N γ 0 q s + lateValue m pol D K N γ 0 q s = ep.ret := by
        simp [lengthWeight, lateValue]
      rw [e]
      refine (hasMean_const g ep.ret).congr fun z => ?_
      rw [evalLoop_reached _ _ _ _ _ _ _ (by subst hn; simp [finishedOrN])]
      rfl
  | succ k ih =>
      intro bound n ep g q s hn hb hq hs hl
      obtain ⟨bound, rfl⟩ : ∃ b, bound = b + 1 := ⟨bound - 1, by omega⟩
      have hr : ¬ (finishedOrN m.isFinal).isReached ⟨n, false⟩ = true := by
        subst hn
        simp [finishedOrN]
      obtain ⟨name, h1, h2, h3⟩ := indexOfName_chosen hm hp hq
      set a := chosenAction m pol q with ha
      have e : ep.ret * lengthWeight m pol D K N γ (k + 1) q s + lateValue m pol D K N γ (k + 1) q s =
          mean fun w : Fin 1 → EvalNumbers m D K N => if m.isFinal (supMove m (w 0).2 a s).1 then (supMove m (w 0).2 a s).2.2 + γ * ep.ret
            else (ep.add γ (a, supMove m (w 0).2 a s)).ret *
              lengthWeight m pol D K N γ k (afterStep pol q (supMove m (w 0).2 a s).2.1) (supMove m (w 0).2 a s).1 +
              lateValue m pol D K N γ k (afterStep pol q (supMove m (w 0).2 a s).2.1) (supMove m (w 0).2 a s).1 := by
        rw [lengthWeight, lateValue, ← mean_mul, ← mean_add]
        symm
        refine (mean_one fun x : EvalNumbers m D K N => if m.isFinal (supMove m x.2 a s).1 then (supMove m x.2 a s).2.2 + γ * ep.ret
            else (ep.add γ (a, supMove m x.2 a s)).ret *
              lengthWeight m pol D K N γ k (afterStep pol q (supMove m x.2 a s).2.1) (supMove m x.2 a s).1 +
              lateValue m pol D K N γ k (afterStep pol q (supMove m x.2 a s).2.1) (supMove m x.2 a s).1).trans ?_
        rw [mean_prod, mean_const (Ω := StartNumbers m D K) (mean fun ω : Numbers m D K N => if m.isFinal (supMove m ω a s).1 then (supMove m ω a s).2.2 + γ * ep.ret
            else (ep.add γ (a, supMove m ω a s)).ret *
              lengthWeight m pol D K N γ k (afterStep pol q (supMove m ω a s).2.1) (supMove m ω a s).1 +
              lateValue m pol D K N γ k (afterStep pol q (supMove m ω a s).2.1) (supMove m ω a s).1)]
        apply mean_congr
        intro ω
        rw [← ha]
        by_cases hf : m.isFinal (supMove m ω a s).1 = true
        · rw [if_pos hf, if_pos hf, if_pos hf]; ring
        · rw [if_neg hf, if_neg hf, if_neg hf]
          simp only [Episode.add]
          ring
      rw [e]
      refine HasMean.mono (N := 1 + k) ?_ (by omega)
      refine hasMean_draw (fun w z => returnOf (evalLoop (drawnModel m δ z) (ownMemory pol) γ bound ⟨n - 1, m.isFinal (supMove m (w 0).2 a s).1⟩
        (ep.add γ (a, supMove m (w 0).2 a s)) (g + 1, afterStep pol q (supMove m (w 0).2 a s).2.1))) _ ?_ ?_
      · intro z
        rw [evalLoop_drawn hm hp γ δ z hq hs g bound ⟨n, false⟩ hr ep hl]
        rfl
      · intro w
        by_cases hf : m.isFinal (supMove m (w 0).2 a s).1 = true
        · rw [if_pos hf, hf]
          refine ((hasMean_const _ ((supMove m (w 0).2 a s).2.2 + γ * ep.ret)).mono (by omega)).congr fun z => ?_
          rw [evalLoop_reached _ _ _ _ _ _ _ (by simp [finishedOrN])]
          rfl
        · rw [if_neg hf]
          obtain ⟨h4, h5, h6⟩ := supMove_ok hm (w 0).2 h3 hs
          obtain ⟨name2, h7, h8, h9⟩ := afterStep_ok hm hp hq (w 0).2 hs
          rw [Bool.not_eq_true] at hf
          rw [hf]
          exact ih bound (n - 1) _ (g + 1) _ _ (by push_cast at hn; omega) (by omega) h9 h5 (by simp [Episode.add])

theorem late_undiscounted [Nonempty (Numbers m D K N)] : ∀ k (q : μ) s, lengthWeight m pol D K N 1 k q s = 1 ∧ lateValue m pol D K N 1 k q s = policyValue m pol D K N k q s := by
  intro k
  induction k with
  | zero => intro q s; exact ⟨rfl, rfl⟩
  | succ k ih =>
      intro q s
      constructor
      · rw [lengthWeight]
        refine (mean_congr fun ω => ?_).trans (mean_const (Ω := Numbers m D K N) 1)
        split
        · ring
        · rw [(ih _ _).1]; ring
      · rw [lateValue, policyValue]
        apply mean_congr
        intro ω
        split
        · ring
        · rw [(ih _ _).1, (ih _ _).2]; ring

/-- The start of an evaluation. -/
theorem evaluation_eq (hm : Constructed t m) (hpl : m.par.pPreferences.length ≤ m.par.nPreferences) (hp : Answers m pol Q) (δ : ℚ) (maxHorizon : Int)
    (discount : Bool) (bound : Nat) (z : Nat → EvalNumbers m D K N) (g : Nat) (q : μ) :
    startOf m (z g).1 < m.nStates ∧
    simulateOneEvaluation (drawnModel m δ z) (ownMemory pol) maxHorizon discount bound (g, q) =
      ((do
        let ep ← evalLoop (drawnModel m δ z) (ownMemory pol) (if discount then δ else 1) bound ⟨maxHorizon, false⟩ ⟨0, [startOf m (z g).1], [], [], [], 0⟩
        let n ← M.read (drawnModel (μ := μ) m δ z).calls
        pure { ep with calls := n - g }) : M (Nat × μ) Episode) (g + 1, (pol.reset q).2) := by
  obtain ⟨s, h1, h2, _⟩ := C25_start hm hpl (z g).1.1 (numberAt (z g).1.2.1) (numberAt (z g).1.2.2)
  obtain ⟨q', h3, h4⟩ := hp.reset q
  have hs : startOf m (z g).1 = s := by
    unfold startOf
    rw [h1]
  refine ⟨by rw [hs]; exact h2, ?_⟩
  unfold simulateOneEvaluation
  have e0 : M.read (drawnModel (μ := μ) m δ z).calls (g, q) = (.ok (g : Int), (g, q)) := rfl
  rw [M.bind_of_ok e0]
  have e1 : (ownMemory pol).reset (g, q) = (.ok (), (g, (pol.reset q).2)) := by
    show ((pol.reset q).1, (g, (pol.reset q).2)) = _
    rw [h3]
  rw [M.bind_of_ok e1]
  have e2 : (drawnModel (μ := μ) m δ z).sampleStart (g, (pol.reset q).2) = (.ok s, (g + 1, (pol.reset q).2)) := by
    show (m.sampleStart (z g).1.1 (numberAt (z g).1.2.1) (numberAt (z g).1.2.2), _) = _
    rw [h1]
  rw [M.bind_of_ok e2, hs]
  rfl

theorem evaluation_ok (hm : Constructed t m) (hpl : m.par.pPreferences.length ≤ m.par.nPreferences) (hp : Answers m pol Q) (δ : ℚ) (maxHorizon : Int)
    (discount : Bool) (bound : Nat) (hb : maxHorizon.toNat ≤ bound) (z : Nat → EvalNumbers m D K N) (g : Nat) (q : μ) :
    (∃ ep st, simulateOneEvaluation (drawnModel m δ z) (ownMemory pol) maxHorizon discount bound (g, q) = (.ok ep, st)) ∧
    returnOf (simulateOneEvaluation (drawnModel m δ z) (ownMemory pol) maxHorizon discount bound (g, q)) =
      returnOf (evalLoop (drawnModel m δ z) (ownMemory pol) (if discount then δ else 1) bound ⟨maxHorizon, false⟩ ⟨0, [startOf m (z g).1], [], [], [], 0⟩
        (g + 1, (pol.reset q).2)) := by
  obtain ⟨h1, h2⟩ := evaluation_eq hm hpl hp δ maxHorizon discount bound z g q
  obtain ⟨q', h3, h4⟩ := hp.reset q
  have hq : Q (pol.reset q).2 := by rw [h3]; exact h4
  obtain ⟨ep, st, h5⟩ := evalLoop_ok hm hp (if discount then δ else 1) δ z maxHorizon.toNat bound ⟨maxHorizon, false⟩
    ⟨0, [startOf m (z g).1], [], [], [], 0⟩ (g + 1) (pol.reset q).2 (startOf m (z g).1) (by show maxHorizon ≤ _; omega) hb hq h1 rfl
  have h6 : simulateOneEvaluation (drawnModel m δ z) (ownMemory pol) maxHorizon discount bound (g, q) =
      (.ok { ep with calls := (st.1 : Int) - g }, st) := by
    rw [h2, M.bind_of_ok h5]
    rfl
  refine ⟨⟨_, _, h6⟩, ?_⟩
  rw [h6, h5]
  rfl

theorem evaluation_mean (hm : Constructed t m) (hpl : m.par.pPreferences.length ≤ m.par.nPreferences) (hp : Answers m pol Q) (δ : ℚ)
    (discount : Bool) (hD : 0 < D) (hK : 0 < K) (k bound : Nat) (hb : k ≤ bound) (g : Nat) (q : μ) :
    HasMean (1 + k) g (fun z : Nat → EvalNumbers m D K N =>
        returnOf (simulateOneEvaluation (drawnModel m δ z) (ownMemory pol) k discount bound (g, q)))
      (mean fun ω : StartNumbers m D K => lateValue m pol D K N (if discount then δ else 1) k (pol.reset q).2 (startOf m ω)) := by
  haveI : Nonempty (Fin D) := ⟨⟨0, hD⟩⟩
  haveI : Nonempty (Fin K) := ⟨⟨0, hK⟩⟩
  obtain ⟨q', h3, h4⟩ := hp.reset q
  have hq : Q (pol.reset q).2 := by rw [h3]; exact h4
  have e : (mean fun ω : StartNumbers m D K => lateValue m pol D K N (if discount then δ else 1) k (pol.reset q).2 (startOf m ω)) =
      mean fun w : Fin 1 → EvalNumbers m D K N => lateValue m pol D K N (if discount then δ else 1) k (pol.reset q).2 (startOf m (w 0).1) := by
    symm
    refine (mean_one fun x : EvalNumbers m D K N => lateValue m pol D K N (if discount then δ else 1) k (pol.reset q).2 (startOf m x.1)).trans ?_
    rw [mean_prod]
    apply mean_congr
    intro x
    exact mean_const (Ω := Numbers m D K N) (lateValue m pol D K N (if discount then δ else 1) k (pol.reset q).2 (startOf m x))
  rw [e]
  refine hasMean_draw (fun w z => returnOf (evalLoop (drawnModel m δ z) (ownMemory pol) (if discount then δ else 1) bound ⟨k, false⟩
    ⟨0, [startOf m (w 0).1], [], [], [], 0⟩ (g + 1, (pol.reset q).2))) _ ?_ ?_
  · intro z
    exact (evaluation_ok hm hpl hp δ k discount bound (by omega) z g q).2
  · intro w
    have hs : startOf m (w 0).1 < m.nStates := (evaluation_eq hm hpl hp δ k discount bound (fun _ => w 0) g q).1
    have := evalLoop_mean (N := N) hm hp (if discount then δ else 1) δ hD hK k bound k ⟨0, [startOf m (w 0).1], [], [], [], 0⟩ (g + 1)
      (pol.reset q).2 (startOf m (w 0).1) rfl hb hq hs rfl
    simpa using this

end

/-- The scripted policies answer. -/
theorem scripted_answers {t : Htm SupAction} {m : SupPomdp} (hm : Constructed t m) (ok : SeqOk m.seqModel) {p : SeqPolicy} {L : Nat}
    {nexts : List String} (hp : HoldPol m.seqModel p L nexts) (next : Nat → Nat) :
    Answers m (scriptedAlone p next) fun q => ∃ k, SeqInv m.seqModel L k q.1 where
  reset q := by
    obtain ⟨s', h1, h2, _⟩ := seqReset_run ok L q.1
    refine ⟨(s', q.2), ?_, 0, h2⟩
    show ((seqReset p.model q.1).1, _, _) = _
    rw [hp.model, h1]
  action q hq := by
    obtain ⟨k, inv⟩ := hq
    obtain ⟨name, h1, h2⟩ := holdGetAction_run ok hp (next q.2) inv
    have hmem : name ∈ m.actions := hp.planned_mem ok h1
    refine ⟨.str name, ({ q.1 with lastAction := some (m.seqModel.ix name) }, q.2 + 1), ?_, List.mem_map_of_mem hmem, ?_⟩
    · show ((p.getAction (next q.2) q.1).1.map Name.str, _, _) = _
      rw [h2]
      rfl
    · intro d s s' o r hs ht
      rw [idxOf_map_inj Name.str (fun a b h => by cases h; rfl) m.actions name] at ht
      obtain ⟨s2, o2, r2, h3, h4, h5⟩ := planStep_spec hm ok hp h1 d s hs
      rw [ht] at h3
      cases h3
      obtain ⟨ho, ho2⟩ := planStep_obs hm ok hp h5
      obtain ⟨on, hon, hon2⟩ : ∃ on : String, supObservations.getD o (.str "") = .str on ∧ (on = "none" ∨ on = "fail" ∨ (on = "not-found" ∧
          seqPlanAt L k ≠ "hold H")) ∧ on ∈ m.seqModel.observations := by
        rcases ho with rfl | rfl | rfl
        · exact ⟨"none", rfl, .inl rfl, by simp [seqModel]⟩
        · exact ⟨"fail", rfl, .inr (.inl rfl), by simp [seqModel]⟩
        · exact ⟨"not-found", rfl, .inr (.inr ⟨rfl, ho2 rfl⟩), by simp [seqModel]⟩
      obtain ⟨q', h6, h7⟩ := holdStep_run ok hp (s := { q.1 with lastAction := some (m.seqModel.ix name) })
        (inv.of_eq rfl rfl rfl rfl) h1 rfl on hon2.2 hon2.1
      refine ⟨(q', q.2 + 1), ?_, _, h7⟩
      rw [hon]
      show ((p.step on _).1, _, _) = _
      rw [h6]

end Verif
