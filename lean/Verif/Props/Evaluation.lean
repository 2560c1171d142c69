import Verif.Spec.Evaluation
import Verif.Proof.PomcpErase
import Verif.Proof.Supportive

/-! Horizons (C69, C58) and evaluations (C60). -/

set_option linter.unusedSectionVars false
set_option linter.unusedSimpArgs false

namespace Verif
open Spec
variable {σ η : Type}

/-! ### C69: horizons -/

/-- **C69 (transitions).**  A copy behaves like the original. -/
theorem C69_transitions (h : Int) (l : List (Nat × Nat × Nat × Nat)) :
    nTransitions.isReached (afterTransitions nTransitions (nTransitions.copy h) l) =
      nTransitions.isReached (afterTransitions nTransitions h l) := rfl

/-- **C69 (HTM).**  A copy behaves like the original. -/
theorem C69_htm (m : SupPomdp) (h : NHtmHorizon) (l : List (Nat × Nat × Nat × Nat)) :
    (nHtm m).isReached (afterTransitions (nHtm m) ((nHtm m).copy h) l) =
      (nHtm m).isReached (afterTransitions (nHtm m) h l) := rfl

/-- **C69 (finished).**  A copy of a horizon that is not reached behaves like the original. -/
theorem C69_finished (isFinal : Nat → Bool) (h : FinHorizon) (hr : (finishedOrN isFinal).isReached h = false)
    (l : List (Nat × Nat × Nat × Nat)) :
    (finishedOrN isFinal).isReached (afterTransitions (finishedOrN isFinal) ((finishedOrN isFinal).copy h) l) =
      (finishedOrN isFinal).isReached (afterTransitions (finishedOrN isFinal) h l) := by
  have : (finishedOrN isFinal).copy h = h := by
    simp only [finishedOrN, Bool.or_eq_false_iff] at hr ⊢
    rw [← hr.2]
  rw [this]

/-- A copy of a horizon that is reached may not be reached. -/
theorem C69_finished_reached : ∃ h : FinHorizon, (finishedOrN fun _ => true).isReached h = true ∧
    (finishedOrN fun _ => true).isReached ((finishedOrN fun _ => true).copy h) = false := ⟨⟨1, true⟩, rfl, rfl⟩

/-- **C69 (independence).**  Whatever is done with several horizons and their copies, an object is only changed by the transitions given
to it, and a copy is a new object. -/
theorem C69_independent (hor : HorizonOps η) (calls : List HorizonCall) : ∀ (mem : List η) (i : Nat) (h : η), mem[i]? = some h →
    (calls.foldl (horizonCall hor) mem)[i]? = some (afterTransitions hor h (transitionsOf i calls)) ∧
    (horizonCall hor mem (.copy i))[mem.length]? = some (hor.copy h) := by
  intro mem i h hi
  constructor
  · induction calls generalizing mem h with
    | nil => exact hi
    | cons c calls ih =>
        rw [List.foldl_cons]
        cases c with
        | copy j =>
            refine ih _ h ?_
            cases hj : mem[j]? with
            | none => simp only [horizonCall, hj]; exact hi
            | some x =>
                have hlt := (List.getElem?_eq_some_iff.1 hi).1
                simp only [horizonCall, hj]
                rw [List.getElem?_append_left hlt]
                exact hi
        | decrement j a s new o =>
            by_cases hj : j = i
            · have h1 : transitionsOf i (.decrement j a s new o :: calls) = (a, s, new, o) :: transitionsOf i calls := by
                unfold transitionsOf
                rw [List.filterMap_cons_some (b := (a, s, new, o)) (by simp [hj])]
              rw [h1]
              refine ih _ (hor.decrement a s new o h) ?_
              subst hj
              show (mem.modify j _)[j]? = _
              rw [List.getElem?_modify_eq, hi]
              rfl
            · have h1 : transitionsOf i (.decrement j a s new o :: calls) = transitionsOf i calls := by
                unfold transitionsOf
                rw [List.filterMap_cons_none (by simp [hj])]
              rw [h1]
              refine ih _ h ?_
              show (mem.modify j _)[i]? = _
              rw [List.getElem?_modify_ne _ _ hj]
              exact hi
  · simp [horizonCall, hi]

example : [HorizonCall.copy 0, .decrement 1 0 0 0 0, .decrement 0 0 0 0 0, .decrement 1 0 0 0 0].foldl (horizonCall nTransitions) [5] =
    [4, 3] := by decide

/-! ### C58: the HTM horizon -/

/-- A rollout in the supportive model, with a horizon in HTM states that is not reached: while the action "ask hold" is chosen, it
never ends, whatever the other random outcomes. -/
theorem C58_htm_unbounded (m : SupPomdp) (discount : ℚ) (n : Nat) (d : Nat → Nat → SupPomdp.Draws) (c : Nat → Nat → Nat)
    (hc : ∀ k, c k 0 % m.actions.length = 3) (h : NHtmHorizon) (hr : (nHtm m).isReached h = false) :
    ∀ (bound s : Nat) (gamma full : ℚ) (g : Nat), (m.toState s).isFinal = false →
    (rolloutLoop (supSim m discount n d c) (nHtm m) bound s h gamma full g).1 = .error .unfinished := by
  have hA : 3 < m.actions.length := by simp [SupPomdp.actions]
  intro bound
  induction bound with
  | zero =>
      intro s gamma full g _
      unfold rolloutLoop
      rw [if_neg (by rw [hr]; simp)]
      rfl
  | succ k ih =>
      intro s gamma full g hs
      unfold rolloutLoop
      rw [if_neg (by rw [hr]; simp)]
      have hact : randomAction (supSim m discount n d c) g = (.ok 3, g + 1) := by
        unfold randomAction
        rw [M.bind_run]
        show (M.lift (if (List.map Name.str m.actions).length = 0 then _ else _)) (g + 1) = _
        rw [List.length_map, if_neg (by omega)]
        show (Except.ok (c g 0 % (List.map Name.str m.actions).length), g + 1) = _
        rw [List.length_map, hc]
      simp only
      rw [M.bind_of_ok hact]
      obtain ⟨p1, p2, _⟩ := SupPomdp.perturb_spec m (d (g + 1) 0) s true
      have hx : m.toState (m.perturb (d (g + 1) 0) s true).s = m.perturb (d (g + 1) 0) s true := SupPomdp.toState_of_sameShape p1
      obtain ⟨x, hx1, hx2⟩ : ∃ x : Nat × Nat × ℚ, (supSim m discount n d c).sampleTransition 3 s (g + 1) = (.ok x, g + 2) ∧
          x.1 = (m.perturb (d (g + 1) 0) s true).s := by
        have hb : ∃ o r, m.sampleTransition (d (g + 1) 0) 3 s = .ok ((m.perturb (d (g + 1) 0) s true).s, o, r) := by
          rw [SupPomdp.sampleTransition_eq]
          unfold SupPomdp.branch
          rw [if_neg (by omega), if_pos rfl]
          unfold SupPomdp.askStep
          split
          · exact ⟨_, _, rfl⟩
          · exact ⟨_, _, rfl⟩
        obtain ⟨o, r, hb⟩ := hb
        exact ⟨(_, o, r), by show (m.sampleTransition _ _ _, _) = _; rw [hb], rfl⟩
      rw [M.bind_of_ok hx1]
      have hh : (m.toState x.1).htm = (m.toState s).htm := by rw [hx2, hx, p2]
      have hf : (m.toState x.1).isFinal = false := by
        unfold SupState.isFinal at hs ⊢
        rw [hh]
        exact hs
      have hd : (nHtm m).decrement 3 s x.1 x.2.1 h = h := by
        show NHtmHorizon.decrement m h s x.1 = h
        unfold NHtmHorizon.decrement
        rw [hf, hh]
        simp
      rw [hd]
      exact ih _ _ _ _ hf

/-- The first state of a model is not final, and the action "ask hold" can always be chosen. -/
example (m : SupPomdp) : (nHtm m).isReached ⟨3⟩ = false ∧ 3 % m.actions.length = 3 ∧ (m.toState 0).isFinal = false := by
  refine ⟨rfl, Nat.mod_eq_of_lt (by simp [SupPomdp.actions]), ?_⟩
  simp [SupState.isFinal, SupPomdp.toState, mkSupState, SupPomdp.nHtmStates, SupState.htm]

/-! ### C60: evaluations -/

section
variable {mo : EvalModel σ} {pol : EvalPolicy σ}

theorem recording_ok {α : Type} {f : α → EvalEv} {m : M σ α} {g g' : σ × List EvalEv} {x : α} (h : recording f m g = (.ok x, g')) :
    g'.2 = g.2 ++ [f x] ∧ m g.1 = (.ok x, g'.1) := by
  unfold recording at h
  rcases hm : m g.1 with ⟨r, g1⟩
  rw [hm] at h
  cases r with
  | ok y => simp only [Prod.mk.injEq, Except.ok.injEq] at h; obtain ⟨rfl, rfl⟩ := h; exact ⟨rfl, rfl⟩
  | error e => simp at h

theorem lift_ok {S α : Type} {x : Py α} {s s' : S} {a : α} (h : (M.lift x : M S α) s = (.ok a, s')) : x = .ok a ∧ s' = s := by
  unfold M.lift at h
  simp only [Prod.mk.injEq] at h
  exact ⟨h.1, h.2.symm⟩

theorem evalStep_record {s : Nat} {g g' : σ × List EvalEv} {y : Nat × Nat × Nat × ℚ}
    (h : evalStep (recordModel mo) (recordPolicy pol) s g = (.ok y, g')) :
    ∃ evs, g'.2 = g.2 ++ evs ∧ eventsOf mo ⟨y.1, s, y.2.1, y.2.2.1, y.2.2.2⟩ evs := by
  unfold evalStep at h
  obtain ⟨name, g1, h1, h⟩ := M.bind_ok h
  obtain ⟨a, g2, h2, h⟩ := M.bind_ok h
  obtain ⟨x, g3, h3, h⟩ := M.bind_ok h
  obtain ⟨o, g4, h4, h⟩ := M.bind_ok h
  obtain ⟨_, g5, h5, h⟩ := M.bind_ok h
  cases h
  obtain ⟨e2, rfl⟩ := lift_ok h2
  obtain ⟨e4, rfl⟩ := lift_ok h4
  obtain ⟨e1, _⟩ := recording_ok h1
  obtain ⟨e3, _⟩ := recording_ok h3
  obtain ⟨e5, _⟩ := recording_ok h5
  refine ⟨[.asked name, .moved ⟨a, s, x.1, x.2.1, x.2.2⟩, .told o], by rw [e5, e3, e1]; simp, name, o, ?_, ?_, ?_, rfl⟩
  · unfold indexOfName at e2
    split at e2
    · cases e2; rfl
    · cases e2
  · unfold indexOfName at e2
    split at e2
    · assumption
    · cases e2
  · unfold nameAt at e4
    split at e4
    · cases e4; assumption
    · cases e4

/-- The sum computed by the loop. -/
def reverseReturn (γ : ℚ) (moves : List Ev) : ℚ :=
  sumRange moves.length fun t => γ ^ (moves.length - 1 - t) * (moves.map Ev.reward).getD t 0

theorem reverseReturn_cons (γ : ℚ) (e : Ev) (es : List Ev) :
    reverseReturn γ (e :: es) = γ ^ es.length * e.reward + reverseReturn γ es := by
  unfold reverseReturn
  rw [List.length_cons, Nat.add_comm, sumRange_append]
  congr 1
  · simp [sumRange]
  · apply sumRange_congr
    intro i _
    rw [show 1 + es.length - 1 - (1 + i) = es.length - 1 - i by omega, Nat.add_comm 1 i]
    simp

theorem evalLoop_record (γ : ℚ) : ∀ (bound : Nat) (h : FinHorizon) (ep ep' : Episode) (s : Nat) (g g' : σ × List EvalEv),
    ep.states.getLast? = some s → evalLoop (recordModel mo) (recordPolicy pol) γ bound h ep g = (.ok ep', g') →
    ∃ (moves : List Ev) (evs : List EvalEv), g'.2 = g.2 ++ evs ∧ eventsOfAll mo moves evs ∧ Chained s moves ∧ moves.length ≤ bound ∧
      Within (finishedOrN mo.isFinal) h moves ∧ (finishedOrN mo.isFinal).isReached (horizonAfter (finishedOrN mo.isFinal) h moves) = true ∧
      ep'.states = ep.states ++ moves.map Ev.next ∧ ep'.actions = ep.actions ++ moves.map Ev.action ∧
      ep'.observations = ep.observations ++ moves.map Ev.obs ∧ ep'.rewards = ep.rewards ++ moves.map Ev.reward ∧
      ep'.ret = reverseReturn γ moves + γ ^ moves.length * ep.ret := by
  intro bound
  induction bound with
  | zero =>
      intro h ep ep' s g g' hs hl
      unfold evalLoop at hl
      split at hl
      · rename_i hr
        cases hl
        exact ⟨[], [], by simp, rfl, trivial, by simp, trivial, hr, by simp, by simp, by simp, by simp, by simp [reverseReturn, sumRange]⟩
      · cases hl
  | succ k ih =>
      intro h ep ep' s g g' hs hl
      unfold evalLoop at hl
      split at hl
      · rename_i hr
        cases hl
        exact ⟨[], [], by simp, rfl, trivial, by simp, trivial, hr, by simp, by simp, by simp, by simp, by simp [reverseReturn, sumRange]⟩
      · rename_i hr
        obtain ⟨s1, g1, h1, hl⟩ := M.bind_ok hl
        obtain ⟨e1, rfl⟩ := lift_ok h1
        unfold lastOf at e1
        rw [hs] at e1
        cases e1
        obtain ⟨y, g2, h2, hl⟩ := M.bind_ok hl
        obtain ⟨evs, e2, e3⟩ := evalStep_record h2
        obtain ⟨moves, evs', i1, i2, i3, i4, i5, i6, i7, i8, i9, i10, i11⟩ := ih _ _ _ y.2.1 _ _ (by simp [Episode.add]) hl
        refine ⟨⟨y.1, s, y.2.1, y.2.2.1, y.2.2.2⟩ :: moves, evs ++ evs', by rw [i1, e2]; simp, ⟨_, _, rfl, e3, i2⟩, ⟨rfl, i3⟩,
          by simp; omega, ⟨by have hr' : ¬(finishedOrN mo.isFinal).isReached h = true := hr; simpa using hr', i5⟩, i6, ?_, ?_, ?_, ?_, ?_⟩
        · rw [i7]; simp [Episode.add]
        · rw [i8]; simp [Episode.add]
        · rw [i9]; simp [Episode.add]
        · rw [i10]; simp [Episode.add]
        · rw [i11, reverseReturn_cons]
          simp only [Episode.add, List.length_cons, pow_succ]
          ring

theorem within_finished (isFinal : Nat → Bool) : ∀ (moves : List Ev) (h : FinHorizon), Within (finishedOrN isFinal) h moves →
    (moves = [] ∨ h.final = false) ∧ (moves.length : Int) ≤ max 0 h.n ∧
    (∀ t e, t + 1 < moves.length → moves[t]? = some e → isFinal e.next = false) ∧
    horizonAfter (finishedOrN isFinal) h moves =
      ⟨h.n - moves.length, match moves.getLast? with | some e => isFinal e.next | none => h.final⟩ := by
  intro moves
  induction moves with
  | nil => intro h _; refine ⟨.inl rfl, by simp, by simp, by simp [horizonAfter]⟩
  | cons e es ih =>
      intro h hw
      obtain ⟨h1, h2⟩ := hw
      obtain ⟨i1, i2, i3, i4⟩ := ih _ h2
      simp only [finishedOrN, Bool.or_eq_false_iff, decide_eq_false_iff_not, not_le] at h1
      refine ⟨.inr h1.2, ?_, ?_, ?_⟩
      · simp only [finishedOrN] at i2
        rw [List.length_cons]
        push_cast
        omega
      · intro t x ht hx
        cases t with
        | zero =>
            simp only [List.getElem?_cons_zero, Option.some.injEq] at hx
            subst hx
            rcases i1 with rfl | i1
            · simp at ht
            · exact i1
        | succ t =>
            rw [List.getElem?_cons_succ] at hx
            exact i3 t x (by simpa using ht) hx
      · have : horizonAfter (finishedOrN isFinal) h (e :: es) =
            horizonAfter (finishedOrN isFinal) ((finishedOrN isFinal).decrement e.action e.state e.next e.obs h) es := rfl
        rw [this, i4]
        simp only [finishedOrN, List.length_cons, FinHorizon.mk.injEq]
        constructor
        · push_cast; ring
        · cases es with
          | nil => simp
          | cons x xs => rw [List.getLast?_cons_cons]; simp [List.getLast?_cons]

/-- **C60 (record).**  An evaluation that returns resets the policy, samples a start state and then makes transitions that follow
each other, with the actions returned by the policy, which is given the observations; there are at most `max_horizon` of them; only
the last one may reach a final state; and there are exactly `max_horizon` of them unless the last one does.  The record consists of
the states, the actions, the observations and the rewards of these transitions, and the return is the sum of the rewards with the
powers of the discount in the reverse order. -/
theorem C60_record (maxHorizon : Int) (discount : Bool) (bound : Nat) (g : σ) (ep : Episode) (g' : σ × List EvalEv)
    (h : simulateOneEvaluation (recordModel mo) (recordPolicy pol) maxHorizon discount bound (g, []) = (.ok ep, g')) :
    ∃ (s : Nat) (moves : List Ev) (evs : List EvalEv), g'.2 = [.reset, .start s] ++ evs ∧ eventsOfAll mo moves evs ∧ Chained s moves ∧
      ep.states = s :: moves.map Ev.next ∧ ep.actions = moves.map Ev.action ∧ ep.observations = moves.map Ev.obs ∧
      ep.rewards = moves.map Ev.reward ∧ moves.length ≤ maxHorizon.toNat ∧
      (∀ t e, t + 1 < moves.length → moves[t]? = some e → mo.isFinal e.next = false) ∧
      (moves.length = maxHorizon.toNat ∨ ∃ e, moves.getLast? = some e ∧ mo.isFinal e.next = true) ∧
      ep.ret = sumRange moves.length fun t => (if discount then mo.discount else 1) ^ (moves.length - 1 - t) * ep.rewards.getD t 0 := by
  unfold simulateOneEvaluation at h
  obtain ⟨i, g0, h0, h⟩ := M.bind_ok h
  cases h0
  obtain ⟨_, g1, h1, h⟩ := M.bind_ok h
  obtain ⟨s, g2, h2, h⟩ := M.bind_ok h
  obtain ⟨ep1, g3, h3, h⟩ := M.bind_ok h
  obtain ⟨n, g4, h4, h⟩ := M.bind_ok h
  cases h4
  cases h
  obtain ⟨e1, _⟩ := recording_ok h1
  obtain ⟨e2, _⟩ := recording_ok h2
  obtain ⟨moves, evs, i1, i2, i3, i4, i5, i6, i7, i8, i9, i10, i11⟩ := evalLoop_record _ _ _ _ _ s _ _ rfl h3
  obtain ⟨w1, w2, w3, w4⟩ := within_finished mo.isFinal moves _ i5
  refine ⟨s, moves, evs, by rw [i1, e2, e1]; simp, i2, i3, by simpa using i7, by simpa using i8, by simpa using i9, by simpa using i10, ?_, w3, ?_, ?_⟩
  · simp only at w2; omega
  · rw [w4] at i6
    simp only [finishedOrN, Bool.or_eq_true, decide_eq_true_eq] at i6
    rcases i6 with i6 | i6
    · left; simp only at w2; omega
    · right
      split at i6
      · rename_i e he; exact ⟨e, he, i6⟩
      · cases i6
  · have hret : ep1.ret = reverseReturn (if discount then mo.discount else 1) moves := by
      have := i11
      simp only [mul_zero, add_zero] at this
      exact this
    have hrew : ep1.rewards = moves.map Ev.reward := by simpa using i10
    show ep1.ret = sumRange moves.length fun t => _ * ep1.rewards.getD t 0
    rw [hret, hrew]
    rfl

theorem recording_proj {α : Type} (f : α → EvalEv) (m : M σ α) : M.Proj (fun g : σ × List EvalEv => g.1) (recording f m) m := by
  intro g
  unfold recording
  rcases m g.1 with ⟨r, g1⟩
  cases r <;> rfl

theorem evalLoop_proj (γ : ℚ) : ∀ (bound : Nat) (h : FinHorizon) (ep : Episode),
    M.Proj (fun g : σ × List EvalEv => g.1) (evalLoop (recordModel mo) (recordPolicy pol) γ bound h ep) (evalLoop mo pol γ bound h ep) := by
  intro bound
  induction bound with
  | zero =>
      intro h ep
      unfold evalLoop
      exact M.proj_ite (M.proj_pure _) (M.proj_raise _)
  | succ k ih =>
      intro h ep
      unfold evalLoop
      refine M.proj_ite (M.proj_pure _) ?_
      refine M.proj_bind (M.proj_lift _) fun s => ?_
      refine M.proj_bind ?_ fun y => ih _ _
      unfold evalStep
      refine M.proj_bind (recording_proj _ _) fun name => ?_
      refine M.proj_bind (M.proj_lift _) fun a => ?_
      refine M.proj_bind (recording_proj _ _) fun x => ?_
      refine M.proj_bind (M.proj_lift _) fun o => ?_
      exact M.proj_bind (recording_proj _ _) fun _ => M.proj_pure _

/-- The events of `C60_record` are those of the evaluation: recording them changes nothing. -/
theorem C60_record_harmless (maxHorizon : Int) (discount : Bool) (bound : Nat) (g : σ) (log : List EvalEv) :
    simulateOneEvaluation mo pol maxHorizon discount bound g =
      ((simulateOneEvaluation (recordModel mo) (recordPolicy pol) maxHorizon discount bound (g, log)).1,
        (simulateOneEvaluation (recordModel mo) (recordPolicy pol) maxHorizon discount bound (g, log)).2.1) := by
  have : M.Proj (fun g : σ × List EvalEv => g.1) (simulateOneEvaluation (recordModel mo) (recordPolicy pol) maxHorizon discount bound)
      (simulateOneEvaluation mo pol maxHorizon discount bound) := by
    unfold simulateOneEvaluation
    refine M.proj_bind (M.proj_read _ _ fun _ => rfl) fun i => ?_
    refine M.proj_bind (recording_proj _ _) fun _ => ?_
    refine M.proj_bind (recording_proj _ _) fun s => ?_
    refine M.proj_bind (evalLoop_proj _ _ _ _) fun ep => ?_
    exact M.proj_bind (M.proj_read _ _ fun _ => rfl) fun _ => M.proj_pure _
  exact this (g, log)

/-- The number of calls is that of the calls of the simulator during the evaluation. -/
theorem C60_calls (maxHorizon : Int) (discount : Bool) (bound : Nat) (g g' : σ) (ep : Episode)
    (h : simulateOneEvaluation mo pol maxHorizon discount bound g = (.ok ep, g')) : ep.calls = mo.calls g' - mo.calls g := by
  unfold simulateOneEvaluation at h
  obtain ⟨i, g0, h0, h⟩ := M.bind_ok h
  cases h0
  obtain ⟨_, g1, h1, h⟩ := M.bind_ok h
  obtain ⟨s, g2, h2, h⟩ := M.bind_ok h
  obtain ⟨ep1, g3, h3, h⟩ := M.bind_ok h
  obtain ⟨n, g4, h4, h⟩ := M.bind_ok h
  cases h4
  cases h
  rfl

/-- Without discount the return is the sum of the rewards. -/
theorem C60_undiscounted_partial (maxHorizon : Int) (discount : Bool) (bound : Nat) (g g' : σ) (ep : Episode)
    (hd : discount = false ∨ mo.discount = 1)
    (h : simulateOneEvaluation mo pol maxHorizon discount bound g = (.ok ep, g')) : ep.ret = ep.rewards.sum := by
  rw [C60_record_harmless maxHorizon discount bound g []] at h
  rcases hr : simulateOneEvaluation (recordModel mo) (recordPolicy pol) maxHorizon discount bound (g, []) with ⟨r, g2⟩
  rw [hr] at h
  simp only [Prod.mk.injEq] at h
  obtain ⟨rfl, _⟩ := h
  obtain ⟨s, moves, evs, _, _, _, _, _, _, h4, _, _, _, h5⟩ := C60_record _ _ _ _ _ _ hr
  have hg : (if discount then mo.discount else 1) = 1 := by rcases hd with rfl | hd <;> simp [*]
  rw [h5, hg, sum_eq_sumRange, h4, List.length_map]
  apply sumRange_congr
  intro i _
  simp

/-- The loop ends: with enough iterations, it is never cut off, if the model and the policy return or raise. -/
theorem C60_ends (maxHorizon : Int) (discount : Bool) (bound : Nat) (hb : maxHorizon.toNat ≤ bound)
    (h1 : ∀ g, (pol.reset g).1 ≠ .error .unfinished) (h2 : ∀ g, (mo.sampleStart g).1 ≠ .error .unfinished)
    (h3 : ∀ g, (pol.getAction g).1 ≠ .error .unfinished) (h4 : ∀ a s g, (mo.sampleTransition a s g).1 ≠ .error .unfinished)
    (h5 : ∀ o g, (pol.step o g).1 ≠ .error .unfinished) (g : σ) :
    (simulateOneEvaluation mo pol maxHorizon discount bound g).1 ≠ .error .unfinished := by
  have hstep : ∀ s g, (evalStep mo pol s g).1 ≠ .error .unfinished := by
    intro s g hc
    rcases hr : evalStep mo pol s g with ⟨r, g'⟩
    rw [hr] at hc
    simp only at hc
    subst hc
    unfold evalStep at hr
    rcases M.bind_error hr with hr | ⟨name, g1, _, hr⟩
    · exact h3 g (by rw [hr])
    rcases M.bind_error hr with hr | ⟨a, g2, _, hr⟩
    · unfold M.lift indexOfName at hr; split at hr <;> cases hr
    rcases M.bind_error hr with hr | ⟨x, g3, _, hr⟩
    · exact h4 a s g2 (by rw [hr])
    rcases M.bind_error hr with hr | ⟨o, g4, _, hr⟩
    · unfold M.lift nameAt at hr; split at hr <;> cases hr
    rcases M.bind_error hr with hr | ⟨_, g5, _, hr⟩
    · exact h5 o g4 (by rw [hr])
    · cases hr
  have hloop : ∀ (bound : Nat) (h : FinHorizon) (ep : Episode) (g : σ), h.n.toNat ≤ bound →
      (evalLoop mo pol (if discount then mo.discount else 1) bound h ep g).1 ≠ .error .unfinished := by
    intro bound
    induction bound with
    | zero =>
        intro h ep g hn
        unfold evalLoop
        rw [if_pos (by simp only [finishedOrN, Bool.or_eq_true, decide_eq_true_eq]; left; omega)]
        intro hc; cases hc
    | succ k ih =>
        intro h ep g hn hc
        unfold evalLoop at hc
        split at hc
        · cases hc
        · simp only at hc
          rcases hr : (M.lift (lastOf ep.states) >>= fun s => evalStep mo pol s >>= fun y =>
            evalLoop mo pol (if discount then mo.discount else 1) k ((finishedOrN mo.isFinal).decrement y.1 s y.2.1 y.2.2.1 h) (ep.add (if discount then mo.discount else 1) y)) g with ⟨r, g'⟩
          rw [hr] at hc
          simp only at hc
          subst hc
          rcases M.bind_error hr with hr | ⟨s, g1, _, hr⟩
          · unfold M.lift lastOf at hr; split at hr <;> cases hr
          rcases M.bind_error hr with hr | ⟨y, g2, _, hr⟩
          · exact hstep s g1 (by rw [hr])
          · refine ih _ _ g2 ?_ (by rw [hr])
            simp only [finishedOrN]
            omega
  intro hc
  rcases hr : simulateOneEvaluation mo pol maxHorizon discount bound g with ⟨r, g'⟩
  rw [hr] at hc
  simp only at hc
  subst hc
  unfold simulateOneEvaluation at hr
  rcases M.bind_error hr with hr | ⟨_, g1, _, hr⟩
  · cases hr
  rcases M.bind_error hr with hr | ⟨_, g2, _, hr⟩
  · exact h1 g1 (by rw [hr])
  rcases M.bind_error hr with hr | ⟨_, g3, _, hr⟩
  · exact h2 g2 (by rw [hr])
  rcases M.bind_error hr with hr | ⟨_, g4, _, hr⟩
  · exact hloop _ _ _ _ hb (by rw [hr])
  rcases M.bind_error hr with hr | ⟨_, g5, _, hr⟩
  · cases hr
  · cases hr

end

/-! ### A witness -/

/-- A model with the states 0, 1, 2..., in which the `k`-th transition has the reward `k`; the state 3 is final. -/
def countModel : EvalModel Nat where
  actions := [.str "a"]
  observations := [.str "o"]
  discount := 1 / 2
  isFinal s := decide (s = 3)
  calls g := g
  sampleStart := M.read fun _ => 0
  sampleTransition _ s := fun g => (.ok (s + 1, 0, (s : ℚ)), g + 1)

/-- The policy that always acts. -/
def countPolicy : EvalPolicy Nat where
  reset := pure ()
  getAction := pure (.str "a")
  step _ := pure ()

example : simulateOneEvaluation countModel countPolicy 5 true 5 0 = (.ok ⟨5 / 2, [0, 1, 2, 3], [0, 0, 0], [0, 0, 0], [0, 1, 2], 3⟩, 3) ∧
    (simulateOneEvaluation countModel countPolicy 2 false 2 0).1 = .ok ⟨1, [0, 1, 2], [0, 0], [0, 0], [0, 1], 2⟩ := by decide +kernel

/-- **C60 (false).**  The return is not the discounted sum of the rewards: in this episode the rewards are 0, 1 and 2, with discount
1/2. -/
theorem C60_false_return : ∃ (ep : Episode) (g : Nat), simulateOneEvaluation countModel countPolicy 5 true 5 0 = (.ok ep, g) ∧
    ep.rewards = [0, 1, 2] ∧ ep.ret ≠ sumRange 3 fun t => countModel.discount ^ t * ep.rewards.getD t 0 :=
  ⟨⟨5 / 2, [0, 1, 2, 3], [0, 0, 0], [0, 0, 0], [0, 1, 2], 3⟩, 3, by decide +kernel, rfl, by decide +kernel⟩

end Verif
