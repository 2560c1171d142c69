import Verif.Proof.ClosedLoop

set_option linter.unusedSectionVars false
set_option linter.unusedSimpArgs false

/-!
# C74: the scripted policies evaluated on the supportive model
-/

namespace Verif
open Spec SupPomdp SupState

/-! ### Lengths of paths -/

theorem lin_noRen {t : Htm SupAction} {w : List String} (h : lin SupAction.ops orderRen (fun s => s) t w) :
    ∃ w', lin SupAction.ops noRen (fun s => s) t w' ∧ w.length = w'.length := by
  obtain ⟨w', h1, h2⟩ := lin_related SupAction.ops (fun _ _ => True) orderRen noRen (fun _ _ _ _ => trivial) t (fun s => s)
    (fun s => s) (fun _ => trivial) w h
  exact ⟨w', h1, h2.length_eq⟩

theorem tpath_length {t : Htm SupAction} {m : SupPomdp} (h : Constructed t m) {N : Nat} (hN : WordLength t N) {i : Nat}
    (hi : i ∈ m.init) {q : List Nat} (hq : TPath m i q) : q.length = N + 2 := by
  obtain ⟨hne, hb, par, uniq, limit, hu, hl, hm⟩ := h
  obtain ⟨_, _, d, hd, hn, hsu, _⟩ := mk_wf par uniq hu limit t hne hb hl m hm
  obtain ⟨init', d', h1, h2, _, _, h5, h6⟩ := C22_language SupAction.ops uniq hu (fun i a => ⟨_, rfl, rfl⟩) t hne hb limit hl
  rw [hd] at h1
  cases h1
  obtain ⟨p, w, e1, e2, e3, e4, e5⟩ := tpath_dag d hn hsu (fun i ss hss j hj => (h6 i ss hss j hj).2) hq (h5 _ hi)
  obtain ⟨w', g1, g2⟩ := lin_noRen ((h2 w).1 ⟨_, hi, e5⟩)
  have := hN w' g1
  have := e4.length_eq
  rw [e1, List.length_append]
  simp
  omega

/-- Every complete path from `h` has `c + 2` values, where `h` is not the final value. -/
def Remaining (m : SupPomdp) (h c : Nat) : Prop := h ≤ m.nodes.length ∧ ∀ q, TPath m h q → q.length = c + 2

theorem Remaining.clean {m : SupPomdp} {c : Nat} (hr : Remaining m m.htmClean c) : c = 0 := by
  have := hr.2 _ .clean
  simp at this
  omega

theorem Remaining.step {m : SupPomdp} {css : List (List (Nat × String))} (hw : m.WF css) {h c j : Nat} {ss : List Nat}
    (hr : Remaining m h c) (hlt : h < m.nodes.length) (hs : m.succs[h]? = some ss) (hj : j ∈ ss) :
    1 ≤ c ∧ Remaining m j (c - 1) := by
  have hb := (hw.succs_ok h ss hs).2 j hj
  have key : ∀ q, TPath m j q → q.length = c + 1 := by
    intro q hq
    have := hr.2 _ (.step h j ss q hlt hs hj hq)
    simp at this
    exact this
  obtain ⟨q, hq⟩ := exists_tpath hw _ j (Nat.le_refl _) (by unfold nHtmStates; omega)
  have h2 : 2 ≤ q.length := by
    cases hq with
    | final => unfold htmFinal at hb; omega
    | clean => simp
    | step _ _ _ q' _ _ _ hq' =>
        obtain ⟨q'', rfl⟩ := tpath_head hq'
        simp
  have := key q hq
  refine ⟨by omega, hb.2, fun q hq => ?_⟩
  rw [key q hq]
  omega

/-! ### Invariants of the transitions -/

theorem completed_cons (o : Nat) (l : List Nat) : completed (o :: l) = (if o = 1 then 0 else 1) + completed l := by
  unfold completed
  by_cases h : o = 1
  · simp [h]
  · simp [h]; omega

theorem follows_inv {m : SupPomdp} {w : LoopDraws} {L : Nat} {nexts : List String} (I : Nat → Nat → Prop)
    (hI : ∀ k h h' o, I k h → h ≠ m.htmFinal → PlanStep m L k h h' o → I (if o = 1 then k else k + 1) h') :
    ∀ (moves : List Ev) (k s c : Nat), LoopFollows m w L nexts k s c moves → I k (htmOf m s) →
      I (k + completed (moves.map Ev.obs)) (htmOf m ((moves.map Ev.next).getLastD s)) := by
  intro moves
  induction moves with
  | nil => intro k s c _ h; simpa [completed] using h
  | cons e es ih =>
      intro k s c hf h
      obtain ⟨_, hnf, _, _, _, hp, hf'⟩ := hf
      have hne : htmOf m s ≠ m.htmFinal := by
        have hn : (m.toState s).nHtm = m.nodes.length + 2 := rfl
        simp only [SupPomdp.isFinal, SupState.isFinal, decide_eq_false_iff_not] at hnf
        rw [htmOf_eq]
        unfold htmFinal
        omega
      have := ih _ _ _ hf' (hI _ _ _ _ h hne hp)
      rw [List.map_cons, List.map_cons, completed_cons, List.getLastD_cons]
      by_cases ho : e.obs = 1
      · rw [if_pos ho] at this ⊢
        rw [Nat.zero_add]
        exact this
      · rw [if_neg ho] at this ⊢
        rw [show k + (1 + completed (es.map Ev.obs)) = k + 1 + completed (es.map Ev.obs) by omega]
        exact this

/-- The phases of the plan. -/
theorem plan_phase (L k : Nat) :
    (seqPlanAt L k = "hold H" ↔ 3 ≤ k ∧ k < 3 + 2 * L ∧ (k - 3) % 2 = 1) ∧ (seqPlanAt L k = "wait" ↔ 2 * L + 6 ≤ k) := by
  rcases seqPos L k with ⟨h1, h⟩ | ⟨h1, h⟩ | ⟨h1, h⟩ | ⟨h1, h2, h3, h⟩ | ⟨h1, h2, h3, h⟩ | ⟨h1, h⟩ | ⟨h1, h⟩ | ⟨h1, h⟩ | ⟨h1, h⟩
  all_goals
    rw [h]
    constructor
  all_goals
    constructor
    · intro hh
      first
        | omega
        | exact absurd hh (by decide)
    · intro hh
      first
        | rfl
        | omega

section
variable {t : Htm SupAction} {m : SupPomdp} {css : List (List (Nat × String))} (hw : m.WF css) {L N : Nat}
include hw

/-- The task is long enough: the policy and the task advance together. -/
theorem inv_finishes (hL : L ≤ N) (k h h' o : Nat)
    (hI : (k < L + N + 7 → Remaining m h (N - min ((k - 3) / 2) L - (k - (2 * L + 6)))) ∧
      (L + N + 7 ≤ k → h = m.htmFinal ∧ k = L + N + 7)) (hne : h ≠ m.htmFinal) (hs : PlanStep m L k h h' o) :
    ((if o = 1 then k else k + 1) < L + N + 7 →
      Remaining m h' (N - min (((if o = 1 then k else k + 1) - 3) / 2) L - ((if o = 1 then k else k + 1) - (2 * L + 6)))) ∧
    (L + N + 7 ≤ (if o = 1 then k else k + 1) → h' = m.htmFinal ∧ (if o = 1 then k else k + 1) = L + N + 7) := by
  obtain ⟨p1, p2⟩ := plan_phase L k
  have hk : k < L + N + 7 := by
    by_contra hcon
    exact hne (hI.2 (by omega)).1
  have hr := hI.1 hk
  rcases hs with ⟨a1, a2, rfl, _⟩ | ⟨a1, rfl, rfl, _⟩ | ⟨_, _, a3, _⟩ | ⟨a1, rfl, a3, ss, a4, a5⟩ | ⟨a1, rfl, a3, rfl⟩
  · have b1 := mt p1.2 a1
    have b2 := mt p2.2 a2
    by_cases ho : o = 1
    · rw [if_pos ho]
      exact ⟨fun _ => hr, fun h => by omega⟩
    · rw [if_neg ho]
      refine ⟨fun _ => ?_, fun h => by omega⟩
      have : N - min ((k + 1 - 3) / 2) L - (k + 1 - (2 * L + 6)) = N - min ((k - 3) / 2) L - (k - (2 * L + 6)) := by omega
      rw [this]
      exact hr
  · rw [if_pos rfl]
    exact ⟨fun _ => hr, fun h => by omega⟩
  · exact absurd a3 hne
  · rw [if_neg (by omega)]
    obtain ⟨c1, c2⟩ := hr.step hw a3 a4 a5
    rcases a1 with a1 | a1
    · have := p1.1 a1
      refine ⟨fun _ => ?_, fun h => by omega⟩
      have : N - min ((k + 1 - 3) / 2) L - (k + 1 - (2 * L + 6)) = N - min ((k - 3) / 2) L - (k - (2 * L + 6)) - 1 := by omega
      rw [this]
      exact c2
    · have := p2.1 a1
      refine ⟨fun _ => ?_, fun h => by omega⟩
      have : N - min ((k + 1 - 3) / 2) L - (k + 1 - (2 * L + 6)) = N - min ((k - 3) / 2) L - (k - (2 * L + 6)) - 1 := by omega
      rw [this]
      exact c2
  · rw [if_neg (by omega)]
    have := p2.1 a1
    rcases a3 with rfl | a3
    · have := hr.clean
      exact ⟨fun h => by omega, fun _ => ⟨rfl, by omega⟩⟩
    · exact absurd a3 hne

/-- The task is too short: it is never finished. -/
theorem inv_stuck (hL : N < L) (k h h' o : Nat)
    (hI : k ≤ 2 * N + 4 ∧ Remaining m h (N - min ((k - 3) / 2) L)) (hne : h ≠ m.htmFinal) (hs : PlanStep m L k h h' o) :
    (if o = 1 then k else k + 1) ≤ 2 * N + 4 ∧ Remaining m h' (N - min (((if o = 1 then k else k + 1) - 3) / 2) L) := by
  obtain ⟨p1, p2⟩ := plan_phase L k
  obtain ⟨hk, hr⟩ := hI
  rcases hs with ⟨a1, a2, rfl, _⟩ | ⟨a1, rfl, rfl, _⟩ | ⟨_, _, a3, _⟩ | ⟨a1, rfl, a3, ss, a4, a5⟩ | ⟨a1, rfl, a3, rfl⟩
  · have b1 := mt p1.2 a1
    by_cases ho : o = 1
    · rw [if_pos ho]
      exact ⟨hk, hr⟩
    · rw [if_neg ho]
      refine ⟨by omega, ?_⟩
      have : N - min ((k + 1 - 3) / 2) L = N - min ((k - 3) / 2) L := by omega
      rw [this]
      exact hr
  · rw [if_pos rfl]
    exact ⟨hk, hr⟩
  · exact absurd a3 hne
  · rw [if_neg (by omega)]
    obtain ⟨c1, c2⟩ := hr.step hw a3 a4 a5
    have a1 := a1.resolve_right (fun h => by have := p2.1 h; omega)
    have := p1.1 a1
    refine ⟨by omega, ?_⟩
    have : N - min ((k + 1 - 3) / 2) L = N - min ((k - 3) / 2) L - 1 := by omega
    rw [this]
    exact c2
  · have := p2.1 a1
    omega

end

/-! ### The policies of the experiment -/

theorem scripted_holdPol {m : SeqModel} (ok : SeqOk m) (hv : "hold V" ∈ m.actions) {x : SeqPolicy × SeqState} {L : Nat}
    {nexts : List String} (h : ScriptedPolicy m x L nexts) (hn : 2 ≤ m.nHtmStates) : HoldPol m x.1 L nexts := by
  have hH : "hold H" ∈ m.actions := ok.names _ (by decide)
  obtain ⟨s, e, -⟩ := mkSeqPolicy_ok ok 0
  rcases h with ⟨h1, h2, h3⟩ | ⟨h1, h2⟩
  · rw [e] at h1
    cases h1
    subst h3
    refine ⟨rfl, rfl, ?_, rfl, by simp, by simp [hH]⟩
    show m.nHtmStates - 2 = _
    omega
  · unfold mkAltPolicy at h1
    have e1 : strIndex m.actions ("hold " ++ "H") = .ok (m.ix "hold H") := by
      rw [show "hold " ++ "H" = "hold H" from rfl, strIndex, if_pos hH]; rfl
    have e2 : strIndex m.actions ("hold " ++ "V") = .ok (m.ix "hold V") := by
      rw [show "hold " ++ "V" = "hold V" from rfl, strIndex, if_pos hv]; rfl
    rw [e1, e2, e] at h1
    simp only [bind, Except.bind, pure, Except.pure, Except.ok.injEq] at h1
    subst h1
    subst h2
    exact ⟨rfl, rfl, rfl, rfl, by simp, by simp [hH, hv]⟩

section
variable {t : Htm SupAction} {m : SupPomdp} (h : Constructed t m) (tools : NeedsTools m)
  (hpr : m.par.pPreferences.length ≤ m.par.nPreferences) {x : SeqPolicy × SeqState} {L : Nat} {nexts : List String}
  (hx : ScriptedPolicy m.seqModel x L nexts) (discount : ℚ) (w : LoopDraws) (maxHorizon : Int) (disc : Bool) (bound : Nat)
  (hb : maxHorizon.toNat ≤ bound) (st : LoopState)
include h tools hpr hx hb

theorem scripted_run :
    ∃ ep st' s moves, simulateOneEvaluation (loopModel m discount w) (loopPolicy x.1 w) maxHorizon disc bound st = (.ok ep, st') ∧
      m.sampleStart w.start w.startPrefs w.startObjects = .ok s ∧ s < m.nStates ∧ htmOf m s ∈ m.init ∧
      ep.states = s :: moves.map Ev.next ∧ ep.actions = moves.map Ev.action ∧
      ep.observations = moves.map Ev.obs ∧ ep.rewards = moves.map Ev.reward ∧
      ep.ret = reverseReturn (if disc then discount else 1) moves ∧
      LoopFollows m w L nexts 0 s st.calls moves ∧ moves.length ≤ maxHorizon.toNat ∧
      (moves.length = maxHorizon.toNat ∨ m.isFinal ((moves.map Ev.next).getLastD s) = true) := by
  obtain ⟨h1, h2, h3⟩ := C62_supportive h tools.1 tools.2
  have ok : SeqOk m.seqModel := ⟨h1, h2⟩
  have hv : "hold V" ∈ m.seqModel.actions := by simp [seqModel, SupPomdp.actions]
  exact simulate_run h ok (scripted_holdPol ok hv hx (by simp [seqModel, nHtmStates])) discount w hpr maxHorizon disc bound hb st

/-- **C74 (no exception, plan).**  On every supportive model that has the tools and the legs, whatever the random numbers, an
evaluation of a scripted policy returns: no observation is unexpected.  The action of each transition is the one of the plan at the
number of actions that did not fail so far, where the place of `hold H` is taken by any of the actions to advance. -/
theorem C74_plan :
    ∃ ep st', simulateOneEvaluation (loopModel m discount w) (loopPolicy x.1 w) maxHorizon disc bound st = (.ok ep, st') ∧
      ep.actions.length = ep.observations.length ∧ ep.actions.length ≤ maxHorizon.toNat ∧
      ∀ (i a : Nat), ep.actions[i]? = some a → ∃ name, m.actions[a]? = some name ∧
        ((seqPlanAt L (completed (ep.observations.take i)) ≠ "hold H" ∧ name = seqPlanAt L (completed (ep.observations.take i))) ∨
         (seqPlanAt L (completed (ep.observations.take i)) = "hold H" ∧ name ∈ nexts)) := by
  obtain ⟨ep, st', s, moves, h1, h2, h3, h4, h5, h6, h7, h8, h9, h10, h11, h12⟩ := scripted_run h tools hpr hx discount w maxHorizon
    disc bound hb st
  refine ⟨ep, st', h1, by rw [h6, h7]; simp, by rw [h6]; simpa using h11, ?_⟩
  rw [h6, h7]
  have key : ∀ (moves : List Ev) (k s c i a : Nat), LoopFollows m w L nexts k s c moves → (moves.map Ev.action)[i]? = some a →
      ∃ name, m.actions[a]? = some name ∧ Planned L nexts (k + completed ((moves.map Ev.obs).take i)) name := by
    intro moves
    induction moves with
    | nil => intro k s c i a _ hi; simp at hi
    | cons e es ih =>
        intro k s c i a hf hi
        obtain ⟨_, _, ⟨name, g1, g2⟩, g3, _, _, hf'⟩ := hf
        cases i with
        | zero =>
            simp only [List.map_cons, List.getElem?_cons_zero, Option.some.injEq] at hi
            subst hi
            refine ⟨name, ?_, by simpa [completed] using g1⟩
            rw [g2]
            refine List.getElem?_idxOf ?_
            by_contra hcon
            have := List.idxOf_eq_length_iff.2 hcon
            have hlt := run_ok_action h g3
            rw [g2, this, (C27_names h).1] at hlt
            omega
        | succ i =>
            simp only [List.map_cons, List.getElem?_cons_succ] at hi
            obtain ⟨name', k1, k2⟩ := ih _ _ _ i a hf' hi
            refine ⟨name', k1, ?_⟩
            rw [List.map_cons, List.take_succ_cons, completed_cons]
            by_cases ho : e.obs = 1
            · rw [if_pos ho] at k2 ⊢
              rw [Nat.zero_add]
              exact k2
            · rw [if_neg ho] at k2 ⊢
              rw [← Nat.add_assoc]
              exact k2
  intro i a hi
  obtain ⟨name, g1, g2⟩ := key moves 0 s st.calls i a h10 hi
  rw [Nat.zero_add] at g2
  exact ⟨name, g1, g2⟩

/-- **C74 (the task is finished).**  If every way to perform the task has `N` leaves, and the policy performs `L ≤ N` subtasks, then an
evaluation ends in the final state exactly when `L + N + 7` actions did not fail, and otherwise it is stopped by the horizon: only
failures delay the policy.  (When `L < N` the human performs the last subtasks alone, while the policy waits.) -/
theorem C74_finishes {N : Nat} (hN : WordLength t N) (hL : L ≤ N) :
    ∃ ep st' s, simulateOneEvaluation (loopModel m discount w) (loopPolicy x.1 w) maxHorizon disc bound st = (.ok ep, st') ∧
      ep.states.getLast? = some s ∧
      (m.isFinal s = true ↔ completed ep.observations = L + N + 7) ∧ completed ep.observations ≤ L + N + 7 ∧
      (m.isFinal s = false → ep.actions.length = maxHorizon.toNat) := by
  obtain ⟨css, hw⟩ := constructed_wf h
  obtain ⟨ep, st', s, moves, h1, h2, h3, h4, h5, h6, h7, h8, h9, h10, h11, h12⟩ := scripted_run h tools hpr hx discount w maxHorizon
    disc bound hb st
  have hstart : (0 < L + N + 7 → Remaining m (htmOf m s) (N - min ((0 - 3) / 2) L - (0 - (2 * L + 6)))) ∧
      (L + N + 7 ≤ 0 → htmOf m s = m.htmFinal ∧ 0 = L + N + 7) := by
    refine ⟨fun _ => ⟨Nat.le_of_lt (hw.init_ok _ h4), fun q hq => ?_⟩, fun h => by omega⟩
    rw [tpath_length h hN h4 hq]
    omega
  have key := follows_inv (m := m) (L := L) (fun k h => (k < L + N + 7 → Remaining m h (N - min ((k - 3) / 2) L - (k - (2 * L + 6)))) ∧
      (L + N + 7 ≤ k → h = m.htmFinal ∧ k = L + N + 7)) (inv_finishes hw hL) moves 0 s st.calls h10 hstart
  simp only [Nat.zero_add] at key
  have hlast : ep.states.getLast? = some ((moves.map Ev.next).getLastD s) := by
    rw [h5, List.getLast?_cons]
    simp [List.getLastD_eq_getLast?]
  refine ⟨ep, st', _, h1, hlast, ?_, ?_, ?_⟩
  · have hf : m.isFinal ((moves.map Ev.next).getLastD s) = true ↔ htmOf m ((moves.map Ev.next).getLastD s) = m.htmFinal := by
      have hn : (m.toState ((moves.map Ev.next).getLastD s)).nHtm = m.nodes.length + 2 := rfl
      simp only [SupPomdp.isFinal, SupState.isFinal, decide_eq_true_eq]
      rw [htmOf_eq]
      unfold htmFinal
      omega
    rw [hf, h7]
    constructor
    · intro hfin
      by_contra hcon
      by_cases hlt : completed (moves.map Ev.obs) < L + N + 7
      · have := (key.1 hlt).1
        rw [hfin] at this
        unfold htmFinal at this
        omega
      · exact hcon (key.2 (by omega)).2
    · intro hc
      exact (key.2 (by omega)).1
  · rw [h7]
    by_contra hcon
    exact hcon (by rw [(key.2 (by omega)).2])
  · intro hnf
    rcases h12 with h12 | h12
    · rw [h6]; simpa using h12
    · rw [hnf] at h12; cases h12

/-- **C74 (the policy is stuck).**  If every way to perform the task has `N` leaves, and the policy performs `L > N` subtasks, then no
evaluation ends in the final state, whatever the horizon and the random numbers: at most `2 N + 4` actions succeed. -/
theorem C74_stuck {N : Nat} (hN : WordLength t N) (hL : N < L) :
    ∃ ep st' s, simulateOneEvaluation (loopModel m discount w) (loopPolicy x.1 w) maxHorizon disc bound st = (.ok ep, st') ∧
      ep.states.getLast? = some s ∧ m.isFinal s = false ∧ ep.actions.length = maxHorizon.toNat ∧
      completed ep.observations ≤ 2 * N + 4 := by
  obtain ⟨css, hw⟩ := constructed_wf h
  obtain ⟨ep, st', s, moves, h1, h2, h3, h4, h5, h6, h7, h8, h9, h10, h11, h12⟩ := scripted_run h tools hpr hx discount w maxHorizon
    disc bound hb st
  have hstart : 0 ≤ 2 * N + 4 ∧ Remaining m (htmOf m s) (N - min ((0 - 3) / 2) L) := by
    refine ⟨by omega, Nat.le_of_lt (hw.init_ok _ h4), fun q hq => ?_⟩
    rw [tpath_length h hN h4 hq]
    omega
  have key := follows_inv (m := m) (L := L) (fun k h => k ≤ 2 * N + 4 ∧ Remaining m h (N - min ((k - 3) / 2) L))
    (inv_stuck hw hL) moves 0 s st.calls h10 hstart
  simp only [Nat.zero_add] at key
  have hlast : ep.states.getLast? = some ((moves.map Ev.next).getLastD s) := by
    rw [h5, List.getLast?_cons]
    simp [List.getLastD_eq_getLast?]
  have hnf : m.isFinal ((moves.map Ev.next).getLastD s) = false := by
    have hn : (m.toState ((moves.map Ev.next).getLastD s)).nHtm = m.nodes.length + 2 := rfl
    have := key.2.1
    rw [htmOf_eq] at this
    simp only [SupPomdp.isFinal, SupState.isFinal, decide_eq_false_iff_not]
    omega
  refine ⟨ep, st', _, h1, hlast, hnf, ?_, by rw [h7]; exact key.1⟩
  rcases h12 with h12 | h12
  · rw [h6]; simpa using h12
  · rw [hnf] at h12; cases h12

end

/-! ### The tasks of the experiment -/

theorem cat_length : ∀ (Ls : List Lang) (n : Nat), (∀ L ∈ Ls, ∀ w, L w → w.length = n) → ∀ w, cat Ls w → w.length = Ls.length * n := by
  intro Ls
  induction Ls with
  | nil => intro n _ w h; simp only [cat] at h; simp [h]
  | cons L Ls ih =>
      intro n hL w h
      obtain ⟨u, v, rfl, h1, h2⟩ := h
      rw [List.length_append, hL L (by simp) u h1, ih n (fun L' h' => hL L' (List.mem_cons_of_mem _ h')) v h2, List.length_cons]
      ring

theorem seq_wordLength (cs : List (Htm SupAction)) (hcs : ∀ c ∈ cs, WordLength c 1) (i p : Option Int) (n : String) (h : Bool)
    (pr : Option (List ℚ)) : WordLength (.comb .sequential cs i p n h pr) cs.length := by
  intro w hw
  simp only [lin, linL_eq] at hw
  have := cat_length _ 1 (by
    intro L hL w h
    obtain ⟨c, hc, rfl⟩ := List.mem_map.1 hL
    exact hcs c hc w h) w hw
  simpa using this

theorem leaf_wordLength (a : SupAction) : WordLength (supLeaf a) 1 := by
  intro w hw
  simp only [supLeaf, lin] at hw
  simp [hw]

theorem choice_wordLength (seqs : List (List String)) {N : Nat} (hs : ∀ s ∈ seqs, s.length = N) : WordLength (taskChoice seqs) N := by
  intro w hw
  simp only [taskChoice, lin, linL_eq] at hw
  obtain ⟨L, hL, hw⟩ := hw
  simp only [List.map_map, List.mem_map, Function.comp] at hL
  obtain ⟨s, h1, rfl⟩ := hL
  have := seq_wordLength (s.map fun h => supLeaf (customHold h)) (by
    intro c hc
    obtain ⟨h, -, rfl⟩ := List.mem_map.1 hc
    exact leaf_wordLength _) none none "unnamed" false none w hw
  rw [this, List.length_map, hs s h1]

theorem long_wordLength (n : Nat) : WordLength (taskLongSequence n) n := by
  have := seq_wordLength ((List.range n).map fun i => supLeaf (assembleLeg ("leg-" ++ toString i))) (by
    intro c hc
    obtain ⟨h, -, rfl⟩ := List.mem_map.1 hc
    exact leaf_wordLength _) none none "unnamed" false none
  rwa [List.length_map, List.length_range] at this

theorem builtL_iff' {A : Type} (cs : List (Htm A)) : BuiltL cs ↔ ∀ c ∈ cs, Built c := by
  induction cs with
  | nil => simp [BuiltL]
  | cons c cs ih => simp [BuiltL, ih]

theorem leavesL_supLeaf (as : List SupAction) : leavesL (as.map supLeaf) = as := by
  induction as with
  | nil => rfl
  | cons a as ih => simp [leavesL, leaves, supLeaf, ih]

theorem leavesL_length (cs : List (Htm SupAction)) (n : Nat) (h : ∀ c ∈ cs, (leaves c).length = n) :
    (leavesL cs).length = n * cs.length := by
  induction cs with
  | nil => simp [leavesL]
  | cons c cs ih =>
      simp only [leavesL, List.length_append, List.length_cons]
      rw [h c (by simp), ih (fun c hc => h c (List.mem_cons_of_mem _ hc))]
      ring

theorem mem_leavesL (cs : List (Htm SupAction)) (a : SupAction) (h : a ∈ leavesL cs) : ∃ c ∈ cs, a ∈ leaves c := by
  induction cs with
  | nil => simp [leavesL] at h
  | cons c cs ih =>
      simp only [leavesL, List.mem_append] at h
      rcases h with h | h
      · exact ⟨c, by simp, h⟩
      · obtain ⟨c', h1, h2⟩ := ih h
        exact ⟨c', List.mem_cons_of_mem _ h1, h2⟩

/-- The conditions of `AssembleLeg`. -/
def legConds : List (Nat × String) := [(cUSES, "joints"), (cCONSUMES, "leg"), (cUSES, "screwdriver"), (cUSES, "screws")]

/-- A task all of whose leaves assemble a leg. -/
theorem legTask_model {t : Htm SupAction} (hne : NonEmpty t) (hb : Built t) (hp : NoParallel t)
    (hl : ∀ a ∈ leaves t, ∃ h, a.attrs = some (h, legConds)) (hpos : leaves t ≠ []) (par : SupParams) (uniq : List Nat → List Nat)
    (huniq : ∀ l x, x ∈ uniq l ↔ x ∈ l) (limit : Nat) (hlim : nesting t ≤ limit) :
    ∃ m, mkSupPomdp par uniq limit t = .ok m ∧ Constructed t m ∧ NeedsTools m ∧ m.nodes.length = (leaves t).length ∧ m.par = par := by
  obtain ⟨m, h1, h2⟩ := (C70_accepts t hne hb par uniq huniq limit hlim).1 ⟨hp, fun a ha => by
    obtain ⟨h, e⟩ := hl a ha; rw [e]; simp⟩
  have hlen : m.nodes.length = (leaves t).length := by
    have := congrArg List.length h2
    simpa using this
  have hpar : m.par = par := by
    unfold mkSupPomdp at h1
    simp only [bind, Except.bind, pure, Except.pure] at h1
    split at h1
    · cases h1
    · split at h1
      · cases h1
      · cases h1; rfl
  have hc : ∀ (c : Nat) (o : String), (c, o) ∈ legConds → HasCondition m c o := by
    intro c o hco
    have h0 : 0 < m.nodes.length := by
      rw [hlen]; exact List.length_pos_of_ne_nil hpos
    have hm : leafAct m.nodes[0] ∈ (leaves t).map some := by
      rw [← h2]; exact List.mem_map_of_mem (List.getElem_mem h0)
    obtain ⟨a, ha, e⟩ := List.mem_map.1 hm
    obtain ⟨h, e'⟩ := hl a ha
    rcases hn : m.nodes[0] with ⟨b, i, p, hh⟩ | ⟨k, cs, i, p, n, hh, pr⟩
    · rw [hn] at e
      simp only [leafAct, Option.some.injEq] at e
      subst e
      exact ⟨0, a, i, p, hh, h, _, by rw [List.getElem?_eq_getElem h0, hn], e', hco⟩
    · rw [hn] at e
      simp [leafAct] at e
  refine ⟨m, h1, ⟨hne, hb, par, uniq, limit, huniq, hlim, h1⟩, ⟨?_, cCONSUMES, hc _ _ (by simp [legConds])⟩, hlen, hpar⟩
  intro o ho
  simp only [List.mem_cons, List.not_mem_nil, or_false] at ho
  rcases ho with rfl | rfl | rfl
  · exact .inl (hc _ _ (by simp [legConds]))
  · exact .inl (hc _ _ (by simp [legConds]))
  · exact .inl (hc _ _ (by simp [legConds]))

theorem scripted_exist {t : Htm SupAction} {m : SupPomdp} (h : Constructed t m) (tools : NeedsTools m) (L : Nat) :
    (∃ x, mkSeqPolicy m.seqModel = .ok x ∧ ScriptedPolicy m.seqModel x m.nodes.length ["hold H"]) ∧
    (∃ x, mkAltPolicy m.seqModel L = .ok x ∧ ScriptedPolicy m.seqModel x L ["hold H", "hold V"]) := by
  obtain ⟨h1, h2, h3⟩ := C62_supportive h tools.1 tools.2
  have ok : SeqOk m.seqModel := ⟨h1, h2⟩
  have hH : "hold H" ∈ m.seqModel.actions := ok.names _ (by decide)
  have hv : "hold V" ∈ m.seqModel.actions := by simp [seqModel, SupPomdp.actions]
  obtain ⟨s, e, -⟩ := mkSeqPolicy_ok ok 0
  refine ⟨⟨_, e, .inl ⟨e, h3.symm, rfl⟩⟩, ?_⟩
  have e1 : strIndex m.seqModel.actions ("hold " ++ "H") = .ok (m.seqModel.ix "hold H") := by
    rw [show "hold " ++ "H" = "hold H" from rfl, strIndex, if_pos hH]; rfl
  have e2 : strIndex m.seqModel.actions ("hold " ++ "V") = .ok (m.seqModel.ix "hold V") := by
    rw [show "hold " ++ "V" = "hold V" from rfl, strIndex, if_pos hv]; rfl
  have e3 : ∃ x, mkAltPolicy m.seqModel L = .ok x := by
    unfold mkAltPolicy
    rw [e1, e2, e]
    exact ⟨_, rfl⟩
  obtain ⟨x, e3⟩ := e3
  exact ⟨x, e3, .inr ⟨e3, rfl⟩⟩

theorem choice_ok (seqs : List (List String)) {N : Nat} (hN : 1 ≤ N) (hne : seqs ≠ []) (hs : ∀ s ∈ seqs, s.length = N)
    (par : SupParams) (uniq : List Nat → List Nat) (huniq : ∀ l x, x ∈ uniq l ↔ x ∈ l) (limit : Nat) (hlim : 3 ≤ limit) :
    ∃ m, mkSupPomdp par uniq limit (taskChoice seqs) = .ok m ∧ Constructed (taskChoice seqs) m ∧ NeedsTools m ∧
      m.nodes.length = N * seqs.length ∧ m.par = par := by
  have hsne : ∀ s ∈ seqs, s ≠ [] := fun s h e => by have := hs s h; rw [e] at this; simp at this; omega
  have e0 : ∀ s : List String, (s.map fun h => supLeaf (customHold h)) = (s.map customHold).map supLeaf := fun s => by
    rw [List.map_map]; rfl
  have hlen : (leaves (taskChoice seqs)).length = N * seqs.length := by
    simp only [taskChoice, leaves]
    rw [leavesL_length _ N, List.length_map]
    intro c hc
    obtain ⟨s, h1, rfl⟩ := List.mem_map.1 hc
    simp only [taskSeq, leaves, e0, leavesL_supLeaf, List.length_map]
    exact hs s h1
  have hpos : 0 < seqs.length := List.length_pos_of_ne_nil hne
  suffices key : NonEmpty (taskChoice seqs) ∧ Built (taskChoice seqs) ∧ NoParallel (taskChoice seqs) ∧ (∀ a ∈ leaves (taskChoice seqs), ∃ h, a.attrs = some (h, legConds)) ∧
      leaves (taskChoice seqs) ≠ [] ∧ nesting (taskChoice seqs) ≤ limit by
    obtain ⟨k1, k2, k3, k4, k5, k6⟩ := key
    obtain ⟨m, h1, h2, h3, h4, h5⟩ := legTask_model k1 k2 k3 k4 k5 par uniq huniq limit k6
    exact ⟨m, h1, h2, h3, by rw [h4, hlen], h5⟩
  refine ⟨?_, ?_, ?_, ?_, ?_, ?_⟩
  · refine ⟨by simpa using hne, (nonEmptyL_iff _).2 fun c hc => ?_⟩
    obtain ⟨s, h1, rfl⟩ := List.mem_map.1 hc
    refine ⟨by simpa using hsne s h1, (nonEmptyL_iff _).2 fun c hc => ?_⟩
    obtain ⟨h, -, rfl⟩ := List.mem_map.1 hc
    simp [supLeaf, NonEmpty]
  · have hq : (0 : ℚ) < seqs.length := by exact_mod_cast hpos
    refine ⟨fun _ => ⟨by simpa using hne, _, rfl, ?_, ?_, ?_⟩, (builtL_iff' _).2 fun c hc => ?_⟩
    · simp [List.replicate_eq_nil_iff]; exact hne
    · intro p hp
      rw [List.eq_of_mem_replicate hp]
      refine ⟨by positivity, ?_⟩
      rw [div_le_one hq]
      exact_mod_cast hpos
    · rw [List.sum_replicate]
      have : seqs.length • (1 / (seqs.length : ℚ)) = 1 := by
        rw [nsmul_eq_mul]; field_simp
      rw [this]
      norm_num
    · obtain ⟨s, h1, rfl⟩ := List.mem_map.1 hc
      refine ⟨(by intro h; cases h), (builtL_iff' _).2 fun c hc => ?_⟩
      obtain ⟨h, -, rfl⟩ := List.mem_map.1 hc
      simp [supLeaf, Built]
  · refine ⟨by simp, (noParallelL_iff _).2 fun c hc => ?_⟩
    obtain ⟨s, h1, rfl⟩ := List.mem_map.1 hc
    refine ⟨by simp, (noParallelL_iff _).2 fun c hc => ?_⟩
    obtain ⟨h, -, rfl⟩ := List.mem_map.1 hc
    simp [supLeaf, NoParallel]
  · intro a ha
    simp only [taskChoice, leaves] at ha
    obtain ⟨c, hc, ha⟩ := mem_leavesL _ _ ha
    obtain ⟨s, h1, rfl⟩ := List.mem_map.1 hc
    simp only [taskSeq, leaves, e0, leavesL_supLeaf] at ha
    obtain ⟨h, -, rfl⟩ := List.mem_map.1 ha
    exact ⟨some h, rfl⟩
  · intro e
    rw [e] at hlen
    simp only [List.length_nil] at hlen
    have := Nat.mul_pos hN hpos
    omega
  · refine le_trans ?_ hlim
    have : nestingL (seqs.map taskSeq) ≤ 2 := by
      refine (nestingL_le _ _).2 fun c hc => ?_
      obtain ⟨s, h1, rfl⟩ := List.mem_map.1 hc
      have : nestingL (s.map fun h => supLeaf (customHold h)) ≤ 1 := by
        refine (nestingL_le _ _).2 fun c hc => ?_
        obtain ⟨h, -, rfl⟩ := List.mem_map.1 hc
        simp [supLeaf, nesting]
      simp only [taskSeq, nesting]
      omega
    simp only [taskChoice, nesting]
    omega

theorem long_ok {n : Nat} (hn : 1 ≤ n)
    (par : SupParams) (uniq : List Nat → List Nat) (huniq : ∀ l x, x ∈ uniq l ↔ x ∈ l) (limit : Nat) (hlim : 2 ≤ limit) :
    ∃ m, mkSupPomdp par uniq limit (taskLongSequence n) = .ok m ∧ Constructed (taskLongSequence n) m ∧ NeedsTools m ∧
      m.nodes.length = n ∧ m.par = par := by
  have e0 : ((List.range n).map fun i => supLeaf (assembleLeg ("leg-" ++ toString i))) =
      ((List.range n).map fun i => assembleLeg ("leg-" ++ toString i)).map supLeaf := by rw [List.map_map]; rfl
  have hlen : (leaves (taskLongSequence n)).length = n := by
    simp only [taskLongSequence, leaves, e0, leavesL_supLeaf, List.length_map, List.length_range]
  suffices key : NonEmpty (taskLongSequence n) ∧ Built (taskLongSequence n) ∧ NoParallel (taskLongSequence n) ∧ (∀ a ∈ leaves (taskLongSequence n), ∃ h, a.attrs = some (h, legConds)) ∧
      leaves (taskLongSequence n) ≠ [] ∧ nesting (taskLongSequence n) ≤ limit by
    obtain ⟨k1, k2, k3, k4, k5, k6⟩ := key
    obtain ⟨m, h1, h2, h3, h4, h5⟩ := legTask_model k1 k2 k3 k4 k5 par uniq huniq limit k6
    exact ⟨m, h1, h2, h3, by rw [h4, hlen], h5⟩
  refine ⟨?_, ?_, ?_, ?_, ?_, ?_⟩
  · refine ⟨by simp; omega, (nonEmptyL_iff _).2 fun c hc => ?_⟩
    obtain ⟨h, -, rfl⟩ := List.mem_map.1 hc
    simp [supLeaf, NonEmpty]
  · refine ⟨(by intro h; cases h), (builtL_iff' _).2 fun c hc => ?_⟩
    obtain ⟨h, -, rfl⟩ := List.mem_map.1 hc
    simp [supLeaf, Built]
  · refine ⟨by simp, (noParallelL_iff _).2 fun c hc => ?_⟩
    obtain ⟨h, -, rfl⟩ := List.mem_map.1 hc
    simp [supLeaf, NoParallel]
  · intro a ha
    simp only [taskLongSequence, leaves, e0, leavesL_supLeaf] at ha
    obtain ⟨h, -, rfl⟩ := List.mem_map.1 ha
    exact ⟨some "h", rfl⟩
  · intro e
    rw [e] at hlen
    simp only [List.length_nil] at hlen
    omega
  · refine le_trans ?_ hlim
    have : nestingL ((List.range n).map fun i => supLeaf (assembleLeg ("leg-" ++ toString i))) ≤ 1 := by
      refine (nestingL_le _ _).2 fun c hc => ?_
      obtain ⟨h, -, rfl⟩ := List.mem_map.1 hc
      simp [supLeaf, nesting]
    simp only [taskLongSequence, nesting]
    omega

/-- **C74 (choice of a sequence).**  The tasks `uniform` and `alternative` of the experiment: a choice among sequences of `N` leaves.
The policy `random` finishes an evaluation after exactly `2 N + 7` actions that do not fail, and otherwise reaches the horizon.  The
policy `repeat` never finishes when there are two sequences or more, because it takes the number of leaves of the whole task for the
number of subtasks to perform. -/
theorem C74_choice (seqs : List (List String)) {N : Nat} (hN : 1 ≤ N) (hne : seqs ≠ []) (hs : ∀ s ∈ seqs, s.length = N)
    (par : SupParams) (hpr : par.pPreferences.length ≤ par.nPreferences) (uniq : List Nat → List Nat)
    (huniq : ∀ l x, x ∈ uniq l ↔ x ∈ l) (limit : Nat) (hlim : 3 ≤ limit) :
    ∃ m x y, mkSupPomdp par uniq limit (taskChoice seqs) = .ok m ∧ mkAltPolicy m.seqModel N = .ok x ∧ mkSeqPolicy m.seqModel = .ok y ∧
      (∀ discount w (maxHorizon : Int) disc bound st, maxHorizon.toNat ≤ bound →
        ∃ ep st' s, simulateOneEvaluation (loopModel m discount w) (loopPolicy x.1 w) maxHorizon disc bound st = (.ok ep, st') ∧
          ep.states.getLast? = some s ∧ (m.isFinal s = true ↔ completed ep.observations = 2 * N + 7) ∧
          (m.isFinal s = false → ep.actions.length = maxHorizon.toNat)) ∧
      (2 ≤ seqs.length → ∀ discount w (maxHorizon : Int) disc bound st, maxHorizon.toNat ≤ bound →
        ∃ ep st' s, simulateOneEvaluation (loopModel m discount w) (loopPolicy y.1 w) maxHorizon disc bound st = (.ok ep, st') ∧
          ep.states.getLast? = some s ∧ m.isFinal s = false ∧ ep.actions.length = maxHorizon.toNat) := by
  obtain ⟨m, h1, h2, h3, h4, h5⟩ := choice_ok seqs hN hne hs par uniq huniq limit hlim
  obtain ⟨⟨y, hy, hy'⟩, ⟨x, hx, hx'⟩⟩ := scripted_exist h2 h3 N
  refine ⟨m, x, y, h1, hx, hy, ?_, ?_⟩
  · intro discount w maxHorizon disc bound st hb
    obtain ⟨ep, st', s, g1, g2, g3, -, g5⟩ := C74_finishes h2 h3 (by rw [h5]; exact hpr) hx' discount w maxHorizon disc bound hb st
      (choice_wordLength seqs hs) (Nat.le_refl _)
    exact ⟨ep, st', s, g1, g2, by rw [g3]; omega, g5⟩
  · intro h2' discount w maxHorizon disc bound st hb
    have hlt : N < m.nodes.length := by rw [h4]; nlinarith
    obtain ⟨ep, st', s, g1, g2, g3, g4, -⟩ := C74_stuck h2 h3 (by rw [h5]; exact hpr) hy' discount w maxHorizon disc bound hb st
      (choice_wordLength seqs hs) hlt
    exact ⟨ep, st', s, g1, g2, g3, g4⟩

/-- **C74 (a sequence).**  On the task `sequence` of the experiment with `n` legs, both policies finish an evaluation after exactly
`2 n + 7` actions that do not fail, and otherwise reach the horizon. -/
theorem C74_sequence {n : Nat} (hn : 1 ≤ n)
    (par : SupParams) (hpr : par.pPreferences.length ≤ par.nPreferences) (uniq : List Nat → List Nat)
    (huniq : ∀ l x, x ∈ uniq l ↔ x ∈ l) (limit : Nat) (hlim : 2 ≤ limit) :
    ∃ m x y, mkSupPomdp par uniq limit (taskLongSequence n) = .ok m ∧ mkAltPolicy m.seqModel n = .ok x ∧
      mkSeqPolicy m.seqModel = .ok y ∧
      ∀ p ∈ [x.1, y.1], ∀ discount w (maxHorizon : Int) disc bound st, maxHorizon.toNat ≤ bound →
        ∃ ep st' s, simulateOneEvaluation (loopModel m discount w) (loopPolicy p w) maxHorizon disc bound st = (.ok ep, st') ∧
          ep.states.getLast? = some s ∧ (m.isFinal s = true ↔ completed ep.observations = 2 * n + 7) ∧
          (m.isFinal s = false → ep.actions.length = maxHorizon.toNat) := by
  obtain ⟨m, h1, h2, h3, h4, h5⟩ := long_ok hn par uniq huniq limit hlim
  obtain ⟨⟨y, hy, hy'⟩, ⟨x, hx, hx'⟩⟩ := scripted_exist h2 h3 n
  refine ⟨m, x, y, h1, hx, hy, ?_⟩
  intro p hp discount w maxHorizon disc bound st hb
  rw [h4] at hy'
  simp only [List.mem_cons, List.not_mem_nil, or_false] at hp
  rcases hp with rfl | rfl
  · obtain ⟨ep, st', s, g1, g2, g3, -, g5⟩ := C74_finishes h2 h3 (by rw [h5]; exact hpr) hx' discount w maxHorizon disc bound hb st
      (long_wordLength n) (Nat.le_refl _)
    exact ⟨ep, st', s, g1, g2, by rw [g3]; omega, g5⟩
  · obtain ⟨ep, st', s, g1, g2, g3, -, g5⟩ := C74_finishes h2 h3 (by rw [h5]; exact hpr) hy' discount w maxHorizon disc bound hb st
      (long_wordLength n) (Nat.le_refl _)
    exact ⟨ep, st', s, g1, g2, by rw [g3]; omega, g5⟩

theorem holdWords_length (n : Nat) : ∀ w ∈ holdWords n, w.length = n := by
  induction n with
  | zero => simp [holdWords]
  | succ n ih =>
      intro w hw
      simp only [holdWords, List.mem_flatMap, List.mem_map] at hw
      obtain ⟨_, _, w', h, rfl⟩ := hw
      simp [ih w' h]

/-- The hypotheses of `C74_choice` hold for the two tasks of the experiment, which have 16 and 4 sequences of 4 leaves. -/
example : (∀ w ∈ holdWords 4, w.length = 4) ∧ (holdWords 4).length = 16 ∧ (∀ w ∈ alternativeWords, w.length = 4) ∧
    alternativeWords.length = 4 ∧ ({} : SupParams).pPreferences.length ≤ ({} : SupParams).nPreferences :=
  ⟨holdWords_length 4, by decide, by decide, by decide, by decide⟩

/-- The hypotheses of `C74_plan`, `C74_finishes` and `C74_stuck` hold for the task `alternative`. -/
example : ∃ m x y, Constructed (taskChoice alternativeWords) m ∧ NeedsTools m ∧ WordLength (taskChoice alternativeWords) 4 ∧
    m.par.pPreferences.length ≤ m.par.nPreferences ∧
    ScriptedPolicy m.seqModel x 16 ["hold H"] ∧ ScriptedPolicy m.seqModel y 4 ["hold H", "hold V"] := by
  obtain ⟨m, h1, h2, h3, h4, h5⟩ := choice_ok alternativeWords (N := 4) (by decide) (by decide) (by decide) {} (fun l => l)
    (fun _ _ => Iff.rfl) 3 (by decide)
  obtain ⟨⟨y, hy, hy'⟩, ⟨x, hx, hx'⟩⟩ := scripted_exist h2 h3 4
  refine ⟨m, y, x, h2, h3, choice_wordLength _ (by decide), by rw [h5]; decide, ?_, hx'⟩
  rw [h4] at hy'
  exact hy'

end Verif
