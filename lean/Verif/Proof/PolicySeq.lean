import Mathlib.Data.List.Basic
import Verif.Spec.PolicySeq

set_option linter.unusedSectionVars false
set_option linter.unusedSimpArgs false

namespace Verif

theorem seqMid_get (n i : Nat) :
    ((List.replicate n ["bring leg", "hold H"]).flatten)[i]? =
      if i < 2 * n then some (if i % 2 = 0 then "bring leg" else "hold H") else none := by
  induction n generalizing i with
  | zero => simp
  | succ n ih =>
      rw [List.replicate_succ, List.flatten_cons]
      match i with
      | 0 => simp
      | 1 => simp; omega
      | i + 2 =>
          have h : (["bring leg", "hold H"] ++ (List.replicate n ["bring leg", "hold H"]).flatten)[i + 2]? =
              ((List.replicate n ["bring leg", "hold H"]).flatten)[i]? := rfl
          rw [h, ih, show (i + 2) % 2 = i % 2 from Nat.add_mod_right i 2]
          by_cases hi : i < 2 * n
          · have h2 : i + 2 < 2 * (n + 1) := by omega
            simp only [hi, h2, if_true]
          · have h2 : ¬ i + 2 < 2 * (n + 1) := by omega
            simp only [hi, h2, if_false]

theorem seqMid_length (n : Nat) : ((List.replicate n ["bring leg", "hold H"]).flatten).length = 2 * n := by
  simp [List.length_flatten]; omega

theorem seqPlanAt_mid (n j : Nat) (h : j < 2 * n) :
    seqPlanAt n (j + 3) = if j % 2 = 0 then "bring leg" else "hold H" := by
  have h1 : (seqPlan n)[j + 3]? = ((List.replicate n ["bring leg", "hold H"]).flatten)[j]? := by
    unfold seqPlan
    rw [List.append_assoc]
    show ((List.replicate n ["bring leg", "hold H"]).flatten ++ _)[j]? = _
    rw [List.getElem?_append_left (by rw [seqMid_length]; exact h)]
  rw [seqPlanAt, h1, seqMid_get, if_pos h]
  rfl

theorem seqPlanAt_end (n j : Nat) :
    seqPlanAt n (3 + 2 * n + j) = (["clear screws", "clear screwdriver", "clear joints"][j]?).getD "wait" := by
  have hl : (["bring screws", "bring screwdriver", "bring joints"] ++
      (List.replicate n ["bring leg", "hold H"]).flatten).length = 3 + 2 * n := by
    rw [List.length_append, seqMid_length]; rfl
  have h1 : (seqPlan n)[3 + 2 * n + j]? = ["clear screws", "clear screwdriver", "clear joints"][j]? := by
    unfold seqPlan
    rw [List.getElem?_append_right (by omega), hl, show 3 + 2 * n + j - (3 + 2 * n) = j by omega]
  rw [seqPlanAt, h1]

/-- Positions in the plan. -/
theorem seqPos (n k : Nat) :
    (k = 0 ∧ seqPlanAt n k = "bring screws") ∨ (k = 1 ∧ seqPlanAt n k = "bring screwdriver") ∨
    (k = 2 ∧ seqPlanAt n k = "bring joints") ∨
    (3 ≤ k ∧ k < 3 + 2 * n ∧ (k - 3) % 2 = 0 ∧ seqPlanAt n k = "bring leg") ∨
    (3 ≤ k ∧ k < 3 + 2 * n ∧ (k - 3) % 2 = 1 ∧ seqPlanAt n k = "hold H") ∨
    (k = 3 + 2 * n ∧ seqPlanAt n k = "clear screws") ∨ (k = 3 + 2 * n + 1 ∧ seqPlanAt n k = "clear screwdriver") ∨
    (k = 3 + 2 * n + 2 ∧ seqPlanAt n k = "clear joints") ∨ (3 + 2 * n + 3 ≤ k ∧ seqPlanAt n k = "wait") := by
  by_cases h3 : k < 3
  · have : k = 0 ∨ k = 1 ∨ k = 2 := by omega
    rcases this with rfl | rfl | rfl
    · exact .inl ⟨rfl, rfl⟩
    · exact .inr (.inl ⟨rfl, rfl⟩)
    · exact .inr (.inr (.inl ⟨rfl, rfl⟩))
  · by_cases hm : k < 3 + 2 * n
    · obtain ⟨j, rfl⟩ : ∃ j, k = j + 3 := ⟨k - 3, by omega⟩
      have := seqPlanAt_mid n j (by omega)
      by_cases hj : j % 2 = 0
      · rw [if_pos hj] at this
        exact .inr (.inr (.inr (.inl ⟨by omega, by omega, by omega, this⟩)))
      · rw [if_neg hj] at this
        exact .inr (.inr (.inr (.inr (.inl ⟨by omega, by omega, by omega, this⟩))))
    · obtain ⟨j, rfl⟩ : ∃ j, k = 3 + 2 * n + j := ⟨k - (3 + 2 * n), by omega⟩
      have := seqPlanAt_end n j
      match j with
      | 0 => exact .inr (.inr (.inr (.inr (.inr (.inl ⟨rfl, this⟩)))))
      | 1 => exact .inr (.inr (.inr (.inr (.inr (.inr (.inl ⟨rfl, this⟩))))))
      | 2 => exact .inr (.inr (.inr (.inr (.inr (.inr (.inr (.inl ⟨rfl, this⟩)))))))
      | j + 3 => exact .inr (.inr (.inr (.inr (.inr (.inr (.inr (.inr ⟨by omega, this⟩)))))))

/-- The names that the policy looks up are there. -/
structure SeqOk (m : SeqModel) : Prop where
  names : ∀ a ∈ seqNames, a ∈ m.actions
  none : "none" ∈ m.observations

/-- The index of an action. -/
def SeqModel.ix (m : SeqModel) (a : String) : Nat := m.actions.idxOf a

theorem seqPlanAt_names (n k : Nat) : seqPlanAt n k ∈ seqNames := by
  rcases seqPos n k with h | h | h | h | h | h | h | h | h
  · rw [h.2]; decide
  · rw [h.2]; decide
  · rw [h.2]; decide
  · rw [h.2.2.2]; decide
  · rw [h.2.2.2]; decide
  · rw [h.2]; decide
  · rw [h.2]; decide
  · rw [h.2]; decide
  · rw [h.2]; decide

section
variable {m : SeqModel} (ok : SeqOk m)
include ok

theorem SeqOk.index {a : String} (h : a ∈ seqNames) : strIndex m.actions a = .ok (m.ix a) := by
  rw [strIndex, if_pos (ok.names a h)]; rfl

theorem SeqOk.inj {a b : String} (ha : a ∈ seqNames) : m.ix a = m.ix b ↔ a = b :=
  ⟨fun h => (List.idxOf_inj (ok.names a ha)).1 h, fun h => by rw [h]⟩

theorem SeqOk.at {a : String} (h : a ∈ seqNames) : strAt m.actions (m.ix a) = .ok a := by
  have h1 : m.actions[m.ix a]? = some a := List.getElem?_idxOf (ok.names a h)
  rw [strAt, h1]

theorem SeqOk.brings : m.aBrings = .ok [m.ix "bring screws", m.ix "bring screwdriver", m.ix "bring joints"] := by
  have h1 := ok.index (a := "bring screws") (by decide)
  have h2 := ok.index (a := "bring screwdriver") (by decide)
  have h3 := ok.index (a := "bring joints") (by decide)
  have e1 : m.aBring "screws" = _ := h1
  have e2 : m.aBring "screwdriver" = _ := h2
  have e3 : m.aBring "joints" = _ := h3
  simp only [SeqModel.aBrings, seqTools, List.mapM_cons, List.mapM_nil, e1, e2, e3]
  rfl

theorem SeqOk.cleans : m.aCleans = .ok [m.ix "clear screws", m.ix "clear screwdriver", m.ix "clear joints"] := by
  have h1 := ok.index (a := "clear screws") (by decide)
  have h2 := ok.index (a := "clear screwdriver") (by decide)
  have h3 := ok.index (a := "clear joints") (by decide)
  have e1 : m.aClean "screws" = _ := h1
  have e2 : m.aClean "screwdriver" = _ := h2
  have e3 : m.aClean "joints" = _ := h3
  simp only [SeqModel.aCleans, seqTools, List.mapM_cons, List.mapM_nil, e1, e2, e3]
  rfl

theorem SeqOk.leg : m.aBring "leg" = .ok (m.ix "bring leg") := ok.index (a := "bring leg") (by decide)

end

/-- The policy built on a model. -/
def seqPol (m : SeqModel) : SeqPolicy where
  model := m
  aWait := m.ix "wait"
  oNone := m.observations.idxOf "none"
  nTasks := m.nHtmStates - 2
  aNextList := [m.ix "hold H"]

/-- The state after `k` actions of the plan. -/
structure SeqInv (m : SeqModel) (n k : Nat) (s : SeqState) : Prop where
  bring : s.toBring = [m.ix "bring screws", m.ix "bring screwdriver", m.ix "bring joints"].drop k
  clean : s.toClean = [m.ix "clear screws", m.ix "clear screwdriver", m.ix "clear joints"].drop (k - (3 + 2 * n))
  done : s.nDone = min ((k - 3) / 2) n
  leg : s.needsLeg = !decide (3 ≤ k ∧ k < 3 + 2 * n ∧ (k - 3) % 2 = 1)

variable {m : SeqModel}

theorem seqReset_run (ok : SeqOk m) (n : Nat) (s : SeqState) :
    ∃ s', seqReset m s = (.ok (), s') ∧ SeqInv m n 0 s' ∧ s'.history = [] ∧ s'.lastAction = none := by
  refine ⟨{ history := [], toBring := [m.ix "bring screws", m.ix "bring screwdriver", m.ix "bring joints"], toClean := [m.ix "clear screws", m.ix "clear screwdriver", m.ix "clear joints"], needsLeg := true, lastAction := none, nDone := 0 }, ?_, ⟨?_, ?_, ?_, ?_⟩, rfl, rfl⟩
  · simp only [seqReset, ok.brings, ok.cleans]; rfl
  · rfl
  · simp
  · simp
  · simp

theorem mkSeqPolicy_ok (ok : SeqOk m) (n : Nat) :
    ∃ s, mkSeqPolicy m = .ok (seqPol m, s) ∧ SeqInv m n 0 s ∧ s.history = [] ∧ s.lastAction = none := by
  obtain ⟨s, h1, h2⟩ := seqReset_run ok n seqBlank
  refine ⟨s, ?_, h2⟩
  have hn : strIndex m.observations "none" = .ok (m.observations.idxOf "none") := by rw [strIndex, if_pos ok.none]
  simp only [mkSeqPolicy, ok.index (a := "wait") (by decide), ok.index (a := "hold H") (by decide), hn, h1]
  rfl

theorem seqChoice_run (ok : SeqOk m) {n k c : Nat} (hn : n = (m.nHtmStates - 2).toNat) {s : SeqState} (inv : SeqInv m n k s) :
    (seqPol m).choice c s = .ok (m.ix (seqPlanAt n k)) := by
  have hb := inv.bring
  have hc := inv.clean
  have hd := inv.done
  have hl := inv.leg
  have htasks : (seqPol m).nTasks = m.nHtmStates - 2 := rfl
  have hchoose : SupPomdp.choose [m.ix "hold H"] c = .ok (m.ix "hold H") := by
    simp [SupPomdp.choose, Nat.mod_one]
  rcases seqPos n k with ⟨rfl, h⟩ | ⟨rfl, h⟩ | ⟨rfl, h⟩ | ⟨h1, h2, h3, h⟩ | ⟨h1, h2, h3, h⟩ | ⟨h1, h⟩ | ⟨h1, h⟩ | ⟨h1, h⟩ | ⟨h1, h⟩
  · rw [h, SeqPolicy.choice, hb]; rfl
  · rw [h, SeqPolicy.choice, hb]; rfl
  · rw [h, SeqPolicy.choice, hb]; rfl
  · have e : s.toBring = [] := by rw [hb]; exact List.drop_eq_nil_of_le h1
    rw [h, SeqPolicy.choice, e]
    simp only
    rw [if_pos (by rw [htasks]; omega), if_pos (by rw [hl]; simp; omega)]
    exact ok.leg
  · have e : s.toBring = [] := by rw [hb]; exact List.drop_eq_nil_of_le h1
    rw [h, SeqPolicy.choice, e]
    simp only
    rw [if_pos (by rw [htasks]; omega), if_neg (by rw [hl]; simp; omega)]
    exact hchoose
  all_goals
    have e : s.toBring = [] := by rw [hb]; exact List.drop_eq_nil_of_le (by simp; omega)
    rw [h, SeqPolicy.choice, e]
    simp only
    rw [if_neg (by rw [htasks]; omega), hc]
  · rw [show k - (3 + 2 * n) = 0 by omega]; rfl
  · rw [show k - (3 + 2 * n) = 1 by omega]; rfl
  · rw [show k - (3 + 2 * n) = 2 by omega]; rfl
  · rw [List.drop_eq_nil_of_le (by simp; omega)]; rfl

theorem seqGetAction_run (ok : SeqOk m) {n k : Nat} (c : Nat) (hn : n = (m.nHtmStates - 2).toNat) {s : SeqState}
    (inv : SeqInv m n k s) :
    (seqPol m).getAction c s = (.ok (seqPlanAt n k), { s with lastAction := some (m.ix (seqPlanAt n k)) }) := by
  have h1 := seqChoice_run (c := c) ok hn inv
  have h2 := ok.at (seqPlanAt_names n k)
  simp only [SeqPolicy.getAction, M.bind_run, M.read, M.lift, M.modify, id, h1]
  rw [show (seqPol m).model.actions = m.actions from rfl, h2]

/-- What remains of `step` after the recording and the observation `fail`. -/
def seqMove (p : SeqPolicy) (a : Nat) (observation : String) : M SeqState Unit := do
    let bs ← M.lift p.model.aBrings
    if a ∈ bs then do
      let l ← M.read SeqState.toBring
      let l' ← M.lift (pyRemove l a)
      M.modify fun s => { s with toBring := l' }
    else p.afterTools a observation

theorem SeqInv.of_eq {n k : Nat} {s s' : SeqState} (inv : SeqInv m n k s) (h1 : s'.toBring = s.toBring)
    (h2 : s'.toClean = s.toClean) (h3 : s'.nDone = s.nDone) (h4 : s'.needsLeg = s.needsLeg) : SeqInv m n k s' :=
  ⟨by rw [h1, inv.bring], by rw [h2, inv.clean], by rw [h3, inv.done], by rw [h4, inv.leg]⟩

section
variable {p : SeqPolicy} {bs cs : List Nat} {leg a : Nat} {o : String} {s : SeqState}
  (hb : p.model.aBrings = .ok bs) (hc : p.model.aCleans = .ok cs) (hl : p.model.aBring "leg" = .ok leg)
include hb

theorem seqMove_bring (h1 : a ∈ bs) (h2 : a ∈ s.toBring) :
    seqMove p a o s = (.ok (), { s with toBring := s.toBring.erase a }) := by
  simp only [seqMove, hb, M.bind_run, M.lift, if_pos h1, M.read, pyRemove, if_pos h2, M.modify]

include hc

theorem seqMove_clean (h1 : a ∉ bs) (h2 : a ∈ cs) (h3 : a ∈ s.toClean) :
    seqMove p a o s = (.ok (), { s with toClean := s.toClean.erase a }) := by
  simp only [seqMove, hb, M.bind_run, M.lift, if_neg h1, SeqPolicy.afterTools, hc, if_pos h2, M.read, pyRemove, if_pos h3,
    M.modify]

include hl

theorem seqMove_leg (h1 : a ∉ bs) (h2 : a ∉ cs) (h3 : a = leg) :
    seqMove p a o s = (.ok (), { s with needsLeg := false }) := by
  simp only [seqMove, hb, M.bind_run, M.lift, if_neg h1, SeqPolicy.afterTools, hc, if_neg h2, hl, if_pos h3, M.modify]

theorem seqMove_next (h1 : a ∉ bs) (h2 : a ∉ cs) (h3 : a ≠ leg) (h4 : a ∈ p.aNextList ∧ o = "none") :
    seqMove p a o s = (.ok (), { s with nDone := s.nDone + 1, needsLeg := true }) := by
  simp only [seqMove, hb, M.bind_run, M.lift, if_neg h1, SeqPolicy.afterTools, hc, if_neg h2, hl, if_neg h3, if_pos h4, M.modify]

theorem seqMove_wait (h1 : a ∉ bs) (h2 : a ∉ cs) (h3 : a ≠ leg) (h4 : ¬ (a ∈ p.aNextList ∧ o = "none")) (h5 : a = p.aWait) :
    seqMove p a o s = (.ok (), s) := by
  simp only [seqMove, hb, M.bind_run, M.lift, if_neg h1, SeqPolicy.afterTools, hc, if_neg h2, hl, if_neg h3, if_neg h4,
    if_pos h5]
  rfl

theorem seqMove_bad (h1 : a ∉ bs) (h2 : a ∉ cs) (h3 : a ≠ leg) (h4 : ¬ (a ∈ p.aNextList ∧ o = "none")) (h5 : a ≠ p.aWait) :
    seqMove p a o s = (.error .unexpectedObservation, s) := by
  simp only [seqMove, hb, M.bind_run, M.lift, if_neg h1, SeqPolicy.afterTools, hc, if_neg h2, hl, if_neg h3, if_neg h4,
    if_neg h5]
  rfl

end

theorem seqMove_run (ok : SeqOk m) {n k : Nat} {s : SeqState} (inv : SeqInv m n k s) (o : String) :
    (o = "none" ∨ seqPlanAt n k ≠ "hold H" →
      ∃ s', seqMove (seqPol m) (m.ix (seqPlanAt n k)) o s = (.ok (), s') ∧ SeqInv m n (k + 1) s' ∧ s'.history = s.history) ∧
    (o ≠ "none" ∧ seqPlanAt n k = "hold H" →
      seqMove (seqPol m) (m.ix (seqPlanAt n k)) o s = (.error .unexpectedObservation, s)) := by
  have hb := inv.bring
  have hc := inv.clean
  have hd := inv.done
  have hl := inv.leg
  have e2 : (seqPol m).aNextList = [m.ix "hold H"] := rfl
  have e3 : (seqPol m).aWait = m.ix "wait" := rfl
  have inj : ∀ a b : String, a ∈ seqNames → (m.ix a = m.ix b ↔ a = b) := fun a b h => ok.inj h
  have hmem : ∀ (a : String) (l : List String), a ∈ seqNames → (m.ix a ∈ l.map m.ix ↔ a ∈ l) := by
    intro a l ha
    rw [List.mem_map]
    exact ⟨fun ⟨b, hb, h⟩ => by rw [((inj a b ha).1 h.symm)]; exact hb, fun h => ⟨a, h, rfl⟩⟩
  have hbr := hmem (seqPlanAt n k) ["bring screws", "bring screwdriver", "bring joints"] (seqPlanAt_names n k)
  have hcl := hmem (seqPlanAt n k) ["clear screws", "clear screwdriver", "clear joints"] (seqPlanAt_names n k)
  have hleg := inj (seqPlanAt n k) "bring leg" (seqPlanAt_names n k)
  have hhold := inj (seqPlanAt n k) "hold H" (seqPlanAt_names n k)
  have hwait := inj (seqPlanAt n k) "wait" (seqPlanAt_names n k)
  simp only [List.map_cons, List.map_nil] at hbr hcl
  have gb := ok.brings
  have gc := ok.cleans
  have gl := ok.leg
  rcases seqPos n k with ⟨h1, h⟩ | ⟨h1, h⟩ | ⟨h1, h⟩ | ⟨h1, h2, h3, h⟩ | ⟨h1, h2, h3, h⟩ | ⟨h1, h⟩ | ⟨h1, h⟩ | ⟨h1, h⟩ | ⟨h1, h⟩
  all_goals rw [h] at hbr hcl hleg hhold hwait
  all_goals rw [h]
  · refine ⟨fun _ => ⟨_, seqMove_bring gb (hbr.2 (by decide)) (by rw [hb, h1]; simp), ⟨?_, ?_, ?_, ?_⟩, rfl⟩,
      fun ho => absurd ho.2 (by decide)⟩
    · show s.toBring.erase _ = _
      rw [hb, h1]; simp
    · show s.toClean = _
      rw [hc]; congr 1; omega
    · show s.nDone = _
      rw [hd]; omega
    · show s.needsLeg = _
      rw [hl]; congr 1; rw [decide_eq_decide]; omega
  · refine ⟨fun _ => ⟨_, seqMove_bring gb (hbr.2 (by decide)) (by rw [hb, h1]; simp), ⟨?_, ?_, ?_, ?_⟩, rfl⟩,
      fun ho => absurd ho.2 (by decide)⟩
    · show s.toBring.erase _ = _
      rw [hb, h1]; simp
    · show s.toClean = _
      rw [hc]; congr 1; omega
    · show s.nDone = _
      rw [hd]; omega
    · show s.needsLeg = _
      rw [hl]; congr 1; rw [decide_eq_decide]; omega
  · refine ⟨fun _ => ⟨_, seqMove_bring gb (hbr.2 (by decide)) (by rw [hb, h1]; simp), ⟨?_, ?_, ?_, ?_⟩, rfl⟩,
      fun ho => absurd ho.2 (by decide)⟩
    · show s.toBring.erase _ = _
      rw [hb, h1]; simp
    · show s.toClean = _
      rw [hc]; congr 1; omega
    · show s.nDone = _
      rw [hd]; omega
    · show s.needsLeg = _
      rw [hl]; congr 1; rw [decide_eq_decide]; omega
  · refine ⟨fun _ => ⟨_, seqMove_leg gb gc gl (fun h => absurd (hbr.1 h) (by decide)) (fun h => absurd (hcl.1 h) (by decide)) rfl,
      ⟨?_, ?_, ?_, ?_⟩, rfl⟩, fun ho => absurd ho.2 (by decide)⟩
    · show s.toBring = _
      rw [hb, List.drop_eq_nil_of_le (by simp; omega), List.drop_eq_nil_of_le (by simp; omega)]
    · show s.toClean = _
      rw [hc]; congr 1; omega
    · show s.nDone = _
      rw [hd]; omega
    · show false = _
      rw [eq_comm, Bool.not_eq_false', decide_eq_true_eq]; omega
  · have nb : m.ix "hold H" ∉ _ := fun h => absurd (hbr.1 h) (by decide)
    have nc : m.ix "hold H" ∉ _ := fun h => absurd (hcl.1 h) (by decide)
    have nl : m.ix "hold H" ≠ _ := fun h => absurd (hleg.1 h) (by decide)
    refine ⟨fun ho => ⟨_, seqMove_next gb gc gl nb nc nl ⟨by rw [e2]; simp, ho.resolve_right (by simp)⟩,
      ⟨?_, ?_, ?_, ?_⟩, rfl⟩, fun ho => seqMove_bad gb gc gl nb nc nl (fun h => ho.1 h.2) ?_⟩
    · show s.toBring = _
      rw [hb, List.drop_eq_nil_of_le (by simp; omega), List.drop_eq_nil_of_le (by simp; omega)]
    · show s.toClean = _
      rw [hc]
      rcases Nat.lt_or_ge (k + 1) (3 + 2 * n) with h' | h'
      · congr 1; omega
      · congr 1; omega
    · show s.nDone + 1 = _
      rw [hd]; omega
    · show true = _
      rw [eq_comm, Bool.not_eq_true', decide_eq_false_iff_not]; omega
    · rw [e3]; exact fun h => absurd (hwait.1 h) (by decide)
  · refine ⟨fun _ => ⟨_, seqMove_clean gb gc (fun h => absurd (hbr.1 h) (by decide)) (hcl.2 (by decide)) (by rw [hc, h1]; simp),
      ⟨?_, ?_, ?_, ?_⟩, rfl⟩, fun ho => absurd ho.2 (by decide)⟩
    · show s.toBring = _
      rw [hb, List.drop_eq_nil_of_le (by simp; omega), List.drop_eq_nil_of_le (by simp; omega)]
    · show s.toClean.erase _ = _
      rw [hc, show k - (3 + 2 * n) = 0 by omega, show k + 1 - (3 + 2 * n) = 1 by omega]; simp
    · show s.nDone = _
      rw [hd]; omega
    · show s.needsLeg = _
      rw [hl]; congr 1; rw [decide_eq_decide]; omega
  · refine ⟨fun _ => ⟨_, seqMove_clean gb gc (fun h => absurd (hbr.1 h) (by decide)) (hcl.2 (by decide)) (by rw [hc, h1]; simp),
      ⟨?_, ?_, ?_, ?_⟩, rfl⟩, fun ho => absurd ho.2 (by decide)⟩
    · show s.toBring = _
      rw [hb, List.drop_eq_nil_of_le (by simp; omega), List.drop_eq_nil_of_le (by simp; omega)]
    · show s.toClean.erase _ = _
      rw [hc, show k - (3 + 2 * n) = 1 by omega, show k + 1 - (3 + 2 * n) = 2 by omega]; simp
    · show s.nDone = _
      rw [hd]; omega
    · show s.needsLeg = _
      rw [hl]; congr 1; rw [decide_eq_decide]; omega
  · refine ⟨fun _ => ⟨_, seqMove_clean gb gc (fun h => absurd (hbr.1 h) (by decide)) (hcl.2 (by decide)) (by rw [hc, h1]; simp),
      ⟨?_, ?_, ?_, ?_⟩, rfl⟩, fun ho => absurd ho.2 (by decide)⟩
    · show s.toBring = _
      rw [hb, List.drop_eq_nil_of_le (by simp; omega), List.drop_eq_nil_of_le (by simp; omega)]
    · show s.toClean.erase _ = _
      rw [hc, show k - (3 + 2 * n) = 2 by omega, show k + 1 - (3 + 2 * n) = 3 by omega]; simp
    · show s.nDone = _
      rw [hd]; omega
    · show s.needsLeg = _
      rw [hl]; congr 1; rw [decide_eq_decide]; omega
  · refine ⟨fun _ => ⟨_, seqMove_wait gb gc gl (fun h => absurd (hbr.1 h) (by decide)) (fun h => absurd (hcl.1 h) (by decide))
      (fun h => absurd (hleg.1 h) (by decide)) (fun h => absurd (hhold.1 (by rw [e2] at h; simpa using h.1)) (by decide)) rfl,
      ⟨?_, ?_, ?_, ?_⟩, rfl⟩, fun ho => absurd ho.2 (by decide)⟩
    · rw [hb, List.drop_eq_nil_of_le (by simp; omega), List.drop_eq_nil_of_le (by simp; omega)]
    · rw [hc, List.drop_eq_nil_of_le (by simp; omega), List.drop_eq_nil_of_le (by simp; omega)]
    · rw [hd]; omega
    · rw [hl]; congr 1; rw [decide_eq_decide]; omega

theorem seqFault_cases (m : SeqModel) (a o : String) :
    (o ∉ m.observations ∧ seqFault m a o = some .valueError) ∨
    (o ∈ m.observations ∧ o = "fail" ∧ seqFault m a o = none) ∨
    (o ∈ m.observations ∧ o ≠ "fail" ∧ (o = "none" ∨ o = "not-found") ∧ (o = "none" ∨ a ≠ "hold H") ∧ seqFault m a o = none) ∨
    (o ∈ m.observations ∧ o ≠ "fail" ∧ (o = "none" ∨ o = "not-found") ∧ (o ≠ "none" ∧ a = "hold H") ∧
      seqFault m a o = some .unexpectedObservation) ∨
    (o ∈ m.observations ∧ o ≠ "fail" ∧ ¬ (o = "none" ∨ o = "not-found") ∧ seqFault m a o = some .unexpectedObservation) := by
  unfold seqFault
  by_cases h1 : o ∈ m.observations
  · by_cases h2 : o = "fail"
    · simp [h1, h2]; subst h2; simp [h1]
    · by_cases h3 : o = "none"
      · subst h3; simp [h1]
      · by_cases h4 : o = "not-found"
        · subst h4; by_cases h5 : a = "hold H" <;> simp [h1, h5]
        · simp [h1, h2, h3, h4]
  · simp [h1]

/-- The result of `step` after `get_action`, and the state it leaves. -/
theorem seqStep_run (ok : SeqOk m) {n k : Nat} {s : SeqState} (inv : SeqInv m n k s)
    (hla : s.lastAction = some (m.ix (seqPlanAt n k))) (o : String) :
    ∃ s', (seqPol m).step o s = ((match seqFault m (seqPlanAt n k) o with | none => .ok () | some e => .error e), s') ∧
      SeqInv m n (if seqFault m (seqPlanAt n k) o = none ∧ o ≠ "fail" then k + 1 else k) s' ∧
      s'.history = (if o ∈ m.observations then s.history ++ [m.ix (seqPlanAt n k), m.observations.idxOf o] else s.history) := by
  have hat := ok.at (seqPlanAt_names n k)
  have e1 : (seqPol m).model = m := rfl
  rcases seqFault_cases m (seqPlanAt n k) o with ⟨h1, hf⟩ | ⟨h1, h2, hf⟩ | ⟨h1, h2, h3, h4, hf⟩ | ⟨h1, h2, h3, h4, hf⟩ |
    ⟨h1, h2, h3, hf⟩
  · refine ⟨s, ?_, ?_, ?_⟩
    · simp only [SeqPolicy.step, SeqPolicy.record, M.bind_run, M.read, hla, M.lift, e1, strIndex, if_neg h1, hf]
    · rw [hf]; simpa using inv
    · rw [if_neg h1]
  all_goals
    have hrec : (seqPol m).record o s = (.ok (m.ix (seqPlanAt n k)),
        { s with history := s.history ++ [m.ix (seqPlanAt n k), m.observations.idxOf o] }) := by
      simp only [SeqPolicy.record, M.bind_run, M.read, hla, M.lift, e1, strIndex, if_pos h1, M.modify]
      rfl
    have inv2 : SeqInv m n k { s with history := s.history ++ [m.ix (seqPlanAt n k), m.observations.idxOf o] } :=
      inv.of_eq rfl rfl rfl rfl
    simp only [SeqPolicy.step, M.bind_run, hrec, M.lift, e1, hat, hf, if_pos h1]
  · refine ⟨{ s with history := s.history ++ [m.ix (seqPlanAt n k), m.observations.idxOf o] }, ?_, ?_, rfl⟩
    rotate_left
    · simpa [h2] using inv2
    · simp only [if_pos h2]; rfl
  · obtain ⟨s', g1, g2, g3⟩ := (seqMove_run ok inv2 o).1 h4
    refine ⟨s', ?_, ?_, g3⟩
    · simp only [if_neg h2, if_pos h3]; exact g1
    · simpa [h2] using g2
  · refine ⟨{ s with history := s.history ++ [m.ix (seqPlanAt n k), m.observations.idxOf o] }, ?_, ?_, rfl⟩
    rotate_left
    · simpa using inv2
    · simp only [if_neg h2, if_pos h3]
      exact (seqMove_run ok inv2 o).2 h4
  · refine ⟨{ s with history := s.history ++ [m.ix (seqPlanAt n k), m.observations.idxOf o] }, ?_, ?_, rfl⟩
    rotate_left
    · simpa using inv2
    · simp only [if_neg h2, if_neg h3]; rfl

/-- A history of names as a history of indices. -/
def seqCode (m : SeqModel) (h : List (String × String)) : List Nat :=
  h.flatMap fun x => [m.actions.idxOf x.1, m.observations.idxOf x.2]

/-- One use of the policy. -/
theorem seqUse_run (ok : SeqOk m) {n k : Nat} (hn : n = (m.nHtmStates - 2).toNat) {s : SeqState} (inv : SeqInv m n k s)
    (u : SeqUse) :
    SeqInv m n (seqProgress m n k u) ((seqPol m).use u s).2 ∧
    ((seqPol m).use u s).1 = (match u with
      | .ask _ => .ok (some (seqPlanAt n k))
      | .turn _ o => (match seqFault m (seqPlanAt n k) o with | none => .ok (some (seqPlanAt n k)) | some e => .error e)
      | .reset => .ok none) ∧
    ((seqPol m).use u s).2.history = (match u with
      | .ask _ => s.history
      | .turn _ o => (if o ∈ m.observations then s.history ++ [m.ix (seqPlanAt n k), m.observations.idxOf o] else s.history)
      | .reset => []) := by
  cases u with
  | ask c =>
      have h := seqGetAction_run ok c hn inv
      simp only [SeqPolicy.use, M.bind_run, h, M.pure_run]
      exact ⟨inv.of_eq rfl rfl rfl rfl, trivial, trivial⟩
  | reset =>
      obtain ⟨s', h, h1, h2, -⟩ := seqReset_run ok n s
      have e1 : (seqPol m).model = m := rfl
      simp only [SeqPolicy.use, M.bind_run, e1, h, M.pure_run]
      exact ⟨h1, trivial, h2⟩
  | turn c o =>
      have h := seqGetAction_run ok c hn inv
      have inv2 : SeqInv m n k { s with lastAction := some (m.ix (seqPlanAt n k)) } := inv.of_eq rfl rfl rfl rfl
      obtain ⟨s', g1, g2, g3⟩ := seqStep_run ok inv2 rfl o
      simp only [SeqPolicy.use, M.bind_run, h, g1]
      refine ⟨?_, ?_, ?_⟩
      · unfold seqProgress
        cases hf : seqFault m (seqPlanAt n k) o <;> simpa [hf, M.pure_run] using g2
      · cases hf : seqFault m (seqPlanAt n k) o <;> rfl
      · cases hf : seqFault m (seqPlanAt n k) o <;> exact g3

/-- Any sequence of uses. -/
theorem seqAfter_run (ok : SeqOk m) {n : Nat} (hn : n = (m.nHtmStates - 2).toNat) (us : List SeqUse) :
    ∀ (k : Nat) (s : SeqState) (h : List (String × String)), SeqInv m n k s → s.history = seqCode m h →
      SeqInv m n (us.foldl (seqProgress m n) k) ((seqPol m).after us s) ∧
      ((seqPol m).after us s).history = seqCode m (seqHistory m n us k h) := by
  induction us with
  | nil => intro k s h inv hh; exact ⟨inv, hh⟩
  | cons u us ih =>
      intro k s h inv hh
      obtain ⟨h1, -, h3⟩ := seqUse_run ok hn inv u
      have e : (seqPol m).after (u :: us) s = (seqPol m).after us ((seqPol m).use u s).2 := rfl
      rw [e, List.foldl_cons]
      cases u with
      | ask c => exact ih _ _ h h1 (h3.trans hh)
      | reset => exact ih _ _ [] h1 h3
      | turn c o =>
          refine ih _ _ _ h1 ?_
          rw [h3]
          by_cases ho : o ∈ m.observations
          · simp only [if_pos ho, hh, seqCode, List.flatMap_append]; rfl
          · simp only [if_neg ho, hh]

end Verif
