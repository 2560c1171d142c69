import Verif.Spec.ClosedLoop
import Verif.Proof.PolicySeq
import Verif.Props.Supportive
import Verif.Props.PolicySeq
import Verif.Props.Evaluation

set_option linter.unusedSectionVars false
set_option linter.unusedSimpArgs false

/-! Proofs about the evaluation of the scripted policies. -/

namespace Verif
open Spec SupPomdp SupState

/-! ### The policies -/

/-- A scripted policy: `L` subtasks, and the names of the actions to advance. -/
structure HoldPol (m : SeqModel) (p : SeqPolicy) (L : Nat) (nexts : List String) : Prop where
  model : p.model = m
  wait : p.aWait = m.ix "wait"
  tasks : p.nTasks = L
  next : p.aNextList = nexts.map m.ix
  ne : nexts ≠ []
  holds : ∀ a ∈ nexts, (a = "hold H" ∨ a = "hold V") ∧ a ∈ m.actions

/-- The action that is planned at position `k`. -/
def Planned (L : Nat) (nexts : List String) (k : Nat) (name : String) : Prop :=
  (seqPlanAt L k ≠ "hold H" ∧ name = seqPlanAt L k) ∨ (seqPlanAt L k = "hold H" ∧ name ∈ nexts)

section
variable {m : SeqModel} {p : SeqPolicy} {L : Nat} {nexts : List String}

theorem HoldPol.planned_mem (ok : SeqOk m) (hp : HoldPol m p L nexts) {k : Nat} {name : String} (h : Planned L nexts k name) :
    name ∈ m.actions := by
  rcases h with ⟨_, rfl⟩ | ⟨_, h⟩
  · exact ok.names _ (seqPlanAt_names L k)
  · exact (hp.holds _ h).2

theorem choose_map {l : List String} (hl : l ≠ []) (f : String → Nat) (c : Nat) :
    ∃ x ∈ l, SupPomdp.choose (l.map f) c = .ok (f x) := by
  obtain ⟨y, hy, h⟩ := choose_mem (l.map f) c (by simpa using hl)
  obtain ⟨x, hx, rfl⟩ := List.mem_map.1 hy
  exact ⟨x, hx, h⟩

theorem holdChoice_run (ok : SeqOk m) (hp : HoldPol m p L nexts) {k c : Nat} {s : SeqState} (inv : SeqInv m L k s) :
    ∃ name, Planned L nexts k name ∧ p.choice c s = .ok (m.ix name) := by
  have hb := inv.bring
  have hc := inv.clean
  have hd := inv.done
  have hl := inv.leg
  have htasks := hp.tasks
  rcases seqPos L k with ⟨rfl, h⟩ | ⟨rfl, h⟩ | ⟨rfl, h⟩ | ⟨h1, h2, h3, h⟩ | ⟨h1, h2, h3, h⟩ | ⟨h1, h⟩ | ⟨h1, h⟩ | ⟨h1, h⟩ | ⟨h1, h⟩
  · refine ⟨_, .inl ⟨?_, rfl⟩, ?_⟩
    · rw [h]; decide
    · rw [h, SeqPolicy.choice, hb]; rfl
  · refine ⟨_, .inl ⟨?_, rfl⟩, ?_⟩
    · rw [h]; decide
    · rw [h, SeqPolicy.choice, hb]; rfl
  · refine ⟨_, .inl ⟨?_, rfl⟩, ?_⟩
    · rw [h]; decide
    · rw [h, SeqPolicy.choice, hb]; rfl
  · refine ⟨_, .inl ⟨?_, rfl⟩, ?_⟩
    · rw [h]; decide
    · have e : s.toBring = [] := by rw [hb]; exact List.drop_eq_nil_of_le h1
      rw [h, SeqPolicy.choice, e]
      simp only
      rw [if_pos (by rw [htasks]; omega), if_pos (by rw [hl]; simp; omega), hp.model]
      exact ok.leg
  · have e : s.toBring = [] := by rw [hb]; exact List.drop_eq_nil_of_le h1
    obtain ⟨x, hx, hx2⟩ := choose_map hp.ne m.ix c
    refine ⟨x, .inr ⟨h, hx⟩, ?_⟩
    rw [SeqPolicy.choice, e]
    simp only
    rw [if_pos (by rw [htasks]; omega), if_neg (by rw [hl]; simp; omega), hp.next]
    exact hx2
  all_goals
    refine ⟨_, .inl ⟨?_, rfl⟩, ?_⟩
    · rw [h]; decide
    have e : s.toBring = [] := by rw [hb]; exact List.drop_eq_nil_of_le (by simp; omega)
    rw [h, SeqPolicy.choice, e]
    simp only
    rw [if_neg (by rw [htasks]; omega), hc]
  · rw [show k - (3 + 2 * L) = 0 by omega]; rfl
  · rw [show k - (3 + 2 * L) = 1 by omega]; rfl
  · rw [show k - (3 + 2 * L) = 2 by omega]; rfl
  · rw [List.drop_eq_nil_of_le (by simp; omega), hp.wait]

theorem strAt_ix {name : String} (h : name ∈ m.actions) : strAt m.actions (m.ix name) = .ok name := by
  have h1 : m.actions[m.ix name]? = some name := List.getElem?_idxOf h
  rw [strAt, h1]

theorem holdGetAction_run (ok : SeqOk m) (hp : HoldPol m p L nexts) {k : Nat} (c : Nat) {s : SeqState} (inv : SeqInv m L k s) :
    ∃ name, Planned L nexts k name ∧ p.getAction c s = (.ok name, { s with lastAction := some (m.ix name) }) := by
  obtain ⟨name, h0, h1⟩ := holdChoice_run (c := c) ok hp inv
  have h2 := strAt_ix (hp.planned_mem ok h0)
  refine ⟨name, h0, ?_⟩
  simp only [SeqPolicy.getAction, M.bind_run, M.read, M.lift, M.modify, id, h1]
  rw [hp.model, h2]

theorem holdMove_run (ok : SeqOk m) (hp : HoldPol m p L nexts) {k : Nat} {s : SeqState} (inv : SeqInv m L k s) {name : String}
    (hn : Planned L nexts k name) (o : String) (ho : o = "none" ∨ seqPlanAt L k ≠ "hold H") :
    ∃ s', seqMove p (m.ix name) o s = (.ok (), s') ∧ SeqInv m L (k + 1) s' := by
  obtain rfl := hp.model
  have hb := inv.bring
  have hc := inv.clean
  have hd := inv.done
  have hl := inv.leg
  have inj : ∀ a b : String, a ∈ p.model.actions → (p.model.ix a = p.model.ix b ↔ a = b) := fun a b h =>
    ⟨fun e => (List.idxOf_inj h).1 e, fun e => by rw [e]⟩
  have hmem : ∀ (a : String) (l : List String), a ∈ p.model.actions → (p.model.ix a ∈ l.map p.model.ix ↔ a ∈ l) := by
    intro a l ha
    rw [List.mem_map]
    exact ⟨fun ⟨b, hb, h⟩ => by rw [((inj a b ha).1 h.symm)]; exact hb, fun h => ⟨a, h, rfl⟩⟩
  have hin := hp.planned_mem ok hn
  have hbr := hmem name ["bring screws", "bring screwdriver", "bring joints"] hin
  have hcl := hmem name ["clear screws", "clear screwdriver", "clear joints"] hin
  have hleg := inj name "bring leg" hin
  have hnx := hmem name nexts hin
  have hwait := inj name "wait" hin
  simp only [List.map_cons, List.map_nil] at hbr hcl
  have gb := ok.brings
  have gc := ok.cleans
  have gl := ok.leg
  by_cases hh : seqPlanAt L k = "hold H"
  · obtain ⟨h1, h2, h3⟩ : 3 ≤ k ∧ k < 3 + 2 * L ∧ (k - 3) % 2 = 1 := by
      rcases seqPos L k with ⟨_, h⟩ | ⟨_, h⟩ | ⟨_, h⟩ | ⟨h1, h2, h3, h⟩ | ⟨h1, h2, h3, h⟩ | ⟨_, h⟩ | ⟨_, h⟩ | ⟨_, h⟩ | ⟨_, h⟩
      all_goals rw [hh] at h
      all_goals first
        | exact absurd h (by decide)
        | exact ⟨h1, h2, h3⟩
    have hm : name ∈ nexts := by
      rcases hn with ⟨h, _⟩ | ⟨_, h⟩
      · exact absurd hh h
      · exact h
    have hname := (hp.holds _ hm).1
    have nb : p.model.ix name ∉ _ := fun h => absurd (hbr.1 h) (by rcases hname with rfl | rfl <;> decide)
    have nc : p.model.ix name ∉ _ := fun h => absurd (hcl.1 h) (by rcases hname with rfl | rfl <;> decide)
    have nl : p.model.ix name ≠ _ := fun h => absurd (hleg.1 h) (by rcases hname with rfl | rfl <;> decide)
    refine ⟨_, seqMove_next gb gc gl nb nc nl ⟨by rw [hp.next]; exact hnx.2 hm, ho.resolve_right (by simp [hh])⟩,
      ⟨?_, ?_, ?_, ?_⟩⟩
    · show s.toBring = _
      rw [hb, List.drop_eq_nil_of_le (by simp; omega), List.drop_eq_nil_of_le (by simp; omega)]
    · show s.toClean = _
      rw [hc]
      congr 1; omega
    · show s.nDone + 1 = _
      rw [hd]; omega
    · show true = _
      rw [eq_comm, Bool.not_eq_true', decide_eq_false_iff_not]; omega
  · have hname : name = seqPlanAt L k := by
      rcases hn with ⟨_, h⟩ | ⟨h, _⟩
      · exact h
      · exact absurd h hh
    subst hname
    rcases seqPos L k with ⟨h1, h⟩ | ⟨h1, h⟩ | ⟨h1, h⟩ | ⟨h1, h2, h3, h⟩ | ⟨h1, h2, h3, h⟩ | ⟨h1, h⟩ | ⟨h1, h⟩ | ⟨h1, h⟩ | ⟨h1, h⟩
    all_goals rw [h] at hbr hcl hleg hwait hnx
    all_goals rw [h]
    · refine ⟨_, seqMove_bring gb (hbr.2 (by decide)) (by rw [hb, h1]; simp), ⟨?_, ?_, ?_, ?_⟩⟩
      · show s.toBring.erase _ = _
        rw [hb, h1]; simp
      · show s.toClean = _
        rw [hc]; congr 1; omega
      · show s.nDone = _
        rw [hd]; omega
      · show s.needsLeg = _
        rw [hl]; congr 1; rw [decide_eq_decide]; omega
    · refine ⟨_, seqMove_bring gb (hbr.2 (by decide)) (by rw [hb, h1]; simp), ⟨?_, ?_, ?_, ?_⟩⟩
      · show s.toBring.erase _ = _
        rw [hb, h1]; simp
      · show s.toClean = _
        rw [hc]; congr 1; omega
      · show s.nDone = _
        rw [hd]; omega
      · show s.needsLeg = _
        rw [hl]; congr 1; rw [decide_eq_decide]; omega
    · refine ⟨_, seqMove_bring gb (hbr.2 (by decide)) (by rw [hb, h1]; simp), ⟨?_, ?_, ?_, ?_⟩⟩
      · show s.toBring.erase _ = _
        rw [hb, h1]; simp
      · show s.toClean = _
        rw [hc]; congr 1; omega
      · show s.nDone = _
        rw [hd]; omega
      · show s.needsLeg = _
        rw [hl]; congr 1; rw [decide_eq_decide]; omega
    · refine ⟨_, seqMove_leg gb gc gl (fun h => absurd (hbr.1 h) (by decide)) (fun h => absurd (hcl.1 h) (by decide)) rfl,
        ⟨?_, ?_, ?_, ?_⟩⟩
      · show s.toBring = _
        rw [hb, List.drop_eq_nil_of_le (by simp; omega), List.drop_eq_nil_of_le (by simp; omega)]
      · show s.toClean = _
        rw [hc]; congr 1; omega
      · show s.nDone = _
        rw [hd]; omega
      · show false = _
        rw [eq_comm, Bool.not_eq_false', decide_eq_true_eq]; omega
    · exact absurd h hh
    · refine ⟨_, seqMove_clean gb gc (fun h => absurd (hbr.1 h) (by decide)) (hcl.2 (by decide)) (by rw [hc, h1]; simp),
        ⟨?_, ?_, ?_, ?_⟩⟩
      · show s.toBring = _
        rw [hb, List.drop_eq_nil_of_le (by simp; omega), List.drop_eq_nil_of_le (by simp; omega)]
      · show s.toClean.erase _ = _
        rw [hc, show k - (3 + 2 * L) = 0 by omega, show k + 1 - (3 + 2 * L) = 1 by omega]; simp
      · show s.nDone = _
        rw [hd]; omega
      · show s.needsLeg = _
        rw [hl]; congr 1; rw [decide_eq_decide]; omega
    · refine ⟨_, seqMove_clean gb gc (fun h => absurd (hbr.1 h) (by decide)) (hcl.2 (by decide)) (by rw [hc, h1]; simp),
        ⟨?_, ?_, ?_, ?_⟩⟩
      · show s.toBring = _
        rw [hb, List.drop_eq_nil_of_le (by simp; omega), List.drop_eq_nil_of_le (by simp; omega)]
      · show s.toClean.erase _ = _
        rw [hc, show k - (3 + 2 * L) = 1 by omega, show k + 1 - (3 + 2 * L) = 2 by omega]; simp
      · show s.nDone = _
        rw [hd]; omega
      · show s.needsLeg = _
        rw [hl]; congr 1; rw [decide_eq_decide]; omega
    · refine ⟨_, seqMove_clean gb gc (fun h => absurd (hbr.1 h) (by decide)) (hcl.2 (by decide)) (by rw [hc, h1]; simp),
        ⟨?_, ?_, ?_, ?_⟩⟩
      · show s.toBring = _
        rw [hb, List.drop_eq_nil_of_le (by simp; omega), List.drop_eq_nil_of_le (by simp; omega)]
      · show s.toClean.erase _ = _
        rw [hc, show k - (3 + 2 * L) = 2 by omega, show k + 1 - (3 + 2 * L) = 3 by omega]; simp
      · show s.nDone = _
        rw [hd]; omega
      · show s.needsLeg = _
        rw [hl]; congr 1; rw [decide_eq_decide]; omega
    · have nn : ¬ (p.model.ix "wait" ∈ p.aNextList ∧ o = "none") := by
        rintro ⟨h, _⟩
        rw [hp.next] at h
        have := (hp.holds _ (hnx.1 h)).1
        rcases this with h | h <;> exact absurd h (by decide)
      refine ⟨_, seqMove_wait gb gc gl (fun h => absurd (hbr.1 h) (by decide)) (fun h => absurd (hcl.1 h) (by decide))
        (fun h => absurd (hleg.1 h) (by decide)) nn hp.wait.symm, ⟨?_, ?_, ?_, ?_⟩⟩
      · rw [hb, List.drop_eq_nil_of_le (by simp; omega), List.drop_eq_nil_of_le (by simp; omega)]
      · rw [hc, List.drop_eq_nil_of_le (by simp; omega), List.drop_eq_nil_of_le (by simp; omega)]
      · rw [hd]; omega
      · rw [hl]; congr 1; rw [decide_eq_decide]; omega

theorem holdStep_run (ok : SeqOk m) (hp : HoldPol m p L nexts) {k : Nat} {s : SeqState} (inv : SeqInv m L k s) {name : String}
    (hn : Planned L nexts k name) (hla : s.lastAction = some (m.ix name)) (o : String) (hm : o ∈ m.observations)
    (ho : o = "none" ∨ o = "fail" ∨ (o = "not-found" ∧ seqPlanAt L k ≠ "hold H")) :
    ∃ s', p.step o s = (.ok (), s') ∧ SeqInv m L (if o = "fail" then k else k + 1) s' := by
  obtain rfl := hp.model
  have hat := strAt_ix (hp.planned_mem ok hn)
  have hrec : p.record o s = (.ok (p.model.ix name), { s with history := s.history ++ [p.model.ix name, p.model.observations.idxOf o] }) := by
    simp only [SeqPolicy.record, M.bind_run, M.read, hla, M.lift, strIndex, if_pos hm, M.modify]
    rfl
  have inv2 : SeqInv p.model L k { s with history := s.history ++ [p.model.ix name, p.model.observations.idxOf o] } := inv.of_eq rfl rfl rfl rfl
  simp only [SeqPolicy.step, M.bind_run, hrec, M.lift, hat]
  by_cases hf : o = "fail"
  · rw [if_pos hf, if_pos hf]
    exact ⟨_, rfl, inv2⟩
  · rw [if_neg hf, if_neg hf]
    obtain ⟨s', g1, g2⟩ := holdMove_run ok hp inv2 hn o (by tauto)
    refine ⟨s', ?_, g2⟩
    rw [if_pos (by tauto)]
    exact g1

end

/-! ### One transition -/

/-- What a transition with the action planned at position `k` does with the HTM value. -/
def PlanStep (m : SupPomdp) (L k h h' o : Nat) : Prop :=
  (seqPlanAt L k ≠ "hold H" ∧ seqPlanAt L k ≠ "wait" ∧ h' = h ∧ (o = 0 ∨ o = 1 ∨ o = 2)) ∨
  (seqPlanAt L k = "hold H" ∧ o = 1 ∧ h' = h ∧ h ≤ m.nodes.length) ∨
  (seqPlanAt L k = "hold H" ∧ o = 0 ∧ h = m.htmFinal ∧ h' = h) ∨
  ((seqPlanAt L k = "hold H" ∨ seqPlanAt L k = "wait") ∧ o = 0 ∧ h < m.nodes.length ∧
    ∃ ss, m.succs[h]? = some ss ∧ h' ∈ ss) ∨
  (seqPlanAt L k = "wait" ∧ o = 0 ∧ (h = m.htmClean ∨ h = m.htmFinal) ∧ h' = m.htmFinal)

/-- The actions wait and hold. -/
theorem advance_spec {m : SupPomdp} {css : List (List (Nat × String))} (hw : m.WF css) (d : Draws) (a s : Nat) (random : Bool)
    (hs : s < m.nStates) (ha : a = 0 ∨ a = 1 ∨ a = 2) :
    ∃ s' o r, m.sampleTransition d a s random = .ok (s', o, r) ∧ s' < m.nStates ∧
      ((htmOf m s = m.htmFinal ∧ o = 0 ∧ htmOf m s' = htmOf m s) ∨
       (htmOf m s = m.htmClean ∧ a = 0 ∧ o = 0 ∧ htmOf m s' = m.htmFinal) ∨
       (htmOf m s ≤ m.nodes.length ∧ a ≠ 0 ∧ o = 1 ∧ htmOf m s' = htmOf m s) ∨
       (htmOf m s < m.nodes.length ∧ o = 0 ∧ ∃ ss, m.succs[htmOf m s]? = some ss ∧ htmOf m s' ∈ ss)) := by
  obtain ⟨hp1, hp2, hp3, _⟩ := perturb_spec m d s random
  rw [sampleTransition_eq]
  simp only [htmOf_eq]
  generalize m.perturb d s random = x at *
  have hh := (lt_nStates m s).1 hs
  suffices ∃ y o r, m.branch d a x x random = .ok (y, o, r) ∧ SameShape (m.toState s) y ∧ y.htm < m.nHtmStates ∧
      (((m.toState s).htm = m.htmFinal ∧ o = 0 ∧ y.htm = (m.toState s).htm) ∨
       ((m.toState s).htm = m.htmClean ∧ a = 0 ∧ o = 0 ∧ y.htm = m.htmFinal) ∨
       ((m.toState s).htm ≤ m.nodes.length ∧ a ≠ 0 ∧ o = 1 ∧ y.htm = (m.toState s).htm) ∨
       ((m.toState s).htm < m.nodes.length ∧ o = 0 ∧ ∃ ss, m.succs[(m.toState s).htm]? = some ss ∧ y.htm ∈ ss)) by
    obtain ⟨y, o, r, h1, h2, h3, h4⟩ := this
    refine ⟨y.s, o, r, by rw [h1]; rfl, ?_, ?_⟩
    · rw [lt_nStates, toState_of_sameShape h2]
      exact h3
    · rw [toState_of_sameShape h2]
      exact h4
  have hn : x.nHtm = m.nodes.length + 2 := hp1.2.2.2.symm
  unfold branch
  rw [if_pos ha]
  unfold waitStep
  simp only
  split
  · rename_i hfin
    refine ⟨x, oNONE, _, rfl, hp1, by rw [hp2]; exact hh, .inl ⟨?_, rfl, hp2⟩⟩
    simp only [SupState.isFinal, decide_eq_true_eq] at hfin
    rw [← hp2]
    unfold htmFinal
    omega
  · rename_i hfin
    split
    · rename_i hcl
      split
      · rename_i ha0
        refine ⟨x.setHtm m.htmFinal, oNONE, _, rfl, hp1.trans ⟨rfl, rfl, rfl, rfl⟩, ?_, .inr (.inl ⟨?_, ha0, rfl, ?_⟩)⟩
        · rw [SupState.htm_setHtm]
          show m.nodes.length + 1 < m.nodes.length + 2
          omega
        · rw [← hp2]; exact hcl
        · rw [SupState.htm_setHtm]
      · rename_i ha0
        refine ⟨x, oFAIL, _, rfl, hp1, by rw [hp2]; exact hh, .inr (.inr (.inl ⟨?_, ha0, rfl, hp2⟩))⟩
        rw [← hp2, hcl]
        exact Nat.le_refl _
    · rename_i hcl
      have hlt : x.htm < m.nodes.length := by
        have h1 : ¬ x.htm + 1 = x.nHtm := by
          intro h
          apply hfin
          simp [SupState.isFinal, h]
        have h3 : ¬ x.htm = m.nodes.length := hcl
        have h4 : x.htm < m.nodes.length + 2 := by rw [hp2]; exact hh
        omega
      obtain ⟨ac, i, p, b, at', hn', hat⟩ := leaves_conditions css m.nodes hw.conds x.htm hlt
      have hneed : m.needsHold x.htm = .ok at'.1 := by simp [needsHold, hn', hat]
      obtain ⟨y, r, ss, h1, h2, h3, h4, _⟩ := updateForTransition_spec hw d x x.htm hlt (by
        exact SameShape.trans ⟨rfl, rfl, rfl, rfl⟩ hp1)
      unfold taskStep
      simp only [hneed, bind, Except.bind, pure, Except.pure]
      split
      · rename_i hf
        refine ⟨x, oFAIL, _, rfl, hp1, by rw [hp2]; exact hh, .inr (.inr (.inl ⟨?_, ?_, rfl, hp2⟩))⟩
        · rw [← hp2]; omega
        · rintro rfl
          simp at hf
      · simp only [h1]
        refine ⟨y, oNONE, _, rfl, SameShape.trans ⟨rfl, rfl, rfl, rfl⟩ h2, ?_, .inr (.inr (.inr ⟨?_, rfl, ss, ?_, h4⟩))⟩
        · have := (hw.succs_ok _ _ h3).2 _ h4
          show y.htm < m.nodes.length + 2
          omega
        · rw [← hp2]; exact hlt
        · rw [← hp2]; exact h3

theorem idxOf_map_inj {α β : Type} [DecidableEq α] [DecidableEq β] (f : α → β) (hf : ∀ a b, f a = f b → a = b) (l : List α) (a : α) :
    (l.map f).idxOf (f a) = l.idxOf a := by
  induction l with
  | nil => rfl
  | cons x l ih =>
      rw [List.map_cons, List.idxOf_cons, List.idxOf_cons, ih]
      by_cases h : x = a
      · subst h; simp
      · have h2 : f x ≠ f a := fun e => h (hf _ _ e)
        rw [beq_false_of_ne h, beq_false_of_ne h2]

/-- The numbers of the names that the policies use. -/
theorem actions_idx (m : SupPomdp) : m.actions.idxOf "wait" = 0 ∧ m.actions.idxOf "hold H" = 1 ∧ m.actions.idxOf "hold V" = 2 ∧
    ∀ x ∈ m.actions, x ≠ "wait" → x ≠ "hold H" → x ≠ "hold V" → x ≠ "ask hold" → 4 ≤ m.actions.idxOf x := by
  obtain ⟨l, hl⟩ : ∃ l, m.actions = "wait" :: "hold H" :: "hold V" :: "ask hold" :: l := ⟨_, rfl⟩
  rw [hl]
  have e : ∀ x, List.idxOf x ("wait" :: "hold H" :: "hold V" :: "ask hold" :: l) = if "wait" = x then 0 else if "hold H" = x then 1
      else if "hold V" = x then 2 else if "ask hold" = x then 3 else 4 + l.idxOf x := by
    intro x
    simp only [List.idxOf_cons]
    have b : ∀ y : String, (y == x) = decide (y = x) := fun y => rfl
    simp only [b]
    by_cases h1 : "wait" = x
    · simp [h1]
    by_cases h2 : "hold H" = x
    · subst h2; rfl
    by_cases h3 : "hold V" = x
    · subst h3; rfl
    by_cases h4 : "ask hold" = x
    · subst h4; rfl
    simp only [h1, h2, h3, h4, decide_false, cond_false, if_false]
    omega
  refine ⟨by rw [e]; rfl, by rw [e]; rfl, by rw [e]; rfl, ?_⟩
  intro x _ h1 h2 h3 h4
  rw [e, if_neg (Ne.symm h1), if_neg (Ne.symm h2), if_neg (Ne.symm h3), if_neg (Ne.symm h4)]
  omega

/-- The transition with a planned action. -/
theorem planStep_spec {t : Htm SupAction} {m : SupPomdp} (hc : Constructed t m) (ok : SeqOk m.seqModel) {p : SeqPolicy} {L : Nat}
    {nexts : List String} (hp : HoldPol m.seqModel p L nexts) {k : Nat} {name : String} (hn : Planned L nexts k name) (d : Draws)
    (s : Nat) (hs : s < m.nStates) :
    ∃ s' o r, m.sampleTransition d (m.actions.idxOf name) s true = .ok (s', o, r) ∧ s' < m.nStates ∧
      PlanStep m L k (htmOf m s) (htmOf m s') o := by
  obtain ⟨css, hw⟩ := constructed_wf hc
  obtain ⟨i1, i2, i3, i4⟩ := actions_idx m
  have hmem : name ∈ m.actions := hp.planned_mem ok hn
  have hlt : m.actions.idxOf name < m.nActions := by
    rw [← (C27_names hc).1]
    exact List.idxOf_lt_length_of_mem hmem
  by_cases hh : seqPlanAt L k = "hold H"
  · have hm : name = "hold H" ∨ name = "hold V" := by
      rcases hn with ⟨h, _⟩ | ⟨_, h⟩
      · exact absurd hh h
      · exact (hp.holds _ h).1
    have ha : m.actions.idxOf name = 1 ∨ m.actions.idxOf name = 2 := by
      rcases hm with rfl | rfl
      · exact .inl i2
      · exact .inr i3
    obtain ⟨s', o, r, h1, h2, h3⟩ := advance_spec hw d (m.actions.idxOf name) s true hs (.inr ha)
    refine ⟨s', o, r, h1, h2, ?_⟩
    rcases h3 with ⟨g1, g2, g3⟩ | ⟨g1, g2, _⟩ | ⟨g1, g2, g3, g4⟩ | ⟨g1, g2, g3⟩
    · exact .inr (.inr (.inl ⟨hh, g2, g1, g3⟩))
    · omega
    · exact .inr (.inl ⟨hh, g3, g4, g1⟩)
    · exact .inr (.inr (.inr (.inl ⟨.inl hh, g2, g1, g3⟩)))
  · have hname : name = seqPlanAt L k := by
      rcases hn with ⟨_, h⟩ | ⟨h, _⟩
      · exact h
      · exact absurd h hh
    by_cases hwt : seqPlanAt L k = "wait"
    · rw [hname, hwt, i1]
      obtain ⟨s', o, r, h1, h2, h3⟩ := advance_spec hw d 0 s true hs (.inl rfl)
      refine ⟨s', o, r, h1, h2, ?_⟩
      rcases h3 with ⟨g1, g2, g3⟩ | ⟨g1, g2, g3, g4⟩ | ⟨g1, g2, g3, g4⟩ | ⟨g1, g2, g3⟩
      · exact .inr (.inr (.inr (.inr ⟨hwt, g2, .inr g1, g3.trans g1⟩)))
      · exact .inr (.inr (.inr (.inr ⟨hwt, g3, .inl g1, g4⟩)))
      · exact absurd rfl g2
      · exact .inr (.inr (.inr (.inl ⟨.inr hwt, g2, g1, g3⟩)))
    · have h4 : 4 ≤ m.actions.idxOf name := by
        refine i4 name hmem (by rw [hname]; exact hwt) (by rw [hname]; exact hh) ?_ ?_
        · rw [hname]; intro h; have := seqPlanAt_names L k; rw [h] at this; revert this; decide
        · rw [hname]; intro h; have := seqPlanAt_names L k; rw [h] at this; revert this; decide
      obtain ⟨s', o, r, h1, h2, h3⟩ := C25_transition hc d (m.actions.idxOf name) s true hs hlt
      refine ⟨s', o, r, h1, h2, .inl ⟨hh, hwt, C28_htm hc d _ s true s' o r hs (by omega) h1, ?_⟩⟩
      obtain ⟨_, _, _, _, _, h⟩ := C28_object hc d _ s true s' o r h4 h1
      rcases h with ⟨rfl, _⟩ | ⟨rfl, _⟩ | ⟨rfl, _⟩
      · exact .inr (.inr rfl)
      · exact .inr (.inl rfl)
      · exact .inl rfl

/-! ### The loop -/

section
variable {t : Htm SupAction} {m : SupPomdp} (hc : Constructed t m) (ok : SeqOk m.seqModel) {p : SeqPolicy} {L : Nat}
    {nexts : List String} (hp : HoldPol m.seqModel p L nexts) (discount : ℚ) (w : LoopDraws)
include hc ok hp

theorem planStep_obs {k h h' o : Nat} (hs : PlanStep m L k h h' o) :
    (o = 0 ∨ o = 1 ∨ o = 2) ∧ (o = 2 → seqPlanAt L k ≠ "hold H") := by
  rcases hs with ⟨h1, _, _, h3⟩ | ⟨_, rfl, _⟩ | ⟨_, rfl, _⟩ | ⟨_, rfl, _⟩ | ⟨_, rfl, _⟩
  · exact ⟨h3, fun _ => h1⟩
  all_goals exact ⟨by omega, by omega⟩

theorem loopStep_run {k : Nat} {st : LoopState} (inv : SeqInv m.seqModel L k st.pol) (s : Nat) (hs : s < m.nStates) :
    ∃ name s' o r st', evalStep (loopModel m discount w) (loopPolicy p w) s st = (.ok (m.actions.idxOf name, s', o, r), st') ∧
      Planned L nexts k name ∧ m.sampleTransition (w.step st.calls) (m.actions.idxOf name) s true = .ok (s', o, r) ∧ s' < m.nStates ∧
      PlanStep m L k (htmOf m s) (htmOf m s') o ∧ SeqInv m.seqModel L (if o = 1 then k else k + 1) st'.pol ∧
      st'.calls = st.calls + 1 := by
  obtain ⟨name, h1, h2⟩ := holdGetAction_run ok hp (w.next st.asked) inv
  obtain ⟨s', o, r, h3, h4, h5⟩ := planStep_spec hc ok hp h1 (w.step st.calls) s hs
  have hmem : name ∈ m.actions := hp.planned_mem ok h1
  have hidx : indexOfName (m.actions.map .str) (.str name) = .ok (m.actions.idxOf name) := by
    rw [indexOfName, if_pos (List.mem_map_of_mem hmem)]
    congr 1
    have := idxOf_map_inj Name.str (fun a b h => by cases h; rfl) m.actions name
    exact this
  obtain ⟨ho, ho2⟩ := planStep_obs hc ok hp h5
  obtain ⟨on, hon, hon2⟩ : ∃ on : String, supObservations[o]? = some (.str on) ∧ (on = "none" ∨ on = "fail" ∨ (on = "not-found" ∧
      seqPlanAt L k ≠ "hold H")) ∧ on ∈ m.seqModel.observations ∧ (on = "fail" ↔ o = 1) := by
    rcases ho with rfl | rfl | rfl
    · exact ⟨"none", rfl, .inl rfl, by simp [seqModel], by decide⟩
    · exact ⟨"fail", rfl, .inr (.inl rfl), by simp [seqModel], by decide⟩
    · exact ⟨"not-found", rfl, .inr (.inr ⟨rfl, ho2 rfl⟩), by simp [seqModel], by decide⟩
  obtain ⟨q, h6, h7⟩ := holdStep_run ok hp (s := { st.pol with lastAction := some (m.seqModel.ix name) })
    (inv.of_eq rfl rfl rfl rfl) h1 rfl on hon2.2.1 hon2.1
  refine ⟨name, s', o, r, { pol := q, calls := st.calls + 1, asked := st.asked + 1 }, ?_, h1, h3, h4, h5, ?_, rfl⟩
  · unfold evalStep
    have g1 : (loopPolicy p w).getAction st = (.ok (.str name),
        { pol := { st.pol with lastAction := some (m.seqModel.ix name) }, calls := st.calls, asked := st.asked + 1 }) := by
      show loopGetAction p w st = _
      simp only [loopGetAction, M.bind_run, M.read, M.modify, onPolicy, h2, M.pure_run]
    rw [M.bind_of_ok g1]
    have g2 : (M.lift (indexOfName (loopModel m discount w).actions (.str name)) : M LoopState Nat) =
        M.lift (.ok (m.actions.idxOf name)) := by
      show M.lift (indexOfName (m.actions.map .str) (.str name)) = _
      rw [hidx]
    rw [g2]
    show (M.andThen _ _) _ = _
    simp only [M.andThen, M.lift]
    rw [M.bind_run]
    have g3 : (loopModel m discount w).sampleTransition (m.actions.idxOf name) s
        { pol := { st.pol with lastAction := some (m.seqModel.ix name) }, calls := st.calls, asked := st.asked + 1 } =
        (.ok (s', o, r), { pol := { st.pol with lastAction := some (m.seqModel.ix name) }, calls := st.calls + 1, asked := st.asked + 1 }) := by
      simp only [loopModel, counted, h3]
    rw [g3]
    simp only
    have g4 : nameAt (loopModel m discount w).observations o = .ok (.str on) := by
      show nameAt supObservations o = _
      rw [nameAt, hon]
    simp only [g4, M.bind_run, M.lift]
    have g5 : (loopPolicy p w).step (.str on)
        { pol := { st.pol with lastAction := some (m.seqModel.ix name) }, calls := st.calls + 1, asked := st.asked + 1 } =
        (.ok (), { pol := q, calls := st.calls + 1, asked := st.asked + 1 }) := by
      show onPolicy (p.step on) _ = _
      simp only [onPolicy, h6]
    rw [g5]
    rfl
  · by_cases h : o = 1
    · rw [if_pos h]
      rw [if_pos (hon2.2.2.2 h)] at h7
      exact h7
    · rw [if_neg h]
      rw [if_neg (fun h' => h (hon2.2.2.1 h'))] at h7
      exact h7

omit ok in
/-- What the transitions of an evaluation satisfy, from position `k` of the plan, state `s` and call number `c`. -/
def LoopFollows (m : SupPomdp) (w : LoopDraws) (L : Nat) (nexts : List String) : Nat → Nat → Nat → List Ev → Prop
  | _, _, _, [] => True
  | k, s, c, e :: es => e.state = s ∧ m.isFinal s = false ∧ (∃ name, Planned L nexts k name ∧ e.action = m.actions.idxOf name) ∧
      m.sampleTransition (w.step c) e.action s true = .ok (e.next, e.obs, e.reward) ∧ e.next < m.nStates ∧
      PlanStep m L k (htmOf m s) (htmOf m e.next) e.obs ∧
      LoopFollows m w L nexts (if e.obs = 1 then k else k + 1) e.next (c + 1) es

theorem loop_run (gamma : ℚ) : ∀ (bound : Nat) (hz : FinHorizon) (ep : Episode) (s k : Nat) (st : LoopState), hz.n.toNat ≤ bound →
    ep.states.getLast? = some s → s < m.nStates → SeqInv m.seqModel L k st.pol → hz.final = m.isFinal s →
    ∃ ep' st' moves, evalLoop (loopModel m discount w) (loopPolicy p w) gamma bound hz ep st = (.ok ep', st') ∧
      ep'.states = ep.states ++ moves.map Ev.next ∧ ep'.actions = ep.actions ++ moves.map Ev.action ∧
      ep'.observations = ep.observations ++ moves.map Ev.obs ∧ ep'.rewards = ep.rewards ++ moves.map Ev.reward ∧
      ep'.ret = reverseReturn gamma moves + gamma ^ moves.length * ep.ret ∧
      LoopFollows m w L nexts k s st.calls moves ∧ moves.length ≤ hz.n.toNat ∧
      (moves.length = hz.n.toNat ∨ m.isFinal ((moves.map Ev.next).getLastD s) = true) := by
  intro bound
  induction bound with
  | zero =>
      intro hz ep s k st hb hl hs inv hf
      have hr : (finishedOrN m.isFinal).isReached hz = true := by
        simp only [finishedOrN, Bool.or_eq_true, decide_eq_true_eq]; left; omega
      refine ⟨ep, st, [], ?_, by simp, by simp, by simp, by simp, by simp [reverseReturn, sumRange], trivial, by simp, .inl ?_⟩
      · unfold evalLoop
        rw [if_pos (show (finishedOrN (loopModel m discount w).isFinal).isReached hz = true from hr)]
        rfl
      · simp; omega
  | succ b ih =>
      intro hz ep s k st hb hl hs inv hf
      by_cases hr : (finishedOrN m.isFinal).isReached hz = true
      · refine ⟨ep, st, [], ?_, by simp, by simp, by simp, by simp, by simp [reverseReturn, sumRange], trivial, by simp, ?_⟩
        · unfold evalLoop
          rw [if_pos (show (finishedOrN (loopModel m discount w).isFinal).isReached hz = true from hr)]
          rfl
        · simp only [finishedOrN, Bool.or_eq_true, decide_eq_true_eq] at hr
          rcases hr with hr | hr
          · left; simp; omega
          · right; simp only [List.map_nil, List.getLastD_nil]; rw [← hf]; exact hr
      · obtain ⟨name, s', o, r, st', h1, h2, h3, h4, h5, h6, h7⟩ := loopStep_run hc ok hp discount w inv s hs
        have hr' := hr
        simp only [finishedOrN, Bool.or_eq_true, decide_eq_true_eq, not_or, Bool.not_eq_true] at hr'
        obtain ⟨ep', st2, moves, g1, g2, g3, g4, g5, g6, g7, g8, g9⟩ := ih
          ((finishedOrN (loopModel m discount w).isFinal).decrement (m.actions.idxOf name) s s' o hz)
          (ep.add gamma (m.actions.idxOf name, s', o, r)) s' (if o = 1 then k else k + 1) st'
          (by simp only [finishedOrN]; omega) (by simp [Episode.add]) h4 h6 rfl
        rw [h7] at g7
        refine ⟨ep', st2, ⟨m.actions.idxOf name, s, s', o, r⟩ :: moves, ?_, ?_, ?_, ?_, ?_, ?_,
          ⟨rfl, by rw [← hf]; exact hr'.2, ⟨name, h2, rfl⟩, h3, h4, h5, g7⟩, ?_, ?_⟩
        · unfold evalLoop
          rw [if_neg (show ¬ (finishedOrN (loopModel m discount w).isFinal).isReached hz = true from hr)]
          simp only
          have e1 : (M.lift (lastOf ep.states) : M LoopState Nat) = M.lift (.ok s) := by rw [lastOf, hl]
          rw [e1]
          show (M.andThen _ _) _ = _
          simp only [M.andThen, M.lift]
          rw [M.bind_of_ok h1]
          exact g1
        · rw [g2]; simp [Episode.add]
        · rw [g3]; simp [Episode.add]
        · rw [g4]; simp [Episode.add]
        · rw [g5]; simp [Episode.add]
        · rw [g6, reverseReturn_cons]
          simp only [Episode.add, List.length_cons, pow_succ]
          ring
        · simp only [finishedOrN, List.length_cons] at g8 ⊢; omega
        · rcases g9 with g9 | g9
          · left; simp only [finishedOrN, List.length_cons] at g9 ⊢; omega
          · right; rw [List.map_cons, List.getLastD_cons]; exact g9

/-- A whole evaluation. -/
theorem simulate_run (hpr : m.par.pPreferences.length ≤ m.par.nPreferences) (maxHorizon : Int) (disc : Bool) (bound : Nat)
    (hb : maxHorizon.toNat ≤ bound) (st : LoopState) :
    ∃ ep st' s moves, simulateOneEvaluation (loopModel m discount w) (loopPolicy p w) maxHorizon disc bound st = (.ok ep, st') ∧
      m.sampleStart w.start w.startPrefs w.startObjects = .ok s ∧ s < m.nStates ∧ htmOf m s ∈ m.init ∧
      ep.states = s :: moves.map Ev.next ∧ ep.actions = moves.map Ev.action ∧
      ep.observations = moves.map Ev.obs ∧ ep.rewards = moves.map Ev.reward ∧
      ep.ret = reverseReturn (if disc then discount else 1) moves ∧
      LoopFollows m w L nexts 0 s st.calls moves ∧ moves.length ≤ maxHorizon.toNat ∧
      (moves.length = maxHorizon.toNat ∨ m.isFinal ((moves.map Ev.next).getLastD s) = true) := by
  obtain ⟨css, hw⟩ := constructed_wf hc
  obtain ⟨s, h1, h2, h3⟩ := C25_start hc hpr w.start w.startPrefs w.startObjects
  obtain ⟨q, g1, g2, -, -⟩ := seqReset_run ok L st.pol
  have hfin : m.isFinal s = false := by
    have h4 := hw.init_ok _ h3
    have hn : (m.toState s).nHtm = m.nodes.length + 2 := rfl
    rw [htmOf_eq] at h4
    simp only [SupPomdp.isFinal, SupState.isFinal, decide_eq_false_iff_not]
    omega
  obtain ⟨ep', st', moves, l1, l2, l3, l4, l5, l6, l7, l8, l9⟩ := loop_run hc ok hp discount w (if disc then discount else 1) bound
    ⟨maxHorizon, false⟩ ⟨0, [s], [], [], [], 0⟩ s 0 { st with pol := q } hb rfl h2 g2 hfin.symm
  refine ⟨{ ep' with calls := (st'.calls : Int) - st.calls }, st', s, moves, ?_, h1, h2, h3, by simpa using l2, by simpa using l3, by simpa using l4, by simpa using l5, ?_, l7, l8, l9⟩
  rotate_left
  · show ep'.ret = _
    rw [l6]; simp
  · unfold simulateOneEvaluation
    rw [M.bind_run]
    simp only [M.read]
    have e1 : (loopPolicy p w).reset st = (.ok (), { st with pol := q }) := by
      show onPolicy (seqReset p.model) st = _
      rw [hp.model]
      simp only [onPolicy, g1]
    rw [M.bind_of_ok e1]
    have e2 : (loopModel m discount w).sampleStart { st with pol := q } = (.ok s, { st with pol := q }) := by
      show M.lift _ _ = _
      rw [h1]
      rfl
    rw [M.bind_of_ok e2]
    have e3 : (if disc = true then (loopModel m discount w).discount else 1) = if disc then discount else 1 := rfl
    rw [e3, M.bind_of_ok l1]
    rfl

end

end Verif
