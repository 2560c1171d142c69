import Verif.Proof.PolicySeq
import Verif.Props.Supportive

set_option linter.unusedSectionVars false
set_option linter.unusedSimpArgs false

/-!
# C62: the scripted supportive policy performs its plan
-/

namespace Verif
open Spec SupPomdp

theorem strIndex_cases (l : List String) (x : String) :
    (x ∈ l ∧ strIndex l x = .ok (l.idxOf x)) ∨ (x ∉ l ∧ strIndex l x = .error .valueError) := by
  unfold strIndex
  by_cases h : x ∈ l <;> simp [h]

/-- The result of a lookup of several names. -/
theorem mapM_index (l : List String) (f : String → String) (ts : List String) :
    ((∀ t ∈ ts, f t ∈ l) ∧ ts.mapM (fun t => strIndex l (f t)) = .ok (ts.map fun t => l.idxOf (f t))) ∨
    ((∃ t ∈ ts, f t ∉ l) ∧ ts.mapM (fun t => strIndex l (f t)) = .error .valueError) := by
  induction ts with
  | nil => exact .inl ⟨by simp, rfl⟩
  | cons t ts ih =>
      rw [List.mapM_cons]
      rcases strIndex_cases l (f t) with ⟨h1, h2⟩ | ⟨h1, h2⟩
      · rcases ih with ⟨h3, h4⟩ | ⟨⟨x, hx, h3⟩, h4⟩
        · exact .inl ⟨by simpa using ⟨h1, h3⟩, by rw [h2, h4]; rfl⟩
        · exact .inr ⟨⟨x, by simp [hx], h3⟩, by rw [h2, h4]; rfl⟩
      · exact .inr ⟨⟨t, by simp, h1⟩, by rw [h2]; rfl⟩

/-- **C62 (construction).**  The constructor succeeds iff the model has the actions `wait` and `hold H`, the bringing and the
clearing of the three tools, and the observation `none`; otherwise it raises `ValueError`. -/
theorem C62_construct (m : SeqModel) :
    ((∃ p, mkSeqPolicy m = .ok p) ↔
      "none" ∈ m.observations ∧ ∀ a ∈ ["wait", "hold H", "bring screws", "bring screwdriver", "bring joints", "clear screws",
        "clear screwdriver", "clear joints"], a ∈ m.actions) ∧
    ((¬ ∃ p, mkSeqPolicy m = .ok p) → mkSeqPolicy m = .error .valueError) := by
  have key : ("none" ∈ m.observations ∧ (∀ a ∈ ["wait", "hold H", "bring screws", "bring screwdriver", "bring joints",
      "clear screws", "clear screwdriver", "clear joints"], a ∈ m.actions) ∧ ∃ p, mkSeqPolicy m = .ok p) ∨
      (¬ ("none" ∈ m.observations ∧ (∀ a ∈ ["wait", "hold H", "bring screws", "bring screwdriver", "bring joints",
      "clear screws", "clear screwdriver", "clear joints"], a ∈ m.actions)) ∧ mkSeqPolicy m = .error .valueError) := by
    unfold mkSeqPolicy
    rcases strIndex_cases m.actions "wait" with ⟨w1, w2⟩ | ⟨w1, w2⟩
    swap
    · right; exact ⟨fun h => w1 (h.2 _ (by simp)), by rw [w2]; rfl⟩
    rcases strIndex_cases m.observations "none" with ⟨n1, n2⟩ | ⟨n1, n2⟩
    swap
    · right; exact ⟨fun h => n1 h.1, by rw [w2, n2]; rfl⟩
    rcases strIndex_cases m.actions "hold H" with ⟨h1, h2⟩ | ⟨h1, h2⟩
    swap
    · right; exact ⟨fun h => h1 (h.2 _ (by simp)), by rw [w2, n2, h2]; rfl⟩
    rcases mapM_index m.actions (fun t => "bring " ++ t) seqTools with ⟨b1, b2⟩ | ⟨⟨t, ht, b1⟩, b2⟩
    swap
    · right
      have e : seqReset m seqBlank = (.error .valueError, seqBlank) := by
        have : m.aBrings = .error .valueError := b2
        simp only [seqReset, M.bind_run, M.modify, M.lift, this]
        rfl
      refine ⟨fun h => ?_, by rw [w2, n2, h2, e]; rfl⟩
      simp only [seqTools, List.mem_cons, List.not_mem_nil, or_false] at ht
      rcases ht with rfl | rfl | rfl
      · exact b1 (h.2 "bring screws" (by simp))
      · exact b1 (h.2 "bring screwdriver" (by simp))
      · exact b1 (h.2 "bring joints" (by simp))
    rcases mapM_index m.actions (fun t => "clear " ++ t) seqTools with ⟨c1, c2⟩ | ⟨⟨t, ht, c1⟩, c2⟩
    swap
    · right
      have e : (seqReset m seqBlank).1 = .error .valueError := by
        have h1 : m.aBrings = .ok _ := b2
        have h2 : m.aCleans = .error .valueError := c2
        simp only [seqReset, M.bind_run, M.modify, M.lift, h1, h2]
      rcases hr : seqReset m seqBlank with ⟨r, s⟩
      rw [hr] at e
      simp only at e
      subst e
      refine ⟨fun h => ?_, by rw [w2, n2, h2]; rfl⟩
      simp only [seqTools, List.mem_cons, List.not_mem_nil, or_false] at ht
      rcases ht with rfl | rfl | rfl
      · exact c1 (h.2 "clear screws" (by simp))
      · exact c1 (h.2 "clear screwdriver" (by simp))
      · exact c1 (h.2 "clear joints" (by simp))
    left
    have e : (seqReset m seqBlank).1 = .ok () := by
      have h1 : m.aBrings = .ok _ := b2
      have h2 : m.aCleans = .ok _ := c2
      simp only [seqReset, M.bind_run, M.modify, M.lift, h1, h2]
    rcases hr : seqReset m seqBlank with ⟨r, s⟩
    rw [hr] at e
    simp only at e
    subst e
    refine ⟨n1, ?_, _, by rw [w2, n2, h2]; rfl⟩
    have g1 : "bring screws" ∈ m.actions := b1 "screws" (by decide)
    have g2 : "bring screwdriver" ∈ m.actions := b1 "screwdriver" (by decide)
    have g3 : "bring joints" ∈ m.actions := b1 "joints" (by decide)
    have g4 : "clear screws" ∈ m.actions := c1 "screws" (by decide)
    have g5 : "clear screwdriver" ∈ m.actions := c1 "screwdriver" (by decide)
    have g6 : "clear joints" ∈ m.actions := c1 "joints" (by decide)
    intro a ha
    simp only [List.mem_cons, List.not_mem_nil, or_false] at ha
    rcases ha with rfl | rfl | rfl | rfl | rfl | rfl | rfl | rfl <;> assumption
  rcases key with ⟨h1, h2, h3⟩ | ⟨h1, h2⟩
  · exact ⟨⟨fun _ => ⟨h1, h2⟩, fun _ => h3⟩, fun h => absurd h3 h⟩
  · exact ⟨⟨fun ⟨p, hp⟩ => (by rw [h2] at hp; cases hp), fun h => absurd h h1⟩, fun _ => h2⟩

section
variable {m : SeqModel} {p : SeqPolicy} {s : SeqState}

theorem mkSeqPolicy_eq (ok : SeqOk m) (h : mkSeqPolicy m = .ok (p, s)) (n : Nat) :
    p = seqPol m ∧ SeqInv m n 0 s ∧ s.history = [] ∧ s.lastAction = none := by
  obtain ⟨s', h1, h2, h3, h4⟩ := mkSeqPolicy_ok ok n
  rw [h1] at h
  cases h
  exact ⟨rfl, h2, h3, h4⟩

/-- **C62 (plan).**  However the policy was used before, `get_action` returns the action of the plan that follows the completed
ones, and does not raise. -/
theorem C62_plan (names : ∀ a ∈ seqNames, a ∈ m.actions) (none : "none" ∈ m.observations) (h : mkSeqPolicy m = .ok (p, s))
    (us : List SeqUse) (c : Nat) :
    (p.getAction c (p.after us s)).1 =
      .ok (seqPlanAt (m.nHtmStates - 2).toNat (seqCompleted m (m.nHtmStates - 2).toNat us)) := by
  have ok : SeqOk m := ⟨names, none⟩
  obtain ⟨rfl, h2, h3, -⟩ := mkSeqPolicy_eq ok h (m.nHtmStates - 2).toNat
  obtain ⟨h4, -⟩ := seqAfter_run ok rfl us 0 s [] h2 h3
  rw [seqGetAction_run ok c rfl h4]
  rfl

/-- **C62 (turn).**  In a call of `get_action` followed by `step`, the action is the one of the plan, and `step` raises exactly
the exception of `seqFault`. -/
theorem C62_turn (names : ∀ a ∈ seqNames, a ∈ m.actions) (none : "none" ∈ m.observations) (h : mkSeqPolicy m = .ok (p, s))
    (us : List SeqUse) (c : Nat) (o : String) :
    let n := (m.nHtmStates - 2).toNat
    let a := seqPlanAt n (seqCompleted m n us)
    (p.use (.turn c o) (p.after us s)).1 = match seqFault m a o with
      | Option.none => .ok (some a)
      | some e => .error e := by
  have ok : SeqOk m := ⟨names, none⟩
  obtain ⟨rfl, h2, h3, -⟩ := mkSeqPolicy_eq ok h (m.nHtmStates - 2).toNat
  obtain ⟨h4, -⟩ := seqAfter_run ok rfl us 0 s [] h2 h3
  exact (seqUse_run ok rfl h4 (.turn c o)).2.1

/-- **C62 (history).**  The history is the list of the actions and observations of the turns since the last reset, as indices;
a turn whose observation is unexpected is in it, one whose observation is not in the model is not. -/
theorem C62_history (names : ∀ a ∈ seqNames, a ∈ m.actions) (none : "none" ∈ m.observations) (h : mkSeqPolicy m = .ok (p, s))
    (us : List SeqUse) :
    (p.after us s).history = (seqHistory m (m.nHtmStates - 2).toNat us 0 []).flatMap
      fun x => [m.actions.idxOf x.1, m.observations.idxOf x.2] := by
  have ok : SeqOk m := ⟨names, none⟩
  obtain ⟨rfl, h2, h3, -⟩ := mkSeqPolicy_eq ok h (m.nHtmStates - 2).toNat
  exact (seqAfter_run ok rfl us 0 s [] h2 h3).2

/-- **C62 (early step).**  A `step` before any `get_action` since the construction or the last reset raises `ValueError` and
changes nothing. -/
theorem C62_early (names : ∀ a ∈ seqNames, a ∈ m.actions) (none : "none" ∈ m.observations) (h : mkSeqPolicy m = .ok (p, s))
    (us : List SeqUse) (o : String) :
    p.step o s = (.error .valueError, s) ∧
    p.step o (p.after (us ++ [.reset]) s) = (.error .valueError, p.after (us ++ [.reset]) s) := by
  have ok : SeqOk m := ⟨names, none⟩
  obtain ⟨rfl, h2, h3, hl⟩ := mkSeqPolicy_eq ok h (m.nHtmStates - 2).toNat
  have key : ∀ s : SeqState, s.lastAction = .none → (seqPol m).step o s = (.error .valueError, s) := by
    intro s hs
    simp only [SeqPolicy.step, SeqPolicy.record, M.bind_run, M.read, hs]
    rfl
  refine ⟨key s hl, key _ ?_⟩
  unfold SeqPolicy.after
  rw [List.foldl_append]
  obtain ⟨s', g1, -, -, g4⟩ := seqReset_run ok 0 ((seqPol m).after us s)
  have e1 : (seqPol m).model = m := rfl
  show ((seqPol m).use .reset ((seqPol m).after us s)).2.lastAction = .none
  simp only [SeqPolicy.use, M.bind_run, e1, g1, M.pure_run]
  exact g4

/-- **C62 (progress).**  When every observation is `none`, the actions of the turns are the plan followed by waiting. -/
theorem C62_success (names : ∀ a ∈ seqNames, a ∈ m.actions) (none : "none" ∈ m.observations) (h : mkSeqPolicy m = .ok (p, s))
    (c k : Nat) :
    (p.use (.turn c "none") (p.after (List.replicate k (.turn c "none")) s)).1 =
      .ok (some ((seqPlan (m.nHtmStates - 2).toNat)[k]?.getD "wait")) := by
  have hk : ∀ k n, seqCompleted m n (List.replicate k (.turn c "none")) = k := by
    intro k n
    unfold seqCompleted
    induction k with
    | zero => rfl
    | succ k ih =>
        rw [List.replicate_succ', List.foldl_append, ih]
        simp [seqProgress, seqFault, none]
  have := C62_turn names none h (List.replicate k (.turn c "none")) c "none"
  simp only [hk] at this
  rw [this]
  simp [seqFault, none, seqPlanAt]

/-- **C62 (unexpected observations).**  With the observations of `SupportivePOMDP`, a turn raises exactly for `yes`, `no` and for
`not-found` after `hold H`, and then it raises `UnexpectedObservation`; the action is repeated exactly after `fail` or an
exception, until the plan is finished. -/
theorem C62_unexpected (names : ∀ a ∈ seqNames, a ∈ m.actions)
    (obs : m.observations = ["none", "fail", "not-found", "yes", "no"]) (h : mkSeqPolicy m = .ok (p, s))
    (us : List SeqUse) (c : Nat) (o : String) (ho : o ∈ m.observations) :
    let n := (m.nHtmStates - 2).toNat
    let k := seqCompleted m n us
    ((p.use (.turn c o) (p.after us s)).1 = .error .unexpectedObservation ↔
      o = "yes" ∨ o = "no" ∨ (o = "not-found" ∧ seqPlanAt n k = "hold H")) ∧
    ((p.use (.turn c o) (p.after us s)).1 = .ok (some (seqPlanAt n k)) ↔
      ¬ (o = "yes" ∨ o = "no" ∨ (o = "not-found" ∧ seqPlanAt n k = "hold H"))) ∧
    seqCompleted m n (us ++ [.turn c o]) =
      if o = "none" ∨ (o = "not-found" ∧ seqPlanAt n k ≠ "hold H") then k + 1 else k := by
  intro n k
  have hnone : "none" ∈ m.observations := by rw [obs]; simp
  have h1 : _ = _ := C62_turn names hnone h us c o
  have h2 : seqCompleted m n (us ++ [.turn c o]) =
      if seqFault m (seqPlanAt n k) o = none ∧ o ≠ "fail" then k + 1 else k := by
    unfold seqCompleted; rw [List.foldl_append]; rfl
  rw [h1, h2]
  have h3 : seqPlanAt (m.nHtmStates - 2).toNat (seqCompleted m (m.nHtmStates - 2).toNat us) = seqPlanAt n k := rfl
  rw [h3]
  have ho' := ho
  rw [obs] at ho'
  simp only [List.mem_cons, List.not_mem_nil, or_false] at ho'
  by_cases hh : seqPlanAt n k = "hold H"
  all_goals rcases ho' with rfl | rfl | rfl | rfl | rfl
  all_goals simp [seqFault, obs, hh]

end

/-- **C62 (supportive model).**  Every `SupportivePOMDP` whose task has conditions that use the three tools, and one that names
`leg`, has the names the policy looks up, and the number of subtasks is the number of its leaves. -/
theorem C62_supportive {t : Htm SupAction} {m : SupPomdp} (h : Constructed t m)
    (tools : ∀ o ∈ ["screws", "screwdriver", "joints"], HasCondition m cUSES o ∨ HasCondition m cCONSUMES_SOME o)
    (leg : ∃ c, HasCondition m c "leg") :
    (∀ a ∈ seqNames, a ∈ m.seqModel.actions) ∧ "none" ∈ m.seqModel.observations ∧
    (m.seqModel.nHtmStates - 2).toNat = m.nodes.length := by
  have hb : ∀ o : String, (∃ c, HasCondition m c o) → "bring " ++ o ∈ m.actions := by
    intro o ho
    obtain ⟨i, hi⟩ := List.mem_iff_getElem?.1 (((C27_objects h).2 o).2 ho)
    obtain ⟨a, -, h2⟩ := C27_bring h i o hi
    exact List.mem_iff_getElem?.2 ⟨a, h2⟩
  have hc : ∀ o : String, HasCondition m cUSES o ∨ HasCondition m cCONSUMES_SOME o → "clear " ++ o ∈ m.actions := by
    intro o ho
    obtain ⟨i, hi⟩ := List.mem_iff_getElem?.1 (((C27_objects h).2 o).2 (ho.elim (fun h => ⟨_, h⟩) (fun h => ⟨_, h⟩)))
    obtain ⟨h1, h2, -⟩ := C27_clear h i o hi
    obtain ⟨a, ha⟩ := h1.2 ho
    exact List.mem_iff_getElem?.2 ⟨a, h2 a ha⟩
  have hx : ∀ o ∈ ["screws", "screwdriver", "joints"], ∃ c, HasCondition m c o :=
    fun o ho => (tools o ho).elim (fun h => ⟨_, h⟩) (fun h => ⟨_, h⟩)
  refine ⟨?_, by simp [seqModel], by simp [seqModel, nHtmStates]⟩
  intro a ha
  show a ∈ m.actions
  simp only [seqNames, List.mem_cons, List.not_mem_nil, or_false] at ha
  rcases ha with rfl | rfl | rfl | rfl | rfl | rfl | rfl | rfl | rfl
  · simp [SupPomdp.actions]
  · simp [SupPomdp.actions]
  · exact hb "leg" leg
  · exact hb "screws" (hx _ (by simp))
  · exact hb "screwdriver" (hx _ (by simp))
  · exact hb "joints" (hx _ (by simp))
  · exact hc "screws" (tools _ (by simp))
  · exact hc "screwdriver" (tools _ (by simp))
  · exact hc "joints" (tools _ (by simp))

/-- The hypotheses hold for a model with two subtasks. -/
def seqExample : SeqModel where
  actions := ["wait", "hold H", "hold V", "ask hold", "bring joints", "clear joints", "bring leg", "bring screwdriver",
    "clear screwdriver", "bring screws", "clear screws"]
  observations := ["none", "fail", "not-found", "yes", "no"]
  nHtmStates := 4

example : (∀ a ∈ seqNames, a ∈ seqExample.actions) ∧ "none" ∈ seqExample.observations ∧ (∃ p, mkSeqPolicy seqExample = .ok p) ∧
    seqPlan 2 = ["bring screws", "bring screwdriver", "bring joints", "bring leg", "hold H", "bring leg", "hold H",
      "clear screws", "clear screwdriver", "clear joints"] ∧
    seqCompleted seqExample 2 [.turn 0 "fail", .turn 0 "none", .turn 0 "yes", .turn 0 "not-found", .ask 1] = 2 := by
  refine ⟨by decide, by decide, ?_, by decide, by decide⟩
  rw [(C62_construct seqExample).1]
  decide

/-- The hypotheses of `C62_supportive` hold for a task of two legs. -/
example : ∃ t m, Constructed t m ∧ m.nodes.length = 2 ∧
    (∀ o ∈ ["screws", "screwdriver", "joints"], HasCondition m cUSES o ∨ HasCondition m cCONSUMES_SOME o) ∧
    (∃ c, HasCondition m c "leg") := by
  let t : Htm SupAction := .comb .sequential [.leaf (assembleLeg "1") none none false, .leaf (assembleLeg "2") none none false]
    none none "legs" false none
  have key : ∃ m, mkSupPomdp {} (fun l => l) 5 t = .ok m ∧
      m.nodes = [.leaf (assembleLeg "1") none none false, .leaf (assembleLeg "2") none none false] := by
    cases hm : mkSupPomdp {} (fun l => l) 5 t with
    | error e =>
        have : (mkSupPomdp {} (fun l => l) 5 t).toOption.isSome = true := by decide +kernel
        rw [hm] at this
        cases this
    | ok m =>
        have : (mkSupPomdp {} (fun l => l) 5 t).toOption.map (fun m => m.nodes) =
            some [.leaf (assembleLeg "1") none none false, .leaf (assembleLeg "2") none none false] := by rfl
        rw [hm] at this
        exact ⟨m, rfl, Option.some.inj this⟩
  obtain ⟨m, hm, hnodes⟩ := key
  have hc : ∀ (c : Nat) (o : String), (c, o) ∈ [(cUSES, "joints"), (cCONSUMES, "leg"), (cUSES, "screwdriver"), (cUSES, "screws")] →
      HasCondition m c o := fun c o hco => ⟨0, assembleLeg "1", none, none, false, some "h", _, by rw [hnodes]; rfl, rfl, hco⟩
  refine ⟨t, m, ⟨by simp [t, NonEmpty, NonEmptyL], by simp [t, Built, BuiltL], {}, fun l => l, 5, fun _ _ => Iff.rfl, by decide, hm⟩,
    by rw [hnodes]; rfl, ?_, ⟨cCONSUMES, hc _ _ (by simp)⟩⟩
  intro o ho
  simp only [List.mem_cons, List.not_mem_nil, or_false] at ho
  rcases ho with rfl | rfl | rfl
  · exact .inl (hc _ _ (by simp))
  · exact .inl (hc _ _ (by simp))
  · exact .inl (hc _ _ (by simp))

end Verif
