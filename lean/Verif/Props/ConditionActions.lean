import Verif.Props.Actions
import Verif.Spec.ConditionActions

/-! Property C64 (actions with a pre- and a postcondition). -/

set_option linter.unusedSectionVars false
set_option linter.unusedSimpArgs false

namespace Verif
open Spec

theorem mkCond_length (m v : Arr) (c : Cond) (h : mkCond m v = .ok c) : m.data.length = v.data.length := by
  by_contra hne
  simp [mkCond, hne] at h

theorem check_satisfies (c : Cond) (hc : PlainCond c) (f : List ℚ) :
    (HasDim f.length c → ∃ b, c.check f = .ok b ∧ (b = true ↔ Satisfies f c)) ∧
    (¬ HasDim f.length c → c.check f = .error .valueError) := by
  cases c with
  | matchAll => exact ⟨fun _ => ⟨true, rfl, by simp [Satisfies]⟩, fun h => absurd trivial h⟩
  | cond m v =>
    obtain ⟨hm, hk⟩ := hc
    have hlen := mkCond_length m v _ hk
    refine ⟨fun hd => ?_, fun hd => ?_⟩
    · simp only [HasDim] at hd
      obtain ⟨b, h1, h2⟩ := C64_check m v _ hm hk f hd.symm
      refine ⟨b, h1, h2.trans ?_⟩
      simp only [Satisfies]
      constructor
      · intro h i hi
        obtain ⟨hi1, hi2⟩ := List.getElem?_eq_some_iff.1 hi
        rw [List.getElem?_eq_getElem (by omega : i < f.length), List.getElem?_eq_getElem (by omega : i < v.data.length)]
        exact congrArg some (h i hi1 (by omega) hi2)
      · intro h i hi1 hi2 hi3
        have := h i (by rw [List.getElem?_eq_getElem hi1, hi3])
        rw [List.getElem?_eq_getElem (by omega : i < f.length), List.getElem?_eq_getElem hi2] at this
        exact Option.some.inj this
    · simp only [HasDim] at hd
      simp only [Cond.check]
      rw [if_pos (fun h => hd h.symm)]

/-- **C64 (actions).**  An action explains a transition exactly if the state before satisfies its precondition and the
state after its postcondition. -/
theorem C64_action (pre post : Cond) (hpre : PlainCond pre) (hpost : PlainCond post) (before after : List ℚ)
    (h1 : HasDim before.length pre) (h2 : HasDim after.length post) :
    ∃ b, prePostCheck pre post before after = .ok b ∧ (b = true ↔ Satisfies before pre ∧ Satisfies after post) := by
  obtain ⟨a, ha, ha'⟩ := (check_satisfies pre hpre before).1 h1
  obtain ⟨b, hb, hb'⟩ := (check_satisfies post hpost after).1 h2
  cases a with
  | true => exact ⟨b, by simp [prePostCheck, ha, hb, bind, Except.bind], by rw [hb', ← ha']; simp⟩
  | false =>
    refine ⟨false, by simp [prePostCheck, ha, bind, Except.bind, pure, Except.pure], ?_⟩
    rw [← ha']
    simp

/-- **C64 (actions, exceptions).**  The check of an action raises exactly if the vector before has another number of
features, or if it satisfies the precondition and the vector after has another number of features: the state after is not
looked at when the precondition is not satisfied. -/
theorem C64_action_raises (pre post : Cond) (hpre : PlainCond pre) (hpost : PlainCond post) (before after : List ℚ)
    (e : PyErr) :
    prePostCheck pre post before after = .error e ↔
      e = .valueError ∧ (¬ HasDim before.length pre ∨ (Satisfies before pre ∧ ¬ HasDim after.length post)) := by
  by_cases h1 : HasDim before.length pre
  · obtain ⟨a, ha, ha'⟩ := (check_satisfies pre hpre before).1 h1
    cases a with
    | false =>
      have hno : ¬ Satisfies before pre := fun h => by simpa using ha'.2 h
      simp [prePostCheck, ha, bind, Except.bind, pure, Except.pure, h1, hno]
    | true =>
      have hs := ha'.1 rfl
      by_cases h2 : HasDim after.length post
      · obtain ⟨b, hb, _⟩ := (check_satisfies post hpost after).1 h2
        simp [prePostCheck, ha, hb, bind, Except.bind, h1, h2]
      · have hb := (check_satisfies post hpost after).2 h2
        simp [prePostCheck, ha, hb, bind, Except.bind, h1, h2, hs, eq_comm]
  · have ha := (check_satisfies pre hpre before).2 h1
    simp [prePostCheck, ha, bind, Except.bind, h1, eq_comm]

/-- Equal actions explain the same transitions. -/
theorem C64_action_equal (pre post pre' post' : Cond) (h : pre.eq pre' = true) (h' : post.eq post' = true)
    (before after : List ℚ) : prePostCheck pre post before after = prePostCheck pre' post' before after := by
  simp only [prePostCheck, C64_equal pre pre' h, C64_equal post post' h']

/-- Non-vacuity: an action that sets the first feature, and a precondition on the second one. -/
example : PlainCond (.cond ⟨.int64, [0, 1]⟩ ⟨.int64, [0, 1]⟩) ∧ PlainCond (.cond ⟨.int64, [1, 0]⟩ ⟨.int64, [1, 0]⟩) ∧
    prePostCheck (.cond ⟨.int64, [0, 1]⟩ ⟨.int64, [0, 1]⟩) (.cond ⟨.int64, [1, 0]⟩ ⟨.int64, [1, 0]⟩) [0, 1] [1, 1] = .ok true ∧
    prePostCheck (.cond ⟨.int64, [0, 1]⟩ ⟨.int64, [0, 1]⟩) (.cond ⟨.int64, [1, 0]⟩ ⟨.int64, [1, 0]⟩) [0, 0] [1, 1, 1] = .ok false ∧
    prePostCheck (.cond ⟨.int64, [0, 1]⟩ ⟨.int64, [0, 1]⟩) .matchAll [0, 1] [] = .ok true := by
  refine ⟨⟨by decide +kernel, by decide +kernel⟩, ⟨by decide +kernel, by decide +kernel⟩, ?_, ?_, ?_⟩ <;> decide +kernel

end Verif
