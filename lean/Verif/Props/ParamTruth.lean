import Verif.Props.SupDetails
import Verif.Props.ResultFiles

/-!
# Parameters used as conditions, numbers that are not integers, and result files without an entry

What C81 says about parameters that are not of the expected type, and what C103 says about files that other programs wrote.
-/

namespace Verif
open Spec

/-- A parameter counts as false in a condition exactly if it is `0`, `False` or the empty string. -/
def CountsFalse (v : ParamValue) : Prop := v = .num 0 ∨ v = .bool false ∨ v = .str ""

theorem truthy_iff (v : ParamValue) : v.truthy = true ↔ ¬ CountsFalse v := by
  cases v <;> simp [ParamValue.truthy, CountsFalse]

/-- **C81 (conditions).**  The exploration is relative, and the beliefs are shared, exactly if the parameter is neither `0` nor `False` nor the
empty string; a negative number counts as true. -/
theorem C81_conditions {p : Params} {c : PomcpConfig} (h : pomcpConfig p = .ok c) :
    ∃ rel bv, dget p "relative-explo" = some rel ∧ dget p "belief-values" = some bv ∧
      (c.relative = true ↔ ¬ CountsFalse rel) ∧ (c.beliefValues = true ↔ ¬ CountsFalse bv) := by
  have hread : ∀ k v, p.read k = .ok v → dget p k = some v := by
    intro k v hk
    unfold Params.read at hk
    cases hd : dget p k with
    | none => rw [hd] at hk; simp at hk
    | some w => rw [hd] at hk; simpa using hk
  unfold pomcpConfig at h
  simp only [bind, Except.bind, pure, Except.pure] at h
  repeat' split at h
  all_goals first
    | (simp at h; done)
    | skip
  simp only [Except.ok.injEq] at h
  subst h
  exact ⟨_, _, hread _ _ ‹p.read "relative-explo" = _›, hread _ _ ‹p.read "belief-values" = _›, truthy_iff _, truthy_iff _⟩

/-- **C81 (fractions).**  A number of subtasks that is not an integer raises `TypeError`. -/
theorem C81_fractions (p : Params) (q : ℚ) (hq : ∀ n : Int, q ≠ n) (ht : dget p "task" = some (.str "sequence"))
    (hn : dget p "n_subtasks" = some (.num q)) : multitaskTask p = .error .typeError := by
  have hden : q.den ≠ 1 := fun hd => hq q.num (Rat.den_eq_one_iff q |>.1 hd).symm
  have h1 : p.read "task" = .ok (.str "sequence") := by unfold Params.read; rw [ht]
  have h2 : p.read "n_subtasks" = .ok (.num q) := by unfold Params.read; rw [hn]
  simp [multitaskTask, h1, h2, ParamValue.asInt, hden, bind, Except.bind]

/-- **C103 (foreign files).**  A result file that is a dictionary without evaluations, or whose first evaluation has no return, raises
`KeyError`. -/
theorem C103_foreign (path name : String) (fs : LabFiles) (l : List (String × JVal)) (hf : fs (path, name ++ ".json") = some (some (.dict l))) :
    (dget l "evaluations" = none → resultsFromOne path name fs = (.error .keyError, fs)) ∧
    (∀ e es, dget l "evaluations" = some (.list (.dict e :: es)) → dget e "return" = none → resultsFromOne path name fs = (.error .keyError, fs)) := by
  refine ⟨fun h => ?_, fun e es h he => ?_⟩
  · simp [resultsFromOne, readJson, hf, JVal.get, h, M.lift, bind, M.andThen]
  · simp [resultsFromOne, readJson, hf, JVal.get, h, he, JVal.elems, M.lift, bind, M.andThen, List.mapM_cons, Except.bind]

/-- The hypotheses hold: a configuration with a negative number as a condition, a half, and a dictionary with another entry. -/
example : (match pomcpConfig (baseDefaults.update [("relative-explo", .num (-1))]) with
      | .ok c => c.relative && !c.beliefValues
      | .error _ => false) = true ∧
    (∀ n : Int, (1 / 2 : ℚ) ≠ n) ∧ dget [("parameters", JVal.null)] "evaluations" = none ∧ dget [("elapsed-time", JVal.num 1)] "return" = none := by
  refine ⟨by decide +kernel, fun n hn => ?_, by simp [dget], by simp [dget]⟩
  have h2 : ((1 : Int) : ℚ) = ((2 * n : Int) : ℚ) := by push_cast; linarith
  have := Int.cast_injective h2
  omega

end Verif
