import Verif.Props.Figures

/-! Property C106 (figures need the results of all the jobs that they show). -/

set_option linter.unusedSectionVars false
set_option linter.unusedSimpArgs false

namespace Verif
open Spec

theorem pyMapM_ok {α β : Type} (f : α → Py β) : ∀ (l : List α) (ys : List β), l.mapM f = .ok ys → ∀ x ∈ l, ∃ y, f x = .ok y
  | [], _, _ => by simp
  | a :: l, ys, h => by
      rw [List.mapM_cons] at h
      cases ha : f a with
      | error e => simp [ha, bind, Except.bind] at h
      | ok y =>
        cases hl : l.mapM f with
        | error e => simp [ha, hl, bind, Except.bind] at h
        | ok zs =>
          intro x hx
          rcases List.mem_cons.1 hx with rfl | hx
          · exact ⟨y, ha⟩
          · exact pyMapM_ok f l zs hl x hx

theorem lifted_ok {S α : Type} {x : Py α} {s s' : S} {a : α} (h : M.lift x s = (.ok a, s')) : x = .ok a :=
  congrArg Prod.fst h

theorem resultOf_found {results : List (String × JobResults)} {col : JobResults → List JVal} {n : String} {l : List JVal}
    (h : resultOf results col n = .ok l) : ∃ r, dget results n = some r := by
  unfold resultOf at h
  cases hd : dget results n with
  | none => simp [hd] at h
  | some r => exact ⟨r, rfl⟩

theorem horizonFigure_names {results : List (String × JobResults)} {col : JobResults → List JVal} {y t : String} {d d' : Canvas}
    (h : horizonFigure results col y t d = (.ok (), d')) : (∀ k ∈ horizonTransitions, ∀ s ∈ ["ns", "s"],
      ∃ r, dget results (horizonName "transitions" k s) = some r) ∧
      ∀ k ∈ horizonHtm, ∀ s ∈ ["ns", "s"], ∃ r, dget results (horizonName "htm" k s) = some r := by
  have rows : ∀ (t : String) (ls : List Nat) x, horizonRows results col t ls = .ok x → ∀ k ∈ ls, ∀ s ∈ ["ns", "s"],
      ∃ r, dget results (horizonName t k s) = some r := by
    intro t ls x hx k hk s hs
    obtain ⟨y, hy⟩ := pyMapM_ok _ _ _ hx s hs
    obtain ⟨z, hz⟩ := pyMapM_ok _ _ _ hy k hk
    exact resultOf_found hz
  unfold horizonFigure at h
  obtain ⟨a, s1, -, h⟩ := M.bind_ok h
  obtain ⟨_, s2, -, h⟩ := M.bind_ok h
  obtain ⟨tr, s3, h1, h⟩ := M.bind_ok h
  obtain ⟨ht, s4, h2, -⟩ := M.bind_ok h
  exact ⟨rows _ _ _ (lifted_ok h1), rows _ _ _ (lifted_ok h2)⟩

theorem iterationCurves_names {results : List (String × JobResults)} : ∀ (l : List Nat) {d d' : Canvas},
    iterationCurves results l d = (.ok (), d') → ∀ r ∈ l, ∀ i ∈ nIterations, ∃ x, dget results (iterationsName i r) = some x
  | [], _, _, _ => by simp
  | r :: l, d, d', h => by
      unfold iterationCurves at h
      obtain ⟨y, s1, h1, h⟩ := M.bind_ok h
      obtain ⟨_, s2, -, h⟩ := M.bind_ok h
      intro r' hr' i hi
      rcases List.mem_cons.1 hr' with rfl | hr'
      · obtain ⟨z, hz⟩ := pyMapM_ok _ _ _ (lifted_ok h1) i hi
        exact resultOf_found hz
      · exact iterationCurves_names l h r' hr' i hi

theorem preferenceCurves_names {fmt : ℚ → String} {results : List (String × JobResults)} {var : Bool} :
    ∀ (l : List (String × String)) {d d' : Canvas}, preferenceCurves fmt results var l d = (.ok (), d') →
      ∀ pc ∈ l, ∀ q ∈ pPreferenceValues, ∃ x, dget results (preferenceName fmt q pc.1) = some x
  | [], _, _, _ => by simp
  | (pol, col) :: l, d, d', h => by
      unfold preferenceCurves at h
      obtain ⟨y, s1, h1, h⟩ := M.bind_ok h
      obtain ⟨_, s2, -, h⟩ := M.bind_ok h
      intro pc hpc q hq
      rcases List.mem_cons.1 hpc with rfl | hpc
      · obtain ⟨z, hz⟩ := pyMapM_ok _ _ _ (lifted_ok h1) q hq
        exact resultOf_found hz
      · exact preferenceCurves_names l h pc hpc q hq

theorem taskBoxes_names {results : List (String × JobResults)} {ex : Bool} : ∀ (l : List String) (i : Nat) {d d' : Canvas},
    taskBoxes results ex i l d = (.ok (), d') → ∀ t ∈ l, ∀ p ∈ shownPolicies ex t, ∃ x, dget results (t ++ "-" ++ p) = some x
  | [], _, _, _, _ => by simp
  | t :: l, i, d, d', h => by
      unfold taskBoxes at h
      obtain ⟨y, s1, h1, h⟩ := M.bind_ok h
      obtain ⟨_, s2, -, h⟩ := M.bind_ok h
      obtain ⟨_, s3, -, h⟩ := M.bind_ok h
      intro t' ht' p hp
      rcases List.mem_cons.1 ht' with rfl | ht'
      · obtain ⟨z, hz⟩ := pyMapM_ok _ _ _ (lifted_ok h1) p hp
        simp only [bind, Except.bind] at hz
        cases hr : resultOf results colReturns (t' ++ "-" ++ p) with
        | error e => simp [hr] at hz
        | ok w => exact resultOf_found hr
      · exact taskBoxes_names l (i + 1) h t' ht' p hp

/-- **C106 (complete results).**  A figure is made only from the results of all the jobs that it shows: when the results of one of
them are missing, `plot_results` raises an exception, and it raises `KeyError` when there are none at all.  The multitask
figure without the policy `repeat` does not need the results of this policy for the tasks with a choice. -/
theorem C106_complete (fmt : ℚ → String) (results : List (String × JobResults)) (var ex : Bool) (d d' : Canvas) :
    (pomcpPlot results d = (.ok (), d') →
      (∀ k ∈ [3, 5, 7, 10, 15, 20, 25, 30, 35, 40, 60, 80, 100], ∀ s ∈ ["ns", "s"], ∃ r, dget results (horizonName "transitions" k s) = some r) ∧
      (∀ k ∈ [1, 2, 3, 4, 5, 6, 7, 8, 9], ∀ s ∈ ["ns", "s"], ∃ r, dget results (horizonName "htm" k s) = some r) ∧
      ∀ i ∈ [15, 20, 30] ++ (List.range 20).map (fun k => 50 * (k + 1)), ∀ n ∈ [1, 5, 10, 30, 50, 75, 100],
        ∃ r, dget results (iterationsName i n) = some r) ∧
    (preferencePlot fmt results var d = (.ok (), d') → ∀ pol ∈ ["never-hold", "always-hold", "pomcp"], ∀ k : Nat, k ≤ 20 →
      ∃ r, dget results (preferenceName fmt ((k : ℚ) / 20) pol) = some r) ∧
    (multitaskPlot results ex d = (.ok (), d') → ∀ t ∈ ["sequence", "uniform", "alternative"], ∀ pol ∈ ["pomcp", "repeat", "random"],
      (ex = true → pol = "repeat" → t = "sequence") → ∃ r, dget results (t ++ "-" ++ pol) = some r) ∧
    (pomcpPlot [] d).1 = .error .keyError ∧ (preferencePlot fmt [] var d).1 = .error .keyError ∧
    (multitaskPlot [] ex d).1 = .error .keyError := by
  refine ⟨fun h => ?_, fun h => ?_, fun h => ?_, rfl, rfl, by cases ex <;> rfl⟩
  · unfold pomcpPlot at h
    obtain ⟨_, s1, h1, h⟩ := M.bind_ok h
    obtain ⟨_, s2, -, h⟩ := M.bind_ok h
    obtain ⟨a, s3, -, h⟩ := M.bind_ok h
    obtain ⟨_, s4, -, h⟩ := M.bind_ok h
    obtain ⟨_, s5, -, h⟩ := M.bind_ok h
    obtain ⟨_, s6, h2, -⟩ := M.bind_ok h
    obtain ⟨k1, k2⟩ := horizonFigure_names h1
    have e : nIterations = [15, 20, 30] ++ (List.range 20).map (fun k => 50 * (k + 1)) := by decide
    exact ⟨k1, k2, fun i hi n hn => iterationCurves_names _ h2 n hn i (by rw [e]; exact hi)⟩
  · unfold preferencePlot at h
    obtain ⟨a, s1, -, h⟩ := M.bind_ok h
    obtain ⟨_, s2, -, h⟩ := M.bind_ok h
    obtain ⟨_, s3, -, h⟩ := M.bind_ok h
    obtain ⟨_, s4, h1, -⟩ := M.bind_ok h
    intro pol hpol k hk
    have hall : ∀ k ≤ 20, ((k : Nat) : ℚ) / 20 ∈ pPreferenceValues := by decide +kernel
    have hq := hall k hk
    simp only [List.mem_cons, List.not_mem_nil, or_false] at hpol
    rcases hpol with rfl | rfl | rfl
    · exact preferenceCurves_names _ h1 ("never-hold", "#44ac66") (by decide) _ hq
    · exact preferenceCurves_names _ h1 ("always-hold", "#1f82f9") (by decide) _ hq
    · exact preferenceCurves_names _ h1 ("pomcp", "#bb0c36") (by decide) _ hq
  · unfold multitaskPlot at h
    obtain ⟨a, s1, -, h⟩ := M.bind_ok h
    obtain ⟨_, s2, h1, -⟩ := M.bind_ok h
    intro t ht pol hpol hex
    refine taskBoxes_names _ _ h1 t ht pol ?_
    unfold shownPolicies
    split
    · rename_i hx
      refine List.mem_filter.2 ⟨hpol, ?_⟩
      by_cases hp : pol = "repeat"
      · simp [hex hx hp]
      · simp [hp]
    · exact hpol

/-- Non-vacuity: the multitask figure without `repeat`, from the results of seven jobs. -/
example : (multitaskPlot (["sequence-pomcp", "sequence-repeat", "sequence-random", "uniform-pomcp", "uniform-random", "alternative-pomcp",
    "alternative-random"].map fun n => (n, ([.num 1, .num 2], [], []))) true ⟨[], 0⟩).1 = .ok () := by decide +kernel

end Verif
