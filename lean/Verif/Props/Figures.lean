import Verif.Proof.Figures

/-! # C106: the figures of the launchers -/

set_option linter.unusedSectionVars false
set_option linter.unusedSimpArgs false

namespace Verif
open Spec

/-- A curve for jobs whose conditions are `cond x` shows these jobs. -/
theorem jobCurve_shows {l : Exps} {r : String → ExpResults} (hn : (l.map Prod.snd).Nodup) (value : Episode → ℚ) {α : Type} (ls : List α) (name : α → String)
    (absc : α → ℚ) (cond : ℚ → Params) (hm : ∀ a ∈ ls, (name a, cond (absc a)) ∈ l) (label : String) (color : Option String) (style : String) :
    CurveShows l r value cond (jobCurve r value (ls.map name) (ls.map absc) label color style) := by
  refine ⟨by simp [jobCurve], by simp [jobCurve], fun i x hx => ?_⟩
  simp only [jobCurve, List.getElem?_map, Option.map_eq_some_iff] at hx
  obtain ⟨a, ha, rfl⟩ := hx
  have hmem := hm a (List.mem_of_getElem? ha)
  refine ⟨name a, ⟨hmem, by simp [jobCurve, ha], by simp [jobCurve, ha]⟩, ?_⟩
  rintro name' ⟨hmem', -⟩
  exact congrArg Prod.fst (List.inj_on_of_nodup_map hn hmem' hmem rfl)

theorem pomcpParams_nodup : (pomcpExps.map Prod.snd).Nodup := by decide +kernel

/-- **C106 (pomcp).**  The results of the jobs of the pomcp launcher have the same number of evaluations, at least one.  Then the launcher draws five
panels: returns and simulator calls, each against the two kinds of horizons, and returns against the number of iterations.  At each abscissa, each
curve shows the mean and the variance of the returns, or of the calls, over the evaluations of the one job that has the kind of horizon of the
label of the axis, this abscissa as length, and the rewards of subtasks or not according to the label of the curve; or this abscissa as number of
iterations and the number of rollouts in the label. -/
theorem C106_pomcp_partial (J : String → JobWorld) (r : String → ExpResults) (N : Nat) (hN : 0 < N)
    (hlen : ∀ n ∈ pomcpExps.map Prod.fst, (r n).evaluations.length = N) :
    ∃ a b c d e cur, pomcpPlot (readResults pomcpExps J r) ⟨[], 0⟩ = (.ok (), ⟨[a, b, c, d, e], cur⟩) ∧
      (a.ylabel = "Average return" ∧ a.xlabel = "Number of Transitions" ∧ a.title = "N Transitions Horizon" ∧
        PanelShows pomcpExps r Episode.ret (abscissas horizonTransitions)
          [("final rewards only", horizonCond "transitions" false), ("subtask rewards", horizonCond "transitions" true)] a) ∧
      (b.xlabel = "Number of HTM Transitions" ∧ b.legend.map Prod.snd = b.curves.map Curve.label ∧
        PanelShows pomcpExps r Episode.ret (abscissas horizonHtm)
          [("final rewards only", horizonCond "htm" false), ("subtask rewards", horizonCond "htm" true)] b) ∧
      (c.ylabel = "Average number of calls to simulator" ∧ c.xlabel = "Number of Transitions" ∧ c.title = "N Transitions Horizon" ∧
        PanelShows pomcpExps r (fun ep => (ep.calls : ℚ)) (abscissas horizonTransitions)
          [("final rewards only", horizonCond "transitions" false), ("subtask rewards", horizonCond "transitions" true)] c) ∧
      (d.xlabel = "Number of HTM Transitions" ∧ d.legend.map Prod.snd = d.curves.map Curve.label ∧
        PanelShows pomcpExps r (fun ep => (ep.calls : ℚ)) (abscissas horizonHtm)
          [("final rewards only", horizonCond "htm" false), ("subtask rewards", horizonCond "htm" true)] d) ∧
      (e.ylabel = "Average return" ∧ e.xlabel = "Number of iterations" ∧ e.title = "Average returns for various numbers of iterations" ∧
        e.legend.map Prod.snd = e.curves.map Curve.label ∧
        PanelShows pomcpExps r Episode.ret (abscissas nIterations)
          (nRolloutIt.map fun k => (pyStr k ++ " rollout iterations", iterationCond k)) e) ∧
      (∀ x ∈ [a, b, c, d, e], ∀ y ∈ x.curves, y.band = true) := by
  have hT : ∀ s : Bool, ∀ h ∈ horizonTransitions, (horizonName "transitions" h (if s then "s" else "ns"), horizonCond "transitions" s (h : ℚ)) ∈ pomcpExps := by
    intro s h hh
    refine List.mem_append_left _ (List.mem_flatMap.2 ⟨("transitions", h), List.mem_append_left _ (List.mem_map_of_mem hh), ?_⟩)
    exact List.mem_map.2 ⟨s, by cases s <;> simp, rfl⟩
  have hH : ∀ s : Bool, ∀ h ∈ horizonHtm, (horizonName "htm" h (if s then "s" else "ns"), horizonCond "htm" s (h : ℚ)) ∈ pomcpExps := by
    intro s h hh
    refine List.mem_append_left _ (List.mem_flatMap.2 ⟨("htm", h), List.mem_append_right _ (List.mem_map_of_mem hh), ?_⟩)
    exact List.mem_map.2 ⟨s, by cases s <;> simp, rfl⟩
  have hI : ∀ k ∈ nRolloutIt, ∀ i ∈ nIterations, (iterationsName i k, iterationCond k (i : ℚ)) ∈ pomcpExps := by
    intro k hk i hi
    exact List.mem_append_right _ (List.mem_flatMap.2 ⟨i, hi, List.mem_map.2 ⟨k, hk, rfl⟩⟩)
  have pT : ∀ value ylabel title, PanelShows pomcpExps r value (abscissas horizonTransitions)
      [("final rewards only", horizonCond "transitions" false), ("subtask rewards", horizonCond "transitions" true)]
      ((horizonAxes r value ylabel title).getD 0 .empty) := by
    intro value ylabel title
    refine .cons ⟨rfl, rfl, ?_⟩ (.cons ⟨rfl, rfl, ?_⟩ .nil)
    · exact jobCurve_shows pomcpParams_nodup value _ _ (fun n : Nat => (n : ℚ)) _ (hT false) _ _ _
    · exact jobCurve_shows pomcpParams_nodup value _ _ (fun n : Nat => (n : ℚ)) _ (hT true) _ _ _
  have pH : ∀ value ylabel title, PanelShows pomcpExps r value (abscissas horizonHtm)
      [("final rewards only", horizonCond "htm" false), ("subtask rewards", horizonCond "htm" true)]
      ((horizonAxes r value ylabel title).getD 1 .empty) := by
    intro value ylabel title
    refine .cons ⟨rfl, rfl, ?_⟩ (.cons ⟨rfl, rfl, ?_⟩ .nil)
    · exact jobCurve_shows pomcpParams_nodup value _ _ (fun n : Nat => (n : ℚ)) _ (hH false) _ _ _
    · exact jobCurve_shows pomcpParams_nodup value _ _ (fun n : Nat => (n : ℚ)) _ (hH true) _ _ _
  refine ⟨_, _, _, _, _, _, pomcpPlot_ok hN hlen ⟨[], 0⟩, ⟨rfl, rfl, rfl, pT _ "Average return" "Average returns for various horizons"⟩, ⟨rfl, rfl, pH _ "Average return" "Average returns for various horizons"⟩, ⟨rfl, rfl, rfl, pT _ "Average number of calls to simulator" "Simulator calls for various horizons"⟩,
    ⟨rfl, rfl, pH _ "Average number of calls to simulator" "Simulator calls for various horizons"⟩, ⟨rfl, rfl, rfl, ?_, ?_⟩, ?_⟩
  · simp [iterationAxes, iterationCurve, jobCurve]
  · unfold PanelShows iterationAxes
    rw [List.forall₂_map_left_iff, List.forall₂_map_right_iff, List.forall₂_same]
    intro k hk
    exact ⟨rfl, rfl, jobCurve_shows pomcpParams_nodup _ _ _ (fun n : Nat => (n : ℚ)) _ (hI k hk) _ _ _⟩
  · intro x hx y hy
    simp only [List.mem_cons, List.not_mem_nil, or_false] at hx
    rcases hx with rfl | rfl | rfl | rfl | rfl
    all_goals
      simp only [horizonAxes, iterationAxes, List.mem_cons, List.not_mem_nil, or_false, List.mem_map, iterationCurve] at hy
    · rcases hy with rfl | rfl <;> simp [jobCurve]
    · rcases hy with rfl | rfl <;> simp [jobCurve]
    · rcases hy with rfl | rfl <;> simp [jobCurve]
    · rcases hy with rfl | rfl <;> simp [jobCurve]
    · obtain ⟨k, -, rfl⟩ := hy
      simp [jobCurve]

/-- **C106 is false of the titles**: each panel on horizons is given the title of its kind of horizon, but the title that is meant for the whole figure
then replaces that of the second panel. -/
theorem C106_false_titles (J : String → JobWorld) (r : String → ExpResults) (N : Nat) (hN : 0 < N)
    (hlen : ∀ n ∈ pomcpExps.map Prod.fst, (r n).evaluations.length = N) :
    ((pomcpPlot (readResults pomcpExps J r) ⟨[], 0⟩).2.axes.map Axes.title) =
      ["N Transitions Horizon", "Average returns for various horizons", "N Transitions Horizon", "Simulator calls for various horizons",
        "Average returns for various numbers of iterations"] := by
  rw [pomcpPlot_ok hN hlen ⟨[], 0⟩]
  rfl

/-- **C106 (preferences).**  The same for the preference launcher, when all jobs have results: at each probability, the curve of a policy shows the mean
and the variance of the returns of the job with this probability and this policy; the legend gives to each policy the color of its curve, and the
colors are distinct.  Deviations are shown if and only if they are asked. -/
theorem C106_preference (fmt : ℚ → String) (hf : ∀ q ∈ pPreferenceValues, ∀ q' ∈ pPreferenceValues, fmt q = fmt q' → q = q') (J : String → JobWorld)
    (r : String → ExpResults) (N : Nat) (hN : 0 < N) (hlen : ∀ n ∈ (preferenceExps fmt).map Prod.fst, (r n).evaluations.length = N) (var : Bool) :
    ∃ a cur, preferencePlot fmt (readResults (preferenceExps fmt) J r) var ⟨[], 0⟩ = (.ok (), ⟨[a], cur⟩) ∧ a.xlabel = "$p_H$" ∧
      a.ylabel = "Average Return" ∧
      PanelShows (preferenceExps fmt) r Episode.ret pPreferenceValues (preferencePolicies.map fun pol => (pol, preferenceCond pol)) a ∧
      a.legend = a.curves.map (fun c => (c.color, c.label)) ∧ (a.curves.map Curve.color).Nodup ∧ ∀ c ∈ a.curves, c.bars = var ∧ c.band = var := by
  have hparams : ((preferenceExps fmt).map Prod.snd).Nodup := by
    have : (preferenceExps fmt).map Prod.snd = pPreferenceValues.flatMap fun q => preferencePolicies.map fun pol => preferenceCond pol q := by
      simp [preferenceExps, preferenceCond, List.map_flatMap, Function.comp_def]
    rw [this]
    decide +kernel
  have hm : ∀ pol ∈ preferencePolicies, ∀ q ∈ pPreferenceValues, (preferenceName fmt q pol, preferenceCond pol q) ∈ preferenceExps fmt := by
    intro pol hp q hq
    exact List.mem_flatMap.2 ⟨q, hq, List.mem_map.2 ⟨pol, hp, rfl⟩⟩
  have hid : pPreferenceValues = pPreferenceValues.map fun q : ℚ => q := by simp
  have key : ∀ (pol col : String), pol ∈ preferencePolicies → (preferenceCurve fmt r var (pol, col)).label = pol ∧
      (preferenceCurve fmt r var (pol, col)).x = pPreferenceValues ∧
      CurveShows (preferenceExps fmt) r Episode.ret (preferenceCond pol) (preferenceCurve fmt r var (pol, col)) := by
    intro pol col hp
    refine ⟨rfl, rfl, ?_⟩
    have := jobCurve_shows (r := r) hparams Episode.ret pPreferenceValues (fun q => preferenceName fmt q pol) (fun q => q) (preferenceCond pol) (hm pol hp)
      pol (some col) (if var then "both" else "none")
    rw [List.map_id'] at this
    exact this
  refine ⟨_, _, preferencePlot_ok fmt hf hN hlen var ⟨[], 0⟩, rfl, rfl, ?_, rfl, ?_, ?_⟩
  · refine .cons (key _ _ (by simp [preferencePolicies])) (.cons (key _ _ (by simp [preferencePolicies])) (.cons (key _ _ (by simp [preferencePolicies])) .nil))
  · simp [preferenceAxes, preferencePolicies, preferenceColors, preferenceCurve, jobCurve]
  · intro c hc
    simp only [preferenceAxes, List.mem_map] at hc
    obtain ⟨x, -, rfl⟩ := hc
    cases var <;> simp [preferenceCurve, jobCurve]

/-- **C106 (multitask).**  The multitask launcher draws one panel for each task, titled with the task, with one box for each policy (but "repeat"
only for the task "sequence", if it is excluded): the data of the box with the name of a policy are the returns of the evaluations of the job of this
task and this policy. -/
theorem C106_multitask (J : String → JobWorld) (r : String → ExpResults) (b : Bool) :
    ∃ s u a cur, multitaskPlot (readResults multitaskExps J r) b ⟨[], 0⟩ = (.ok (), ⟨[s, u, a], cur⟩) ∧
      s.ylabel = "Average Return" ∧ s.title = "Sequence" ∧ u.title = "Uniform" ∧ a.title = "Alternative" ∧
      s.boxes.map Prod.fst = ["pomcp", "repeat", "random"] ∧
      (∀ x ∈ [u, a], x.boxes.map Prod.fst = if b then ["pomcp", "random"] else ["pomcp", "repeat", "random"]) ∧
      ∀ x ∈ [(s, "sequence"), (u, "uniform"), (a, "alternative")], ∀ box ∈ x.1.boxes,
        ∃ name, (name, [("task", ParamValue.str x.2), ("policy", .str box.1)]) ∈ multitaskExps ∧ box.2 = (r name).evaluations.map Episode.ret := by
  refine ⟨_, _, _, _, multitaskPlot_ok b ⟨[], 0⟩, rfl, rfl, rfl, rfl, ?_, ?_, ?_⟩
  · cases b <;> simp [taskAxes, shownPolicies, multitaskPolicies]
  · intro x hx
    simp only [List.mem_cons, List.not_mem_nil, or_false] at hx
    rcases hx with rfl | rfl <;> cases b <;> simp [taskAxes, shownPolicies, multitaskPolicies]
  · have key : ∀ t ∈ multitaskTasks, ∀ y, ∀ box ∈ (taskAxes r b t y).boxes,
        ∃ name, (name, [("task", ParamValue.str t), ("policy", .str box.1)]) ∈ multitaskExps ∧ box.2 = (r name).evaluations.map Episode.ret := by
      intro t ht y box hbox
      simp only [taskAxes, List.mem_map] at hbox
      obtain ⟨pol, hp, rfl⟩ := hbox
      refine ⟨t ++ "-" ++ pol, ?_, rfl⟩
      have : pol ∈ multitaskPolicies := by
        unfold shownPolicies at hp
        split at hp
        · exact (List.mem_filter.1 hp).1
        · exact hp
      exact List.mem_flatMap.2 ⟨t, ht, List.mem_map.2 ⟨pol, this, rfl⟩⟩
    intro x hx
    simp only [List.mem_cons, List.not_mem_nil, or_false] at hx
    rcases hx with rfl | rfl | rfl
    · exact key _ (by simp [multitaskTasks]) _
    · exact key _ (by simp [multitaskTasks]) _
    · exact key _ (by simp [multitaskTasks]) _

/-- **C106 (files).**  The results from which the figures are made are those of the jobs, as in C103. -/
theorem C106_files (cls : ExpClass) (cfg : String → LabFile) (double : String → Bool) (J : String → JobWorld) (path : String) (l : Exps)
    (order : List String) (fs : LabFiles) (hn : (l.map Prod.fst).Nodup) (hs : SeparateFiles cfg path (l.map Prod.fst))
    (ho : ∀ n, n ∈ order ↔ n ∈ l.map Prod.fst) (r : String → ExpResults) (hr : ∀ e ∈ l, jobRun cls (J e.1) e.2 = .ok (r e.1)) :
    (getResults path (l.map Prod.fst) (afterJobs cls cfg double J path l order fs)).1 = .ok (readResults l J r) :=
  C103_results cls cfg double J path l order fs hn hs ho r hr

/-! ### The hypotheses hold -/

/-- Results with two evaluations, that depend on the name of the job. -/
def demoRun (name : String) : ExpResults := ⟨[], [⟨(name.length : ℚ), [0], [], [], [], 3⟩, ⟨2, [0], [], [], [], 5⟩]⟩

/-- They meet the hypotheses; the mean and the variance of a job. -/
example : (∀ n ∈ pomcpExps.map Prod.fst, (demoRun n).evaluations.length = 2) ∧ meanBy Episode.ret (demoRun "htm-3-ns") = 5 ∧
    varianceBy Episode.ret (demoRun "htm-3-ns") = 9 := ⟨fun _ _ => rfl, by decide +kernel, by decide +kernel⟩

end Verif
