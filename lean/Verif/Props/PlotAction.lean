import Verif.Spec.PlotAction
import Verif.Props.Figures

/-! Property C121: the action `plot` of the launchers. -/

set_option linter.unusedSectionVars false
set_option linter.unusedSimpArgs false

namespace Verif
open Verif.Spec

/-! ### Settings -/

theorem dget_rcUpdate (e d : List (String × String)) (hn : (e.map Prod.fst).Nodup) (k : String) :
    dget (rcUpdate d e) k = (dget e k).or (dget d k) := by
  unfold rcUpdate
  induction e generalizing d with
  | nil => simp
  | cons kv e ih =>
      obtain ⟨k0, v⟩ := kv
      simp only [List.map_cons, List.nodup_cons] at hn
      rw [List.foldl_cons, ih _ hn.2, dget_dset]
      by_cases h : k0 = k
      · subst h
        have : dget e k0 = none := dget_eq_none.2 hn.1
        simp [dget, this]
      · simp [dget, h]

theorem plotParms_get (k : String) : dget plotParms k = printSetting "medium" k := by
  by_cases hk : k ∈ plotParms.map Prod.fst
  · have : ∀ k ∈ plotParms.map Prod.fst, dget plotParms k = printSetting "medium" k := by decide +kernel
    exact this k hk
  · rw [dget_eq_none.2 hk]
    simp only [plotParms, List.map_cons, List.map_nil, List.mem_cons, List.not_mem_nil, or_false, not_or] at hk
    obtain ⟨h1, h2, h3, h4, h5, h6, h7, h8, h9, h10, h11, h12⟩ := hk
    unfold printSetting
    rw [if_neg h1, if_neg h2, if_neg h3, if_neg (by rintro (h | h | h); exacts [h4 h, h5 h, h9 h]), if_neg h6,
      if_neg (by rintro (h | h); exacts [h7 h, h8 h]), if_neg h10, if_neg h11, if_neg h12]

theorem forPrint_large (rc : List (String × String)) : ForPrint "large" rc (rcUpdate (rcUpdate rc plotParms) [("axes.titlesize", "large")]) := by
  intro k
  rw [dget_rcUpdate _ _ (by simp), dget_rcUpdate _ _ (by decide +kernel), plotParms_get]
  by_cases h : k = "axes.titlesize"
  · subst h
    rfl
  · have h1 : dget [("axes.titlesize", "large")] k = none := by simp [dget, eq_comm, h]
    rw [h1]
    unfold printSetting
    simp only [h, if_false, Option.none_or]

theorem forPrint_medium (rc : List (String × String)) : ForPrint "medium" rc (rcUpdate (rcUpdate rc plotParms) []) := by
  intro k
  rw [dget_rcUpdate _ _ (by simp), dget_rcUpdate _ _ (by decide +kernel), plotParms_get]
  rfl

/-! ### Drawing only adds axes -/

/-- A drawing that leaves the axes before number `n` as they are. -/
def Adds (n : Nat) (m : M Canvas Unit) : Prop :=
  ∀ c : Canvas, n ≤ c.axes.length → n ≤ c.current → (m c).2.axes.take n = c.axes.take n ∧ n ≤ (m c).2.axes.length ∧ n ≤ (m c).2.current

theorem adds_bind {n : Nat} {m m' : M Canvas Unit} (h : Adds n m) (h' : Adds n m') : Adds n (m >>= fun _ => m') := by
  intro c h1 h2
  obtain ⟨a1, a2, a3⟩ := h c h1 h2
  rw [M.bind_run]
  rcases hm : m c with ⟨r, c1⟩
  rw [hm] at a1 a2 a3
  cases r with
  | error e => exact ⟨a1, a2, a3⟩
  | ok _ =>
      obtain ⟨b1, b2, b3⟩ := h' c1 a2 a3
      exact ⟨b1.trans a1, b2, b3⟩

theorem adds_lift {n : Nat} {α : Type} (x : Py α) {m : α → M Canvas Unit} (h : ∀ a, Adds n (m a)) : Adds n (M.lift x >>= m) := by
  intro c h1 h2
  rw [M.bind_run]
  cases x with
  | error e => exact ⟨rfl, h1, h2⟩
  | ok a => exact h a c h1 h2

theorem take_modify {α : Type} (f : α → α) : ∀ (l : List α) (n i : Nat), n ≤ i → (l.modify i f).take n = l.take n := by
  intro l n i h
  apply List.ext_getElem?
  intro j
  by_cases hj : j < n
  · rw [List.getElem?_take_of_lt hj, List.getElem?_take_of_lt hj, List.getElem?_modify]
    have : i ≠ j := by omega
    simp [this]
  · rw [List.getElem?_eq_none (by simp; omega), List.getElem?_eq_none (by simp; omega)]

theorem adds_onAxes {n i : Nat} (hi : n ≤ i) (f : Axes → Axes) : Adds n (onAxes i f) := by
  intro c h1 h2
  refine ⟨take_modify f _ _ _ hi, ?_, h2⟩
  show n ≤ (c.axes.modify i f).length
  rwa [List.length_modify]

theorem adds_gca {n : Nat} {m : Nat → M Canvas Unit} (h : ∀ i, n ≤ i → Adds n (m i)) : Adds n (gca >>= m) := by
  intro c h1 h2
  exact h c.current h2 c h1 h2

theorem adds_plotVar {n : Nat} (y : List (List JVal)) (x : List ℚ) (label : String) (color : Option String) (style : String) :
    Adds n (plotVar y x none label color style) := by
  unfold plotVar
  refine adds_gca fun i hi => adds_lift _ fun mean => adds_lift _ fun var => ?_
  split
  · exact adds_onAxes hi _
  · intro c h1 h2
    exact ⟨rfl, h1, h2⟩

theorem adds_pure {n : Nat} : Adds n (pure ()) := fun _ h1 h2 => ⟨rfl, h1, h2⟩

theorem adds_preferenceCurves {n : Nat} (fmt : ℚ → String) (results : List (String × JobResults)) (var : Bool) :
    ∀ l, Adds n (preferenceCurves fmt results var l) := by
  intro l
  induction l with
  | nil => exact adds_pure
  | cons x l ih =>
      obtain ⟨pol, col⟩ := x
      exact adds_lift _ fun y => adds_bind (adds_plotVar _ _ _ _ _) ih

theorem adds_taskBoxes {n : Nat} (results : List (String × JobResults)) (b : Bool) : ∀ ts i, n ≤ i → Adds n (taskBoxes results b i ts) := by
  intro ts
  induction ts with
  | nil => intro i _; exact adds_pure
  | cons t ts ih =>
      intro i hi
      exact adds_lift _ fun data => adds_bind (adds_onAxes hi _) (adds_bind (adds_onAxes hi _) (ih _ (by omega)))

/-- New axes, then a drawing that leaves the older ones as they are. -/
theorem added_axes {k : Nat} (hk : 0 < k) {m : Nat → M Canvas Unit} (h : ∀ n, Adds n (m n)) (c : Canvas) :
    ∃ axes, ((addAxes k >>= m) c).2.axes = c.axes ++ axes := by
  have e : (addAxes k >>= m) c = m c.axes.length ⟨c.axes ++ List.replicate k .empty, c.axes.length + k - 1⟩ := rfl
  obtain ⟨a1, -, -⟩ := h c.axes.length ⟨c.axes ++ List.replicate k .empty, c.axes.length + k - 1⟩ (by simp) (by simp; omega)
  rw [← e] at a1
  refine ⟨((addAxes k >>= m) c).2.axes.drop c.axes.length, ?_⟩
  have := List.take_append_drop c.axes.length ((addAxes k >>= m) c).2.axes
  rw [a1] at this
  simpa using this.symm

theorem preferencePlot_adds (fmt : ℚ → String) (results : List (String × JobResults)) (var : Bool) (c : Canvas) :
    ∃ axes, (preferencePlot fmt results var c).2.axes = c.axes ++ axes :=
  added_axes (by decide) (fun _ => adds_bind (adds_onAxes (le_refl _) _) (adds_bind (adds_onAxes (le_refl _) _)
    (adds_bind (adds_preferenceCurves _ _ _ _) (adds_onAxes (le_refl _) _)))) c

theorem multitaskPlot_adds (results : List (String × JobResults)) (b : Bool) (c : Canvas) :
    ∃ axes, (multitaskPlot results b c).2.axes = c.axes ++ axes :=
  added_axes (by decide) (fun _ => adds_bind (adds_taskBoxes _ _ _ _ (le_refl _)) (adds_onAxes (le_refl _) _)) c

/-! ### The action -/

/-- The last steps of the action, for a drawing that only adds axes. -/
theorem draw_and_out (title name : String) (m : M Canvas Unit) (hm : ∀ c, ∃ axes, (m c).2.axes = c.axes ++ axes) (destination : Option String)
    (d0 d : PlotDesk) (hc : d.canvas = d0.canvas) (hs : d.shown = d0.shown) (hv : d.saved = d0.saved)
    (hrc : match destination with | none => d.rc = d0.rc | some _ => ForPrint title d0.rc d.rc) :
    match (do
      let i ← M.read fun d : PlotDesk => d.canvas.axes.length
      onCanvas m
      match destination with
      | none => pltShow
      | some directory => saveFigure i directory name : M PlotDesk Unit) d with
    | (.error _, d') => NothingOut d0 d'
    | (.ok _, d') => match destination with
        | none => FigureShown d0 d'
        | some directory => FigureSaved title directory name d0 d' := by
  obtain ⟨axes, hax⟩ := hm d.canvas
  rcases hmc : m d.canvas with ⟨r, c1⟩
  rw [hmc] at hax
  have hon : onCanvas m d = (r, { d with canvas := c1 }) := by unfold onCanvas; rw [hmc]
  cases r with
  | error e =>
      have : (do
          let i ← M.read fun d : PlotDesk => d.canvas.axes.length
          onCanvas m
          match destination with
          | none => pltShow
          | some directory => saveFigure i directory name : M PlotDesk Unit) d = (.error e, { d with canvas := c1 }) :=
        (M.bind_of_ok (show (M.read fun d : PlotDesk => d.canvas.axes.length) d = (.ok d.canvas.axes.length, d) from rfl)).trans (M.bind_of_error hon)
      rw [this]
      exact ⟨hs, hv⟩
  | ok u =>
      cases destination with
      | none =>
          have : (do
              let i ← M.read fun d : PlotDesk => d.canvas.axes.length
              onCanvas m
              pltShow : M PlotDesk Unit) d = (.ok (), { d with canvas := c1, shown := d.shown ++ [c1.axes] }) :=
            (M.bind_of_ok (show (M.read fun d : PlotDesk => d.canvas.axes.length) d = (.ok d.canvas.axes.length, d) from rfl)).trans (M.bind_of_ok hon)
          simp only [this]
          exact ⟨by rw [hs], hv, hrc⟩
      | some directory =>
          have : (do
              let i ← M.read fun d : PlotDesk => d.canvas.axes.length
              onCanvas m
              saveFigure i directory name : M PlotDesk Unit) d =
                (.ok (), { d with canvas := c1, saved := d.saved ++ [((directory, name), c1.axes.drop d.canvas.axes.length, d.rc)] }) :=
            (M.bind_of_ok (show (M.read fun d : PlotDesk => d.canvas.axes.length) d = (.ok d.canvas.axes.length, d) from rfl)).trans (M.bind_of_ok hon)
          simp only [this]
          have hax : c1.axes = d.canvas.axes ++ axes := hax
          refine ⟨axes, by rw [← hc]; exact hax, ?_, hs, hrc⟩
          simp only [hax, List.drop_left, hv]

/-- **C121 (preferences).**  With any files: if the action `plot` of the preference launcher ends, either no destination was given and the figure is
shown, no file being written; or one was, and the figure is saved there, with the settings for print, and nothing is shown.  If it raises an exception
nothing is shown and no file is written. -/
theorem C121_preference (fmt : ℚ → String) (path : String) (fs : LabFiles) (destination : Option String) (d : PlotDesk) :
    match preferencePlotAction fmt path fs destination d with
    | (.error _, d') => NothingOut d d'
    | (.ok _, d') => match destination with
        | none => FigureShown d d'
        | some directory => FigureSaved "large" directory "preferences.pdf" d d' := by
  unfold preferencePlotAction
  cases hres : (getResults path ((preferenceExps fmt).map Prod.fst) fs).1 with
  | error e => cases destination <;> exact ⟨rfl, rfl⟩
  | ok results =>
      cases destination with
      | none => exact draw_and_out "large" "preferences.pdf" _ (preferencePlot_adds fmt results true) none d d rfl rfl rfl rfl
      | some directory =>
          exact draw_and_out "large" "preferences.pdf" _ (preferencePlot_adds fmt results false) (some directory) d
            { d with rc := rcUpdate (rcUpdate d.rc plotParms) [("axes.titlesize", "large")] } rfl rfl rfl (forPrint_large _)

/-- **C121 (multitask).**  The same for the multitask launcher. -/
theorem C121_multitask (path : String) (fs : LabFiles) (destination : Option String) (d : PlotDesk) :
    match multitaskPlotAction path fs destination d with
    | (.error _, d') => NothingOut d d'
    | (.ok _, d') => match destination with
        | none => FigureShown d d'
        | some directory => FigureSaved "medium" directory "multitask.pdf" d d' := by
  unfold multitaskPlotAction
  generalize (getResults path (multitaskExps.map Prod.fst) fs).1 = res
  cases res with
  | error e => exact ⟨rfl, rfl⟩
  | ok results =>
    dsimp only
    generalize printedAverages results = av
    cases av with
    | error e => exact ⟨rfl, rfl⟩
    | ok averages =>
      dsimp only
      unfold multitaskPlotRest
      cases destination with
      | none =>
          exact draw_and_out "medium" "multitask.pdf" _ (multitaskPlot_adds results true) none d
            { d with printed := d.printed ++ [averages] } rfl rfl rfl rfl
      | some directory =>
          exact draw_and_out "medium" "multitask.pdf" _ (multitaskPlot_adds results true) (some directory) d
            { d with printed := d.printed ++ [averages], rc := rcUpdate (rcUpdate d.rc plotParms) [] } rfl rfl rfl (forPrint_medium _)

/-- **C121 is false of the pomcp launcher**: a destination is ignored; when the action ends the figures are shown and no file is written. -/
theorem C121_false_pomcp (path : String) (fs : LabFiles) (destination : Option String) (d : PlotDesk) :
    match pomcpPlotAction path fs destination d with
    | (.error _, d') => NothingOut d d'
    | (.ok _, d') => FigureShown d d' := by
  unfold pomcpPlotAction
  cases hres : (getResults path (pomcpExps.map Prod.fst) fs).1 with
  | error e => exact ⟨rfl, rfl⟩
  | ok results =>
      rcases hmc : pomcpPlot results d.canvas with ⟨r, c1⟩
      have hon : onCanvas (pomcpPlot results) d = (r, { d with canvas := c1 }) := by unfold onCanvas; rw [hmc]
      have e : (M.lift (Except.ok results : Py (List (String × JobResults))) >>= fun results => onCanvas (pomcpPlot results) >>= fun _ => pltShow :
          M PlotDesk Unit) d = (onCanvas (pomcpPlot results) >>= fun _ => pltShow) d := rfl
      rw [e]
      cases r with
      | error e => rw [M.bind_of_error hon]; exact ⟨rfl, rfl⟩
      | ok u => rw [M.bind_of_ok hon]; exact ⟨rfl, rfl, rfl⟩

/-! ### Missing results -/

theorem getResults_absent (path : String) (fs : LabFiles) : ∀ names, (∃ n ∈ names, fs (path, n ++ ".json") = none) →
    ∃ e, (getResults path names fs).1 = .error e := by
  have hkeep : ∀ name, (resultsFromOne path name fs).2 = fs := by
    intro name
    have hr : (readJson (path, name ++ ".json") fs).2 = fs := by
      unfold readJson
      split <;> rfl
    unfold resultsFromOne
    rw [M.bind_run]
    rcases h : readJson (path, name ++ ".json") fs with ⟨r, f⟩
    rw [h] at hr
    have hr : f = fs := hr
    subst hr
    cases r with
    | error e => rfl
    | ok j =>
        have hl : ∀ {α β : Type} (x : Py α) (f : α → M LabFiles β) (s : LabFiles), (∀ a, (f a s).2 = s) → ((M.lift x >>= f) s).2 = s := by
          intro α β x f s h
          cases x with
          | error e => rfl
          | ok a => exact h a
        exact hl _ _ _ fun e => hl _ _ _ fun l => hl _ _ _ fun a => hl _ _ _ fun b => hl _ _ _ fun c => rfl
  intro names
  induction names with
  | nil => rintro ⟨n, hn, -⟩; simp at hn
  | cons name names ih =>
      rintro ⟨n, hn, hf⟩
      unfold getResults
      rcases h : resultsFromOne path name fs with ⟨r, f⟩
      have hk := hkeep name
      rw [h] at hk
      have hk : f = fs := hk
      subst hk
      cases r with
      | error e => exact ⟨e, by rw [M.bind_of_error h]⟩
      | ok x =>
          rw [M.bind_of_ok h]
          rcases List.mem_cons.1 hn with rfl | hn
          · have h0 : readJson (path, n ++ ".json") f = (.error .osError, f) := by unfold readJson; rw [hf]
            have : resultsFromOne path n f = (.error .osError, f) := M.bind_of_error h0
            rw [this] at h
            cases h
          · obtain ⟨e, he⟩ := ih ⟨n, hn, hf⟩
            rcases h2 : getResults path names f with ⟨r2, f2⟩
            rw [h2] at he
            have he : r2 = .error e := he
            subst he
            exact ⟨e, by rw [M.bind_of_error h2]⟩

/-- **C121 (missing results).**  If the file of results of a job is missing, the action of each launcher raises an exception; nothing is shown and no
file is written. -/
theorem C121_missing (fmt : ℚ → String) (path : String) (fs : LabFiles) (destination : Option String) (d : PlotDesk) :
    ((∃ n ∈ pomcpExps.map Prod.fst, fs (path, n ++ ".json") = none) →
      ∃ e d', pomcpPlotAction path fs destination d = (.error e, d') ∧ NothingOut d d') ∧
    ((∃ n ∈ (preferenceExps fmt).map Prod.fst, fs (path, n ++ ".json") = none) →
      ∃ e d', preferencePlotAction fmt path fs destination d = (.error e, d') ∧ NothingOut d d') ∧
    ((∃ n ∈ multitaskExps.map Prod.fst, fs (path, n ++ ".json") = none) →
      ∃ e d', multitaskPlotAction path fs destination d = (.error e, d') ∧ NothingOut d d') := by
  refine ⟨?_, ?_, ?_⟩
  · intro h
    obtain ⟨e, he⟩ := getResults_absent path fs _ h
    refine ⟨e, d, ?_, rfl, rfl⟩
    unfold pomcpPlotAction
    rw [he]
    rfl
  · intro h
    obtain ⟨e, he⟩ := getResults_absent path fs _ h
    unfold preferencePlotAction
    rw [he]
    cases destination with
    | none => exact ⟨e, d, rfl, rfl, rfl⟩
    | some directory => exact ⟨e, { d with rc := rcUpdate (rcUpdate d.rc plotParms) [("axes.titlesize", "large")] }, rfl, rfl, rfl⟩
  · intro h
    obtain ⟨e, he⟩ := getResults_absent path fs _ h
    refine ⟨e, d, ?_, rfl, rfl⟩
    unfold multitaskPlotAction
    rw [he]
    rfl

/-! ### What is shown or saved -/

/-- What was shown or saved by an action that began with `d`, for the destination and the name of the file. -/
def outFigures (destination : Option String) (name : String) (d d' : PlotDesk) (axes : List Axes) : Prop :=
  match destination with
  | none => d'.shown = d.shown ++ [axes]
  | some directory => ∃ rc, d'.saved = d.saved ++ [((directory, name), axes, rc)]

/-- **C121 (figure of preferences).**  When all the results are read, the figure that is shown or saved is the one of C106; the deviations are drawn if
it is shown and not if it is saved. -/
theorem C121_preference_figure (fmt : ℚ → String) (hf : ∀ q ∈ pPreferenceValues, ∀ q' ∈ pPreferenceValues, fmt q = fmt q' → q = q')
    (J : String → JobWorld) (r : String → ExpResults) (N : Nat) (hN : 0 < N)
    (hlen : ∀ n ∈ (preferenceExps fmt).map Prod.fst, (r n).evaluations.length = N) (path : String) (fs : LabFiles)
    (hread : (getResults path ((preferenceExps fmt).map Prod.fst) fs).1 = .ok (readResults (preferenceExps fmt) J r))
    (destination : Option String) (d : PlotDesk) (hd : d.canvas = ⟨[], 0⟩) :
    ∃ a d', preferencePlotAction fmt path fs destination d = (.ok (), d') ∧ outFigures destination "preferences.pdf" d d' [a] ∧
      a.xlabel = "$p_H$" ∧ a.ylabel = "Average Return" ∧
      PanelShows (preferenceExps fmt) r Episode.ret pPreferenceValues (preferencePolicies.map fun pol => (pol, preferenceCond pol)) a ∧
      a.legend = a.curves.map (fun c => (c.color, c.label)) ∧ ∀ c ∈ a.curves, (c.bars = true ↔ destination = none) ∧ (c.band = true ↔ destination = none) := by
  obtain ⟨canvas, rc, printed, shown, saved⟩ := d
  have hd : canvas = ⟨[], 0⟩ := hd
  subst hd
  cases destination with
  | none =>
      obtain ⟨a, cur, h1, h2, h3, h4, h5, -, h7⟩ := C106_preference fmt hf J r N hN hlen true
      refine ⟨a, ⟨⟨[a], cur⟩, rc, printed, shown ++ [[a]], saved⟩, ?_, rfl, h2, h3, h4, h5, fun c hc => by simp [h7 c hc]⟩
      unfold preferencePlotAction
      rw [hread]
      have hon : onCanvas (preferencePlot fmt (readResults (preferenceExps fmt) J r) true) ⟨⟨[], 0⟩, rc, printed, shown, saved⟩ =
          (.ok (), ⟨⟨[a], cur⟩, rc, printed, shown, saved⟩) := by unfold onCanvas; simp only [h1]
      exact M.bind_of_ok (f := fun _ => pltShow) hon
  | some directory =>
      obtain ⟨a, cur, h1, h2, h3, h4, h5, -, h7⟩ := C106_preference fmt hf J r N hN hlen false
      refine ⟨a, ⟨⟨[a], cur⟩, rcUpdate (rcUpdate rc plotParms) [("axes.titlesize", "large")], printed, shown,
        saved ++ [((directory, "preferences.pdf"), [a], rcUpdate (rcUpdate rc plotParms) [("axes.titlesize", "large")])]⟩, ?_, ⟨_, rfl⟩, h2, h3, h4, h5,
        fun c hc => by simp [h7 c hc]⟩
      unfold preferencePlotAction
      rw [hread]
      have hon : onCanvas (preferencePlot fmt (readResults (preferenceExps fmt) J r) false)
          ⟨⟨[], 0⟩, rcUpdate (rcUpdate rc plotParms) [("axes.titlesize", "large")], printed, shown, saved⟩ =
          (.ok (), ⟨⟨[a], cur⟩, rcUpdate (rcUpdate rc plotParms) [("axes.titlesize", "large")], printed, shown, saved⟩) := by
        unfold onCanvas; simp only [h1]
      exact M.bind_of_ok (f := fun _ => saveFigure 0 directory "preferences.pdf") hon

/-- **C121 (figure of tasks).**  The same for the multitask launcher, which also prints the averages: the figure is the one of C106, without the policy
"repeat" but for the task "sequence", and is the same whether it is shown or saved. -/
theorem C121_multitask_figure (J : String → JobWorld) (r : String → ExpResults) (averages : List (List (Option ℚ))) (path : String) (fs : LabFiles)
    (hread : (getResults path (multitaskExps.map Prod.fst) fs).1 = .ok (readResults multitaskExps J r))
    (hav : printedAverages (readResults multitaskExps J r) = .ok averages) :
    ∃ s u a, s.ylabel = "Average Return" ∧ s.title = "Sequence" ∧ u.title = "Uniform" ∧ a.title = "Alternative" ∧
      s.boxes.map Prod.fst = ["pomcp", "repeat", "random"] ∧ u.boxes.map Prod.fst = ["pomcp", "random"] ∧ a.boxes.map Prod.fst = ["pomcp", "random"] ∧
      (∀ x ∈ [(s, "sequence"), (u, "uniform"), (a, "alternative")], ∀ box ∈ x.1.boxes,
        ∃ name, (name, [("task", ParamValue.str x.2), ("policy", .str box.1)]) ∈ multitaskExps ∧ box.2 = (r name).evaluations.map Episode.ret) ∧
      ∀ (destination : Option String) (d : PlotDesk), d.canvas = ⟨[], 0⟩ → ∃ d', multitaskPlotAction path fs destination d = (.ok (), d') ∧
        d'.printed = d.printed ++ [averages] ∧ outFigures destination "multitask.pdf" d d' [s, u, a] := by
  obtain ⟨s, u, a, cur, h1, h2, h3, h4, h5, h6, h7, h8⟩ := C106_multitask J r true
  refine ⟨s, u, a, h2, h3, h4, h5, h6, h7 u (by simp), h7 a (by simp), h8, ?_⟩
  rintro destination ⟨canvas, rc, printed, shown, saved⟩ hd
  have hd : canvas = ⟨[], 0⟩ := hd
  subst hd
  unfold multitaskPlotAction
  rw [hread]
  dsimp only
  rw [hav]
  dsimp only
  unfold multitaskPlotRest
  have hon : ∀ rc' printed', onCanvas (multitaskPlot (readResults multitaskExps J r) true) ⟨⟨[], 0⟩, rc', printed', shown, saved⟩ =
      (.ok (), ⟨⟨[s, u, a], cur⟩, rc', printed', shown, saved⟩) := by
    intro rc' printed'
    unfold onCanvas
    simp only [h1]
  cases destination with
  | none =>
      exact ⟨⟨⟨[s, u, a], cur⟩, rc, printed ++ [averages], shown ++ [[s, u, a]], saved⟩, M.bind_of_ok (f := fun _ => pltShow) (hon _ _), rfl, rfl⟩
  | some directory =>
      exact ⟨⟨⟨[s, u, a], cur⟩, rcUpdate (rcUpdate rc plotParms) [], printed ++ [averages], shown,
        saved ++ [((directory, "multitask.pdf"), [s, u, a], rcUpdate (rcUpdate rc plotParms) [])]⟩,
        M.bind_of_ok (f := fun _ => saveFigure 0 directory "multitask.pdf") (hon _ _), rfl, ⟨_, rfl⟩⟩

/-! ### The hypotheses hold -/

/-- A process that has not drawn anything. -/
def freshDesk : PlotDesk := ⟨⟨[], 0⟩, [("font.size", "12"), ("lines.linewidth", "1.5")], [], [], []⟩

/-- The files of results of the tasks, with one evaluation each. -/
def oneEvaluation : LabFiles := fun f =>
  if f.1 = "out" then some (some (.dict [("evaluations", .list [.dict [("return", .num 7), ("elapsed-time", .num 1), ("simulator-calls", .num 3)]])]))
  else none

/-- The results are read from these files, and the figure is saved; without the files nothing is. -/
example : (multitaskPlotAction "out" oneEvaluation (some "figures") freshDesk).1 = .ok () ∧
    (multitaskPlotAction "out" oneEvaluation (some "figures") freshDesk).2.saved.map Prod.fst = [("figures", "multitask.pdf")] ∧
    dget (multitaskPlotAction "out" oneEvaluation (some "figures") freshDesk).2.rc "font.size" = some "10" ∧
    dget (multitaskPlotAction "out" oneEvaluation (some "figures") freshDesk).2.rc "lines.linewidth" = some "1.5" ∧
    (multitaskPlotAction "elsewhere" oneEvaluation (some "figures") freshDesk).1 = .error .osError := by
  decide +kernel

/-- The hypotheses of the theorem on the figure of tasks. -/
example : (getResults "out" (multitaskExps.map Prod.fst) oneEvaluation).1 = .ok (readResults multitaskExps (fun _ => { demoJob with elapsed := fun _ => 1 })
    fun _ => ⟨[], [⟨7, [0], [], [], [], 3⟩]⟩) ∧
    printedAverages (readResults multitaskExps (fun _ => { demoJob with elapsed := fun _ => 1 }) fun _ => ⟨[], [⟨7, [0], [], [], [], 3⟩]⟩) =
      .ok (List.replicate 3 (List.replicate 3 (some 7))) := by
  refine ⟨?_, by decide +kernel⟩
  have h3 : ((3 : ℕ) : ℚ) = 3 := by norm_num
  have : ∀ names : List String, getResults "out" names oneEvaluation = (.ok (names.map fun n => (n, [.num 7], [.num 1], [.num 3])), oneEvaluation) := by
    intro names
    induction names with
    | nil => rfl
    | cons n names ih =>
        have h1 : resultsFromOne "out" n oneEvaluation = (.ok ([.num 7], [.num 1], [.num 3]), oneEvaluation) := rfl
        unfold getResults
        exact (M.bind_of_ok h1).trans (M.bind_of_ok ih)
  rw [this]
  simp only [readResults, summary, List.map_map, List.map_cons, List.map_nil, List.zipIdx_cons, List.zipIdx_nil, h3]
  rfl

end Verif
