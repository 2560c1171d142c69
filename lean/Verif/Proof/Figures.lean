import Verif.Spec.Figures
import Verif.Props.ResultFiles

/-! Proofs about the figures of the launchers (C106). -/

set_option linter.unusedSectionVars false
set_option linter.unusedSimpArgs false

namespace Verif
open Spec

/-- The column `col` of the results is the quantity `value`. -/
def Column (col : JobResults → List JVal) (value : Episode → ℚ) : Prop :=
  ∀ (J : JobWorld) (r : ExpResults), col (summary J r) = (r.evaluations.map value).map JVal.num

theorem column_returns : Column colReturns Episode.ret := by
  intro J r
  simp [colReturns, summary]

theorem column_calls : Column colCalls fun ep => (ep.calls : ℚ) := by
  intro J r
  simp [colCalls, summary]

theorem averageOf_num (l : List ℚ) (h : l ≠ []) : averageOf (l.map JVal.num) = .ok (some (l.sum / l.length)) := by
  unfold averageOf
  rw [asNumbers_map]
  simp [bind, Except.bind, h]

theorem varianceOf_num (l : List ℚ) (h : l ≠ []) :
    varianceOf (l.map JVal.num) = .ok (some ((l.map fun x => (x - l.sum / l.length) ^ 2).sum / l.length)) := by
  unfold varianceOf
  rw [asNumbers_map]
  simp [bind, Except.bind, h]

section
variable {l : Exps} {J : String → JobWorld} {r : String → ExpResults} {N : Nat}

/-- The results that are read. -/
def readResults (l : Exps) (J : String → JobWorld) (r : String → ExpResults) : List (String × JobResults) :=
  l.map fun e => (e.1, summary (J e.1) (r e.1))

theorem resultOf_ok (hn : (l.map Prod.fst).Nodup) {col : JobResults → List JVal} {value : Episode → ℚ} (hcol : Column col value)
    {name : String} (hm : name ∈ l.map Prod.fst) :
    resultOf (readResults l J r) col name = .ok (((r name).evaluations.map value).map JVal.num) := by
  obtain ⟨e, he, rfl⟩ := List.mem_map.1 hm
  have hd : dget (readResults l J r) e.1 = some (summary (J e.1) (r e.1)) := by
    refine dget_of_mem ?_ (List.mem_map.2 ⟨e, he, rfl⟩)
    have : (readResults l J r).map Prod.fst = l.map Prod.fst := by simp [readResults]
    rw [this]
    exact hn
  unfold resultOf
  rw [hd]
  simp only [hcol (J e.1) (r e.1)]

/-- The curve for a list of jobs. -/
def jobCurve (r : String → ExpResults) (value : Episode → ℚ) (names : List String) (x : List ℚ) (label : String) (color : Option String) (style : String) :
    Curve :=
  ⟨x, names.map fun n => some (meanBy value (r n)), names.map fun n => some (varianceBy value (r n)), label, color,
    style = "bar" ∨ style = "both", style = "fill" ∨ style = "both"⟩

theorem plotVar_ok (value : Episode → ℚ) (names : List String) (hne : names ≠ []) (hN : 0 < N) (hlen : ∀ n ∈ names, (r n).evaluations.length = N)
    (x : List ℚ) (hx : x.length = names.length) (ax : Option Nat) (label : String) (color : Option String) (style : String) (c : Canvas) :
    plotVar (names.map fun n => ((r n).evaluations.map value).map JVal.num) x ax label color style c =
      (.ok (), { c with axes := c.axes.modify (ax.getD c.current) fun a =>
        { a with curves := a.curves ++ [jobCurve r value names x label color style] } }) := by
  have hne' : ∀ n ∈ names, (r n).evaluations.map value ≠ [] := by
    intro n hn h0
    have := hlen n hn
    rw [List.map_eq_nil_iff] at h0
    rw [h0] at this
    simp at this
    omega
  have h1 : plottedMeans (names.map fun n => ((r n).evaluations.map value).map JVal.num) = .ok (names.map fun n => some (meanBy value (r n))) := by
    cases names with
    | nil => exact absurd rfl hne
    | cons a names =>
      rw [List.map_cons, plottedMeans, if_pos]
      · rw [← List.map_cons (f := fun n => ((r n).evaluations.map value).map JVal.num), List.mapM_map]
        refine mapM_ok_fun _ _ _ fun n hn => ?_
        rw [Function.comp_apply, averageOf_num _ (hne' n hn), meanBy, List.length_map]
      · rw [← List.map_cons (f := fun n => ((r n).evaluations.map value).map JVal.num), List.all_map, List.all_eq_true]
        intro n hn
        simp only [Function.comp_apply, decide_eq_true_eq, List.length_map]
        rw [hlen n hn, hlen a List.mem_cons_self]
  have h2 : plottedVars (names.map fun n => ((r n).evaluations.map value).map JVal.num) = .ok (names.map fun n => some (varianceBy value (r n))) := by
    unfold plottedVars
    rw [List.mapM_map]
    refine mapM_ok_fun _ _ _ fun n hn => ?_
    rw [Function.comp_apply, varianceOf_num _ (hne' n hn), varianceBy, List.length_map, List.map_map]
    rfl
  unfold plotVar
  rw [h1, h2]
  refine (M.bind_of_ok (show gca c = (.ok c.current, c) from rfl)).trans ?_
  refine (M.bind_of_ok (show M.lift _ c = (.ok _, c) from rfl)).trans ?_
  refine (M.bind_of_ok (show M.lift _ c = (.ok _, c) from rfl)).trans ?_
  rw [if_pos (by simpa using hx)]
  rfl

/-! ### The pomcp launcher -/

/-- The two axes of a figure on horizons. -/
def horizonAxes (r : String → ExpResults) (value : Episode → ℚ) (ylabel title : String) : List Axes :=
  [⟨"N Transitions Horizon", "Number of Transitions", ylabel,
      [jobCurve r value (horizonTransitions.map fun h => horizonName "transitions" h "ns") (abscissas horizonTransitions) "final rewards only" none "fill",
       jobCurve r value (horizonTransitions.map fun h => horizonName "transitions" h "s") (abscissas horizonTransitions) "subtask rewards" none "fill"], [], []⟩,
   ⟨title, "Number of HTM Transitions", "",
      [jobCurve r value (horizonHtm.map fun h => horizonName "htm" h "ns") (abscissas horizonHtm) "final rewards only" none "fill",
       jobCurve r value (horizonHtm.map fun h => horizonName "htm" h "s") (abscissas horizonHtm) "subtask rewards" none "fill"], [],
      [(none, "final rewards only"), (none, "subtask rewards")]⟩]

theorem modify_append {α : Type} (l : List α) (f : α → α) (i : Nat) (m : List α) : (l ++ m).modify (l.length + i) f = l ++ m.modify i f := by
  induction l with
  | nil => simp
  | cons a l ih =>
    rw [List.cons_append, List.length_cons, show l.length + 1 + i = (l.length + i) + 1 by omega, List.modify_succ_cons, ih, List.cons_append]

theorem rows_ok (hn : (l.map Prod.fst).Nodup) {col : JobResults → List JVal} {value : Episode → ℚ} (hcol : Column col value) {α : Type} (f : α → String)
    (ls : List α) (hm : ∀ h ∈ ls, f h ∈ l.map Prod.fst) :
    ls.mapM (fun h => resultOf (readResults l J r) col (f h)) = .ok ((ls.map f).map fun n => ((r n).evaluations.map value).map JVal.num) := by
  rw [List.map_map]
  exact mapM_ok_fun _ _ _ fun h hh => resultOf_ok hn hcol (hm h hh)

theorem horizonRows_ok (hn : (l.map Prod.fst).Nodup) {col : JobResults → List JVal} {value : Episode → ℚ} (hcol : Column col value) (t : String)
    (ls : List Nat) (hm : ∀ s ∈ ["ns", "s"], ∀ h ∈ ls, horizonName t h s ∈ l.map Prod.fst) :
    horizonRows (readResults l J r) col t ls = .ok
      [(ls.map fun h => horizonName t h "ns").map fun n => ((r n).evaluations.map value).map JVal.num,
       (ls.map fun h => horizonName t h "s").map fun n => ((r n).evaluations.map value).map JVal.num] := by
  unfold horizonRows
  rw [mapM_ok_fun _ (fun s => (ls.map fun h => horizonName t h s).map fun n => ((r n).evaluations.map value).map JVal.num)]
  · rfl
  · intro s hs
    exact rows_ok hn hcol _ _ fun h hh => hm s hs h hh

theorem horizonFigure_ok (hn : (l.map Prod.fst).Nodup) {col : JobResults → List JVal} {value : Episode → ℚ} (hcol : Column col value)
    (hN : 0 < N) (hlen : ∀ n ∈ l.map Prod.fst, (r n).evaluations.length = N)
    (h1 : ∀ s ∈ ["ns", "s"], ∀ h ∈ horizonTransitions, horizonName "transitions" h s ∈ l.map Prod.fst)
    (h2 : ∀ s ∈ ["ns", "s"], ∀ h ∈ horizonHtm, horizonName "htm" h s ∈ l.map Prod.fst) (ylabel title : String) (c : Canvas) :
    horizonFigure (readResults l J r) col ylabel title c =
      (.ok (), ⟨c.axes ++ horizonAxes r value ylabel title, c.axes.length + 1⟩) := by
  have hlenT : ∀ s ∈ ["ns", "s"], ∀ n ∈ horizonTransitions.map fun h => horizonName "transitions" h s, (r n).evaluations.length = N := by
    intro s hs n hn'
    obtain ⟨h, hh, rfl⟩ := List.mem_map.1 hn'
    exact hlen _ (h1 s hs h hh)
  have hlenH : ∀ s ∈ ["ns", "s"], ∀ n ∈ horizonHtm.map fun h => horizonName "htm" h s, (r n).evaluations.length = N := by
    intro s hs n hn'
    obtain ⟨h, hh, rfl⟩ := List.mem_map.1 hn'
    exact hlen _ (h2 s hs h hh)
  unfold horizonFigure
  rw [horizonRows_ok hn hcol _ _ h1, horizonRows_ok hn hcol _ _ h2]
  refine (M.bind_of_ok (show addAxes 2 c = (.ok c.axes.length, ⟨c.axes ++ [.empty, .empty], c.axes.length + 1⟩) from rfl)).trans ?_
  generalize hk : c.axes.length = k
  have step : ∀ (i : Nat) (f : Axes → Axes) (m : List Axes), (c.axes ++ m).modify (k + i) f = c.axes ++ m.modify i f := by
    intro i f m
    rw [← hk]
    exact modify_append _ _ _ _
  have step0 : ∀ (f : Axes → Axes) (m : List Axes), (c.axes ++ m).modify k f = c.axes ++ m.modify 0 f := fun f m => step 0 f m
  refine (M.bind_of_ok (show setYlabel k ylabel _ = (.ok (), _) from rfl)).trans ?_
  refine (M.bind_of_ok (show M.lift _ _ = (.ok _, _) from rfl)).trans ?_
  refine (M.bind_of_ok (show M.lift _ _ = (.ok _, _) from rfl)).trans ?_
  refine (M.bind_of_ok (plotVar_ok value _ (by decide) hN (hlenT "ns" (by simp)) _ (by simp [abscissas]) _ _ _ _ _)).trans ?_
  refine (M.bind_of_ok (plotVar_ok value _ (by decide) hN (hlenT "s" (by simp)) _ (by simp [abscissas]) _ _ _ _ _)).trans ?_
  refine (M.bind_of_ok (show setTitle k _ _ = (.ok (), _) from rfl)).trans ?_
  refine (M.bind_of_ok (show setXlabel k _ _ = (.ok (), _) from rfl)).trans ?_
  refine (M.bind_of_ok (plotVar_ok value _ (by decide) hN (hlenH "ns" (by simp)) _ (by simp [abscissas]) _ _ _ _ _)).trans ?_
  refine (M.bind_of_ok (plotVar_ok value _ (by decide) hN (hlenH "s" (by simp)) _ (by simp [abscissas]) _ _ _ _ _)).trans ?_
  refine (M.bind_of_ok (show setTitle (k + 1) _ _ = (.ok (), _) from rfl)).trans ?_
  refine (M.bind_of_ok (show setXlabel (k + 1) _ _ = (.ok (), _) from rfl)).trans ?_
  refine (M.bind_of_ok (show setLegend (k + 1) _ = (.ok (), _) from rfl)).trans ?_
  refine (M.bind_of_ok (show gca _ = (.ok _, _) from rfl)).trans ?_
  simp only [setTitle, onAxes, M.modify, Option.getD_some, step, step0, List.modify_zero_cons, List.modify_succ_cons, List.modify_nil]
  rfl

/-- The curve of a number of rollouts. -/
def iterationCurve (r : String → ExpResults) (k : Nat) : Curve :=
  jobCurve r Episode.ret (nIterations.map fun i => iterationsName i k) (abscissas nIterations) (pyStr k ++ " rollout iterations") none "fill"

theorem iterationCurves_ok (hn : (l.map Prod.fst).Nodup) (hN : 0 < N) (hlen : ∀ n ∈ l.map Prod.fst, (r n).evaluations.length = N) (rs : List Nat)
    (h : ∀ k ∈ rs, ∀ i ∈ nIterations, iterationsName i k ∈ l.map Prod.fst) (base : List Axes) (a : Axes) :
    iterationCurves (readResults l J r) rs ⟨base ++ [a], base.length⟩ =
      (.ok (), ⟨base ++ [{ a with curves := a.curves ++ rs.map (iterationCurve r) }], base.length⟩) := by
  induction rs generalizing a with
  | nil => simp [iterationCurves, M.pure_run]
  | cons k rs ih =>
    unfold iterationCurves
    rw [rows_ok hn column_returns (fun i => iterationsName i k) _ (h k (by simp))]
    refine (M.bind_of_ok (show M.lift _ _ = (.ok _, _) from rfl)).trans ?_
    have hlen' : ∀ n ∈ nIterations.map fun i => iterationsName i k, (r n).evaluations.length = N := by
      intro n hn'
      obtain ⟨i, hi, rfl⟩ := List.mem_map.1 hn'
      exact hlen _ (h k (by simp) i hi)
    refine (M.bind_of_ok (plotVar_ok Episode.ret _ (by simp [nIterations]) hN hlen' _ (by simp [abscissas]) _ _ _ _ _)).trans ?_
    rw [Option.getD_none]
    have := modify_append base (fun a : Axes => { a with curves := a.curves ++ [jobCurve r Episode.ret (nIterations.map fun i => iterationsName i k)
      (abscissas nIterations) (pyStr k ++ " rollout iterations") none "fill"] }) 0 [a]
    rw [Nat.add_zero] at this
    dsimp only at this ⊢
    rw [this, List.modify_zero_cons, ih (fun k' h' => h k' (by simp [h']))]
    simp [iterationCurve]

/-- The axes of the figure on numbers of iterations. -/
def iterationAxes (r : String → ExpResults) : Axes :=
  ⟨"Average returns for various numbers of iterations", "Number of iterations", "Average return", nRolloutIt.map (iterationCurve r), [],
    nRolloutIt.map fun k => (none, pyStr k ++ " rollout iterations")⟩

/-- What the pomcp launcher draws. -/
theorem pomcpPlot_ok (hN : 0 < N) (hlen : ∀ n ∈ pomcpExps.map Prod.fst, (r n).evaluations.length = N) (c : Canvas) :
    pomcpPlot (readResults pomcpExps J r) c = (.ok (), ⟨c.axes ++ (horizonAxes r Episode.ret "Average return" "Average returns for various horizons" ++
      horizonAxes r (fun ep => (ep.calls : ℚ)) "Average number of calls to simulator" "Simulator calls for various horizons" ++ [iterationAxes r]),
        c.axes.length + 4⟩) := by
  obtain ⟨-, -, hn, hall⟩ := C82_names (fun _ => "")
  have h1 : ∀ s ∈ ["ns", "s"], ∀ h ∈ horizonTransitions, horizonName "transitions" h s ∈ pomcpExps.map Prod.fst := by
    intro s hs h hh
    refine hall _ (List.mem_append_left _ (List.mem_flatMap.2 ⟨s, hs, List.mem_append_left _ (List.mem_map_of_mem hh)⟩))
  have h2 : ∀ s ∈ ["ns", "s"], ∀ h ∈ horizonHtm, horizonName "htm" h s ∈ pomcpExps.map Prod.fst := by
    intro s hs h hh
    refine hall _ (List.mem_append_left _ (List.mem_flatMap.2 ⟨s, hs, List.mem_append_right _ (List.mem_map_of_mem hh)⟩))
  have h3 : ∀ k ∈ nRolloutIt, ∀ i ∈ nIterations, iterationsName i k ∈ pomcpExps.map Prod.fst := by
    intro k hk i hi
    exact hall _ (List.mem_append_right _ (List.mem_flatMap.2 ⟨k, hk, List.mem_map_of_mem (f := fun i => iterationsName i k) hi⟩))
  unfold pomcpPlot
  refine (M.bind_of_ok (horizonFigure_ok hn column_returns hN hlen h1 h2 _ _ _)).trans ?_
  refine (M.bind_of_ok (horizonFigure_ok hn column_calls hN hlen h1 h2 _ _ _)).trans ?_
  dsimp only
  generalize hb : c.axes ++ horizonAxes r Episode.ret "Average return" "Average returns for various horizons" ++
    horizonAxes r (fun ep => (ep.calls : ℚ)) "Average number of calls to simulator" "Simulator calls for various horizons" = base
  have hbl : base.length = c.axes.length + 4 := by
    rw [← hb]
    simp [horizonAxes]
  have hmod : ∀ (f : Axes → Axes) (a : Axes), (base ++ [a]).modify base.length f = base ++ [f a] := by
    intro f a
    have := modify_append base f 0 [a]
    rwa [Nat.add_zero, List.modify_zero_cons] at this
  refine (M.bind_of_ok (show addAxes 1 _ = (.ok base.length, ⟨base ++ [.empty], base.length⟩) from rfl)).trans ?_
  refine (M.bind_of_ok (s1 := ⟨base ++ [⟨"", "", "Average return", [], [], []⟩], base.length⟩) (a := ()) (by
    simp only [setYlabel, onAxes, M.modify, hmod, Axes.empty])).trans ?_
  refine (M.bind_of_ok (s1 := ⟨base ++ [⟨"", "Number of iterations", "Average return", [], [], []⟩], base.length⟩) (a := ()) (by
    simp only [setXlabel, onAxes, M.modify, hmod, Axes.empty])).trans ?_
  refine (M.bind_of_ok (iterationCurves_ok hn hN hlen _ h3 _ _)).trans ?_
  refine (M.bind_of_ok (s1 := ⟨base ++ [{ iterationAxes r with title := "" }], base.length⟩) (a := ()) ?_).trans ?_
  · refine (M.bind_of_ok (show gca _ = (.ok _, _) from rfl)).trans ?_
    simp only [setLegend, onAxes, M.modify, hmod, iterationAxes, List.nil_append]
    simp [iterationCurve, jobCurve]
  · refine (M.bind_of_ok (show gca _ = (.ok _, _) from rfl)).trans ?_
    simp only [setTitle, onAxes, M.modify, hmod]
    rw [← hb] at hbl ⊢
    rw [hbl]
    simp [iterationAxes]

/-! ### The preference launcher -/

/-- The curve of a policy. -/
def preferenceCurve (fmt : ℚ → String) (r : String → ExpResults) (var : Bool) (x : String × String) : Curve :=
  jobCurve r Episode.ret (pPreferenceValues.map fun q => preferenceName fmt q x.1) pPreferenceValues x.1 (some x.2) (if var then "both" else "none")

theorem preferenceCurves_ok (fmt : ℚ → String) (hn : (l.map Prod.fst).Nodup) (hN : 0 < N) (hlen : ∀ n ∈ l.map Prod.fst, (r n).evaluations.length = N)
    (var : Bool) (xs : List (String × String)) (h : ∀ x ∈ xs, ∀ q ∈ pPreferenceValues, preferenceName fmt q x.1 ∈ l.map Prod.fst) (base : List Axes) (a : Axes) :
    preferenceCurves fmt (readResults l J r) var xs ⟨base ++ [a], base.length⟩ =
      (.ok (), ⟨base ++ [{ a with curves := a.curves ++ xs.map (preferenceCurve fmt r var) }], base.length⟩) := by
  induction xs generalizing a with
  | nil => simp [preferenceCurves, M.pure_run]
  | cons x xs ih =>
    obtain ⟨pol, col⟩ := x
    unfold preferenceCurves
    rw [rows_ok hn column_returns (fun q => preferenceName fmt q pol) _ (h (pol, col) (by simp))]
    refine (M.bind_of_ok (show M.lift _ _ = (.ok _, _) from rfl)).trans ?_
    have hlen' : ∀ n ∈ pPreferenceValues.map fun q => preferenceName fmt q pol, (r n).evaluations.length = N := by
      intro n hn'
      obtain ⟨i, hi, rfl⟩ := List.mem_map.1 hn'
      exact hlen _ (h (pol, col) (by simp) i hi)
    refine (M.bind_of_ok (plotVar_ok Episode.ret _ (by simp [pPreferenceValues, List.range_succ]) hN hlen' _ (by simp) _ _ _ _ _)).trans ?_
    rw [Option.getD_none]
    have := modify_append base (fun a : Axes => { a with curves := a.curves ++ [jobCurve r Episode.ret (pPreferenceValues.map fun q => preferenceName fmt q pol)
      pPreferenceValues pol (some col) (if var then "both" else "none")] }) 0 [a]
    rw [Nat.add_zero] at this
    dsimp only at this ⊢
    rw [this, List.modify_zero_cons, ih (fun k' h' => h k' (by simp [h']))]
    simp [preferenceCurve]

/-- The axes of the preference launcher. -/
def preferenceAxes (fmt : ℚ → String) (r : String → ExpResults) (var : Bool) : Axes :=
  ⟨"", "$p_H$", "Average Return", (preferencePolicies.zip preferenceColors).map (preferenceCurve fmt r var), [],
    [(some "#44ac66", "never-hold"), (some "#1f82f9", "always-hold"), (some "#bb0c36", "pomcp")]⟩

theorem preferencePlot_ok (fmt : ℚ → String) (hf : ∀ q ∈ pPreferenceValues, ∀ q' ∈ pPreferenceValues, fmt q = fmt q' → q = q') (hN : 0 < N)
    (hlen : ∀ n ∈ (preferenceExps fmt).map Prod.fst, (r n).evaluations.length = N) (var : Bool) (c : Canvas) :
    preferencePlot fmt (readResults (preferenceExps fmt) J r) var c = (.ok (), ⟨c.axes ++ [preferenceAxes fmt r var], c.axes.length⟩) := by
  obtain ⟨-, ⟨hn, hall⟩, -⟩ := C82_names fmt
  have h3 : ∀ x ∈ preferencePolicies.zip preferenceColors, ∀ q ∈ pPreferenceValues, preferenceName fmt q x.1 ∈ (preferenceExps fmt).map Prod.fst := by
    intro x hx q hq
    have : x.1 ∈ preferencePolicies := (List.of_mem_zip (a := x.1) (b := x.2) hx).1
    exact hall _ (List.mem_flatMap.2 ⟨x.1, this, List.mem_map_of_mem (f := fun q => preferenceName fmt q x.1) hq⟩)
  have hmod : ∀ (f : Axes → Axes) (a : Axes), (c.axes ++ [a]).modify c.axes.length f = c.axes ++ [f a] := by
    intro f a
    have := modify_append c.axes f 0 [a]
    rwa [Nat.add_zero, List.modify_zero_cons] at this
  unfold preferencePlot
  refine (M.bind_of_ok (show addAxes 1 c = (.ok c.axes.length, ⟨c.axes ++ [.empty], c.axes.length⟩) from rfl)).trans ?_
  refine (M.bind_of_ok (s1 := ⟨c.axes ++ [⟨"", "", "Average Return", [], [], []⟩], c.axes.length⟩) (a := ()) (by
    simp only [setYlabel, onAxes, M.modify, hmod, Axes.empty])).trans ?_
  refine (M.bind_of_ok (s1 := ⟨c.axes ++ [⟨"", "$p_H$", "Average Return", [], [], []⟩], c.axes.length⟩) (a := ()) (by
    simp only [setXlabel, onAxes, M.modify, hmod, Axes.empty])).trans ?_
  refine (M.bind_of_ok (preferenceCurves_ok fmt (hn hf) hN hlen var _ h3 _ _)).trans ?_
  simp only [onAxes, M.modify, hmod, List.nil_append]
  rfl

/-! ### The multitask launcher -/

/-- The axes of a task. -/
def taskAxes (r : String → ExpResults) (excludeRepeat : Bool) (t ylabel : String) : Axes :=
  ⟨capitalized t, "", ylabel, [], (shownPolicies excludeRepeat t).map fun pol => (pol, (r (t ++ "-" ++ pol)).evaluations.map Episode.ret), []⟩

theorem zip_map_self {α β : Type} (f : α → β) (l : List α) : l.zip (l.map f) = l.map fun x => (x, f x) := by
  induction l with
  | nil => rfl
  | cons a l ih => simp [ih]

theorem taskBoxes_ok (hn : (l.map Prod.fst).Nodup) (b : Bool) (ts : List String)
    (h : ∀ t ∈ ts, ∀ pol ∈ shownPolicies b t, t ++ "-" ++ pol ∈ l.map Prod.fst) (base : List Axes) (k : Nat) :
    taskBoxes (readResults l J r) b base.length ts ⟨base ++ List.replicate ts.length .empty, k⟩ =
      (.ok (), ⟨base ++ ts.map fun t => taskAxes r b t "", k⟩) := by
  induction ts generalizing base with
  | nil => simp [taskBoxes, M.pure_run]
  | cons t ts ih =>
    unfold taskBoxes
    have hdata : boxData (readResults l J r) t (shownPolicies b t) =
        .ok ((shownPolicies b t).map fun pol => (r (t ++ "-" ++ pol)).evaluations.map Episode.ret) := by
      unfold boxData
      refine mapM_ok_fun _ _ _ fun pol hp => ?_
      rw [resultOf_ok hn column_returns (h t (by simp) pol hp)]
      exact asNumbers_map _
    rw [hdata]
    refine (M.bind_of_ok (show M.lift _ _ = (.ok _, _) from rfl)).trans ?_
    have hmod : ∀ (f : Axes → Axes) (a : Axes) (m : List Axes), (base ++ a :: m).modify base.length f = base ++ f a :: m := by
      intro f a m
      have := modify_append base f 0 (a :: m)
      rwa [Nat.add_zero, List.modify_zero_cons] at this
    rw [List.length_cons, List.replicate_succ]
    refine (M.bind_of_ok (s1 := ⟨base ++ (⟨"", "", "", [], (shownPolicies b t).map fun pol => (pol, (r (t ++ "-" ++ pol)).evaluations.map Episode.ret), []⟩ :: List.replicate ts.length .empty), k⟩)
      (a := ()) (by
        simp only [onAxes, M.modify, hmod, Axes.empty]
        congr
        exact zip_map_self _ _)).trans ?_
    refine (M.bind_of_ok (s1 := ⟨(base ++ [taskAxes r b t ""]) ++ List.replicate ts.length .empty, k⟩) (a := ()) (by
        simp only [setTitle, onAxes, M.modify, hmod, List.append_assoc, List.singleton_append]
        rfl)).trans ?_
    have := ih (fun t' h' => h t' (by simp [h'])) (base ++ [taskAxes r b t ""])
    rw [List.length_append, List.length_singleton] at this
    rw [this]
    simp

theorem multitaskPlot_ok (b : Bool) (c : Canvas) :
    multitaskPlot (readResults multitaskExps J r) b c = (.ok (), ⟨c.axes ++
      [taskAxes r b "sequence" "Average Return", taskAxes r b "uniform" "", taskAxes r b "alternative" ""], c.axes.length + 2⟩) := by
  obtain ⟨⟨hn, hall⟩, -⟩ := C82_names (fun _ => "")
  have h3 : ∀ t ∈ multitaskTasks, ∀ pol ∈ shownPolicies b t, t ++ "-" ++ pol ∈ multitaskExps.map Prod.fst := by
    intro t ht pol hp
    exact hall b _ (List.mem_append_right _ (List.mem_flatMap.2 ⟨t, ht, List.mem_map_of_mem (f := fun p => t ++ "-" ++ p) hp⟩))
  unfold multitaskPlot
  refine (M.bind_of_ok (show addAxes 3 c = (.ok c.axes.length, ⟨c.axes ++ List.replicate multitaskTasks.length .empty, c.axes.length + 2⟩) from rfl)).trans ?_
  refine (M.bind_of_ok (taskBoxes_ok hn b multitaskTasks h3 c.axes (c.axes.length + 2))).trans ?_
  simp only [setYlabel, onAxes, M.modify]
  have := modify_append c.axes (fun a : Axes => { a with ylabel := "Average Return" }) 0 (multitaskTasks.map fun t => taskAxes r b t "")
  rw [Nat.add_zero] at this
  rw [this]
  rfl

end

end Verif
