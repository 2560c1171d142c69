import Verif.Model.ResultFiles

/-!
# Model of the figures of the launchers (`utils/plot.py:81-148`, `samples/supportive_evaluation_{pomcp,preference,multitask}.py`)

* A drawing of matplotlib is the list of the axes made so far, in all figures, each with what is written and drawn on it.  `plt.gca()` is the last of
  the axes of the last figure, as no axes are selected otherwise.  What does not change the data or the texts is left out: line widths, spines
  (`remove_chartjunk`), limits, alpha, and the printing parameters.
* `np.std` is the square root of the variance; the variances are kept here.
* What `ax.boxplot` draws is computed by matplotlib from the data, which are kept here with the labels of the ticks.
-/

namespace Verif

/-- A curve of `plot_var`: abscissas, means, variances, label and color (`none` if chosen by matplotlib); whether the deviations are drawn as bars and
as a band. -/
structure Curve where
  x : List ℚ
  mean : List (Option ℚ)
  var : List (Option ℚ)
  label : String
  color : Option String
  bars : Bool
  band : Bool
  deriving DecidableEq

/-- Axes: texts, curves, boxes (label of the tick and data) and the entries of the legend (color and text). -/
structure Axes where
  title : String
  xlabel : String
  ylabel : String
  curves : List Curve
  boxes : List (String × List ℚ)
  legend : List (Option String × String)
  deriving DecidableEq

/-- New axes. -/
def Axes.empty : Axes := ⟨"", "", "", [], [], []⟩

/-- The axes made so far and the position of the current ones. -/
structure Canvas where
  axes : List Axes
  current : Nat
  deriving DecidableEq

/-- A new figure with `k` axes, of which the last is the current one (`plt.subplots`, `add_subplot`, `plt.gca` after `plt.figure`); the position of the
first. -/
def addAxes (k : Nat) : M Canvas Nat := fun c => (.ok c.axes.length, ⟨c.axes ++ List.replicate k .empty, c.axes.length + k - 1⟩)

/-- Changes the axes `i`. -/
def onAxes (i : Nat) (f : Axes → Axes) : M Canvas Unit := .modify fun c => { c with axes := c.axes.modify i f }

/-- `set_title`, `set_xlabel` and `set_ylabel` of axes. -/
def setTitle (i : Nat) (s : String) : M Canvas Unit := onAxes i fun a => { a with title := s }

@[inherit_doc setTitle]
def setXlabel (i : Nat) (s : String) : M Canvas Unit := onAxes i fun a => { a with xlabel := s }

@[inherit_doc setTitle]
def setYlabel (i : Nat) (s : String) : M Canvas Unit := onAxes i fun a => { a with ylabel := s }

/-- `ax.legend()`: the labels of the curves. -/
def setLegend (i : Nat) : M Canvas Unit := onAxes i fun a => { a with legend := a.curves.map fun c => (c.color, c.label) }

/-- `plt.gca()`. -/
def gca : M Canvas Nat := .read Canvas.current

/-- `plt.title`. -/
def pltTitle (s : String) : M Canvas Unit := do
  let i ← gca
  setTitle i s

/-- `plt.legend()`. -/
def pltLegend : M Canvas Unit := do
  let i ← gca
  setLegend i

/-- `np.var(l)`, the square of `np.std(l)`; `none` for `nan`. -/
def varianceOf (l : List JVal) : Py (Option ℚ) := do
  let l ← asNumbers l
  .ok (if l = [] then none else some ((l.map fun x => (x - l.sum / l.length) ^ 2).sum / l.length))

/-- `np.std(y, axis=1)`, `utils/plot.py:94`, squared; rows of different lengths are refused by `plottedMeans` before. -/
def plottedVars (rows : List (List JVal)) : Py (List (Option ℚ)) := rows.mapM varianceOf

/-- `plot_var`, `utils/plot.py:81-111`, with abscissas given and `var=True`; matplotlib refuses abscissas and ordinates of different lengths. -/
def plotVar (y : List (List JVal)) (x : List ℚ) (ax : Option Nat) (label : String) (color : Option String) (style : String) : M Canvas Unit := do
  let i ← gca
  let mean ← M.lift (plottedMeans y)
  let var ← M.lift (plottedVars y)
  if x.length = mean.length then
    onAxes (ax.getD i) fun a => { a with curves := a.curves ++
      [⟨x, mean, var, label, color, style = "bar" ∨ style = "both", style = "fill" ∨ style = "both"⟩] }
  else .raise .valueError

/-- `results[name]`, of which `col` is one of the three lists. -/
def resultOf (results : List (String × JobResults)) (col : JobResults → List JVal) (name : String) : Py (List JVal) :=
  match dget results name with
  | some r => .ok (col r)
  | none => .error .keyError

/-- `results[name][0]`. -/
def colReturns (r : JobResults) : List JVal := r.1

/-- `results[name][2]`. -/
def colCalls (r : JobResults) : List JVal := r.2.2

/-- The abscissas. -/
def abscissas (l : List Nat) : List ℚ := l.map fun n => (n : ℚ)

/-- The results for the horizons of one type, `samples/supportive_evaluation_pomcp.py:51-56, 78-83`. -/
def horizonRows (results : List (String × JobResults)) (col : JobResults → List JVal) (t : String) (ls : List Nat) : Py (List (List (List JVal))) :=
  ["ns", "s"].mapM fun s => ls.mapM fun h => resultOf results col (horizonName t h s)

/-- One of the two figures on horizons, `samples/supportive_evaluation_pomcp.py:49-73` (returns) and `76-99` (calls); the code of the second is the
code of the first with other texts and the other list of the results. -/
def horizonFigure (results : List (String × JobResults)) (col : JobResults → List JVal) (ylabel title : String) : M Canvas Unit := do
  let a ← addAxes 2
  setYlabel a ylabel
  let tr ← M.lift (horizonRows results col "transitions" horizonTransitions)
  let ht ← M.lift (horizonRows results col "htm" horizonHtm)
  plotVar (tr.getD 0 []) (abscissas horizonTransitions) (some a) "final rewards only" none "fill"
  plotVar (tr.getD 1 []) (abscissas horizonTransitions) (some a) "subtask rewards" none "fill"
  setTitle a "N Transitions Horizon"
  setXlabel a "Number of Transitions"
  plotVar (ht.getD 0 []) (abscissas horizonHtm) (some (a + 1)) "final rewards only" none "fill"
  plotVar (ht.getD 1 []) (abscissas horizonHtm) (some (a + 1)) "subtask rewards" none "fill"
  setTitle (a + 1) "N HTM Horizon"
  setXlabel (a + 1) "Number of HTM Transitions"
  setLegend (a + 1)
  pltTitle title

/-- The curves on the numbers of iterations, `samples/supportive_evaluation_pomcp.py:105-109`. -/
def iterationCurves (results : List (String × JobResults)) : List Nat → M Canvas Unit
  | [] => pure ()
  | r :: rs => do
      let y ← M.lift (nIterations.mapM fun i => resultOf results colReturns (iterationsName i r))
      plotVar y (abscissas nIterations) none (pyStr r ++ " rollout iterations") none "fill"
      iterationCurves results rs

/-- `plot_results` of the pomcp launcher, `samples/supportive_evaluation_pomcp.py:44-111`, from the results that were read. -/
def pomcpPlot (results : List (String × JobResults)) : M Canvas Unit := do
  horizonFigure results colReturns "Average return" "Average returns for various horizons"
  horizonFigure results colCalls "Average number of calls to simulator" "Simulator calls for various horizons"
  let a ← addAxes 1
  setYlabel a "Average return"
  setXlabel a "Number of iterations"
  iterationCurves results nRolloutIt
  pltLegend
  pltTitle "Average returns for various numbers of iterations"

/-- The colors of the preference launcher, `samples/supportive_evaluation_preference.py:51`. -/
def preferenceColors : List String := ["#44ac66", "#1f82f9", "#bb0c36"]

/-- The curves of the preference launcher, `samples/supportive_evaluation_preference.py:53-63`. -/
def preferenceCurves (fmt : ℚ → String) (results : List (String × JobResults)) (var : Bool) : List (String × String) → M Canvas Unit
  | [] => pure ()
  | (pol, col) :: l => do
      let y ← M.lift (pPreferenceValues.mapM fun q => resultOf results colReturns (preferenceName fmt q pol))
      plotVar y pPreferenceValues none pol (some col) (if var then "both" else "none")
      preferenceCurves fmt results var l

/-- `plot_results` of the preference launcher, `samples/supportive_evaluation_preference.py:42-71`: the legend shows the colors of the lines with the
names of the policies. -/
def preferencePlot (fmt : ℚ → String) (results : List (String × JobResults)) (var : Bool) : M Canvas Unit := do
  let a ← addAxes 1
  setYlabel a "Average Return"
  setXlabel a "$p_H$"
  preferenceCurves fmt results var (preferencePolicies.zip preferenceColors)
  onAxes a fun x => { x with legend := (x.curves.map Curve.color).zip preferencePolicies }

/-- The policies shown for a task, `samples/supportive_evaluation_multitask.py:60-64`. -/
def shownPolicies (excludeRepeat : Bool) (t : String) : List String :=
  if excludeRepeat then multitaskPolicies.filter fun p => t = "sequence" ∨ p ≠ "repeat" else multitaskPolicies

/-- The data of the boxes of a task. -/
def boxData (results : List (String × JobResults)) (t : String) (pols : List String) : Py (List (List ℚ)) :=
  pols.mapM fun pol => do
    let l ← resultOf results colReturns (t ++ "-" ++ pol)
    asNumbers l

/-- `task.capitalize()` for the three tasks. -/
def capitalized (t : String) : String :=
  if t = "sequence" then "Sequence" else if t = "uniform" then "Uniform" else if t = "alternative" then "Alternative" else t

/-- The axes of the tasks, `samples/supportive_evaluation_multitask.py:58-71`, from the axes `i` on; `boxplot`, `utils/plot.py:114-148`. -/
def taskBoxes (results : List (String × JobResults)) (excludeRepeat : Bool) : Nat → List String → M Canvas Unit
  | _, [] => pure ()
  | i, t :: ts => do
      let data ← M.lift (boxData results t (shownPolicies excludeRepeat t))
      onAxes i fun a => { a with boxes := (shownPolicies excludeRepeat t).zip data }
      setTitle i (capitalized t)
      taskBoxes results excludeRepeat (i + 1) ts

/-- `plot_results` of the multitask launcher, `samples/supportive_evaluation_multitask.py:48-73`. -/
def multitaskPlot (results : List (String × JobResults)) (excludeRepeat : Bool) : M Canvas Unit := do
  let a ← addAxes 3
  taskBoxes results excludeRepeat a multitaskTasks
  setYlabel a "Average Return"

end Verif
