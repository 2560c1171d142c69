import Verif.Model.Figures

/-!
# Model of the action `plot` of the launchers (`action_plot` in `samples/supportive_evaluation_{pomcp,preference,multitask}.py`)

* The argument `--plot-destination` is read by `expjobs.launcher.Launcher`, which is not part of the repository: it is given here.
* A figure that is saved or shown is the list of its axes (see `Figures`).  A file is its directory and its name, as for the results; a file that exists
  is replaced by `savefig`, which is not modelled: the files that were written are listed in order.
* `plt.show()` shows all figures.
-/

namespace Verif

/-- What the action changes: the axes made so far, `matplotlib.rcParams`, the averages printed, what was shown, and the figures saved, with the value of
`rcParams` when they were. -/
structure PlotDesk where
  canvas : Canvas
  rc : List (String × String)
  printed : List (List (List (Option ℚ)))
  shown : List (List Axes)
  saved : List (LabFile × List Axes × List (String × String))

/-- `plot_parms` of `ExpLauncher`, `evaluation.py:231-244`; the values are written as strings. -/
def plotParms : List (String × String) :=
  [("font.family", "serif"), ("font.size", "10"), ("font.serif", "Computer Modern Roman"), ("text.usetex", "True"), ("text.latex.unicode", "True"),
    ("axes.titlesize", "medium"), ("xtick.labelsize", "xx-small"), ("ytick.labelsize", "xx-small"), ("path.simplify", "True"),
    ("savefig.pad_inches", "0.0"), ("savefig.bbox", "tight"), ("figure.figsize", "(3.5, 2.5)")]

/-- `d.update(e)` of dictionaries of strings. -/
def rcUpdate (d e : List (String × String)) : List (String × String) := e.foldl (fun d kv => dset d kv.1 kv.2) d

/-- `set_matplotlib_params_for_print`, `evaluation.py:264-266`. -/
def setPrintParams (params : List (String × String)) : M PlotDesk Unit :=
  .modify fun d => { d with rc := rcUpdate (rcUpdate d.rc plotParms) params }

/-- Drawing, in the state of the action. -/
def onCanvas (m : M Canvas Unit) : M PlotDesk Unit := fun d =>
  ((m d.canvas).1, { d with canvas := (m d.canvas).2 })

/-- `plt.show()`. -/
def pltShow : M PlotDesk Unit := .modify fun d => { d with shown := d.shown ++ [d.canvas.axes] }

/-- `figure.savefig(os.path.join(directory, name), transparent=True)`, for the figure whose axes are those from number `i` on. -/
def saveFigure (i : Nat) (directory name : String) : M PlotDesk Unit :=
  .modify fun d => { d with saved := d.saved ++ [((directory, name), d.canvas.axes.drop i, d.rc)] }

/-- `action_plot` of the pomcp launcher, `samples/supportive_evaluation_pomcp.py:107-109`; `plot_results` begins with `get_results`.  The destination is
not used. -/
def pomcpPlotAction (path : String) (fs : LabFiles) (_destination : Option String) : M PlotDesk Unit := do
  let results ← M.lift (getResults path (pomcpExps.map Prod.fst) fs).1
  onCanvas (pomcpPlot results)
  pltShow

/-- `action_plot` of the preference launcher, `samples/supportive_evaluation_preference.py:71-81`; `plot_results` begins with `get_results`. -/
def preferencePlotAction (fmt : ℚ → String) (path : String) (fs : LabFiles) (destination : Option String) : M PlotDesk Unit := do
  if destination.isSome then setPrintParams [("axes.titlesize", "large")] else pure ()
  let results ← M.lift (getResults path ((preferenceExps fmt).map Prod.fst) fs).1
  let i ← M.read fun d => d.canvas.axes.length
  onCanvas (preferencePlot fmt results destination.isNone)
  match destination with
  | none => pltShow
  | some directory => saveFigure i directory "preferences.pdf"

/-- The rest of `action_plot` of the multitask launcher, `samples/supportive_evaluation_multitask.py:74-82`, from the results and the averages. -/
def multitaskPlotRest (destination : Option String) (results : List (String × JobResults)) (averages : List (List (Option ℚ))) : M PlotDesk Unit := do
  M.modify fun d => { d with printed := d.printed ++ [averages] }
  if destination.isSome then setPrintParams [] else pure ()
  let i ← M.read fun d => d.canvas.axes.length
  onCanvas (multitaskPlot results true)
  match destination with
  | none => pltShow
  | some directory => saveFigure i directory "multitask.pdf"

/-- `action_plot` of the multitask launcher, `samples/supportive_evaluation_multitask.py:72-82`, with `print_results`, 38-46, of which the averages are
kept; an exception of `print_results` leaves out the lines already printed. -/
def multitaskPlotAction (path : String) (fs : LabFiles) (destination : Option String) : M PlotDesk Unit :=
  match (getResults path (multitaskExps.map Prod.fst) fs).1 with
  | .error e => .raise e
  | .ok results => match printedAverages results with
      | .error e => .raise e
      | .ok averages => multitaskPlotRest destination results averages

end Verif
