import Verif.Model.PolicyPage

/-!
# Heat maps: `plot.py`, `plot_values` in `samples/htm2pomdp.py` and `samples/icra_scenario2pomdp.py`, and the helpers of `utils/plot.py`

Axes of matplotlib have the cells of a mesh, ticks with labels, limits and the lines around (spines); `pcolormesh(a)` draws the entry in row `i` and column
`j` as the square from `(j, i)` to `(j + 1, i + 1)`, darker when it is greater, and nothing for `nan`.  Numbers are rational; `none` is `nan`.  Arrays of
values are of floating point numbers.  The styles (width of lines, alignment, fonts) are not modelled, but for the spines.
-/

namespace Verif

/-- An array with two dimensions: its rows, and the number of columns, which is not given by the rows if there is none. -/
structure MeshArray where
  rows : List (List (Option ℚ))
  cols : Nat
  deriving DecidableEq

/-- What is drawn on the axes. -/
structure MeshAxes where
  cells : List (List (Option ℚ))
  cmap : String
  xticks : List (ℚ × List Char)
  yticks : List (ℚ × List Char)
  xlim : ℚ × ℚ
  ylim : ℚ × ℚ
  grid : Bool
  deriving DecidableEq

/-- `np.arange(0.5, n + 0.5)`, `plot.py:20`, `22`. -/
def ticksAt (n : Nat) : List ℚ := (List.range n).map fun (i : Nat) => (i : ℚ) + 1 / 2

/-- `[str(i) for i in range(n)]`, `plot.py:10`, `13`. -/
def numberLabels (n : Nat) : List (List Char) := (List.range n).map showNat

/-- `plot_beliefs`, `plot.py:5-27`; the axes are the current ones or those that are given, and are empty before. -/
def plotBeliefs (a : MeshArray) (states ylabels : Option (List (List Char))) (cmap : Option String) : Py MeshAxes :=
  if (states.getD (numberLabels a.cols)).length ≠ a.cols then .error .assertionError
  else if (ylabels.getD (numberLabels a.rows.length)).length ≠ a.rows.length then .error .assertionError
  else .ok ⟨a.rows, cmap.getD "Blues", (ticksAt a.cols).zip (states.getD (numberLabels a.cols)),
    (ticksAt a.rows.length).zip (ylabels.getD (numberLabels a.rows.length)), (0, a.cols), (0, a.rows.length), true⟩

/-- `values.min()`: an array without elements raises. -/
def leastOf (l : List ℚ) : Py ℚ :=
  match l with
  | [] => .error .valueError
  | x :: l => .ok (l.foldl min x)

/-- An element of `values.max(-1)`; a row without elements raises. -/
def greatestOf (l : List ℚ) : Py ℚ :=
  match l with
  | [] => .error .valueError
  | x :: l => .ok (l.foldl max x)

/-- A row of `b /= b.max(-1)[:, None]`: 0 / 0 is `nan`; nothing else is divided by 0. -/
def scaleRow (r : List ℚ) : Py (List (Option ℚ)) := do
  let m ← greatestOf r
  return r.map fun x => if m = 0 then none else some (x / m)

/-- `"{}: {}".format(i, a) for i, a in enumerate(actions)`, `samples/htm2pomdp.py:97-98`. -/
def rowLabels (actions : List Name) : List (List Char) := actions.zipIdx.map fun x => showNat x.2 ++ (':' :: ' ' :: nameText x.1)

/-- `plot_values`, `samples/htm2pomdp.py:93-99`, `samples/icra_scenario2pomdp.py:38-44`, up to the bar of colors; `cols` is the number of columns. -/
def plotValues (values : List (List ℚ)) (cols : Nat) (actions states : List Name) : Py MeshAxes := do
  let m ← leastOf values.flatten
  let rows ← (values.map fun r => r.map fun x => x - m).mapM scaleRow
  plotBeliefs ⟨rows, cols⟩ (some (states.map nameText)) (some (rowLabels actions)) none

/-- A comparison of an entry with 0: comparisons with `nan` are false. -/
def cellIs (q : ℚ → Bool) (x : Option ℚ) : Bool :=
  match x with
  | none => false
  | some v => q v

/-- `_cmap_from_data`, `utils/plot.py:39-49`. -/
def cmapFromData (a : MeshArray) : String :=
  if a.rows.flatten.all (cellIs fun v => decide (0 ≤ v)) then "Reds"
  else if a.rows.flatten.all (cellIs fun v => decide (v ≤ 0)) then "Blues"
  else "Blues_r"

/-- `get_n_colors`, `utils/plot.py:52-53`: the positions in the map of colors. -/
def nColors (n : Nat) : List ℚ := (List.range n).map fun (i : Nat) => (i : ℚ) / n

/-- A line around the axes. -/
structure Spine where
  name : String
  visible : Bool
  width : ℚ
  deriving DecidableEq

/-- The parts of axes that `remove_chartjunk` changes: the spines and whether there are ticks. -/
structure Frame where
  spines : List Spine
  xticks : Bool
  yticks : Bool
  deriving DecidableEq

/-- `ax.spines[spine].set_visible(False)`. -/
def hideSpine (f : Frame) (name : String) : Py Frame :=
  if f.spines.any (fun s => decide (s.name = name)) then
    .ok { f with spines := f.spines.map fun s => if s.name = name then { s with visible := false } else s }
  else .error .keyError

/-- `ax.spines[spine].set_linewidth(0.5)` for the spines that are not removed, `utils/plot.py:191-193`. -/
def thinSpines (f : Frame) (spines : List String) : Py Frame :=
  ["top", "bottom", "right", "left"].foldlM (fun f name =>
    if name ∈ spines then .ok f
    else if f.spines.any (fun s => decide (s.name = name)) then
      .ok { f with spines := f.spines.map fun s => if s.name = name then { s with width := 1 / 2 } else s }
    else .error .keyError) f

/-- `remove_chartjunk`, `utils/plot.py:173-215`, without the argument `grid`.  A set cannot be compared with a number, `utils/plot.py:211`. -/
def removeChartjunk (f : Frame) (spines : List String) (ticks : Option (List Char)) (ticklabels : Option (List Char)) : Py Frame := do
  let f ← spines.foldlM hideSpine f
  let f ← thinSpines f spines
  let f := match ticks with
    | none => f
    | some t => { f with xticks := if 'x' ∈ t then false else f.xticks, yticks := if 'y' ∈ t then false else f.yticks }
  match ticklabels with
  | none => .ok f
  | some _ => .error .typeError

/-- `pcolormesh`, `utils/plot.py:151-170`: an empty list of labels is like none. -/
def pcolorMesh (a : MeshArray) (cmap : Option String) (xlabels ylabels : List (List Char)) (f : Frame) : Py (MeshAxes × Frame) := do
  let f ← removeChartjunk f ["top", "right", "bottom", "left"] (some ['x', 'y']) none
  return (⟨a.rows, cmap.getD (cmapFromData a), if xlabels = [] then [] else (ticksAt a.cols).zip xlabels,
    if ylabels = [] then [] else (ticksAt a.rows.length).zip ylabels, (0, a.cols), (0, a.rows.length), false⟩, f)

end Verif
