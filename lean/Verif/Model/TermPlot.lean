import Verif.Model.Tower
import Mathlib.Analysis.SpecialFunctions.Log.Basic
import Mathlib.Analysis.SpecialFunctions.Sqrt

/-!
# Model of `samples/plot_exploration_term.py`

Floating point numbers are real numbers.
-/

namespace Verif

/-- `np.arange(start, stop, step)` of natural numbers, for a positive step. -/
def natArange (start stop step : Nat) : List Nat := (List.range ((stop - start + step - 1) / step)).map fun i => start + i * step

/-- The entries of the column `percentages`, `samples/plot_exploration_term.py:10`. -/
def termPercentages : List Nat := [1, 5, 10, 30, 50, 70, 100]

/-- `ns`, `samples/plot_exploration_term.py:11`. -/
def termNs : List Nat := natArange 1 100 1 ++ natArange 200 100000 100

/-- The rows of `ys`, `samples/plot_exploration_term.py:13-14`: the column `percentages` is broadcast against the row `ns`. -/
noncomputable def termYs : List (List ℝ) :=
  termPercentages.map fun p : Nat => termNs.map fun n : Nat => √(Real.log (n : ℝ) / ((p : ℝ) * (n : ℝ)))

/-- `"{}%".format(p)` for the rows `p` of the column `percentages`, `samples/plot_exploration_term.py:18`: a row is an array of one number,
whose text is the number in brackets. -/
def termLabels : List String := termPercentages.map fun p => "[" ++ pyStr p ++ "]%"

/-- A curve: its label, the abscissas and the ordinates. -/
structure TermCurve where
  label : String
  x : List Nat
  y : List ℝ

/-- `plt.semilogx(ns, ys.T)` and `plt.legend`, `samples/plot_exploration_term.py:17-18`: a curve for each column of `ys.T`, with the label of the
same position. -/
noncomputable def termPlot : List TermCurve := (termLabels.zip termYs).map fun c => ⟨c.1, termNs, c.2⟩

end Verif
