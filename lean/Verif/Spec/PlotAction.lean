import Verif.Model.PlotAction
import Verif.Spec.Figures

/-! Notions used in the property of the action `plot` of the launchers (C121). -/

namespace Verif.Spec
open Verif

/-- The setting of matplotlib for print with the name `k`, if there is one; the size of the titles is given. -/
def printSetting (title k : String) : Option String :=
  if k = "font.family" then some "serif"
  else if k = "font.size" then some "10"
  else if k = "font.serif" then some "Computer Modern Roman"
  else if k = "text.usetex" ∨ k = "text.latex.unicode" ∨ k = "path.simplify" then some "True"
  else if k = "axes.titlesize" then some title
  else if k = "xtick.labelsize" ∨ k = "ytick.labelsize" then some "xx-small"
  else if k = "savefig.pad_inches" then some "0.0"
  else if k = "savefig.bbox" then some "tight"
  else if k = "figure.figsize" then some "(3.5, 2.5)"
  else none

/-- The settings for print replace those of before; the others stay. -/
def ForPrint (title : String) (before after : List (String × String)) : Prop :=
  ∀ k, dget after k = (printSetting title k).or (dget before k)

/-- Nothing was shown, and no file was written. -/
def NothingOut (d d' : PlotDesk) : Prop := d'.shown = d.shown ∧ d'.saved = d.saved

/-- The figures were shown; no file was written, and the settings were not changed. -/
def FigureShown (d d' : PlotDesk) : Prop := d'.shown = d.shown ++ [d'.canvas.axes] ∧ d'.saved = d.saved ∧ d'.rc = d.rc

/-- The axes `axes` were drawn, and the figure made of them was saved, with the settings for print; nothing was shown. -/
def FigureSaved (title directory name : String) (d d' : PlotDesk) : Prop :=
  ∃ axes, d'.canvas.axes = d.canvas.axes ++ axes ∧ d'.saved = d.saved ++ [((directory, name), axes, d'.rc)] ∧ d'.shown = d.shown ∧
    ForPrint title d.rc d'.rc

end Verif.Spec
