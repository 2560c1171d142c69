import Verif.Model.Trajectory
import Verif.Model.Pomdp

/-! The format of numbers in the solver's input file, for C100. -/

namespace Verif

/-- `NUMBER_FORMAT.format(x)` (`'{:0.5f}'.format(x)`), `lib/pomdp.py:65-66, 94`. -/
def fiveText (x : ℚ) : String := String.ofList (fixedText 5 x)

end Verif
