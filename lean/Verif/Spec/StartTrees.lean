import Verif.Spec.GraphPolicy

/-! Specification vocabulary for the trees from several start states (C48). -/

namespace Verif.Spec
open Verif

/-- All the states that are possible at the start have the same probability. -/
def evenStart (start : List ℚ) : List ℚ := start.map fun x => if x = 0 then 0 else 1 / (start.countP (fun x => decide (x ≠ 0)) : ℚ)

/-- The same tree with another belief at the root. -/
def TTree.withBelief (b : List ℚ) : TTree → TTree
  | .node _ action current observations children => .node b action current observations children

end Verif.Spec
