import Verif.Model.ExportFull
import Verif.Spec.Export

/-! Notions used in the properties of the export of a whole search tree. -/

namespace Verif.Spec
variable {σ β η : Type}

/-- The actions of the node `i` that have a node. -/
def triedActions (t : Tree β) (i : Nat) : List Nat :=
  (List.range (t.nodes i).children.length).filter fun a => decide (t.anode i a ≠ none)

/-- The dictionary describes the graph from a node on.  An observation node comes with its value, number of visits and belief, and
either with all its actions in the order of the model, each with its dictionary, or, unless `whole`, with none.  An action node
comes with its value, number of visits and the observations seen in their order, each with its dictionary. -/
inductive FullOf (X : Exporter σ β) (t : Tree β) (whole : Bool) : NodeRef → FullDict → Prop
  | closed {i : Nat} (h : whole = false) :
      FullOf X t whole (.obs i) (.obs (t.nodes i).avg.value (nodeVisits t i) (X.toList (t.nodes i).belief) [] [])
  | opened {i : Nat} {names : List Name} {cs : List FullDict}
      (hnames : names.map some = (triedActions t i).map fun a => X.sim.actions[a]?)
      (hlen : cs.length = (triedActions t i).length)
      (hcs : ∀ (k a : Nat) (c : FullDict), (triedActions t i)[k]? = some a → cs[k]? = some c → FullOf X t whole (.act i a) c) :
      FullOf X t whole (.obs i) (.obs (t.nodes i).avg.value (nodeVisits t i) (X.toList (t.nodes i).belief) names cs)
  | action {i a : Nat} {names : List Name} {cs : List FullDict}
      (hnames : names.map some = (successors t i a).map fun x => X.sim.observations[x.1]?)
      (hlen : cs.length = (successors t i a).length)
      (hcs : ∀ (k o j : Nat) (c : FullDict), (successors t i a)[k]? = some (o, j) → cs[k]? = some c → FullOf X t whole (.obs j) c) :
      FullOf X t whole (.act i a) (.act (actionValue t i a) (actionVisits t i a) names cs)

mutual
/-- The beliefs of the observation nodes with actions in a dictionary, in the order of the file. -/
def withActions : FullDict → List (List ℚ)
  | .obs _ _ b actions cs => (if actions = [] then [] else [b]) ++ withActionsAll cs
  | .act _ _ _ cs => withActionsAll cs
/-- The beliefs of the observation nodes with actions in a list of dictionaries. -/
def withActionsAll : List FullDict → List (List ℚ)
  | [] => []
  | c :: cs => withActions c ++ withActionsAll cs
end

end Verif.Spec
