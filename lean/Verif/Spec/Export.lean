import Verif.Model.Export
import Verif.Spec.Pomcp

/-! Notions used in the properties of the export of a search tree. -/

namespace Verif.Spec
variable {σ β η : Type}

/-- An action that can be recommended in the node `i`: one that has not been tried if there is one, and otherwise the first of
those with the largest estimated value. -/
def Recommended (t : Tree β) (i a : Nat) : Prop :=
  a < (t.nodes i).children.length ∧ (unexplored t i ≠ [] → a ∈ unexplored t i) ∧
    (unexplored t i = [] → (∀ b < (t.nodes i).children.length, actionValue t i b ≤ actionValue t i a) ∧
      ∀ b < a, actionValue t i b < actionValue t i a)

/-- The observations seen after the action `a` in the node `i`, in the order in which they were first seen, with their nodes. -/
def successors (t : Tree β) (i a : Nat) : List (Nat × Nat) := ((t.anode i a).map ANode.children).getD []

/-- The entries that describe the node `i` with the action `a`. -/
structure InfoOf (X : Exporter σ β) (t : Tree β) (i a : Nat) (belief : List ℚ) (observed : Option Nat) (info : PolicyInfo) : Prop where
  value : info.value = (t.nodes i).avg.value
  visits : info.visits = nodeVisits t i
  belief : info.belief = belief
  action : X.sim.actions[a]? = some info.action
  observed : info.observed = observed
  values : info.values = (List.range (t.nodes i).children.length).map fun b =>
    if nodeVisits t i = 0 ∨ actionVisits t i b = 0 then none else some (actionValue t i b)
  exploration : info.exploration = (List.range (t.nodes i).children.length).map fun b =>
    if actionVisits t i b = 0 then none else some (X.bonus (nodeVisits t i) (actionVisits t i b))
  childVisits : info.childVisits = (List.range (t.nodes i).children.length).map (actionVisits t i)

/-- The dictionary describes the policy from the node `i` on: in each node an action that can be recommended, and for each
observation seen after this action the dictionary of its node, with the position of the observation.  A dictionary can have no
entry for the observations. -/
inductive PolicyOf (X : Exporter σ β) (t : Tree β) : Nat → Option Nat → PolicyDict → Prop
  | closed {i a : Nat} {observed : Option Nat} {info : PolicyInfo} (ha : Recommended t i a)
      (hinfo : InfoOf X t i a (X.toList (t.nodes i).belief) observed info) : PolicyOf X t i observed (.mk info none [])
  | opened {i a : Nat} {observed : Option Nat} {info : PolicyInfo} {names : List Name} {cs : List PolicyDict} (ha : Recommended t i a)
      (hinfo : InfoOf X t i a (X.toList (t.nodes i).belief) observed info)
      (hnames : names.map some = (successors t i a).map fun x => X.sim.observations[x.1]?)
      (hlen : cs.length = (successors t i a).length)
      (hcs : ∀ k o j c, (successors t i a)[k]? = some (o, j) → cs[k]? = some c → PolicyOf X t j (some k) c) :
      PolicyOf X t i observed (.mk info (some names) cs)

mutual
/-- The beliefs of the nodes in a dictionary. -/
def beliefsIn : PolicyDict → List (List ℚ)
  | .mk info _ cs => info.belief :: beliefsInAll cs
/-- The beliefs of the nodes in a list of dictionaries. -/
def beliefsInAll : List PolicyDict → List (List ℚ)
  | [] => []
  | c :: cs => beliefsIn c ++ beliefsInAll cs
end

mutual
/-- The beliefs of the nodes whose observations are present in a dictionary. -/
def openedIn : PolicyDict → List (List ℚ)
  | .mk info obs cs => (if obs.isSome then [info.belief] else []) ++ openedInAll cs
/-- The beliefs of the nodes whose observations are present in a list of dictionaries. -/
def openedInAll : List PolicyDict → List (List ℚ)
  | [] => []
  | c :: cs => openedIn c ++ openedInAll cs
end

/-- The trees only differ by action nodes without visits and children that are present in `t'` only. -/
structure SamePlusUntried (t t' : Tree β) : Prop where
  size : t'.size = t.size
  lookup : t'.lookup = t.lookup
  belief : ∀ i, (t'.nodes i).belief = (t.nodes i).belief
  avg : ∀ i, (t'.nodes i).avg = (t.nodes i).avg
  length : ∀ i, (t'.nodes i).children.length = (t.nodes i).children.length
  acts : ∀ i a, t'.anode i a = t.anode i a ∨ (t.anode i a = none ∧ t'.anode i a = some ⟨.new, []⟩)

/-- The dictionary describes the policy from the node `i` on: in each node an action that can be recommended, and for each
observation seen after this action the dictionary of its node, with the number of the observation in the model. -/
inductive QuotOf (X : Exporter σ β) (quot : List ℚ → List ℚ) (t : Tree β) : Nat → Option Nat → QuotDict → Prop
  | node {i a : Nat} {observed : Option Nat} {info : PolicyInfo} {names : List Name} {cs : List QuotDict} (ha : Recommended t i a)
      (hinfo : InfoOf X t i a (quot (X.toList (t.nodes i).belief)) observed info)
      (hnames : names.map some = (successors t i a).map fun x => X.sim.observations[x.1]?)
      (hlen : cs.length = (successors t i a).length)
      (hcs : ∀ (k o j : Nat) (c : QuotDict), (successors t i a)[k]? = some (o, j) → cs[k]? = some c → QuotOf X quot t j (some o) c) :
      QuotOf X quot t i observed (.mk (some info) false none (some names) (some cs))

/-- The observation that leads to each of the children of a node, as the viewer of the graphs computes it
(`visualization/pomcp/pomcp.js:207`): the entry of `observations` whose position is the entry `observed` of the child. -/
def viewedLabels : QuotDict → List (Option Name)
  | .mk _ _ _ (some names) (some cs) => cs.map fun c => match c with
      | .mk (some info) _ _ _ _ => info.observed.bind fun k => names[k]?
      | _ => none
  | _ => []

/-- The same for the graphs of `to_dict`. -/
def viewedPolicyLabels : PolicyDict → List (Option Name)
  | .mk _ (some names) cs => cs.map fun c => match c with
      | .mk info _ _ => info.observed.bind fun k => names[k]?
  | _ => []

end Verif.Spec
