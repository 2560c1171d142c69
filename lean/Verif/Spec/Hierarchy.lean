import Verif.Model.Hierarchy
import Verif.Spec.Chains
import Verif.Spec.Cliques
import Verif.Spec.TaskGraph

/-! Specification vocabulary for the extraction of hierarchies (C80). -/

namespace Verif.Spec
open BaseGraph

mutual
/-- The actions a (meta) action is made of. -/
def atomsOf : Act → List Act
  | .metaAct _ as => atomsL as
  | a => [a]
/-- See `atomsOf`. -/
def atomsL : List Act → List Act
  | [] => []
  | a :: as => atomsOf a ++ atomsL as
end

variable {S : Type} [DecidableEq S]

/-- The nodes of a conjugate graph, each once: the ends of its transitions, and its initial and terminal nodes (when
everything has been compacted into one node there is no transition left). -/
def nodesOf (c : ConjGraph Act S) : List Act := setOf (allNodes c.toBaseGraph.allTransitions ++ [c.initial, c.terminal])

/-- Some action of `X` is followed by an action of `Y`. -/
def CanFollow (g : BaseGraph Act S) (X Y : Act) : Prop := ∃ u ∈ atomsOf X, ∃ v ∈ atomsOf Y, Edge g u v

/-- `Y` comes after `X`: some action of `X` is followed by one of `Y`; what follows an action of `X` is in `X` or in `Y`;
what precedes an action of `Y` is in `Y` or in `X`. -/
def InOrder (g : BaseGraph Act S) (X Y : Act) : Prop :=
  CanFollow g X Y ∧ (∀ u ∈ atomsOf X, ∀ v, Edge g u v → v ∈ atomsOf X ∨ v ∈ atomsOf Y) ∧
  ∀ v ∈ atomsOf Y, ∀ u, Edge g u v → u ∈ atomsOf Y ∨ u ∈ atomsOf X

/-- The groups an action is made of are justified by the transitions of `g`: consecutive members of a `sequence` come
one after the other, any two members of a `parallel` can follow each other both ways, and so on recursively; each group
has at least two members. -/
inductive Justified (g : BaseGraph Act S) : Act → Prop
  | plain (n : String) : Justified g (.plain n)
  | sequence (as : List Act) : 2 ≤ as.length → (∀ a ∈ as, Justified g a) →
      (∀ (i : Nat) X Y, as[i]? = some X → as[i + 1]? = some Y → InOrder g X Y) → Justified g (.metaAct .sequence as)
  | parallel (as : List Act) : 2 ≤ as.length → (∀ a ∈ as, Justified g a) →
      (∀ (i j : Nat) X Y, i ≠ j → as[i]? = some X → as[j]? = some Y → CanFollow g X Y) →
      Justified g (.metaAct .parallel as)

/-- The actions of the paths are plain ones, and none has one of the two names reserved for the ends of the conjugate. -/
def PlainActions (chk : Act → S → S → Bool) (ps : List (List (Elem S Act))) : Prop :=
  ∀ p ∈ ps, IsPath chk p → ∀ s a s', StepOf p s a s' → ∃ n, a = .plain n ∧ n ≠ "initial" ∧ n ≠ "terminal"

/-- The orders are enumerations of the sets they stand for, and the popped element belongs to the set. -/
structure ValidOrders (o : Hierarchy.Orders S) : Prop where
  trans : ∀ l, (o.trans l).Perm l
  nodes : ∀ l, (o.nodes l).Perm l
  pop : ∀ k c, c.toExplore ≠ [] → o.pop k c ∈ c.toExplore
  trans' : ∀ l, (o.trans' l).Perm l
  nodes' : ∀ l, (o.nodes' l).Perm l
  uniq : ∀ l, (o.uniq l).Perm l
  sets : ∀ r l, (o.sets r l).Perm l
  members : ∀ l, (o.members l).Perm l
  snap : ∀ l, (o.snap l).Perm l

end Verif.Spec
