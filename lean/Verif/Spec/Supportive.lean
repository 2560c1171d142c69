import Verif.Model.Supportive
import Verif.Spec.Dag
import Verif.Spec.Htm
import Mathlib.Data.List.Destutter

/-! Specification vocabulary for the supportive POMDP (C25-C28). -/

namespace Verif.Spec
open Verif

/-- `m` is the model that the constructor returns for the task `t`: some parameters, some iteration order of sets and
some sufficient recursion limit. -/
def Constructed (t : Htm SupAction) (m : SupPomdp) : Prop :=
  NonEmpty t ∧ Built t ∧ ∃ (par : SupParams) (uniq : List Nat → List Nat) (limit : Nat),
    (∀ l x, x ∈ uniq l ↔ x ∈ l) ∧ nesting t ≤ limit ∧ mkSupPomdp par uniq limit t = .ok m

/-- The first `n` steps of an episode from state `s`: for each one the action, the new state and the reward; the random
numbers and the flag `random` are arbitrary. -/
def Run (m : SupPomdp) : Nat → List (Nat × Nat × ℚ) → Prop
  | _, [] => True
  | s, (a, s', r) :: l => (∃ d random o, m.sampleTransition d a s random = .ok (s', o, r)) ∧ Run m s' l

/-- The HTM value of a state: the bits above the objects, the body feature and the preferences. -/
def htmOf (m : SupPomdp) (s : Nat) : Nat := s / 2 ^ (m.objects.length + 1 + m.par.nPreferences)

/-- Presence of an object in a state. -/
def present (s o : Nat) : Prop := s / 2 ^ o % 2 = 1

/-- The HTM values of an episode, without repetitions. -/
def visited (m : SupPomdp) (s : Nat) (l : List (Nat × Nat × ℚ)) : List Nat :=
  ((s :: l.map fun x => x.2.1).map (htmOf m)).destutter (· ≠ ·)

/-- A path of a graph, to a node without successors. -/
def IsDagPath (succs : List (List Nat)) (p : List Nat) : Prop :=
  p.IsChain (fun i j => ∃ ss, succs[i]? = some ss ∧ j ∈ ss) ∧ ∃ i, p.getLast? = some i ∧ succs[i]? = some []

/-- A step from the clean state to the final state. -/
def Finishes (m : SupPomdp) (s s' : Nat) : Prop := htmOf m s = m.nodes.length ∧ htmOf m s' = m.nodes.length + 1

instance (m : SupPomdp) (s s' : Nat) : Decidable (Finishes m s s') := inferInstanceAs (Decidable (_ ∧ _))

/-- Number of such steps in an episode. -/
def finishes (m : SupPomdp) : Nat → List (Nat × Nat × ℚ) → Nat
  | _, [] => 0
  | s, (_, s', _) :: l => (if Finishes m s s' then 1 else 0) + finishes m s' l

/-- The last state of an episode. -/
def lastState : Nat → List (Nat × Nat × ℚ) → Nat
  | s, [] => s
  | _, (_, s', _) :: l => lastState s' l

/-- The same model with another final reward. -/
def withFinalReward (m : SupPomdp) (v : ℚ) : SupPomdp := { m with par := { m.par with rFinal := v } }

/-- The condition `(c, o)` is attached to some leaf of the task. -/
def HasCondition (m : SupPomdp) (c : Nat) (o : String) : Prop :=
  ∃ (k : Nat) (a : SupAction) (i p : Option Int) (h : Bool) (hold : Option String) (cs : List (Nat × String)),
    m.nodes[k]? = some (.leaf a i p h) ∧ a.attrs = some (hold, cs) ∧ (c, o) ∈ cs

end Verif.Spec

namespace Verif.Spec
open Verif
variable {A : Type}

mutual
/-- No parallel node. -/
def NoParallel : Htm A → Prop
  | .leaf _ _ _ _ => True
  | .comb k cs _ _ _ _ _ => k ≠ .parallel ∧ NoParallelL cs
/-- See `NoParallel`. -/
def NoParallelL : List (Htm A) → Prop
  | [] => True
  | c :: cs => NoParallel c ∧ NoParallelL cs
end

/-- The leaves hold `SupportedAction` objects. -/
def Supported (t : Htm SupAction) : Prop := ∀ a ∈ leaves t, a.attrs ≠ none

end Verif.Spec
