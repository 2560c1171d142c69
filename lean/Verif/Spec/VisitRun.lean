import Verif.Spec.GraphPolicy

/-! Specification vocabulary for the runs of visited policies (C107). -/

namespace Verif.Spec
open Verif

/-- A belief that can be reached from the start by the actions of the policy. -/
def Reached (g : GraphPolicy) (p : Pomdp) (nS : Nat) (b : List ℚ) : Prop := ∃ hist w, Follows g p nS p.start hist w b

/-- The beliefs that can be reached are equal or at least at the distance 1/100. -/
def Apart (g : GraphPolicy) (p : Pomdp) (nS : Nat) : Prop :=
  ∀ b c, Reached g p nS b → Reached g p nS c → b ≠ c → (1 / 100) ^ 2 ≤ distSq nS b c

/-- What following the policy from the exact beliefs gives for a sequence of observations: the actions, and the exception that ends it, if any. -/
inductive BeliefRun (g : GraphPolicy) (p : Pomdp) (nS : Nat) : List ℚ → List Name → List Name → Option PyErr → Prop
  | last {b : List ℚ} {a : Name} : PolicyAction g b a → BeliefRun g p nS b [] [a] none
  | step {b b' : List ℚ} {a o : Name} {io : Nat} {w as : List Name} {e : Option PyErr} : PolicyAction g b a → p.observations[io]? = some o →
      PolicyPosterior g p nS b io b' → BeliefRun g p nS b' w as e → BeliefRun g p nS b (o :: w) (a :: as) e
  | impossible {b : List ℚ} {a o : Name} {io : Nat} {w : List Name} : PolicyAction g b a → p.observations[io]? = some o →
      (¬ ∃ b', PolicyPosterior g p nS b io b') → BeliefRun g p nS b (o :: w) [a] (some .impossible)
  | unknown {b : List ℚ} {a o : Name} {w : List Name} : PolicyAction g b a → o ∉ p.observations →
      BeliefRun g p nS b (o :: w) [a] (some .valueError)

end Verif.Spec
