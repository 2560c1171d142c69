import Verif.Spec.ClosedLoop

/-! Specification vocabulary for the rewards of the supportive model (C75 to C77). -/

namespace Verif.Spec
open Verif SupPomdp

/-- The largest of the values `f 0`, ..., `f (n - 1)`, and of `f 0`. -/
def bestOf (f : Nat → ℚ) (n : Nat) : ℚ := (List.range n).foldl (fun b a => max b (f a)) (f 0)

/-- The reward of a step, plus the value of the state reached; a step that raises is worth nothing (no action in range does). -/
def stepValue (γ : ℚ) (V : Nat → ℚ) : Py (Nat × Nat × ℚ) → ℚ
  | .ok (s', _, r) => r + γ * V s'
  | .error _ => 0

/-- The largest total reward that can be expected in `n` steps from `s`, when the state is known, with discount `γ`.  The way to
average over the random numbers of the step with `n` steps left is `E n`. -/
def bestValue (m : SupPomdp) (E : Nat → (Draws → ℚ) → ℚ) (γ : ℚ) (random : Bool) : Nat → Nat → ℚ
  | 0, _ => 0
  | n + 1, s => bestOf (fun a => E n fun d => stepValue γ (bestValue m E γ random n) (m.sampleTransition d a s random)) m.nActions

/-- Random numbers for which no preference changes, and a hold that the human does not want fails. -/
def Calm (m : SupPomdp) (random : Bool) (d : Draws) : Prop :=
  random = true → (∀ i < m.par.nPreferences, m.par.pChangePreference ≤ d.prefs i) ∧ d.hold < 98 / 100

/-- An average that takes only the random numbers with some property into account. -/
def MonotoneOn (P : Draws → Prop) (E : (Draws → ℚ) → ℚ) : Prop :=
  ∀ f g : Draws → ℚ, (∀ d, P d → f d ≤ g d) → E f ≤ E g

/-- Every leaf can be supported by one of the two holds. -/
def EveryLeafHeld (m : SupPomdp) : Prop :=
  ∀ n ∈ m.nodes, ∃ a i p b hold cs, n = .leaf a i p b ∧ a.attrs = some (some hold, cs) ∧ (hold = "h" ∨ hold = "v")

/-- Two states at the same point of the task with the same objects. -/
def SameProgress (m : SupPomdp) (s s' : Nat) : Prop :=
  htmOf m s = htmOf m s' ∧ ∀ o < m.objects.length, (present s o ↔ present s' o)

/-- The total reward of a run. -/
def totalReward (l : List (Nat × Nat × ℚ)) : ℚ := (l.map fun x => x.2.2).sum

/-- The most that a subtask can bring beyond its reward. -/
def supportBonus (par : SupParams) : ℚ := max 0 (par.rPreference - par.costHold)

end Verif.Spec
