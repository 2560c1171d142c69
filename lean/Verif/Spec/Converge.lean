import Verif.Spec.Explore

/-! Specification vocabulary for searches in models without randomness (C88). -/

namespace Verif.Spec
open Verif
variable {σ β : Type}

/-- The successors, the observations and the rewards of the model are not random. -/
def Determined (sim : Sim σ β) (nx ob : Nat → Nat → Nat) (rew : Nat → Nat → ℚ) : Prop :=
  ∀ a s g x g', sim.sampleTransition a s g = (.ok x, g') → x = (nx a s, ob a s, rew a s)

/-- In a stochastic model, an action in a state leads to a single state, with a single observation. -/
def WithoutChance (p : Pomdp) (nS nA nO : Nat) (nx ob : Nat → Nat → Nat) : Prop :=
  ∀ a < nA, ∀ s < nS, (∀ s' < nS, 0 < p.T.at_ a s s' → s' = nx a s) ∧ ∀ o < nO, 0 < p.O.at_ a (nx a s) o → o = ob a s

/-- The belief has a single state. -/
def StartsIn (sim : Sim σ β) (b : β) (s0 : Nat) : Prop := ∀ g s g', sim.sampleBelief b g = (.ok s, g') → s = s0

/-- The computation of the successor of a belief does not give up. -/
def Finds (sim : Sim σ β) : Prop := ∀ b a o g, (sim.successor b a o g).1 ≠ .error .maxSamplesReached

/-- The discounted return of a list of actions from the state `s`. -/
def planReturn (γ : ℚ) (nx : Nat → Nat → Nat) (rew : Nat → Nat → ℚ) : Nat → List Nat → ℚ
  | _, [] => 0
  | s, a :: p => rew a s + γ * planReturn γ nx rew (nx a s) p

/-- A list of `h` actions. -/
def IsPlan (nA h : Nat) (p : List Nat) : Prop := p.length = h ∧ ∀ a ∈ p, a < nA

/-- `v` is the largest return of `h` actions from `s`. -/
def IsOptimum (γ : ℚ) (nx : Nat → Nat → Nat) (rew : Nat → Nat → ℚ) (nA h s : Nat) (v : ℚ) : Prop :=
  (∃ p, IsPlan nA h p ∧ planReturn γ nx rew s p = v) ∧ ∀ p, IsPlan nA h p → planReturn γ nx rew s p ≤ v

/-- The bonus is not negative, and vanishes for the actions that have been tried a given share of the time. -/
def Fades (bonus : Nat → Nat → ℚ) : Prop :=
  (∀ n m, 0 < n → 0 < m → 0 ≤ bonus n m) ∧
    ∀ share e : ℚ, 0 < share → 0 < e → ∃ N, ∀ n m : Nat, N ≤ n → share * n ≤ m → bonus n m ≤ e

end Verif.Spec
