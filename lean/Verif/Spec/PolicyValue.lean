import Verif.Spec.GraphPolicy
import Mathlib.Algebra.BigOperators.Group.Finset.Basic
import Mathlib.Algebra.Order.Ring.Abs

/-! Specification vocabulary for the values of policies (C98). -/

namespace Verif.Spec
open Verif

/-- The mean of `f` over the state and the observation that follow the action `a` in the state `s`. -/
def stepMean (p : Pomdp) (nS nO a s : Nat) (f : Nat → Nat → ℚ) : ℚ :=
  ∑ s' ∈ Finset.range nS, ∑ o ∈ Finset.range nO, p.T.at_ a s s' * p.O.at_ a s' o * f s' o

/-- Something that chooses actions and is told observations. -/
structure Agent (μ : Type) where
  action : μ → Py Name
  observe : Name → μ → Py μ

/-- The expected discounted sum of the rewards of `k` actions of an agent with memory `q` from the state `s`.  It is only defined if no
exception is raised, whatever the observations that are possible. -/
inductive ExpectedReturn (p : Pomdp) (nS nO : Nat) {μ : Type} (A : Agent μ) : Nat → μ → Nat → ℚ → Prop
  | stop (q : μ) (s : Nat) : ExpectedReturn p nS nO A 0 q s 0
  | step (k : Nat) (q : μ) (s : Nat) (name : Name) (a : Nat) (next : Nat → μ) (v : Nat → Nat → ℚ) :
      A.action q = .ok name → p.actions[a]? = some name →
      (∀ s' < nS, ∀ o < nO, p.T.at_ a s s' * p.O.at_ a s' o ≠ 0 → A.observe (p.observations.getD o (.int 0)) q = .ok (next o)) →
      (∀ s' < nS, ∀ o < nO, p.T.at_ a s s' * p.O.at_ a s' o ≠ 0 → ExpectedReturn p nS nO A k (next o) s' (v s' o)) →
      ExpectedReturn p nS nO A (k + 1) q s (stepMean p nS nO a s fun s' o => p.R.at_ a s s' o + p.discount * v s' o)

/-- `GraphPolicyRunner`, whose memory is the current node. -/
def graphAgent (g : GraphPolicy) : Agent Int where
  action c := g.getAction c
  observe o c := match runnerStep g c o with
    | (some c', .ok _) => .ok c'
    | (none, .ok _) => .error .impossible
    | (_, .error e) => .error e

/-- `GraphPolicyBeliefRunner`, whose memory is the belief and the current node. -/
def beliefAgent (g : GraphPolicy) (p : Pomdp) : Agent BRunner where
  action r := g.getAction r.current
  observe o r := match bStep g p o r with
    | (.ok _, r') => .ok r'
    | (.error e, _) => .error e

/-- The value of the node `i` in the state `s`. -/
def nodeValue (g : GraphPolicy) (i s : Nat) : ℚ := (g.values.getD i []).getD s 0

/-- The values of the nodes are those of the policy up to `ε`: the value of a node is the expected reward of its action and the discounted value
of the node that follows. -/
structure Solves (p : Pomdp) (nS nO : Nat) (g : GraphPolicy) (ε : ℚ) : Prop where
  fits : Fits g p nS
  rows : g.transitions.length = g.actions.length
  observations : g.observations = p.observations
  values : ∀ i < g.actions.length, ∀ a, p.actions[a]? = some (g.actions.getD i (.int 0)) → ∃ next : Nat → Nat,
    (∀ s < nS, ∀ s' < nS, ∀ o < nO, p.T.at_ a s s' * p.O.at_ a s' o ≠ 0 →
      (g.transitions.getD i [])[o]? = some (some (next o : Int)) ∧ next o < g.actions.length) ∧
    ∀ s < nS, |nodeValue g i s - stepMean p nS nO a s fun s' o => p.R.at_ a s s' o + p.discount * nodeValue g (next o) s'| ≤ ε

/-- The nodes are as good as a lookahead of one action followed by any of the nodes, up to `δ`. -/
def Unimprovable (p : Pomdp) (nS nA nO : Nat) (g : GraphPolicy) (δ : ℚ) : Prop :=
  ∀ b, IsDist nS b → ∀ a < nA, ∀ next : Nat → Nat, (∀ o, next o < g.actions.length) → ∃ i < g.actions.length,
    ∑ s ∈ Finset.range nS, b.getD s 0 * stepMean p nS nO a s (fun s' o => p.R.at_ a s s' o + p.discount * nodeValue g (next o) s') ≤
      ∑ s ∈ Finset.range nS, b.getD s 0 * nodeValue g i s + δ

/-- The difference that `k` actions leave: what comes later, and the errors on the way. -/
def remainder (p : Pomdp) (ε B : ℚ) (k : Nat) : ℚ := p.discount ^ k * B + ε * ∑ j ∈ Finset.range k, p.discount ^ j

end Verif.Spec
