import Verif.Spec.PolicyValue
import Verif.Spec.HoldRelease

/-! Specification vocabulary for the costs of holding (C115). -/

namespace Verif.Spec
open Verif

/-- The mean of `f` over the state after `k` actions of an agent with memory `q` from the state `s`.  It is only defined if no exception is raised, whatever the
observations that are possible. -/
inductive EndMean (p : Pomdp) (nS nO : Nat) {μ : Type} (A : Agent μ) (f : Nat → ℚ) : Nat → μ → Nat → ℚ → Prop
  | stop (q : μ) (s : Nat) : EndMean p nS nO A f 0 q s (f s)
  | step (k : Nat) (q : μ) (s : Nat) (name : Name) (a : Nat) (next : Nat → μ) (v : Nat → Nat → ℚ) :
      A.action q = .ok name → p.actions[a]? = some name →
      (∀ s' < nS, ∀ o < nO, p.T.at_ a s s' * p.O.at_ a s' o ≠ 0 → A.observe (p.observations.getD o (.int 0)) q = .ok (next o)) →
      (∀ s' < nS, ∀ o < nO, p.T.at_ a s s' * p.O.at_ a s' o ≠ 0 → EndMean p nS nO A f k (next o) s' (v s' o)) →
      EndMean p nS nO A f (k + 1) q s (stepMean p nS nO a s v)

/-- 1 if the robot still holds. -/
def holding (s : Nat) : ℚ := if s = HrState.released.ix then 0 else 1

/-- The expected cost of a plan: wait `n` times, then act or ask; begin again if the human was still working, and act when the human is done.  `r` is the probability
that the human goes on working during an action. -/
def planCost (wait failure communication r : ℚ) (ask : Bool) (n : Nat) : ℚ :=
  (n * wait + if ask then communication else r ^ n * failure) / (1 - r ^ (n + 1))

/-- What the plan costs from its step `i`, which is the `n`-th at most, in a state. -/
def planRest (wait failure communication r : ℚ) (ask : Bool) (n i s : Nat) : ℚ :=
  let again := r * planCost wait failure communication r ask n
  let there := if ask then communication else 0
  if i = n + 1 then if s = 0 then failure + again else 0
  else if s = 0 then (n - i : Nat) * wait + r ^ (n - i) * ((if ask then communication else failure) + again) + (1 - r ^ (n - i)) * there
  else (n - i : Nat) * wait + there

/-- The plan as a policy graph. -/
def holdPlan (wait failure communication r : ℚ) (ask : Bool) (n : Nat) : GraphPolicy where
  actions := List.replicate n (.str "wait") ++ [.str (if ask then "communicate" else "physical"), .str "physical"]
  observations := [.str "nothing", .str "doing", .str "done"]
  transitions := (List.range n).map (fun i : Nat => [some ((i : Int) + 1), none, none]) ++
    [[some (n + 1 : Int), some 0, some (n + 1 : Int)], [some (n + 1 : Int), some 0, some (n + 1 : Int)]]
  values := (List.range (n + 2)).map fun i => (List.range 3).map fun s => - planRest wait failure communication r ask n i s
  init := 0

end Verif.Spec
