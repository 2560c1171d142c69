import Verif.Model.TaskGraph

/-! Specification vocabulary for chains (C09, C10). -/

namespace Verif.Spec
variable {A S : Type} [DecidableEq A] [DecidableEq S]

/-- There is a transition from `u` to `v`. -/
def Edge (g : BaseGraph A S) (u v : A) : Prop := ∃ l, g.hasTransition u l v = true

/-- `u → v` is an edge, `v` is the only successor of `u` and `u` is the only predecessor of `v`. -/
def Link (g : BaseGraph A S) (u v : A) : Prop :=
  Edge g u v ∧ (∀ w, Edge g u w → w = v) ∧ (∀ w, Edge g w v → w = u)

/-- Consecutive elements of the list are linked. -/
def Linked (g : BaseGraph A S) (ch : List A) : Prop :=
  ∀ (i : Nat) u v, ch[i]? = some u → ch[i + 1]? = some v → Link g u v

/-- A chain that cannot be extended to the right. -/
def RightMax (g : BaseGraph A S) (ch : List A) : Prop := ∀ z, ch.getLast? = some z → ¬ ∃ w, Link g z w

/-- A chain that cannot be extended to the left. -/
def LeftMax (g : BaseGraph A S) (ch : List A) : Prop := ∀ h, ch.head? = some h → ¬ ∃ w, Link g w h

/-- A non-trivial maximal chain. -/
def MaxChain (g : BaseGraph A S) (ch : List A) : Prop :=
  2 ≤ ch.length ∧ Linked g ch ∧ RightMax g ch ∧ LeftMax g ch

/-- `v` can be reached from `u` along transitions. -/
inductive Reachable (g : BaseGraph A S) (u : A) : A → Prop
  | refl : Reachable g u u
  | tail {v w : A} : Reachable g u v → Edge g v w → Reachable g u w

/-- `v` is the only successor of `u`. -/
def OnlySucc (g : BaseGraph A S) (u v : A) : Prop := Edge g u v ∧ ∀ w, Edge g u w → w = v

/-- `v` can be reached from `u` in at least one step, going through nodes that have a single successor (`v` may have
several). -/
inductive ForcedTo (g : BaseGraph A S) (u : A) : A → Prop
  | one {v : A} : OnlySucc g u v → ForcedTo g u v
  | step {v w : A} : ForcedTo g u v → OnlySucc g v w → ForcedTo g u w

/-- Some cycle that can be reached from `ini` consists of nodes that have a single successor each. -/
def ForcedLoop (g : BaseGraph A S) (ini : A) : Prop := ∃ u, Reachable g ini u ∧ ForcedTo g u u

end Verif.Spec
