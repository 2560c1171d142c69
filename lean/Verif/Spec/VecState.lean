import Verif.Model.VecState

/-! Specification vocabulary for graphs on vector states (C113). -/

namespace Verif.Spec
open Verif

/-- Every object among `U` is the only one with its hash, alone or in a pair with any action. -/
def NoClash {A : Type} (h : List ℚ → Nat) (ph : A → Nat → Nat) (U : List VecState) : Prop :=
  ∀ x ∈ U, ∀ y ∈ U, (h x.features = h y.features → x = y) ∧ ∀ a, ph a (h x.features) = ph a (h y.features) → x = y

/-- The states of a path. -/
def pathStates {A : Type} (p : List (Elem VecState A)) : List VecState :=
  p.filterMap fun x => match x with | .state s => some s | _ => none

/-- The states of a graph. -/
def graphStates {A : Type} (g : TaskGraph VecState A) : List VecState :=
  g.initial ++ g.terminal ++ g.transitions.flatMap fun kv => kv.1 :: kv.2.map Prod.snd

/-- `y` is another object with the vector of `x`. -/
def IsCopy (x y : VecState) : Prop := x ≠ y ∧ x.features = y.features

/-- A client that calls `add_path` on each list in turn on a new graph, catching the exceptions. -/
def vAddAll {A : Type} [DecidableEq A] (h : List ℚ → Nat) (ph : A → Nat → Nat) (chk : A → VecState → VecState → Bool) (ps : List (List (Elem VecState A))) :
    TaskGraph VecState A :=
  ps.foldl (fun g p => (vAddPath h ph chk p g).2) {}

end Verif.Spec
