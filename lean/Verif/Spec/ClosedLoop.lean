import Verif.Model.ClosedLoop
import Verif.Spec.PolicySeq
import Verif.Spec.Supportive

/-! Specification vocabulary for the evaluation of the scripted policies (C74 to C76). -/

namespace Verif.Spec
open Verif

/-- The number of actions that did not fail, from the observations made (1 is the failure). -/
def completed (obs : List Nat) : Nat := (obs.filter fun o => decide (o ≠ 1)).length

/-- The policies of the experiment: the number `L` of subtasks they perform, and the names of the actions they may choose to make the
human advance. -/
def ScriptedPolicy (m : SeqModel) (x : SeqPolicy × SeqState) (L : Nat) (nexts : List String) : Prop :=
  (mkSeqPolicy m = .ok x ∧ L = (m.nHtmStates - 2).toNat ∧ nexts = ["hold H"]) ∨
  (mkAltPolicy m L = .ok x ∧ nexts = ["hold H", "hold V"])

/-- What the scripted policies need: the tools are used by some leaf, and some leaf needs a leg. -/
def NeedsTools (m : SupPomdp) : Prop :=
  (∀ o ∈ ["screws", "screwdriver", "joints"], HasCondition m cUSES o ∨ HasCondition m cCONSUMES_SOME o) ∧
  ∃ c, HasCondition m c "leg"

/-- Every way to perform the task has `N` leaves. -/
def WordLength (t : Htm SupAction) (N : Nat) : Prop := ∀ w, lin SupAction.ops noRen (fun s => s) t w → w.length = N

end Verif.Spec
