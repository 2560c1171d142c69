import Verif.Model.SearchScript
import Verif.Spec.Export
import Verif.Spec.Term

/-! Specification vocabulary for the script of the search (C117). -/

namespace Verif.Spec
open Verif
variable {σ β η : Type}

/-- The runner after `i` calls of `get_action`. -/
def searchAfter [DecidableEq β] (S : Search σ β η) (b : β) (rng : σ) (iterations i : Nat) : SearchRunner σ β :=
  (runRunnerOps S (S.runner b rng) ⟨none, []⟩ (List.replicate i (.getAction iterations))).1

/-- The status of the turn `i` of `n`: no action at first, then the action with the best estimate and this estimate. -/
inductive StatusOf (fmt : StatusFormat) (actions : List Name) (r : SearchRunner σ β) (i n : Nat) : List Char → Prop
  | first (h : r.last = none) : StatusOf fmt actions r i n
      ("Exploring... [".toList ++ fmt.percent (i * 100 / n) ++ "%] (current best: None [".toList ++ fmt.value 0 ++ "])".toList)
  | next {a : Nat} {name : Name} (h : r.last = some a) (hname : actions[a]? = some name) (hvisits : 0 < actionVisits r.search.tree 0 a)
      (hbest : ∀ x < actions.length, actionValue r.search.tree 0 x ≤ actionValue r.search.tree 0 a) : StatusOf fmt actions r i n
      ("Exploring... [".toList ++ fmt.percent (i * 100 / n) ++ "%] (current best: ".toList ++ nameText name ++ " [".toList ++
        fmt.value (actionValue r.search.tree 0 a) ++ "])".toList)

/-- The texts of the numbers and of the actions have a single line. -/
def PlainTexts (fmt : StatusFormat) (actions : List Name) : Prop :=
  (∀ x, Plain (fmt.percent x)) ∧ (∀ x, Plain (fmt.value x)) ∧ ∀ a ∈ actions, Plain (nameText a)

/-- The outputs of the turns show the statuses: after each one, the line of the cursor is the status, followed by blanks. -/
def ShowsEach (above : List (List Char)) (outs statuses : List (List Char)) : Prop :=
  outs.length = statuses.length ∧ ∀ (i : Nat) (s : List Char), statuses[i]? = some s →
    ∃ k, Screen.puts ⟨above, [], 0⟩ (outs.take (i + 1)).flatten = ⟨above, s ++ List.replicate k ' ', 0⟩

end Verif.Spec
