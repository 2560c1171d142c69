import Verif.Spec.Async

/-! A small model in which the asynchronous runner is executed. -/

namespace Verif.Spec
open Verif

/-- A model with one state, one action, and two observations of the same probability. -/
def coinPomdp : Pomdp where
  sNames := .list [.str "s"]
  aNames := .list [.str "a"]
  oNames := .list [.str "heads", .str "tails"]
  T := ⟨1, 1, 1, fun _ _ _ => 1⟩
  O := ⟨1, 1, 2, fun _ _ _ => 1 / 2⟩
  R := ⟨1, 1, 1, 2, fun _ _ _ _ => 1⟩
  start := [1]
  discount := 1 / 2
  solverPath := "pomdp-solve"

/-- A search in this model, of one transition, in which the first samples give "heads" and the others "tails". -/
def coinSearch : Search Nat (List ℚ) Int where
  sim := exactSim coinPomdp (fun k => if k < 4 then 0 else 3 / 4) (fun _ => 0)
  hor := nTransitions
  horizon := 1
  exploration := 1
  relative := false
  rolloutIt := 1
  alpha := 0
  bonus := fun _ _ => 0
  shared := false
  fuel := 100
  bound := 100

/-- The asynchronous runner of this search after a schedule. -/
def coinRun (cs : List Choice) : Mach Nat (List ℚ) × AsyncTrace Nat (List ℚ) := runMach coinSearch 1 cs (coinSearch.async [1] 0)

/-- `get_action` is called and returns before the thread explores. -/
def coinAction : List Choice := [.call (.getAction none)] ++ List.replicate 40 .caller

/-- `step` is called while the thread creates a node. -/
def coinRace : List Choice :=
  coinAction ++ List.replicate 9 .explorer ++ [.call (.step (.str "tails"))] ++ List.replicate 20 .caller ++ List.replicate 12 .explorer ++
    List.replicate 10 .caller

/-- The same calls, while the thread does nothing. -/
def coinAlone : List Choice := coinAction ++ [.call (.step (.str "tails"))] ++ List.replicate 40 .caller

/-- `stop` is called during an exploration. -/
def coinStop : List Choice :=
  coinAction ++ List.replicate 9 .explorer ++ [.call .stop] ++ List.replicate 3 .caller ++ List.replicate 12 .explorer ++ List.replicate 10 .caller

/-- The thread ends after `stop` has set the flag. -/
def coinStopped : List Choice := coinStop ++ List.replicate 40 .explorer ++ List.replicate 10 .caller

end Verif.Spec
