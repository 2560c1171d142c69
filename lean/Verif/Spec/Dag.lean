import Verif.Model.Htm

/-! Specification vocabulary for the DAG of a task (C22). -/

namespace Verif.Spec
open Verif
variable {A : Type}

/-- A language: a set of words of names. -/
abbrev Lang := List String → Prop

/-- Concatenation of languages. -/
def cat : List Lang → Lang
  | [], w => w = []
  | L :: Ls, w => ∃ u v, w = u ++ v ∧ L u ∧ cat Ls v

mutual
/-- The orders in which the leaves of a task may be executed: one after the other for a sequence, one of the children for
an alternative, the children one after the other in any order `σ` for a parallel node.  Names are renamed by `g`, and
below a parallel node also by `ren σ` (after `g`). -/
def lin (ops : ActOps A) (ren : List Nat → String → String) (g : String → String) : Htm A → Lang
  | .leaf a _ _ _, w => w = [g (ops.name a)]
  | .comb .sequential cs _ _ _ _ _, w => cat (linL ops ren g cs) w
  | .comb .alternative cs _ _ _ _ _, w => ∃ L ∈ linL ops ren g cs, L w
  | .comb .parallel cs _ _ _ _ _, w => ∃ σ : List Nat, σ.Perm (List.range cs.length) ∧
      cat (σ.map fun j => (linL ops ren (fun s => ren σ (g s)) cs).getD j (fun _ => False)) w
/-- The languages of a list of trees. -/
def linL (ops : ActOps A) (ren : List Nat → String → String) (g : String → String) : List (Htm A) → List Lang
  | [] => []
  | c :: cs => lin ops ren g c :: linL ops ren g cs
end

/-- The renaming of the code: `" order-"` and the position of the order in `itertools.permutations`. -/
def orderRen (σ : List Nat) : String → String :=
  orderFmt ((permutations (List.range σ.length)).idxOf σ)

/-- No renaming. -/
def noRen (_ : List Nat) (s : String) : String := s

mutual
/-- Every combination has a child. -/
def NonEmpty : Htm A → Prop
  | .leaf _ _ _ _ => True
  | .comb _ cs _ _ _ _ _ => cs ≠ [] ∧ NonEmptyL cs
/-- See `NonEmpty`. -/
def NonEmptyL : List (Htm A) → Prop
  | [] => True
  | c :: cs => NonEmpty c ∧ NonEmptyL cs
end

mutual
/-- Number of nested calls that the conversion needs (a parallel node adds a level of sequences). -/
def nesting : Htm A → Nat
  | .leaf _ _ _ _ => 1
  | .comb .parallel cs _ _ _ _ _ => nestingL cs + 2
  | .comb _ cs _ _ _ _ _ => nestingL cs + 1
/-- The maximum over a list of trees. -/
def nestingL : List (Htm A) → Nat
  | [] => 0
  | c :: cs => max (nesting c) (nestingL cs)
end

/-- A path of a graph given by the list of names and the list of successors: it starts at `i`, ends at a node without
successors, and reads the word `w`. -/
inductive DagPath (names : List String) (succs : List (List Nat)) : Nat → List String → Prop
  | last (i : Nat) (n : String) (hn : names[i]? = some n) (hs : succs[i]? = some []) : DagPath names succs i [n]
  | step (i j : Nat) (n : String) (ss : List Nat) (w : List String) (hn : names[i]? = some n)
      (hs : succs[i]? = some ss) (hj : j ∈ ss) (h : DagPath names succs j w) : DagPath names succs i (n :: w)

end Verif.Spec
