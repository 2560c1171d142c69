/-! Specification vocabulary for cliques (C11, C12). -/

namespace Verif.Spec
variable {α : Type}

/-- Any two different members are adjacent. -/
def IsClique (adj : α → α → Prop) (K : α → Prop) : Prop := ∀ u v, K u → K v → u ≠ v → adj u v

/-- A set of nodes that is a clique and to which no other node can be added. -/
def MaxClique (node : α → Prop) (adj : α → α → Prop) (K : α → Prop) : Prop :=
  (∀ u, K u → node u) ∧ IsClique adj K ∧ ∀ w, node w → ¬ K w → ¬ IsClique adj (fun u => K u ∨ u = w)

/-- At least two members. -/
def NonTrivial (K : α → Prop) : Prop := ∃ u v, K u ∧ K v ∧ u ≠ v

/-- No member is adjacent to itself. -/
def Loopless (adj : α → α → Prop) (K : α → Prop) : Prop := ∀ u, K u → ¬ adj u u

/-- The yielded lists are the non-trivial maximal cliques without self-loops, each exactly once. -/
def ExactlyLooplessMaxCliques (node : α → Prop) (adj : α → α → Prop) (outs : List (List α)) : Prop :=
  (∀ o ∈ outs, o.Nodup ∧ MaxClique node adj (· ∈ o) ∧ NonTrivial (· ∈ o) ∧ Loopless adj (· ∈ o)) ∧
  (∀ K, MaxClique node adj K → NonTrivial K → Loopless adj K → ∃ o ∈ outs, ∀ u, u ∈ o ↔ K u) ∧
  outs.Pairwise (fun a b => ¬ ∀ u, u ∈ a ↔ u ∈ b)

/-- The yielded lists are the non-trivial maximal cliques, each exactly once. -/
def ExactlyMaxCliques (node : α → Prop) (adj : α → α → Prop) (outs : List (List α)) : Prop :=
  (∀ o ∈ outs, o.Nodup ∧ MaxClique node adj (· ∈ o) ∧ NonTrivial (· ∈ o)) ∧
  (∀ K, MaxClique node adj K → NonTrivial K → ∃ o ∈ outs, ∀ u, u ∈ o ↔ K u) ∧
  outs.Pairwise (fun a b => ¬ ∀ u, u ∈ a ↔ u ∈ b)

end Verif.Spec
