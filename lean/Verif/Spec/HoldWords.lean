import Verif.Model.SupExperiment

/-! Specification of the tasks of the multitask job (C81). -/

namespace Verif.Spec

/-- The sequence in which legs are assembled, given the name and the hold of each: every one consumes a leg and uses the
joints, the screwdriver and the screws. -/
def LegSequence (legs : List (String × String)) (t : Htm SupAction) : Prop :=
  t = .comb .sequential (legs.map fun l => .leaf ⟨"Assemble " ++ l.1,
    some (some l.2, [(cUSES, "joints"), (cCONSUMES, "leg"), (cUSES, "screwdriver"), (cUSES, "screws")])⟩ none none false)
    none none "unnamed" false none

/-- An alternative, all as likely, of one sequence of legs for each word of holds. -/
def LegChoice (words : List (List String)) (t : Htm SupAction) : Prop :=
  ∃ ss, t = .comb .alternative ss none none "unnamed" false (some (List.replicate words.length (1 / (words.length : ℚ)))) ∧
    List.Forall₂ (fun w s => LegSequence (w.map fun h => ("leg", h)) s) words ss

/-- The first word comes before the second in a dictionary: after the letters they begin with, it has `h` and the other one
`v`. -/
def WordBefore (u w : List String) : Prop := ∃ c x y, u = c ++ "h" :: x ∧ w = c ++ "v" :: y

end Verif.Spec
