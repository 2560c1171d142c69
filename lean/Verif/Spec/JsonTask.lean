import Verif.Model.JsonTask

/-! Specification of what `json_to_htm` reads (C123). -/

namespace Verif.Spec

mutual
/-- The tree that a node of a task file stands for.  A leaf needs all the keys but `children`; its agent is the first
attribute that is not `highlighted`.  A combination has no attributes, and all six keys; its alternatives are uniform. -/
def FileTree : JNode → Htm BaseAction → Prop
  | .mk n c i p attrs _, .leaf a i' p' h =>
      n = some a.name ∧ c ≠ none ∧ i = i' ∧ i ≠ none ∧ p = some p' ∧ h = false ∧
        ∃ as, attrs = some as ∧ ∃ pre post, as = pre ++ a.agent :: post ∧ a.agent ≠ "highlighted" ∧
          ∀ x ∈ pre, x = "highlighted"
  | .mk _ _ _ _ _ none, .comb _ _ _ _ _ _ _ => False
  | .mk n c i p attrs (some ds), .comb k cs i' p' n' h pr =>
      n = some n' ∧ c = some (some k.str) ∧ i = i' ∧ i ≠ none ∧ p = some p' ∧ h = false ∧ attrs = some [] ∧
        FileTrees ds cs ∧
        (k = .alternative → cs ≠ [] ∧ pr = some (List.replicate cs.length (1 / (cs.length : ℚ)))) ∧
        (k ≠ .alternative → pr = none)
/-- See `FileTree`. -/
def FileTrees : List JNode → List (Htm BaseAction) → Prop
  | [], [] => True
  | d :: ds, c :: cs => FileTree d c ∧ FileTrees ds cs
  | _, _ => False
end

/-- A key that is always read is absent. -/
def LacksKey : JNode → Prop
  | .mk n c i p attrs _ => n = none ∨ c = none ∨ i = none ∨ p = none ∨ attrs = none

mutual
/-- The error that a node is refused with: the one of the first node, in the order of the file, that has one.  The error
of a combination itself comes after the ones of its children. -/
def RefusedWith : JNode → PyErr → Prop
  | .mk n c i p attrs none, e =>
      (LacksKey (.mk n c i p attrs none) ∧ e = .keyError) ∨
      (¬ LacksKey (.mk n c i p attrs none) ∧
        ((attrs = some [] ∧ e = .keyError) ∨
         (attrs ≠ some [] ∧ (∀ as, attrs = some as → ∀ x ∈ as, x = "highlighted") ∧ e = .indexError)))
  | .mk n c i p attrs (some ds), e =>
      (LacksKey (.mk n c i p attrs (some ds)) ∧ e = .keyError) ∨
      (¬ LacksKey (.mk n c i p attrs (some ds)) ∧
        ((attrs ≠ some [] ∧ (∀ as, attrs = some as → ∀ x ∈ as, x = "highlighted") ∧ e = .indexError) ∨
         (attrs = some [] ∧
           (AnyRefusedWith ds e ∨
            ((∃ ts, FileTrees ds ts) ∧
              (((∀ k : Kind, c ≠ some (some k.str)) ∧ e = .keyError) ∨
               (c = some (some "Alternative") ∧ ds = [] ∧ e = .zeroDivisionError)))))))
/-- See `RefusedWith`. -/
def AnyRefusedWith : List JNode → PyErr → Prop
  | [], _ => False
  | d :: ds, e => RefusedWith d e ∨ ((∃ t, FileTree d t) ∧ AnyRefusedWith ds e)
end

end Verif.Spec
