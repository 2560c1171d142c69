import Verif.Model.PolicyPage
import Verif.Spec.GraphPolicy

/-! Specification vocabulary for the page of policies (C108). -/

namespace Verif.Spec
open Verif

/-- `t` is `s` where the first occurrence of `old`, if any, is replaced by `new`. -/
def ReplacedFirst (old new s t : List Char) : Prop :=
  (∃ u v, s = u ++ old ++ v ∧ t = u ++ new ++ v ∧ ∀ u' v', s = u' ++ old ++ v' → u.length ≤ u'.length) ∨ ((∀ u v, s ≠ u ++ old ++ v) ∧ t = s)

/-- The abbreviations, in order. -/
def abbreviations : List (String × String) :=
  [("intention", "int"), ("phy", "P "), ("com-", "C "), ("-get", " Get"), ("-snap", " Snap"), ("-left-leg", "LL"), ("-right-leg", "RL"),
    ("-central-frame", "CF")]

/-- The abbreviations applied one after the other. -/
inductive Abbreviated : List (String × String) → List Char → List Char → Prop
  | nil (s : List Char) : Abbreviated [] s s
  | cons {old new : String} {l : List (String × String)} {s t u : List Char} : ReplacedFirst old.toList new.toList s t → Abbreviated l t u →
      Abbreviated ((old, new) :: l) s u

/-- The transition of node `i` for observation number `j`, which is `o`, leads to `t`, and it must be drawn. -/
def DrawnAt (g : GraphPolicy) (showDone : Bool) (i j : Nat) (t : Int) (o : Name) : Prop :=
  (∃ row, g.transitions[i]? = some row ∧ row[j]? = some (some t)) ∧ g.observations[j]? = some o ∧ (showDone = true ∨ o ≠ .str "done")

/-- The page shows the policy. -/
structure ShowsPolicy (g : GraphPolicy) (showDone : Bool) (p : PolicyPage) : Prop where
  /-- One circle for each node, with its number, its action and a mark for the initial one. -/
  count : p.circles.length = g.actions.length
  circles : ∀ i s, g.actions[i]? = some (.str s) → ∃ c label, p.circles[i]? = some c ∧ c.id = i ∧ Abbreviated abbreviations s.toList label ∧
    c.name = "[".toList ++ showNat i ++ "] ".toList ++ label ∧ (c.initial = true ↔ g.init = i)
  names : (p.circles.map PageNode.name).Nodup
  /-- One arrow for each transition, from the circle of its node to the circle of the next one. -/
  arrows : ∃ ps : List (Nat × Nat), ps.Nodup ∧ (∀ i j, (i, j) ∈ ps ↔ ∃ t o, DrawnAt g showDone i j t o) ∧ p.arrows.length = ps.length ∧
    ∀ (k i j : Nat), ps[k]? = some (i, j) → ∃ a t o, p.arrows[k]? = some a ∧ DrawnAt g showDone i j t o ∧ a.obs = o ∧
      (∃ c, a.source = some c ∧ p.circles[i]? = some c) ∧ (∃ c, a.target = some c ∧ 0 ≤ t ∧ p.circles[t.toNat]? = some c) ∧
      a.cls = "link ".toList ++ nameText o ∧ markerColor a.marker = some (legendColor o)
  /-- The intermediate points are distinct. -/
  via : (p.arrows.map PageArrow.via).Nodup ∧ ∀ a ∈ p.arrows, p.circles.length ≤ a.via
  legend : p.legend = g.observations.map fun o => (legendColor o, nameText o)

/-- Following the arrows from the circle number `i`. -/
inductive ArrowWalk (p : PolicyPage) : Nat → List Name → Nat → Prop
  | nil (i : Nat) : ArrowWalk p i [] i
  | cons {i k : Nat} {a : PageArrow} {c c' : PageNode} {w : List Name} : a ∈ p.arrows → a.source = some c → p.circles[i]? = some c → a.target = some c' →
      ArrowWalk p c'.id w k → ArrowWalk p i (a.obs :: w) k

/-- The last file that was selected. -/
def lastSelected : List PolicyEvent → Option (List Char)
  | [] => none
  | .select n :: es => match lastSelected es with
    | none => some n
    | some m => some m
  | .refresh :: es => lastSelected es
  | .done _ :: es => lastSelected es

/-- The last choice of the switch. -/
def lastSwitch : List PolicyEvent → Option Bool
  | [] => none
  | .select _ :: es => lastSwitch es
  | .refresh :: es => lastSwitch es
  | .done b :: es => match lastSwitch es with
    | none => some b
    | some c => some c

end Verif.Spec
