import Verif.Model.PomcpPage
import Verif.Spec.TrajPage
import Verif.Spec.Export

/-! Specification vocabulary for the page of search trees (C110). -/

namespace Verif.Spec
open Verif

/-- The abbreviations of this page, in order. -/
def pomAbbreviations : List (String × String) :=
  [("intention", "int"), ("phy", "P-"), ("com-", "C-"), ("-get", " Get"), ("-snap", " Snap"), ("-left-leg", "LL"), ("-right-leg", "RL"),
    ("-central-frame", "CF")]

/-- The dictionary at a path, given by the numbers of the children. -/
inductive DictAt : PolicyDict → List Nat → PolicyDict → Prop
  | nil (d : PolicyDict) : DictAt d [] d
  | cons {i : PolicyInfo} {os : Option (List Name)} {cs : List PolicyDict} {k : Nat} {c e : PolicyDict} {p : List Nat} : cs[k]? = some c → DictAt c p e →
      DictAt (.mk i os cs) (k :: p) e

/-- The entries of a dictionary. -/
def infoIn : PolicyDict → PolicyInfo
  | .mk i _ _ => i

/-- The list `children` of a dictionary. -/
def dictsIn : PolicyDict → List PolicyDict
  | .mk _ _ cs => cs

/-- The list `observations` of a dictionary. -/
def namesIn : PolicyDict → Option (List Name)
  | .mk _ os _ => os

/-- The file can be displayed: the actions are strings and the root has a list of children. -/
structure FileOk (f : PomcpFile) : Prop where
  actions : ∀ a ∈ f.actions, ∃ s, a = .str s
  nodes : ∀ p e, DictAt f.root p e → ∃ s, (infoIn e).action = .str s
  root : (namesIn f.root).isSome

/-- The files that are read after the first one. -/
def filesRead : List PomcpEvent → List PomcpFile
  | [] => []
  | .refresh f :: evs => f :: filesRead evs
  | _ :: evs => filesRead evs

/-- The file that was read last, and the clicks since. -/
def lastRead : PomcpFile → List (List Nat) → List PomcpEvent → PomcpFile × List (List Nat)
  | f, clicks, [] => (f, clicks)
  | _, _, .refresh g :: evs => lastRead g [] evs
  | f, clicks, .click p :: evs => lastRead f (clicks ++ [p]) evs
  | f, clicks, .hover _ :: evs => lastRead f clicks evs

/-- A node must be displayed. -/
def DictShown (d : PolicyDict) (clicks : List (List Nat)) (p : List Nat) (e : PolicyDict) : Prop :=
  DictAt d p e ∧ ∀ q r, p = q ++ r → r ≠ [] → IsOpen clicks q

/-- The first of the files that has a name at a position gives it. -/
def FirstName (names : PomcpFile → List Name) (files : List PomcpFile) (j : Nat) (n : Name) : Prop :=
  ∃ l f r, files = l ++ f :: r ∧ (names f)[j]? = some n ∧ ∀ g ∈ l, (names g)[j]? = none

/-- The largest of the values, where `none` is a missing value. -/
def IsLargest (l : List (Option ℚ)) (m : ℚ) : Prop := some m ∈ l ∧ ∀ x, some x ∈ l → x ≤ m

/-- A row shows values: the largest one is marked, a missing value is grey, and the others go from red for the largest absolute value to blue for its
opposite, if they are not all 0. -/
def RowShows (l : List (Option ℚ)) (cells : List ValueCell) : Prop :=
  cells.length = l.length ∧ ∀ (j : Nat) (v : Option ℚ), l[j]? = some v → ∃ best shade, cells[j]? = some (.shown v best shade) ∧
    (∀ x, v = some x → (best = true ↔ IsLargest l x)) ∧ ((∃ x, some x ∈ l) → v = none → best = false) ∧ (shade = none ↔ v = none) ∧
    ∀ x m, v = some x → 0 < m → (∀ y, some y ∈ l → |y| ≤ m) → (∃ y, some y ∈ l ∧ |y| = m) → shade = some ((1 - x / m) / 2)

/-- The values with the bonus of exploration: its weight is that of the file, relative to the spread of the values if the file tells so; a missing term is 0.
-/
def WithBonus (f : PomcpFile) (i : PolicyInfo) (l : List (Option ℚ)) : Prop :=
  l.length = i.values.length ∧ ∀ (j : Nat) (v : Option ℚ) (e : Option ℚ), i.values[j]? = some v → i.exploration[j]? = some e →
    (v = none → l[j]? = some none) ∧ ∀ x c lo hi, v = some x → f.exploration = some c → IsLargest i.values hi → some lo ∈ i.values →
      (∀ y, some y ∈ i.values → lo ≤ y) → l[j]? = some (some (x + (if f.relative then c * (hi - lo) else c) * e.getD 0))

/-- A row shows numbers of visits: the largest ones are marked, and those above half of them; a 0 is grey and not written. -/
def VisitsShow (l : List Nat) (cells : List VisitCell) : Prop :=
  cells.length = l.length ∧ ∀ (j n : Nat), l[j]? = some n → ∃ text best big shade, cells[j]? = some (.shown n text best big shade) ∧
    (best = true ↔ ∀ m ∈ l, m ≤ n) ∧ (big = true ↔ ∀ m ∈ l, m < 2 * n) ∧ (n = 0 → text = [] ∧ shade = none) ∧
    (0 < n → text = showNat n ∧ ∀ m ∈ l, (∀ m' ∈ l, m' ≤ m) → shade = some ((n : ℚ) / m))

end Verif.Spec
