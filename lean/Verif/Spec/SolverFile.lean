import Verif.Model.Solve
import Verif.Spec.Trajectory
import Verif.Spec.Pomdp

/-!
A reader of the solver's input format (`http://www.pomdp.org/code/pomdp-file-spec.html`), used to state C100.  It reads the part of
the format that has the preamble in the usual order, the start belief as a list of probabilities, and `T`, `O` and `R` entries
followed by a matrix; a name or a number refers to a state or an action.
-/

namespace Verif.Spec
open Verif

/-- A word of the file. -/
abbrev FileWord := List Char

/-- Characters between words. -/
def separates (c : Char) : Bool := decide (c ∈ [' ', '\t', '\n', '\r'])

/-- The word that has been read, if there is one. -/
def pending (w : FileWord) : List FileWord := if w = [] then [] else [w]

/-- The words of a text that follows `w`; a colon is a word on its own. -/
def wordsAfter : FileWord → List Char → List FileWord
  | w, [] => pending w
  | w, c :: t =>
      if separates c then pending w ++ wordsAfter [] t
      else if c = ':' then pending w ++ [':'] :: wordsAfter [] t
      else wordsAfter (w ++ [c]) t

/-- The words of a text. -/
def fileWords (t : List Char) : List FileWord := wordsAfter [] t

/-- The words that have a meaning in the format. -/
def reservedWords : List FileWord :=
  ["discount", "values", "states", "actions", "observations", "start", "T", "O", "R", "uniform", "identity", "reward", "cost",
    "reset", "include", "exclude", "*"].map String.toList

/-- The states, actions or observations that a file declares. -/
inductive FileNames where
  | count (n : Nat)
  | list (l : List FileWord)
  deriving DecidableEq, Repr

/-- How many there are. -/
def FileNames.size : FileNames → Nat
  | .count n => n
  | .list l => l.length

/-- The index to which a word refers. -/
def FileNames.find (w : FileWord) : FileNames → Option Nat
  | .count n => (parseNat w).filter fun i => decide (i < n)
  | .list l => l.findIdx? fun v => decide (v = w)

/-- A declaration: the number of elements, or their names. -/
def declared (l : List FileWord) : FileNames :=
  match l with
  | [w] =>
      match parseNat w with
      | some n => .count n
      | none => .list [w]
  | _ => .list l

/-- A declaration ends at the next word with a meaning in the format. -/
def readNames (ws : List FileWord) : FileNames × List FileWord :=
  (declared (ws.takeWhile fun w => decide (w ∉ reservedWords)), ws.dropWhile fun w => decide (w ∉ reservedWords))

/-- A keyword and a colon. -/
def keyword (k : String) : List FileWord → Option (List FileWord)
  | w :: c :: ws => if w = k.toList ∧ c = [':'] then some ws else none
  | _ => none

/-- So many numbers. -/
def readNumbers : Nat → List FileWord → Option (List ℚ × List FileWord)
  | 0, ws => some ([], ws)
  | _ + 1, [] => none
  | n + 1, w :: ws =>
      (readDecimal w).bind fun x => (readNumbers n ws).map fun r => (x :: r.1, r.2)

/-- A matrix with `r` rows of `c` numbers. -/
def readMatrix (c : Nat) : Nat → List FileWord → Option (List (List ℚ) × List FileWord)
  | 0, ws => some ([], ws)
  | r + 1, ws => (readNumbers c ws).bind fun x => (readMatrix c r x.2).map fun y => (x.1 :: y.1, y.2)

/-- An entry: transition probabilities of an action (a row per state), observation probabilities of an action (a row per end
state), rewards of an action in a state (a row per end state, a column per observation). -/
inductive FileEntry where
  | T (a : Nat) (rows : List (List ℚ))
  | O (a : Nat) (rows : List (List ℚ))
  | R (a s : Nat) (rows : List (List ℚ))
  deriving DecidableEq, Repr

/-- An entry, after its keyword and the colon. -/
def readEntryOf (S A Z : FileNames) (k : FileWord) (ws : List FileWord) : Option (FileEntry × List FileWord) :=
  match ws with
  | [] => none
  | x :: rest =>
      (A.find x).bind fun a =>
        if k = ['T'] then (readMatrix S.size S.size rest).map fun m => (.T a m.1, m.2)
        else if k = ['O'] then (readMatrix Z.size S.size rest).map fun m => (.O a m.1, m.2)
        else if k = ['R'] then
          match rest with
          | c :: y :: rest =>
              if c = [':'] then (S.find y).bind fun s => (readMatrix Z.size S.size rest).map fun m => (.R a s m.1, m.2)
              else none
          | _ => none
        else none

/-- The entries until the end of the file (`fuel` bounds their number). -/
def readEntries (S A Z : FileNames) : Nat → List FileWord → Option (List FileEntry)
  | _, [] => some []
  | 0, _ => none
  | fuel + 1, k :: c :: ws =>
      if c = [':'] then (readEntryOf S A Z k ws).bind fun e => (readEntries S A Z fuel e.2).map fun es => e.1 :: es
      else none
  | _ + 1, [_] => none

/-- What a file says. -/
structure SolverFile where
  discount : ℚ
  values : FileWord
  states : FileNames
  actions : FileNames
  observations : FileNames
  start : List ℚ
  entries : List FileEntry

/-- The file after its preamble. -/
def readBody (d : ℚ) (v : FileWord) (S A Z : FileNames) (ws : List FileWord) : Option SolverFile :=
  (keyword "start" ws).bind fun ws => (readNumbers S.size ws).bind fun b =>
    (readEntries S A Z b.2.length b.2).map fun es => ⟨d, v, S, A, Z, b.1, es⟩

/-- The file after the discount and the kind of values. -/
def readDeclarations (d : ℚ) (v : FileWord) (ws : List FileWord) : Option SolverFile :=
  (keyword "states" ws).bind fun ws =>
    (keyword "actions" (readNames ws).2).bind fun us =>
      (keyword "observations" (readNames us).2).bind fun vs =>
        readBody d v (readNames ws).1 (readNames us).1 (readNames vs).1 (readNames vs).2

/-- The contents of a file. -/
def readSolverFile (t : List Char) : Option SolverFile :=
  (keyword "discount" (fileWords t)).bind fun ws =>
    (readNumbers 1 ws).bind fun d => (keyword "values" d.2).bind fun us =>
      match us with
      | [] => none
      | v :: rest => readDeclarations (d.1.headD 0) v rest

/-- A word that can be the name of a state, an action or an observation: it has no separators and no colon, it is not a number and
has no meaning in the format. -/
def IsFileName (w : FileWord) : Prop :=
  w ≠ [] ∧ (∀ c ∈ w, separates c = false ∧ c ≠ ':') ∧ parseNat w = none ∧ w ∉ reservedWords

/-- The names of a model can be written in a file. -/
def Writable : Names → Prop
  | .count _ => True
  | .list l => ∀ x ∈ l, ∃ s : String, x = .str s ∧ IsFileName s.toList

/-- The declaration of these names. -/
def declarationOf : Names → FileNames
  | .count n => .count n
  | .list l => .list (l.map fun x => x.toStr.toList)

/-- A text that is a number in a file. -/
def ReadsAs (t : String) (x : ℚ) : Prop := fileWords t.toList = [t.toList] ∧ readDecimal t.toList = some x

/-- A row of numbers of the file that represents `c` numbers `v 0`, `v 1`, …: five decimals, an error of at most half a unit of the
last one for all of them but one, whose error is at most `c` times that; the sum is the exact one if this is 1, and otherwise has
an error of at most half a unit; up to 449 probabilities are represented by numbers that are not negative. -/
def RowFor (c : Nat) (v : Nat → ℚ) (row : List ℚ) : Prop :=
  row.length = c ∧ (∀ i < c, FiveDecimals (row.getD i 0)) ∧
    (∃ m < c, (∀ i < c, i ≠ m → |row.getD i 0 - v i| ≤ 1 / 200000) ∧ |row.getD m 0 - v m| ≤ c / 200000) ∧
    |row.sum - sumRange c v| ≤ 1 / 200000 ∧ (sumRange c v = 1 → row.sum = 1) ∧
    (sumRange c v = 1 → (∀ i < c, 0 ≤ v i) → c ≤ 449 → ∀ i < c, 0 ≤ row.getD i 0)

/-- A matrix of the file that represents `n` rows of `c` numbers. -/
def MatrixFor (n c : Nat) (v : Nat → Nat → ℚ) (rows : List (List ℚ)) : Prop :=
  rows.length = n ∧ ∀ (i : Nat) row, rows[i]? = some row → RowFor c (v i) row

/-- The file declares the states, actions and observations of the model, its discount and rewards, and it gives the start belief, the
transition and observation probabilities of each action, and the rewards of each action in each state. -/
def FileDescribes (f : SolverFile) (p : Pomdp) : Prop :=
  f.discount = p.discount ∧ f.values = "reward".toList ∧
  f.states = declarationOf p.sNames ∧ f.actions = declarationOf p.aNames ∧ f.observations = declarationOf p.oNames ∧
  RowFor p.nStates (fun s => p.start.getD s 0) f.start ∧
  ∃ (mT mO : Nat → List (List ℚ)) (mR : Nat → Nat → List (List ℚ)),
    f.entries = (List.range p.nActions).map (fun a => .T a (mT a)) ++ (List.range p.nActions).map (fun a => .O a (mO a)) ++
      (List.range p.nActions).flatMap (fun a => (List.range p.nStates).map fun s => .R a s (mR a s)) ∧
    ∀ a < p.nActions, MatrixFor p.nStates p.nStates (p.T.at_ a) (mT a) ∧ MatrixFor p.nStates p.nObservations (p.O.at_ a) (mO a) ∧
      ∀ s < p.nStates, MatrixFor p.nStates p.nObservations (p.R.at_ a s) (mR a s)

/-- The characters of a name that `_name_radix` leaves, although they end a word of the file. -/
def cutChars : List Char := ['\t', '\n', '\r', ':']

end Verif.Spec
