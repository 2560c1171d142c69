import Verif.Model.HtmPage
import Verif.Spec.Htm
import Verif.Spec.PolicyPage

/-! Specification vocabulary for the pages of task trees (C111). -/

namespace Verif.Spec
open Verif

/-- The replacements in the names, in order. -/
def htmReplacements : List (String × String) :=
  [("REQUEST-ACTION", " "), ("-OF-OBJECT", " "), ("ARTIFACT-", " "), (" ARTIFACT", " "), ("Parallelized Subtasks of ", " "),
    ("FOOT_BRACKET", "bracket-foot")]

/-- The list `children` of a node; nothing if there is none. -/
def subnodes : DNode → List DNode
  | .mk _ _ _ _ _ none => []
  | .mk _ _ _ _ _ (some cs) => cs

/-- The entry `id` of a node. -/
def idIn : DNode → Int
  | .mk _ i _ _ _ _ => i

/-- The entry `name` of a node. -/
def nameIn : DNode → String
  | .mk n _ _ _ _ _ => n

/-- The entry `combination` of a node. -/
def combIn : DNode → Option String
  | .mk _ _ _ c _ _ => c

/-- The entry `attributes` of a node. -/
def attributesIn : DNode → List String
  | .mk _ _ _ _ attrs _ => attrs

/-- The node at a path, given by the numbers of the children. -/
inductive HtmNodeAt : DNode → List Nat → DNode → Prop
  | nil (d : DNode) : HtmNodeAt d [] d
  | cons {d c e : DNode} {k : Nat} {p : List Nat} : (subnodes d)[k]? = some c → HtmNodeAt c p e → HtmNodeAt d (k :: p) e

/-- A node is open: at first if it is the root or its depth is less than the limit; each click changes it. -/
def IsOpenAt (depth : Nat) (clicks : List (List Nat)) (p : List Nat) : Prop :=
  if p = [] ∨ p.length < depth then clicks.count p % 2 = 0 else clicks.count p % 2 = 1

/-- A node must be displayed: all the nodes above it are open. -/
def NodeShown (d : DNode) (depth : Nat) (clicks : List (List Nat)) (p : List Nat) (e : DNode) : Prop :=
  HtmNodeAt d p e ∧ ∀ q r, p = q ++ r → r ≠ [] → IsOpenAt depth clicks q

/-- The file that a selection names. -/
def selectedFile : HtmEvent → Option (List Char)
  | .select (c :: f) => some (c :: f)
  | _ => none

/-- The limit of depth that a button sets. -/
def depthSet : HtmEvent → Option Nat
  | .collapse => some 3
  | .expand => some 2000
  | _ => none

/-- The content of a message. -/
def messageIn : HtmEvent → Option HtmContent
  | .message c => some c
  | _ => none

/-- The files after a change. -/
def diskSet : HtmEvent → Option (List Char → Option HtmContent)
  | .disk fs => some fs
  | _ => none

/-- The last of the values that events give, or the one at the beginning. -/
def lastSet {α : Type} (get : HtmEvent → Option α) (start : α) (evs : List HtmEvent) : α := ((evs.filterMap get).getLast?).getD start

/-- The event reads a tree. -/
def Reads : HtmEvent → Prop
  | .disk _ => False
  | .click _ => False
  | _ => True

/-- The name without the first "C:\fakepath\". -/
def RealFile (file real : List Char) : Prop := ReplacedFirst "C:\\fakepath\\".toList [] file real

/-- What there is to read after the events: the last message if there is one, otherwise the file with the name selected last. -/
def ToRead (fs : List Char → Option HtmContent) (file : List Char) (evs : List HtmEvent) (d : DNode) : Prop :=
  (∃ l, (evs.filterMap messageIn) = l ++ [some d]) ∨
    (evs.filterMap messageIn = [] ∧ ∃ real, RealFile (lastSet selectedFile file evs) real ∧ real ≠ [] ∧ lastSet diskSet fs evs real = some (some d))

/-- There is nothing to read: no message and no name. -/
def NothingToRead (file : List Char) (evs : List HtmEvent) : Prop :=
  evs.filterMap messageIn = [] ∧ RealFile (lastSet selectedFile file evs) []

/-- What must be displayed after the events: a tree, the limit of depth when it was read, and the clicks since. -/
inductive Shows (fs : List Char → Option HtmContent) (file : List Char) (depth : Nat) : List HtmEvent → Option (DNode × Nat × List (List Nat)) → Prop
  | startBlank : NothingToRead file [] → Shows fs file depth [] none
  | startRead {d : DNode} : ToRead fs file [] d → Shows fs file depth [] (some (d, depth, []))
  | disk {evs : List HtmEvent} {x : Option (DNode × Nat × List (List Nat))} {fs' : List Char → Option HtmContent} :
      Shows fs file depth evs x → Shows fs file depth (evs ++ [.disk fs']) x
  | clickBlank {evs : List HtmEvent} {p : List Nat} : Shows fs file depth evs none → Shows fs file depth (evs ++ [.click p]) none
  | click {evs : List HtmEvent} {d : DNode} {n : Nat} {clicks : List (List Nat)} {p : List Nat} :
      Shows fs file depth evs (some (d, n, clicks)) → Shows fs file depth (evs ++ [.click p]) (some (d, n, clicks ++ [p]))
  | blank {evs : List HtmEvent} {x : Option (DNode × Nat × List (List Nat))} {ev : HtmEvent} :
      Shows fs file depth evs x → Reads ev → NothingToRead file (evs ++ [ev]) → Shows fs file depth (evs ++ [ev]) x
  | read {evs : List HtmEvent} {x : Option (DNode × Nat × List (List Nat))} {ev : HtmEvent} {d : DNode} :
      Shows fs file depth evs x → Reads ev → ToRead fs file (evs ++ [ev]) d →
        Shows fs file depth (evs ++ [ev]) (some (d, lastSet depthSet depth (evs ++ [ev]), []))

/-- The first tree that is displayed, the limit of depth and the clicks, as long as no other is read. -/
inductive FirstTree (fs : List Char → Option HtmContent) (file : List Char) (depth : Nat) : List HtmEvent → DNode → Nat → List (List Nat) → Prop
  | start {d : DNode} : ToRead fs file [] d → FirstTree fs file depth [] d depth []
  | read {evs : List HtmEvent} {ev : HtmEvent} {d : DNode} : Shows fs file depth evs none → Reads ev → ToRead fs file (evs ++ [ev]) d →
      FirstTree fs file depth (evs ++ [ev]) d (lastSet depthSet depth (evs ++ [ev])) []
  | disk {evs : List HtmEvent} {d : DNode} {n : Nat} {clicks : List (List Nat)} {fs' : List Char → Option HtmContent} :
      FirstTree fs file depth evs d n clicks → FirstTree fs file depth (evs ++ [.disk fs']) d n clicks
  | click {evs : List HtmEvent} {d : DNode} {n : Nat} {clicks : List (List Nat)} {p : List Nat} :
      FirstTree fs file depth evs d n clicks → FirstTree fs file depth (evs ++ [.click p]) d n (clicks ++ [p])

/-- The ids of the nodes are different. -/
def DistinctIds (d : DNode) : Prop := ∀ p e q e', HtmNodeAt d p e → HtmNodeAt d q e' → idIn e = idIn e' → p = q

/-- The class of the node for its attributes. -/
def attributeClass (e : DNode) : List Char := "node ".toList ++ (" ".intercalate (attributesIn e)).toList

/-- No attribute is taken for the mark of collapsed nodes. -/
def PlainAttributes (d : DNode) : Prop := ∀ p e, HtmNodeAt d p e → ∀ u v, attributeClass e ≠ u ++ " collapsed".toList ++ v

/-- The replacements in a name, some times. -/
inductive CleanedBy : Nat → List Char → List Char → Prop
  | zero (s : List Char) : CleanedBy 0 s s
  | succ {k : Nat} {s t u : List Char} : Abbreviated htmReplacements s t → CleanedBy k t u → CleanedBy (k + 1) s u

/-- The symbol of a combination. -/
def SymbolOf (c : String) (s : String) : Prop :=
  (c = "Parallel" ∧ s = "||") ∨ (c = "Sequential" ∧ s = "→") ∨ (c = "Alternative" ∧ s = "v")

/-- A name on which the replacements have no effect. -/
def SettledName (s : List Char) : Prop := ∀ r ∈ htmReplacements, ∀ u v, s ≠ u ++ r.1.toList ++ v

end Verif.Spec
