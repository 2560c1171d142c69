import Verif.Model.GraphPolicy
import Verif.Spec.Pomdp

/-! Specification vocabulary for graph policies and parsers (C43-C49, C68). -/

namespace Verif.Spec
open Verif

/-! ### Files -/

/-- Words separated by one space. -/
def joinWords : List (List Char) → List Char
  | [] => []
  | [w] => w
  | w :: ws => w ++ ' ' :: joinWords ws

/-- A transition in a policy graph file. -/
def showTarget : Option Int → List Char
  | none => ['-']
  | some t => showInt t

/-- The line `N A  Z1 Z2 ...` of a policy graph file. -/
def pgLine (i : Nat) (a : Int) (ts : List (Option Int)) : List Char :=
  showNat i ++ ' ' :: (showInt a ++ ' ' :: ' ' :: joinWords (ts.map showTarget))

/-- A list of white space characters. -/
def Blank (w : List Char) : Prop := ∀ c ∈ w, isSpace c = true

/-- A non-empty list of decimal digits with value `n`. -/
def Digits (s : List Char) (n : Nat) : Prop :=
  s ≠ [] ∧ (∀ c ∈ s, 48 ≤ c.toNat ∧ c.toNat ≤ 57) ∧ s.foldl (fun acc c => acc * 10 + (c.toNat - 48)) 0 = n

/-- The file is made of the given lines and of any number of blank lines. -/
inductive WithBlanks : List (List Char) → List (List Char) → Prop
  | nil : WithBlanks [] []
  | blank {l : List Char} {ls file : List (List Char)} : l ≠ [] → Blank l → WithBlanks ls file → WithBlanks ls (l :: file)
  | line {l : List Char} {ls file : List (List Char)} : ¬ (l ≠ [] ∧ Blank l) → WithBlanks ls file → WithBlanks (l :: ls) (l :: file)

/-- An action line followed by a vector line, for each pair. -/
def pairLines (pairs : List (List Char × List Char)) : List (List Char) := pairs.flatMap fun x => [x.1, x.2]

/-- The integer `n` in a line. -/
def IntLine (l : List Char) (n : Int) : Prop := ∃ w1 w2, Blank w1 ∧ Blank w2 ∧ l = w1 ++ showInt n ++ w2

/-- Line `i` of the file describes node `i`, for all the nodes. -/
def PgFile (nodes : List (Int × List (Option Int))) (file : List (List Char)) : Prop :=
  file.length = nodes.length ∧
  ∀ i a ts, nodes[i]? = some (a, ts) → ∃ w, Blank w ∧ file[i]? = some (pgLine i a ts ++ w)

/-- Following the transitions of a policy. -/
inductive Reaches (g : GraphPolicy) : Int → List Name → Int → Prop
  | nil (c : Int) : Reaches g c [] c
  | cons {c c1 c2 : Int} {o : Name} {w : List Name} : g.next c o = .ok (some c1) → Reaches g c1 w c2 → Reaches g c (o :: w) c2

/-- The integer `c` designates node `k` of `n`: negative integers count from the end. -/
def NodeAt (n : Nat) (c : Int) (k : Nat) : Prop := k < n ∧ (c = k ∨ c = (k : Int) - n)

/-- The first position of an observation. -/
def FirstAt (l : List Name) (o : Name) (j : Nat) : Prop := l[j]? = some o ∧ ∀ i < j, l[i]? ≠ some o

/-- The execution of a policy given by the lists `acts` of the actions of the nodes, `obs` of the observations, and the table `tr`: the actions given
for a sequence of observations, and the exception that ends it, if any. -/
inductive Executes (acts obs : List Name) (tr : List (List (Option Int))) : Int → List Name → List Name → Option PyErr → Prop
  | last {c : Int} {k : Nat} {a : Name} : NodeAt acts.length c k → acts[k]? = some a → Executes acts obs tr c [] [a] none
  | step {c c' : Int} {k j : Nat} {a o : Name} {w as : List Name} {e : Option PyErr} {row : List (Option Int)} : NodeAt acts.length c k →
      acts[k]? = some a → FirstAt obs o j → tr[k]? = some row → row[j]? = some (some c') → Executes acts obs tr c' w as e →
      Executes acts obs tr c (o :: w) (a :: as) e
  | impossible {c : Int} {k j : Nat} {a o : Name} {w : List Name} {row : List (Option Int)} : NodeAt acts.length c k → acts[k]? = some a →
      FirstAt obs o j → tr[k]? = some row → row[j]? = some none → Executes acts obs tr c (o :: w) [a] (some .impossible)
  | unknown {c : Int} {k : Nat} {a o : Name} {w : List Name} : NodeAt acts.length c k → acts[k]? = some a → o ∉ obs →
      Executes acts obs tr c (o :: w) [a] (some .valueError)
  | outside {c : Int} {w : List Name} : (∀ k, ¬ NodeAt acts.length c k) → Executes acts obs tr c w [] (some .indexError)

/-! ### Policies -/

/-- The expected value of a vector in a belief. -/
def expected (v b : List ℚ) : ℚ := sumRange b.length (fun s => v.getD s 0 * b.getD s 0)

/-- The first node of maximal expected value. -/
def BestNode (values : List (List ℚ)) (b : List ℚ) (n : Nat) : Prop :=
  n < values.length ∧ ∀ i < values.length, expected (values.getD i []) b ≤ expected (values.getD n []) b ∧
    (i < n → expected (values.getD i []) b < expected (values.getD n []) b)

/-- A policy that fits a model. -/
def Fits (g : GraphPolicy) (p : Pomdp) (nS : Nat) : Prop :=
  g.values ≠ [] ∧ g.values.length = g.actions.length ∧ (∀ v ∈ g.values, v.length = nS) ∧ ∀ a ∈ g.actions, a ∈ p.actions

/-- The action of a policy in a belief. -/
def PolicyAction (g : GraphPolicy) (b : List ℚ) (a : Name) : Prop := ∃ n, BestNode g.values b n ∧ g.actions[n]? = some a

/-- `b'` is the posterior of `b` after action `a` and observation `o`, which is possible. -/
def IsPosterior (p : Pomdp) (nS a o : Nat) (b b' : List ℚ) : Prop :=
  obsProb p nS a o b ≠ 0 ∧ b'.length = nS ∧ ∀ s < nS, b'.getD s 0 = jointProb p nS a o b s / obsProb p nS a o b

/-- Following the policy from the belief `b`, the observations `w` are possible and lead to the belief `b'`; `h` are the
actions and the observations. -/
inductive Follows (g : GraphPolicy) (p : Pomdp) (nS : Nat) : List ℚ → List (Nat × Nat) → List Name → List ℚ → Prop
  | nil (b : List ℚ) : Follows g p nS b [] [] b
  | cons {b b1 b2 : List ℚ} {act : Name} {a o : Nat} {on : Name} {h : List (Nat × Nat)} {w : List Name} :
      PolicyAction g b act → p.actions[a]? = some act → p.observations[o]? = some on → IsPosterior p nS a o b b1 →
      Follows g p nS b1 h w b2 → Follows g p nS b ((a, o) :: h) (on :: w) b2

/-- Steps of a belief runner, the impossible observations being ignored: the accepted observations and the final state. -/
def stepAll (g : GraphPolicy) (p : Pomdp) : List Name → BRunner → List Name × BRunner
  | [], r => ([], r)
  | o :: os, r =>
      match bStep g p o r with
      | (.ok _, r1) => let x := stepAll g p os r1; (o :: x.1, x.2)
      | (.error _, r1) => stepAll g p os r1

/-- The belief of a node of a tree. -/
def TTree.beliefOf : TTree → List ℚ
  | .node b _ _ _ _ => b

/-- The action of a node of a tree. -/
def TTree.actionOf : TTree → Name
  | .node _ a _ _ _ => a

/-- The policy node of a node of a tree. -/
def TTree.nodeOf : TTree → Int
  | .node _ _ n _ _ => n

/-- The subtree reached by a sequence of observations. -/
def TTree.at_ : TTree → List Name → Option TTree
  | t, [] => some t
  | .node _ _ _ obs children, o :: w =>
      match dget (obs.zip children) o with
      | none => none
      | some t => TTree.at_ t w

/-- The square of the distance between two vectors of length `n`. -/
def distSq (n : Nat) (a b : List ℚ) : ℚ := sumRange n (fun i => (a.getD i 0 - b.getD i 0) ^ 2)

end Verif.Spec

namespace Verif.Spec
open Verif

/-- The names of actions and observations are distinct, as the constructor checks. -/
def NamesDistinct (p : Pomdp) : Prop := p.actions.Nodup ∧ p.observations.Nodup

/-- A belief runner whose belief is a distribution and whose node is the best one. -/
def BRunner.Valid (g : GraphPolicy) (nS : Nat) (r : BRunner) : Prop :=
  IsDist nS r.belief ∧ ∃ n : Nat, r.current = n ∧ BestNode g.values r.belief n

/-- A tree lists the possible futures of length at most `h` from belief `b`. -/
def TreeOf (g : GraphPolicy) (p : Pomdp) (nS h : Nat) (b : List ℚ) (t : TTree) : Prop :=
  ∀ w : List Name,
    (∀ t', TTree.at_ t w = some t' → w.length ≤ h ∧ ∃ hist b', Follows g p nS b hist w b' ∧ TTree.beliefOf t' = b' ∧
      ∃ n : Nat, TTree.nodeOf t' = n ∧ BestNode g.values b' n ∧ g.actions[n]? = some (TTree.actionOf t')) ∧
    (w.length ≤ h → ∀ hist b', Follows g p nS b hist w b' → ∃ t', TTree.at_ t w = some t')

end Verif.Spec

namespace Verif.Spec
open Verif

/-- `b'` is the belief after the policy's action in belief `b` and the observation number `o`. -/
def PolicyPosterior (g : GraphPolicy) (p : Pomdp) (nS : Nat) (b : List ℚ) (o : Nat) (b' : List ℚ) : Prop :=
  ∃ act a, PolicyAction g b act ∧ p.actions[a]? = some act ∧ IsPosterior p nS a o b b'

end Verif.Spec
