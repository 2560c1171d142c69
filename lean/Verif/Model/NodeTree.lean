import Verif.Model.Htm

/-!
# Trees of nodes of the conversions to POMDPs (`task_to_pomdp.py:104-121, 282-381`, `bring_next_to_pomdp.py:49-60, 100-175`)

The parent classes `_ParentNodeToPOMDP`, `_SequenceToPOMDP` and `_AlternativesToPOMDP` are the same in the two modules, except
that `bring_next_to_pomdp.py` has no actions attached to leaves.  They are modelled once:

* `w` is the number of states of a leaf (3 and 1), `wa` its number of actions (4 and 0);
* the methods `update_T`, `update_O`, `update_R` of the leaves are a parameter `f` of the traversals; they act on a state of
  type `S` (the array) and may raise;
* the offsets `s_start + self.s_indices[i]` (cumulative sums of the sizes of the previous children, `task_to_pomdp.py:282-286`)
  are running sums.

The properties `init` and `start` of an empty sequence raise `IndexError` (`self.children[0]`).  Every `init` of the tree is
read during the conversion (by the conversion for the root, by the `init` of the parent for the children of an alternative
and the first child of a sequence, by the traversal for the other children of a sequence), so that the conversion raises
`IndexError` as soon as the tree has an empty sequence: this is checked beforehand (`N2P.hasEmptySeq`), and `init` and `start`
are total here.
-/

namespace Verif

/-- The nodes: leaf, sequence, alternatives. -/
inductive N2P (A : Type) where
  | leaf (a : A)
  | seq (children : List (N2P A))
  | alt (children : List (N2P A))

namespace N2P
variable {A : Type}

/-- `from_node`, `task_to_pomdp.py:104-121`, `bring_next_to_pomdp.py:49-60`, with the constructors of the parent nodes.
`fuel` is the limit of Python on the depth of the calls. -/
def fromNode (ops : ActOps A) : Nat → Htm A → Py (N2P A)
  | 0, _ => .error .runtimeError
  | _ + 1, .leaf a _ _ _ => .ok (.leaf a)
  | fuel + 1, .comb .sequential cs _ _ _ _ _ => do
      let l ← cs.mapM (fromNode ops fuel)
      return .seq l
  | fuel + 1, .comb .alternative cs _ _ _ _ _ => do
      let l ← cs.mapM (fromNode ops fuel)
      return .alt l
  | fuel + 1, .comb .parallel cs _ _ n h _ => do
      let t ← toAlternative ops cs n h
      let l ← t.children.mapM (fromNode ops fuel)
      return .alt l

mutual
/-- The leaves, in order. -/
def leaves : N2P A → List A
  | .leaf a => [a]
  | .seq cs => leavesL cs
  | .alt cs => leavesL cs
@[inherit_doc leaves]
def leavesL : List (N2P A) → List A
  | [] => []
  | c :: cs => leaves c ++ leavesL cs
end

/-- `states`, `actions` and `durations` of a node: the concatenation of those of the leaves, `task_to_pomdp.py:289-306`. -/
def concat {α : Type} (f : A → List α) (n : N2P A) : List α := n.leaves.flatMap f

/-- Number of states (`w`) or actions (`wa`) of a node. -/
def size (w : Nat) (n : N2P A) : Nat := w * n.leaves.length

mutual
/-- Is there a sequence without children? -/
def hasEmptySeq : N2P A → Bool
  | .leaf _ => false
  | .seq cs => cs.isEmpty || hasEmptySeqL cs
  | .alt cs => hasEmptySeqL cs
@[inherit_doc hasEmptySeq]
def hasEmptySeqL : List (N2P A) → Bool
  | [] => false
  | c :: cs => hasEmptySeq c || hasEmptySeqL cs
end

mutual
/-- `init`, `task_to_pomdp.py:316-318, 358-361`, plus the offset `s`. -/
def init (w : Nat) : N2P A → Nat → List Nat
  | .leaf _, s => [s]
  | .seq cs, s => initSeq w cs s
  | .alt cs, s => initAlt w cs s
/-- `self.children[0].init`. -/
def initSeq (w : Nat) : List (N2P A) → Nat → List Nat
  | [], _ => []
  | c :: _, s => init w c s
/-- The concatenation of the `init` of the children. -/
def initAlt (w : Nat) : List (N2P A) → Nat → List Nat
  | [], _ => []
  | c :: cs, s => init w c s ++ initAlt w cs (s + c.size w)
end

mutual
/-- `start`, `task_to_pomdp.py:320-322, 363-369`. -/
def start : N2P A → List ℚ
  | .leaf _ => [1]
  | .seq cs => startSeq cs
  | .alt cs => startAlt (1 / (cs.length : ℚ)) cs
/-- `self.children[0].start`. -/
def startSeq : List (N2P A) → List ℚ
  | [] => []
  | c :: _ => start c
/-- The concatenation of the `start` of the children, times the probability of a child. -/
def startAlt (p : ℚ) : List (N2P A) → List ℚ
  | [] => []
  | c :: cs => (start c).map (· * p) ++ startAlt p cs
end

/-- `next_inits[i]`, `task_to_pomdp.py:324-329`: the initial states of the next child, or those after the sequence; `rest`
are the next children, `s` the offset of the first of them. -/
def nextInit (w : Nat) (rest : List (N2P A)) (s : Nat) (next : List Nat) : List Nat :=
  match rest with
  | [] => next
  | d :: _ => d.init w s

/-- `next_probas[i]`, `task_to_pomdp.py:334`. -/
def nextProbas (rest : List (N2P A)) (probas : List ℚ) : List ℚ :=
  match rest with
  | [] => probas
  | d :: _ => d.start

variable {S : Type}

mutual
/-- `update_T`, `task_to_pomdp.py:331-338, 371-376`; also `update_T`, `update_O` and `update_R` of
`bring_next_to_pomdp.py:132-147, 164-175`, where the leaf does not use all the arguments. -/
def travT (w wa : Nat) (f : A → Nat → Nat → List Nat → List ℚ → S → Py S) : N2P A → Nat → Nat → List Nat → List ℚ → S → Py S
  | .leaf x, a, s, next, probas, st => f x a s next probas st
  | .seq cs, a, s, next, probas, st => travSeqT w wa f cs a s next probas st
  | .alt cs, a, s, next, probas, st => travAltT w wa f cs a s next probas st
/-- The loop over the children of a sequence. -/
def travSeqT (w wa : Nat) (f : A → Nat → Nat → List Nat → List ℚ → S → Py S) :
    List (N2P A) → Nat → Nat → List Nat → List ℚ → S → Py S
  | [], _, _, _, _, st => .ok st
  | c :: cs, a, s, next, probas, st => do
      let st ← travT w wa f c a s (nextInit w cs (s + c.size w) next) (nextProbas cs probas) st
      travSeqT w wa f cs (a + c.size wa) (s + c.size w) next probas st
/-- The loop over the children of an alternative. -/
def travAltT (w wa : Nat) (f : A → Nat → Nat → List Nat → List ℚ → S → Py S) :
    List (N2P A) → Nat → Nat → List Nat → List ℚ → S → Py S
  | [], _, _, _, _, st => .ok st
  | c :: cs, a, s, next, probas, st => do
      let st ← travT w wa f c a s next probas st
      travAltT w wa f cs (a + c.size wa) (s + c.size w) next probas st
end

/-- The states of a list of nodes from the offset `s` on, `_states_indices`, `task_to_pomdp.py:340-343`. -/
def statesOf (w s : Nat) (cs : List (N2P A)) : List Nat := (List.range (w * (leavesL cs).length)).map (s + ·)

mutual
/-- `update_O`, `task_to_pomdp.py:345-353, 378-381`; the arguments are the offsets, `s_next`, `s_before` and `s_after`. -/
def travO (w wa : Nat) (f : A → Nat → Nat → List Nat → List Nat → List Nat → S → Py S) :
    N2P A → Nat → Nat → List Nat → List Nat → List Nat → S → Py S
  | .leaf x, a, s, next, before, after, st => f x a s next before after st
  | .seq cs, a, s, next, before, after, st => travSeqO w wa f cs a s next before after [] st
  | .alt cs, a, s, next, before, after, st => travAltO w wa f cs a s next before after st
/-- The loop over the children of a sequence; `done` are the states of the previous children. -/
def travSeqO (w wa : Nat) (f : A → Nat → Nat → List Nat → List Nat → List Nat → S → Py S) :
    List (N2P A) → Nat → Nat → List Nat → List Nat → List Nat → List Nat → S → Py S
  | [], _, _, _, _, _, _, st => .ok st
  | c :: cs, a, s, next, before, after, done, st => do
      let st ← travO w wa f c a s (nextInit w cs (s + c.size w) next) (before ++ done) (after ++ statesOf w (s + c.size w) cs) st
      travSeqO w wa f cs (a + c.size wa) (s + c.size w) next before after (done ++ statesOf w s [c]) st
/-- The loop over the children of an alternative. -/
def travAltO (w wa : Nat) (f : A → Nat → Nat → List Nat → List Nat → List Nat → S → Py S) :
    List (N2P A) → Nat → Nat → List Nat → List Nat → List Nat → S → Py S
  | [], _, _, _, _, _, st => .ok st
  | c :: cs, a, s, next, before, after, st => do
      let st ← travO w wa f c a s next before after st
      travAltO w wa f cs (a + c.size wa) (s + c.size w) next before after st
end

mutual
/-- `update_R`, `task_to_pomdp.py:308-311`. -/
def travR (w wa : Nat) (f : A → Nat → Nat → S → Py S) : N2P A → Nat → Nat → S → Py S
  | .leaf x, a, s, st => f x a s st
  | .seq cs, a, s, st => travRL w wa f cs a s st
  | .alt cs, a, s, st => travRL w wa f cs a s st
/-- The loop over the children. -/
def travRL (w wa : Nat) (f : A → Nat → Nat → S → Py S) : List (N2P A) → Nat → Nat → S → Py S
  | [], _, _, st => .ok st
  | c :: cs, a, s, st => do
      let st ← travR w wa f c a s st
      travRL w wa f cs (a + c.size wa) (s + c.size w) st
end

end N2P

/-- Assignment of values to the positions of a list, one after the other: `x[is] = vs`. -/
def scatter (f : Nat → ℚ) : List Nat → List ℚ → Nat → ℚ
  | i :: is, v :: vs => scatter (fun x => if x = i then v else f x) is vs
  | _, _ => f

end Verif
