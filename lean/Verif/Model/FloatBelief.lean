import Verif.Model.Pomdp
import Mathlib.Data.Int.Log

/-!
# Belief updates in floating point arithmetic (`lib/pomdp.py:259-264`)

In the other modules the numbers of the code are rationals without rounding.  Here every operation of `belief_update` rounds its
result.

* `r x y` says that a result whose exact value is `x` may be stored as `y`.  There are two such relations, `rs` for the sum of two
  numbers and `rp` for products, quotients and fused multiply-adds.
* numpy and BLAS do not document the order in which they add: sums are computed by any tree of additions, on the terms in any order;
  the number `d` counts the additions (and the multiplication) that a term goes through.  Products may be rounded before they are
  added, or added by a fused multiply-add.
* The arrays of the model are the stored ones.  Indices and shapes are not checked here, see `Model/Pomdp.lean`.
* The numbers are not limited: there is neither overflow nor `nan`.
-/

namespace Verif

/-- A rounding: `r x y` if the exact result `x` may be stored as `y`. -/
abbrev Rounds := ℚ → ℚ → Prop

/-- `l.sum()`, `lib/pomdp.py:261`. -/
inductive FloatSum (r : Rounds) : Nat → List ℚ → ℚ → Prop
  | nil : FloatSum r 0 [] 0
  | one (x : ℚ) : FloatSum r 0 [x] x
  | add {d e : Nat} {l m : List ℚ} {v w z : ℚ} : FloatSum r d l v → FloatSum r e m w → r (v + w) z →
      FloatSum r (max d e + 1) (l ++ m) z
  | perm {d : Nat} {l m : List ℚ} {v : ℚ} : l.Perm m → FloatSum r d l v → FloatSum r d m v

/-- A scalar product, `b.dot(...)` in `lib/pomdp.py:260`; the list has the pairs of factors. -/
inductive FloatDot (rs rp : Rounds) : Nat → List (ℚ × ℚ) → ℚ → Prop
  | nil : FloatDot rs rp 0 [] 0
  | mul {x y z : ℚ} : rp (x * y) z → FloatDot rs rp 1 [(x, y)] z
  | add {d e : Nat} {l m : List (ℚ × ℚ)} {v w z : ℚ} : FloatDot rs rp d l v → FloatDot rs rp e m w → rs (v + w) z →
      FloatDot rs rp (max d e + 1) (l ++ m) z
  | fma {d : Nat} {l : List (ℚ × ℚ)} {v x y z : ℚ} : FloatDot rs rp d l v → rp (v + x * y) z →
      FloatDot rs rp (d + 1) (l ++ [(x, y)]) z
  | perm {d : Nat} {l m : List (ℚ × ℚ)} {v : ℚ} : l.Perm m → FloatDot rs rp d l v → FloatDot rs rp d m v

/-- `new_b = b.dot(self.T[a, ...]) * self.O[a, :, o]`, `lib/pomdp.py:260`, with at most `D` roundings of each term of a scalar
product. -/
def FloatJoint (rs rp : Rounds) (D : Nat) (p : Pomdp) (a o : Nat) (b xs : List ℚ) : Prop :=
  xs.length = p.T.n2 ∧ ∀ s' < p.T.n2, ∃ d ≤ D, ∃ v,
    FloatDot rs rp d ((List.range p.T.n1).map fun s => (b.getD s 0, p.T.at_ a s s')) v ∧ rp (v * p.O.at_ a s' o) (xs.getD s' 0)

/-- `belief_update`, `lib/pomdp.py:259-264`: what may be returned or raised. -/
inductive FloatUpdate (rs rp : Rounds) (D : Nat) (p : Pomdp) (a o : Nat) (b : List ℚ) : Py (List ℚ) → Prop
  | impossible {xs : List ℚ} {d : Nat} : FloatJoint rs rp D p a o b xs → d ≤ D → FloatSum rs d xs 0 →
      FloatUpdate rs rp D p a o b (.error .impossible)
  | ok {xs q : List ℚ} {s : ℚ} {d : Nat} : FloatJoint rs rp D p a o b xs → d ≤ D → FloatSum rs d xs s → s ≠ 0 →
      q.length = xs.length → (∀ i < xs.length, rp (xs.getD i 0 / s) (q.getD i 0)) → FloatUpdate rs rp D p a o b (.ok q)

/-- Successive belief updates, from the belief `b` along a history of actions and observations: each one starts from the stored
result of the one before, `lib/pomdp.py:478-482`, `lib/belief.py:34-35`. -/
inductive FloatUpdates (rs rp : Rounds) (D : Nat) (p : Pomdp) : List ℚ → List (Nat × Nat) → Py (List ℚ) → Prop
  | done (b : List ℚ) : FloatUpdates rs rp D p b [] (.ok b)
  | stop {b : List ℚ} {a o : Nat} {h : List (Nat × Nat)} {e : PyErr} : FloatUpdate rs rp D p a o b (.error e) →
      FloatUpdates rs rp D p b ((a, o) :: h) (.error e)
  | step {b b1 : List ℚ} {a o : Nat} {h : List (Nat × Nat)} {r : Py (List ℚ)} : FloatUpdate rs rp D p a o b (.ok b1) →
      FloatUpdates rs rp D p b1 h r → FloatUpdates rs rp D p b ((a, o) :: h) r

/-! ### Double precision -/

/-- The integer nearest to `y`, and of two the even one. -/
def halfEven (y : ℚ) : ℤ :=
  if y - ⌊y⌋ < 1 / 2 then ⌊y⌋ else if 1 / 2 < y - ⌊y⌋ then ⌊y⌋ + 1 else if ⌊y⌋ % 2 = 0 then ⌊y⌋ else ⌊y⌋ + 1

/-- The exponent of the last place of a double of the size of `x`: 53 bits, and at least -1074. -/
def lastPlace (x : ℚ) : ℤ := max (Int.log 2 |x| - 52) (-1074)

/-- Rounding to the nearest double (`float64`, IEEE 754 binary64), without overflow. -/
def binary64 (x : ℚ) : ℚ := halfEven (x / 2 ^ lastPlace x) * 2 ^ lastPlace x

/-- Rounding to double precision. -/
def toDouble : Rounds := fun x y => y = binary64 x

/-- Rounding to double precision without underflow: the exact result is zero or at least the smallest normal number. -/
def toNormal : Rounds := fun x y => y = binary64 x ∧ (x = 0 ∨ 1 / 2 ^ 1022 ≤ |x|)

end Verif
