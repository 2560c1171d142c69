import Verif.Model.GraphPolicy
import Verif.Model.SolverFile
import Verif.Model.Solve
import Verif.Model.Belief

/-!
# The tests of `tests/test_pomdp.py` and `tests/test_belief.py` on the model

These are tests of the model, not proofs of properties of the code.  The texts are those of the files of `tests/samples`; random
arrays are replaced by fixed ones.  The tests that run the solver are left out.
-/

namespace Verif.Tests.Pomdp
open Verif

/-! ### The parsers, lines 17-49 -/

/-- A word of digits with at most one dot. -/
def number (l : List Char) : ℚ :=
  let (sign, l) : ℚ × List Char := match l with | '-' :: r => (-1, r) | r => (1, r)
  let int := l.takeWhile (· ≠ '.')
  let frac := (l.dropWhile (· ≠ '.')).drop 1
  sign * ((parseNat int).getD 0 + ((parseNat frac).getD 0 : ℚ) / 10 ^ frac.length)

/-- `np.fromstring(l, sep=' ')`. -/
def fromstring (l : List Char) : List ℚ := ((splitOn ' ' (strip l)).filter (· ≠ [])).map number

/-- `tests/samples/example.alpha`. -/
def alpha : String :=
  "1\n-10.5 0. 0. \n\n0\n-9.4 -1. -1. \n\n2\n-8.5 -2. -2. \n\n0\n-8.2 -3. -3.1 \n\n0\n-8.1 -4. -4.3 \n\n"

/-- `tests/samples/example.pg`. -/
def pg : String :=
  "0 1  0 4 0 \n1 0  0 - - \n2 2  0 4 0 \n3 0  2 - - \n4 0  3 - - \n"

/-- `tests/samples/dump.pomdp`, without the last end of line. -/
def dumpFile : String :=
  "discount: 1.0\nvalues: reward\nstates: x y\nactions: a b c\nobservations: o p\n\n\nstart: 0.20000 0.80000\n\nT" ++
  " : a\n0.50000 0.50000\n0.50000 0.50000\nT : b\n0.50000 0.50000\n0.50000 0.50000\nT : c\n0.50000 0.50000\n0.500" ++
  "00 0.50000\n\nO : a\n0.00000 1.00000\n0.00000 1.00000\nO : b\n0.00000 1.00000\n0.00000 1.00000\nO : c\n0.00000" ++
  " 1.00000\n0.00000 1.00000\n\nR : a : x\n0.00000 1.00000\n2.00000 3.00000\nR : a : y\n4.00000 5.00000\n6.00000 " ++
  "7.00000\nR : b : x\n8.00000 9.00000\n10.00000 11.00000\nR : b : y\n12.00000 13.00000\n14.00000 15.00000\nR : c" ++
  " : x\n16.00000 17.00000\n18.00000 19.00000\nR : c : y\n20.00000 21.00000\n22.00000 23.00000"

/-- `TestParseValueFunction.test_parses_ok`, lines 19-30. -/
example : parseValueFunction fromstring (fileLines alpha.toList)
    = .ok ([1, 0, 2, 0, 0], [[-105 / 10, 0, 0], [-94 / 10, -1, -1], [-85 / 10, -2, -2], [-82 / 10, -3, -31 / 10], [-81 / 10, -4, -43 / 10]]) := by
  decide +kernel

/-- `TestParsePolicyGraph.test_parses_ok`, lines 35-45. -/
example : parsePolicyGraph (fileLines pg.toList)
    = .ok ([1, 0, 2, 0, 0], [[some 0, some 4, some 0], [some 0, none, none], [some 0, some 4, some 0], [some 2, none, none],
        [some 3, none, none]]) := by
  decide +kernel

/-! ### `TestDumpArrays`, lines 48-103 -/

example : dumpList [.str "a", .str "bla", .str "blah"] = "a bla blah" := by decide +kernel
example : dumpList [.int 1, .int 2, .int 3] = "1 2 3" := by decide +kernel
example : dump1 fiveText [1, 23 / 10, 1234567 / 10000000] = .ok "1.00000 2.30000 0.12346" := by decide +kernel
example : dump2 fiveText [[1, 22 / 10, 3], [4, 5, 6]] = .ok "1.00000 2.20000 3.00000\n4.00000 5.00000 6.00000" := by decide +kernel
example : dump3 fiveText "NAME" ["first", "second"] [[[1, 22 / 10, 3], [4, 5, 6]], [[7, 8, 9], [10, 11, 12]]]
    = .ok ("NAME : first\n1.00000 2.20000 3.00000\n4.00000 5.00000 6.00000\n" ++
        "NAME : second\n7.00000 8.00000 9.00000\n10.00000 11.00000 12.00000") := by decide +kernel
example : dump4 fiveText "NAME" ["first", "second"] ["a", "b", "c"]
      ((List.range 2).map fun i => (List.range 3).map fun j => (List.range 2).map fun k => (List.range 3).map fun l =>
        ((1 + l + 3 * (k + 2 * (j + 3 * i)) : Nat) : ℚ))
    = .ok ("NAME : first : a\n1.00000 2.00000 3.00000\n4.00000 5.00000 6.00000\n" ++
        "NAME : first : b\n7.00000 8.00000 9.00000\n10.00000 11.00000 12.00000\n" ++
        "NAME : first : c\n13.00000 14.00000 15.00000\n16.00000 17.00000 18.00000\n" ++
        "NAME : second : a\n19.00000 20.00000 21.00000\n22.00000 23.00000 24.00000\n" ++
        "NAME : second : b\n25.00000 26.00000 27.00000\n28.00000 29.00000 30.00000\n" ++
        "NAME : second : c\n31.00000 32.00000 33.00000\n34.00000 35.00000 36.00000") := by decide +kernel

/-! ### `TestPOMDP`, lines 106-271 -/

/-- Rows of positive numbers with sum 1, in place of `np.random.dirichlet`. -/
def row (n seed : Nat) (k : Nat) : ℚ :=
  ((seed * 7 + k * k + 1 : Nat) : ℚ) / ((List.range n).map fun j => ((seed * 7 + j * j + 1 : Nat) : ℚ)).sum

/-- `self.T`, `self.O`, `self.R` and `self.start`, lines 108-115. -/
def T : Arr3 := ⟨4, 3, 3, fun a s => row 3 (a + 4 * s)⟩
@[inherit_doc T] def O : Arr3 := ⟨4, 3, 2, fun a s => row 2 (a + 5 * s)⟩
@[inherit_doc T] def R : Arr4 := ⟨4, 3, 3, 2, fun a s s' o => ((a + s * 2 + s' * 3 + o : Nat) : ℚ)⟩
@[inherit_doc T] def start : List ℚ := [1 / 5, 3 / 10, 1 / 2]

/-- The names `range(n)`. -/
def ints (n : Nat) : Option (List Name) := some ((List.range n).map Name.int)

/-- The kind of answer of the constructor. -/
def outcome (p : Py Pomdp) : Option PyErr :=
  match p with
  | .ok _ => none
  | .error e => some e

/-- `POMDP(T, O, R, start, discount, states=…, actions=…, observations=…)`. -/
def make (T O : Arr3) (start : List ℚ) (discount : ℚ) (s a o : Option (List Name)) (values : String := "reward") : Py Pomdp :=
  Pomdp.mk' (some "pomdp-solve") T O R start discount s a o values

/-- The correct call. -/
example : outcome (make T O start 1 (ints 3) (ints 4) (ints 2)) = none := by decide +kernel

/-- `test_raises_ValueErorr_on_discount_gt_1` and `_lt_0`, lines 126-134. -/
example : outcome (make T O start (11 / 10) (ints 3) (ints 4) (ints 2)) = some .valueError
    ∧ outcome (make T O start (-1 / 2) (ints 3) (ints 4) (ints 2)) = some .valueError := by decide +kernel

/-- `test_raises_ValueErorr_on_wrong_shape`, lines 136-148. -/
example : outcome (make T O start 1 (ints 4) (ints 4) (ints 2)) = some .valueError
    ∧ outcome (make T O start 1 (ints 3) (ints 2) (ints 2)) = some .valueError
    ∧ outcome (make T O start 1 (ints 3) (ints 4) (ints 3)) = some .valueError
    ∧ outcome (make T O [1 / 3, 2 / 3] 1 (ints 3) (ints 4) (ints 2)) = some .valueError := by decide +kernel

/-- `test_ValueError_on_nonnormal`, lines 150-162. -/
example : outcome (make ⟨4, 3, 3, fun a s s' => ((a + s + s' : Nat) : ℚ) / 9⟩ O start 1 (ints 3) (ints 4) (ints 2)) = some .valueError
    ∧ outcome (make T ⟨4, 3, 2, fun a s o => ((a + s + o : Nat) : ℚ) / 9⟩ start 1 (ints 3) (ints 4) (ints 2)) = some .valueError
    ∧ outcome (make T O [1 / 5, 3 / 10, 2 / 5] 1 (ints 3) (ints 4) (ints 2)) = some .valueError := by decide +kernel

/-- `test_ValueError_on_duplicates`, lines 164-173. -/
example : outcome (make T O start 1 (some [.str "a", .str "b", .str "a"]) none none) = some .valueError
    ∧ outcome (make T O start 1 none (some [.str "a", .str "b", .str "a", .str "c"]) none) = some .valueError
    ∧ outcome (make T O start 1 none none (some [.str "a", .str "a"])) = some .valueError := by decide +kernel

/-- The names of the states, actions and observations. -/
def names (p : Py Pomdp) : Option (List Name × List Name × List Name) :=
  match p with
  | .ok p => some (p.states, p.actions, p.observations)
  | .error _ => none

/-- `test_default_states`, `_actions`, `_observations`, lines 175-188. -/
example : names (make T O start 1 none none none)
    = some ([.int 0, .int 1, .int 2], [.int 0, .int 1, .int 2, .int 3], [.int 0, .int 1]) := by decide +kernel

/-- `test_non_default_states`, `_actions`, `_observations`, lines 190-204. -/
example : names (make T O start 1 (some [.int 3, .int 2, .int 1]) (some [.int 4, .int 3, .int 2, .int 1]) (some [.str "a", .str "b"]))
    = some ([.int 3, .int 2, .int 1], [.int 4, .int 3, .int 2, .int 1], [.str "a", .str "b"]) := by decide +kernel

/-- The array `R` of the model. -/
def rewards (p : Py Pomdp) : List (List (List (List ℚ))) :=
  match p with
  | .ok p => p.R.toList
  | .error _ => []

/-- `test_cost_is_negated_in_R` and `test_reward_is_not_negated_in_R`, lines 206-212. -/
example : rewards (make T O start 1 none none none "cost") = R.neg.toList
    ∧ rewards (make T O start 1 none none none "reward") = R.toList := by decide +kernel

/-- The model of `test_dump_pomdp`, lines 216-226. -/
def dumped : Py Pomdp :=
  Pomdp.mk' (some "pomdp-solve") ⟨3, 2, 2, fun _ _ _ => 1 / 2⟩ ⟨3, 2, 2, fun _ _ o => if o = 1 then 1 else 0⟩
    ⟨3, 2, 2, 2, fun a s s' o => ((o + 2 * (s' + 2 * (s + 2 * a)) : Nat) : ℚ)⟩ [1 / 5, 4 / 5] 1 (some [.str "x", .str "y"])
    (some [.str "a", .str "b", .str "c"]) (some [.str "o", .str "p"]) "reward"

/-- `test_dump_pomdp`, lines 214-230; `str(1.)` is `1.0`. -/
example : (match dumped with | .ok p => p.dump fiveText (fun _ => "1.0") | .error e => .error e) = .ok dumpFile := by decide +kernel

/-- `belief_update` of a model. -/
def updated (p : Py Pomdp) (a o : Nat) (b : List ℚ) : Py (List ℚ) :=
  match p with
  | .ok p => p.beliefUpdate a o b
  | .error e => .error e

/-- `test_belief_update_is_proba`, lines 240-245, for all the actions and observations. -/
example : (List.range 4).all (fun a => (List.range 2).all fun o =>
    match updated (make T O start (4 / 5) none none none) a o [1 / 7, 2 / 7, 4 / 7] with
    | .ok c => c.all (fun x => decide (0 ≤ x)) && decide (c.sum = 1)
    | .error _ => false) = true := by decide +kernel

/-- `test_belief_update_from_full_obs`, lines 247-258, for all the actions and observations. -/
example : (List.range 4).all (fun a => (List.range 3).all fun o =>
    decide (updated (Pomdp.mk' (some "") T ⟨4, 3, 3, fun _ s o => if s = o then 1 else 0⟩ ⟨4, 3, 3, 3, fun _ _ _ _ => 0⟩ start (4 / 5) none none none
        "reward") a o [3 / 10, 3 / 10, 4 / 10]
      = .ok ((List.range 3).map fun s => if s = o then 1 else 0))) = true := by decide +kernel

/-- `test_belief_update_from_uniform_obs_is_T`, lines 260-269, for all the actions, observations and states. -/
example : (List.range 4).all (fun a => (List.range 2).all fun o => (List.range 3).all fun s =>
    decide (updated (make T ⟨4, 3, 2, fun _ _ _ => 1 / 2⟩ start (4 / 5) none none none) a o ((List.range 3).map fun k => if k = s then 1 else 0)
      = .ok ((List.range 3).map (T.at_ a s)))) = true := by decide +kernel

/-- The arrays and names of a model. -/
def contents (p : Py Pomdp) : Option (List (List (List ℚ)) × List (List (List ℚ)) × List (List (List (List ℚ))) × List ℚ × ℚ) :=
  match p with
  | .ok p => some (p.T.toList, p.O.toList, p.R.toList, p.start, p.discount)
  | .error _ => none

/-- `test_save_load`, lines 271-283. -/
example : (match make T O start (4 / 5) none none none with
    | .ok p => contents (Pomdp.fromDict (some "") p.toDict) == contents (.ok p)
        && names (Pomdp.fromDict (some "") p.toDict) == names (.ok p)
    | .error _ => false) = true := by decide +kernel

/-! ### `TestPolicy`, lines 286-318 -/

/-- `self.a`, `self.o`, `self.t`, `self.v`. -/
def pa : List Name := [.str "a", .str "b", .str "a", .str "c", .str "c"]
@[inherit_doc pa] def po : List Name := [.str "d", .str "e"]
@[inherit_doc pa] def pt : List (List (Option Int)) :=
  [[some 0, some 1], [some 2, some 3], [some 4, some 4], [some 3, some 2], [some 1, some 0]]
@[inherit_doc pa] def pv : List (List ℚ) := [[1, 2, 0], [0, 1, 1], [3, 1, 1], [1 / 2, 3, 1], [2, 2, 2]]

/-- The initial node of a policy. -/
def initOf (g : Py GraphPolicy) : Option Int :=
  match g with
  | .ok g => some g.init
  | .error _ => none

/-- `test_init_with_start`, lines 295-299: the vector of the largest norm. -/
example : initOf (mkGraphPolicy pa po pt pv (some [2, 2, 2]) none) = some 4 := by decide +kernel
/-- `test_init_with_init`, lines 301-303. -/
example : initOf (mkGraphPolicy pa po pt pv none (some 3)) = some 3 := by decide +kernel
/-- `test_init_fails_without_init_or_start`, lines 305-307. -/
example : (match mkGraphPolicy pa po pt pv none none with | .error .valueError => true | _ => false) = true := by decide +kernel
/-- `test_save_load`, lines 309-318. -/
example : (match mkGraphPolicy pa po pt pv none (some 2) with
    | .ok g => (match GraphPolicy.fromDict g.toDict with
        | .ok h => decide (h.actions = pa ∧ h.observations = po ∧ h.transitions = pt ∧ h.values = pv ∧ h.init = 2)
        | .error _ => false)
    | .error _ => false) = true := by decide +kernel

/-! ### `tests/test_belief.py` -/

/-- The sampler of `test_raises_MaxSamplesReached`, lines 75-79. -/
example : (mkParticles (σ := Unit) (α := Nat) (fun _ => (.error .maxSamplesReached, ())) (fun _ => 0) 10 ()).1 = .error .maxSamplesReached := by
  decide +kernel

/-- The sampler of `test_do_not_fail_with_one_particle_sampled`, lines 81-91: it gives 3 once. -/
def once : List Nat → Py Nat × List Nat
  | [] => (.error .maxSamplesReached, [])
  | x :: xs => (.ok x, xs)

example : (mkParticles once (fun i => 31 * i) 99 [3]).1 = .ok (List.replicate 99 3) := by decide +kernel

/-- The model of `TestParticleBelief.test_successor`, lines 63-73: the observation is 0 at even calls and 1 at odd ones, and the
successors are drawn in turn among those of positive probability. -/
def fake (k _a _s : Nat) : Py (Nat × Nat × ℚ) := .ok (if k % 2 = 0 then (1 + k / 2 % 2, 0, -3 / 2) else (k / 2 % 2, 1, -3 / 2))

/-- `test_successor`, lines 63-73: the particles are all possible after the observation 1. -/
example : (match (particleSuccessor [0, 2, 0, 0, 2, 0, 0, 0, 2, 0] 10 (fun k => 7 * k) (fun _ => 0) fake 2 1).1 with
    | .ok l => decide (l.length = 10 ∧ 2 ∉ l ∧ 0 ∈ l ∧ 1 ∈ l)
    | .error _ => false) = true := by
  simp only [particleSuccessor]
  decide +kernel

end Verif.Tests.Pomdp
