import Verif.Py
import Verif.Num
import Mathlib.Algebra.Order.Field.Rat

/-!
# Model of particle beliefs (`lib/belief.py:38-116`)

* A sampler is a function of a state (its attributes and the state of the random generator) that returns a value or raises.
* States are natural numbers.  The number of particles is a natural number (a negative one behaves as 0).
* `np.random.choice(n)` is `c % n` for an arbitrary number `c`; for `n = 0` it raises `ValueError`.
* The random outcomes of the simulator are an arbitrary sequence of functions, one for each call.
* `format_belief_array` is in `Model/Trajectory.lean`; the text of `MaxSamplesReached` is not modelled.
-/

namespace Verif

/-- The loop `while len(self.part_states) < self.n_particles: self.part_states.append(sampler())`,
`lib/belief.py:86-87`, for `k` missing particles: the particles appended, the exception that stopped it, if any, and the state
of the sampler. -/
def fillParticles {σ α : Type} (sampler : σ → Py α × σ) : Nat → σ → List α × Option PyErr × σ
  | 0, st => ([], none, st)
  | k + 1, st =>
      match sampler st with
      | (.error e, st') => ([], some e, st')
      | (.ok x, st') =>
          let r := fillParticles sampler k st'
          (x :: r.1, r.2)

/-- The recursive call `self._populate(self_sampler)`, `lib/belief.py:91-96`: `parts` are the particles found, and the `i`-th
duplicate is the one at the position `choose i % len(parts)`. -/
def duplicates {α : Type} (parts : List α) (choose : Nat → Nat) (k : Nat) : List α :=
  (List.range k).filterMap fun i => parts[choose i % parts.length]?

/-- `ParticleBelief(sampler, n_states, n)`, `lib/belief.py:78-99`: the attribute `part_states`, and the state of the sampler
afterwards. -/
def mkParticles {σ α : Type} (sampler : σ → Py α × σ) (choose : Nat → Nat) (n : Nat) (st : σ) : Py (List α) × σ :=
  match fillParticles sampler n st with
  | (parts, none, st') => (.ok parts, st')
  | (parts, some .maxSamplesReached, st') =>
      if parts = [] then (.error .maxSamplesReached, st')
      else (.ok (parts ++ duplicates parts choose (n - parts.length)), st')
  | (_, some e, st') => (.error e, st')

/-- `sample`, `lib/belief.py:101-104`, without argument: `c` is the random number. -/
def particleSample (parts : List Nat) (n c : Nat) : Py Nat :=
  if n = 0 then .error .valueError
  else match parts[c % n]? with
    | some s => .ok s
    | none => .error .indexError

/-- `array`, `lib/belief.py:111-116`. -/
def particleArray (nStates : Nat) (parts : List Nat) : Py (List ℚ) :=
  if parts.all (fun i => decide (i < nStates)) then
    let a := (List.range nStates).map fun i => (parts.count i : ℚ)
    .ok (a.map (· / (if a.sum = 0 then 1 else a.sum)))
  else .error .indexError

/-- `_SuccessorSampler.__call__`, `lib/belief.py:63-73`; the state is `n_sampled`.  `draw k` samples the `k`-th state from the
belief, and `sim k` is the `k`-th call of `sample_transition`. -/
def successorCall (draw : Nat → Py Nat) (sim : Nat → Nat → Nat → Py (Nat × Nat × ℚ)) (maxSamples a o k : Nat) : Py Nat × Nat :=
  if k + 1 > maxSamples then (.error .maxSamplesReached, k + 1)
  else
    match draw k with
    | .error e => (.error e, k + 1)
    | .ok s =>
        match sim k a s with
        | .error e => (.error e, k + 1)
        | .ok r => if r.2.1 ≠ o then successorCall draw sim maxSamples a o (k + 1) else (.ok r.1, k + 1)
termination_by maxSamples - k

/-- `successor(model, a, o)`, `lib/belief.py:106-109`; `n` is the number of particles.  The second component is the final value
of `n_sampled`. -/
def particleSuccessor (parts : List Nat) (n : Nat) (pick choose : Nat → Nat) (sim : Nat → Nat → Nat → Py (Nat × Nat × ℚ))
    (a o : Nat) : Py (List Nat) × Nat :=
  mkParticles (successorCall (fun k => particleSample parts n (pick k)) sim (100 * n) a o) choose n 0

end Verif
