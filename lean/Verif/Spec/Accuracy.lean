import Verif.Spec.Mean
import Verif.Spec.Returns
import Verif.Spec.Figures
import Verif.Model.SupExperiment
import Verif.Spec.SupExperiment

/-! Specification vocabulary for the accuracy of the means that are shown (C119). -/

namespace Verif.Spec
open Verif

/-- The mean squared deviation of a number that depends on an element of a finite set whose elements are all as likely. -/
def varianceIn {Ω : Type} [Fintype Ω] (f : Ω → ℚ) : ℚ := mean fun x => (f x - mean f) ^ 2

/-- The proportion of the elements of a finite set that have a property. -/
def proportion {Ω : Type} [Fintype Ω] (P : Ω → Prop) [DecidablePred P] : ℚ := ((Finset.univ.filter P).card : ℚ) / Fintype.card Ω

/-- The mean over `n` draws. -/
def sampleMean {Ω : Type} {n : Nat} (f : Ω → ℚ) (ω : Fin n → Ω) : ℚ := (∑ i, f (ω i)) / n

/-- The variance over `n` draws, as `np.var` computes it. -/
def sampleVar {Ω : Type} {n : Nat} (f : Ω → ℚ) (ω : Fin n → Ω) : ℚ := (∑ i, (f (ω i) - sampleMean f ω) ^ 2) / n

/-- A run in which the first `n` workers get the seeds `ω`, `utils/multiprocess.py:45-48`, and the processes take the steps `es`. -/
def seeded (W : ExpWorld) (es : List PoolEvent) {n G : Nat} (ω : Fin n → Fin G) : ExpWorld :=
  { W with events := es, seeds := fun w => if h : w < n then (ω ⟨w, h⟩ : Nat) else 0 }

/-- The value of the evaluation with a given seed. -/
def valueAt (target : Nat → Py Episode) (value : Episode → ℚ) {G : Nat} (seed : Fin G) : ℚ := value (episodeOr (target seed))

/-- The runs of one experiment with `n` evaluations, for all the seeds below `G` that its workers may get: `R` gives the results, `es` the
steps of the processes, and `target` the evaluation with a given seed. -/
structure Repeats (cls : ExpClass) (W : ExpWorld) (p : Params) (debug : Bool) {n G : Nat} (m : SupPomdp) (pol : ExpPolicy)
    (target : Nat → Py Episode) (es : (Fin n → Fin G) → List PoolEvent) (R : (Fin n → Fin G) → ExpResults) : Prop where
  init : ∀ ω, cls.initRun (seeded W (es ω) ω) (debugged p debug) = .ok (m, pol)
  target : pol.target W m cls.maxHorizon (debugged p debug) = .ok target
  number : dget (debugged p debug) "n_evaluations" = some (.num n)
  calm : ∀ ω, NoKill (es ω)
  runs : ∀ ω, cls.run (seeded W (es ω) ω) p debug = .ok (R ω)

/-- The most that can be lost in an evaluation with at most `k` transitions of a task with `N` subtasks, none of which has more than `C`
conditions: the actions, the objects that are missing and a correction of the reward for each subtask, and the objects that are left. -/
def worstLoss (m : SupPomdp) (k N C : Nat) : ℚ :=
  k * max m.par.costHold m.par.costIntrinsic + N * (m.par.costHold + C * m.par.costGet) + m.objects.length * m.par.costGet

/-- The most that can be earned in an evaluation of a task with `N` subtasks. -/
def bestGain (m : SupPomdp) (N : Nat) : ℚ := m.par.rFinal + N * (m.par.rSubtask + supportBonus m.par)

/-- The rewards and the costs are not negative, as in all the experiments. -/
structure SensibleRewards (m : SupPomdp) : Prop where
  get : 0 ≤ m.par.costGet
  hold : 0 ≤ m.par.costHold
  intrinsic : 0 ≤ m.par.costIntrinsic
  final : 0 ≤ m.par.rFinal
  subtask : 0 ≤ m.par.rSubtask
  preference : 0 ≤ m.par.rPreference

end Verif.Spec
