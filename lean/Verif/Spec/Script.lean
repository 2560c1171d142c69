import Verif.Model.Script
import Verif.Spec.Solve
import Verif.Spec.HtmPomdp
import Verif.Spec.StartTrees
import Verif.Spec.Htm
import Verif.Spec.Names

/-! Specification vocabulary for the scripts (C116). -/

namespace Verif.Spec
open Verif

/-- Asked in the directory `d`, the program succeeds and writes a policy for the model: the nodes with their actions and their transitions, of which there is
at least one, and the vectors of the values. -/
def WritesPolicy (mach : Machine) (p : Pomdp) (d : List String) (nodes : List (Int × List (Option Int))) (vectors : List (List ℚ)) : Prop :=
  ∃ (pairs : List (List Char × List Char)) (alpha pg : List Char) (alphaLines pgLines : List (List Char)),
    (∀ c x o, c.cwd = d → optionIn c.args "-o" = some o → (mach.solver c x).1 = .ok 0 ∧
      (mach.solver c x).2.files ⟨d, o ++ ".alpha"⟩ = some alpha ∧ (mach.solver c x).2.files ⟨d, o ++ ".pg"⟩ = some pg) ∧
    Lines alpha alphaLines ∧ Lines pg pgLines ∧ WithBlanks (pairLines pairs) alphaLines ∧
    List.Forall₂ (fun x n => IntLine x.1 n) pairs (nodes.map Prod.fst) ∧ vectors = pairs.map (fun x => mach.fromstring x.2) ∧
    (∀ v ∈ vectors, v.length = p.start.length) ∧ PgFile nodes pgLines ∧
    (∀ x ∈ nodes, 0 ≤ x.1 ∧ x.1 < p.actions.length) ∧ (∀ x ∈ nodes, x.2.length = p.observations.length) ∧
    (∀ x ∈ nodes, ∀ j, some j ∈ x.2 → 0 ≤ j ∧ j < nodes.length) ∧ ∃ x ∈ nodes, ∃ j, some j ∈ x.2

/-- A task that the conversion accepts and whose parameters are probabilities and durations. -/
def GoodTask (h : HtmParams) (t : Htm CAction) : Prop :=
  Built t ∧ HFull t ∧ ((orderNames CAction.name [] t).map nameRadix).Nodup ∧ (∀ c ∈ leaves t, CAction.Prob c ∧ 0 < c.tHum ∧ 0 ≤ c.tErr) ∧
  h.structured = false ∧ h.loop = false ∧ 0 ≤ h.tWait ∧ 0 ≤ h.tAsk ∧ 0 ≤ h.tTell

/-- What the script assumes of what it depends on. -/
def GoodEnv (env : ScriptEnv) (d : List String) (disk : Disk) : Prop :=
  env.mach.mkdtemp = .ok d ∧ NoSuchDir disk d ∧ StaysInside env.mach.solver ∧ (∀ i x, env.policies.loads (env.policies.dumps i x) = .ok x) ∧
  (∀ i x, env.trees.loads (env.trees.dumps i x) = .ok x) ∧ (∃ path, env.solver = some path) ∧ (∀ x ≤ 0, 0 ≤ env.exp x ∧ env.exp x ≤ 1) ∧ 106 ≤ env.fuel

end Verif.Spec
