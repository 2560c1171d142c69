import Verif.Proof.Names
import Verif.Props.HtmPomdp
import Verif.Spec.GraphPolicy
import Verif.Model.Stool

/-! Properties of the names in the models made by `HTMToPOMDP`, `task_to_pomdp.py:50-51, 104-165, 432-474`, and the scenario of
`stool_scenarios.py` (C99). -/

set_option linter.unusedSectionVars false
set_option linter.unusedSimpArgs false

namespace Verif
open Spec

/-- **C99**: the leaves of the converted task have exactly the names of the leaves of the task, with the numbers of the orders of the parallel
combinations around them. -/
theorem C99_names (fuel : Nat) (t : Htm CAction) (hb : Built t) (n : N2P CAction) (hn : N2P.fromNode CAction.ops fuel t = .ok n) :
    (n.leaves.map CAction.name).Perm (orderNames CAction.name [] t) := fromNode_names CAction.ops copyTotal fuel t n hn hb

/-- **C99**: a task is accepted exactly if these names remain distinct without blanks and capital letters, and `ValueError` is raised otherwise. -/
theorem C99_accepted (path : String) (exp : ℚ → ℚ) (h : HtmParams) (fuel : Nat) (t : Htm CAction) (hb : Built t) (hf : HFull t)
    (hd : callDepth t ≤ fuel) (hs : h.structured = false) (hl : h.loop = false) :
    (((orderNames CAction.name [] t).map nameRadix).Nodup →
      ∃ p, htmToPomdp (some path) exp nameRadix h fuel t = .ok p ∧ NamesDistinct p ∧ p.states.Nodup) ∧
    (¬ ((orderNames CAction.name [] t).map nameRadix).Nodup → htmToPomdp (some path) exp nameRadix h fuel t = .error .valueError) := by
  obtain ⟨n, h1, h2⟩ := C31_well_formed_partial path exp nameRadix h fuel t hb hf hd hs (by simp [hl])
  have h3 := (h2 (by simp [hl])).1
  have hp := (C99_names fuel t hb n h1).map nameRadix
  have he : (n.leaves.map fun c => nameRadix c.name).Nodup ↔ ((orderNames CAction.name [] t).map nameRadix).Nodup := by
    rw [← hp.nodup_iff, List.map_map]
    rfl
  rw [he] at h3
  obtain ⟨n', h1', ⟨hfn, -, -⟩, h4⟩ := htmToPomdp_ok (some path) exp nameRadix h fuel t hb hf hd
  rw [h1] at h1'
  cases h1'
  constructor
  · intro hn
    obtain ⟨p, hp⟩ := h3.2 hn
    refine ⟨p, hp, ?_⟩
    rw [h4] at hp
    obtain ⟨_, _, _, _, _, _, _, _, _, hg⟩ := htmConvert_ok path exp nameRadix h n hfn p hp
    obtain ⟨_, _, _, g1, g2, g3, _⟩ := (good_iff p).1 hg
    exact ⟨⟨g2, g3⟩, g1⟩
  · intro hn
    have hno : ¬ ∃ p, htmToPomdp (some path) exp nameRadix h fuel t = .ok p := fun hc => hn (h3.1 hc)
    rw [h4, htmConvert_eq _ _ _ _ _ (full_noEmpty n hfn) hs] at hno ⊢
    exact (mk'_cost ..).resolve_left hno

/-- **C99**: names that are distinct without blanks and capital letters are enough, if they do not end as those of copies. -/
theorem C99_distinct_partial (path : String) (exp : ℚ → ℚ) (h : HtmParams) (fuel : Nat) (t : Htm CAction) (hb : Built t) (hf : HFull t)
    (hd : callDepth t ≤ fuel) (hs : h.structured = false) (hl : h.loop = false)
    (hn : ((Spec.leaves t).map fun a => nameRadix a.name).Nodup) (ho : ∀ a ∈ Spec.leaves t, ¬ EndsInOrder (nameRadix a.name)) :
    ∃ p, htmToPomdp (some path) exp nameRadix h fuel t = .ok p ∧ NamesDistinct p ∧ p.states.Nodup :=
  (C99_accepted path exp h fuel t hb hf hd hs hl).1 (orderNames_nodup CAction.name t hn ho [])

/-- The leaf of an example. -/
def namedLeaf (s : String) : Htm CAction := .leaf ⟨s, 1, 2, 3, 1 / 10, 1 / 20⟩ none none false

/-- **C99**, false in general: unique names (as the documentation of the actions asks) are not enough. -/
theorem C99_false_unique : ∃ t : Htm CAction, Built t ∧ HFull t ∧ ((Spec.leaves t).map CAction.name).Nodup ∧
    ∀ path exp h fuel, 2 ≤ fuel → h.structured = false → h.loop = false → htmToPomdp (some path) exp nameRadix h fuel t = .error .valueError := by
  let t : Htm CAction := .comb .sequential [namedLeaf "Get legs", namedLeaf "get-legs"] none none "legs" false none
  have hb : Built t := by simp [t, namedLeaf, Built, BuiltL]
  have hf : HFull t := by simp [t, namedLeaf, HFull, HFullL]
  refine ⟨t, hb, hf, by decide, fun path exp h fuel hfu hs hl => ?_⟩
  refine (C99_accepted path exp h fuel t hb hf ?_ hs hl).2 (by decide +kernel)
  exact le_trans (by decide) hfu

/-- **C99**, false in general: names that are distinct without blanks and capital letters are not enough either. -/
theorem C99_false_copies : ∃ t : Htm CAction, Built t ∧ HFull t ∧ ((Spec.leaves t).map fun a => nameRadix a.name).Nodup ∧
    ∀ path exp h fuel, 4 ≤ fuel → h.structured = false → h.loop = false → htmToPomdp (some path) exp nameRadix h fuel t = .error .valueError := by
  let t : Htm CAction := .comb .sequential [namedLeaf "Mount order-0",
    .comb .parallel [namedLeaf "Mount", namedLeaf "Check"] none none "both" false none] none none "chair" false none
  have hb : Built t := by simp [t, namedLeaf, Built, BuiltL]
  have hf : HFull t := by simp [t, namedLeaf, HFull, HFullL]
  refine ⟨t, hb, hf, by decide +kernel, fun path exp h fuel hfu hs hl => ?_⟩
  refine (C99_accepted path exp h fuel t hb hf ?_ hs hl).2 (by decide +kernel)
  exact le_trans (by decide) hfu

/-- Non-vacuity of C99: a task with nested parallel combinations. -/
example : ∃ p, htmToPomdp (some "pomdp-solve") (fun _ => 1 / 2) nameRadix demoParams 9
      (.comb .parallel [namedLeaf "Paint", .comb .parallel [namedLeaf "Mount", namedLeaf "Check"] none none "both" false none] none none "all" false none) =
        .ok p ∧ NamesDistinct p ∧ p.states.Nodup :=
  (C99_accepted _ _ _ _ _ (by simp [namedLeaf, Built, BuiltL]) (by simp [namedLeaf, HFull, HFullL]) (by decide) rfl rfl).1 (by decide +kernel)

/-! ### The stool -/

/-- The tree of the conversion of `stool_task_sequential`. -/
def stoolTree : N2P CAction :=
  .seq [.seq [.leaf (stoolAction "Get central frame" (stoolInf, 20, 30)), .leaf (stoolAction "Hold central frame" (1 / 100, 15, 30) (1 / 100))],
    .seq [.seq [.leaf (stoolAction "Bring left leg" (stoolInf, 20, 30)), .leaf (stoolAction "Snap left leg" (5, stoolInf, stoolInf) (1 / 100))],
      .seq [.leaf (stoolAction "Bring right leg" (stoolInf, 20, 30)), .leaf (stoolAction "Snap right leg" (5, stoolInf, stoolInf) (1 / 100))]],
    .leaf (stoolAction "Release central frame" (stoolInf, 1, 1)),
    .seq [.leaf (stoolAction "Bring top" (stoolInf, 20, 30)), .leaf (stoolAction "Snap top" (5, stoolInf, stoolInf) (1 / 10))]]

theorem stoolTree_eq (fuel : Nat) (hf : 4 ≤ fuel) : N2P.fromNode CAction.ops fuel stoolTask = .ok stoolTree := by
  obtain ⟨f, rfl⟩ := Nat.exists_eq_add_of_le hf
  rw [Nat.add_comm]
  rfl

theorem stoolTree_lin (k : Nat) (ks : List Nat) : Lin stoolTree k ks ↔ ks = (List.range 9).map (k + ·) := by
  simp only [stoolTree, Lin, LinSeq, N2P.leaves, N2P.leavesL]
  constructor
  · rintro ⟨_, _, rfl, ⟨_, _, rfl, rfl, _, _, rfl, rfl, rfl⟩, _, _, rfl, ⟨_, _, rfl, ⟨_, _, rfl, rfl, _, _, rfl, rfl, rfl⟩, _, _, rfl,
      ⟨_, _, rfl, rfl, _, _, rfl, rfl, rfl⟩, rfl⟩, _, _, rfl, rfl, _, _, rfl, ⟨_, _, rfl, rfl, _, _, rfl, rfl, rfl⟩, rfl⟩
    simp [List.range_succ]
  · rintro rfl
    exact ⟨[k, k + 1], _, rfl, ⟨[k], [k + 1], rfl, rfl, [k + 1], [], rfl, rfl, rfl⟩, [k + 2, k + 3, k + 4, k + 5], _, rfl,
      ⟨[k + 2, k + 3], _, rfl, ⟨[k + 2], _, rfl, rfl, [k + 3], [], rfl, rfl, rfl⟩, [k + 4, k + 5], _, rfl, ⟨[k + 4], _, rfl, rfl, [k + 5], [], rfl, rfl, rfl⟩,
        rfl⟩, [k + 6], _, rfl, rfl, [k + 7, k + 8], _, rfl, ⟨[k + 7], _, rfl, rfl, [k + 8], [], rfl, rfl, rfl⟩, rfl⟩

/-- **C99**: the task of the stool is accepted for all the parameters without `structured` (and without both `loop` and `reward_state`), and its
model has three states for each of the nine actions. -/
theorem C99_stool (path : String) (exp : ℚ → ℚ) (h : HtmParams) (fuel : Nat) (hfu : 4 ≤ fuel) (hs : h.structured = false)
    (hlr : h.loop = true → h.rewardState = false) : ∃ p, htmToPomdp (some path) exp nameRadix h fuel stoolTask = .ok p ∧
      p.states.length = 27 + (if h.rewardState then 2 else 1) ∧ p.actions.length = 37 ∧ (∀ a < 37, ∀ s < p.states.length, sumRange p.states.length (p.T.at_ a s) = 1) ∧
      -- without `loop`, the actions are done in the order of the task
      (h.loop = false → ∀ states, Trajectory p states → visitedLeaves 3 9 states = List.range 9) ∧
      (h.loop = false → ∃ states, Trajectory p states) := by
  have hb : Built stoolTask := by simp [stoolTask, stoolSeq, mountCentral, mountLegs, releaseCentral, mountTop, stoolLeaf, Built, BuiltL]
  have hf : HFull stoolTask := by simp [stoolTask, stoolSeq, mountCentral, mountLegs, releaseCentral, mountTop, stoolLeaf, HFull, HFullL]
  have hd : callDepth stoolTask ≤ fuel := le_trans (by decide) hfu
  obtain ⟨n, h1, h2⟩ := C31_well_formed_partial path exp nameRadix h fuel stoolTask hb hf hd hs hlr
  rw [stoolTree_eq fuel hfu] at h1
  cases h1
  have hlin0 : ∀ ks, Lin stoolTree 0 ks ↔ ks = List.range 9 := fun ks => by
    rw [stoolTree_lin]
    simp
  obtain ⟨h3, h4⟩ := h2 (fun _ => ⟨0, fun j => by
    unfold IsFirst
    simp only [hlin0]
    constructor
    · rintro ⟨u, hu⟩
      simp [List.range_succ] at hu
      exact hu.1
    · rintro rfl
      exact ⟨[1, 2, 3, 4, 5, 6, 7, 8], rfl⟩⟩)
  obtain ⟨p, hp⟩ := h3.2 (by decide +kernel)
  obtain ⟨nS, nA, nO, hsh, e1, e2, hT, _⟩ := h4 p hp
  have hlen : stoolTree.leaves.length = 9 := rfl
  rw [hlen] at e1 e2
  have hS : p.states.length = nS := hsh.1
  have hA : p.actions.length = nA := hsh.2.1
  have hfail : ∀ c ∈ Spec.leaves stoolTask, c.failProba < 1 := by decide +kernel
  refine ⟨p, hp, by rw [hS, e1], by rw [hA, e2], ?_, fun hl states hst => ?_, fun hl => ?_⟩
  · rw [hS]
    intro a ha s hs'
    exact hT a (by omega) s hs'
  · obtain ⟨n', h5, h6, _⟩ := C32_trajectories path exp nameRadix h fuel stoolTask hb hf hd hl hfail p hp
    rw [stoolTree_eq fuel hfu] at h5
    cases h5
    exact (hlin0 _).1 ((h6 _).1 ⟨states, hst, rfl⟩)
  · obtain ⟨n', h5, h6, _⟩ := C32_trajectories path exp nameRadix h fuel stoolTask hb hf hd hl hfail p hp
    rw [stoolTree_eq fuel hfu] at h5
    cases h5
    obtain ⟨states, hst, _⟩ := (h6 _).2 ((hlin0 (List.range 9)).2 rfl)
    exact ⟨states, hst⟩

/-- Non-vacuity: the parameters of the sample. -/
example : icraParams.structured = false ∧ icraParams.loop = false := ⟨rfl, rfl⟩

end Verif
