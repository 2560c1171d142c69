import Verif.Props.SolverFile
import Verif.Props.HtmAccepted

/-! Property C100 (the file has probabilities). -/

namespace Verif
open Spec

theorem rowFor_dist {c : Nat} {v : Nat → ℚ} {row : List ℚ} (h : RowFor c v row) (h0 : ∀ i < c, 0 ≤ v i) (hs : sumRange c v = 1) (hc : c ≤ 449) :
    IsDist c row := by
  obtain ⟨h1, -, -, -, h6, h7⟩ := h
  refine ⟨h1, h7 hs h0 hc, ?_⟩
  have := sum_eq_sumRange row
  rw [h1, h6 hs] at this
  exact this.symm

theorem matrixFor_dist {n c : Nat} {v : Nat → Nat → ℚ} {m : List (List ℚ)} (h : MatrixFor n c v m)
    (hv : ∀ i < n, (∀ j < c, 0 ≤ v i j) ∧ sumRange c (v i) = 1) (hc : c ≤ 449) : ∀ row ∈ m, IsDist c row := by
  intro row hrow
  obtain ⟨i, hi⟩ := List.getElem?_of_mem hrow
  have hin : i < n := by rw [← h.1]; exact (List.getElem?_eq_some_iff.1 hi).1
  exact rowFor_dist (h.2 i row hi) (hv i hin).1 (hv i hin).2 hc

/-- The rows of a file that describes a model of probabilities. -/
theorem described_dist {f : SolverFile} {p : Pomdp} (hf : FileDescribes f p) (nS nA nO : Nat) (hp : Stochastic p nS nA nO)
    (hb : IsDist nS p.start) (hnS : nS ≤ 449) (hnO : nO ≤ 449) :
    IsDist nS f.start ∧
      ∀ e ∈ f.entries, (∀ a rows, e = .T a rows → ∀ row ∈ rows, IsDist nS row) ∧ (∀ a rows, e = .O a rows → ∀ row ∈ rows, IsDist nO row) := by
  obtain ⟨⟨s1, s2, s3, s4, s5, s6, s7, s8, s9, s10, -⟩, hT, hO'⟩ := hp
  obtain ⟨-, -, -, -, -, hst, mT, mO, mR, he, hm⟩ := hf
  have e1 : p.nStates = nS := s1
  have e2 : p.nActions = nA := s2
  have e3 : p.nObservations = nO := s3
  rw [e1] at hst
  refine ⟨rowFor_dist hst hb.2.1 hb.2.2 hnS, ?_⟩
  intro e hmem
  rw [he] at hmem
  simp only [List.mem_append, List.mem_map, List.mem_flatMap, List.mem_range] at hmem
  rcases hmem with (⟨a, ha, rfl⟩ | ⟨a, ha, rfl⟩) | ⟨a, ha, s, hs, rfl⟩
  · refine ⟨fun a' rows e => ?_, fun _ _ e => (by cases e)⟩
    cases e
    have := (hm a ha).1
    rw [e1] at this
    exact matrixFor_dist this (fun s hs => by have := hT a (by omega) s (by omega); rwa [s7] at this) hnS
  · refine ⟨fun _ _ e => (by cases e), fun a' rows e => ?_⟩
    cases e
    have := (hm a ha).2.1
    rw [e1, e3] at this
    exact matrixFor_dist this (fun s hs => by have := hO' a (by omega) s (by omega); rwa [s10] at this) hnO
  · exact ⟨fun _ _ e => (by cases e), fun _ _ e => (by cases e)⟩

/-- **C100 (probabilities).**  The file of a model of probabilities with at most 449 states and observations, read by the rules of the
solver's format, has a start belief and rows of transitions and observations that are probability distributions. -/
theorem C100_probabilities_partial (solver : Option String) (T O : Arr3) (R : Arr4) (start : List ℚ) (discount : ℚ)
    (states actions observations : Option (List Name)) (values : String) (p : Pomdp)
    (h : Pomdp.mk' solver T O R start discount states actions observations values = .ok p)
    (strNum : ℚ → String) (hd : ReadsAs (strNum discount) discount)
    (hS : Writable p.sNames) (hA : Writable p.aNames) (hO : Writable p.oNames)
    (nS nA nO : Nat) (hp : Stochastic p nS nA nO) (hb : IsDist nS p.start) (hnS : nS ≤ 449) (hnO : nO ≤ 449) :
    ∃ t f, p.dump fiveText strNum = .ok t ∧ readSolverFile t.toList = some f ∧ FileDescribes f p ∧ IsDist nS f.start ∧
      ∀ e ∈ f.entries, (∀ a rows, e = .T a rows → ∀ row ∈ rows, IsDist nS row) ∧ (∀ a rows, e = .O a rows → ∀ row ∈ rows, IsDist nO row) := by
  obtain ⟨t, f, h1, h2, h3⟩ := C100_file_partial solver T O R start discount states actions observations values p h strNum hd hS hA hO
  exact ⟨t, f, h1, h2, h3, described_dist h3 nS nA nO hp hb hnS hnO⟩

/-- **C100 (probabilities, tasks).**  The file of the model that `HTMToPOMDP` makes from a task with at most 149 leaves, after the
replacement of the parallel combinations, has distributions, if the parameters of the actions and the values of the exponential that are
used are in [0, 1]. -/
theorem C100_task_probabilities_partial (path : String) (exp : ℚ → ℚ) (h : HtmParams) (fuel : Nat) (t : Htm CAction) (hb : Built t) (hf : HFull t)
    (hd : callDepth t ≤ fuel) (p : Pomdp) (hp : htmToPomdp (some path) exp nameRadix h fuel t = .ok p)
    (hc : ∀ a ∈ Spec.leaves t, ∀ c ∈ a.name.toList, c ∉ cutChars) (strNum : ℚ → String) (h1 : ReadsAs (strNum 1) 1)
    (hn : (orderNames CAction.name [] t).length ≤ 149) (hprob : ∀ c ∈ Spec.leaves t, CAction.Prob c) :
    ∃ n, N2P.fromNode CAction.ops fuel t = .ok n ∧
      ((h.deterministic = false → ∀ c ∈ Spec.leaves t, ∀ x < 4 * n.leaves.length + 1,
          0 ≤ exp (-actDuration h n x / c.tHum) ∧ exp (-actDuration h n x / c.tHum) ≤ 1) →
        ∃ text f, p.dump fiveText strNum = .ok text ∧ readSolverFile text.toList = some f ∧ FileDescribes f p ∧ IsDist p.nStates f.start ∧
          ∀ e ∈ f.entries, (∀ a rows, e = .T a rows → ∀ row ∈ rows, IsDist p.nStates row) ∧
            (∀ a rows, e = .O a rows → ∀ row ∈ rows, IsDist p.nObservations row)) := by
  obtain ⟨L, text, f, -, f1, f2, f3, -, -, -, f4⟩ := C100_tasks_partial path exp h fuel t hb hf hd p hp hc strNum h1
  obtain ⟨n, hn1, hacc, -⟩ := C31_accepted path exp nameRadix h fuel t hb hf hd
  obtain ⟨hs, hl, -⟩ := hacc.1 ⟨p, hp⟩
  refine ⟨n, hn1, fun hexp => ⟨text, f, f1, f2, f3, ?_⟩⟩
  obtain ⟨n', hn1', hw⟩ := C31_well_formed_partial path exp nameRadix h fuel t hb hf hd hs (fun e => (hl e).1)
  rw [hn1] at hn1'
  cases hn1'
  obtain ⟨n', hn2, ⟨hfn, -, -⟩, -⟩ := htmToPomdp_ok (some path) exp nameRadix h fuel t hb hf hd
  rw [hn1] at hn2
  cases hn2
  have hlen : n.leaves.length ≤ 149 := by
    have := (C99_names fuel t hb n hn1).length_eq
    rw [List.length_map] at this
    omega
  obtain ⟨nS, nA, nO, hsh, e1, e2, -, hO, hst, hT⟩ := (hw fun e => by
    obtain ⟨k, hk⟩ := exists_isFirst n hfn
    exact ⟨k, fun j => ⟨fun hj => (hl e).2 j k hj hk, fun e' => e' ▸ hk⟩⟩).2 p hp
  have hS : p.nStates = nS := hsh.1
  have hA : p.nActions = nA := hsh.2.1
  have hOb : p.nObservations = nO := hsh.2.2.1
  have hnS : nS ≤ 449 := by rw [e1]; split <;> omega
  have hnO : nO ≤ 449 := by
    have : f.observations = declarationOf p.oNames := f3.2.2.2.2.1
    rw [f4] at this
    have hsz := congrArg FileNames.size this
    rw [declarationOf_size] at hsz
    have h5 : p.oNames.asList.length = nO := hOb
    rw [h5] at hsz
    rw [← hsz]
    simp only [FileNames.size]
    split <;> simp
  rw [hS, hOb]
  exact described_dist f3 nS nA nO ⟨hsh, hT hprob (fun e c hc x hx => hexp e c hc x (by omega)), hO⟩ hst hnS hnO

/-- Non-vacuity: the tiger problem. -/
example : ∃ t f, tiger.dump fiveText (fun _ => "0.95") = .ok t ∧ readSolverFile t.toList = some f ∧ IsDist 2 f.start := by
  obtain ⟨t, f, h1, h2, -, h3, -⟩ := C100_probabilities_partial (some "pomdp-solve") tiger.T tiger.O tiger.R tiger.start tiger.discount
    (some [.str "left", .str "right"]) (some [.str "listen", .str "open-left", .str "open-right"]) none "reward" tiger tiger_made (fun _ => "0.95")
    (by unfold ReadsAs; decide +kernel) tiger_writable.1 tiger_writable.2 trivial 2 3 2 tiger_stochastic
    ⟨rfl, by intro i hi; interval_cases i <;> norm_num [tiger], by norm_num [sumRange, List.range_succ, tiger]⟩ (by omega) (by omega)
  exact ⟨t, f, h1, h2, h3⟩

/-- Non-vacuity: the task of the stool. -/
example : ∃ p text f, htmToPomdp (some "pomdp-solve") (fun _ => 1 / 2) nameRadix demoParams 9 stoolTask = .ok p ∧
    p.dump fiveText (fun _ => "1") = .ok text ∧ readSolverFile text.toList = some f ∧ IsDist p.nStates f.start := by
  obtain ⟨p, hp, -⟩ := C99_stool "pomdp-solve" (fun _ => 1 / 2) demoParams 9 (by decide) rfl (by decide)
  obtain ⟨n, -, h⟩ := C100_task_probabilities_partial "pomdp-solve" (fun _ => 1 / 2) demoParams 9 stoolTask
    (by simp [stoolTask, stoolSeq, mountCentral, mountLegs, releaseCentral, mountTop, stoolLeaf, Built, BuiltL])
    (by simp [stoolTask, stoolSeq, mountCentral, mountLegs, releaseCentral, mountTop, stoolLeaf, HFull, HFullL]) (by decide) p hp (by decide +kernel)
    (fun _ => "1") (by unfold ReadsAs; decide +kernel) (by decide +kernel) (by unfold CAction.Prob; decide +kernel)
  obtain ⟨text, f, h2, h3, -, h4, -⟩ := h (fun _ c _ x _ => by constructor <;> norm_num)
  exact ⟨p, text, f, hp, h2, h3, h4⟩

end Verif
