import Verif.Proof.SupParticles

/-! Property C97: particle beliefs in the supportive simulator (`lib/belief.py:38-116` with `lib/supportive.py:398-560`). -/

set_option linter.unusedSectionVars false
set_option linter.unusedSimpArgs false

namespace Verif
open Spec SupState SupPomdp

/-- **C97 (actions).**  The probabilities of the outcomes are given for all the actions. -/
theorem C97_actions {t : Htm SupAction} {m : SupPomdp} (h : Constructed t m) (a : Nat) : a < m.nActions ↔ ∃ k, OutcomesOf m a k :=
  ⟨outcomes_known h, fun ⟨_, hk⟩ => outcomes_lt h hk⟩

/-- **C97 (outcomes).**  Whatever the reward, the action `a` leads from `s` to `s'` with the observation `o` with the probability of the
random changes followed by that of the outcome. -/
theorem C97_outcomes {t : Htm SupAction} {m : SupPomdp} (h : Constructed t m) {D K N : Nat} (hF : Fine m D K N) (a : Nat)
    (k : Nat → Nat → Nat → ℚ) (hk : OutcomesOf m a k) (s : Nat) (hs : s < m.nStates) (s' o : Nat) :
    chance (fun ω : Numbers m D K N => ∃ r, m.sampleTransition (drawsOf ω) a s = .ok (s', o, r)) =
      ∑ s1 ∈ Finset.range m.nStates, changeChance m s s1 * k s1 s' o :=
  outcomes_chance h hF hk s hs s' o

/-- **C97 (the sampler).**  With the random numbers of `ω`, `successor` raises `MaxSamplesReached` exactly if no attempt gives the
observation; otherwise its particles begin with the end states of the first attempts that do, and there are no others if these are enough. -/
theorem C97_successor {t : Htm SupAction} {m : SupPomdp} (h : Constructed t m) (parts : List Nat) (n : Nat) (hn : parts.length = n) (hpos : 0 < n)
    (hin : ∀ s ∈ parts, s < m.nStates) (a o : Nat) (ha : a < m.nActions) (choose : Nat → Nat) {D K N : Nat}
    (ω : Fin (100 * n) → SupAttempt m n D K N) :
    ((particleSuccessor parts n (positionsOf ω) choose (simulatorOf (fun w a s => m.sampleTransition (drawsOf w) a s) ω) a o).1 =
        .error .maxSamplesReached ↔
      found (fun x => consistentWith o (supAttempt m parts a x)) n ω = []) ∧
    (found (fun x => consistentWith o (supAttempt m parts a x)) n ω ≠ [] →
      ∃ ps, (particleSuccessor parts n (positionsOf ω) choose (simulatorOf (fun w a s => m.sampleTransition (drawsOf w) a s) ω) a o).1 = .ok ps ∧
        found (fun x => consistentWith o (supAttempt m parts a x)) n ω <+: ps ∧
        ((found (fun x => consistentWith o (supAttempt m parts a x)) n ω).length = n →
          ps = found (fun x => consistentWith o (supAttempt m parts a x)) n ω)) :=
  successor_found (fun w a s => m.sampleTransition (drawsOf w) a s) parts n hn hpos a o (fun w s hs => by
    obtain ⟨s', o', r, h1, _⟩ := C25_transition h (drawsOf w) a s true (hin s hs) ha
    exact ⟨_, h1⟩) choose ω

/-- **C97 (particles).**  Among all the random numbers of the attempts, the particles that are found are independent of each other and of
their number, and each has the posterior distribution: the probability that a state drawn from the empirical distribution `b` of the old
particles is followed by `s` and the observation, divided by the probability of the observation.  So has in particular the particle at any
place. -/
theorem C97_particles {t : Htm SupAction} {m : SupPomdp} (h : Constructed t m) {D K N : Nat} (hF : Fine m D K N) (a : Nat)
    (k : Nat → Nat → Nat → ℚ) (hk : OutcomesOf m a k) (parts : List Nat) (hne : parts ≠ []) (hin : ∀ s ∈ parts, s < m.nStates) (b : List ℚ)
    (hb : particleArray m.nStates parts = .ok b) (o : Nat) (hz : supEvidence m k b o ≠ 0) (M n : Nat) :
    (∀ l : List Nat, (∀ s ∈ l, s < m.nStates) →
      chance (fun ω : Fin M → SupAttempt m parts.length D K N => found (fun x => consistentWith o (supAttempt m parts a x)) n ω = l) =
      (l.map fun s => supJoint m k b o s / supEvidence m k b o).prod *
        chance (fun ω : Fin M → SupAttempt m parts.length D K N =>
          (found (fun x => consistentWith o (supAttempt m parts a x)) n ω).length = l.length)) ∧
    ∀ j, ∀ i < j, ∀ s < m.nStates,
      chance (fun ω : Fin M → SupAttempt m parts.length D K N =>
        (found (fun x => consistentWith o (supAttempt m parts a x)) n ω).length = j ∧
        (found (fun x => consistentWith o (supAttempt m parts a x)) n ω)[i]? = some s) =
      supJoint m k b o s / supEvidence m k b o *
        chance (fun ω : Fin M → SupAttempt m parts.length D K N => (found (fun x => consistentWith o (supAttempt m parts a x)) n ω).length = j) := by
  haveI := hF.neD
  haveI := hF.neK
  haveI : Nonempty (Fin parts.length) := ⟨⟨0, List.length_pos_iff.2 hne⟩⟩
  obtain ⟨h1, h2⟩ := chance_lists (fun x : SupAttempt m parts.length D K N => consistentWith o (supAttempt m parts a x))
    (fun s => if s < m.nStates then supJoint m k b o s / supEvidence m k b o else 0)
    (by rw [chance_evidence h hF hk hne hin hb]; exact hz) (by
      intro s
      rw [chance_evidence h hF hk hne hin hb]
      split
      · rw [chance_find h hF hk hne hin hb]
        field_simp
      · next hs =>
          rw [zero_mul]
          exact chance_find_out h (outcomes_lt h hk) hin o s (by omega)) M n
  refine ⟨fun l hl => ?_, fun j i hij s hs => ?_⟩
  · rw [h1 l]
    congr 2
    exact List.map_congr_left fun s hs => if_pos (hl s hs)
  · rw [h2 j i hij s, if_pos hs]

/-- **C97 (failure).**  The probability that `MaxSamplesReached` is raised is that of `100 * n` attempts that all miss the observation; and
it is always raised exactly if the observation is impossible. -/
theorem C97_failure {t : Htm SupAction} {m : SupPomdp} (h : Constructed t m) {D K N : Nat} (hF : Fine m D K N) (a : Nat)
    (k : Nat → Nat → Nat → ℚ) (hk : OutcomesOf m a k) (parts : List Nat) (hne : parts ≠ []) (hin : ∀ s ∈ parts, s < m.nStates) (b : List ℚ)
    (hb : particleArray m.nStates parts = .ok b) (o : Nat) (choose : Nat → Nat) :
    chance (fun ω : Fin (100 * parts.length) → SupAttempt m parts.length D K N =>
      (particleSuccessor parts parts.length (positionsOf ω) choose (simulatorOf (fun w a s => m.sampleTransition (drawsOf w) a s) ω) a o).1 =
        .error .maxSamplesReached) = (1 - supEvidence m k b o) ^ (100 * parts.length) ∧
    ((∀ ω : Fin (100 * parts.length) → SupAttempt m parts.length D K N,
      (particleSuccessor parts parts.length (positionsOf ω) choose (simulatorOf (fun w a s => m.sampleTransition (drawsOf w) a s) ω) a o).1 =
        .error .maxSamplesReached) ↔ supEvidence m k b o = 0) := by
  haveI := hF.neD
  haveI := hF.neK
  have hpos := List.length_pos_iff.2 hne
  haveI : Nonempty (Fin parts.length) := ⟨⟨0, hpos⟩⟩
  have hs := fun ω : Fin (100 * parts.length) → SupAttempt m parts.length D K N =>
    (C97_successor h parts parts.length rfl hpos hin a o (outcomes_lt h hk) choose ω).1
  refine ⟨?_, ?_⟩
  · rw [chance_congr hs, chance_empty _ _ _ hpos, chance_evidence h hF hk hne hin hb]
  · rw [← chance_evidence h hF hk hne hin hb o]
    constructor
    · intro hall
      refine chance_false fun x hx => ?_
      have h1 := (hs fun _ => x).1 (hall fun _ => x)
      unfold found at h1
      rw [List.take_eq_nil_iff, List.filterMap_eq_nil_iff] at h1
      rcases h1 with h1 | h1
      · omega
      · have := h1 x (by rw [List.mem_ofFn]; exact ⟨⟨0, by omega⟩, rfl⟩)
        rw [this] at hx
        cases hx
    · intro h0 ω
      rw [hs]
      unfold found
      rw [List.take_eq_nil_iff, List.filterMap_eq_nil_iff]
      right
      intro x _
      have := chance_zero h0 x
      simpa using this

/-- **C97 (distribution).**  The probabilities of the observations in a belief add up to one, and so the posterior is a distribution. -/
theorem C97_total {t : Htm SupAction} {m : SupPomdp} (h : Constructed t m) {D K N : Nat} (hF : Fine m D K N) (a : Nat)
    (k : Nat → Nat → Nat → ℚ) (hk : OutcomesOf m a k) (parts : List Nat) (hne : parts ≠ []) (hin : ∀ s ∈ parts, s < m.nStates) (b : List ℚ)
    (hb : particleArray m.nStates parts = .ok b) :
    (∀ o s, 0 ≤ supJoint m k b o s) ∧ ∑ o ∈ Finset.range nObservations, supEvidence m k b o = 1 := by
  haveI := hF.neD
  haveI := hF.neK
  have hpos := List.length_pos_iff.2 hne
  haveI : Nonempty (Fin parts.length) := ⟨⟨0, hpos⟩⟩
  refine ⟨fun o s => ?_, ?_⟩
  · rw [← chance_find h hF hk hne hin hb]
    unfold chance
    positivity
  · rw [Finset.sum_congr rfl fun o _ => (chance_evidence h hF hk hne hin hb o).symm]
    have hok : ∀ x : SupAttempt m parts.length D K N, ∃ s' o r, supAttempt m parts a x = .ok (s', o, r) ∧ o < nObservations := by
      intro x
      have hmem : parts.getD x.1 0 < m.nStates := by
        have : parts.getD x.1 0 = parts[x.1] := by simp
        rw [this]
        exact hin _ (List.getElem_mem _)
      obtain ⟨s2, o2, r2, h1, _, h2⟩ := C25_transition h (drawsOf x.2) a _ true hmem (outcomes_lt h hk)
      exact ⟨s2, o2, r2, h1, h2⟩
    rw [← chance_exists_mem (fun o x => (consistentWith o (supAttempt m parts a x)).isSome = true)]
    · refine chance_true fun x => ?_
      obtain ⟨s', o, r, h1, h2⟩ := hok x
      exact ⟨o, Finset.mem_range.2 h2, by rw [consistent_some.2 ⟨r, h1⟩]; rfl⟩
    · intro i j x h1 h2
      obtain ⟨s1, e1⟩ := Option.isSome_iff_exists.1 h1
      obtain ⟨s2, e2⟩ := Option.isSome_iff_exists.1 h2
      obtain ⟨r1, g1⟩ := consistent_some.1 e1
      obtain ⟨r2, g2⟩ := consistent_some.1 e2
      rw [g1] at g2
      cases g2
      rfl

/-! ### Non-vacuity -/

/-- The random numbers that change nothing and fail nothing. -/
def calmNumbers (m : SupPomdp) : Numbers m 100 2 2 := ((fun _ => 99, fun _ => 99), (99, 0, fun _ => 99, 99, 99))

/-- The hypotheses hold for a task with three leaves and the default parameters, the particles 0, 16 and 16 and the question, to which
there may be no answer. -/
example : ∃ m b, Constructed exSup m ∧ Fine m 100 2 2 ∧ OutcomesOf m 3 (askOutcome m) ∧ (∀ s ∈ [0, 16, 16], s < m.nStates) ∧
    particleArray m.nStates [0, 16, 16] = .ok b ∧ supEvidence m (askOutcome m) b 0 ≠ 0 := by
  obtain ⟨h1, h2, h3, h4, h5⟩ := exSup_ok
  cases hm : mkSupPomdp {} (fun l => l) 3 exSup with
  | error e =>
      have : (mkSupPomdp {} (fun l => l) 3 exSup).toOption.isSome = true := by decide +kernel
      rw [hm] at this
      simp [Except.toOption] at this
  | ok m =>
      have hpar : (mkSupPomdp {} (fun l => l) 3 exSup).toOption.any (fun m =>
        decide (m.par.pFail = 1 / 100 ∧ m.par.pConsumeAll = 1 / 2 ∧ m.par.pChangedByHuman = 1 / 100 ∧ m.par.pChangePreference = 1 / 100 ∧
          (∀ l ∈ m.succs, l.length ∣ 2) ∧ (∀ l ∈ m.conditions, l.length ≤ 2 ∧ (l.map Prod.snd).Nodup) ∧ 16 < m.nStates ∧
          (m.sampleTransition (drawsOf (calmNumbers m)) 3 0).toOption.any (fun x => x.2.1 == 0) = true)) = true := by decide +kernel
      rw [hm] at hpar
      replace hpar := of_decide_eq_true (show decide _ = true from hpar)
      obtain ⟨p1, p2, p3, p4, p5, p6, p7, p8⟩ := hpar
      have hC : Constructed exSup m := ⟨h1, h2, {}, fun l => l, 3, fun _ _ => Iff.rfl, h5, hm⟩
      have hF : Fine m 100 2 2 := by
        refine ⟨by omega, by omega, by omega, ?_, ?_, ?_, ?_, p5, fun l hl => (p6 l hl).1⟩
        · rw [p1]; exact ⟨⟨1, by norm_num⟩, by norm_num⟩
        · rw [p2]; exact ⟨⟨50, by norm_num⟩, by norm_num⟩
        · rw [p3]; exact ⟨⟨1, by norm_num⟩, by norm_num⟩
        · rw [p4]; exact ⟨⟨1, by norm_num⟩, by norm_num⟩
      have hk : OutcomesOf m 3 (askOutcome m) := .inr (.inl ⟨rfl, rfl⟩)
      have hin : ∀ s ∈ [0, 16, 16], s < m.nStates := by
        intro s hs
        simp only [List.mem_cons, List.not_mem_nil, or_false] at hs
        omega
      obtain ⟨b, hb, _⟩ := (C50_array m.nStates [0, 16, 16]).2.1 hin (by simp)
      refine ⟨m, b, hC, hF, hk, hin, hb, fun h0 => ?_⟩
      have he := chance_evidence hC hF hk (by simp) hin hb 0
      rw [h0] at he
      refine chance_zero he (0, calmNumbers m) ?_
      have e : supAttempt m [0, 16, 16] 3 ((0, calmNumbers m) : SupAttempt m 3 100 2 2) = m.sampleTransition (drawsOf (calmNumbers m)) 3 0 := rfl
      show (consistentWith 0 (supAttempt m [0, 16, 16] 3 ((0, calmNumbers m) : SupAttempt m 3 100 2 2))).isSome = true
      rw [e]
      cases hx : m.sampleTransition (drawsOf (calmNumbers m)) 3 0 with
      | error e => rw [hx] at p8; simp [Except.toOption] at p8
      | ok x =>
          rw [hx] at p8
          simp only [Except.toOption, Option.any_some, beq_iff_eq] at p8
          simp [consistentWith, p8]

end Verif
