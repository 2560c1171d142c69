import Verif.Props.SupExperiment
import Verif.Props.GraphPolicy

/-!
# Names, numbers and settings that the other theorems leave open

Theorems of C26 and C28 with the names of the code, the signs of the integers in the files of a solver (C43), and what the experiments of C81
are given.
-/

set_option linter.unusedSectionVars false
set_option linter.unusedSimpArgs false

namespace Verif
open Spec SupPomdp

/-- **C26 (names).**  The names of the values of the HTM: those of the nodes of the task, and then `clean` and `final`. -/
theorem C26_names (m : SupPomdp) :
    (∀ i, i < m.nodes.length → m.htmNames[i]? = (m.nodes[i]?).map (Htm.name SupAction.ops)) ∧
    m.htmNames[m.nodes.length]? = some "clean" ∧ m.htmNames[m.nodes.length + 1]? = some "final" ∧ m.htmNames.length = m.nodes.length + 2 := by
  unfold htmNames
  refine ⟨fun i hi => ?_, ?_, ?_, by simp⟩
  · rw [List.getElem?_append_left (by simpa using hi), List.getElem?_map]
  · rw [List.getElem?_append_right (by simp)]
    simp
  · rw [List.getElem?_append_right (by simp)]
    simp

/-- **C28 (names of the observations).**  The answer to `ask hold` is `yes` or `none` with the preference, and `no` or `none` without; with
`random=False` it is never `none`.  Bringing and clearing without random changes is observed as `none` or `not-found`. -/
theorem C28_names {t : Htm SupAction} {m : SupPomdp} (h : Constructed t m) (d : Draws) (s : Nat) :
    (∀ (random : Bool) s' o r, m.sampleTransition d 3 s random = .ok (s', o, r) →
      (s' / 2 ^ (m.objects.length + 1) % 2 = 1 → supObservations[o]? = some (.str "yes") ∨ (random = true ∧ supObservations[o]? = some (.str "none"))) ∧
      (s' / 2 ^ (m.objects.length + 1) % 2 = 0 → supObservations[o]? = some (.str "no") ∨ (random = true ∧ supObservations[o]? = some (.str "none")))) ∧
    ∀ a s' o r, 4 ≤ a → m.sampleTransition d a s false = .ok (s', o, r) → ∃ obj, m.objFromAction a = .ok obj ∧
      (supObservations[o]? = some (.str "not-found") ↔ (present s obj ↔ m.isBring a = true)) ∧
      (supObservations[o]? = some (.str "none") ↔ ¬ (present s obj ↔ m.isBring a = true)) := by
  constructor
  · intro random s' o r ht
    obtain ⟨s1, o1, -, -, h2, h3, h4⟩ := C28_ask m d s random
    rw [h2] at ht
    simp only [Except.ok.injEq, Prod.mk.injEq] at ht
    obtain ⟨rfl, rfl, -⟩ := ht
    refine ⟨fun hp => ?_, fun hp => ?_⟩
    · rcases h3 hp with rfl | ⟨hr, rfl⟩
      · exact .inl rfl
      · exact .inr ⟨hr, rfl⟩
    · rcases h4 hp with rfl | ⟨hr, rfl⟩
      · exact .inl rfl
      · exact .inr ⟨hr, rfl⟩
  · intro a s' o r ha ht
    obtain ⟨s1, obj, _, h2, h3, h4⟩ := C28_object h d a s false s' o r ha ht
    have e := h2 rfl
    subst e
    refine ⟨obj, h3, ?_⟩
    rcases h4 with ⟨rfl, -, h5⟩ | ⟨-, -, h5, -⟩ | ⟨rfl, h5, -⟩
    · exact ⟨⟨fun _ => h5, fun _ => rfl⟩, ⟨fun hx => absurd hx (by decide), fun hx => absurd h5 hx⟩⟩
    · cases h5
    · exact ⟨⟨fun hx => absurd hx (by decide), fun hx => absurd hx h5⟩, ⟨fun _ => h5, fun _ => rfl⟩⟩

/-- **C43 (integers).**  In the files of a solver an integer may have a sign, zeros in front and white space around. -/
theorem C43_integers (w1 s w2 : List Char) (n : Nat) (h1 : Blank w1) (h2 : Blank w2) (hs : Digits s n) :
    pyInt (w1 ++ s ++ w2) = .ok (n : Int) ∧ pyInt (w1 ++ '+' :: s ++ w2) = .ok (n : Int) ∧ pyInt (w1 ++ '-' :: s ++ w2) = .ok (-(n : Int)) := by
  obtain ⟨hd, hne, hp, -⟩ := digits_parse s n hs
  have hlast : ∀ c0 : Char, isSpace c0 = false → ∀ c, (c0 :: s).getLast? = some c → isSpace c = false := by
    intro c0 _ c hc
    rw [List.getLast?_cons, Option.some.injEq] at hc
    obtain ⟨x, hx⟩ := Option.isSome_iff_exists.1 (List.getLast?_isSome.2 hne)
    rw [hx, Option.getD_some] at hc
    exact (digits_ends s hd).2 c (by rw [hx, hc])
  refine ⟨pyInt_digits w1 s w2 h1 h2 hd hne n hp, ?_, ?_⟩
  · unfold pyInt
    rw [strip_pad w1 ('+' :: s) w2 h1 h2 (fun c hc => by simp at hc; subst hc; decide) (hlast _ (by decide)) (by simp)]
    simp [hp, natOrError]
  · unfold pyInt
    rw [strip_pad w1 ('-' :: s) w2 h1 h2 (fun c hc => by simp at hc; subst hc; decide) (hlast _ (by decide)) (by simp)]
    simp [hp, natOrError]

/-- **C81 (the table).**  The subtasks of the pomcp job: for each of the four legs its assembly, held horizontally, and its mounting, held
vertically; the top is brought once, with the first leg. -/
theorem C81_table : leaves tableTask =
    [⟨"Assemble leg-0", some (some "h", [(cUSES, "joints"), (cCONSUMES, "leg"), (cUSES, "screwdriver"), (cUSES, "screws")])⟩,
     ⟨"Assemble leg-0 to top", some (some "v", [(cCONSUMES, "top"), (cUSES, "screwdriver"), (cUSES, "screws")])⟩,
     ⟨"Assemble leg-1", some (some "h", [(cUSES, "joints"), (cCONSUMES, "leg"), (cUSES, "screwdriver"), (cUSES, "screws")])⟩,
     ⟨"Assemble leg-1 to top", some (some "v", [(cUSES, "screwdriver"), (cUSES, "screws")])⟩,
     ⟨"Assemble leg-2", some (some "h", [(cUSES, "joints"), (cCONSUMES, "leg"), (cUSES, "screwdriver"), (cUSES, "screws")])⟩,
     ⟨"Assemble leg-2 to top", some (some "v", [(cUSES, "screwdriver"), (cUSES, "screws")])⟩,
     ⟨"Assemble leg-3", some (some "h", [(cUSES, "joints"), (cCONSUMES, "leg"), (cUSES, "screwdriver"), (cUSES, "screws")])⟩,
     ⟨"Assemble leg-3 to top", some (some "v", [(cUSES, "screwdriver"), (cUSES, "screws")])⟩] := by decide +kernel

/-- **C81 (defaults).**  The parameters of an experiment for which nothing is given. -/
theorem C81_defaults :
    (∀ p, p = preferenceJob.parameters none ∨ p = pomcpJob.parameters none → p.read "n_warmup" = .ok (.num 2000) ∧
      p.read "n_evaluations" = .ok (.num 20) ∧ p.read "p_preference" = .ok (.num (3 / 10)) ∧ p.read "policy" = .ok (.str "pomcp") ∧
      p.read "intermediate-rewards" = .ok (.bool false)) ∧
    (∀ p, p = preferenceJob.parameters none ∨ p = pomcpJob.parameters none ∨ p = multitaskJob.parameters none →
      pomcpConfig p = .ok ⟨1000, 1, false, 20, 50, false, false, 150⟩ ∧
      pomcpConfig (debugged p true) = .ok ⟨10, 1, false, 2, 50, false, false, 20⟩ ∧
      (debugged p true).read "n_warmup" = .ok (.num 2) ∧ (debugged p true).read "n_evaluations" = .ok (.num 2)) ∧
    ((multitaskJob.parameters none).read "task" = .ok (.str "alternative") ∧ (multitaskJob.parameters none).read "policy" = .ok (.str "random") ∧
      (multitaskJob.parameters none).read "n_evaluations" = .ok (.num 100) ∧
      multitaskTask ((multitaskJob.parameters none).update [("task", .str "sequence")]) = .ok (20, taskLongSequence 20)) := by
  refine ⟨?_, ?_, ?_⟩
  · rintro p (rfl | rfl) <;> decide +kernel
  · rintro p (rfl | rfl | rfl) <;> decide +kernel
  · exact ⟨by decide +kernel, by decide +kernel, by decide +kernel, rfl⟩

/-- **C81 (booleans).**  A number of the configuration that is given as a boolean is 1 or 0, and text raises `TypeError`. -/
theorem C81_booleans (p : Params) (b : Bool) (s : String) (default : ℚ) :
    (dget p "p_change_preference" = some (.bool b) → changePreference p default = .ok (if b then 1 else 0)) ∧
    (dget p "p_change_preference" = some (.str s) → changePreference p default = .error .typeError) ∧
    (dget p "p_change_preference" = none → changePreference p default = .ok default) := by
  refine ⟨fun h => ?_, fun h => ?_, fun h => ?_⟩ <;> unfold changePreference <;> rw [h] <;> rfl

/-- What the search of an experiment is. -/
structure ConfiguredSearch {η : Type} (m : SupPomdp) (c : PomcpConfig) (S : Search Nat (List Nat) η) : Prop where
  exploration : S.exploration = c.exploration
  relative : S.relative = c.relative
  rollouts : S.rolloutIt = c.rolloutIt.toNat
  shared : S.shared = c.beliefValues
  alpha : S.alpha = 1 / 1000
  discount : S.sim.discount = 1
  actions : S.sim.actions = m.actions.map .str
  observations : S.sim.observations = supObservations

/-- What an evaluation of an experiment is: it begins with the tree, the node and the history after the warm-up, and with the random numbers
of the seed of the worker. -/
def EvaluatesFrom {η : Type} (W : ExpWorld) (m : SupPomdp) (c : PomcpConfig) (maxHorizon : Int) (warmup : Nat) (S : Search Nat (List Nat) η)
    (target : Nat → Py Episode) : Prop :=
  ∃ (b : List Nat) (rng : Nat) (a : Name) (st : SearchRunner Nat (List Nat)),
    mkParticles (startSampler W m) (fun _ => 0) c.nParticles.toNat 0 = (.ok b, rng) ∧
    searchGetAction S warmup (S.runner b rng) = (.ok a, st) ∧
    ∀ seed, target seed = (simulateOneEvaluation (searchModel S.sim m.isFinal W.calls (startSampler W m)) (searchPolicy S c.iterations.toNat)
      maxHorizon true W.bound ⟨⟨st.search.tree, seed⟩, st.history, st.node, st.last⟩).1

theorem searchTarget_ok {η : Type} {W : ExpWorld} {m : SupPomdp} {c : PomcpConfig} {S : Search Nat (List Nat) η} {warmup maxHorizon : Int}
    {target : Nat → Py Episode} (h : searchTarget W m c S warmup maxHorizon = .ok target) :
    EvaluatesFrom W m c maxHorizon warmup.toNat S target := by
  unfold searchTarget at h
  cases hp : mkParticles (startSampler W m) (fun _ => 0) c.nParticles.toNat 0 with
  | mk r rng =>
    rw [hp] at h
    cases r with
    | error e => simp at h
    | ok b =>
      simp only at h
      cases ha : searchGetAction S warmup.toNat (S.runner b rng) with
      | mk r st =>
        rw [ha] at h
        cases r with
        | error e => simp at h
        | ok a =>
          simp only [Except.ok.injEq] at h
          subst h
          exact ⟨b, rng, a, st, hp, ha, fun seed => rfl⟩

/-- **C81 (the search of an experiment).**  The search has the exploration, the number of rollouts, the horizon and the sharing of beliefs that
are configured, the discount 1, and `alpha` 0.001; a worker begins with the tree after the warm-up and with the random numbers of its seed. -/
theorem C81_settings {W : ExpWorld} {m : SupPomdp} {c : PomcpConfig} {maxHorizon : Int} {p : Params} {target : Nat → Py Episode} {k : Int}
    (hw : dget p "n_warmup" = some (.num k)) (ht : (ExpPolicy.pomcp c).target W m maxHorizon p = .ok target) :
    (c.htm = false → ∃ S : Search Nat (List Nat) FinHorizon, ConfiguredSearch m c S ∧ S.horizon = ⟨c.length, false⟩ ∧
      S.hor = finishedOrN m.isFinal ∧ EvaluatesFrom W m c maxHorizon k.toNat S target) ∧
    (c.htm = true → ∃ S : Search Nat (List Nat) NHtmHorizon, ConfiguredSearch m c S ∧ S.horizon = ⟨c.length⟩ ∧
      S.hor = nHtm m ∧ EvaluatesFrom W m c maxHorizon k.toNat S target) := by
  have hr : p.read "n_warmup" = .ok (.num k) := by unfold Params.read; rw [hw]
  have hi : (ParamValue.num (k : ℚ)).asInt = .ok k := by simp [ParamValue.asInt]
  simp only [ExpPolicy.target, hr, hi, bind, Except.bind] at ht
  refine ⟨fun hc => ?_, fun hc => ?_⟩
  · simp only [hc, Bool.false_eq_true, if_false] at ht
    exact ⟨_, ⟨rfl, rfl, rfl, rfl, rfl, rfl, rfl, rfl⟩, rfl, rfl, searchTarget_ok ht⟩
  · simp only [hc, if_true] at ht
    exact ⟨_, ⟨rfl, rfl, rfl, rfl, rfl, rfl, rfl, rfl⟩, rfl, rfl, searchTarget_ok ht⟩

/-- The hypotheses of `C81_settings` hold for a small task, and those of `C43_integers` for a number with a zero in front. -/
example : (match mkSupPomdp {} (fun l => l) 3 (taskLongSequence 1) with
    | .ok m => ((ExpPolicy.pomcp ⟨2, 1, false, 2, 50, false, true, 2⟩).target demoWorld m 10 [("n_warmup", .num 2)]).isOk
    | .error _ => false) = true ∧ dget [("n_warmup", ParamValue.num 2)] "n_warmup" = some (.num ((2 : Int) : ℚ)) ∧
    Digits ['0', '7'] 7 ∧ Blank [' '] := by
  refine ⟨by decide +kernel, by simp [dget], ⟨by simp, by decide, by decide⟩, ?_⟩
  intro c hc
  simp at hc
  subst hc
  decide

/-- The hypotheses of `C28_names` hold: all the answers occur. -/
example : (match mkSupPomdp {} (fun l => l) 3 (taskLongSequence 1) with
    | .ok m => (List.range 2).all fun b => ((m.sampleTransition demoDraws 3 (b * 2 ^ (m.objects.length + 1)) false).toOption.map (·.2.1)) =
        some (if b = 1 then 3 else 4)
    | .error _ => false) = true := by decide +kernel

end Verif
