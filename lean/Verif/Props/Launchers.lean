import Verif.Model.Launchers
import Verif.Props.SupExperiment
import Verif.Props.Tower

set_option linter.unusedSectionVars false
set_option linter.unusedSimpArgs false

/-!
# C82: the jobs of the launchers
-/

namespace Verif
open Spec SupPomdp

/-! ### Names -/

theorem dget_exps {l : Exps} (hn : (l.map Prod.fst).Nodup) {name : String} {p : Params} (h : (name, p) ∈ l) : dget (exps l) name = some p := by
  have key : ∀ (l d : Exps), (l.map Prod.fst).Nodup → ∀ k, dget (l.foldl (fun d kv => dset d kv.1 kv.2) d) k = (dget l k).or (dget d k) := by
    intro l
    induction l with
    | nil => intro d _ k; simp
    | cons kv l ih =>
        intro d hn k
        obtain ⟨k0, v⟩ := kv
        simp only [List.map_cons, List.nodup_cons] at hn
        rw [List.foldl_cons, ih _ hn.2, dget_dset]
        by_cases h : k0 = k
        · subst h
          have : dget l k0 = none := dget_eq_none.2 hn.1
          simp [dget, this]
        · simp [dget, h]
  unfold exps
  rw [key l [] hn, dget_of_mem hn h]
  rfl

theorem preferenceName_inj {fmt : ℚ → String} {q q' : ℚ} {pol pol' : String} (hp : pol ∈ preferencePolicies) (hp' : pol' ∈ preferencePolicies)
    (h : preferenceName fmt q pol = preferenceName fmt q' pol') : fmt q = fmt q' ∧ pol = pol' := by
  have h' := congrArg (fun s => s.toList.reverse) h
  simp only [preferencePolicies, List.mem_cons, List.not_mem_nil, or_false] at hp hp'
  rcases hp with rfl | rfl | rfl <;> rcases hp' with rfl | rfl | rfl <;>
    simp [preferenceName, String.toList_append] at h' ⊢ <;> exact String.toList_inj.1 h'

theorem preference_nodup {fmt : ℚ → String} (hf : ∀ q ∈ pPreferenceValues, ∀ q' ∈ pPreferenceValues, fmt q = fmt q' → q = q') :
    ((preferenceExps fmt).map Prod.fst).Nodup := by
  have e : (preferenceExps fmt).map Prod.fst = pPreferenceValues.flatMap fun q => preferencePolicies.map fun pol => preferenceName fmt q pol := by
    unfold preferenceExps
    rw [List.map_flatMap]
    simp only [List.map_map]
    rfl
  rw [e, List.nodup_flatMap]
  refine ⟨fun q _ => ?_, ?_⟩
  · refine List.Nodup.map_on ?_ (by decide)
    intro a ha b hb h
    exact (preferenceName_inj ha hb h).2
  · have hnd : pPreferenceValues.Nodup := by decide +kernel
    refine List.Pairwise.imp_of_mem ?_ hnd
    intro a b ha hb hab
    show List.Disjoint _ _
    intro x hx hx'
    obtain ⟨p1, h1, rfl⟩ := List.mem_map.1 hx
    obtain ⟨p2, h2, h3⟩ := List.mem_map.1 hx'
    exact hab (hf a ha b hb (preferenceName_inj h2 h1 h3).1.symm)

theorem multitask_nodup : (multitaskExps.map Prod.fst).Nodup := by decide +kernel

theorem iterationsName_inj {i i' r r' : Nat} (h : iterationsName i r = iterationsName i' r') : i = i' ∧ r = r' := by
  unfold iterationsName at h
  have h1 := congrArg String.toList h
  rw [String.toList_append, String.toList_append (s := "iterations-")] at h1
  obtain ⟨e1, e2⟩ := leafName_inj (String.toList_injective (List.append_cancel_left h1))
  exact ⟨e1, pyStr_inj e2⟩

theorem pomcp_nodup : (pomcpExps.map Prod.fst).Nodup := by
  unfold pomcpExps
  rw [List.map_append, List.nodup_append]
  refine ⟨by decide +kernel, ?_, ?_⟩
  · have e : (nIterations.flatMap fun i => nRolloutIt.map fun r =>
        (iterationsName i r, ([("iterations", .num i), ("rollout-iterations", .num r)] : Params))).map Prod.fst =
        nIterations.flatMap fun i => nRolloutIt.map fun r => iterationsName i r := by
      rw [List.map_flatMap]
      simp only [List.map_map]
      rfl
    rw [e, List.nodup_flatMap]
    refine ⟨fun i _ => List.Nodup.map (fun a b h => (iterationsName_inj h).2) (by decide), ?_⟩
    have hnd : nIterations.Nodup := by decide
    refine List.Pairwise.imp ?_ hnd
    intro a b hab
    show List.Disjoint _ _
    intro x hx hx'
    obtain ⟨r, -, rfl⟩ := List.mem_map.1 hx
    obtain ⟨r', -, h3⟩ := List.mem_map.1 hx'
    exact hab (iterationsName_inj h3).1.symm
  · have h1 : ∀ a ∈ ((((horizonTransitions.map fun l => ("transitions", l)) ++ (horizonHtm.map fun l => ("htm", l))).flatMap (fun tl =>
        [true, false].map fun s => (horizonName tl.1 tl.2 (if s then "s" else "ns"),
          ([("horizon-type", .str tl.1), ("horizon-length", .num tl.2), ("intermediate-rewards", .bool s)] : Params)))).map Prod.fst),
        a.toList.head? ≠ some 'i' := by decide +kernel
    intro a ha b hb hab
    refine h1 a ha ?_
    simp only [List.mem_map, List.mem_flatMap] at hb
    obtain ⟨x, ⟨i, -, r, -, rfl⟩, rfl⟩ := hb
    rw [hab]
    simp [iterationsName, String.toList_append]

/-- **C82 (names).**  In each launcher the names of the jobs are distinct, so that no job replaces another one (for the preferences as
long as distinct probabilities have distinct texts), and every result that is looked up is the one of a job. -/
theorem C82_names (fmt : ℚ → String) :
    ((multitaskExps.map Prod.fst).Nodup ∧ ∀ b, ∀ k ∈ multitaskLookups b, k ∈ multitaskExps.map Prod.fst) ∧
    (((∀ q ∈ pPreferenceValues, ∀ q' ∈ pPreferenceValues, fmt q = fmt q' → q = q') → ((preferenceExps fmt).map Prod.fst).Nodup) ∧
      ∀ k ∈ preferenceLookups fmt, k ∈ (preferenceExps fmt).map Prod.fst) ∧
    ((pomcpExps.map Prod.fst).Nodup ∧ ∀ k ∈ pomcpLookups, k ∈ pomcpExps.map Prod.fst) := by
  refine ⟨⟨multitask_nodup, ?_⟩, ⟨preference_nodup, ?_⟩, pomcp_nodup, ?_⟩
  · decide +kernel
  · intro k hk
    simp only [preferenceLookups, List.mem_flatMap, List.mem_map] at hk
    obtain ⟨pol, h1, q, h2, rfl⟩ := hk
    simp only [preferenceExps, List.mem_map, List.mem_flatMap]
    exact ⟨_, ⟨q, h2, pol, h1, rfl⟩, rfl⟩
  · intro k hk
    simp only [pomcpLookups, List.mem_append, List.mem_flatMap, List.mem_map] at hk
    simp only [pomcpExps, List.mem_map, List.mem_flatMap, List.mem_append]
    rcases hk with ⟨s, h1, h | h⟩ | ⟨r, h1, i, h2, rfl⟩
    · obtain ⟨l, h2, rfl⟩ := h
      simp only [List.mem_cons, List.not_mem_nil, or_false] at h1
      rcases h1 with rfl | rfl
      · exact ⟨_, .inl ⟨("transitions", l), .inl ⟨l, h2, rfl⟩, false, by simp, rfl⟩, rfl⟩
      · exact ⟨_, .inl ⟨("transitions", l), .inl ⟨l, h2, rfl⟩, true, by simp, rfl⟩, rfl⟩
    · obtain ⟨l, h2, rfl⟩ := h
      simp only [List.mem_cons, List.not_mem_nil, or_false] at h1
      rcases h1 with rfl | rfl
      · exact ⟨_, .inl ⟨("htm", l), .inr ⟨l, h2, rfl⟩, false, by simp, rfl⟩, rfl⟩
      · exact ⟨_, .inl ⟨("htm", l), .inr ⟨l, h2, rfl⟩, true, by simp, rfl⟩, rfl⟩
    · exact ⟨_, .inr ⟨i, h2, r, h1, rfl⟩, rfl⟩

/-! ### Jobs -/

theorem runJob_eq {cls : ExpClass} {W : ExpWorld} {l : Exps} (hn : (l.map Prod.fst).Nodup) {name : String} {p : Params} (h : (name, p) ∈ l) :
    runJob cls W l name = cls.run W (cls.parameters (some p)) false := by
  unfold runJob
  rw [dget_exps hn h]

/-- **C82 (never-hold).**  The job that the preference launcher starts for the policy `never-hold` raises `AttributeError` for every
probability, whatever happens: it assigns to the property `_a_next`, which has no setter.  So the claim that every job of the launchers
gives results is false. -/
theorem C82_false_neverHold (fmt : ℚ → String) (hf : ∀ q ∈ pPreferenceValues, ∀ q' ∈ pPreferenceValues, fmt q = fmt q' → q = q')
    (W : ExpWorld) (huniq : ∀ l x, x ∈ W.uniq l ↔ x ∈ l) (hlim : 1 ≤ W.limit) (q : ℚ) (hq : q ∈ pPreferenceValues) :
    preferenceName fmt q "never-hold" ∈ (preferenceExps fmt).map Prod.fst ∧
    runJob preferenceJob W (preferenceExps fmt) (preferenceName fmt q "never-hold") = .error .attributeError := by
  have hm : (preferenceName fmt q "never-hold", [("p_preference", ParamValue.num q), ("policy", .str "never-hold"), ("n_evaluations", .num 100)]) ∈
      preferenceExps fmt := by
    simp only [preferenceExps, List.mem_flatMap, List.mem_map]
    exact ⟨q, hq, _, by simp [preferencePolicies], rfl⟩
  refine ⟨List.mem_map.2 ⟨_, hm, rfl⟩, ?_⟩
  rw [runJob_eq (preference_nodup hf) hm]
  obtain ⟨m, h1, h2, h3, h4, h5⟩ := preference_model (W := W) huniq hlim (q := q) (c := 0)
    (p := preferenceJob.parameters (some [("p_preference", ParamValue.num q), ("policy", .str "never-hold"), ("n_evaluations", .num 100)]))
    (by rfl) (.inr ⟨by rfl, rfl⟩)
  obtain ⟨⟨y, hy, -⟩, -⟩ := scripted_exist h1 h2 1
  have hv : Params.read (preferenceJob.parameters (some [("p_preference", ParamValue.num q), ("policy", .str "never-hold"),
    ("n_evaluations", .num 100)])) "policy" = .ok (.str "never-hold") := by rfl
  have hi : preferenceJob.initRun W (preferenceJob.parameters (some [("p_preference", ParamValue.num q), ("policy", .str "never-hold"),
      ("n_evaluations", .num 100)])) = .error .attributeError := by
    rw [h5]
    simp only [preferencePolicy, hv, hy, bind, Except.bind]
    rfl
  simp only [ExpClass.run, debugged, Bool.false_eq_true, if_false, hi, bind, Except.bind]

/-- What a job gives: one episode for each of its `n` evaluations, or, for a search, `RuntimeError` because one of these evaluations
raises `MaxSamplesReached`; or the events do not reach the end. -/
def JobRuns (cls : ExpClass) (W : ExpWorld) (p : Params) (n : Nat) (search : Bool) : Prop :=
  RunEnds (cls.run W (cls.parameters (some p)) false) (fun r => r.parameters = cls.parameters (some p) ∧ r.evaluations.length = n) ∨
  (search = true ∧ cls.run W (cls.parameters (some p)) false = .error .runtimeError ∧
    ∃ m c target i, i < n ∧ cls.initRun W (cls.parameters (some p)) = .ok (m, .pomcp c) ∧
      (ExpPolicy.pomcp c).target W m cls.maxHorizon (cls.parameters (some p)) = .ok target ∧
      target (W.seeds i) = .error .maxSamplesReached)

theorem search_runs {cls : ExpClass} {W : ExpWorld} {p : Params} {t : Htm SupAction} {m : SupPomdp} (h : Constructed t m)
    (hp : m.par.pPreferences.length ≤ m.par.nPreferences)
    (hinit : cls.initRun W (cls.parameters (some p)) = (pomcpConfig (cls.parameters (some p))).map fun c => (m, .pomcp c))
    {it ro le np : Int} {rel bv : ParamValue} {ex : ℚ} (h1 : dget (cls.parameters (some p)) "iterations" = some (.num it))
    (h2 : dget (cls.parameters (some p)) "rollout-iterations" = some (.num ro))
    (h3 : dget (cls.parameters (some p)) "horizon-type" = some (.str "transitions"))
    (h4 : dget (cls.parameters (some p)) "horizon-length" = some (.num le))
    (h5 : dget (cls.parameters (some p)) "exploration" = some (.num ex)) (h6 : dget (cls.parameters (some p)) "relative-explo" = some rel)
    (h7 : dget (cls.parameters (some p)) "belief-values" = some bv) (h8 : dget (cls.parameters (some p)) "n_particles" = some (.num np))
    (hnp : 0 < np) (hro : 0 < ro) (hf : le.toNat < W.fuel) (hb : le.toNat ≤ W.bound) (hbd : cls.maxHorizon.toNat ≤ W.bound)
    (hk : NoKill W.events) {k : Int} (hw : dget (cls.parameters (some p)) "n_warmup" = some (.num k)) {n : Int}
    (he : dget (cls.parameters (some p)) "n_evaluations" = some (.num n)) : JobRuns cls W p n.toNat true := by
  obtain ⟨c, g1, g2, g3, g4, g5, g6, g7, g8, g9⟩ := C81_config h1 h2 h3 h4 h5 h6 h7 h8
  have hi : cls.initRun W (cls.parameters (some p)) = .ok (m, .pomcp c) := by rw [hinit, g1]; rfl
  obtain ⟨target, e1, e2, e3⟩ := C81_search (debug := false) (p := cls.parameters (some p)) h hp hi
    (by
      cases hc : c.htm with
      | false => rfl
      | true => have := g4.1 hc; simp at this)
    (by rw [g9]; exact hnp) (by rw [g3]; exact hro) (by rw [g5]; exact hf) (by rw [g5]; exact hb) hbd hk hw he
  rcases e3 with (e3 | ⟨r, f1, f2, eps, f3, -⟩) | ⟨e3, i, hin, e4⟩
  · exact .inl (.inl e3)
  · exact .inl (.inr ⟨r, f1, f2, by rw [f3.length_eq]; simp⟩)
  · exact .inr ⟨rfl, e3, m, c, target, i, hin, hi, e1, e4⟩

/-- **C82 (multitask launcher).**  Every job of the multitask launcher runs its 100 evaluations; only those with the search may fail,
and only because an evaluation raises `MaxSamplesReached`. -/
theorem C82_multitask (W : ExpWorld) (huniq : ∀ l x, x ∈ W.uniq l ↔ x ∈ l) (hlim : 3 ≤ W.limit) (hb : 200 ≤ W.bound) (hf : 20 < W.fuel)
    (hk : NoKill W.events) (t pol : String) (ht : t ∈ multitaskTasks) (hp : pol ∈ multitaskPolicies) :
    ∃ p, (t ++ "-" ++ pol, p) ∈ multitaskExps ∧
      runJob multitaskJob W multitaskExps (t ++ "-" ++ pol) = multitaskJob.run W (multitaskJob.parameters (some p)) false ∧
      JobRuns multitaskJob W p 100 (decide (pol = "pomcp")) := by
  have hm : (t ++ "-" ++ pol, [("task", ParamValue.str t), ("policy", .str pol)]) ∈ multitaskExps := by
    simp only [multitaskExps, List.mem_flatMap, List.mem_map]
    exact ⟨t, ht, pol, hp, rfl⟩
  refine ⟨_, hm, runJob_eq multitask_nodup hm, ?_⟩
  have hv : dget (multitaskJob.parameters (some [("task", ParamValue.str t), ("policy", .str pol)])) "policy" = some (.str pol) := by rfl
  obtain ⟨tr, N, sq, hT⟩ : ∃ tr N sq, AskedTask (multitaskJob.parameters (some [("task", ParamValue.str t), ("policy", .str pol)])) tr N sq := by
    have h0 : dget (multitaskJob.parameters (some [("task", ParamValue.str t), ("policy", .str pol)])) "task" = some (.str t) := by rfl
    simp only [multitaskTasks, List.mem_cons, List.not_mem_nil, or_false] at ht
    rcases ht with rfl | rfl | rfl
    · exact ⟨_, 20, _, .inl ⟨h0, by rfl, by decide, rfl, rfl⟩⟩
    · exact ⟨_, _, _, .inr (.inl ⟨h0, rfl, rfl, rfl⟩)⟩
    · exact ⟨_, _, _, .inr (.inr ⟨h0, rfl, rfl, rfl⟩)⟩
  simp only [multitaskPolicies, List.mem_cons, List.not_mem_nil, or_false] at hp
  rcases hp with rfl | hp
  · obtain ⟨m, h1, h2, -, -, h3, -⟩ := C81_multitask huniq hlim hT hv
    refine search_runs (n := 100) (k := 2000) h1 (by rw [h2]; simp [multitaskExpected]) (h3 rfl) (it := 1000) (ro := 1) (le := 20) (np := 150)
      (ex := 50) (rel := .bool false) (bv := .bool false) (by rfl) (by rfl) (by rfl) (by rfl) (by rfl) (by rfl) (by rfl) (by rfl)
      (by decide) (by decide) hf (by have : (20 : Int).toNat = 20 := rfl; omega) hb hk (by rfl) (by rfl)
  · obtain ⟨m, x, h1, h2⟩ := C81_scripted (debug := false) (p := multitaskJob.parameters (some [("task", ParamValue.str t), ("policy", .str pol)]))
      huniq hlim hb hk hT hv hp (n := 100) (v := .num 2000) (by rfl) (by rfl)
    left
    rcases h2 with h2 | ⟨r, f1, f2, eps, f3, -⟩
    · exact .inl h2
    · exact .inr ⟨r, f1, f2, by rw [f3.length_eq]; simp⟩

/-- **C82 (preference launcher, partial).**  The jobs of the preference launcher for the other two policies run their 100 evaluations;
only those with the search may fail, and only because an evaluation raises `MaxSamplesReached`.  What is missing is `never-hold`, see
`C82_false_neverHold`. -/
theorem C82_preference_partial (fmt : ℚ → String) (hfmt : ∀ q ∈ pPreferenceValues, ∀ q' ∈ pPreferenceValues, fmt q = fmt q' → q = q')
    (W : ExpWorld) (huniq : ∀ l x, x ∈ W.uniq l ↔ x ∈ l) (hlim : 1 ≤ W.limit) (hb : 20 ≤ W.bound) (hf : 20 < W.fuel)
    (hk : NoKill W.events) (q : ℚ) (hq : q ∈ pPreferenceValues) (pol : String) (hp : pol ∈ preferencePolicies) (hne : pol ≠ "never-hold") :
    ∃ p, (preferenceName fmt q pol, p) ∈ preferenceExps fmt ∧
      runJob preferenceJob W (preferenceExps fmt) (preferenceName fmt q pol) = preferenceJob.run W (preferenceJob.parameters (some p)) false ∧
      JobRuns preferenceJob W p 100 (decide (pol = "pomcp")) := by
  have hm : (preferenceName fmt q pol, [("p_preference", ParamValue.num q), ("policy", .str pol), ("n_evaluations", .num 100)]) ∈
      preferenceExps fmt := by
    simp only [preferenceExps, List.mem_flatMap, List.mem_map]
    exact ⟨q, hq, _, hp, rfl⟩
  refine ⟨_, hm, runJob_eq (preference_nodup hfmt) hm, ?_⟩
  simp only [preferencePolicies, List.mem_cons, List.not_mem_nil, or_false, hne, false_or] at hp
  rcases hp with rfl | rfl
  · obtain ⟨m, x, -, -, h2⟩ := C81_alwaysHold (debug := false) (q := q) (c := 0) (n := 100) (v := .num 2000)
      (p := preferenceJob.parameters (some [("p_preference", ParamValue.num q), ("policy", .str "always-hold"), ("n_evaluations", .num 100)]))
      huniq hlim (by omega) hk (by rfl) (.inr ⟨by rfl, rfl⟩) (by rfl) (by rfl) (by rfl)
    left
    rcases h2 with h2 | ⟨r, f1, f2, eps, f3, -⟩
    · exact .inl h2
    · exact .inr ⟨r, f1, f2, by rw [f3.length_eq]; simp⟩
  · obtain ⟨m, h1, h2, h3, h4, h5⟩ := preference_model (W := W) huniq hlim (q := q) (c := 0)
      (p := preferenceJob.parameters (some [("p_preference", ParamValue.num q), ("policy", .str "pomcp"), ("n_evaluations", .num 100)]))
      (by rfl) (.inr ⟨by rfl, rfl⟩)
    refine search_runs (n := 100) (k := 2000) (m := m) h1 (by rw [h4]; simp [preferenceExpected]) ?_ (it := 1000) (ro := 1) (le := 20) (np := 150)
      (ex := 50) (rel := .bool false) (bv := .bool false) (by rfl) (by rfl) (by rfl) (by rfl) (by rfl) (by rfl) (by rfl) (by rfl)
      (by decide) (by decide) hf hb ?_ hk (by rfl) (by rfl)
    · rw [h5]
      have hv : Params.read (preferenceJob.parameters (some [("p_preference", ParamValue.num q), ("policy", .str "pomcp"),
        ("n_evaluations", .num 100)])) "policy" = .ok (.str "pomcp") := by rfl
      simp only [preferencePolicy, hv, bind, Except.bind]
      generalize pomcpConfig (preferenceJob.parameters _) = y
      cases y <;> rfl
    · have : preferenceJob.maxHorizon.toNat = 15 := rfl
      omega

/-- **C82 (pomcp launcher, partial).**  The jobs of the pomcp launcher with a horizon of transitions, and those for the numbers of
iterations, run their 20 evaluations, and may fail only because an evaluation raises `MaxSamplesReached`.  What is missing are the jobs
with a horizon of completed tasks, whose rollouts end with probability one only. -/
theorem C82_pomcp_partial (W : ExpWorld) (huniq : ∀ l x, x ∈ W.uniq l ↔ x ∈ l) (hlim : 3 ≤ W.limit) (hb : 200 ≤ W.bound) (hf : 100 < W.fuel)
    (hk : NoKill W.events) :
    (∀ l ∈ horizonTransitions, ∀ s : Bool, ∃ p, (horizonName "transitions" l (if s then "s" else "ns"), p) ∈ pomcpExps ∧
      runJob pomcpJob W pomcpExps (horizonName "transitions" l (if s then "s" else "ns")) =
        pomcpJob.run W (pomcpJob.parameters (some p)) false ∧ JobRuns pomcpJob W p 20 true) ∧
    (∀ i ∈ nIterations, ∀ r ∈ nRolloutIt, ∃ p, (iterationsName i r, p) ∈ pomcpExps ∧
      runJob pomcpJob W pomcpExps (iterationsName i r) = pomcpJob.run W (pomcpJob.parameters (some p)) false ∧
      JobRuns pomcpJob W p 20 true) := by
  constructor
  · intro l hl s
    have hm : (horizonName "transitions" l (if s then "s" else "ns"),
        [("horizon-type", ParamValue.str "transitions"), ("horizon-length", .num (l : ℚ)), ("intermediate-rewards", .bool s)]) ∈ pomcpExps := by
      simp only [pomcpExps, List.mem_append, List.mem_flatMap, List.mem_map]
      exact .inl ⟨("transitions", l), .inl ⟨l, hl, rfl⟩, s, by cases s <;> simp, rfl⟩
    refine ⟨_, hm, runJob_eq pomcp_nodup hm, ?_⟩
    have hl' : l ≤ 100 := by
      simp only [horizonTransitions, List.mem_cons, List.not_mem_nil, or_false] at hl
      omega
    obtain ⟨m, h1, h2, h3, h4⟩ := C81_pomcpJob (W := W) huniq hlim (q := 3 / 10) (c := 1 / 100) (ir := .bool s)
      (p := pomcpJob.parameters (some [("horizon-type", ParamValue.str "transitions"), ("horizon-length", .num (l : ℚ)),
        ("intermediate-rewards", .bool s)])) (by rfl) (by rfl) (.inr ⟨by rfl, rfl⟩)
    exact search_runs (n := 20) (k := 2000) h1 (by rw [h3]; simp [pomcpExpected]) h4 (it := 1000) (ro := 1) (le := l) (np := 150)
      (ex := 50) (rel := .bool false) (bv := .bool false) (by rfl) (by rfl) (by rfl) (by rfl) (by rfl) (by rfl) (by rfl) (by rfl)
      (by decide) (by decide) (by simp; omega) (by simp; omega) hb hk (by rfl) (by rfl)
  · intro i hi r hr
    have hm : (iterationsName i r, [("iterations", ParamValue.num (i : ℚ)), ("rollout-iterations", .num (r : ℚ))]) ∈ pomcpExps := by
      simp only [pomcpExps, List.mem_append, List.mem_flatMap, List.mem_map]
      exact .inr ⟨i, hi, r, hr, rfl⟩
    refine ⟨_, hm, runJob_eq pomcp_nodup hm, ?_⟩
    have hr' : 0 < r := by
      simp only [nRolloutIt, List.mem_cons, List.not_mem_nil, or_false] at hr
      omega
    obtain ⟨m, h1, h2, h3, h4⟩ := C81_pomcpJob (W := W) huniq hlim (q := 3 / 10) (c := 1 / 100) (ir := .bool false)
      (p := pomcpJob.parameters (some [("iterations", ParamValue.num (i : ℚ)), ("rollout-iterations", .num (r : ℚ))]))
      (by rfl) (by rfl) (.inr ⟨by rfl, rfl⟩)
    exact search_runs (n := 20) (k := 2000) h1 (by rw [h3]; simp [pomcpExpected]) h4 (it := i) (ro := r) (le := 20) (np := 150)
      (ex := 50) (rel := .bool false) (bv := .bool false) (by rfl) (by rfl) (by rfl) (by rfl) (by rfl) (by rfl) (by rfl) (by rfl)
      (by decide) (by omega) (by have : (20 : Int).toNat = 20 := rfl; omega) (by have : (20 : Int).toNat = 20 := rfl; omega) hb hk (by rfl) (by rfl)

/-- The hypotheses of the theorems hold for `demoWorld`, and the probabilities, written with their numerators, have distinct texts. -/
example : (∀ l x, x ∈ demoWorld.uniq l ↔ x ∈ l) ∧ 3 ≤ demoWorld.limit ∧ 200 ≤ demoWorld.bound ∧ 100 < demoWorld.fuel ∧
    NoKill demoWorld.events ∧ (1 / 4 : ℚ) ∈ pPreferenceValues ∧
    (∀ q ∈ pPreferenceValues, ∀ q' ∈ pPreferenceValues,
      toString q.num ++ "/" ++ toString q.den = toString q'.num ++ "/" ++ toString q'.den → q = q') :=
  ⟨fun _ _ => Iff.rfl, by decide, by decide, by decide, demoWorld_noKill, by decide +kernel, by decide +kernel⟩

example : multitaskExps.length = 9 ∧ (preferenceExps toString).length = 63 ∧ pomcpExps.length = 205 := by decide +kernel

end Verif
