import Verif.Proof.ResultFiles

set_option linter.unusedSectionVars false
set_option linter.unusedSimpArgs false

/-!
# C103: the files of the experiments
-/

namespace Verif
open Spec

/-! ### What is written -/

/-- **C103 (encoder).**  The encoder for numpy writes every value as the encoder of Python writes the value with the numbers of Python
instead of those of numpy and lists instead of arrays: it adds nothing else. -/
theorem C103_encoder (v : PyVal) : encode true v = encode false (plainVal v) := encode_plain v

/-- **C103 (numpy).**  Without it, an integer of numpy, a number of single precision or an array anywhere raises `TypeError`. -/
theorem C103_numpy (i : Int) (q : ℚ) (l : List PyVal) :
    encode true (.npInt i) = .ok (.num i) ∧ encode true (.npFloat false q) = .ok (.num q) ∧
    encode false (.npInt i) = .error .typeError ∧ encode false (.npFloat false q) = .error .typeError ∧
    encode false (.array l) = .error .typeError := by
  refine ⟨?_, ?_, ?_, ?_, ?_⟩ <;> simp [encode]

/-- **C103 (refused).**  Writing raises `TypeError`, and leaves a file that cannot be read, exactly if the value contains something that cannot be written;
otherwise what is read from the file is what was encoded.  No other file changes. -/
theorem C103_refused (np : Bool) (f : LabFile) (v : PyVal) (fs : LabFiles) :
    (Unwritable np v → ∃ fs', writeJson np f v fs = (.error .typeError, fs') ∧ readJson f fs' = (.error .valueError, fs') ∧ ∀ g, g ≠ f → fs' g = fs g) ∧
    (¬ Unwritable np v → ∃ j fs', encode np v = .ok j ∧ writeJson np f v fs = (.ok (), fs') ∧ readJson f fs' = (.ok j, fs') ∧ ∀ g, g ≠ f → fs' g = fs g) := by
  unfold writeJson
  rcases encode_refuses np v with ⟨h, hu⟩ | ⟨j, h, hu⟩
  · rw [h]
    refine ⟨fun _ => ⟨_, rfl, by simp [readJson], fun g hg => by simp [hg]⟩, fun hn => absurd hu hn⟩
  · rw [h]
    refine ⟨fun hn => absurd hn hu, fun _ => ⟨j, _, rfl, rfl, by simp [readJson], fun g hg => by simp [hg]⟩⟩

/-- An array with a boolean of numpy can be written with the encoder, this boolean alone cannot. -/
example : Unwritable true (.npBool true) ∧ ¬ Unwritable true (.array [.npBool true, .npInt 1]) ∧ Unwritable false (.array [.npBool true]) := by
  refine ⟨.npBool _, ?_, .array _ rfl⟩
  intro h
  cases h with
  | array _ h => cases h
  | inArray hx hu =>
    simp at hx
    rcases hx with rfl | rfl <;> cases hu

/-- **C103 (written).**  Whatever numbers are of numpy, the results of an experiment are written without any exception, as they are:
the parameters, the duration of the warm-up and, for each evaluation and in their order, its return, states, actions, observations,
rewards, time and number of calls.  The parameters of a job are written too, also without the encoder for numpy, and are read back as they were. -/
theorem C103_written (kinds : Nat → Kinds) (elapsed : Nat → ℚ) (warmup : ℚ) (r : ExpResults) (double : String → Bool) (p : Params) :
    encode true (resultsVal kinds elapsed warmup r) = .ok (resultsJson elapsed warmup r) ∧
    ∃ j, encode false (paramsVal double p) = .ok j ∧ j.params = .ok p :=
  ⟨encode_results kinds elapsed warmup r, _, encode_params false double p, read_params p⟩

/-! ### Jobs -/

theorem exps_eq {l : Exps} (hn : (l.map Prod.fst).Nodup) : exps l = l := by
  have key : ∀ (l d : Exps), ((d ++ l).map Prod.fst).Nodup → l.foldl (fun d kv => dset d kv.1 kv.2) d = d ++ l := by
    intro l
    induction l with
    | nil => intro d _; simp
    | cons kv l ih =>
        intro d hd
        have h1 : dset d kv.1 kv.2 = d ++ [kv] := by
          have hk : kv.1 ∉ d.map Prod.fst := by
            intro hk
            rw [List.map_append, List.nodup_append] at hd
            exact hd.2.2 _ hk kv.1 (by simp) rfl
          have : ∀ d : Exps, kv.1 ∉ d.map Prod.fst → dset d kv.1 kv.2 = d ++ [kv] := by
            intro d
            induction d with
            | nil => intro _; rfl
            | cons x d ihd =>
                intro hx
                simp only [List.map_cons, List.mem_cons, not_or] at hx
                obtain ⟨a, b⟩ := x
                have hne : ¬ a = kv.1 := fun h => hx.1 h.symm
                simp [dset, hne, ihd hx.2]
          exact this d hk
        rw [List.foldl_cons, h1, ih]
        · simp
        · simpa using hd
  unfold exps
  rw [key l [] (by simpa using hn)]
  simp

/-- **C103 (config).**  If the names of the jobs are distinct, and so are their configuration files, then the launcher prepares them without
any exception, and the configuration file of each job is read back as the parameters of that job. -/
theorem C103_config (cfg : String → LabFile) (double : String → Bool) (l : Exps) (fs : LabFiles) (hn : (l.map Prod.fst).Nodup)
    (hc : ∀ a ∈ l.map Prod.fst, ∀ b ∈ l.map Prod.fst, cfg a = cfg b → a = b) :
    (prepareAll cfg double (exps l) fs).1 = .ok () ∧
    ∀ name p, (name, p) ∈ l → ∃ j, readJson (cfg name) (prepareAll cfg double (exps l) fs).2 = (.ok j, (prepareAll cfg double (exps l) fs).2) ∧
      j.params = .ok p := by
  rw [exps_eq hn]
  obtain ⟨h1, h2, h3⟩ := prepare_spec cfg double l fs
  refine ⟨h1, fun name p hp => ⟨paramsJson p, ?_, read_params p⟩⟩
  have := h3 hn hc _ hp
  unfold readJson
  rw [this]

/-- The parameters of a name. -/
theorem afterJobs_spec {cls : ExpClass} {cfg : String → LabFile} {double : String → Bool} {J : String → JobWorld} {path : String} {l : Exps}
    {order : List String} {fs : LabFiles} (hn : (l.map Prod.fst).Nodup) (hs : SeparateFiles cfg path (l.map Prod.fst))
    (ho : ∀ n ∈ order, n ∈ l.map Prod.fst) :
    ∀ e ∈ l,
      (∀ r, jobRun cls (J e.1) e.2 = .ok r → afterJobs cls cfg double J path l order fs (path, e.1 ++ ".json") =
        if e.1 ∈ order then some (some (resultsJson (J e.1).elapsed (J e.1).warmup r)) else fs (path, e.1 ++ ".json")) ∧
      (∀ x, jobRun cls (J e.1) e.2 = .error x → afterJobs cls cfg double J path l order fs (path, e.1 ++ ".json") = fs (path, e.1 ++ ".json")) := by
  obtain ⟨h1, h2, h3⟩ := prepare_spec cfg double l fs
  have hp : ∀ e ∈ l, (dget l e.1).getD [] = e.2 := by
    intro e he
    rw [dget_of_mem hn (show (e.1, e.2) ∈ l from he)]
    rfl
  have hfile : ∀ e ∈ l, (prepareAll cfg double l fs).2 (path, e.1 ++ ".json") = fs (path, e.1 ++ ".json") := by
    intro e he
    exact h2 _ fun x hx => hs.2 x.1 (List.mem_map_of_mem hx) e.1 (List.mem_map_of_mem he)
  have h := runScripts_spec cls cfg J path (l.map Prod.fst) (fun n => (dget l n).getD []) hs order ho (prepareAll cfg double l fs).2 (by
    intro n hnm
    obtain ⟨e, he, rfl⟩ := List.mem_map.1 hnm
    rw [hp e he]
    exact h3 hn hs.1 e he)
  intro e he
  obtain ⟨i1, i2⟩ := h e.1 (List.mem_map_of_mem he)
  rw [hp e he, hfile e he] at i1 i2
  unfold afterJobs
  rw [exps_eq hn]
  exact ⟨i1, i2⟩

/-- **C103 (results).**  The names of the jobs are distinct, no two of them have the same configuration file and none is a file of results.
If the jobs run in any order, each one at least once, and all give results, then the launcher reads exactly these results: for each name the
returns, times and numbers of calls of the evaluations of the job of this name with its own parameters, in the order of the evaluations,
whatever was in the files before. -/
theorem C103_results (cls : ExpClass) (cfg : String → LabFile) (double : String → Bool) (J : String → JobWorld) (path : String) (l : Exps)
    (order : List String) (fs : LabFiles) (hn : (l.map Prod.fst).Nodup) (hs : SeparateFiles cfg path (l.map Prod.fst))
    (ho : ∀ n, n ∈ order ↔ n ∈ l.map Prod.fst) (r : String → ExpResults) (hr : ∀ e ∈ l, jobRun cls (J e.1) e.2 = .ok (r e.1)) :
    (getResults path (l.map Prod.fst) (afterJobs cls cfg double J path l order fs)).1 =
      .ok (l.map fun e => (e.1, summary (J e.1) (r e.1))) := by
  have h := afterJobs_spec (cls := cls) (double := double) (J := J) (fs := fs) hn hs fun n hn => (ho n).1 hn
  rw [getResults_ok path (l.map Prod.fst) (fun n => summary (J n) (r n))]
  · simp
  · intro n hnm
    obtain ⟨e, he, rfl⟩ := List.mem_map.1 hnm
    refine resultsFromOne_ok path e.1 (J e.1) (r e.1) _ ?_
    rw [(h e he).1 _ (hr e he), if_pos ((ho e.1).2 hnm)]

/-- **C103 (missing).**  In a directory without results, if some job has not been run or has raised an exception, then the launcher cannot read
any results: it raises `FileNotFoundError`. -/
theorem C103_missing (cls : ExpClass) (cfg : String → LabFile) (double : String → Bool) (J : String → JobWorld) (path : String) (l : Exps)
    (order : List String) (fs : LabFiles) (hn : (l.map Prod.fst).Nodup) (hs : SeparateFiles cfg path (l.map Prod.fst))
    (ho : ∀ n ∈ order, n ∈ l.map Prod.fst) (hfresh : ∀ n ∈ l.map Prod.fst, fs (path, n ++ ".json") = none)
    (hm : ∃ e ∈ l, e.1 ∉ order ∨ ∃ x, jobRun cls (J e.1) e.2 = .error x) :
    (getResults path (l.map Prod.fst) (afterJobs cls cfg double J path l order fs)).1 = .error .osError := by
  have h := afterJobs_spec (cls := cls) (double := double) (J := J) (fs := fs) hn hs ho
  rw [getResults_missing]
  · intro n hnm
    obtain ⟨e, he, rfl⟩ := List.mem_map.1 hnm
    cases hrun : jobRun cls (J e.1) e.2 with
    | error x => exact .inl (((h e he).2 x hrun).trans (hfresh _ hnm))
    | ok r =>
        by_cases hmem : e.1 ∈ order
        · refine .inr ⟨_, resultsFromOne_ok path e.1 (J e.1) r _ ?_⟩
          rw [(h e he).1 r hrun, if_pos hmem]
        · refine .inl ?_
          rw [(h e he).1 r hrun, if_neg hmem]
          exact hfresh _ hnm
  · obtain ⟨e, he, hbad⟩ := hm
    refine ⟨e.1, List.mem_map_of_mem he, ?_⟩
    cases hrun : jobRun cls (J e.1) e.2 with
    | error x => exact ((h e he).2 x hrun).trans (hfresh _ (List.mem_map_of_mem he))
    | ok r =>
        have hmem : e.1 ∉ order := by
          rcases hbad with hb | ⟨x, hx⟩
          · exact hb
          · rw [hrun] at hx
            cases hx
        rw [(h e he).1 r hrun, if_neg hmem]
        exact hfresh _ (List.mem_map_of_mem he)

/-- **C103 (preference).**  After the jobs of the preference launcher, in any order and whatever happens in them, the launcher cannot read its
results in a directory that had none: the jobs for `never-hold` raise an exception and write no file.  So it never plots anything. -/
theorem C103_false_preference (fmt : ℚ → String) (hf : ∀ q ∈ pPreferenceValues, ∀ q' ∈ pPreferenceValues, fmt q = fmt q' → q = q')
    (cfg : String → LabFile) (double : String → Bool) (J : String → JobWorld) (path : String) (order : List String) (fs : LabFiles)
    (hs : SeparateFiles cfg path ((preferenceExps fmt).map Prod.fst)) (ho : ∀ n ∈ order, n ∈ (preferenceExps fmt).map Prod.fst)
    (hfresh : ∀ n ∈ (preferenceExps fmt).map Prod.fst, fs (path, n ++ ".json") = none)
    (hW : ∀ n, (∀ l x, x ∈ (J n).world.uniq l ↔ x ∈ l) ∧ 1 ≤ (J n).world.limit) :
    (getResults path ((preferenceExps fmt).map Prod.fst) (afterJobs preferenceJob cfg double J path (preferenceExps fmt) order fs)).1 =
      .error .osError := by
  have hn := preference_nodup hf
  refine C103_missing preferenceJob cfg double J path _ order fs hn hs ho hfresh ?_
  have hq : (0 : ℚ) ∈ pPreferenceValues := by decide +kernel
  obtain ⟨h1, h2⟩ := C82_false_neverHold fmt hf (J (preferenceName fmt 0 "never-hold")).world (hW _).1 (hW _).2 0 hq
  obtain ⟨e, he, hname⟩ := List.mem_map.1 h1
  refine ⟨e, he, .inr ⟨.attributeError, ?_⟩⟩
  rw [← hname, runJob_eq hn (show (e.1, e.2) ∈ _ from he)] at h2
  unfold jobRun
  exact h2

/-! ### Averages -/

theorem asNumbers_map (l : List ℚ) : asNumbers (l.map JVal.num) = .ok l := by
  induction l with
  | nil => rfl
  | cons q l ih =>
      rw [List.map_cons, asNumbers, ih]
      rfl

theorem averageOf_returns (J : JobWorld) (r : ExpResults) (h : r.evaluations ≠ []) : averageOf (summary J r).1 = .ok (some (meanReturn r)) := by
  have e : (summary J r).1 = (r.evaluations.map Episode.ret).map JVal.num := by
    unfold summary
    simp
  unfold averageOf
  rw [e, asNumbers_map]
  simp [bind, Except.bind, h, meanReturn]

theorem mapM_ok_fun {α β : Type} (f : α → Py β) (g : α → β) (l : List α) (h : ∀ x ∈ l, f x = .ok (g x)) : l.mapM f = .ok (l.map g) := by
  induction l with
  | nil => rfl
  | cons x l ih =>
      rw [List.mapM_cons, h x List.mem_cons_self, ih fun y hy => h y (List.mem_cons_of_mem _ hy)]
      rfl

/-- **C103 (multitask).**  After the jobs of the multitask launcher, in any order, if all of them give results, these have a hundred
evaluations each, and the launcher prints for each task and policy the mean of the returns of the hundred evaluations of the job of that
task and that policy. -/
theorem C103_multitask (cfg : String → LabFile) (double : String → Bool) (J : String → JobWorld) (path : String) (order : List String)
    (fs : LabFiles) (hs : SeparateFiles cfg path (multitaskExps.map Prod.fst)) (ho : ∀ n, n ∈ order ↔ n ∈ multitaskExps.map Prod.fst)
    (hW : ∀ n, (∀ l x, x ∈ (J n).world.uniq l ↔ x ∈ l) ∧ 3 ≤ (J n).world.limit ∧ 200 ≤ (J n).world.bound ∧ 20 < (J n).world.fuel ∧
      NoKill (J n).world.events)
    (r : String → ExpResults) (hr : ∀ e ∈ multitaskExps, jobRun multitaskJob (J e.1) e.2 = .ok (r e.1)) :
    (∀ e ∈ multitaskExps, (r e.1).parameters = multitaskJob.parameters (some e.2) ∧ (r e.1).evaluations.length = 100) ∧
    ∃ res, (getResults path (multitaskExps.map Prod.fst) (afterJobs multitaskJob cfg double J path multitaskExps order fs)).1 = .ok res ∧
      printedAverages res = .ok (multitaskTasks.map fun t => multitaskPolicies.map fun p => some (meanReturn (r (t ++ "-" ++ p)))) := by
  have hlen : ∀ e ∈ multitaskExps, (r e.1).parameters = multitaskJob.parameters (some e.2) ∧ (r e.1).evaluations.length = 100 := by
    intro e he
    have he' := he
    simp only [multitaskExps, List.mem_flatMap, List.mem_map] at he'
    obtain ⟨t, ht, pol, hp, rfl⟩ := he'
    obtain ⟨w1, w2, w3, w4, w5⟩ := hW (t ++ "-" ++ pol)
    obtain ⟨p, hp1, -, hp2⟩ := C82_multitask (J (t ++ "-" ++ pol)).world w1 w2 w3 w4 w5 t pol ht hp
    have hpe : p = [("task", ParamValue.str t), ("policy", .str pol)] := by
      have e1 := dget_of_mem multitask_nodup hp1
      have e2 := dget_of_mem multitask_nodup he
      rw [e1] at e2
      exact Option.some.inj e2
    subst hpe
    have hrun := hr _ he
    unfold jobRun at hrun
    rcases hp2 with (h | ⟨r', h, h'⟩) | ⟨-, h, -⟩
    · rw [hrun] at h; cases h
    · rw [hrun] at h
      cases h
      exact h'
    · rw [hrun] at h; cases h
  refine ⟨hlen, _, C103_results multitaskJob cfg double J path multitaskExps order fs multitask_nodup hs ho r hr, ?_⟩
  unfold printedAverages
  refine mapM_ok_fun _ _ _ fun t ht => mapM_ok_fun _ _ _ fun p hp => ?_
  have hm : (t ++ "-" ++ p, [("task", ParamValue.str t), ("policy", .str p)]) ∈ multitaskExps := by
    simp only [multitaskExps, List.mem_flatMap, List.mem_map]
    exact ⟨t, ht, p, hp, rfl⟩
  have hd : dget (multitaskExps.map fun e => (e.1, summary (J e.1) (r e.1))) (t ++ "-" ++ p) =
      some (summary (J (t ++ "-" ++ p)) (r (t ++ "-" ++ p))) := by
    refine dget_of_mem ?_ ?_
    · have : (multitaskExps.map fun e => (e.1, summary (J e.1) (r e.1))).map Prod.fst = multitaskExps.map Prod.fst := by simp
      rw [this]
      exact multitask_nodup
    · exact List.mem_map.2 ⟨_, hm, rfl⟩
  unfold returnsOf
  rw [hd]
  simp only [bind, Except.bind]
  refine averageOf_returns _ _ fun h0 => ?_
  have := (hlen _ hm).2
  simp only at this
  rw [h0] at this
  simp at this

/-- **C103 (curve).**  The curve that is plotted for a list of jobs with the same number of evaluations, and at least one, goes through the means
of the returns of these jobs, in the order of the list; if the numbers of evaluations differ it raises `ValueError`. -/
theorem C103_curve (J : String → JobWorld) (r : String → ExpResults) (names : List String) (n : Nat) :
    (names ≠ [] → 0 < n → (∀ x ∈ names, (r x).evaluations.length = n) →
      plottedMeans (names.map fun x => (summary (J x) (r x)).1) = .ok (names.map fun x => some (meanReturn (r x)))) ∧
    ((∃ x ∈ names, ∃ y ∈ names, (r x).evaluations.length ≠ (r y).evaluations.length) →
      plottedMeans (names.map fun x => (summary (J x) (r x)).1) = .error .valueError) := by
  have hl : ∀ x, (summary (J x) (r x)).1.length = (r x).evaluations.length := fun x => by simp [summary]
  constructor
  · intro hne hpos hlen
    cases names with
    | nil => exact absurd rfl hne
    | cons a names =>
        rw [List.map_cons, plottedMeans]
        rw [if_pos]
        · rw [← List.map_cons (f := fun x => (summary (J x) (r x)).1), List.mapM_map]
          refine mapM_ok_fun _ _ _ fun x hx => averageOf_returns _ _ fun h0 => ?_
          have := hlen x hx
          rw [h0] at this
          simp at this
          omega
        · rw [← List.map_cons (f := fun x => (summary (J x) (r x)).1), List.all_map, List.all_eq_true]
          intro x hx
          simp only [Function.comp_apply, decide_eq_true_eq]
          rw [hl, hl, hlen x hx, hlen a List.mem_cons_self]
  · rintro ⟨x, hx, y, hy, hxy⟩
    cases names with
    | nil => simp at hx
    | cons a names =>
        rw [List.map_cons, plottedMeans]
        rw [if_neg]
        rw [← List.map_cons (f := fun x => (summary (J x) (r x)).1), List.all_map, List.all_eq_true]
        intro hall
        have h1 := hall x hx
        have h2 := hall y hy
        simp only [Function.comp_apply, decide_eq_true_eq, hl] at h1 h2
        exact hxy (h1.trans h2.symm)

/-! ### The hypotheses hold -/

/-- Jobs with the configuration `config/name.json`, whose results are in `results`; half of the numbers are of numpy. -/
example : SeparateFiles (fun n => ("config", n ++ ".json")) "results" (multitaskExps.map Prod.fst) :=
  ⟨fun a _ b _ h => resultFile_inj h, fun a _ b _ h => absurd (congrArg Prod.fst h) (by simp)⟩

/-- What a job depends on. -/
def demoJob : JobWorld :=
  ⟨demoWorld, fun i => ⟨fun _ j => (i + j) % 2 = 0, fun _ j => if j % 2 = 0 then .single else .python⟩, fun i => i + 1 / 2, 3 / 4⟩

/-- A job with a short horizon, and two sets of parameters. -/
def demoExps : Exps := [("a", [("n_evaluations", .num 2)]), ("b", [("n_evaluations", .num 2), ("task", .str "sequence")])]

/-- The jobs of two names run in the other order; the results are read back, with the returns of the runs. -/
example : ((getResults "results" ["a", "b"] (afterJobs { multitaskJob with maxHorizon := 1 } (fun n => ("config", n ++ ".json")) (fun _ => false)
    (fun _ => demoJob) "results" demoExps ["b", "a"] fun _ => none)).1.toOption.map fun l => l.map fun x => (x.1, (asNumbers x.2.1).toOption,
      (asNumbers x.2.2.1).toOption)) = some [("a", some [-1, -1], some [1 / 2, 3 / 2]), ("b", some [-1, -1], some [1 / 2, 3 / 2])] := by
  decide +kernel

end Verif
