import Verif.Proof.Solve
import Verif.Props.Pomdp

/-!
# C96: the external solver gets the model and the options, its policy is returned, and the disk is left as it was
-/

set_option linter.unusedSectionVars false
set_option linter.unusedSimpArgs false

namespace Verif
open Spec

/-- The solver is called exactly once, in the temporary directory, if the model can be written.  Its command has an option for each parameter that is
given, and the name of a file that contains the model; nothing else on the disk is different, but the new directory. -/
theorem C96_call (mach : Machine) (p : Pomdp) (timeout nIterations : Option Int) (method : String) (gridType : Option String) (seed : Option Int)
    (verbose : Bool) (w : World) (d : List String) (hd : mach.mkdtemp = .ok d) (t : String) (h : p.dump mach.fmt mach.strNum = .ok t) :
    ∃ (c : Call) (x : Disk) (f : FilePath),
      (p.solve mach timeout nIterations method gridType seed verbose w).2.calls = w.calls ++ [(c, x)] ∧
      c.program = p.solverPath ∧ c.cwd = d ∧ (c.quiet = true ↔ verbose = false) ∧
      optionIn c.args "-time_limit" = timeout.map (fun n => String.ofList (showInt n)) ∧
      optionIn c.args "-horizon" = nIterations.map (fun n => String.ofList (showInt n)) ∧
      (∀ n, seed = some n → optionIn c.args "-rand_seed" = some (String.ofList (showInt n))) ∧
      (seed = none → optionIn c.args "-rand_seed" = some (String.ofList (showInt mach.randint))) ∧
      (method = "grid" → optionIn c.args "-method" = some "grid" ∧
        (∀ g, gridType = some g → optionIn c.args "-fg_type" = some g) ∧ (gridType = none → optionIn c.args "-fg_type" = some "simplex")) ∧
      (method ≠ "grid" → optionIn c.args "-method" = none ∧ optionIn c.args "-fg_type" = none) ∧
      optionIn c.args "-pomdp" = some f.text ∧ f.dir = d ∧ x.files f = some t.toList ∧
      (∀ g, g ≠ f → x.files g = w.disk.files g) ∧ x.dirs d = true ∧ ∀ e, e ≠ d → x.dirs e = w.disk.dirs e := by
  refine ⟨_, _, ⟨d, "tosolve.pomdp"⟩, congrArg World.calls (solve_run mach p timeout nIterations method gridType seed verbose w d t hd h).1, rfl, rfl, ?_,
    ?_, ?_, ?_, ?_, ?_, ?_, ?_, rfl, ?_, ?_, ?_, ?_⟩
  · cases verbose <;> simp [solverCall]
  · simp only [solverCall, solveArgs]
    cases timeout <;> cases nIterations <;> by_cases hm : method = "grid" <;> simp [optionIn, hm]
  · simp only [solverCall, solveArgs]
    cases timeout <;> cases nIterations <;> by_cases hm : method = "grid" <;> simp [optionIn, hm]
  · rintro n rfl
    simp only [solverCall, solveArgs]
    cases timeout <;> cases nIterations <;> by_cases hm : method = "grid" <;> simp [optionIn, hm]
  · rintro rfl
    simp only [solverCall, solveArgs]
    cases timeout <;> cases nIterations <;> by_cases hm : method = "grid" <;> simp [optionIn, hm]
  · rintro rfl
    simp only [solverCall, solveArgs]
    cases timeout <;> cases nIterations <;> cases gridType <;> simp [optionIn]
  · intro hm
    simp only [solverCall, solveArgs]
    cases timeout <;> cases nIterations <;> simp [optionIn, hm]
  · simp only [solverCall, solveArgs]
    cases timeout <;> cases nIterations <;> by_cases hm : method = "grid" <;> simp [optionIn, hm]
  · simp [solverDisk, Disk.write]
  · intro g hg
    simp [solverDisk, Disk.write, Disk.mkdir, hg]
  · simp [solverDisk, Disk.write, Disk.mkdir]
  · intro e he
    simp [solverDisk, Disk.write, Disk.mkdir, he]

/-- Whatever happens, the disk is left as it was, if the solver does not change anything out of its directory, which did not exist. -/
theorem C96_clean (mach : Machine) (p : Pomdp) (timeout nIterations : Option Int) (method : String) (gridType : Option String) (seed : Option Int)
    (verbose : Bool) (w : World) (hs : StaysInside mach.solver) (hd : ∀ d, mach.mkdtemp = .ok d → NoSuchDir w.disk d) :
    (p.solve mach timeout nIterations method gridType seed verbose w).2.disk = w.disk := by
  rcases hm : mach.mkdtemp with e | d
  · unfold Pomdp.solve withTemp
    simp only [hm]
  · rcases h : p.dump mach.fmt mach.strNum with e | t
    · rw [solve_dump_error mach p timeout nIterations method gridType seed verbose w d e hm h]
      have := sameOutside_trans (sameOutside_mkdir d w.disk) (sameOutside_write d (w.disk.mkdir d) "tosolve.pomdp" [])
      exact rmtree_eq w.disk _ d (hd d hm) this.1 this.2
    · rw [(solve_run mach p timeout nIterations method gridType seed verbose w d t hm h).1]
      have h1 := solverDisk_outside w.disk d t.toList
      have h2 := hs (solverCall mach p timeout nIterations method gridType seed verbose d) (solverDisk w.disk d t.toList)
      exact rmtree_eq w.disk _ d (hd d hm) (fun e he => (h2.1 e he).trans (h1.1 e he)) (fun f hf => (h2.2 f hf).trans (h1.2 f hf))

/-- A model that cannot be written, a solver that fails and files that are missing are errors; in the first case the solver is not called. -/
theorem C96_failures (mach : Machine) (p : Pomdp) (timeout nIterations : Option Int) (method : String) (gridType : Option String) (seed : Option Int)
    (verbose : Bool) (w : World) (d : List String) (hd : mach.mkdtemp = .ok d) :
    let result := p.solve mach timeout nIterations method gridType seed verbose w
    (∀ e, p.dump mach.fmt mach.strNum = .error e → result.1 = .error e ∧ result.2.calls = w.calls) ∧
    (∀ e, (∀ c x, (mach.solver c x).1 = .error e) → (∃ t, p.dump mach.fmt mach.strNum = .ok t) → result.1 = .error e) ∧
    ((∀ c x, ∃ code, code ≠ 0 ∧ (mach.solver c x).1 = .ok code) → (∃ t, p.dump mach.fmt mach.strNum = .ok t) →
      result.1 = .error .calledProcessError) ∧
    ((∀ c x o, c.cwd = d → optionIn c.args "-o" = some o → (mach.solver c x).1 = .ok 0 ∧ (mach.solver c x).2.files ⟨d, o ++ ".alpha"⟩ = none) →
      (∃ t, p.dump mach.fmt mach.strNum = .ok t) → result.1 = .error .osError) ∧
    ((∀ c x o, c.cwd = d → optionIn c.args "-o" = some o → (mach.solver c x).1 = .ok 0 ∧ (mach.solver c x).2.files ⟨d, o ++ ".pg"⟩ = none) →
      (∃ t, p.dump mach.fmt mach.strNum = .ok t) → ∃ e, result.1 = .error e) := by
  intro result
  have ho : optionIn (solverCall mach p timeout nIterations method gridType seed verbose d).args "-o" = some "tosolve" := by
    simp only [solverCall, solveArgs]
    cases timeout <;> cases nIterations <;> by_cases hm : method = "grid" <;> simp [optionIn, hm]
  refine ⟨?_, ?_, ?_, ?_, ?_⟩
  · intro e h
    have := solve_dump_error mach p timeout nIterations method gridType seed verbose w d e hd h
    exact ⟨congrArg Prod.fst this, by show (p.solve mach timeout nIterations method gridType seed verbose w).2.calls = _; rw [this]⟩
  · rintro e hs ⟨t, h⟩
    exact (solve_run mach p timeout nIterations method gridType seed verbose w d t hd h).2.1 e (hs _ _)
  · rintro hs ⟨t, h⟩
    obtain ⟨code, h1, h2⟩ := hs (solverCall mach p timeout nIterations method gridType seed verbose d) (solverDisk w.disk d t.toList)
    exact (solve_run mach p timeout nIterations method gridType seed verbose w d t hd h).2.2.1 code h1 h2
  · rintro hs ⟨t, h⟩
    obtain ⟨h1, h2⟩ := hs (solverCall mach p timeout nIterations method gridType seed verbose d) (solverDisk w.disk d t.toList) _ rfl ho
    refine ((solve_run mach p timeout nIterations method gridType seed verbose w d t hd h).2.2.2 h1).trans ?_
    unfold Pomdp.loadFrom
    rw [M.bind_of_error (readText_none h2)]
  · rintro hs ⟨t, h⟩
    obtain ⟨h1, h2⟩ := hs (solverCall mach p timeout nIterations method gridType seed verbose d) (solverDisk w.disk d t.toList) _ rfl ho
    have h3 := (solve_run mach p timeout nIterations method gridType seed verbose w d t hd h).2.2.2 h1
    have h4 : ∀ w' : World, w'.disk.files ⟨d, "tosolve" ++ ".pg"⟩ = none → ∃ e, (p.loadFrom mach d "tosolve" w').1 = .error e := by
      intro w' hw
      unfold Pomdp.loadFrom
      rcases ha : w'.disk.files ⟨d, "tosolve" ++ ".alpha"⟩ with _ | alpha
      · rw [M.bind_of_error (readText_none ha)]
        exact ⟨_, rfl⟩
      · rw [M.bind_of_ok (readText_some ha), M.bind_run]
        simp only [M.lift]
        cases parseValueFunction mach.fromstring (fileLines alpha) with
        | error e => exact ⟨e, rfl⟩
        | ok vf =>
            simp only
            rw [M.bind_of_error (readText_none hw)]
            exact ⟨_, rfl⟩
    obtain ⟨e, he⟩ := h4 ⟨_, _⟩ h2
    exact ⟨e, h3.trans he⟩

/-- The files that the solver leaves are read. -/
theorem solve_loads (mach : Machine) (p : Pomdp) (timeout nIterations : Option Int) (method : String) (gridType : Option String)
    (seed : Option Int) (verbose : Bool) (w : World) (d : List String) (hd : mach.mkdtemp = .ok d) (t : String)
    (h : p.dump mach.fmt mach.strNum = .ok t)
    (nodes : List (Int × List (Option Int))) (pairs : List (List Char × List Char)) (alpha pg : List Char) (alphaLines pgLines : List (List Char))
    (hsolver : ∀ c x o, c.cwd = d → optionIn c.args "-o" = some o → (mach.solver c x).1 = .ok 0 ∧
      (mach.solver c x).2.files ⟨d, o ++ ".alpha"⟩ = some alpha ∧ (mach.solver c x).2.files ⟨d, o ++ ".pg"⟩ = some pg)
    (ha : Lines alpha alphaLines) (hg : Lines pg pgLines)
    (hfile : WithBlanks (pairLines pairs) alphaLines) (hint : List.Forall₂ (fun x n => IntLine x.1 n) pairs (nodes.map Prod.fst))
    (hlen : ∀ x ∈ pairs, (mach.fromstring x.2).length = p.start.length) (hpg : PgFile nodes pgLines) (hne : nodes ≠ []) :
    (p.solve mach timeout nIterations method gridType seed verbose w).1 = p.loadPolicy mach.fromstring alphaLines pgLines ∧
    parseValueFunction mach.fromstring alphaLines = .ok (nodes.map Prod.fst, pairs.map fun x => mach.fromstring x.2) ∧
    parsePolicyGraph pgLines = .ok (nodes.map Prod.fst, nodes.map Prod.snd) := by
  have hpne : pairs ≠ [] := by
    rintro rfl
    cases nodes with
    | nil => exact hne rfl
    | cons x nodes => cases hint
  have hvf := C43_vf_ok mach.fromstring pairs (nodes.map Prod.fst) p.start.length alphaLines hfile hpne hint hlen
  refine ⟨?_, hvf, C43_pg_ok nodes pgLines hpg⟩
  have ho : optionIn (solverCall mach p timeout nIterations method gridType seed verbose d).args "-o" = some "tosolve" := by
    simp only [solverCall, solveArgs]
    cases timeout <;> cases nIterations <;> by_cases hm : method = "grid" <;> simp [optionIn, hm]
  obtain ⟨h1, h2, h3⟩ := hsolver (solverCall mach p timeout nIterations method gridType seed verbose d) (solverDisk w.disk d t.toList) _ rfl ho
  refine ((solve_run mach p timeout nIterations method gridType seed verbose w d t hd h).2.2.2 h1).trans ?_
  unfold Pomdp.loadFrom
  rw [M.bind_of_ok (readText_some h2), fileLines_eq _ _ ha, M.bind_run]
  simp only [M.lift, hvf]
  rw [M.bind_of_ok (readText_some h3), fileLines_eq _ _ hg]
  rfl

/-- If the solver succeeds and writes, under the name it is given, the vectors and the graph of a policy for the model (each with its numbers and with any
blanks where they are accepted), and the policy has a transition, then this policy is returned; its initial node is the best one for the start. -/
theorem C96_policy_partial (mach : Machine) (p : Pomdp) (timeout nIterations : Option Int) (method : String) (gridType : Option String)
    (seed : Option Int) (verbose : Bool) (w : World) (d : List String) (hd : mach.mkdtemp = .ok d) (t : String)
    (h : p.dump mach.fmt mach.strNum = .ok t)
    (nodes : List (Int × List (Option Int))) (pairs : List (List Char × List Char)) (alpha pg : List Char) (alphaLines pgLines : List (List Char))
    (hsolver : ∀ c x o, c.cwd = d → optionIn c.args "-o" = some o → (mach.solver c x).1 = .ok 0 ∧
      (mach.solver c x).2.files ⟨d, o ++ ".alpha"⟩ = some alpha ∧ (mach.solver c x).2.files ⟨d, o ++ ".pg"⟩ = some pg)
    (ha : Lines alpha alphaLines) (hg : Lines pg pgLines)
    (hfile : WithBlanks (pairLines pairs) alphaLines) (hint : List.Forall₂ (fun x n => IntLine x.1 n) pairs (nodes.map Prod.fst))
    (hlen : ∀ x ∈ pairs, (mach.fromstring x.2).length = p.start.length) (hpg : PgFile nodes pgLines)
    (hact : ∀ x ∈ nodes, 0 ≤ x.1 ∧ x.1 < p.actions.length) (hrow : ∀ x ∈ nodes, x.2.length = p.observations.length)
    (htarget : ∀ x ∈ nodes, ∀ j, some j ∈ x.2 → 0 ≤ j ∧ j < nodes.length) (hsome : ∃ x ∈ nodes, ∃ j, some j ∈ x.2) :
    ∃ g, (p.solve mach timeout nIterations method gridType seed verbose w).1 = .ok g ∧
      List.Forall₂ (fun x n => p.actions[x.1.toNat]? = some n) nodes g.actions ∧ g.observations = p.observations ∧
      g.transitions = nodes.map Prod.snd ∧ g.values = pairs.map (fun x => mach.fromstring x.2) ∧
      ∃ n : Nat, g.init = n ∧ BestNode g.values p.start n := by
  obtain ⟨x0, hx0, j0, hj0⟩ := hsome
  have hne : nodes ≠ [] := by rintro rfl; simp at hx0
  obtain ⟨h1, h2, h3⟩ := solve_loads mach p timeout nIterations method gridType seed verbose w d hd t h nodes pairs alpha pg alphaLines pgLines hsolver
    ha hg hfile hint hlen hpg hne
  obtain ⟨m, hm1, hm2⟩ := pyMax_lt (nodes.map Prod.fst) p.actions.length (by simpa using hne) (by
    intro a ha'
    obtain ⟨x, hx, rfl⟩ := List.mem_map.1 ha'
    exact (hact x hx).2)
  obtain ⟨u, hu1, hu2⟩ := pyMax_lt ((nodes.map Prod.snd).flatten.filterMap id) nodes.length (by
      intro he
      have : j0 ∈ (nodes.map Prod.snd).flatten.filterMap id := by
        rw [List.mem_filterMap]
        exact ⟨some j0, List.mem_flatten.2 ⟨x0.2, List.mem_map.2 ⟨x0, hx0, rfl⟩, hj0⟩, rfl⟩
      rw [he] at this
      simp at this) (by
    intro a ha'
    rw [List.mem_filterMap] at ha'
    obtain ⟨o, ho, rfl⟩ := ha'
    obtain ⟨r, hr, ho⟩ := List.mem_flatten.1 ho
    obtain ⟨x, hx, rfl⟩ := List.mem_map.1 hr
    exact (htarget x hx a ho).2)
  obtain ⟨names, hn1, hn2⟩ := names_ok p (nodes.map Prod.fst) (by
    intro a ha'
    obtain ⟨x, hx, rfl⟩ := List.mem_map.1 ha'
    exact hact x hx)
  have hpl : pairs.length = nodes.length := by simpa using hint.length_eq
  obtain ⟨n, hb1, hb2⟩ := nodeFromBelief_spec (pairs.map fun x => mach.fromstring x.2) p.start (by
      intro he
      have : pairs.length = 0 := by simpa using congrArg List.length he
      exact hne (List.eq_nil_of_length_eq_zero (hpl ▸ this))) (by
    intro v hv
    obtain ⟨x, hx, rfl⟩ := List.mem_map.1 hv
    exact hlen x hx)
  have hnl : names.length = nodes.length := by simpa using hn2.length_eq.symm
  refine ⟨⟨names, p.observations, nodes.map Prod.snd, pairs.map (fun x => mach.fromstring x.2), n⟩, ?_, ?_, rfl, rfl, rfl, n, rfl, hb2⟩
  · rw [h1]
    unfold Pomdp.loadPolicy
    simp only [h2, h3, bind, Except.bind, ne_eq, not_true_eq_false, if_false, hm1, hm2, hu1]
    have hle : u ≤ ((nodes.map Prod.snd).length : Int) := by rw [List.length_map]; omega
    simp only [hle, not_true_eq_false, if_false]
    simp only [bind, Except.bind] at hn1
    rw [hn1]
    simp only [mkGraphPolicy]
    rw [if_pos ⟨by simp [hnl], by simpa using hne, by
      intro r hr
      obtain ⟨x, hx, rfl⟩ := List.mem_map.1 hr
      exact hrow x hx⟩]
    simp only [initNode, hb1, Except.map]
    rfl
  · rw [List.forall₂_map_left_iff] at hn2
    exact hn2

/-- A policy without transitions cannot be loaded. -/
theorem C96_false_no_transition (mach : Machine) (p : Pomdp) (timeout nIterations : Option Int) (method : String) (gridType : Option String)
    (seed : Option Int) (verbose : Bool) (w : World) (d : List String) (hd : mach.mkdtemp = .ok d) (t : String)
    (h : p.dump mach.fmt mach.strNum = .ok t)
    (nodes : List (Int × List (Option Int))) (pairs : List (List Char × List Char)) (alpha pg : List Char) (alphaLines pgLines : List (List Char))
    (hsolver : ∀ c x o, c.cwd = d → optionIn c.args "-o" = some o → (mach.solver c x).1 = .ok 0 ∧
      (mach.solver c x).2.files ⟨d, o ++ ".alpha"⟩ = some alpha ∧ (mach.solver c x).2.files ⟨d, o ++ ".pg"⟩ = some pg)
    (ha : Lines alpha alphaLines) (hg : Lines pg pgLines)
    (hfile : WithBlanks (pairLines pairs) alphaLines) (hint : List.Forall₂ (fun x n => IntLine x.1 n) pairs (nodes.map Prod.fst))
    (hlen : ∀ x ∈ pairs, (mach.fromstring x.2).length = p.start.length) (hpg : PgFile nodes pgLines)
    (hact : ∀ x ∈ nodes, 0 ≤ x.1 ∧ x.1 < p.actions.length) (hne : nodes ≠ []) (hnone : ∀ x ∈ nodes, ∀ j, some j ∉ x.2) :
    (p.solve mach timeout nIterations method gridType seed verbose w).1 = .error .valueError := by
  obtain ⟨h1, h2, h3⟩ := solve_loads mach p timeout nIterations method gridType seed verbose w d hd t h nodes pairs alpha pg alphaLines pgLines hsolver
    ha hg hfile hint hlen hpg hne
  obtain ⟨m, hm1, hm2⟩ := pyMax_lt (nodes.map Prod.fst) p.actions.length (by simpa using hne) (by
    intro a ha'
    obtain ⟨x, hx, rfl⟩ := List.mem_map.1 ha'
    exact (hact x hx).2)
  have hnil : (nodes.map Prod.snd).flatten.filterMap id = [] := by
    rw [List.filterMap_eq_nil_iff]
    intro o ho
    obtain ⟨r, hr, ho⟩ := List.mem_flatten.1 ho
    obtain ⟨x, hx, rfl⟩ := List.mem_map.1 hr
    cases o with
    | none => rfl
    | some j => exact absurd ho (hnone x hx j)
  rw [h1]
  unfold Pomdp.loadPolicy
  simp only [h2, h3, bind, Except.bind, ne_eq, not_true_eq_false, if_false, hm1, hm2, hnil]
  rfl

/-! ### JSON files -/

/-- A policy that is saved can be loaded; nothing else changes on the disk. -/
theorem C96_policy_file (j : Json GraphDict) (hj : ∀ i x, j.loads (j.dumps i x) = .ok x) (as os : List Name) (ts : List (List (Option Int)))
    (vs : List (List ℚ)) (start : Option (List ℚ)) (init : Option Int) (g : GraphPolicy) (h : mkGraphPolicy as os ts vs start init = .ok g)
    (hinit : init ≠ none ∨ vs.length ≤ as.length) (f : FilePath) (indent : Option Nat) (w : World) (hdir : w.disk.dirs f.dir = true) :
    ∃ w', g.saveAsJson j f indent w = (.ok (), w') ∧ GraphPolicy.loadFromJson j f w' = (.ok g, w') ∧
      GraphPolicy.fromJson j (g.toJson j indent) = .ok g ∧
      w'.disk.dirs = w.disk.dirs ∧ (∀ e, e ≠ f → w'.disk.files e = w.disk.files e) ∧ w'.calls = w.calls := by
  obtain ⟨g', h1, rfl, _⟩ := C44_roundtrip as os ts vs start init g h hinit
  refine ⟨⟨(w.disk.write f []).write f (j.dumps indent g'.toDict), w.calls⟩, ?_, ?_, ?_, rfl, ?_, rfl⟩
  · unfold GraphPolicy.saveAsJson saveJson
    have : openWrite f w = (.ok (), { w with disk := w.disk.write f [] }) := by
      unfold openWrite
      rw [if_pos hdir]
    rw [M.bind_of_ok this]
    rfl
  · unfold GraphPolicy.loadFromJson
    rw [M.bind_of_ok (readText_some (t := j.dumps indent g'.toDict) (by simp [Disk.write]))]
    rw [M.bind_run]
    simp only [M.lift, hj, h1]
  · unfold GraphPolicy.fromJson GraphPolicy.toJson
    rw [hj]
    exact h1
  · intro e he
    simp [Disk.write, he]

/-- A model that is saved can be loaded, and has the same attributes. -/
theorem C96_model_file (j : Json PomdpDict) (hj : ∀ i x, j.loads (j.dumps i x) = .ok x) (solver : Option String) (T O : Arr3) (R : Arr4)
    (start : List ℚ) (discount : ℚ) (states actions observations : Option (List Name)) (values : String) (p : Pomdp)
    (h : Pomdp.mk' solver T O R start discount states actions observations values = .ok p) (hA : 0 < T.n0) (f : FilePath) (w : World)
    (hdir : w.disk.dirs f.dir = true) :
    ∃ w' q, p.saveAsJson j f w = (.ok (), w') ∧ Pomdp.loadFromJson j solver f w' = (.ok q, w') ∧
      w'.disk.dirs = w.disk.dirs ∧ (∀ e, e ≠ f → w'.disk.files e = w.disk.files e) ∧ w'.calls = w.calls ∧
      q.T.Same p.T ∧ q.O.Same p.O ∧ q.R.Same p.R ∧ q.start = p.start ∧
      q.discount = p.discount ∧ q.states = p.states ∧ q.actions = p.actions ∧ q.observations = p.observations := by
  obtain ⟨q, h1, h2, h3, h4, h5, h6, h7, h8, h9, _⟩ := C40_roundtrip solver T O R start discount states actions observations values p h hA
  refine ⟨⟨(w.disk.write f []).write f (j.dumps none p.toDict), w.calls⟩, q, ?_, ?_, rfl, ?_, rfl, h2, h3, h4, h5, h6, h7, h8, h9⟩
  · unfold Pomdp.saveAsJson saveJson
    have : openWrite f w = (.ok (), { w with disk := w.disk.write f [] }) := by
      unfold openWrite
      rw [if_pos hdir]
    rw [M.bind_of_ok this]
    rfl
  · unfold Pomdp.loadFromJson
    rw [M.bind_of_ok (readText_some (t := j.dumps none p.toDict) (by simp [Disk.write]))]
    rw [M.bind_run]
    simp only [M.lift, hj, h1]
  · intro e he
    simp [Disk.write, he]

/-- Without the directory, nothing is written. -/
theorem C96_no_directory (j : Json GraphDict) (g : GraphPolicy) (f : FilePath) (indent : Option Nat) (w : World) (hdir : w.disk.dirs f.dir = false) :
    g.saveAsJson j f indent w = (.error .osError, w) := by
  unfold GraphPolicy.saveAsJson saveJson
  have : openWrite f w = (.error .osError, w) := by
    unfold openWrite
    rw [if_neg (by simp [hdir])]
  rw [M.bind_of_error this]

/-! ### Non-vacuity -/

/-- The vectors of a policy with one node. -/
def demoAlpha : List Char := ['0', '\n', '1', ' ', '2', '\n', '\n']

/-- The graph of a policy with one node. -/
def demoGraph : List Char := ['0', ' ', '0', ' ', ' ', '0', ' ', '-', ' ', '\n']

/-- A solver that always writes this policy. -/
def demoSolver (c : Call) (x : Disk) : Py Int × Disk :=
  (.ok 0, (x.write ⟨c.cwd, (optionIn c.args "-o").getD "" ++ ".alpha"⟩ demoAlpha).write ⟨c.cwd, (optionIn c.args "-o").getD "" ++ ".pg"⟩ demoGraph)

/-- A machine with this solver. -/
def demoMachine : Machine :=
  ⟨demoSolver, .ok ["tmp", "abc"], 7, fun l => if l = ['1', ' ', '2', '\n'] then [1, 2] else [], fun _ => "0.5", fun _ => "0.95"⟩

theorem write_same (x : Disk) (f : FilePath) (t : List Char) : (x.write f t).files f = some t := if_pos rfl

theorem write_other (x : Disk) (f g : FilePath) (t : List Char) (h : g ≠ f) : (x.write f t).files g = x.files g := if_neg h

/-- The solver stays in its directory. -/
example : StaysInside demoSolver := by
  intro c x
  refine ⟨fun e _ => rfl, fun f hf => ?_⟩
  have h : ∀ n, f ≠ ⟨c.cwd, n⟩ := fun n h => hf (by rw [h]; exact below_self c.cwd)
  unfold demoSolver
  rw [write_other _ _ _ _ (h _), write_other _ _ _ _ (h _)]

theorem demoSolver_alpha (c : Call) (x : Disk) (o : String) (h : optionIn c.args "-o" = some o) :
    (demoSolver c x).2.files ⟨c.cwd, o ++ ".alpha"⟩ = some demoAlpha := by
  unfold demoSolver
  rw [h, Option.getD_some, write_other, write_same]
  intro he
  injection he with _ he
  have := (String.append_right_inj o).1 he
  exact absurd this (by decide +kernel)

theorem demoSolver_graph (c : Call) (x : Disk) (o : String) (h : optionIn c.args "-o" = some o) :
    (demoSolver c x).2.files ⟨c.cwd, o ++ ".pg"⟩ = some demoGraph := by
  unfold demoSolver
  rw [h, Option.getD_some, write_same]

/-- The hypotheses of `C96_policy_partial` hold. -/
example (t : String) (ht : tiger.dump demoMachine.fmt demoMachine.strNum = .ok t) :
    ∃ g, (tiger.solve demoMachine (some 3) none "grid" none none false ⟨⟨fun _ => false, fun _ => none⟩, []⟩).1 = .ok g ∧
    g.transitions = [[some 0, none]] := by
  obtain ⟨g, h1, _, _, h2, _⟩ := C96_policy_partial demoMachine tiger (some 3) none "grid" none none false ⟨⟨fun _ => false, fun _ => none⟩, []⟩
    ["tmp", "abc"] rfl t ht [(0, [some 0, none])] [(['0', '\n'], ['1', ' ', '2', '\n'])] demoAlpha demoGraph
    [['0', '\n'], ['1', ' ', '2', '\n'], ['\n']] [demoGraph]
    (by
      intro c x o h1 h2
      rw [← h1]
      exact ⟨rfl, demoSolver_alpha c x o h2, demoSolver_graph c x o h2⟩)
    ⟨rfl, by
      intro i l h
      match i with
      | 0 => injection h with h; exact ⟨['0'], by decide, Or.inl h.symm⟩
      | 1 => injection h with h; exact ⟨['1', ' ', '2'], by decide, Or.inl h.symm⟩
      | 2 => injection h with h; exact ⟨[], by decide, Or.inl h.symm⟩
      | i + 3 => cases h⟩
    ⟨rfl, by
      intro i l h
      match i with
      | 0 => injection h with h; exact ⟨['0', ' ', '0', ' ', ' ', '0', ' ', '-', ' '], by decide, Or.inl h.symm⟩
      | i + 1 => cases h⟩
    (.line (fun h => absurd (h.2 '0' (by simp)) (by decide)) (.line (fun h => absurd (h.2 '1' (by simp)) (by decide))
      (.blank (by simp) (by unfold Blank; decide) .nil)))
    (.cons ⟨[], ['\n'], by unfold Blank; decide, by unfold Blank; decide, by decide⟩ .nil)
    (by intro x hx; simp at hx; subst hx; decide +kernel)
    ⟨rfl, by
      intro i a ts h
      match i with
      | 0 =>
          injection h with h
          injection h with h1 h2
          subst h1 h2
          exact ⟨[' ', '\n'], by unfold Blank; decide, by decide +kernel⟩
      | i + 1 => cases h⟩
    (by decide +kernel) (by decide +kernel) (by
      intro x hx j hj
      simp at hx
      subst hx
      simp at hj
      subst hj
      simp) ⟨_, List.mem_singleton.2 rfl, 0, by simp⟩
  exact ⟨g, h1, h2⟩

/-- The model can be written. -/
example : (tiger.dump demoMachine.fmt demoMachine.strNum).isOk = true := by decide +kernel

end Verif
