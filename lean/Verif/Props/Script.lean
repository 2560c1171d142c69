import Verif.Proof.Script

/-! Property C116 (the scripts that convert a task, solve it and save the policies). -/

set_option linter.unusedSectionVars false
set_option linter.unusedSimpArgs false

namespace Verif
open Verif.Spec

/-- **C116**: for all the tasks that are accepted and the solvers that write a policy, the script ends without exception, after a single call of the solver.
The first file loads back as the policy of the solver, the second one as the tree of the beliefs of this policy for ten steps, the third one as a policy
whose nodes are beliefs that are reached, with the same actions. Nothing else is changed on the disk. -/
theorem C116_files_partial (env : ScriptEnv) (h : HtmParams) (t : Htm CAction) (root : List String) (name : String) (w : World) (d : List String)
    (ht : GoodTask h t) (hd : callDepth t ≤ env.depth) (he : GoodEnv env d w.disk) (hname : name ≠ "from_beliefs.json")
    (nodes : List (Int × List (Option Int))) (vectors : List (List ℚ))
    (ha : ∀ p, htmToPomdp env.solver env.exp nameRadix h env.depth t = .ok p → WritesPolicy env.mach p d nodes vectors)
    (hd1 : w.disk.dirs (policyFile root name).dir = true) (hd2 : w.disk.dirs (trajectoryFile root).dir = true) :
    ∃ (p : Pomdp) (gp gp2 : GraphPolicy) (w' : World) (nS nA nO : Nat), policyScript env h t root name w = (.ok (p, gp, gp2), w') ∧
      htmToPomdp env.solver env.exp nameRadix h env.depth t = .ok p ∧ Stochastic p nS nA nO ∧ IsDist nS p.start ∧
      -- the call of the solver
      (∃ (c : Call) (x : Disk) (f : FilePath) (text : String), w'.calls = w.calls ++ [(c, x)] ∧ env.solver = some c.program ∧ c.cwd = d ∧
        optionIn c.args "-horizon" = some "500" ∧ optionIn c.args "-method" = some "grid" ∧ optionIn c.args "-fg_type" = some "simplex" ∧
        optionIn c.args "-time_limit" = none ∧ optionIn c.args "-pomdp" = some f.text ∧
        p.dump env.mach.fmt env.mach.strNum = .ok text ∧ x.files f = some text.toList) ∧
      -- the policy of the solver
      GraphPolicy.loadFromJson env.policies (policyFile root name) w' = (.ok gp, w') ∧
      List.Forall₂ (fun x n => p.actions[x.1.toNat]? = some n) nodes gp.actions ∧ gp.observations = p.observations ∧
      gp.transitions = nodes.map Prod.snd ∧ gp.values = vectors ∧ (∃ n : Nat, gp.init = n ∧ BestNode gp.values p.start n) ∧
      -- the tree
      (∃ text tree, w'.disk.files (trajectoryFile root) = some text ∧ env.trees.loads text = .ok [tree] ∧
        (∀ i < nS, (TTree.beliefOf tree).getD i 0 = if p.start.getD i 0 = 0 then 0 else 1) ∧
        TreeOf gp p nS 10 (evenStart p.start) (TTree.withBelief (evenStart p.start) tree)) ∧
      -- the policy on the beliefs
      GraphPolicy.loadFromJson env.policies (policyFile root "from_beliefs.json") w' = (.ok gp2, w') ∧
      gp2.observations = p.observations ∧ gp2.init = 0 ∧ gp2.values[0]? = some p.start ∧ gp2.values.length ≤ 105 ∧
      (∀ b ∈ gp2.values, IsDist nS b ∧ Reached gp p nS b) ∧
      (∀ (i : Nat) (b : List ℚ), gp2.values[i]? = some b → ∃ act, gp2.actions[i]? = some act ∧ PolicyAction gp b act) ∧
      (∀ (i io : Nat) (b : List ℚ) (j : Int), gp2.values[i]? = some b → entry gp2.transitions i io = some j →
        ∃ (n : Nat) (c b' : List ℚ), j = n ∧ gp2.values[n]? = some c ∧ PolicyPosterior gp p nS b io b' ∧ distSq nS c b' < (1 / 100) ^ 2) ∧
      -- the rest of the disk
      w'.disk.dirs = w.disk.dirs ∧ ∀ f, f ≠ policyFile root name → f ≠ trajectoryFile root → f ≠ policyFile root "from_beliefs.json" →
        w'.disk.files f = w.disk.files f := by
  obtain ⟨he1, he2, he3, he4, he5, ⟨path, hpath⟩, he7, he8⟩ := he
  obtain ⟨p, nS, nA, nO, p1, p2, p3, p4, p5, p6⟩ := goodTask_pomdp path env.exp h env.depth t ht he7 hd
  rw [← hpath] at p1
  obtain ⟨text, htext⟩ := p6 env.mach.fmt env.mach.strNum
  obtain ⟨gp, g1, g2, g3, g4, g5, g6, g7, g8⟩ := solve_ok env.mach p none (some 500) "grid" none none true w d he1 text htext nodes vectors (ha p p1)
  obtain ⟨c, x, f, c1, c2, c3, c4, c5, c6, c7, c8, c9, c10, c11, c12, c13, c14⟩ := C96_call env.mach p none (some 500) "grid" none none true w d he1 text htext
  have hclean := C96_clean env.mach p none (some 500) "grid" none none true w he3 (by
    intro d' hd'
    rw [he1] at hd'
    cases hd'
    exact he2)
  have hlen : p.start.length = nS := p4.1
  rw [hlen] at g7
  set w1 := (p.solve env.mach none (some 500) "grid" none none true w).2 with hw1
  have s1 : p.solve env.mach none (some 500) "grid" none none true w = (.ok gp, w1) := Prod.ext g1 rfl
  obtain ⟨w2, text2, s2, a2, b2, i2, k2, l2⟩ := saveAsJson_ok env.policies he4 gp g8 (policyFile root name) none w1 (by rw [hclean]; exact hd1)
  obtain ⟨r, r1, r2, r3⟩ := C46_start gp p nS g7 p4 ⟨[], 0⟩
  have s3 : newBeliefRunner gp p = .ok r := by unfold newBeliefRunner; rw [r1]
  have hsome : ∃ y ∈ p.start, y ≠ 0 := by
    by_contra hc
    push Not at hc
    have h0 : sumRange nS (fun i => p.start.getD i 0) = sumRange nS (fun _ => 0) := sumRange_congr _ _ _ (fun i hi => by
      have hi' : i < p.start.length := by omega
      show p.start.getD i 0 = 0
      rw [List.getD_eq_getElem?_getD, List.getElem?_eq_getElem hi', Option.getD_some]
      exact hc _ (List.getElem_mem hi'))
    rw [p4.2.2] at h0
    simp [sumRange] at h0
  obtain ⟨tree, r', t1, t2, t3, t4⟩ := C48_several_partial gp p nS nA nO p2 g7 p3 hsome 10 r
  obtain ⟨w3, s4, a3, b3, i3, k3⟩ := saveTrajectories_ok env.trees gp p 10 (trajectoryFile root) (some 2) r r' [tree] t1 w2 (by rw [b2, hclean]; exact hd2)
  obtain ⟨q, y, v0, v1, v2, v3, v4, v5, v6, v7, v8, v9, v10, _⟩ := C49_visit gp p nS nA nO p2 g7 p3 p4 100
  have hv := v0 env.fuel (by omega)
  have s5 : visitPolicy gp p 100 env.fuel = .ok q := by unfold visitPolicy; rw [hv]; rfl
  have hreach := visit_reached gp p nS nA nO p2 g7 p3 p4 hv
  obtain ⟨w4, text4, s6, a4, b4, i4, k4, l4⟩ := saveAsJson_ok env.policies he4 q (visit_fromDict hv) (policyFile root "from_beliefs.json") none w3 (by
    rw [b3, b2, hclean]; exact hd1)
  have n1 : policyFile root name ≠ policyFile root "from_beliefs.json" := by
    intro hc
    injection hc with _ hc
    exact hname hc
  have n2 : ∀ m, policyFile root m ≠ trajectoryFile root := by
    intro m hc
    injection hc with hc _
    have := List.append_cancel_left hc
    simp at this
  refine ⟨p, gp, q, w4, nS, nA, nO, ?_, p1, p2, p4, ⟨c, x, f, text, ?_, ?_, c3, c6, (c9 rfl).1, (c9 rfl).2.2 rfl, c5, c11, htext, c13⟩, ?_, g2, g3, g4, g5, g6,
    ⟨env.trees.dumps (some 2) [tree], tree, ?_, he5 (some 2) _, t2, t4⟩, l4 w4 a4, v1, v2, v3, ?_, fun b hb => ⟨v7 b hb, hreach b hb⟩, v9, v10, ?_, ?_⟩
  · unfold policyScript
    rw [M.bind_run]
    simp only [M.lift, p1]
    rw [M.bind_of_ok s1, M.bind_of_ok s2, M.bind_run]
    simp only [M.lift, s3]
    rw [M.bind_of_ok s4, M.bind_run]
    simp only [M.lift, s5]
    rw [M.bind_of_ok s6]
    rfl
  · rw [k4, k3, k2]
    exact c1
  · rw [c2, hpath]
    congr 1
    have : htmToPomdp (some path) env.exp nameRadix h env.depth t = .ok p := hpath ▸ p1
    obtain ⟨n, _, ⟨hfn, -, -⟩, h4⟩ := htmToPomdp_ok (some path) env.exp nameRadix h env.depth t ht.1 ht.2.1 hd
    rw [h4, htmConvert_eq _ _ _ _ _ (full_noEmpty n hfn) ht.2.2.2.2.1] at this
    obtain ⟨_, path', _, e2, _, rfl⟩ := (mk'_ok_iff ..).1 this
    injection e2 with e2
  · exact l2 w4 (by rw [i4 _ n1, i3 _ (n2 name)]; exact a2)
  · rw [i4 _ (n2 _).symm]
    exact a3
  · omega
  · rw [b4, b3, b2, hclean]
  · intro e e1 e2 e3
    rw [i4 e e3, i3 e e2, i2 e e1, hclean]

/-! ### What stops the script -/

/-- **C116**: a task that is refused stops the script before the solver is called and before any file is changed. -/
theorem C116_refused (env : ScriptEnv) (h : HtmParams) (t : Htm CAction) (root : List String) (name : String) (w : World) (e : PyErr)
    (hp : htmToPomdp env.solver env.exp nameRadix h env.depth t = .error e) : policyScript env h t root name w = (.error e, w) := by
  unfold policyScript
  exact M.bind_of_error (x := M.lift (htmToPomdp env.solver env.exp nameRadix h env.depth t)) (by unfold M.lift; rw [hp])

/-- **C116**: without the program `pomdp-solve` nothing is done. -/
theorem C116_no_program (env : ScriptEnv) (h : HtmParams) (t : Htm CAction) (root : List String) (name : String) (w : World)
    (ht : GoodTask h t) (hd : callDepth t ≤ env.depth) (hs : env.solver = none) : policyScript env h t root name w = (.error .importError, w) := by
  refine C116_refused env h t root name w _ ?_
  obtain ⟨p, hp, -, -⟩ := (C99_accepted "" env.exp h env.depth t ht.1 ht.2.1 hd ht.2.2.2.2.1 ht.2.2.2.2.2.1).1 ht.2.2.1
  obtain ⟨n, n1, ⟨hfn, -, -⟩, h4⟩ := htmToPomdp_ok (some "") env.exp nameRadix h env.depth t ht.1 ht.2.1 hd
  obtain ⟨n', n1', -, h4'⟩ := htmToPomdp_ok env.solver env.exp nameRadix h env.depth t ht.1 ht.2.1 hd
  rw [n1] at n1'
  cases n1'
  rw [h4, htmConvert_eq _ _ _ _ _ (full_noEmpty n hfn) ht.2.2.2.2.1] at hp
  rw [h4', htmConvert_eq _ _ _ _ _ (full_noEmpty n hfn) ht.2.2.2.2.1, hs]
  exact mk'_none hp

/-- **C116**: a solver that fails stops the script, and the disk is unchanged. -/
theorem C116_solver_fails (env : ScriptEnv) (h : HtmParams) (t : Htm CAction) (root : List String) (name : String) (w : World) (d : List String)
    (ht : GoodTask h t) (hd : callDepth t ≤ env.depth) (he : GoodEnv env d w.disk)
    (hf : ∀ c x, ∃ code, code ≠ 0 ∧ (env.mach.solver c x).1 = .ok code) :
    (policyScript env h t root name w).1 = .error .calledProcessError ∧ (policyScript env h t root name w).2.disk = w.disk := by
  obtain ⟨he1, he2, he3, he4, he5, ⟨path, hpath⟩, he7, he8⟩ := he
  obtain ⟨p, nS, nA, nO, p1, p2, p3, p4, p5, p6⟩ := goodTask_pomdp path env.exp h env.depth t ht he7 hd
  rw [← hpath] at p1
  have hr := (C96_failures env.mach p none (some 500) "grid" none none true w d he1).2.2.1 hf (p6 _ _)
  have hclean := C96_clean env.mach p none (some 500) "grid" none none true w he3 (by
    intro d' hd'
    rw [he1] at hd'
    cases hd'
    exact he2)
  have s1 : p.solve env.mach none (some 500) "grid" none none true w = (.error .calledProcessError, (p.solve env.mach none (some 500) "grid" none none true w).2) :=
    Prod.ext hr rfl
  have : policyScript env h t root name w = (.error .calledProcessError, (p.solve env.mach none (some 500) "grid" none none true w).2) := by
    unfold policyScript
    rw [M.bind_run]
    simp only [M.lift, p1]
    rw [M.bind_of_error s1]
  rw [this]
  exact ⟨rfl, hclean⟩

/-- **C116**: if the directory of the policies does not exist, then the work of the solver is lost: the script raises `OSError` after the call, and the disk is
unchanged. -/
theorem C116_no_directory (env : ScriptEnv) (h : HtmParams) (t : Htm CAction) (root : List String) (name : String) (w : World) (d : List String)
    (ht : GoodTask h t) (hd : callDepth t ≤ env.depth) (he : GoodEnv env d w.disk)
    (nodes : List (Int × List (Option Int))) (vectors : List (List ℚ))
    (ha : ∀ p, htmToPomdp env.solver env.exp nameRadix h env.depth t = .ok p → WritesPolicy env.mach p d nodes vectors)
    (hd1 : w.disk.dirs (policyFile root name).dir = false) :
    ∃ w' call, policyScript env h t root name w = (.error .osError, w') ∧ w'.calls = w.calls ++ [call] ∧ w'.disk = w.disk := by
  obtain ⟨he1, he2, he3, he4, he5, ⟨path, hpath⟩, he7, he8⟩ := he
  obtain ⟨p, nS, nA, nO, p1, p2, p3, p4, p5, p6⟩ := goodTask_pomdp path env.exp h env.depth t ht he7 hd
  rw [← hpath] at p1
  obtain ⟨text, htext⟩ := p6 env.mach.fmt env.mach.strNum
  obtain ⟨gp, g1, -⟩ := solve_ok env.mach p none (some 500) "grid" none none true w d he1 text htext nodes vectors (ha p p1)
  obtain ⟨c, x, f, c1, -⟩ := C96_call env.mach p none (some 500) "grid" none none true w d he1 text htext
  have hclean := C96_clean env.mach p none (some 500) "grid" none none true w he3 (by
    intro d' hd'
    rw [he1] at hd'
    cases hd'
    exact he2)
  have s1 : p.solve env.mach none (some 500) "grid" none none true w = (.ok gp, (p.solve env.mach none (some 500) "grid" none none true w).2) := Prod.ext g1 rfl
  refine ⟨_, (c, x), ?_, c1, hclean⟩
  unfold policyScript
  rw [M.bind_run]
  simp only [M.lift, p1]
  rw [M.bind_of_ok s1, M.bind_of_error (C96_no_directory env.policies gp (policyFile root name) none _ (by rw [hclean]; exact hd1))]

/-! ### The three scripts -/

theorem stool_goodTask : GoodTask icraParams stoolTask :=
  ⟨by simp [stoolTask, stoolSeq, mountCentral, mountLegs, releaseCentral, mountTop, stoolLeaf, Built, BuiltL],
    by simp [stoolTask, stoolSeq, mountCentral, mountLegs, releaseCentral, mountTop, stoolLeaf, HFull, HFullL], by decide +kernel, by unfold CAction.Prob; decide +kernel, rfl, rfl,
    by decide +kernel, by decide +kernel, by decide +kernel⟩

theorem chair_goodTask : GoodTask chairParams chairTask :=
  ⟨by simp [chairTask, stoolSeq, chairLeaf, stoolLeaf, Built, BuiltL], by simp [chairTask, stoolSeq, chairLeaf, stoolLeaf, HFull, HFullL],
    by decide +kernel, by unfold CAction.Prob; decide +kernel, rfl, rfl, by decide +kernel, by decide +kernel, by decide +kernel⟩

/-- The tree of the conversion of the chair. -/
def chairTree : N2P CAction :=
  .seq [.seq [.leaf (stoolAction "Get central frame" (100, 20, 30)), .leaf (stoolAction "Start Hold central frame" (3, 10, 100))],
    .seq [.seq [.leaf (stoolAction "Get left leg" (100, 20, 30)), .leaf (stoolAction "Snap left leg" (5, 100, 100))],
      .seq [.leaf (stoolAction "Get right leg" (100, 20, 30)), .leaf (stoolAction "Snap right leg" (5, 100, 100))]],
    .leaf (stoolAction "Release central frame" (100, 1, 1)),
    .seq [.leaf (stoolAction "Get top" (100, 20, 30)), .leaf (stoolAction "Snap top" (5, 100, 100))]]

theorem chairTree_eq (fuel : Nat) (hf : 4 ≤ fuel) : N2P.fromNode CAction.ops fuel chairTask = .ok chairTree := by
  obtain ⟨f, rfl⟩ := Nat.exists_eq_add_of_le hf
  rw [Nat.add_comm]
  rfl

/-- The start of a sequence of nine actions. -/
def nineStart : List ℚ := 1 :: List.replicate 27 0

theorem nine_model (path : String) (exp : ℚ → ℚ) (h : HtmParams) (fuel : Nat) (t : Htm CAction) (n : N2P CAction) (ht : GoodTask h t)
    (hd : callDepth t ≤ fuel) (hr : h.rewardState = false) (hn : N2P.fromNode CAction.ops fuel t = .ok n) (hl : n.leaves.length = 9)
    (hi : n.init 3 0 = [0]) (hst : n.start = [1]) (p : Pomdp) (hp : htmToPomdp (some path) exp nameRadix h fuel t = .ok p) :
    p.states.length = 28 ∧ p.actions.length = 37 ∧ p.observations = ["none", "yes", "no", "error"].map Name.str ∧ p.start = nineStart := by
  obtain ⟨n', h1', ⟨hfn, -, -⟩, h4⟩ := htmToPomdp_ok (some path) exp nameRadix h fuel t ht.1 ht.2.1 hd
  rw [hn] at h1'
  cases h1'
  rw [h4] at hp
  obtain ⟨_, _, _, _, est, _, es, ea, eo, _⟩ := htmConvert_ok path exp nameRadix h n hfn p hp
  have hN : htmNS h n = 28 := by unfold htmNS; rw [hr]; simp [hl]
  refine ⟨?_, ?_, ?_, ?_⟩
  · rw [es, htm_states_length, hN]
  · rw [ea, htm_actions_length, hl]
  · rw [eo]
    simp [htmObservations, hr, ht.2.2.2.2.2.1]
  · rw [est, hN, hi, hst]
    decide +kernel

theorem nine_even : evenStart nineStart = nineStart := by decide +kernel

/-- **C116** for `samples/icra_scenario2pomdp.py` (but the plots): the model has 28 states and 37 actions, and the tree is the one of its start. -/
theorem C116_stool_partial (env : ScriptEnv) (root : List String) (w : World) (d : List String) (hd : 4 ≤ env.depth) (he : GoodEnv env d w.disk)
    (nodes : List (Int × List (Option Int))) (vectors : List (List ℚ))
    (ha : ∀ p : Pomdp, p.start = nineStart → p.actions.length = 37 → p.observations.length = 4 → WritesPolicy env.mach p d nodes vectors)
    (hd1 : w.disk.dirs (root ++ ["visualization", "policy", "json"]) = true)
    (hd2 : w.disk.dirs (root ++ ["visualization", "trajectories", "json"]) = true) :
    ∃ p gp gp2 w', icraScript env root w = (.ok (p, gp, gp2), w') ∧ p.states.length = 28 ∧ p.actions.length = 37 ∧
      GraphPolicy.loadFromJson env.policies ⟨root ++ ["visualization", "policy", "json"], "icra.json"⟩ w' = (.ok gp, w') ∧ gp.values = vectors ∧
      (∃ text tree, w'.disk.files ⟨root ++ ["visualization", "trajectories", "json"], "trajectories.json"⟩ = some text ∧
        env.trees.loads text = .ok [tree] ∧ TreeOf gp p 28 10 nineStart (TTree.withBelief nineStart tree)) ∧
      GraphPolicy.loadFromJson env.policies ⟨root ++ ["visualization", "policy", "json"], "from_beliefs.json"⟩ w' = (.ok gp2, w') ∧
      ∀ b ∈ gp2.values, Reached gp p 28 b := by
  have hcd : callDepth stoolTask ≤ env.depth := le_trans (by decide) hd
  obtain ⟨path, hpath⟩ := he.2.2.2.2.2.1
  have hm : ∀ p, htmToPomdp env.solver env.exp nameRadix icraParams env.depth stoolTask = .ok p → _ := fun p hp =>
    nine_model path env.exp icraParams env.depth stoolTask stoolTree stool_goodTask hcd rfl (stoolTree_eq env.depth hd) rfl (by decide) (by decide +kernel) p
      (hpath ▸ hp)
  obtain ⟨p, gp, gp2, w', nS, nA, nO, s1, s2, s3, s4, _, s6, _, _, _, s10, _, ⟨text, tree, t1, t2, _, t4⟩, s13, _, _, _, _, s18, _⟩ :=
    C116_files_partial env icraParams stoolTask root "icra.json" w d stool_goodTask hcd he (by decide) nodes vectors
      (fun p hp => ha p (hm p hp).2.2.2 (hm p hp).2.1 (by rw [(hm p hp).2.2.1]; rfl)) hd1 hd2
  obtain ⟨m1, m2, m3, m4⟩ := hm p s2
  have hnS : nS = 28 := by rw [← m1, s3.1.1]
  subst hnS
  rw [m4, nine_even] at t4
  exact ⟨p, gp, gp2, w', s1, m1, m2, s6, s10, ⟨text, tree, t1, t2, t4⟩, s13, fun b hb => (s18 b hb).2⟩

/-- **C116** for `samples/htm2pomdp.py` (but the plots). -/
theorem C116_chair_partial (env : ScriptEnv) (root : List String) (w : World) (d : List String) (hd : 4 ≤ env.depth) (he : GoodEnv env d w.disk)
    (nodes : List (Int × List (Option Int))) (vectors : List (List ℚ))
    (ha : ∀ p : Pomdp, p.start = nineStart → p.actions.length = 37 → p.observations.length = 4 → WritesPolicy env.mach p d nodes vectors)
    (hd1 : w.disk.dirs (root ++ ["visualization", "policy", "json"]) = true)
    (hd2 : w.disk.dirs (root ++ ["visualization", "trajectories", "json"]) = true) :
    ∃ p gp gp2 w', chairScript env root w = (.ok (p, gp, gp2), w') ∧ p.states.length = 28 ∧ p.actions.length = 37 ∧
      GraphPolicy.loadFromJson env.policies ⟨root ++ ["visualization", "policy", "json"], "test.json"⟩ w' = (.ok gp, w') ∧ gp.values = vectors ∧
      (∃ text tree, w'.disk.files ⟨root ++ ["visualization", "trajectories", "json"], "trajectories.json"⟩ = some text ∧
        env.trees.loads text = .ok [tree] ∧ TreeOf gp p 28 10 nineStart (TTree.withBelief nineStart tree)) ∧
      GraphPolicy.loadFromJson env.policies ⟨root ++ ["visualization", "policy", "json"], "from_beliefs.json"⟩ w' = (.ok gp2, w') ∧
      ∀ b ∈ gp2.values, Reached gp p 28 b := by
  have hcd : callDepth chairTask ≤ env.depth := le_trans (by decide) hd
  obtain ⟨path, hpath⟩ := he.2.2.2.2.2.1
  have hm : ∀ p, htmToPomdp env.solver env.exp nameRadix chairParams env.depth chairTask = .ok p → _ := fun p hp =>
    nine_model path env.exp chairParams env.depth chairTask chairTree chair_goodTask hcd rfl (chairTree_eq env.depth hd) rfl (by decide) (by decide +kernel) p
      (hpath ▸ hp)
  obtain ⟨p, gp, gp2, w', nS, nA, nO, s1, s2, s3, s4, _, s6, _, _, _, s10, _, ⟨text, tree, t1, t2, _, t4⟩, s13, _, _, _, _, s18, _⟩ :=
    C116_files_partial env chairParams chairTask root "test.json" w d chair_goodTask hcd he (by decide) nodes vectors
      (fun p hp => ha p (hm p hp).2.2.2 (hm p hp).2.1 (by rw [(hm p hp).2.2.1]; rfl)) hd1 hd2
  obtain ⟨m1, m2, m3, m4⟩ := hm p s2
  have hnS : nS = 28 := by rw [← m1, s3.1.1]
  subst hnS
  rw [m4, nine_even] at t4
  exact ⟨p, gp, gp2, w', s1, m1, m2, s6, s10, ⟨text, tree, t1, t2, t4⟩, s13, fun b hb => (s18 b hb).2⟩

/-- **C116 is false for the costs of `samples/htm2pomdp.py`**: `C_INTR` is 1, but no action has an intrinsic cost: acting when the task is ended costs nothing.
(In `samples/icra_scenario2pomdp.py` it costs 1.) The value goes to the duration of telling the intention. -/
theorem C116_false_interruption (path : String) (exp : ℚ → ℚ) (fuel : Nat) (hd : 4 ≤ fuel) :
    (∃ p, htmToPomdp (some path) exp nameRadix chairParams fuel chairTask = .ok p ∧ p.states[27]? = some (.str "end") ∧
      ∀ x z o, 0 < x → p.R.at_ x 27 z o = 0) ∧
    ∃ p, htmToPomdp (some path) exp nameRadix icraParams fuel stoolTask = .ok p ∧ p.states[27]? = some (.str "end") ∧
      ∀ x z o, 0 < x → p.R.at_ x 27 z o = -1 := by
  constructor
  · have hcd : callDepth chairTask ≤ fuel := le_trans (by decide) hd
    obtain ⟨p, hp, -, -⟩ := (C99_accepted path exp chairParams fuel chairTask chair_goodTask.1 chair_goodTask.2.1 hcd rfl rfl).1 chair_goodTask.2.2.1
    obtain ⟨n, h1, _, h2, _⟩ := C34_costs path exp nameRadix chairParams fuel chairTask chair_goodTask.1 chair_goodTask.2.1 hcd p hp
    rw [chairTree_eq fuel hd] at h1
    cases h1
    refine ⟨p, hp, ?_, fun x z o hx => ?_⟩
    · obtain ⟨n', h1', ⟨hfn, -, -⟩, h4⟩ := htmToPomdp_ok (some path) exp nameRadix chairParams fuel chairTask chair_goodTask.1 chair_goodTask.2.1 hcd
      rw [chairTree_eq fuel hd] at h1'
      cases h1'
      rw [h4] at hp
      obtain ⟨_, _, _, _, _, _, es, _⟩ := htmConvert_ok path exp nameRadix chairParams chairTree hfn p hp
      rw [es]
      rfl
    · have := h2 x z o rfl
      rw [if_neg (by omega)] at this
      exact this.trans (by simp [chairParams])
  · have hcd : callDepth stoolTask ≤ fuel := le_trans (by decide) hd
    obtain ⟨p, hp, -, -⟩ := (C99_accepted path exp icraParams fuel stoolTask stool_goodTask.1 stool_goodTask.2.1 hcd rfl rfl).1 stool_goodTask.2.2.1
    obtain ⟨n, h1, _, h2, _⟩ := C34_costs path exp nameRadix icraParams fuel stoolTask stool_goodTask.1 stool_goodTask.2.1 hcd p hp
    rw [stoolTree_eq fuel hd] at h1
    cases h1
    refine ⟨p, hp, ?_, fun x z o hx => ?_⟩
    · obtain ⟨n', h1', ⟨hfn, -, -⟩, h4⟩ := htmToPomdp_ok (some path) exp nameRadix icraParams fuel stoolTask stool_goodTask.1 stool_goodTask.2.1 hcd
      rw [stoolTree_eq fuel hd] at h1'
      cases h1'
      rw [h4] at hp
      obtain ⟨_, _, _, _, _, _, es, _⟩ := htmConvert_ok path exp nameRadix icraParams stoolTree hfn p hp
      rw [es]
      rfl
    · have := h2 x z o rfl
      rw [if_neg (by omega)] at this
      exact this.trans (by simp [icraParams])

/-- **C116 is false for `samples/tower_scenario.py`**: it cannot be run, `ImportError` is raised by its imports, whatever follows. -/
theorem C116_false_tower {α : Type} (rest : M World α) (w : World) : towerScript rest w = (.error .importError, w) := rfl

/-! ### Non-vacuity -/

/-- The vectors of a policy with one node for 28 states. -/
def waitAlpha : List Char := ['0', '\n', '1', ' ', '2', '\n', '\n']

/-- The graph of this policy: always `wait`. -/
def waitGraph : List Char := ['0', ' ', '0', ' ', ' ', '0', ' ', '0', ' ', '0', ' ', '0', ' ', '\n']

/-- A solver that always writes this policy. -/
def waitSolver (c : Call) (x : Disk) : Py Int × Disk :=
  (.ok 0, (x.write ⟨c.cwd, (optionIn c.args "-o").getD "" ++ ".alpha"⟩ waitAlpha).write ⟨c.cwd, (optionIn c.args "-o").getD "" ++ ".pg"⟩ waitGraph)

/-- A machine with this solver. -/
def waitMachine : Machine := ⟨waitSolver, .ok ["tmp", "abc"], 7, fun _ => List.replicate 28 1, fun _ => "0.5", fun _ => "1"⟩

theorem waitMachine_answers (p : Pomdp) (h1 : p.start = nineStart) (h2 : p.actions.length = 37) (h3 : p.observations.length = 4) :
    WritesPolicy waitMachine p ["tmp", "abc"] [(0, [some 0, some 0, some 0, some 0])] [List.replicate 28 1] := by
  refine ⟨[(['0', '\n'], ['1', ' ', '2', '\n'])], waitAlpha, waitGraph, [['0', '\n'], ['1', ' ', '2', '\n'], ['\n']], [waitGraph], ?_, ⟨rfl, ?_⟩, ⟨rfl, ?_⟩,
    (.line (fun h => absurd (h.2 '0' (by simp)) (by decide)) (.line (fun h => absurd (h.2 '1' (by simp)) (by decide))
      (.blank (by simp) (by unfold Blank; decide) .nil))),
    (.cons ⟨[], ['\n'], by unfold Blank; decide, by unfold Blank; decide, by decide⟩ .nil), rfl, ?_, ⟨rfl, ?_⟩, ?_, ?_, ?_,
    ⟨_, List.mem_singleton.2 rfl, 0, by simp⟩⟩
  · intro c x o e1 e2
    rw [← e1]
    refine ⟨rfl, ?_, ?_⟩
    · show (waitSolver c x).2.files _ = _
      unfold waitSolver
      rw [e2, Option.getD_some, write_other, write_same]
      intro he
      injection he with _ he
      have := (String.append_right_inj o).1 he
      exact absurd this (by decide +kernel)
    · show (waitSolver c x).2.files _ = _
      unfold waitSolver
      rw [e2, Option.getD_some, write_same]
  · intro i l h
    match i with
    | 0 => injection h with h; exact ⟨['0'], by decide, Or.inl h.symm⟩
    | 1 => injection h with h; exact ⟨['1', ' ', '2'], by decide, Or.inl h.symm⟩
    | 2 => injection h with h; exact ⟨[], by decide, Or.inl h.symm⟩
    | i + 3 => cases h
  · intro i l h
    match i with
    | 0 => injection h with h; exact ⟨['0', ' ', '0', ' ', ' ', '0', ' ', '0', ' ', '0', ' ', '0', ' '], by decide, Or.inl h.symm⟩
    | i + 1 => cases h
  · intro v hv
    simp at hv
    subst hv
    rw [h1]
    rfl
  · intro i a ts h
    match i with
    | 0 =>
        injection h with h
        injection h with h1 h2
        subst h1 h2
        exact ⟨[' ', '\n'], by unfold Blank; decide, by decide +kernel⟩
    | i + 1 => cases h
  · intro x hx
    simp at hx
    subst hx
    simp [h2]
  · intro x hx
    simp at hx
    subst hx
    rw [h3]
    rfl
  · intro x hx j hj
    simp at hx
    subst hx
    simp at hj
    subst hj
    simp

theorem waitMachine_inside : StaysInside waitMachine.solver := by
  intro c x
  refine ⟨fun e _ => rfl, fun f hf => ?_⟩
  have h : ∀ n, f ≠ ⟨c.cwd, n⟩ := fun n h => hf (by rw [h]; exact below_self c.cwd)
  show (waitSolver c x).2.files f = _
  unfold waitSolver
  rw [write_other _ _ _ _ (h _), write_other _ _ _ _ (h _)]

/-- A disk with the directories of the repository. -/
def repoDisk : Disk := ⟨fun e => e.head? = some "repo", fun _ => none⟩

theorem repoDisk_fresh : NoSuchDir repoDisk ["tmp", "abc"] := by
  refine ⟨?_, fun _ _ => rfl⟩
  rintro e ⟨l, rfl⟩
  simp [repoDisk]

/-- Non-vacuity of C116: with any encoders, the script of the stool runs on a machine. -/
example (policies : Json GraphDict) (trees : Json (List TTree)) (h1 : ∀ i x, policies.loads (policies.dumps i x) = .ok x)
    (h2 : ∀ i x, trees.loads (trees.dumps i x) = .ok x) :
    ∃ r w', icraScript ⟨waitMachine, policies, trees, some "pomdp-solve", fun _ => 1 / 2, 10, 200⟩ ["repo"] ⟨repoDisk, []⟩ = (.ok r, w') := by
  obtain ⟨p, gp, gp2, w', h, _⟩ := C116_stool_partial ⟨waitMachine, policies, trees, some "pomdp-solve", fun _ => 1 / 2, 10, 200⟩ ["repo"] ⟨repoDisk, []⟩
    ["tmp", "abc"] (show 4 ≤ 10 by decide) ⟨rfl, repoDisk_fresh, waitMachine_inside, h1, h2, ⟨_, rfl⟩, fun _ _ => by norm_num, show 106 ≤ 200 by decide⟩
    [(0, [some 0, some 0, some 0, some 0])] [List.replicate 28 1] waitMachine_answers (by simp [repoDisk]) (by simp [repoDisk])
  exact ⟨_, w', h⟩

end Verif
