import Verif.Model.TowerScript
import Verif.Props.Script
import Verif.Props.Tower

/-! Property C116 for `samples/tower_scenario.py` with its import corrected. -/

set_option linter.unusedSectionVars false
set_option linter.unusedSimpArgs false

namespace Verif
open Verif.Spec N2P

/-- **C116**, for any model and any options of the solver that the scripts use: for every well-formed model and every solver that writes a policy, the end of
a script runs without exception, after a single call of the solver.  The three files load back as in `C116_files_partial`. -/
theorem C116_model_partial (env : ScriptEnv) (p : Pomdp) (nS nA nO : Nat) (iterations : Int) (gridType : Option String) (root : List String) (name : String)
    (w : World) (d : List String) (p2 : Stochastic p nS nA nO) (p3 : NamesDistinct p) (p4 : IsDist nS p.start) (p5 : nO ≤ 5)
    (p6 : ∀ fmt strNum, ∃ text, p.dump fmt strNum = .ok text) (he : GoodEnv env d w.disk) (hname : name ≠ "from_beliefs.json")
    (nodes : List (Int × List (Option Int))) (vectors : List (List ℚ)) (ha : WritesPolicy env.mach p d nodes vectors)
    (hd1 : w.disk.dirs (policyFile root name).dir = true) (hd2 : w.disk.dirs (trajectoryFile root).dir = true) :
    ∃ (gp gp2 : GraphPolicy) (w' : World), solveAndSave env p iterations gridType root name w = (.ok (gp, gp2), w') ∧
      -- the call of the solver
      (∃ (c : Call) (x : Disk) (f : FilePath) (text : String), w'.calls = w.calls ++ [(c, x)] ∧ c.program = p.solverPath ∧ c.cwd = d ∧
        optionIn c.args "-horizon" = some (String.ofList (showInt iterations)) ∧ optionIn c.args "-method" = some "grid" ∧
        optionIn c.args "-fg_type" = some (gridType.getD "simplex") ∧
        optionIn c.args "-time_limit" = none ∧ optionIn c.args "-pomdp" = some f.text ∧
        p.dump env.mach.fmt env.mach.strNum = .ok text ∧ x.files f = some text.toList) ∧
      -- the policy of the solver
      GraphPolicy.loadFromJson env.policies (policyFile root name) w' = (.ok gp, w') ∧
      List.Forall₂ (fun x n => p.actions[x.1.toNat]? = some n) nodes gp.actions ∧ gp.observations = p.observations ∧
      gp.transitions = nodes.map Prod.snd ∧ gp.values = vectors ∧ (∃ n : Nat, gp.init = n ∧ BestNode gp.values p.start n) ∧
      -- the tree
      (∃ text tree, w'.disk.files (trajectoryFile root) = some text ∧ env.trees.loads text = .ok [tree] ∧
        (∀ i < nS, (TTree.beliefOf tree).getD i 0 = if p.start.getD i 0 = 0 then 0 else 1) ∧
        TreeOf gp p nS 10 (evenStart p.start) (TTree.withBelief (evenStart p.start) tree)) ∧
      -- the policy on the beliefs
      GraphPolicy.loadFromJson env.policies (policyFile root "from_beliefs.json") w' = (.ok gp2, w') ∧
      gp2.observations = p.observations ∧ gp2.init = 0 ∧ gp2.values[0]? = some p.start ∧ gp2.values.length ≤ 105 ∧
      (∀ b ∈ gp2.values, IsDist nS b ∧ Reached gp p nS b) ∧
      (∀ (i : Nat) (b : List ℚ), gp2.values[i]? = some b → ∃ act, gp2.actions[i]? = some act ∧ PolicyAction gp b act) ∧
      (∀ (i io : Nat) (b : List ℚ) (j : Int), gp2.values[i]? = some b → entry gp2.transitions i io = some j →
        ∃ (n : Nat) (c b' : List ℚ), j = n ∧ gp2.values[n]? = some c ∧ PolicyPosterior gp p nS b io b' ∧ distSq nS c b' < (1 / 100) ^ 2) ∧
      -- the rest of the disk
      w'.disk.dirs = w.disk.dirs ∧ ∀ f, f ≠ policyFile root name → f ≠ trajectoryFile root → f ≠ policyFile root "from_beliefs.json" →
        w'.disk.files f = w.disk.files f := by
  obtain ⟨he1, he2, he3, he4, he5, he6, he7, he8⟩ := he
  obtain ⟨text, htext⟩ := p6 env.mach.fmt env.mach.strNum
  obtain ⟨gp, g1, g2, g3, g4, g5, g6, g7, g8⟩ := solve_ok env.mach p none (some iterations) "grid" gridType none true w d he1 text htext nodes vectors ha
  obtain ⟨c, x, f, c1, c2, c3, c4, c5, c6, c7, c8, c9, c10, c11, c12, c13, c14⟩ := C96_call env.mach p none (some iterations) "grid" gridType none true w d he1 text htext
  have hclean := C96_clean env.mach p none (some iterations) "grid" gridType none true w he3 (by
    intro d' hd'
    rw [he1] at hd'
    cases hd'
    exact he2)
  have hlen : p.start.length = nS := p4.1
  rw [hlen] at g7
  set w1 := (p.solve env.mach none (some iterations) "grid" gridType none true w).2 with hw1
  have s1 : p.solve env.mach none (some iterations) "grid" gridType none true w = (.ok gp, w1) := Prod.ext g1 rfl
  obtain ⟨w2, text2, s2, a2, b2, i2, k2, l2⟩ := saveAsJson_ok env.policies he4 gp g8 (policyFile root name) none w1 (by rw [hclean]; exact hd1)
  obtain ⟨r, r1, r2, r3⟩ := C46_start gp p nS g7 p4 ⟨[], 0⟩
  have s3 : newBeliefRunner gp p = .ok r := by unfold newBeliefRunner; rw [r1]
  have hsome : ∃ y ∈ p.start, y ≠ 0 := by
    by_contra hc
    push Not at hc
    have h0 : sumRange nS (fun i => p.start.getD i 0) = sumRange nS (fun _ => 0) := sumRange_congr _ _ _ (fun i hi => by
      have hi' : i < p.start.length := by omega
      show p.start.getD i 0 = 0
      rw [List.getD_eq_getElem?_getD, List.getElem?_eq_getElem hi', Option.getD_some]
      exact hc _ (List.getElem_mem hi'))
    rw [p4.2.2] at h0
    simp [sumRange] at h0
  obtain ⟨tree, r', t1, t2, t3, t4⟩ := C48_several_partial gp p nS nA nO p2 g7 p3 hsome 10 r
  obtain ⟨w3, s4, a3, b3, i3, k3⟩ := saveTrajectories_ok env.trees gp p 10 (trajectoryFile root) (some 2) r r' [tree] t1 w2 (by rw [b2, hclean]; exact hd2)
  obtain ⟨q, y, v0, v1, v2, v3, v4, v5, v6, v7, v8, v9, v10, _⟩ := C49_visit gp p nS nA nO p2 g7 p3 p4 100
  have hv := v0 env.fuel (by omega)
  have s5 : visitPolicy gp p 100 env.fuel = .ok q := by unfold visitPolicy; rw [hv]; rfl
  have hreach := visit_reached gp p nS nA nO p2 g7 p3 p4 hv
  obtain ⟨w4, text4, s6, a4, b4, i4, k4, l4⟩ := saveAsJson_ok env.policies he4 q (visit_fromDict hv) (policyFile root "from_beliefs.json") none w3 (by
    rw [b3, b2, hclean]; exact hd1)
  have n1 : policyFile root name ≠ policyFile root "from_beliefs.json" := by
    intro hc
    injection hc with _ hc
    exact hname hc
  have n2 : ∀ m, policyFile root m ≠ trajectoryFile root := by
    intro m hc
    injection hc with hc _
    have := List.append_cancel_left hc
    simp at this
  refine ⟨gp, q, w4, ?_, ⟨c, x, f, text, ?_, c2, c3, c6, (c9 rfl).1, ?_, c5, c11, htext, c13⟩, ?_, g2, g3, g4, g5, g6,
    ⟨env.trees.dumps (some 2) [tree], tree, ?_, he5 (some 2) _, t2, t4⟩, l4 w4 a4, v1, v2, v3, ?_, fun b hb => ⟨v7 b hb, hreach b hb⟩, v9, v10, ?_, ?_⟩
  · unfold solveAndSave
    rw [M.bind_of_ok s1, M.bind_of_ok s2, M.bind_run]
    simp only [M.lift, s3]
    rw [M.bind_of_ok s4, M.bind_run]
    simp only [M.lift, s5]
    rw [M.bind_of_ok s6]
    rfl
  · rw [k4, k3, k2]
    exact c1
  · cases hgt : gridType with
    | none => exact (c9 rfl).2.2 hgt
    | some g => exact (c9 rfl).2.1 g hgt
  · exact l2 w4 (by rw [i4 _ n1, i3 _ (n2 name)]; exact a2)
  · rw [i4 _ (n2 _).symm]
    exact a3
  · omega
  · rw [b4, b3, b2, hclean]
  · intro e e1 e2 e3
    rw [i4 e e3, i3 e e2, i2 e e1, hclean]

/-! ### The model -/

/-- The task of the script. -/
def mediumTask : Htm BAction :=
  .comb .alternative ((mediumOrders.zip mediumNames).map towerSeqNode) none none "Alt" false (some (List.replicate 6 (1 / 6)))

theorem mediumTask_eq : towerTask mediumOrders (some mediumNames) = .ok mediumTask := by
  have := towerTask_eq mediumOrders (some mediumNames) (mediumOrders.zip mediumNames) rfl (by decide)
  rw [this]
  unfold mediumTask
  have : (mediumOrders.zip mediumNames).length = 6 := by decide
  rw [this]
  norm_num

/-- The tree of the conversion of this task. -/
def mediumTree : N2P BAction :=
  .alt ((mediumOrders.zip mediumNames).map fun on => .seq (on.1.map fun i => .leaf ⟨pyStr i ++ ("-" ++ on.2), some (pyStr i)⟩))

theorem mediumTree_eq (fuel : Nat) (hf : 3 ≤ fuel) : bnFromNode fuel mediumTask = .ok mediumTree := by
  obtain ⟨f, rfl⟩ := Nat.exists_eq_add_of_le hf
  rw [Nat.add_comm]
  rfl

/-- The start of the model: the first part of each of the six orders. -/
def mediumStart : List ℚ := (List.range 37).map fun s => if s % 6 = 0 ∧ s < 36 then 1 / 6 else 0

theorem medium_shape : Built mediumTask ∧ HFull mediumTask ∧ callDepth mediumTask ≤ 3 ∧ ParFree mediumTask := by
  have := tower_shape (mediumOrders.zip mediumNames) (by decide) (by decide) (List.replicate 6 (1 / 6))
    (by have := isDistrib_uniform 6 (by decide); norm_num at this ⊢; exact this) "Alt"
  exact this

theorem medium_objects : HasObjects mediumTask := by
  obtain ⟨hl, -⟩ := C67_executions mediumTask_eq
  intro a ha
  rw [hl] at ha
  obtain ⟨on, -, ha⟩ := List.mem_flatMap.1 ha
  obtain ⟨i, -, rfl⟩ := List.mem_map.1 ha
  exact ⟨_, rfl⟩

theorem medium_declared : Declared towerParams.objects mediumTask := by
  obtain ⟨hl, -⟩ := C67_executions mediumTask_eq
  intro a ha o hao
  rw [hl] at ha
  obtain ⟨on, hon, ha⟩ := List.mem_flatMap.1 ha
  obtain ⟨i, hi, rfl⟩ := List.mem_map.1 ha
  cases hao
  have h6 : ∀ on ∈ mediumOrders.zip (towerNames mediumOrders (some mediumNames)), ∀ i ∈ on.1, i < 6 := by decide +kernel
  exact List.mem_map.2 ⟨i, List.mem_range.2 (h6 on hon i hi), rfl⟩

theorem medium_full : Full mediumTree := by
  obtain ⟨hb, hf, hd, hp⟩ := medium_shape
  obtain ⟨n, h1, h2, -⟩ := (bnFromNode_spec 3 mediumTask hb hf hd).1 ⟨hp, medium_objects⟩
  rw [mediumTree_eq 3 le_rfl] at h1
  cases h1
  exact h2

/-- What the conversion writes for each leaf: the part that is brought, the states that come next and their probabilities. -/
theorem medium_ctxs : (rootCtxs 1 0 0 mediumTree 36).map (fun c => (getIdx towerParams c.act, c.next, c.probas)) =
    (List.range 36).map fun k => (mediumOrders.flatten.getD k 0, [if k % 6 = 5 then 36 else k + 1], [(1 : ℚ)]) := by
  decide +kernel

/-- The six orders of the script. -/
def sixOrders : List (List Nat) :=
  [[2, 0, 4, 3, 1, 5], [2, 4, 0, 3, 5, 1], [0, 1, 2, 3, 4, 5], [0, 1, 4, 5, 2, 3], [2, 3, 0, 1, 4, 5], [2, 3, 4, 5, 0, 1]]

/-- What the conversion writes for the place `j` of the order `k`, whose state is `6 k + j`. -/
theorem medium_place (k j i : Nat) (o : List Nat) (ho : sixOrders[k]? = some o) (hi : o[j]? = some i) :
    k < 6 ∧ j < 6 ∧ i < 6 ∧ (mediumTree.leaves[6 * k + j]?.map BAction.obj) = some (some (pyStr i)) ∧
    ∃ c, (rootCtxs 1 0 0 mediumTree mediumTree.leaves.length)[6 * k + j]? = some c ∧ getIdx towerParams c.act = i ∧
      ctxDist c = stay (if j = 5 then 36 else 6 * k + j + 1) := by
  have hall : (∀ k < 6, ∀ j < 6, (sixOrders[k]?.bind fun o => o[j]?) = some (mediumOrders.flatten.getD (6 * k + j) 0) ∧
      mediumOrders.flatten.getD (6 * k + j) 0 < 6 ∧
      (mediumTree.leaves[6 * k + j]?.map BAction.obj) = some (some (pyStr (mediumOrders.flatten.getD (6 * k + j) 0)))) ∧
      ∀ o ∈ sixOrders, o.length = 6 := by
    decide +kernel
  have hk : k < 6 := (List.getElem?_eq_some_iff.1 ho).1
  have hj : j < 6 := by
    have := (List.getElem?_eq_some_iff.1 hi).1
    rwa [hall.2 o (List.mem_of_getElem? ho)] at this
  obtain ⟨hi', h6, hob⟩ := hall.1 k hk j hj
  rw [ho] at hi'
  have hi'' : i = mediumOrders.flatten.getD (6 * k + j) 0 := by
    have : o[j]? = some (mediumOrders.flatten.getD (6 * k + j) 0) := hi'
    rw [hi] at this
    exact Option.some.inj this
  rw [← hi''] at h6 hob
  have hleaves : mediumTree.leaves.length = 36 := by decide +kernel
  obtain ⟨c, hc⟩ := root_exists (w := 1) (wa := 0) (a := 0) (n := mediumTree) (fin := mediumTree.leaves.length) (k := 6 * k + j) (by rw [hleaves]; omega)
  refine ⟨hk, hj, h6, hob, c, hc, ?_⟩
  rw [hleaves] at hc
  have h1 := congrArg (fun l => l[6 * k + j]?) medium_ctxs
  simp only [List.getElem?_map, hc, Option.map_some] at h1
  rw [List.getElem?_range (by omega)] at h1
  simp only [Option.map_some, Option.some.injEq, Prod.mk.injEq] at h1
  obtain ⟨e1, e2, e3⟩ := h1
  have hm : (6 * k + j) % 6 = 5 ↔ j = 5 := by omega
  refine ⟨by rw [e1, ← hi''], ?_⟩
  funext z
  unfold ctxDist
  rw [e2, e3]
  simp only [hm]
  simp only [scatter, stay]

/-- A state is left by bringing the part. -/
theorem medium_T (x k j i : Nat) (o : List Nat) (ho : sixOrders[k]? = some o) (hi : o[j]? = some i) :
    bnTArr towerParams mediumTree x (6 * k + j) = if x = i then stay (if j = 5 then 36 else 6 * k + j + 1) else stay (6 * k + j) := by
  obtain ⟨-, -, -, -, c, hc, e1, e2⟩ := medium_place k j i o ho hi
  rw [bnT_leaf towerParams medium_full hc, e1, e2]

/-- The state that comes next. -/
theorem medium_next (k j i : Nat) (o : List Nat) (ho : sixOrders[k]? = some o) (hi : o[j]? = some i) (z : Nat) :
    IsNext 1 mediumTree 36 (6 * k + j) z ↔ z = if j = 5 then 36 else 6 * k + j + 1 := by
  obtain ⟨-, -, -, -, c, hc, e1, e2⟩ := medium_place k j i o ho hi
  have hleaves : mediumTree.leaves.length = 36 := by decide +kernel
  obtain ⟨_, q2, _⟩ := ctxDist_next (w := 1) (by omega) medium_full (by simp [N2P.size]) hc (Nat.lt_succ_self _)
  have := q2 z
  rw [e2, hleaves] at this
  rw [← this]
  generalize (if j = 5 then 36 else 6 * k + j + 1) = y
  unfold stay
  by_cases h : z = y <;> simp [h]

/-- The costs and the answers of the model: bringing the part that comes next in the order costs 8, and bringing the last one gives 50; bringing another part costs 5,
asking for any part costs 2; the answer is yes for the part that comes next; nothing costs anything at the end, and there is no discount. -/
def TowerCosts (p : Pomdp) : Prop :=
  (∀ (k j i : Nat) (o : List Nat), sixOrders[k]? = some o → o[j]? = some i → ∀ w,
    p.R.at_ i (6 * k + j) (if j = 5 then 36 else 6 * k + j + 1) w = (if j = 5 then 50 - 8 else - 8) ∧
    ∀ i' < 6, (i' ≠ i → p.R.at_ i' (6 * k + j) (6 * k + j) w = - 5) ∧ p.R.at_ (6 + i') (6 * k + j) (6 * k + j) w = - 2 ∧
      ∀ z < 4, p.O.at_ (6 + i') (6 * k + j) z = stay (if i' = i then 1 else 2) z) ∧
  (∀ i < 12, ∀ w, p.R.at_ i 36 36 w = 0) ∧ p.discount = 1

theorem medium_costs (path : String) (fuel : Nat) (hf : 3 ≤ fuel) (p : Pomdp) (hp : bnToPomdp (some path) nameRadix towerParams fuel mediumTask = .ok p) :
    TowerCosts p := by
  obtain ⟨hb, hfu, hd, -⟩ := medium_shape
  obtain ⟨n, h1, -, -, h4⟩ := C72_observations_costs path nameRadix towerParams fuel mediumTask hb hfu (hd.trans hf) p hp
  rw [mediumTree_eq fuel hf] at h1
  cases h1
  have hleaves : mediumTree.leaves.length = 36 := by decide +kernel
  have hlen : towerParams.objects.length = 6 := by decide +kernel
  have hobj : ∀ i < 6, towerParams.objects[i]? = some (pyStr i) := by decide +kernel
  rw [hleaves, hlen] at h4
  refine ⟨fun k j i o ho hi w => ?_, fun i hi w => ?_, ?_⟩
  · obtain ⟨hk, hj, h6, hob, -⟩ := medium_place k j i o ho hi
    have hnext := medium_next k j i o ho hi
    obtain ⟨c, hc, hco⟩ := Option.map_eq_some_iff.1 hob
    have hy : 6 * k + j < 36 := by omega
    have hif : ∀ i', (∃ c, mediumTree.leaves[6 * k + j]? = some c ∧ c.obj = some (pyStr i')) ↔ i' = i := by
      intro i'
      constructor
      · rintro ⟨c', e1, e2⟩
        rw [hc] at e1
        cases e1
        rw [hco] at e2
        exact (pyStr_inj (Option.some.inj e2)).symm
      · rintro rfl
        exact ⟨c, hc, hco⟩
    constructor
    · obtain ⟨_, _, _, _, a5, _⟩ := h4 i _ (hobj i h6)
      rw [(a5 _ hy (if j = 5 then 36 else 6 * k + j + 1) w).1 ⟨(hif i).2 rfl, (hnext _).2 rfl⟩]
      by_cases h5 : j = 5
      · simp [h5, towerParams]
      · have : ¬ 6 * k + j + 1 = 36 := by omega
        simp [h5, this, towerParams]
    · intro i' hi'
      obtain ⟨_, _, _, a4, a5, _⟩ := h4 i' _ (hobj i' hi')
      obtain ⟨-, b2, b3⟩ := a5 _ hy (6 * k + j) w
      have hne : ¬ 6 * k + j = 36 := by omega
      refine ⟨fun hii => ?_, ?_, fun z hz => ?_⟩
      · rw [b2 (fun h => hii ((hif i').1 h.1))]
        simp [hne, towerParams]
      · rw [b3]
        simp [hne, towerParams]
      · by_cases hii : i' = i
        · rw [(a4 _).1 ((hif i').2 hii) z hz, if_pos hii]
          interval_cases z <;> simp [towerParams, stay]
        · rw [(a4 _).2 (fun h => hii ((hif i').1 h)) z hz, if_neg hii]
          interval_cases z <;> simp [towerParams, stay]
  · by_cases h6 : i < 6
    · obtain ⟨_, _, _, _, _, _, a7⟩ := h4 i _ (hobj i h6)
      exact (a7 w rfl).1
    · obtain ⟨j, rfl⟩ := Nat.exists_eq_add_of_le (by omega : 6 ≤ i)
      obtain ⟨_, _, _, _, _, _, a7⟩ := h4 j _ (hobj j (by omega))
      exact (a7 w rfl).2
  · exact (C72_discount path nameRadix towerParams fuel mediumTask hb hfu (hd.trans hf) p hp).2.2.1 rfl rfl

theorem medium_accepted (path : String) (fuel : Nat) (hf : 3 ≤ fuel) : ∃ p, bnToPomdp (some path) nameRadix towerParams fuel mediumTask = .ok p ∧
    Stochastic p 37 12 4 ∧ NamesDistinct p ∧ IsDist 37 p.start ∧ (∀ fmt strNum, ∃ text, p.dump fmt strNum = .ok text) ∧ p.solverPath = path ∧
    p.start = mediumStart ∧ p.actions = ["get-0", "get-1", "get-2", "get-3", "get-4", "get-5", "ask-0", "ask-1", "ask-2", "ask-3", "ask-4", "ask-5"].map Name.str ∧
    (∀ x k j i o, sixOrders[k]? = some o → o[j]? = some i →
      p.T.at_ x (6 * k + j) = if x = i then stay (if j = 5 then 36 else 6 * k + j + 1) else stay (6 * k + j)) ∧
    (∀ x, p.T.at_ x 36 = stay 36) ∧ TowerCosts p := by
  obtain ⟨hb, hfu, hd, hp⟩ := medium_shape
  have hleaves : mediumTree.leaves.length = 36 := by decide +kernel
  obtain ⟨p, hp1⟩ := (C67_accepts_orders sampleTower path towerParams rfl fuel hf mediumTask_eq (by decide +kernel)).2
    ⟨by decide +kernel, by decide +kernel, by decide +kernel⟩
  obtain ⟨nS, nA, nO, e1, rfl, rfl, rfl, e5, e6, e7⟩ := ((C35_bring_next path nameRadix towerParams fuel mediumTask hb hfu (hd.trans hf)).2 hp medium_objects).2.2 p hp1
  obtain ⟨n, g1, g2, g3, -⟩ := (bnFromNode_spec fuel mediumTask hb hfu (hd.trans hf)).1 ⟨hp, medium_objects⟩
  rw [mediumTree_eq fuel hf] at g1
  cases g1
  have hl : (Spec.leaves mediumTask).length = 36 := by rw [← g3, hleaves]
  have ho : towerParams.objects.length = 6 := by decide +kernel
  rw [hl, ho] at e1
  rw [hl] at e7
  have hc : bnToPomdp (some path) nameRadix towerParams fuel mediumTask = bnConvert (some path) nameRadix towerParams mediumTree := by
    simp [bnToPomdp, mediumTree_eq fuel hf, bind, Except.bind]
  have hdecl := (bn_decl_iff towerParams g3 medium_objects).2 medium_declared
  have hp2 := hp1
  rw [hc] at hp2
  obtain ⟨f1, f2, f3, f4, f5, f6, f7, f8, f9, f10⟩ := bn_ok_fields path nameRadix towerParams mediumTree medium_full hdecl p hp2
  rw [bnConvert_eq towerParams _ _ medium_full hdecl] at hp2
  obtain ⟨_, _, _, _, n1, n2, _⟩ := (good_iff p).1 f9
  refine ⟨p, hp1, ⟨e1, e5, e6⟩, ⟨n1, n2⟩, e7, fun fmt strNum => C41_defined _ _ _ _ _ _ _ _ _ _ p hp2 fmt strNum, ?_, ?_, ?_, ?_, ?_, medium_costs path fuel hf p hp1⟩
  · obtain ⟨_, path', _, e, _, rfl⟩ := (mk'_ok_iff ..).1 hp2
    injection e with e
    exact e.symm
  · rw [f4, hleaves]
    decide +kernel
  · rw [f7]
    decide +kernel
  · intro x k j i o h1 h2
    rw [f1]
    exact medium_T x k j i o h1 h2
  · intro x
    rw [f1]
    have := bnT_end towerParams (n := mediumTree) x
    rw [hleaves] at this
    exact this.trans (by simp [towerParams])

theorem medium_even : evenStart mediumStart = mediumStart := by decide +kernel

/-- **C116** for `samples/tower_scenario.py`, if line 4 imported `HTMToPOMDP`.  The script ends without exception.  The model starts with the same
probability at the beginning of the six orders, and a state is left only by bringing the part that comes next in the order, for the next state
of the same order.  The solver is called once, for 50 iterations with the grid `pairwise`.  The three files load back as the policy, the tree and the policy on the
beliefs.  The belief that is shown at the root of the tree is not a distribution: its sum is 6. -/
theorem C116_tower_partial (env : ScriptEnv) (root : List String) (w : World) (d : List String) (hd : 3 ≤ env.depth) (he : GoodEnv env d w.disk)
    (nodes : List (Int × List (Option Int))) (vectors : List (List ℚ))
    (ha : ∀ p : Pomdp, p.start = mediumStart → p.actions.length = 12 → p.observations.length = 4 → WritesPolicy env.mach p d nodes vectors)
    (hd1 : w.disk.dirs (root ++ ["visualization", "policy", "json"]) = true)
    (hd2 : w.disk.dirs (root ++ ["visualization", "trajectories", "json"]) = true) :
    ∃ p gp gp2 w', towerRest env root w = (.ok (p, gp, gp2), w') ∧ Stochastic p 37 12 4 ∧ p.start = mediumStart ∧
      p.actions = ["get-0", "get-1", "get-2", "get-3", "get-4", "get-5", "ask-0", "ask-1", "ask-2", "ask-3", "ask-4", "ask-5"].map Name.str ∧
      (∀ x k j i o, sixOrders[k]? = some o → o[j]? = some i →
        p.T.at_ x (6 * k + j) = if x = i then stay (if j = 5 then 36 else 6 * k + j + 1) else stay (6 * k + j)) ∧
      (∀ x, p.T.at_ x 36 = stay 36) ∧ TowerCosts p ∧
      (∃ (c : Call) (x : Disk), w'.calls = w.calls ++ [(c, x)] ∧ env.solver = some c.program ∧ c.cwd = d ∧ optionIn c.args "-horizon" = some "50" ∧
        optionIn c.args "-method" = some "grid" ∧ optionIn c.args "-fg_type" = some "pairwise" ∧ optionIn c.args "-time_limit" = none) ∧
      GraphPolicy.loadFromJson env.policies ⟨root ++ ["visualization", "policy", "json"], "test.json"⟩ w' = (.ok gp, w') ∧ gp.values = vectors ∧
      gp.transitions = nodes.map Prod.snd ∧ List.Forall₂ (fun x n => p.actions[x.1.toNat]? = some n) nodes gp.actions ∧
      (∃ text tree, w'.disk.files ⟨root ++ ["visualization", "trajectories", "json"], "trajectories.json"⟩ = some text ∧
        env.trees.loads text = .ok [tree] ∧ sumRange 37 (fun i => (TTree.beliefOf tree).getD i 0) = 6 ∧
        TreeOf gp p 37 10 mediumStart (TTree.withBelief mediumStart tree)) ∧
      GraphPolicy.loadFromJson env.policies ⟨root ++ ["visualization", "policy", "json"], "from_beliefs.json"⟩ w' = (.ok gp2, w') ∧
      gp2.values.length ≤ 105 ∧ (∀ b ∈ gp2.values, IsDist 37 b ∧ Reached gp p 37 b) ∧
      (∀ (i : Nat) (b : List ℚ), gp2.values[i]? = some b → ∃ act, gp2.actions[i]? = some act ∧ PolicyAction gp b act) ∧
      w'.disk.dirs = w.disk.dirs ∧
      ∀ f, f ≠ policyFile root "test.json" → f ≠ trajectoryFile root → f ≠ policyFile root "from_beliefs.json" → w'.disk.files f = w.disk.files f := by
  obtain ⟨path, hpath⟩ := he.2.2.2.2.2.1
  obtain ⟨p, p1, p2, p3, p4, p5, p6, p7, p8, p9, p10, p11⟩ := medium_accepted path env.depth hd
  obtain ⟨gp, gp2, w', s1, ⟨c, x, f, text, c1, c2, c3, c4, c5, c6, c7, -⟩, s3, s4, s5, s6, s7, s8, ⟨t, tree, t1, t2, t3, t4⟩, s10, s11, s12, s13, s14, s15, s16, s17, s18, s19⟩ :=
    C116_model_partial env p 37 12 4 50 (some "pairwise") root "test.json" w d p2 p3 p4 (by omega) p5 he (by decide) nodes vectors
      (ha p p7 p2.1.2.1 p2.1.2.2.1) hd1 hd2
  rw [p7, medium_even] at t4
  rw [p7] at t3
  obtain ⟨vh, hvh, -⟩ := C67_vertical_horizontal sampleTower (by decide) (by decide)
  refine ⟨p, gp, gp2, w', ?_, p2, p7, p8, p9, p10, p11, ⟨c, x, c1, by rw [hpath, c2, p6], c3, c4.trans (by decide +kernel), c5, c6, c7⟩, s3, s7, s6, s4,
    ⟨t, tree, t1, t2, ?_, t4⟩, s10, s14, s15, s16, s18, s19⟩
  · unfold towerRest
    rw [M.bind_run]
    simp only [M.lift, hvh]
    rw [M.bind_run]
    simp only [M.lift, mediumTask_eq]
    rw [M.bind_run]
    simp only [M.lift, hpath, p1]
    rw [M.bind_of_ok s1]
    rfl
  · rw [sumRange_congr 37 _ _ (fun i hi => t3 i hi)]
    decide +kernel

/-- Non-vacuity: a solver that always asks to bring the part 0. -/
def towerMachine : Machine := { waitMachine with fromstring := fun _ => List.replicate 37 1 }

theorem towerMachine_answers (p : Pomdp) (h1 : p.start = mediumStart) (h2 : p.actions.length = 12) (h3 : p.observations.length = 4) :
    WritesPolicy towerMachine p ["tmp", "abc"] [(0, [some 0, some 0, some 0, some 0])] [List.replicate 37 1] := by
  refine ⟨[(['0', '\n'], ['1', ' ', '2', '\n'])], waitAlpha, waitGraph, [['0', '\n'], ['1', ' ', '2', '\n'], ['\n']], [waitGraph], ?_, ⟨rfl, ?_⟩, ⟨rfl, ?_⟩,
    (.line (fun h => absurd (h.2 '0' (by simp)) (by decide)) (.line (fun h => absurd (h.2 '1' (by simp)) (by decide))
      (.blank (by simp) (by unfold Blank; decide) .nil))),
    (.cons ⟨[], ['\n'], by unfold Blank; decide, by unfold Blank; decide, by decide⟩ .nil), rfl, ?_, ⟨rfl, ?_⟩, ?_, ?_, ?_,
    ⟨_, List.mem_singleton.2 rfl, 0, by simp⟩⟩
  · intro c x o e1 e2
    rw [← e1]
    refine ⟨rfl, ?_, ?_⟩
    · show (waitSolver c x).2.files _ = _
      unfold waitSolver
      rw [e2, Option.getD_some, write_other, write_same]
      intro he
      injection he with _ he
      have := (String.append_right_inj o).1 he
      exact absurd this (by decide +kernel)
    · show (waitSolver c x).2.files _ = _
      unfold waitSolver
      rw [e2, Option.getD_some, write_same]
  · intro i l h
    match i with
    | 0 => injection h with h; exact ⟨['0'], by decide, Or.inl h.symm⟩
    | 1 => injection h with h; exact ⟨['1', ' ', '2'], by decide, Or.inl h.symm⟩
    | 2 => injection h with h; exact ⟨[], by decide, Or.inl h.symm⟩
    | i + 3 => cases h
  · intro i l h
    match i with
    | 0 => injection h with h; exact ⟨['0', ' ', '0', ' ', ' ', '0', ' ', '0', ' ', '0', ' ', '0', ' '], by decide, Or.inl h.symm⟩
    | i + 1 => cases h
  · intro v hv
    simp at hv
    subst hv
    rw [h1]
    rfl
  · intro i a ts h
    match i with
    | 0 =>
        injection h with h
        injection h with h1 h2
        subst h1 h2
        exact ⟨[' ', '\n'], by unfold Blank; decide, by decide +kernel⟩
    | i + 1 => cases h
  · intro x hx
    simp at hx
    subst hx
    simp [h2]
  · intro x hx
    simp at hx
    subst hx
    rw [h3]
    rfl
  · intro x hx j hj
    simp at hx
    subst hx
    simp at hj
    subst hj
    simp


example (policies : Json GraphDict) (trees : Json (List TTree)) (h1 : ∀ i x, policies.loads (policies.dumps i x) = .ok x)
    (h2 : ∀ i x, trees.loads (trees.dumps i x) = .ok x) :
    ∃ r w', towerRest ⟨towerMachine, policies, trees, some "pomdp-solve", fun _ => 1 / 2, 10, 200⟩ ["repo"] ⟨repoDisk, []⟩ = (.ok r, w') := by
  obtain ⟨p, gp, gp2, w', h, _⟩ := C116_tower_partial ⟨towerMachine, policies, trees, some "pomdp-solve", fun _ => 1 / 2, 10, 200⟩ ["repo"] ⟨repoDisk, []⟩
    ["tmp", "abc"] (show 3 ≤ 10 by decide) ⟨rfl, repoDisk_fresh, waitMachine_inside, h1, h2, ⟨_, rfl⟩, fun _ _ => by norm_num, show 106 ≤ 200 by decide⟩
    [(0, [some 0, some 0, some 0, some 0])] [List.replicate 37 1] towerMachine_answers (by simp [repoDisk]) (by simp [repoDisk])
  exact ⟨_, w', h⟩

end Verif
