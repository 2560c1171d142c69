import Verif.Proof.BringNext

/-! # C35, C36, C72: the models made by the bring-next conversion -/

set_option linter.unusedSimpArgs false

namespace Verif
open Spec

/-- The number of leaves. -/
local notation "len" n:max => List.length (N2P.leaves n)

/-- A task: bring a leg, then the seat or the back. -/
def bringTask : Htm BAction :=
  let a (s o : String) : Htm BAction := .leaf ⟨s, some o⟩ none none false
  .comb .sequential [a "Leg 1" "leg", .comb .alternative [a "Seat" "seat", a "Back" "back"] none none "rest" false (some [1 / 2, 1 / 2]), a "Leg 2" "leg"]
    none none "chair" false none

/-- Its parameters. -/
def bringParams (loop : Bool) : BnParams := ⟨1, 2, 3, ["leg", "seat", "back"], 10, none, loop, false⟩

theorem bringTask_built : Built bringTask := by
  have hd : IsDistrib [(1 : ℚ) / 2, 1 / 2] := ⟨List.cons_ne_nil _ _, by norm_num, by norm_num⟩
  simp [bringTask, Built, BuiltL]
  simpa using hd

theorem bringTask_ok : HFull bringTask ∧ ParFree bringTask ∧ HasObjects bringTask ∧ Declared ["leg", "seat", "back"] bringTask := by
  simp [bringTask, HFull, HFullL, ParFree, ParFreeL, HasObjects, Declared, Spec.leaves, Spec.leavesL]

theorem bn_decl_iff {t : Htm BAction} {n : N2P BAction} (h : BnParams) (hl : n.leaves = Spec.leaves t) (ho : HasObjects t) :
    BnDecl h n ↔ Declared h.objects t := by
  unfold BnDecl Declared
  rw [hl]
  constructor
  · intro h1 a ha o e
    have := h1 a ha
    rwa [BAction.objName, e] at this
  · intro h1 a ha
    obtain ⟨o, e⟩ := ho a ha
    rw [BAction.objName, e]
    exact h1 a ha o e

/-- What is known of a successful conversion. -/
theorem bn_ok_fields (path : String) (radix : String → String) (h : BnParams) (n : N2P BAction) (hf : Full n) (hd : BnDecl h n) (p : Pomdp)
    (hp : bnConvert (some path) radix h n = .ok p) :
    p.T = ⟨2 * h.objects.length, len n + 1, len n + 1, bnTArr h n⟩ ∧ p.O = ⟨2 * h.objects.length, len n + 1, 4, bnOArr h n⟩ ∧
    p.R = ⟨2 * h.objects.length, len n + 1, len n + 1, 4, fun a s s' o => - bnRArr h n a s s' o⟩ ∧
    p.start = (List.range (len n + 1)).map (scatter (fun _ => 0) (n.init 1 0) n.start) ∧ p.discount = h.disc ∧
    p.states = n.concat (bnLeafStates radix) ++ [Name.str "end"] ∧ p.actions = h.actions.map Name.str ∧ p.observations = bnObservations ∧ p.Good ∧
    h.objects.Nodup := by
  rw [bnConvert_eq h _ _ hf hd, mk'_ok_iff] at hp
  obtain ⟨r, path', hr, _, hg, rfl⟩ := hp
  have : r = ⟨2 * h.objects.length, len n + 1, len n + 1, 4, fun a s s' o => - bnRArr h n a s s' o⟩ := by
    simp [Pomdp.rewardOf] at hr
    exact hr.symm
  subst this
  obtain ⟨_, _, _, _, hn, _⟩ := (good_iff _).1 hg
  exact ⟨rfl, rfl, rfl, rfl, rfl, rfl, rfl, rfl, hg, (bn_actionNames_nodup h).1 hn⟩

/-- **C35**: the bring-next conversion, for every well-built task without empty combinations. -/
theorem C35_bring_next (path : String) (radix : String → String) (h : BnParams) (fuel : Nat) (t : Htm BAction) (hb : Built t) (hf : HFull t)
    (hd : callDepth t ≤ fuel) :
    -- a parallel combination, or an action without object
    ((¬ ParFree t ∨ ¬ HasObjects t) → bnToPomdp (some path) radix h fuel t = .error .attributeError) ∧
    (ParFree t → HasObjects t →
      -- an object not declared
      (¬ Declared h.objects t → bnToPomdp (some path) radix h fuel t = .error .keyError) ∧
      -- when it succeeds
      (Declared h.objects t → ((∃ p, bnToPomdp (some path) radix h fuel t = .ok p) ↔
        h.objects.Nodup ∧ ((Spec.leaves t).map fun c => radix c.name).Nodup ∧ 0 ≤ h.disc ∧ h.disc ≤ 1)) ∧
      ∀ p, bnToPomdp (some path) radix h fuel t = .ok p →
        ∃ nS nA nO, Shaped p nS nA nO ∧ nS = (Spec.leaves t).length + 1 ∧ nA = 2 * h.objects.length ∧ nO = 4 ∧
          RowsStochastic p.T ∧ RowsStochastic p.O ∧ IsDist nS p.start) := by
  obtain ⟨g1, g2⟩ := bnFromNode_spec fuel t hb hf hd
  refine ⟨fun hno => ?_, fun hpf ho => ?_⟩
  · have : ¬ BnGood t := by rintro ⟨h1, h2⟩; tauto
    simp [bnToPomdp, g2 this, bind, Except.bind]
  obtain ⟨n, h1, hfn, hl, hlang⟩ := g1 ⟨hpf, ho⟩
  have h3 : bnToPomdp (some path) radix h fuel t = bnConvert (some path) radix h n := by simp [bnToPomdp, h1, bind, Except.bind]
  have hdecl := bn_decl_iff h hl ho
  obtain ⟨hst1, hst2, -⟩ := bnStart hfn
  rw [h3, ← hdecl, ← hl]
  refine ⟨fun hnd => bnConvert_error h _ _ hfn hnd, fun hde => ?_, fun p hp => ?_⟩
  · rw [bnConvert_eq h _ _ hfn hde]
    have near : ∀ x : ℚ, x = 1 → NearOne x := by rintro x rfl; norm_num [NearOne]
    constructor
    · rintro ⟨p, hp⟩
      obtain ⟨r, path', _, _, hg, rfl⟩ := (mk'_ok_iff ..).1 hp
      obtain ⟨_, _, _, hg1, hg2, _, hg3, hg4⟩ := (good_iff _).1 hg
      exact ⟨(bn_actionNames_nodup h).1 hg2, (bn_states_nodup radix).1 hg1, hg3, hg4⟩
    · rintro ⟨hon, hnd, hd0, hd1⟩
      refine ⟨_, (mk'_ok_iff ..).2 ⟨_, path, (by simp only [Pomdp.rewardOf]; rfl), rfl, ?_, rfl⟩⟩
      rw [good_iff]
      have l1 := bn_states_length (n := n) radix
      have l2 : (h.actions.map Name.str).length = 2 * h.objects.length := by rw [List.length_map, bn_actions_length]
      refine ⟨⟨rfl, rfl, rfl, ?_, ?_, ?_, ?_, ?_, ?_, rfl, ?_, ?_, ?_, rfl⟩, ?_, ?_, (bn_states_nodup radix).2 hnd, (bn_actionNames_nodup h).2 hon, (by decide : bnObservations.Nodup),
        hd0, hd1⟩
      · exact (by simp : _ = len n + 1).trans l1.symm
      · exact l2.symm
      · exact l1.symm
      · exact l1.symm
      · exact l2.symm
      · exact l1.symm
      · exact l2.symm
      · exact l1.symm
      · exact l1.symm
      · exact near _ hst1
      · intro a ha s hs'
        have ha' : a < 2 * h.objects.length := lt_of_lt_of_eq ha l2
        have hs'' : s < len n + 1 := lt_of_lt_of_eq hs' l1
        refine ⟨near _ ?_, near _ (bnO_row h hfn hon hde a s ha').2⟩
        have := (bnT_row h hfn a s hs'').2
        rw [← l1] at this
        exact this
  · by_cases hde : BnDecl h n
    · obtain ⟨eT, eO, eR, est, _, es, ea, eo, hg, hon⟩ := bn_ok_fields path radix h n hfn hde p hp
      obtain ⟨hsh, _⟩ := (good_iff p).1 hg
      have n1 : p.nStates = len n + 1 := by
        have := hsh.2.2.2.2.2.1
        rw [eT] at this
        exact this.symm
      have n2 : p.nActions = 2 * h.objects.length := by
        have := hsh.2.2.2.2.1
        rw [eT] at this
        exact this.symm
      have n3 : p.nObservations = 4 := by
        unfold Pomdp.nObservations
        rw [eo]; rfl
      rw [n1, n2, n3] at hsh
      refine ⟨_, _, _, hsh, rfl, rfl, rfl, ?_, ?_, ?_, ?_, ?_⟩
      · rw [eT]
        exact fun a ha s hs' => ⟨fun k _ => (bnT_row h hfn a s hs').1 k, (bnT_row h hfn a s hs').2⟩
      · rw [eO]
        exact fun a ha s hs' => ⟨fun k _ => (bnO_row h hfn hon hde a s ha).1 k, (bnO_row h hfn hon hde a s ha).2⟩
      · rw [est]; simp
      · intro i hi
        rw [est, getD_map_range _ _ _ hi]
        exact hst2 i
      · rw [est, sumRange_congr _ _ (scatter (fun _ => 0) (n.init 1 0) n.start) (fun i hi => getD_map_range _ _ _ hi)]
        exact hst1
    · rw [bnConvert_error h _ _ hfn hde] at hp
      cases hp

/-- The task of the example is converted, with and without loop. -/
theorem bring_converts (loop : Bool) : ∃ p, bnToPomdp (some "pomdp-solve") id (bringParams loop) 5 bringTask = .ok p := by
  obtain ⟨h1, h2, h3, h4⟩ := bringTask_ok
  refine (((C35_bring_next "pomdp-solve" id (bringParams loop) 5 bringTask bringTask_built h1 (by decide)).2 h2 h3).2.1 h4).2 ?_
  refine ⟨(by decide : ["leg", "seat", "back"].Nodup), by decide, ?_, ?_⟩ <;> cases loop <;> norm_num [BnParams.disc, bringParams]

/-- The three kinds of errors are possible. -/
example : ∃ t : Htm BAction, Built t ∧ HFull t ∧ callDepth t ≤ 5 ∧ ¬ ParFree t :=
  ⟨.comb .parallel [.leaf ⟨"a", some "o"⟩ none none false] none none "p" false none, by simp [Built, BuiltL], by simp [HFull, HFullL], by decide,
    by simp [ParFree]⟩

example : ¬ Declared ["leg", "seat"] bringTask := by simp [bringTask, Declared, Spec.leaves, Spec.leavesL]

/-- **C36**: the bring-next model without loop. -/
theorem C36_trajectories (path : String) (radix : String → String) (h : BnParams) (fuel : Nat) (t : Htm BAction) (hb : Built t) (hf : HFull t)
    (hd : callDepth t ≤ fuel) (p : Pomdp) (hp : bnToPomdp (some path) radix h fuel t = .ok p) :
    ∃ n, bnFromNode fuel t = .ok n ∧ n.leaves = Spec.leaves t ∧
      -- trajectories
      (h.loop = false → (∀ ks, (∃ states, Trajectory p states ∧ visitedLeaves 1 (len n) states = ks) ↔ Lin n 0 ks) ∧
        ∀ u, HLin t u ↔ ∃ states, Trajectory p states ∧ Labels n (visitedLeaves 1 (len n) states) u) ∧
      -- the state of a leaf is left only by bringing its object
      (∀ k c, n.leaves[k]? = some c → p.states[k]? = some (.str ("before-" ++ radix c.name)) ∧
        ∃ i o q, c.obj = some o ∧ p.actions[i]? = some (.str ("get-" ++ o)) ∧ NextDist 1 n (len n) k p.states.length q ∧
          ∀ x z, p.T.at_ x k z = if x = i then q z else stay k z) ∧
      -- the last state
      p.states[len n]? = some (.str "end") ∧
      (h.loop = false → ∀ x, p.T.at_ x (len n) = stay (len n)) ∧
      (h.loop = true → ∀ x z, 0 < p.T.at_ x (len n) z ↔ IsFirst n z) := by
  obtain ⟨g1, g2⟩ := bnFromNode_spec fuel t hb hf hd
  by_cases hgood : BnGood t
  swap
  · simp [bnToPomdp, g2 hgood, bind, Except.bind] at hp
  obtain ⟨n, h1, hfn, hl, hlang⟩ := g1 hgood
  have h3 : bnToPomdp (some path) radix h fuel t = bnConvert (some path) radix h n := by simp [bnToPomdp, h1, bind, Except.bind]
  rw [h3] at hp
  by_cases hde : BnDecl h n
  swap
  · rw [bnConvert_error h _ _ hfn hde] at hp
    cases hp
  obtain ⟨eT, eO, eR, est, _, es, ea, eo, hg, hon⟩ := bn_ok_fields path radix h n hfn hde p hp
  have hlen : p.states.length = len n + 1 := by rw [es, bn_states_length]
  have halen : p.actions.length = 2 * h.objects.length := by rw [ea, List.length_map, bn_actions_length]
  refine ⟨n, h1, hl, fun hloop => ?_, fun k c hk => ?_, ?_, ?_, ?_⟩
  · have hmain : ∀ ks, (∃ states, Trajectory p states ∧ visitedLeaves 1 (len n) states = ks) ↔ Lin n 0 ks := by
      intro ks
      rw [← paths_iff (by omega) hfn (bn_follows h hfn hde hon hloop) (by omega)]
      obtain ⟨-, hst2, hst3⟩ := bnStart hfn
      unfold Trajectory Possible
      rw [hlen, halen, eT, est, Nat.add_sub_cancel]
      constructor
      · rintro ⟨states, ⟨⟨s, hs1, hs2⟩, h4, h5⟩, h6⟩
        match states, hs1 with
        | x :: l, hs1 =>
          have hs1 : x = s := by simpa using hs1
          subst hs1
          have hx : x < len n + 1 := by
            by_contra hx
            rw [List.getD, List.getElem?_eq_none (by simpa using hx)] at hs2
            exact absurd hs2 (lt_irrefl _)
          rw [getD_map_range _ _ _ hx, hst3] at hs2
          exact ⟨x, hs2, l, h5, h4, h6⟩
      · rintro ⟨s, hs1, l, h4, h5, h6⟩
        refine ⟨s :: l, ⟨⟨s, rfl, ?_⟩, h5, h4⟩, h6⟩
        rw [getD_map_range _ _ _ (by have := initW_lt s hs1; omega), hst3]
        exact hs1
    refine ⟨hmain, fun u => ?_⟩
    rw [← hlang, N2P.nLin_iff]
    constructor
    · rintro ⟨ks, h4, h5⟩
      obtain ⟨states, h6, rfl⟩ := (hmain ks).2 h4
      exact ⟨states, h6, h5⟩
    · rintro ⟨states, h6, h5⟩
      exact ⟨_, (hmain _).1 ⟨states, h6, rfl⟩, h5⟩
  · have hlt := (List.getElem?_eq_some_iff.1 hk).1
    refine ⟨?_, ?_⟩
    · have := flatMap_get_const 1 (bnLeafStates radix) (fun a => rfl) n.leaves k c hk 0 (by omega)
      rw [es, List.getElem?_append_left (by rw [N2P.concat, flatMap_length_const 1 _ (fun a => rfl)]; omega), N2P.concat]
      simpa [bnLeafStates] using this
    · obtain ⟨cx, hcx⟩ := N2P.root_exists (w := 1) (wa := 0) (a := 0) (fin := len n) hlt
      have hact : cx.act = c := by
        have := (N2P.root_get hcx).1
        rw [hk] at this
        injection this with this
        exact this.symm
      obtain ⟨o, ho⟩ := hgood.2 c (by rw [← hl]; exact List.mem_of_getElem? hk)
      have hon' : c.objName = o := by rw [BAction.objName, ho]; rfl
      obtain ⟨i, hi⟩ := List.getElem?_of_mem (hde c (List.mem_of_getElem? hk))
      have hi2 := (List.getElem?_eq_some_iff.1 hi).1
      refine ⟨i, o, ctxDist cx, ho, ?_, ?_, fun x z => ?_⟩
      · rw [ea, List.getElem?_map, BnParams.actions, List.getElem?_append_left (by simpa using hi2), List.getElem?_map, hi, hon']
        rfl
      · rw [hlen]
        exact ctxDist_next (by omega) hfn (by simp [N2P.size]) hcx (Nat.lt_succ_self _)
      · rw [eT]
        dsimp only
        rw [bnT_leaf h hfn hcx, hact, (getIdx_eq h hon hi).1]
        split <;> rfl
  · rw [es, List.getElem?_append_right (by rw [N2P.concat, flatMap_length_const 1 _ (fun a => rfl)]; omega), N2P.concat,
      flatMap_length_const 1 _ (fun a => rfl)]
    simp
  · intro hloop x
    rw [eT]
    dsimp only
    rw [bnT_end, hloop]
    rfl
  · intro hloop x z
    rw [eT]
    dsimp only
    rw [bnT_end, hloop, ← N2P.root_init (w := 1) (by omega) hfn, Nat.one_mul]
    have hpos : (0 : ℚ) < ((n.init 1 0).length : ℚ) := by exact_mod_cast List.length_pos_iff.2 (N2P.init_ne_nil 1 n hfn 0)
    simp only [if_true]
    constructor
    · intro hz
      by_contra hne
      rw [if_neg hne] at hz
      exact absurd hz (lt_irrefl _)
    · intro hz
      rw [if_pos hz]
      positivity

example : ∃ p, bnToPomdp (some "pomdp-solve") id (bringParams false) 5 bringTask = .ok p ∧ callDepth bringTask ≤ 5 ∧ (bringParams false).loop = false := by
  obtain ⟨p, hp⟩ := bring_converts false
  exact ⟨p, hp, by decide, rfl⟩

/-- **C72**: the discount is the one that is given; otherwise it is 0.9 with `loop` and 1 without. The solver is the program that was found. -/
theorem C72_discount (path : String) (radix : String → String) (h : BnParams) (fuel : Nat) (t : Htm BAction) (hb : Built t) (hf : HFull t)
    (hd : callDepth t ≤ fuel) (p : Pomdp) (hp : bnToPomdp (some path) radix h fuel t = .ok p) :
    (∀ x, h.discount = some x → p.discount = x) ∧ (h.discount = none → h.loop = true → p.discount = 9 / 10) ∧
    (h.discount = none → h.loop = false → p.discount = 1) ∧ p.solverPath = path := by
  obtain ⟨g1, g2⟩ := bnFromNode_spec fuel t hb hf hd
  by_cases hgood : BnGood t
  swap
  · simp [bnToPomdp, g2 hgood, bind, Except.bind] at hp
  obtain ⟨n, h1, hfn, hl, hlang⟩ := g1 hgood
  have h3 : bnToPomdp (some path) radix h fuel t = bnConvert (some path) radix h n := by simp [bnToPomdp, h1, bind, Except.bind]
  rw [h3] at hp
  by_cases hde : BnDecl h n
  swap
  · rw [bnConvert_error h _ _ hfn hde] at hp
    cases hp
  rw [bnConvert_eq h _ _ hfn hde] at hp
  obtain ⟨_, path', _, e2, _, rfl⟩ := (mk'_ok_iff ..).1 hp
  injection e2 with e2
  subst e2
  refine ⟨fun x hx => ?_, fun hx hl => ?_, fun hx hl => ?_, rfl⟩ <;> simp [BnParams.disc, hx, *]

/-- **C72**: observations and costs of the bring-next model (rewards are the opposites of costs), for the object `o` with index
`i`: the actions `get-o` and `ask-o` have the indices `i` and `i + m`, with `m` objects. -/
theorem C72_observations_costs (path : String) (radix : String → String) (h : BnParams) (fuel : Nat) (t : Htm BAction) (hb : Built t) (hf : HFull t)
    (hd : callDepth t ≤ fuel) (p : Pomdp) (hp : bnToPomdp (some path) radix h fuel t = .ok p) :
    ∃ n, bnFromNode fuel t = .ok n ∧ n.leaves = Spec.leaves t ∧ p.observations = [.str "none", .str "yes", .str "no", .str "error"] ∧
      ∀ i o, h.objects[i]? = some o → p.actions[i]? = some (.str ("get-" ++ o)) ∧ p.actions[h.objects.length + i]? = some (.str ("ask-" ++ o)) ∧
        -- bringing an object is observed as good (with probability 0.9) in the states that may follow a leaf with this object
        (∀ y, ((∃ (k : Nat) (c : BAction), n.leaves[k]? = some c ∧ c.obj = some o ∧ IsNext 1 n (len n) k y) →
            ∀ z < 4, p.O.at_ i y z = [9 / 10, 0, 0, 1 / 10].getD z 0) ∧
          ((¬ ∃ (k : Nat) (c : BAction), n.leaves[k]? = some c ∧ c.obj = some o ∧ IsNext 1 n (len n) k y) → ∀ z < 4, p.O.at_ i y z = [0, 0, 0, 1].getD z 0)) ∧
        -- the answer to a question is yes exactly in the states of the leaves with this object
        (∀ y, ((∃ c, n.leaves[y]? = some c ∧ c.obj = some o) →
            ∀ z < 4, p.O.at_ (h.objects.length + i) y z = (if h.noAnswer then [1 / 10, 9 / 10, 0, 0] else [0, 1, 0, 0]).getD z 0) ∧
          ((¬ ∃ c, n.leaves[y]? = some c ∧ c.obj = some o) →
            ∀ z < 4, p.O.at_ (h.objects.length + i) y z = (if h.noAnswer then [1 / 10, 0, 9 / 10, 0] else [0, 0, 1, 0]).getD z 0)) ∧
        -- costs in the states of the leaves: of getting the object, if it is the right one and the task progresses, of an error, of a question
        (∀ y < len n, ∀ z w,
          (((∃ c, n.leaves[y]? = some c ∧ c.obj = some o) ∧ IsNext 1 n (len n) y z) →
            p.R.at_ i y z w = - (h.tGet - (if z = len n ∧ h.loop = false then h.endReward else 0))) ∧
          (¬ ((∃ c, n.leaves[y]? = some c ∧ c.obj = some o) ∧ IsNext 1 n (len n) y z) →
            p.R.at_ i y z w = - (h.tErr - (if z = len n ∧ h.loop = false then h.endReward else 0))) ∧
          p.R.at_ (h.objects.length + i) y z w = - (h.tCom - (if z = len n ∧ h.loop = false then h.endReward else 0))) ∧
        -- in the last state: with loop the reward, without loop nothing
        (∀ z w, h.loop = true → p.R.at_ i (len n) z w = h.endReward ∧ p.R.at_ (h.objects.length + i) (len n) z w = h.endReward) ∧
        (∀ w, h.loop = false → p.R.at_ i (len n) (len n) w = 0 ∧ p.R.at_ (h.objects.length + i) (len n) (len n) w = 0) := by
  obtain ⟨g1, g2⟩ := bnFromNode_spec fuel t hb hf hd
  by_cases hgood : BnGood t
  swap
  · simp [bnToPomdp, g2 hgood, bind, Except.bind] at hp
  obtain ⟨n, h1, hfn, hl, hlang⟩ := g1 hgood
  have h3 : bnToPomdp (some path) radix h fuel t = bnConvert (some path) radix h n := by simp [bnToPomdp, h1, bind, Except.bind]
  rw [h3] at hp
  by_cases hde : BnDecl h n
  swap
  · rw [bnConvert_error h _ _ hfn hde] at hp
    cases hp
  obtain ⟨eT, eO, eR, est, _, es, ea, eo, hg, hon⟩ := bn_ok_fields path radix h n hfn hde p hp
  refine ⟨n, h1, hl, eo, fun i o hi => ?_⟩
  have hi2 := (List.getElem?_eq_some_iff.1 hi).1
  have hobj : ∀ c ∈ n.leaves, (getIdx h c = i ↔ c.obj = some o) ∧ (askIdx h c = h.objects.length + i ↔ c.obj = some o) ∧
      getIdx h c < h.objects.length ∧ h.objects.length ≤ askIdx h c := by
    intro c hc
    obtain ⟨o', ho'⟩ := hgood.2 c (by rw [← hl]; exact hc)
    have e : c.objName = o' := by rw [BAction.objName, ho']; rfl
    obtain ⟨j, hj⟩ := List.getElem?_of_mem (hde c hc)
    have hj2 := (List.getElem?_eq_some_iff.1 hj).1
    obtain ⟨e1, e2⟩ := getIdx_eq h hon hj
    have key : j = i ↔ c.obj = some o := by
      rw [ho']
      constructor
      · rintro rfl
        rw [hi, e] at hj
        exact hj.symm
      · intro ho
        rw [e, ho, ← hi] at hj
        exact (List.getElem?_inj hj2 hon).1 hj
    rw [e1, e2]
    refine ⟨key, ⟨fun h => key.1 (by omega), fun h => by rw [key.2 h]⟩, hj2, by omega⟩
  have hctx : ∀ (P : Nat → N2P.Ctx BAction → Prop), (∃ c ∈ N2P.rootCtxs 1 0 0 n (len n), P c.s c) ↔
      ∃ k c, (N2P.rootCtxs 1 0 0 n (len n))[k]? = some c ∧ P k c := by
    intro P
    constructor
    · rintro ⟨c, hc, hP⟩
      obtain ⟨k, hk⟩ := List.getElem?_of_mem hc
      have := (N2P.root_get hk).2.2
      rw [Nat.one_mul] at this
      exact ⟨k, c, hk, by rw [← this]; exact hP⟩
    · rintro ⟨k, c, hk, hP⟩
      have := (N2P.root_get hk).2.2
      rw [Nat.one_mul] at this
      exact ⟨c, List.mem_of_getElem? hk, by rw [this]; exact hP⟩
  have hget : ∀ y, (∃ c ∈ N2P.rootCtxs 1 0 0 n (len n), i = getIdx h c.act ∧ y ∈ c.next) ↔
      ∃ (k : Nat) (c : BAction), n.leaves[k]? = some c ∧ c.obj = some o ∧ IsNext 1 n (len n) k y := by
    intro y
    rw [hctx (fun _ c => i = getIdx h c.act ∧ y ∈ c.next)]
    constructor
    · rintro ⟨k, c, hk, h4, h5⟩
      have h6 := (N2P.root_get hk).1
      exact ⟨k, c.act, h6, (hobj _ (List.mem_of_getElem? h6)).1.1 h4.symm, (root_next_iff (by omega) hfn (by simp [N2P.size]) hk y).1 h5⟩
    · rintro ⟨k, c, hk, h4, h5⟩
      obtain ⟨cx, hcx⟩ := N2P.root_exists (w := 1) (wa := 0) (a := 0) (fin := len n) (List.getElem?_eq_some_iff.1 hk).1
      have h6 := (N2P.root_get hcx).1
      rw [hk] at h6
      injection h6 with h6
      subst h6
      exact ⟨k, cx, hcx, ((hobj _ (List.mem_of_getElem? hk)).1.2 h4).symm, (root_next_iff (by omega) hfn (by simp [N2P.size]) hcx y).2 h5⟩
  have hask : ∀ y, (∃ c ∈ N2P.rootCtxs 1 0 0 n (len n), h.objects.length + i = askIdx h c.act ∧ y = c.s) ↔
      ∃ c, n.leaves[y]? = some c ∧ c.obj = some o := by
    intro y
    rw [hctx (fun s c => h.objects.length + i = askIdx h c.act ∧ y = s)]
    constructor
    · rintro ⟨k, c, hk, h4, rfl⟩
      have h6 := (N2P.root_get hk).1
      exact ⟨c.act, h6, (hobj _ (List.mem_of_getElem? h6)).2.1.1 h4.symm⟩
    · rintro ⟨c, hk, h4⟩
      obtain ⟨cx, hcx⟩ := N2P.root_exists (w := 1) (wa := 0) (a := 0) (fin := len n) (List.getElem?_eq_some_iff.1 hk).1
      have h6 := (N2P.root_get hcx).1
      rw [hk] at h6
      injection h6 with h6
      subst h6
      exact ⟨y, cx, hcx, ((hobj _ (List.mem_of_getElem? hk)).2.1.2 h4).symm, rfl⟩
  have hrew : ∀ y z, (∃ c ∈ N2P.rootCtxs 1 0 0 n (len n), i = getIdx h c.act ∧ y = c.s ∧ z ∈ c.next) ↔
      (∃ c, n.leaves[y]? = some c ∧ c.obj = some o) ∧ IsNext 1 n (len n) y z := by
    intro y z
    rw [hctx (fun s c => i = getIdx h c.act ∧ y = s ∧ z ∈ c.next)]
    constructor
    · rintro ⟨k, c, hk, h4, rfl, h5⟩
      have h6 := (N2P.root_get hk).1
      exact ⟨⟨c.act, h6, (hobj _ (List.mem_of_getElem? h6)).1.1 h4.symm⟩, (root_next_iff (by omega) hfn (by simp [N2P.size]) hk z).1 h5⟩
    · rintro ⟨⟨c, hk, h4⟩, h5⟩
      obtain ⟨cx, hcx⟩ := N2P.root_exists (w := 1) (wa := 0) (a := 0) (fin := len n) (List.getElem?_eq_some_iff.1 hk).1
      have h6 := (N2P.root_get hcx).1
      rw [hk] at h6
      injection h6 with h6
      subst h6
      exact ⟨y, cx, hcx, ((hobj _ (List.mem_of_getElem? hk)).1.2 h4).symm, rfl, (root_next_iff (by omega) hfn (by simp [N2P.size]) hcx z).2 h5⟩
  have noask : ∀ y, ¬ ∃ c ∈ N2P.rootCtxs 1 0 0 n (len n), i = askIdx h c.act ∧ y = c.s := by
    rintro y ⟨c, hc, e, _⟩
    have := (hobj _ (root_act_mem hc)).2.2.2
    omega
  have noget : ∀ (P : N2P.Ctx BAction → Prop), ¬ ∃ c ∈ N2P.rootCtxs 1 0 0 n (len n), h.objects.length + i = getIdx h c.act ∧ P c := by
    rintro P ⟨c, hc, e, _⟩
    have := (hobj _ (root_act_mem hc)).2.2.1
    omega
  have hdecl : ∀ c ∈ N2P.rootCtxs 1 0 0 n (len n), c.act.objName ∈ h.objects := fun c hc => hde _ (root_act_mem hc)
  refine ⟨?_, ?_, fun y => ⟨fun hy z _ => ?_, fun hy z _ => ?_⟩, fun y => ⟨fun hy z _ => ?_, fun hy z _ => ?_⟩, fun y hy z w => ⟨fun hyz => ?_, fun hyz => ?_, ?_⟩,
    fun z w hloop => ?_, fun w hloop => ?_⟩
  · rw [ea, List.getElem?_map, BnParams.actions, List.getElem?_append_left (by simpa using hi2), List.getElem?_map, hi]
    rfl
  · rw [ea, List.getElem?_map, BnParams.actions, List.getElem?_append_right (by simp), List.getElem?_map]
    simp [hi]
  · rw [eO]
    dsimp only
    unfold bnOArr
    rw [bnO_fold h hon _ hdecl, if_pos ((hget y).2 hy)]
    rfl
  · rw [eO]
    dsimp only
    unfold bnOArr
    rw [bnO_fold h hon _ hdecl, if_neg (fun hx => hy ((hget y).1 hx)), if_neg (noask y), bnInitO, if_pos hi2]
    rfl
  · rw [eO]
    dsimp only
    unfold bnOArr
    rw [bnO_fold h hon _ hdecl, if_neg (noget _), if_pos ((hask y).2 hy)]
    split <;> rfl
  · rw [eO]
    dsimp only
    unfold bnOArr
    rw [bnO_fold h hon _ hdecl, if_neg (noget _), if_neg (fun hx => hy ((hask y).1 hx)), bnInitO, if_neg (by omega), if_pos (by omega)]
    split <;> rfl
  · rw [eR]
    dsimp only
    congr 1
    have hy' : ¬ y = len n := by omega
    cases hloop : h.loop
    · simp only [bnRArr, bnREnd, hloop, Bool.false_eq_true, if_false, Nat.add_sub_cancel, hy', false_and, bnR_fold h, if_pos ((hrew y z).2 hyz), and_true]
      split <;> ring
    · simp only [bnRArr, bnREnd, hloop, if_true, Nat.add_sub_cancel, hy', if_false, bnR_fold h, if_pos ((hrew y z).2 hyz), Bool.true_eq_false, and_false]
      ring
  · rw [eR]
    dsimp only
    congr 1
    have hy' : ¬ y = len n := by omega
    have hno := fun hx => hyz ((hrew y z).1 hx)
    cases hloop : h.loop
    · simp only [bnRArr, bnREnd, hloop, Bool.false_eq_true, if_false, Nat.add_sub_cancel, hy', false_and, bnR_fold h, if_neg hno, and_true, bnInitR, if_pos hi2]
      split <;> ring
    · simp only [bnRArr, bnREnd, hloop, if_true, Nat.add_sub_cancel, hy', if_false, bnR_fold h, if_neg hno, Bool.true_eq_false, and_false, bnInitR, if_pos hi2]
      ring
  · rw [eR]
    dsimp only
    congr 1
    have hy' : ¬ y = len n := by omega
    have e1 : ¬ h.objects.length + i < h.objects.length := by omega
    have e2 : h.objects.length + i < 2 * h.objects.length := by omega
    cases hloop : h.loop
    · simp only [bnRArr, bnREnd, hloop, Bool.false_eq_true, if_false, Nat.add_sub_cancel, hy', false_and, bnR_fold h, if_neg (noget _), and_true, bnInitR, e1, if_pos e2]
      split <;> ring
    · simp only [bnRArr, bnREnd, hloop, if_true, Nat.add_sub_cancel, hy', if_false, bnR_fold h, if_neg (noget _), Bool.true_eq_false, and_false, bnInitR, e1, if_pos e2]
      ring
  · rw [eR]
    simp [bnRArr, bnREnd, hloop]
  · rw [eR]
    simp [bnRArr, bnREnd, hloop]

end Verif
