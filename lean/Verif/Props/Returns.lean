import Verif.Proof.Returns

set_option linter.unusedSectionVars false
set_option linter.unusedSimpArgs false

/-!
# C75, C76: the rewards of the supportive model
-/

namespace Verif
open Spec SupPomdp SupState

/-! ### C75 -/

/-- **C75 (same best value).**  With `reward_independent_preference`, when each leaf has a hold and the preference pays for the hold,
the best expected reward from a state does not depend on the preference.  This holds for every horizon, discount and way to average
over random numbers for which preferences do not change and unwanted holds fail.  Without these hypotheses it is false, see
`C75_false_unsupported` and `C75_false_changes`. -/
theorem C75_same_partial {t : Htm SupAction} {m : SupPomdp} (h : Constructed t m)
    (hflag : m.par.rewardIndependentPreference = true) (hcost : m.par.costHold ≤ m.par.rPreference) (hheld : EveryLeafHeld m)
    (E : Nat → (Draws → ℚ) → ℚ) (γ : ℚ) (hγ : 0 ≤ γ) (random : Bool) (hE : ∀ n, MonotoneOn (Calm m random) (E n))
    (n s s' : Nat) (hs : s < m.nStates) (hs' : s' < m.nStates) (hp : SameProgress m s s') :
    bestValue m E γ random n s = bestValue m E γ random n s' := by
  obtain ⟨css, hw⟩ := constructed_wf h
  apply le_antisymm
  · exact best_le_twin hw hflag hcost hheld E γ hγ random hE n s s' hs hs' hp
  · exact best_le_twin hw hflag hcost hheld E γ hγ random hE n s' s hs' hs ⟨hp.1.symm, fun o ho => (hp.2 o ho).symm⟩

/-- `BringTop()`, `supportive.py:58-64`. -/
def bringTop : SupAction := ⟨"Bring Top", some (none, [(cCONSUMES, "top")])⟩

/-- The default parameters, with `reward_independent_preference`. -/
def indepParams : SupParams := { rewardIndependentPreference := true }

/-- Random numbers for which nothing happens. -/
def quietDraws : Draws := ⟨fun _ => 1, fun _ => 1, 0, 0, fun _ => 1, 0, 1⟩

theorem quiet_monotone (m : SupPomdp) (hm : m.par.pChangePreference ≤ 1) (random : Bool) :
    MonotoneOn (Calm m random) (fun f => f quietDraws) := by
  intro f g h
  apply h
  intro _
  exact ⟨fun _ _ => hm, by norm_num [quietDraws]⟩

/-- The model of a task of one leaf. -/
theorem leaf_constructed (par : SupParams) (a : SupAction) (m : SupPomdp) (h : mkSupPomdp par (fun l => l) 2 (supLeaf a) = .ok m)
    (hn : nesting (supLeaf a) ≤ 2) (h1 : NonEmpty (supLeaf a)) (h2 : Built (supLeaf a)) : Constructed (supLeaf a) m :=
  ⟨h1, h2, par, fun l => l, 2, fun _ _ => Iff.rfl, hn, h⟩

theorem progress_bits (n s s' : Nat) (h : (List.range n).all (fun o => decide (s / 2 ^ o % 2 = s' / 2 ^ o % 2)) = true) :
    ∀ o < n, (present s o ↔ present s' o) := by
  intro o ho
  have := List.all_eq_true.1 h o (List.mem_range.2 ho)
  simp only [decide_eq_true_eq] at this
  unfold present
  rw [this]

/-- The model of the task `BringTop`. -/
def topModel : SupPomdp :=
  ⟨indepParams, [.leaf bringTop none none false], [[1]], [0], [[(0, 0)]], ["top"], [false], [4], [none]⟩

/-- **C75 is false for leaves without hold.**  For the task `BringTop`, with the default parameters, the best reward is 109 with the
preference and 117 without: the correction is added although no hold was possible. -/
theorem C75_false_unsupported : ∃ m, mkSupPomdp indepParams (fun l => l) 2 (supLeaf bringTop) = .ok m ∧ Constructed (supLeaf bringTop) m ∧
    (∀ n, MonotoneOn (Calm m true) ((fun _ f => f quietDraws : Nat → (Draws → ℚ) → ℚ) n)) ∧
    ∃ s < m.nStates, ∃ s' < m.nStates, SameProgress m s s' ∧ m.sampleStart 0 (fun _ => 0) (fun _ => 1) = .ok s ∧
      m.sampleStart 0 (fun _ => 1) (fun _ => 1) = .ok s' ∧
      bestValue m (fun _ f => f quietDraws) 1 true 3 s = 109 ∧ bestValue m (fun _ f => f quietDraws) 1 true 3 s' = 117 := by
  have e : mkSupPomdp indepParams (fun l => l) 2 (supLeaf bringTop) = .ok topModel := rfl
  refine ⟨topModel, e, leaf_constructed _ _ _ e (by decide) trivial trivial, ?_, 4, by decide, 0, by decide, ?_, ?_, ?_, ?_, ?_⟩
  · intro n
    exact quiet_monotone _ (by decide +kernel) _
  · exact ⟨by decide, progress_bits _ _ _ (by decide)⟩
  · decide +kernel
  · decide +kernel
  · decide +kernel
  · decide +kernel

/-- The model of the task `AssembleLeg`. -/
def legModel : SupPomdp :=
  ⟨indepParams, [.leaf (assembleLeg "leg") none none false], [[1]], [0], [[(1, 0), (0, 1), (1, 2), (1, 3)]],
    ["joints", "leg", "screwdriver", "screws"], [true, false, true, true], [4, 6, 7, 9], [some 5, none, some 8, some 10]⟩

/-- Random numbers for which the preference changes. -/
def changeDraws : Draws := { quietDraws with prefs := fun _ => 0 }

/-- An average over two cases: the preference changes with probability `p_change_preference`. -/
def changing (f : Draws → ℚ) : ℚ := 99 / 100 * f quietDraws + 1 / 100 * f changeDraws

/-- **C75 is false when preferences change.**  For the task `AssembleLeg`, with the default parameters and all the objects on the table,
the best reward in one step is different when the preference may change. -/
theorem C75_false_changes : ∃ m, mkSupPomdp indepParams (fun l => l) 2 (supLeaf (assembleLeg "leg")) = .ok m ∧
    Constructed (supLeaf (assembleLeg "leg")) m ∧ EveryLeafHeld m ∧ MonotoneOn (fun _ => True) changing ∧
    (∀ d, d = quietDraws ∨ d = changeDraws → d.hold < 98 / 100) ∧
    ∃ s < m.nStates, ∃ s' < m.nStates, SameProgress m s s' ∧
      bestValue m (fun _ => changing) 1 true 1 s = 178 / 10 ∧ bestValue m (fun _ => changing) 1 true 1 s' = 1792 / 100 := by
  have e : mkSupPomdp indepParams (fun l => l) 2 (supLeaf (assembleLeg "leg")) = .ok legModel := rfl
  refine ⟨legModel, e, leaf_constructed _ _ _ e (by decide) trivial trivial, ?_, ?_, ?_, 47, by decide, 15, by decide, ?_, ?_, ?_⟩
  · intro n hn
    simp only [legModel, List.mem_singleton] at hn
    exact ⟨_, _, _, _, _, _, hn, rfl, Or.inl rfl⟩
  · intro f g h
    have h1 := h quietDraws trivial
    have h2 := h changeDraws trivial
    unfold changing
    linarith
  · rintro d (rfl | rfl) <;> norm_num [quietDraws, changeDraws]
  · exact ⟨by decide, progress_bits _ _ _ (by decide)⟩
  · decide +kernel
  · decide +kernel

/-- The hypotheses of `C75_same_partial` hold for the task `AssembleLeg` with the default parameters. -/
example : Constructed (supLeaf (assembleLeg "leg")) legModel ∧ legModel.par.rewardIndependentPreference = true ∧
    legModel.par.costHold ≤ legModel.par.rPreference ∧ EveryLeafHeld legModel ∧
    MonotoneOn (Calm legModel true) (fun f => f quietDraws) ∧ SameProgress legModel 47 15 ∧
    bestValue legModel (fun _ f => f quietDraws) 1 true 1 47 = 18 := by
  have e : mkSupPomdp indepParams (fun l => l) 2 (supLeaf (assembleLeg "leg")) = .ok legModel := rfl
  refine ⟨leaf_constructed _ _ _ e (by decide) trivial trivial, rfl, by decide +kernel, ?_,
    quiet_monotone _ (by decide +kernel) _, ⟨by decide, progress_bits _ _ _ (by decide)⟩, ?_⟩
  · intro n hn
    simp only [legModel, List.mem_singleton] at hn
    exact ⟨_, _, _, _, _, _, hn, rfl, Or.inl rfl⟩
  · decide +kernel

/-! ### C76 -/

theorem Outcome.bound {m : SupPomdp} {css : List (List (Nat × String))} (hw : m.WF css) (hg : 0 ≤ m.par.costGet)
    (hh : 0 ≤ m.par.costHold) (hi : 0 ≤ m.par.costIntrinsic) {d : Draws} {a : Nat} {x y : SupState} {random : Bool} {o : Nat} {r : ℚ}
    (hx : SameShape (m.toState 0) x) (h : Outcome m d a x random (y, o, r)) :
    (y.htm = x.htm ∧ r ≤ 0) ∨ (x.htm = m.htmClean ∧ y.htm = m.htmFinal ∧ r ≤ m.par.rFinal) ∨
      (x.htm < m.nodes.length ∧ (∃ ss, m.succs[x.htm]? = some ss ∧ y.htm ∈ ss) ∧ r ≤ m.par.rSubtask + supportBonus m.par) := by
  have hac : 0 ≤ actCost m a := by unfold actCost; split <;> simp [hh]
  have hb1 : m.par.rPreference - m.par.costHold ≤ supportBonus m.par := le_max_right _ _
  have hb0 : 0 ≤ supportBonus m.par := le_max_left _ _
  have ut : ∀ z c, x.htm < m.nodes.length → m.updateForTransition d x x.htm = .ok (z, c) →
      ∃ ss, m.succs[x.htm]? = some ss ∧ z.htm ∈ ss := by
    intro z c hl hu
    obtain ⟨y, r, ss, h1, _, h2, h3, _⟩ := updateForTransition_spec hw d x x.htm hl hx
    rw [hu] at h1
    cases h1
    exact ⟨ss, h2, h3⟩
  cases h with
  | final => exact Or.inl ⟨rfl, by linarith⟩
  | finish _ h =>
      have := cleanCost_nonneg hg x
      exact Or.inr (Or.inl ⟨h, htm_setHtm _ _, by linarith⟩)
  | cleanHold => exact Or.inl ⟨rfl, by linarith⟩
  | failed => exact Or.inl ⟨rfl, by linarith⟩
  | good hl _ _ _ _ y c hu =>
      have := trans_cost hg hu
      exact Or.inr (Or.inr ⟨hl, ut _ _ hl hu, by linarith⟩)
  | other _ hl _ _ _ y c hu =>
      have := trans_cost hg hu
      have hc : correction m x ≤ supportBonus m.par := by unfold correction; split <;> assumption
      exact Or.inr (Or.inr ⟨hl, ut _ _ hl hu, by linarith⟩)
  | ask => exact Or.inl ⟨rfl, by linarith⟩
  | there => exact Or.inl ⟨rfl, by linarith⟩
  | missed => exact Or.inl ⟨rfl, by linarith⟩
  | moved _ obj ho =>
      exact Or.inl ⟨htm_setBit _ _ _ (by split <;> omega) (bits_lt hx obj ho), by linarith⟩

theorem run_bound {t : Htm SupAction} {m : SupPomdp} (hc : Constructed t m) {css : List (List (Nat × String))} (hw : m.WF css)
    (hg : 0 ≤ m.par.costGet) (hh : 0 ≤ m.par.costHold) (hi : 0 ≤ m.par.costIntrinsic) (hf : 0 ≤ m.par.rFinal)
    (hr : 0 ≤ m.par.rSubtask + supportBonus m.par) : ∀ (l : List (Nat × Nat × ℚ)) (s : Nat), s < m.nStates → Run m s l →
      (htmOf m s = m.htmFinal → totalReward l ≤ 0) ∧
      ∀ c : Nat, Remaining m (htmOf m s) c → totalReward l ≤ m.par.rFinal + c * (m.par.rSubtask + supportBonus m.par) := by
  intro l
  induction l with
  | nil =>
      intro s _ _
      refine ⟨fun _ => le_refl _, fun c _ => ?_⟩
      have : (0 : ℚ) ≤ c * (m.par.rSubtask + supportBonus m.par) := mul_nonneg (by positivity) hr
      show (0 : ℚ) ≤ _
      linarith
  | cons e l ih =>
      obtain ⟨a, s1, r⟩ := e
      intro s hs hrun
      obtain ⟨⟨d, random, o, hst⟩, hl⟩ := hrun
      obtain ⟨y, o', r', h1, h2, h3, h4, h5⟩ := sample_outcome hw d a s random hs (run_ok_action hc hst)
      rw [hst] at h1
      cases h1
      obtain ⟨i1, i2⟩ := ih y.s h5 hl
      have hy : htmOf m y.s = y.htm := by rw [htmOf_eq, h4]
      have hx : (m.perturb d s random).htm = htmOf m s := (perturb_spec m d s random).2.1
      have hb := h2.bound hw hg hh hi (perturb_shape m d s random)
      rw [hx, ← hy] at hb
      have et : totalReward ((a, y.s, r) :: l) = r + totalReward l := by simp [totalReward]
      rw [et]
      refine ⟨fun hfin => ?_, fun c hrem => ?_⟩
      · rcases hb with ⟨e, hr0⟩ | ⟨e, _⟩ | ⟨e, _⟩
        · have := i1 (e.trans hfin)
          linarith
        · unfold htmFinal at hfin; unfold htmClean at e; omega
        · unfold htmFinal at hfin; omega
      · rcases hb with ⟨e, hr0⟩ | ⟨e, e', hr0⟩ | ⟨e, ⟨ss, hss, hj⟩, hr0⟩
        · have := i2 c (by rw [e]; exact hrem)
          linarith
        · have := i1 e'
          have : (0 : ℚ) ≤ c * (m.par.rSubtask + supportBonus m.par) := mul_nonneg (by positivity) hr
          linarith
        · obtain ⟨hc1, hrem'⟩ := hrem.step hw e hss hj
          have := i2 (c - 1) hrem'
          have ec : ((c - 1 : Nat) : ℚ) = (c : ℚ) - 1 := by push_cast [Nat.cast_sub hc1]; ring
          rw [ec] at this
          linarith

/-- **C76 (bound on rewards).**  Whatever the actions and the random outcomes, the total reward of an episode is at most `r_final` plus,
for each subtask, `r_subtask` and `r_preference - cost_hold` (if positive): a policy cannot make more by repeating holds, moving objects
around or waiting at the end. -/
theorem C76_bound {t : Htm SupAction} {m : SupPomdp} (hc : Constructed t m) {N : Nat} (hN : WordLength t N)
    (hg : 0 ≤ m.par.costGet) (hh : 0 ≤ m.par.costHold) (hi : 0 ≤ m.par.costIntrinsic) (hf : 0 ≤ m.par.rFinal)
    (hr : 0 ≤ m.par.rSubtask + supportBonus m.par) (s : Nat) (hs : s < m.nStates) (hs' : htmOf m s ∈ m.init)
    (l : List (Nat × Nat × ℚ)) (hrun : Run m s l) :
    totalReward l ≤ m.par.rFinal + N * (m.par.rSubtask + supportBonus m.par) := by
  obtain ⟨css, hw⟩ := constructed_wf hc
  exact (run_bound hc hw hg hh hi hf hr l s hs hrun).2 N ⟨by have := hw.init_ok _ hs'; omega, fun q hq => tpath_length hc hN hs' hq⟩

/-- **C76 (after the end).**  From a final state, no sequence of actions has a positive total reward. -/
theorem C76_final {t : Htm SupAction} {m : SupPomdp} (hc : Constructed t m) (hg : 0 ≤ m.par.costGet) (hh : 0 ≤ m.par.costHold)
    (hi : 0 ≤ m.par.costIntrinsic) (hf : 0 ≤ m.par.rFinal) (hr : 0 ≤ m.par.rSubtask + supportBonus m.par) (s : Nat)
    (hs : s < m.nStates) (hs' : m.isFinal s = true) (l : List (Nat × Nat × ℚ)) (hrun : Run m s l) : totalReward l ≤ 0 := by
  obtain ⟨css, hw⟩ := constructed_wf hc
  refine (run_bound hc hw hg hh hi hf hr l s hs hrun).1 ?_
  simp only [SupPomdp.isFinal, SupState.isFinal, decide_eq_true_eq] at hs'
  have : (m.toState s).nHtm = m.nodes.length + 2 := rfl
  unfold htmFinal
  rw [htmOf_eq]
  omega

/-- The hypotheses of `C76_bound` hold for an episode of the task `AssembleLeg` from a state with all the objects: the human is held,
three tools are cleared and the human finishes; this episode brings 115 of at most 118. -/
example : ∃ l, Constructed (supLeaf (assembleLeg "leg")) legModel ∧ WordLength (supLeaf (assembleLeg "leg")) 1 ∧
    0 ≤ legModel.par.costGet ∧ 0 ≤ legModel.par.costHold ∧ 0 ≤ legModel.par.costIntrinsic ∧ 0 ≤ legModel.par.rFinal ∧
    0 ≤ legModel.par.rSubtask + supportBonus legModel.par ∧ 47 < legModel.nStates ∧ htmOf legModel 47 ∈ legModel.init ∧
    Run legModel 47 l ∧ totalReward l = 115 ∧ legModel.par.rFinal + 1 * (legModel.par.rSubtask + supportBonus legModel.par) = 118 := by
  have e : mkSupPomdp indepParams (fun l => l) 2 (supLeaf (assembleLeg "leg")) = .ok legModel := rfl
  refine ⟨[(1, 109, 18), (5, 108, -1), (8, 104, -1), (10, 96, -1), (0, 160, 100)], leaf_constructed _ _ _ e (by decide) trivial trivial,
    leaf_wordLength _, by decide +kernel, by decide +kernel, by decide +kernel, by decide +kernel, by decide +kernel, by decide, by decide,
    ?_, by decide +kernel, by decide +kernel⟩
  refine ⟨⟨quietDraws, true, 0, ?_⟩, ⟨quietDraws, true, 0, ?_⟩, ⟨quietDraws, true, 0, ?_⟩, ⟨quietDraws, true, 0, ?_⟩,
    ⟨quietDraws, true, 0, ?_⟩, trivial⟩
  all_goals decide +kernel

/-- The hypotheses of `C76_final` hold for a final state of the same task. -/
example : 128 < legModel.nStates ∧ legModel.isFinal 128 = true ∧ Run legModel 128 [(1, 128, -2)] :=
  ⟨by decide, by decide, ⟨⟨quietDraws, true, 0, by decide +kernel⟩, trivial⟩⟩

end Verif
