import Verif.Model.ScriptPlots
import Verif.Props.Script
import Verif.Props.HeatMap
import Verif.Props.PolicyPage

/-! Property C116 (the plots at the end of the scripts). -/

set_option linter.unusedSectionVars false
set_option linter.unusedSimpArgs false

namespace Verif
open Verif.Spec

theorem columnsOf_eq {values : List (List ℚ)} {n : Nat} (h0 : values ≠ []) (h : ∀ v ∈ values, v.length = n) : columnsOf values = n := by
  obtain ⟨v, l, rfl⟩ := List.exists_cons_of_ne_nil h0
  exact h v (by simp)

theorem visit_actions {g : GraphPolicy} {p : Pomdp} {maxStates fuel : Nat} {q : GraphPolicy} {y : Aux} (h : visit g p maxStates fuel = .ok (some (q, y))) :
    q.transitions.length = q.actions.length := by
  have := visit_fromDict h
  unfold GraphPolicy.fromDict at this
  cases hi : pyInt q.toDict.initial with
  | error e => rw [hi] at this; cases this
  | ok i => rw [hi] at this; exact (mkGraphPolicy_shape this).1

/-- **C116**: the two figures.  For every policy that fits the model and every visit of its beliefs, both are drawn.  In the first one, the row of a node shows
its values from the least value of the whole policy to the greatest one of the node, or is blank if these are the same.  In the second one, if a state is impossible at the start,
then no row is blank and the row of a belief shows its probabilities relatively to the greatest one. -/
theorem C116_plots (gp : GraphPolicy) (p : Pomdp) (nS nA nO : Nat) (hp : Stochastic p nS nA nO) (hf : Fits gp p nS) (hd : NamesDistinct p)
    (hs : IsDist nS p.start) (fuel : Nat) (hfu : 101 + nO ≤ fuel) :
    ∃ gp2 a b, visitPolicy gp p 100 fuel = .ok gp2 ∧ scriptPlots p gp gp2 = .ok (a, b) ∧
      (∃ m, LeastIn m gp.values.flatten ∧ ∀ (i : Nat) r, gp.values[i]? = some r →
        ∃ M, GreatestIn M r ∧ a.cells[i]? = some (r.map fun v => if M = m then none else some ((v - m) / (M - m)))) ∧
      (∀ (i : Nat) x, gp.actions[i]? = some x → a.yticks[i]? = some ((i : ℚ) + 1 / 2, showNat i ++ ": ".toList ++ nameText x)) ∧
      LabelledBy a.xticks (p.states.map nameText) ∧ a.cells.length = gp.values.length ∧
      (0 ∈ p.start → ∀ (i : Nat) r, gp2.values[i]? = some r → ∃ M, GreatestIn M r ∧ 0 < M ∧ b.cells[i]? = some (r.map fun v => some (v / M))) ∧
      (∀ (i : Nat) x, gp2.actions[i]? = some x → b.yticks[i]? = some ((i : ℚ) + 1 / 2, showNat i ++ ": ".toList ++ nameText x)) ∧
      LabelledBy b.xticks (p.states.map nameText) ∧ b.cells.length = gp2.values.length := by
  obtain ⟨q, y, v0, v1, v2, v3, v4, v5, v6, v7, v8, v9, v10, _⟩ := C49_visit gp p nS nA nO hp hf hd hs 100
  have hv := v0 fuel (by omega)
  have s5 : visitPolicy gp p 100 fuel = .ok q := by unfold visitPolicy; rw [hv]; rfl
  have hq : q.actions.length = q.values.length := by rw [← visit_actions hv, v4]
  have hq0 : q.values ≠ [] := by
    intro h
    rw [h] at v3
    cases v3
  have hn : p.states.length = nS := hp.1.1
  have hpos : 0 < nS := by
    rcases Nat.eq_zero_or_pos nS with h | h
    · have := hs.2.2
      rw [h] at this
      simp [sumRange] at this
    · exact h
  have hvl : ∀ r ∈ q.values, r.length = nS := fun r hr => (v7 r hr).1
  obtain ⟨a, m, a1, a2, a3, a4, a5, _, _, a8⟩ := C112_values hf.2.2.1 hf.1 hpos hf.2.1.symm hn
  obtain ⟨b, m', b1, b2, b3, b4, b5, _, _, b8⟩ := C112_values hvl hq0 hpos hq hn
  have half : ∀ i : Nat, ((i : ℚ) + ((i : ℚ) + 1)) / 2 = i + 1 / 2 := fun i => by ring
  refine ⟨q, a, b, s5, ?_, ⟨m, a2, a4⟩, fun i x hx => by rw [← half]; exact a8 i x hx, a5, a3, ?_, fun i x hx => by rw [← half]; exact b8 i x hx, b5, b3⟩
  · unfold scriptPlots
    rw [columnsOf_eq hf.1 hf.2.2.1, columnsOf_eq hq0 hvl, a1, b1]
    rfl
  · intro hz i r hr
    have hnn : ∀ r ∈ q.values, ∀ v ∈ r, 0 ≤ v := by
      intro r hr v hv
      obtain ⟨k, hk, rfl⟩ := List.mem_iff_getElem.1 hv
      have := (v7 r hr).2.1 k (by rw [← hvl r hr]; exact hk)
      rwa [List.getD_eq_getElem?_getD, List.getElem?_eq_getElem hk, Option.getD_some] at this
    have hm : m' = 0 := by
      refine le_antisymm (b2.2 0 (List.mem_flatten.2 ⟨_, List.mem_of_getElem? v3, hz⟩)) ?_
      obtain ⟨r', h1, h2⟩ := List.mem_flatten.1 b2.1
      exact hnn r' h1 m' h2
    obtain ⟨M, hM, h4⟩ := b4 i r hr
    have hr' := List.mem_of_getElem? hr
    have hM0 : 0 < M := by
      refine lt_of_le_of_ne (hnn r hr' M hM.1) fun h => ?_
      have h0 : sumRange nS (fun k => r.getD k 0) = sumRange nS (fun _ => 0) := sumRange_congr _ _ _ (fun k hk => by
        have hk' : k < r.length := by rw [hvl r hr']; exact hk
        show r.getD k 0 = 0
        rw [List.getD_eq_getElem?_getD, List.getElem?_eq_getElem hk', Option.getD_some]
        exact le_antisymm (h ▸ hM.2 _ (List.getElem_mem hk')) (hnn r hr' _ (List.getElem_mem hk')))
      rw [(v7 r hr').2.2] at h0
      simp [sumRange] at h0
    refine ⟨M, hM, hM0, ?_⟩
    rw [h4, hm]
    congr 1
    refine List.map_congr_left fun v _ => ?_
    rw [if_neg hM0.ne', sub_zero, sub_zero]

/-- **C116**: the figures of `samples/htm2pomdp.py` and of `samples/icra_scenario2pomdp.py`, after the script has saved its files: the second one shows the beliefs, and the
first row is that of the start, where only the first state is marked. -/
theorem C116_plots_scripts (env : ScriptEnv) (root : List String) (w : World) (d : List String) (hd : 4 ≤ env.depth) (he : GoodEnv env d w.disk)
    (nodes : List (Int × List (Option Int))) (vectors : List (List ℚ))
    (ha : ∀ p : Pomdp, p.start = nineStart → p.actions.length = 37 → p.observations.length = 4 → WritesPolicy env.mach p d nodes vectors)
    (h : HtmParams) (t : Htm CAction) (name : String) (hscript : (h = icraParams ∧ t = stoolTask) ∨ (h = chairParams ∧ t = chairTask))
    (p : Pomdp) (gp gp2 : GraphPolicy) (w' : World) (hr : policyScript env h t root name w = (.ok (p, gp, gp2), w')) :
    ∃ a b, scriptPlots p gp gp2 = .ok (a, b) ∧
      (∃ m, LeastIn m vectors.flatten ∧ ∀ (i : Nat) r, vectors[i]? = some r →
        ∃ M, GreatestIn M r ∧ a.cells[i]? = some (r.map fun v => if M = m then none else some ((v - m) / (M - m)))) ∧
      (∀ (i : Nat) r, gp2.values[i]? = some r → ∃ M, GreatestIn M r ∧ 0 < M ∧ b.cells[i]? = some (r.map fun v => some (v / M))) ∧
      b.cells[0]? = some (some 1 :: List.replicate 27 (some 0)) ∧
      LabelledBy a.xticks (p.states.map nameText) ∧ LabelledBy b.xticks (p.states.map nameText) := by
  obtain ⟨path, hpath⟩ := he.2.2.2.2.2.1
  have hgt : GoodTask h t ∧ callDepth t ≤ env.depth ∧ ∀ p, htmToPomdp env.solver env.exp nameRadix h env.depth t = .ok p →
      p.states.length = 28 ∧ p.actions.length = 37 ∧ p.observations = ["none", "yes", "no", "error"].map Name.str ∧ p.start = nineStart := by
    rcases hscript with ⟨rfl, rfl⟩ | ⟨rfl, rfl⟩
    · have hcd : callDepth stoolTask ≤ env.depth := le_trans (by decide) hd
      exact ⟨stool_goodTask, hcd, fun p hp => nine_model path env.exp icraParams env.depth stoolTask stoolTree stool_goodTask hcd rfl (stoolTree_eq env.depth hd) rfl
        (by decide) (by decide +kernel) p (hpath ▸ hp)⟩
    · have hcd : callDepth chairTask ≤ env.depth := le_trans (by decide) hd
      exact ⟨chair_goodTask, hcd, fun p hp => nine_model path env.exp chairParams env.depth chairTask chairTree chair_goodTask hcd rfl (chairTree_eq env.depth hd) rfl
        (by decide) (by decide +kernel) p (hpath ▸ hp)⟩
  obtain ⟨hg, hcd, hm⟩ := hgt
  obtain ⟨he1, he2, he3, he4, he5, -, he7, he8⟩ := he
  obtain ⟨q, nS, nA, nO, p1, p2, p3, p4, p5, p6⟩ := goodTask_pomdp path env.exp h env.depth t hg he7 hcd
  rw [← hpath] at p1
  unfold policyScript at hr
  rw [M.bind_run] at hr
  simp only [M.lift, p1] at hr
  obtain ⟨g, w1, h1, hr⟩ := M.bind_ok hr
  obtain ⟨_, w2, -, hr⟩ := M.bind_ok hr
  obtain ⟨_, w3, -, hr⟩ := M.bind_ok hr
  obtain ⟨_, w4, -, hr⟩ := M.bind_ok hr
  obtain ⟨g2, w5, h5, hr⟩ := M.bind_ok hr
  obtain ⟨_, w6, -, hr⟩ := M.bind_ok hr
  have hr : (Except.ok (q, g, g2), w6) = ((Except.ok (p, gp, gp2), w') : Py _ × World) := hr
  cases hr
  obtain ⟨m1, m2, m3, m4⟩ := hm p p1
  obtain ⟨text, htext⟩ := p6 env.mach.fmt env.mach.strNum
  obtain ⟨g', g1, _, _, _, e5, _, g7, _⟩ := solve_ok env.mach p none (some 500) "grid" none none true w d he1 text htext nodes vectors
    (ha p m4 m2 (by rw [m3]; rfl))
  rw [h1] at g1
  cases g1
  have hlen : p.start.length = nS := p4.1
  rw [hlen] at g7
  obtain ⟨gp2', a, b, c1, c2, c3, _, c5, _, c7, _, c9, _⟩ := C116_plots gp p nS nA nO p2 g7 p3 p4 env.fuel (by omega)
  have h5 : visitPolicy gp p 100 env.fuel = .ok gp2 := congrArg Prod.fst h5
  rw [c1] at h5
  cases h5
  rw [e5] at c3
  have c7 := c7 (by rw [m4]; decide +kernel)
  obtain ⟨q', y, v0, _, _, v3, _⟩ := C49_visit gp p nS nA nO p2 g7 p3 p4 100
  have hv : visitPolicy gp p 100 env.fuel = .ok q' := by unfold visitPolicy; rw [v0 env.fuel (by omega)]; rfl
  rw [c1] at hv
  cases hv
  refine ⟨a, b, c2, c3, c7, ?_, c5, c9⟩
  obtain ⟨M, hM, _, hb⟩ := c7 0 _ v3
  rw [m4] at hM hb
  have hM1 : M = 1 := by
    refine le_antisymm ?_ (hM.2 1 (by decide +kernel))
    have : ∀ x ∈ nineStart, x ≤ 1 := by decide +kernel
    exact this M hM.1
  rw [hb, hM1]
  decide +kernel

/-- Non-vacuity: the script of the stool runs and its figures are drawn. -/
example (policies : Json GraphDict) (trees : Json (List TTree)) (h1 : ∀ i x, policies.loads (policies.dumps i x) = .ok x)
    (h2 : ∀ i x, trees.loads (trees.dumps i x) = .ok x) :
    ∃ p gp gp2 w' a b, policyScript ⟨waitMachine, policies, trees, some "pomdp-solve", fun _ => 1 / 2, 10, 200⟩ icraParams stoolTask ["repo"] "icra.json" ⟨repoDisk, []⟩ =
      (.ok (p, gp, gp2), w') ∧ scriptPlots p gp gp2 = .ok (a, b) := by
  have he : GoodEnv ⟨waitMachine, policies, trees, some "pomdp-solve", fun _ => 1 / 2, 10, 200⟩ ["tmp", "abc"] repoDisk :=
    ⟨rfl, repoDisk_fresh, waitMachine_inside, h1, h2, ⟨_, rfl⟩, fun _ _ => by norm_num, show 106 ≤ 200 by decide⟩
  obtain ⟨p, gp, gp2, w', h, _⟩ := C116_stool_partial ⟨waitMachine, policies, trees, some "pomdp-solve", fun _ => 1 / 2, 10, 200⟩ ["repo"] ⟨repoDisk, []⟩
    ["tmp", "abc"] (show 4 ≤ 10 by decide) he
    [(0, [some 0, some 0, some 0, some 0])] [List.replicate 28 1] waitMachine_answers (by simp [repoDisk]) (by simp [repoDisk])
  obtain ⟨a, b, hab, _⟩ := C116_plots_scripts _ ["repo"] ⟨repoDisk, []⟩ ["tmp", "abc"] (show 4 ≤ 10 by decide) he
    [(0, [some 0, some 0, some 0, some 0])] [List.replicate 28 1] waitMachine_answers icraParams stoolTask "icra.json" (.inl ⟨rfl, rfl⟩) p gp gp2 w' h
  exact ⟨p, gp, gp2, w', a, b, h, hab⟩

end Verif
