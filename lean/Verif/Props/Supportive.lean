import Verif.Proof.Supportive
import Verif.Spec.Supportive
import Verif.Props.Dag
import Verif.Proof.DagLeaves

/-! Properties C25 to C28 of the supportive POMDP. -/

set_option linter.unusedSectionVars false
set_option linter.unusedSimpArgs false

namespace Verif
open Spec SupState SupPomdp

theorem constructed_wf {t : Htm SupAction} {m : SupPomdp} (h : Constructed t m) : ∃ css, m.WF css := by
  obtain ⟨hne, hb, par, uniq, limit, hu, hl, hm⟩ := h
  exact (mk_wf par uniq hu limit t hne hb hl m hm).1

theorem htmOf_eq (m : SupPomdp) (s : Nat) : htmOf m s = (m.toState s).htm := rfl

/-! ### C25 -/

/-- **C25 (transitions).**  For every task, state and action in range and all random draws, `sample_transition` returns a
state and an observation in range. -/
theorem C25_transition {t : Htm SupAction} {m : SupPomdp} (h : Constructed t m) (d : Draws) (a s : Nat) (random : Bool)
    (hs : s < m.nStates) (ha : a < m.nActions) :
    ∃ s' o r, m.sampleTransition d a s random = .ok (s', o, r) ∧ s' < m.nStates ∧ o < nObservations := by
  obtain ⟨css, hw⟩ := constructed_wf h
  obtain ⟨s', o, r, h1, h2, h3, _⟩ := step_spec hw d a s random hs ha
  exact ⟨s', o, r, h1, h2, h3⟩

/-- **C25 (unknown actions).**  An action index that is not below `n_actions` raises `ValueError`. -/
theorem C25_unknownAction {t : Htm SupAction} {m : SupPomdp} (h : Constructed t m) (d : Draws) (a s : Nat) (random : Bool)
    (ha : m.nActions ≤ a) : m.sampleTransition d a s random = .error .valueError := by
  obtain ⟨css, hw⟩ := constructed_wf h
  have h4 : 4 ≤ a := by
    unfold nActions at ha
    omega
  rw [sampleTransition_eq]
  unfold branch objectStep
  rw [if_neg (by omega), if_neg (by omega), objFromAction_error hw a (Or.inr ha)]
  rfl

theorem sampleStart_spec {m : SupPomdp} {css : List (List (Nat × String))} (hw : m.WF css)
    (hp : m.par.pPreferences.length ≤ m.par.nPreferences) (c : Nat) (u v : Nat → ℚ) :
    ∃ s, m.sampleStart c u v = .ok s ∧ (m.toState s).htm ∈ m.init ∧ s < m.nStates := by
  obtain ⟨h, hh, hc⟩ := choose_mem m.init c hw.init_ne
  have hx : ∀ (l : List (ℚ × Nat)) (x : SupState), SameShape (m.toState 0) x → (∀ pi ∈ l, pi.2 < m.par.nPreferences) →
      SameShape (m.toState 0) (l.foldl (fun x pi => x.setPref pi.2 (if u pi.2 < pi.1 then 1 else 0)) x) ∧
      (l.foldl (fun x pi => x.setPref pi.2 (if u pi.2 < pi.1 then 1 else 0)) x).htm = x.htm := by
    intro l
    induction l with
    | nil => intro x hx _; exact ⟨hx, rfl⟩
    | cons pi l ih =>
      intro x hx hl
      have h1 : x.shiftPref = m.objects.length + 1 := hx.2.1.symm
      have h2 : x.shiftHtm = m.objects.length + 1 + m.par.nPreferences := hx.2.2.1.symm
      have h3 := hl pi (by simp)
      obtain ⟨g1, g2⟩ := ih (x.setPref pi.2 (if u pi.2 < pi.1 then 1 else 0)) (hx.trans ⟨rfl, rfl, rfl, rfl⟩)
        (fun p hp => hl p (by simp [hp]))
      refine ⟨g1, g2.trans ?_⟩
      exact htm_setBit x (x.shiftPref + pi.2) _ (by split <;> omega) (by omega)
  obtain ⟨h1, h2⟩ := hx m.par.pPreferences.zipIdx ((m.toState 0).setHtm h) ⟨rfl, rfl, rfl, rfl⟩ (by
    intro pi hpi
    have := List.snd_lt_of_mem_zipIdx hpi
    simp at this
    omega)
  obtain ⟨h3, h4, _⟩ := randomObjects_spec
    (m.par.pPreferences.zipIdx.foldl (fun x pi => x.setPref pi.2 (if u pi.2 < pi.1 then 1 else 0)) ((m.toState 0).setHtm h))
    (by
      unfold SupState.nObjects
      rw [← h1.1, ← h1.2.2.1]
      show m.objects.length ≤ m.objects.length + 1 + m.par.nPreferences
      omega) v m.par.pChangedByHuman
  have h5 := toState_of_sameShape (h1.trans h3)
  rw [h2, htm_setHtm] at h4
  refine ⟨_, by simp [sampleStart, hc, bind, Except.bind, pure, Except.pure]; rfl, ?_, ?_⟩
  · rw [h5, h4]; exact hh
  · rw [lt_nStates, h5, h4]
    have := hw.init_ok h hh
    show h < m.nodes.length + 2
    omega

/-- **C25 (start).**  When there are no more preference probabilities than preferences (the defaults are one of each),
`sample_start` returns a state in range, whose HTM value is an initial leaf. -/
theorem C25_start {t : Htm SupAction} {m : SupPomdp} (h : Constructed t m)
    (hp : m.par.pPreferences.length ≤ m.par.nPreferences) (c : Nat) (u v : Nat → ℚ) :
    ∃ s, m.sampleStart c u v = .ok s ∧ s < m.nStates ∧ htmOf m s ∈ m.init := by
  obtain ⟨css, hw⟩ := constructed_wf h
  obtain ⟨s, h1, h2, h3⟩ := sampleStart_spec hw hp c u v
  exact ⟨s, h1, h3, h2⟩

/-- **C25 (counter).**  Each call adds one to the counter of simulator calls, whether it succeeds or raises. -/
theorem C25_counter (m : SupPomdp) (d : Draws) (a s : Nat) (random : Bool) (calls : Nat) :
    (m.counted d a s random calls).2 = calls + 1 ∧ (m.counted d a s random calls).1 = m.sampleTransition d a s random :=
  ⟨rfl, rfl⟩

/-! ### C26 -/

/-- Complete paths of HTM values from a given one. -/
inductive TPath (m : SupPomdp) : Nat → List Nat → Prop
  | final : TPath m m.htmFinal [m.htmFinal]
  | clean : TPath m m.htmClean [m.htmClean, m.htmFinal]
  | step (h j : Nat) (ss : List Nat) (q : List Nat) (hlt : h < m.nodes.length) (hs : m.succs[h]? = some ss) (hj : j ∈ ss)
      (hq : TPath m j q) : TPath m h (h :: q)

theorem exists_tpath {m : SupPomdp} {css : List (List (Nat × String))} (hw : m.WF css) (n : Nat) :
    ∀ h, m.nodes.length - h ≤ n → h < m.nHtmStates → ∃ q, TPath m h q := by
  induction n with
  | zero =>
    intro h hn hlt
    unfold nHtmStates at hlt
    rcases Nat.lt_or_ge m.nodes.length h with h1 | h1
    · have : h = m.htmFinal := by unfold htmFinal; omega
      subst this
      exact ⟨_, .final⟩
    · have : h = m.htmClean := by unfold htmClean; omega
      subst this
      exact ⟨_, .clean⟩
  | succ n ih =>
    intro h hn hlt
    rcases Nat.lt_or_ge h m.nodes.length with h1 | h1
    · obtain ⟨ss, hss⟩ : ∃ ss, m.succs[h]? = some ss := ⟨_, List.getElem?_eq_getElem (by rw [hw.succs_len]; exact h1)⟩
      obtain ⟨g1, g2⟩ := hw.succs_ok h ss hss
      obtain ⟨j, hj⟩ := List.exists_mem_of_ne_nil ss g1
      have := g2 j hj
      obtain ⟨q, hq⟩ := ih j (by omega) (by unfold nHtmStates; omega)
      exact ⟨_, .step h j ss q h1 hss hj hq⟩
    · exact ih h (by omega) hlt

theorem tpath_head {m : SupPomdp} {h : Nat} {q : List Nat} (hq : TPath m h q) : ∃ q', q = h :: q' := by
  cases hq with
  | final => exact ⟨_, rfl⟩
  | clean => exact ⟨_, rfl⟩
  | step => exact ⟨_, rfl⟩

theorem run_ok_action {t : Htm SupAction} {m : SupPomdp} (hc : Constructed t m) {d : Draws} {a s : Nat} {random : Bool}
    {x : Nat × Nat × ℚ} (h : m.sampleTransition d a s random = .ok x) : a < m.nActions := by
  by_contra hn
  rw [C25_unknownAction hc d a s random (by omega)] at h
  cases h

theorem run_step {t : Htm SupAction} {m : SupPomdp} {css : List (List (Nat × String))} (hc : Constructed t m) (hw : m.WF css)
    {d : Draws} {a s s' o : Nat} {r : ℚ} {random : Bool} (hs : s < m.nStates)
    (h : m.sampleTransition d a s random = .ok (s', o, r)) :
    s' < m.nStates ∧ m.Edge a (m.toState s).htm (m.toState s').htm := by
  obtain ⟨s1, o1, r1, h1, h2, _, h3⟩ := step_spec hw d a s random hs (run_ok_action hc h)
  rw [h] at h1
  cases h1
  exact ⟨h2, h3⟩

theorem visited_prefix {t : Htm SupAction} {m : SupPomdp} {css : List (List (Nat × String))} (hc : Constructed t m)
    (hw : m.WF css) (l : List (Nat × Nat × ℚ)) :
    ∀ s, s < m.nStates → Run m s l →
    ∃ q, TPath m (m.toState s).htm q ∧
      List.destutter' (· ≠ ·) (htmOf m s) (l.map fun x => htmOf m x.2.1) <+: q := by
  induction l with
  | nil =>
    intro s hs _
    obtain ⟨q, hq⟩ := exists_tpath hw _ (m.toState s).htm (Nat.le_refl _) ((lt_nStates m s).1 hs)
    obtain ⟨q', rfl⟩ := tpath_head hq
    exact ⟨_, hq, by simp [htmOf_eq]⟩
  | cons x l ih =>
    obtain ⟨a, s', r⟩ := x
    intro s hs hr
    obtain ⟨⟨d, random, o, h1⟩, h2⟩ := hr
    obtain ⟨h3, h4⟩ := run_step hc hw hs h1
    obtain ⟨q, hq, hp⟩ := ih s' h3 h2
    simp only [List.map_cons, List.destutter'_cons]
    by_cases he : htmOf m s = htmOf m s'
    · rw [if_neg (by simpa using he), he]
      refine ⟨q, ?_, hp⟩
      rw [← htmOf_eq, he]
      exact hq
    · rw [if_pos he]
      rcases h4 with h4 | ⟨_, hlt, ss, hss, hj⟩ | ⟨_, h5, h6⟩
      · exact absurd (show htmOf m s = htmOf m s' from h4.symm) he
      · refine ⟨_, .step _ _ ss q hlt hss hj hq, ?_⟩
        rw [htmOf_eq]
        exact (List.prefix_cons_inj _).2 hp
      · rw [h6] at hq
        have hqf : q = [m.htmFinal] := by
          generalize hf : m.htmFinal = f at hq
          cases hq with
          | final => exact hf ▸ rfl
          | clean => unfold htmFinal htmClean at hf; omega
          | step h j ss q' hlt => unfold htmFinal at hf; omega
        subst hqf
        rw [h5]
        refine ⟨_, .clean, ?_⟩
        rw [htmOf_eq, h5]
        exact (List.prefix_cons_inj _).2 hp

/-- The part of a complete path inside the task. -/
theorem tpath_dag {m : SupPomdp} (d : Dag SupAction) (hn : m.nodes = d.nodes)
    (hs : m.succs = d.succs.map (fun s => if s.length = 0 then [d.nodes.length] else s))
    (hlt : ∀ (i : Nat) (ss : List Nat), d.succs[i]? = some ss → ∀ j ∈ ss, j < d.nodes.length)
    {h : Nat} {q : List Nat} (hq : TPath m h q) :
    h < d.nodes.length → ∃ p w, q = p ++ [d.nodes.length, d.nodes.length + 1] ∧ p.head? = some h ∧ IsDagPath d.succs p ∧
      List.Forall₂ (fun i n => m.htmNames[i]? = some n) p w ∧ DagPath (d.nodes.map (Htm.name SupAction.ops)) d.succs h w := by
  have hname : ∀ h, h < d.nodes.length → ∃ n, m.htmNames[h]? = some n ∧ (d.nodes.map (Htm.name SupAction.ops))[h]? = some n := by
    intro h hlt
    refine ⟨Htm.name SupAction.ops d.nodes[h], ?_, by simp [List.getElem?_eq_getElem hlt]⟩
    unfold htmNames
    rw [hn, List.getElem?_append_left (by simpa using hlt)]
    simp [List.getElem?_eq_getElem hlt]
  induction hq with
  | final => intro h; unfold htmFinal at h; rw [hn] at h; omega
  | clean => intro h; unfold htmClean at h; rw [hn] at h; omega
  | step h j ss q hl hss hj hq ih =>
    intro hlt'
    obtain ⟨n, hn1, hn2⟩ := hname h hlt'
    rw [hs, List.getElem?_map, Option.map_eq_some_iff] at hss
    obtain ⟨s0, hs0, rfl⟩ := hss
    by_cases h0 : s0.length = 0
    · rw [if_pos h0] at hj
      have h0' : s0 = [] := List.length_eq_zero_iff.1 h0
      subst h0'
      simp only [List.mem_singleton] at hj
      subst hj
      have hqf : q = [d.nodes.length, d.nodes.length + 1] := by
        generalize hf : d.nodes.length = f at hq
        cases hq with
        | final => unfold htmFinal at hf; rw [hn] at hf; omega
        | clean => simp [htmClean, htmFinal, hn]
        | step h j ss q' hlt => rw [hn] at hlt; omega
      subst hqf
      exact ⟨[h], [n], rfl, rfl, ⟨.singleton _, h, rfl, hs0⟩, .cons hn1 .nil, .last h n hn2 hs0⟩
    · rw [if_neg h0] at hj
      obtain ⟨p, w, h1, h2, h3, h4, h5⟩ := ih (hlt h s0 hs0 j hj)
      obtain ⟨p', rfl⟩ : ∃ p', p = j :: p' := by
        cases p with
        | nil => simp at h2
        | cons x p' => simp at h2; exact ⟨p', by rw [h2]⟩
      refine ⟨h :: j :: p', n :: w, by simp [h1], rfl, ⟨?_, ?_⟩, .cons hn1 h4, .step h j n s0 w hn2 hs0 hj h5⟩
      · exact List.IsChain.cons_cons ⟨s0, hs0, hj⟩ h3.1
      · obtain ⟨i, hi, hi'⟩ := h3.2
        exact ⟨i, by rw [List.getLast?_cons_cons]; exact hi, hi'⟩

/-- **C26 (episodes follow the task).**  In every episode from `sample_start`, whatever the actions and the random
draws, the HTM values (without repetitions) are an initial segment of a path of the DAG of the task, from an initial
leaf to a leaf without successor, followed by the clean value and the final value.  The names of the leaves along this
path are one of the orders that the task allows. -/
theorem C26_path {t : Htm SupAction} {m : SupPomdp} (h : Constructed t m)
    (hp : m.par.pPreferences.length ≤ m.par.nPreferences) (c : Nat) (u v : Nat → ℚ) (s : Nat)
    (hs : m.sampleStart c u v = .ok s) (l : List (Nat × Nat × ℚ)) (hr : Run m s l) :
    ∃ (uniq : List Nat → List Nat) (limit : Nat) (init : List Nat) (d : Dag SupAction) (p : List Nat) (w : List String),
      htmToDag SupAction.ops uniq limit t = .ok (init, d) ∧ (∃ i ∈ init, p.head? = some i) ∧ IsDagPath d.succs p ∧
      List.Forall₂ (fun i n => m.htmNames[i]? = some n) p w ∧ lin SupAction.ops orderRen (fun s => s) t w ∧
      visited m s l <+: p ++ [d.nodes.length, d.nodes.length + 1] ∧ m.nodes = d.nodes := by
  obtain ⟨css, hw⟩ := constructed_wf h
  obtain ⟨s1, g1, g2, g3⟩ := sampleStart_spec hw hp c u v
  rw [hs] at g1
  cases g1
  have h' := h
  obtain ⟨hne, hb, par, uniq, limit, hu, hl, hm⟩ := h'
  obtain ⟨_, _, d, hd, hn, hsu, _⟩ := mk_wf par uniq hu limit t hne hb hl m hm
  obtain ⟨init', d', h1, h2, _, _, h5, h6⟩ := C22_language SupAction.ops uniq hu (fun i a => ⟨_, rfl, rfl⟩) t hne hb limit hl
  rw [hd] at h1
  cases h1
  obtain ⟨q, hq, hpre⟩ := visited_prefix h hw l s g3 hr
  obtain ⟨p, w, e1, e2, e3, e4, e5⟩ := tpath_dag d hn hsu (fun i ss hss j hj => (h6 i ss hss j hj).2) hq (h5 _ g2)
  refine ⟨uniq, limit, m.init, d, p, w, hd, ⟨_, g2, e2⟩, e3, e4, (h2 w).1 ⟨_, g2, e5⟩, ?_, hn⟩
  unfold visited
  simp only [List.map_cons, List.map_map]
  rw [List.destutter_cons', ← e1]
  exact hpre

/-- **C26 (final is absorbing).** -/
theorem C26_absorbing {t : Htm SupAction} {m : SupPomdp} (h : Constructed t m) (d : Draws) (a s : Nat) (random : Bool)
    (s' o : Nat) (r : ℚ) (hs : s < m.nStates) (hf : m.isFinal s = true)
    (ht : m.sampleTransition d a s random = .ok (s', o, r)) : m.isFinal s' = true := by
  obtain ⟨css, hw⟩ := constructed_wf h
  obtain ⟨_, h2⟩ := run_step h hw hs ht
  have hf' : (m.toState s).htm = m.nodes.length + 1 := by
    simp only [SupPomdp.isFinal, SupState.isFinal, decide_eq_true_eq] at hf
    have : (m.toState s).nHtm = m.nodes.length + 2 := rfl
    omega
  have hn : (m.toState s').nHtm = m.nodes.length + 2 := rfl
  simp only [SupPomdp.isFinal, SupState.isFinal, decide_eq_true_eq]
  rcases h2 with h2 | ⟨_, h2, _⟩ | ⟨_, h2, h3⟩
  · omega
  · omega
  · unfold htmFinal at h3; omega

theorem updateForConditions_withFinalReward (m : SupPomdp) (v : ℚ) (u : Nat → ℚ) (cos : List ((Nat × Nat) × Nat)) :
    ∀ x, (withFinalReward m v).updateForConditions u cos x = m.updateForConditions u cos x := by
  induction cos with
  | nil => intro x; rfl
  | cons co cos ih =>
    intro x
    simp only [updateForConditions, ih]
    rfl

theorem taskStep_withFinalReward (m : SupPomdp) (v : ℚ) (d : Draws) (a : Nat) (x new : SupState) (random : Bool) (r : ℚ) :
    (withFinalReward m v).taskStep d a x new random r = m.taskStep d a x new random r := by
  have : ∀ node, (withFinalReward m v).updateForTransition d new node = m.updateForTransition d new node := by
    intro node
    unfold updateForTransition
    simp only [updateForConditions_withFinalReward]
    rfl
  unfold taskStep
  simp only [this]
  rfl

/-- **C26 (the final reward).**  A transition has the same outcome in the model whose final reward is 0, except that
its reward is less by `r_final` exactly when it goes from the clean to the final HTM value. -/
theorem C26_paid {t : Htm SupAction} {m : SupPomdp} (h : Constructed t m) (d : Draws) (a s : Nat) (random : Bool)
    (hs : s < m.nStates) (s' o : Nat) (r : ℚ) (ht : m.sampleTransition d a s random = .ok (s', o, r)) :
    (withFinalReward m 0).sampleTransition d a s random =
      .ok (s', o, r - if Finishes m s s' then m.par.rFinal else 0) := by
  obtain ⟨css, hw⟩ := constructed_wf h
  obtain ⟨hs', hE⟩ := run_step h hw hs ht
  have hwp : (withFinalReward m 0).perturb d s random = m.perturb d s random := rfl
  rw [sampleTransition_eq, hwp]
  rw [sampleTransition_eq] at ht
  obtain ⟨hp1, hp2, _, _⟩ := perturb_spec m d s random
  generalize m.perturb d s random = x at *
  have hobj : ∀ y, (withFinalReward m 0).objectStep d a x y random = m.objectStep d a x y random := fun y => rfl
  -- cases without the final reward
  have same : ¬ Finishes m s s' → (withFinalReward m 0).branch d a x x random = m.branch d a x x random →
      (do let r ← (withFinalReward m 0).branch d a x x random
          return (r.1.s, r.2.1, r.2.2) : Py (Nat × Nat × ℚ)) = .ok (s', o, r - if Finishes m s s' then m.par.rFinal else 0) := by
    intro hn he
    rw [he, ht, if_neg hn, sub_zero]
  by_cases ha0 : (a = 0 ∨ a = 1 ∨ a = 2)
  · by_cases hfin : x.isFinal = true
    · refine same ?_ ?_
      · rintro ⟨hx, _⟩
        simp only [SupState.isFinal, decide_eq_true_eq] at hfin
        have : x.nHtm = m.nodes.length + 2 := hp1.2.2.2.symm
        rw [htmOf_eq, ← hp2] at hx
        omega
      · unfold branch waitStep
        simp only [if_pos ha0, if_pos hfin]
        rfl
    · by_cases hcl : x.htm = m.htmClean
      · by_cases ha : a = 0
        · have hpay : Finishes m s s' := by
            refine ⟨by rw [htmOf_eq, ← hp2]; exact hcl, ?_⟩
            unfold branch waitStep at ht
            rw [if_pos ha0] at ht
            simp only [if_neg hfin, if_pos hcl, if_pos ha, bind, Except.bind, pure, Except.pure, Except.ok.injEq,
              Prod.mk.injEq] at ht
            rw [← ht.1, htmOf_eq]
            have hsh : SameShape (m.toState s) (x.setHtm m.htmFinal) := hp1.trans ⟨rfl, rfl, rfl, rfl⟩
            rw [toState_of_sameShape hsh, htm_setHtm]
            rfl
          rw [if_pos hpay]
          unfold branch waitStep at ht ⊢
          rw [if_pos ha0] at ht ⊢
          have hcl' : x.htm = (withFinalReward m 0).htmClean := hcl
          simp only [if_neg hfin, if_pos hcl, if_pos hcl', if_pos ha, bind, Except.bind, pure, Except.pure, Except.ok.injEq,
            Prod.mk.injEq] at ht ⊢
          obtain ⟨e1, e2, e3⟩ := ht
          refine ⟨e1, e2, ?_⟩
          rw [← e3, add_sub_cancel_right]
          show _ + (0 : ℚ) = _
          rw [add_zero]
          rfl
        · refine same ?_ ?_
          · rintro ⟨h1, h2⟩
            rcases hE with h3 | ⟨_, h3, _⟩ | ⟨h3, _⟩
            · rw [htmOf_eq] at h1 h2; omega
            · rw [htmOf_eq] at h1; omega
            · exact ha h3
          · have hcl' : x.htm = (withFinalReward m 0).htmClean := hcl
            unfold branch waitStep
            simp only [if_pos ha0, if_neg hfin, if_pos hcl, if_pos hcl', if_neg ha]
            rfl
      · refine same ?_ ?_
        · rintro ⟨h1, _⟩
          exact hcl (by rw [hp2]; exact h1)
        · have hcl' : ¬ x.htm = (withFinalReward m 0).htmClean := hcl
          unfold branch waitStep
          simp only [if_pos ha0, if_neg hfin, if_neg hcl, if_neg hcl', taskStep_withFinalReward]
          rfl
  · refine same ?_ ?_
    · rintro ⟨h1, h2⟩
      rcases hE with h3 | ⟨h3, _⟩ | ⟨h3, _⟩
      · rw [htmOf_eq] at h1 h2; omega
      · exact ha0 h3
      · exact ha0 (Or.inl h3)
    · unfold branch
      simp only [if_neg ha0]
      split <;> rfl

/-- **C26 (paid at most once).**  An episode contains at most one transition that grants `r_final`; if it starts in a
state that is not final, it contains one exactly when its last state is final. -/
theorem C26_once {t : Htm SupAction} {m : SupPomdp} (h : Constructed t m) (l : List (Nat × Nat × ℚ)) :
    ∀ s, s < m.nStates → Run m s l → finishes m s l ≤ 1 ∧
      (m.isFinal s = true → finishes m s l = 0 ∧ m.isFinal (lastState s l) = true) ∧
      (m.isFinal s = false → (finishes m s l = 1 ↔ m.isFinal (lastState s l) = true)) := by
  obtain ⟨css, hw⟩ := constructed_wf h
  have hf : ∀ s, m.isFinal s = true ↔ htmOf m s = m.nodes.length + 1 := by
    intro s
    have hn : (m.toState s).nHtm = m.nodes.length + 2 := rfl
    simp only [SupPomdp.isFinal, SupState.isFinal, decide_eq_true_eq, htmOf_eq]
    omega
  induction l with
  | nil =>
    intro s hs _
    refine ⟨Nat.zero_le _, fun h => ⟨rfl, h⟩, fun h => ?_⟩
    simp [finishes, lastState, h]
  | cons x l ih =>
    obtain ⟨a, s', r⟩ := x
    rintro s hs ⟨⟨d, random, o, h1⟩, h2⟩
    obtain ⟨h3, hE⟩ := run_step h hw hs h1
    obtain ⟨i1, i2, i3⟩ := ih s' h3 h2
    simp only [finishes, lastState]
    by_cases hfs : m.isFinal s = true
    · have hfs' := C26_absorbing h d a s random s' o r hs hfs h1
      obtain ⟨j1, j2⟩ := i2 hfs'
      have hnp : ¬ Finishes m s s' := by
        rintro ⟨h4, _⟩
        rw [hf] at hfs
        omega
      rw [if_neg hnp, j1]
      exact ⟨by omega, fun _ => ⟨rfl, j2⟩, fun h' => by rw [hfs] at h'; cases h'⟩
    · by_cases hfs' : m.isFinal s' = true
      · obtain ⟨j1, j2⟩ := i2 hfs'
        have hp : Finishes m s s' := by
          rw [hf] at hfs hfs'
          refine ⟨?_, hfs'⟩
          rw [htmOf_eq] at hfs hfs' ⊢
          rcases hE with h4 | ⟨_, h4, ss, hss, hj⟩ | ⟨_, h4, _⟩
          · omega
          · have := (hw.succs_ok _ _ hss).2 _ hj
            omega
          · exact h4
        rw [if_pos hp, j1]
        exact ⟨by omega, fun h' => absurd h' hfs, fun _ => ⟨fun _ => j2, fun _ => rfl⟩⟩
      · have hnp : ¬ Finishes m s s' := by
          rintro ⟨_, h4⟩
          exact hfs' ((hf s').2 h4)
        rw [if_neg hnp, Nat.zero_add]
        exact ⟨i1, fun h' => absurd h' hfs, fun _ => i3 (by simpa using hfs')⟩

/-! ### C27 -/

/-- The names of the bring and clear actions. -/
def objectNames (oc : List (String × Bool)) : List String :=
  (oc.map fun oc => ["bring " ++ oc.1] ++ if oc.2 then ["clear " ++ oc.1] else []).flatten

theorem objectNames_length (oc : List (String × Bool)) :
    (objectNames oc).length = oc.length + trues (oc.map Prod.snd) := by
  induction oc with
  | nil => rfl
  | cons x oc ih =>
    obtain ⟨o, c⟩ := x
    have : objectNames ((o, c) :: oc) = (["bring " ++ o] ++ if c then ["clear " ++ o] else []) ++ objectNames oc := rfl
    rw [this, List.length_append, ih]
    cases c <;> simp [trues] <;> omega

theorem objectNames_at (oc : List (String × Bool)) : ∀ j,
    (∀ (k : Nat) (x : String × Bool), oc[k]? = some x → ∃ a, (objectActions (oc.map Prod.snd) j).1[k]? = some a ∧ j ≤ a ∧
      (objectNames oc)[a - j]? = some ("bring " ++ x.1)) ∧
    (∀ (k a : Nat) (x : String × Bool), oc[k]? = some x → (objectActions (oc.map Prod.snd) j).2[k]? = some (some a) → j ≤ a ∧
      (objectNames oc)[a - j]? = some ("clear " ++ x.1)) := by
  induction oc with
  | nil => intro j; simp
  | cons y oc ih =>
    obtain ⟨o, c⟩ := y
    intro j
    obtain ⟨h1, h2⟩ := ih (if c then j + 2 else j + 1)
    have hn : objectNames ((o, c) :: oc) = (["bring " ++ o] ++ if c then ["clear " ++ o] else []) ++ objectNames oc := rfl
    have hlen : (["bring " ++ o] ++ if c then ["clear " ++ o] else []).length = if c then 2 else 1 := by
      cases c <;> simp
    have hshift : ∀ a, (if c then j + 2 else j + 1) ≤ a → j ≤ a ∧
        (objectNames ((o, c) :: oc))[a - j]? = (objectNames oc)[a - (if c then j + 2 else j + 1)]? := by
      intro a ha
      have hle : (["bring " ++ o] ++ if c then ["clear " ++ o] else []).length ≤ a - j := by
        rw [hlen]
        cases c <;> simp at ha ⊢ <;> omega
      refine ⟨by cases c <;> simp at ha <;> omega, ?_⟩
      rw [hn, List.getElem?_append_right hle, hlen]
      congr 1
      cases c <;> simp <;> omega
    simp only [List.map_cons, objectActions]
    constructor
    · intro k x hk
      cases k with
      | zero =>
        simp only [List.getElem?_cons_zero, Option.some.injEq] at hk ⊢
        subst hk
        refine ⟨j, rfl, Nat.le_refl _, ?_⟩
        rw [hn]
        simp
      | succ k =>
        simp only [List.getElem?_cons_succ] at hk ⊢
        obtain ⟨a, g1, g2, g3⟩ := h1 k x hk
        obtain ⟨g4, g5⟩ := hshift a g2
        exact ⟨a, g1, g4, by rw [g5]; exact g3⟩
    · intro k a x hk ha
      cases k with
      | zero =>
        simp only [List.getElem?_cons_zero, Option.some.injEq] at hk ha
        subst hk
        cases c with
        | false => simp at ha
        | true =>
          simp only [if_true, Option.some.injEq] at ha
          subst ha
          refine ⟨by omega, ?_⟩
          rw [hn]
          simp
      | succ k =>
        simp only [List.getElem?_cons_succ] at hk ha
        obtain ⟨g2, g3⟩ := h2 k a x hk ha
        obtain ⟨g4, g5⟩ := hshift a g2
        exact ⟨g4, by rw [g5]; exact g3⟩

theorem str_append_inj (p a b : String) (h : p ++ a = p ++ b) : a = b := by
  have := congrArg String.toList h
  simp only [String.toList_append] at this
  exact String.ext (List.append_cancel_left this)

theorem bring_ne_clear (a b : String) : "bring " ++ a ≠ "clear " ++ b := by
  intro h
  have := congrArg (fun s => s.toList.head?) h
  simp [String.toList_append] at this

theorem mem_objectNames (oc : List (String × Bool)) (n : String) :
    n ∈ objectNames oc ↔ ∃ x ∈ oc, n = "bring " ++ x.1 ∨ (x.2 = true ∧ n = "clear " ++ x.1) := by
  simp only [objectNames, List.mem_flatten, List.mem_map]
  constructor
  · rintro ⟨l, ⟨x, hx, rfl⟩, hn⟩
    refine ⟨x, hx, ?_⟩
    obtain ⟨o, c⟩ := x
    cases c <;> simpa using hn
  · rintro ⟨x, hx, hn⟩
    refine ⟨_, ⟨x, hx, rfl⟩, ?_⟩
    obtain ⟨o, c⟩ := x
    cases c <;> simpa using hn

theorem objectNames_nodup (oc : List (String × Bool)) (h : (oc.map Prod.fst).Nodup) : (objectNames oc).Nodup := by
  induction oc with
  | nil => simp [objectNames]
  | cons y oc ih =>
    obtain ⟨o, c⟩ := y
    simp only [List.map_cons, List.nodup_cons] at h
    have hn : objectNames ((o, c) :: oc) = (["bring " ++ o] ++ if c then ["clear " ++ o] else []) ++ objectNames oc := rfl
    rw [hn, List.nodup_append]
    refine ⟨?_, ih h.2, ?_⟩
    · cases c
      · simp
      · simp [bring_ne_clear]
    · intro x hx y hy hxy
      subst hxy
      obtain ⟨z, hz, hz'⟩ := (mem_objectNames oc x).1 hy
      have hzo : z.1 ≠ o := by
        rintro rfl
        exact h.1 (List.mem_map_of_mem hz)
      have hx' : x = "bring " ++ o ∨ x = "clear " ++ o := by
        cases c <;> simp at hx
        · exact Or.inl hx
        · exact hx
      rcases hx' with rfl | rfl <;> rcases hz' with hz' | ⟨_, hz'⟩
      · exact hzo (str_append_inj _ _ _ hz').symm
      · exact bring_ne_clear _ _ hz'
      · exact bring_ne_clear _ _ hz'.symm
      · exact hzo (str_append_inj _ _ _ hz').symm

theorem zip_map_fst_snd (m : SupPomdp) (hl : m.clearable.length = m.objects.length) :
    (m.objects.zip m.clearable).map Prod.fst = m.objects ∧ (m.objects.zip m.clearable).map Prod.snd = m.clearable := by
  refine ⟨List.map_fst_zip (by omega), List.map_snd_zip (by omega)⟩

/-- **C27 (names of the actions).**  `actions` has `n_actions` entries and no duplicates. -/
theorem C27_names {t : Htm SupAction} {m : SupPomdp} (h : Constructed t m) :
    m.actions.length = m.nActions ∧ m.actions.Nodup := by
  obtain ⟨css, hw⟩ := constructed_wf h
  obtain ⟨e1, e2⟩ := zip_map_fst_snd m hw.oinv.len
  have hl : m.clearable.length = m.objects.length := hw.oinv.len
  have ha : m.actions = ["wait", "hold H", "hold V", "ask hold"] ++ objectNames (m.objects.zip m.clearable) := rfl
  constructor
  · rw [ha, List.length_append, objectNames_length, e2]
    unfold nActions trues
    simp [hl]
    omega
  · rw [ha, List.nodup_append]
    refine ⟨by decide, objectNames_nodup _ (by rw [e1]; exact hw.oinv.nodup), ?_⟩
    intro x hx y hy hxy
    subst hxy
    obtain ⟨z, _, hz⟩ := (mem_objectNames _ x).1 hy
    have hh : x.toList.head? = some 'b' ∨ x.toList.head? = some 'c' := by
      rcases hz with rfl | ⟨_, rfl⟩
      · left; simp [String.toList_append]
      · right; simp [String.toList_append]
    have hall : ∀ x ∈ ["wait", "hold H", "hold V", "ask hold"], x.toList.head? ≠ some 'b' ∧ x.toList.head? ≠ some 'c' := by
      decide
    exact hh.elim (hall x hx).1 (hall x hx).2

theorem mem_conds_iff {m : SupPomdp} {css : List (List (Nat × String))} (hw : m.WF css) (c : Nat) (o : String) :
    (c, o) ∈ css.flatten ↔ HasCondition m c o := by
  have h := hw.conds
  rw [List.forall₂_iff_get] at h
  rw [List.mem_flatten]
  constructor
  · rintro ⟨cs, hcs, hco⟩
    obtain ⟨k, hk, rfl⟩ := List.getElem_of_mem hcs
    have hk' : k < m.nodes.length := by rw [h.1]; exact hk
    obtain ⟨a, i, p, hh, at', h1, h2⟩ := leaves_conditions css m.nodes hw.conds k hk'
    have h3 := h.2 k hk' hk
    simp only [List.get_eq_getElem] at h3
    rw [List.getElem?_eq_getElem hk', Option.some.injEq] at h1
    rw [h1] at h3
    simp only [conditionsOf, h2, Except.ok.injEq] at h3
    refine ⟨k, a, i, p, hh, at'.1, at'.2, by rw [List.getElem?_eq_getElem hk', h1], h2, ?_⟩
    rw [h3]; exact hco
  · rintro ⟨k, a, i, p, hh, hold, cs, h1, h2, h3⟩
    obtain ⟨hk', h1'⟩ := List.getElem?_eq_some_iff.1 h1
    have hk : k < css.length := by rw [← h.1]; exact hk'
    have h4 := h.2 k hk' hk
    simp only [List.get_eq_getElem] at h4
    rw [h1'] at h4
    simp only [conditionsOf, h2, Except.ok.injEq] at h4
    exact ⟨_, List.getElem_mem hk, by rw [← h4]; exact h3⟩

/-- **C27 (objects).**  The objects are those named by the conditions of the leaves, each listed once. -/
theorem C27_objects {t : Htm SupAction} {m : SupPomdp} (h : Constructed t m) :
    m.objects.Nodup ∧ ∀ n, n ∈ m.objects ↔ ∃ c, HasCondition m c n := by
  obtain ⟨css, hw⟩ := constructed_wf h
  refine ⟨hw.oinv.nodup, fun n => ?_⟩
  rw [hw.oinv.mem n]
  simp only [mem_conds_iff hw]

/-- **C27 (bring).**  The bring action of an object is the position of its name in `actions`. -/
theorem C27_bring {t : Htm SupAction} {m : SupPomdp} (h : Constructed t m) (o : Nat) (n : String)
    (ho : m.objects[o]? = some n) : ∃ a, m.bring o = .ok a ∧ m.actions[a]? = some ("bring " ++ n) := by
  obtain ⟨css, hw⟩ := constructed_wf h
  obtain ⟨e1, e2⟩ := zip_map_fst_snd m hw.oinv.len
  have hl : m.clearable.length = m.objects.length := hw.oinv.len
  have hlt := (List.getElem?_eq_some_iff.1 ho).1
  obtain ⟨a, g1, g2, g3⟩ := (objectNames_at (m.objects.zip m.clearable) 4).1 o (n, m.clearable[o]'(by omega)) (by
    rw [List.getElem?_zip_eq_some]
    exact ⟨ho, List.getElem?_eq_getElem _⟩)
  rw [e2, ← hw.acts] at g1
  refine ⟨a, by simp only at g1; simp [bring, g1], ?_⟩
  have ha : m.actions = ["wait", "hold H", "hold V", "ask hold"] ++ objectNames (m.objects.zip m.clearable) := rfl
  rw [ha, List.getElem?_append_right (by simpa using g2)]
  exact g3

/-- **C27 (clear).**  An object has a clear action iff it appears in a `USES` or `CONSUMES_SOME` condition of some leaf;
the action is then the position of its name in `actions`, and otherwise `_clear` raises `ValueError`. -/
theorem C27_clear {t : Htm SupAction} {m : SupPomdp} (h : Constructed t m) (o : Nat) (n : String)
    (ho : m.objects[o]? = some n) :
    ((∃ a, m.clear o = .ok a) ↔ HasCondition m cUSES n ∨ HasCondition m cCONSUMES_SOME n) ∧
    (∀ a, m.clear o = .ok a → m.actions[a]? = some ("clear " ++ n)) ∧
    (¬ (HasCondition m cUSES n ∨ HasCondition m cCONSUMES_SOME n) → m.clear o = .error .valueError) := by
  obtain ⟨css, hw⟩ := constructed_wf h
  obtain ⟨e1, e2⟩ := zip_map_fst_snd m hw.oinv.len
  have hl : m.clearable.length = m.objects.length := hw.oinv.len
  have hlt := (List.getElem?_eq_some_iff.1 ho).1
  have hclr : m.clearable[o]? = some (m.clearable[o]'(by omega)) := List.getElem?_eq_getElem _
  obtain ⟨_, s2, _, _, _, _, _, s8⟩ := objectActions_spec m.clearable 4
  rw [← hw.acts] at s2 s8
  simp only at s2 s8
  have hu : (HasCondition m cUSES n ∨ HasCondition m cCONSUMES_SOME n) ↔ m.clearable[o]? = some true := by
    rw [show m.clearable[o]? = some true ↔ _ from hw.oinv.clr o n ho]
    constructor
    · rintro (h | h)
      · exact ⟨_, (mem_conds_iff hw _ _).2 h, Or.inl rfl⟩
      · exact ⟨_, (mem_conds_iff hw _ _).2 h, Or.inr rfl⟩
    · rintro ⟨c, hc, rfl | rfl⟩
      · exact Or.inl ((mem_conds_iff hw _ _).1 hc)
      · exact Or.inr ((mem_conds_iff hw _ _).1 hc)
  have hex : (∃ a, m.clear o = .ok a) ↔ ∃ a, m.aClear[o]? = some (some a) := by
    unfold clear
    constructor
    · rintro ⟨a, ha⟩
      split at ha
      · rename_i a' ha'; exact ⟨a', ha'⟩
      · cases ha
      · cases ha
    · rintro ⟨a, ha⟩
      exact ⟨a, by rw [ha]⟩
  have hiff : (∃ a, m.clear o = .ok a) ↔ HasCondition m cUSES n ∨ HasCondition m cCONSUMES_SOME n := by
    rw [hex, ← s8 o _ hclr, hu, hclr]
    simp
  refine ⟨hiff, ?_, ?_⟩
  · intro a ha
    have ha' : m.aClear[o]? = some (some a) := by
      unfold clear at ha
      split at ha
      · rename_i a' ha'
        cases ha
        exact ha'
      · cases ha
      · cases ha
    obtain ⟨g2, g3⟩ := (objectNames_at (m.objects.zip m.clearable) 4).2 o a (n, m.clearable[o]'(by omega)) (by
      rw [List.getElem?_zip_eq_some]
      exact ⟨ho, hclr⟩) (by rw [e2, ← hw.acts]; exact ha')
    have hac : m.actions = ["wait", "hold H", "hold V", "ask hold"] ++ objectNames (m.objects.zip m.clearable) := rfl
    rw [hac, List.getElem?_append_right (by simpa using g2)]
    exact g3
  · intro hn
    rw [← hiff, hex] at hn
    have : m.aClear[o]? = some (m.aClear[o]'(by omega)) := List.getElem?_eq_getElem _
    unfold clear
    cases hx : m.aClear[o]'(by omega) with
    | some a => exact absurd ⟨a, by rw [this, hx]⟩ hn
    | none => rw [this, hx]

/-- **C27 (inverse).**  `_obj_from_action` returns `o` exactly for the bring and the clear action of `o`; on every index
that is neither a bring nor a clear action it raises `ValueError`, that is on those below 4 or not below `n_actions`. -/
theorem C27_inverse {t : Htm SupAction} {m : SupPomdp} (h : Constructed t m) (a : Nat) :
    (∀ o, m.objFromAction a = .ok o ↔ m.bring o = .ok a ∨ m.clear o = .ok a) ∧
    ((∀ o, m.bring o ≠ .ok a ∧ m.clear o ≠ .ok a) → m.objFromAction a = .error .valueError) ∧
    (m.objFromAction a = .error .valueError ↔ a < 4 ∨ m.nActions ≤ a) := by
  obtain ⟨css, hw⟩ := constructed_wf h
  have hbr : ∀ o, m.bring o = .ok a ↔ m.aBring[o]? = some a := by
    intro o
    unfold bring
    cases m.aBring[o]? <;> simp
  have hcl : ∀ o, m.clear o = .ok a ↔ m.aClear[o]? = some (some a) := by
    intro o
    unfold clear
    cases m.aClear[o]? with
    | none => simp
    | some x => cases x <;> simp
  obtain ⟨_, _, s3, s4, _, s6, _, _⟩ := objectActions_spec m.clearable 4
  rw [← hw.acts] at s3 s4 s6
  simp only at s3 s4 s6
  have hnd : m.aBring.Nodup := s3.imp (fun h => Nat.ne_of_lt h)
  have hiff : ∀ o, m.objFromAction a = .ok o ↔ m.bring o = .ok a ∨ m.clear o = .ok a := by
    intro o
    rw [hbr, hcl]
    unfold objFromAction
    by_cases hb : a ∈ m.aBring
    · rw [if_pos hb, Except.ok.injEq]
      constructor
      · rintro rfl
        exact Or.inl (List.getElem?_idxOf hb)
      · rintro (h' | h')
        · exact nodup_getElem? hnd (List.getElem?_idxOf hb) h'
        · exact absurd (List.mem_of_getElem? h') (s4 a hb).2.2
    · rw [if_neg hb]
      by_cases hc : some a ∈ m.aClear
      · rw [if_pos hc, Except.ok.injEq]
        constructor
        · rintro rfl
          exact Or.inr (List.getElem?_idxOf hc)
        · rintro (h' | h')
          · exact absurd (List.mem_of_getElem? h') hb
          · exact s6 _ _ a (List.getElem?_idxOf hc) h'
      · rw [if_neg hc]
        simp only [reduceCtorEq, false_iff, not_or]
        exact ⟨fun h' => hb (List.mem_of_getElem? h'), fun h' => hc (List.mem_of_getElem? h')⟩
  refine ⟨hiff, ?_, ?_⟩
  · intro hn
    cases ho : m.objFromAction a with
    | ok o =>
      rcases (hiff o).1 ho with h' | h'
      · exact absurd h' (hn o).1
      · exact absurd h' (hn o).2
    | error e =>
      unfold objFromAction at ho
      split at ho
      · cases ho
      · split at ho
        · cases ho
        · cases ho; rfl
  · constructor
    · intro he
      by_contra hn
      obtain ⟨o, ho, _⟩ := objFromAction_ok hw a (by omega) (by omega)
      rw [he] at ho
      cases ho
    · exact objFromAction_error hw a

/-! ### C28 -/

/-- **C28 (bring and clear).**  Let `s1` be the state after the random changes (`s1 = s` when there are none).  Bring or
clear of object `o` has exactly three outcomes: the object is already as wanted, the observation is not-found and the
new state is `s1`; the action fails, the observation is fail and the new state is `s1`; or the observation is none,
and the new state differs from `s1` exactly in the presence of `o`. -/
theorem C28_object {t : Htm SupAction} {m : SupPomdp} (h : Constructed t m) (d : Draws) (a s : Nat) (random : Bool)
    (s' o : Nat) (r : ℚ) (ha : 4 ≤ a) (ht : m.sampleTransition d a s random = .ok (s', o, r)) :
    ∃ s1 obj, s1 = (m.perturb d s random).s ∧ (random = false → s1 = s) ∧ m.objFromAction a = .ok obj ∧
      ((o = oNOT_FOUND ∧ s' = s1 ∧ (present s1 obj ↔ m.isBring a = true)) ∨
       (o = oFAIL ∧ s' = s1 ∧ random = true ∧ ¬ (present s1 obj ↔ m.isBring a = true)) ∨
       (o = oNONE ∧ ¬ (present s1 obj ↔ m.isBring a = true) ∧ (present s' obj ↔ m.isBring a = true) ∧
         (∀ k, k ≠ obj → s' / 2 ^ k % 2 = s1 / 2 ^ k % 2) ∧ htmOf m s' = htmOf m s1)) := by
  obtain ⟨css, hw⟩ := constructed_wf h
  have han := run_ok_action h ht
  obtain ⟨obj, h1, h2, _⟩ := objFromAction_ok hw a ha han
  obtain ⟨hp1, hp2, hp3, hp4⟩ := perturb_spec m d s random
  rw [sampleTransition_eq] at ht
  unfold branch objectStep at ht
  rw [if_neg (by omega), if_neg (by omega)] at ht
  simp only [h1, bind, Except.bind, pure, Except.pure] at ht
  refine ⟨_, obj, rfl, fun hr => by rw [hp4 hr]; rfl, h1, ?_⟩
  generalize m.perturb d s random = x at *
  have hpr : present x.s obj ↔ x.getBit obj = 1 := Iff.rfl
  have hb2 := x.getBit_lt obj
  have key : (present x.s obj ↔ m.isBring a = true) ↔ x.getBit obj = (if m.isBring a then 1 else 0) := by
    rw [hpr]
    cases m.isBring a
    · simp; omega
    · simp
  have hb : (if m.isBring a then 1 else 0) < 2 := by split <;> omega
  by_cases hc : x.getBit obj = (if m.isBring a then 1 else 0)
  · rw [if_pos hc] at ht
    simp only [Except.ok.injEq, Prod.mk.injEq] at ht
    exact Or.inl ⟨ht.2.1.symm, ht.1.symm, key.2 hc⟩
  · rw [if_neg hc] at ht
    by_cases hf : (random && decide (d.fail < m.par.pFail)) = true
    · rw [if_pos hf] at ht
      simp only [Except.ok.injEq, Prod.mk.injEq] at ht
      simp only [Bool.and_eq_true] at hf
      exact Or.inr (Or.inl ⟨ht.2.1.symm, ht.1.symm, hf.1, fun h' => hc (key.1 h')⟩)
    · rw [if_neg hf] at ht
      simp only [Except.ok.injEq, Prod.mk.injEq] at ht
      obtain ⟨e1, e2, _⟩ := ht
      subst e1
      refine Or.inr (Or.inr ⟨e2.symm, fun h' => hc (key.1 h'), ?_, ?_, ?_⟩)
      · show (x.setBit obj _).getBit obj = 1 ↔ _
        rw [getBit_setBit _ _ _ _ hb, if_pos rfl]
        cases m.isBring a <;> simp
      · intro k hk
        show (x.setBit obj _).getBit k = x.getBit k
        rw [getBit_setBit _ _ _ _ hb, if_neg hk]
      · have hlt : obj < x.shiftHtm := by
          rw [← hp1.2.2.1]
          show obj < m.objects.length + 1 + m.par.nPreferences
          omega
        have hsh : SameShape (m.toState s) (x.setBit obj (if m.isBring a then 1 else 0)) := hp1.trans ⟨rfl, rfl, rfl, rfl⟩
        rw [htmOf_eq, htmOf_eq, toState_of_sameShape hsh, hp3]
        exact htm_setBit x obj _ hb hlt

/-- **C28 (without random changes).**  With `random=False` the observation is none iff the object was not as wanted, and
not-found iff it was; it is never fail; and not-found leaves the state unchanged. -/
theorem C28_deterministic {t : Htm SupAction} {m : SupPomdp} (h : Constructed t m) (d : Draws) (a s : Nat)
    (s' o : Nat) (r : ℚ) (ha : 4 ≤ a) (ht : m.sampleTransition d a s false = .ok (s', o, r)) :
    ∃ obj, m.objFromAction a = .ok obj ∧
      (o = oNONE ↔ ¬ (present s obj ↔ m.isBring a = true) ∧ (present s' obj ↔ m.isBring a = true)) ∧
      (o = oNOT_FOUND ↔ (present s obj ↔ m.isBring a = true)) ∧ (o = oNOT_FOUND → s' = s) ∧ o ≠ oFAIL ∧
      (∀ k, k ≠ obj → s' / 2 ^ k % 2 = s / 2 ^ k % 2) ∧ htmOf m s' = htmOf m s := by
  obtain ⟨s1, obj, _, h2, h3, h4⟩ := C28_object h d a s false s' o r ha ht
  have := h2 rfl
  subst this
  refine ⟨obj, h3, ?_⟩
  rcases h4 with ⟨rfl, rfl, h5⟩ | ⟨_, _, h5, _⟩ | ⟨rfl, h5, h6, h7, h8⟩
  · exact ⟨⟨fun h => (by cases h), fun h => absurd h5 h.1⟩, ⟨fun _ => h5, fun _ => rfl⟩, fun _ => rfl, by decide, fun _ _ => rfl,
      rfl⟩
  · cases h5
  · exact ⟨⟨fun _ => ⟨h5, h6⟩, fun _ => rfl⟩, ⟨fun h => (by cases h), fun h => absurd h h5⟩, fun h => (by cases h), by decide,
      h7, h8⟩

/-- **C28 (ask).**  Asking changes nothing: the new state is the state after the random changes, and the answer is yes
or none when the preference holds, no or none when it does not (without random changes it is yes or no). -/
theorem C28_ask (m : SupPomdp) (d : Draws) (s : Nat) (random : Bool) :
    ∃ s1 o, s1 = (m.perturb d s random).s ∧ (random = false → s1 = s) ∧
      m.sampleTransition d 3 s random = .ok (s1, o, -m.par.costIntrinsic) ∧
      (s1 / 2 ^ (m.objects.length + 1) % 2 = 1 → o = oYES ∨ (random = true ∧ o = oNONE)) ∧
      (s1 / 2 ^ (m.objects.length + 1) % 2 = 0 → o = oNO ∨ (random = true ∧ o = oNONE)) := by
  obtain ⟨hp1, hp2, hp3, hp4⟩ := perturb_spec m d s random
  rw [sampleTransition_eq]
  unfold branch askStep
  rw [if_neg (by omega), if_pos rfl]
  generalize hx : m.perturb d s random = x at *
  have hpref : x.hasPref 0 = x.s / 2 ^ (m.objects.length + 1) % 2 := by
    have : x.shiftPref = m.objects.length + 1 := hp1.2.1.symm
    unfold hasPref getBit
    rw [this]
  by_cases hc : x.hasPref 0 ≠ 0
  · refine ⟨x.s, if !random || decide (d.ask < 9 / 10) then oYES else oNONE, rfl, fun hr => by rw [hp4 hr]; rfl, ?_, ?_, ?_⟩
    · rw [if_pos hc]; rfl
    · intro _
      cases random
      · simp
      · simp only [Bool.not_true, Bool.false_or]
        split <;> simp
    · intro h0
      rw [hpref] at hc
      exact absurd h0 hc
  · refine ⟨x.s, if !random || decide (d.ask < 95 / 100) then oNO else oNONE, rfl, fun hr => by rw [hp4 hr]; rfl, ?_, ?_, ?_⟩
    · rw [if_neg hc]; rfl
    · intro h1
      rw [hpref] at hc
      omega
    · intro _
      cases random
      · simp
      · simp only [Bool.not_true, Bool.false_or]
        split <;> simp

/-- **C28 (HTM value).**  Bring, clear and ask never change the HTM value, even with random changes. -/
theorem C28_htm {t : Htm SupAction} {m : SupPomdp} (h : Constructed t m) (d : Draws) (a s : Nat) (random : Bool)
    (s' o : Nat) (r : ℚ) (hs : s < m.nStates) (ha : 3 ≤ a) (ht : m.sampleTransition d a s random = .ok (s', o, r)) :
    htmOf m s' = htmOf m s := by
  obtain ⟨css, hw⟩ := constructed_wf h
  obtain ⟨_, h2⟩ := run_step h hw hs ht
  rcases h2 with h2 | ⟨h2, _⟩ | ⟨h2, _⟩
  · exact h2
  · omega
  · omega

end Verif

namespace Verif
open Spec SupState SupPomdp

/-! ### C70 -/

theorem populateConditions_ok (ns : List (Htm SupAction)) : ∀ oc, (∀ n ∈ ns, ∃ cs, conditionsOf n = .ok cs) →
    ∃ r, populateConditions ns oc = .ok r := by
  induction ns with
  | nil => intro oc _; exact ⟨_, rfl⟩
  | cons n ns ih =>
    intro oc h
    obtain ⟨cs, hcs⟩ := h n (by simp)
    obtain ⟨r, hr⟩ := ih (cs.foldl populateOne (oc, [])).1 (fun n hn => h n (by simp [hn]))
    exact ⟨_, by simp only [populateConditions, hcs, hr, bind, Except.bind, pure, Except.pure]; rfl⟩

theorem populateConditions_error (ns : List (Htm SupAction)) : ∀ oc, (∃ n ∈ ns, ∀ cs, conditionsOf n ≠ .ok cs) →
    populateConditions ns oc = .error .attributeError := by
  induction ns with
  | nil => rintro oc ⟨n, hn, _⟩; simp at hn
  | cons n ns ih =>
    intro oc h
    cases hcs : conditionsOf n with
    | error e =>
      have : e = .attributeError := by
        unfold conditionsOf at hcs
        split at hcs
        · split at hcs
          · cases hcs
          · cases hcs; rfl
        · cases hcs; rfl
      subst this
      simp [populateConditions, hcs, bind, Except.bind]
    | ok cs =>
      have h' : ∃ n ∈ ns, ∀ cs, conditionsOf n ≠ .ok cs := by
        obtain ⟨n', hn', hx⟩ := h
        rcases List.mem_cons.1 hn' with rfl | hn'
        · exact absurd hcs (hx cs)
        · exact ⟨n', hn', hx⟩
      simp [populateConditions, hcs, bind, Except.bind, ih _ h']

/-- **C70.**  The constructor accepts a task (without empty combinations, whose leaves are `SupportedAction` objects)
exactly when it has no parallel combination; otherwise it raises `AttributeError`, because the copies of the leaves made
for the orders of a parallel combination have no conditions.  A task with another kind of leaf is also rejected. -/
theorem C70_accepts (t : Htm SupAction) (hne : NonEmpty t) (hb : Built t) (par : SupParams) (uniq : List Nat → List Nat)
    (huniq : ∀ l x, x ∈ uniq l ↔ x ∈ l) (limit : Nat) (hl : nesting t ≤ limit) :
    (NoParallel t ∧ Supported t → ∃ m, mkSupPomdp par uniq limit t = .ok m ∧ m.nodes.map leafAct = (leaves t).map some) ∧
    (¬ (NoParallel t ∧ Supported t) → mkSupPomdp par uniq limit t = .error .attributeError) := by
  have hcp : ∀ i (a : SupAction), ∃ a', SupAction.ops.copy (orderFmt i) a = .ok a' ∧
      SupAction.ops.name a' = orderFmt i (SupAction.ops.name a) := fun i a => ⟨_, rfl, rfl⟩
  obtain ⟨first, last, d, h1, _⟩ := getInitialFinal_spec SupAction.ops uniq huniq hcp limit t hne hb hl ⟨[], []⟩ rfl
  obtain ⟨new, acts, h2, h3, h4⟩ := getInitialFinal_nodes SupAction.ops uniq hcp limit t hne hb ⟨[], []⟩ _ _ h1
  simp only [List.nil_append] at h2
  subst h2
  have hd : htmToDag SupAction.ops uniq limit t = .ok (first, d) := by
    simp [htmToDag, h1, bind, Except.bind, pure, Except.pure]
  have hmem : ∀ a ∈ acts, ∃ i p h, Htm.leaf a i p h ∈ d.nodes := by
    intro a ha
    have : some a ∈ d.nodes.map leafAct := by rw [h3]; exact List.mem_map_of_mem ha
    obtain ⟨n, hn, hna⟩ := List.mem_map.1 this
    cases n with
    | leaf b i p h =>
      simp only [leafAct, Option.some.injEq] at hna
      subst hna
      exact ⟨i, p, h, hn⟩
    | comb => simp [leafAct] at hna
  have hmem' : ∀ n ∈ d.nodes, ∃ a ∈ acts, ∃ i p h, n = .leaf a i p h := by
    intro n hn
    have : leafAct n ∈ acts.map some := by rw [← h3]; exact List.mem_map_of_mem hn
    obtain ⟨a, ha, hna⟩ := List.mem_map.1 this
    cases n with
    | leaf b i p h =>
      simp only [leafAct, Option.some.injEq] at hna
      subst hna
      exact ⟨a, ha, i, p, h, rfl⟩
    | comb => simp [leafAct] at hna
  constructor
  · rintro ⟨hnp, hsup⟩
    have hacts := h4.1 hnp
    obtain ⟨r, hr⟩ := populateConditions_ok d.nodes ([], []) (by
      intro n hn
      obtain ⟨a, ha, i, p, h, rfl⟩ := hmem' n hn
      rw [hacts] at ha
      have := hsup a ha
      cases hat : a.attrs with
      | none => exact absurd hat this
      | some x => exact ⟨_, by simp only [conditionsOf, hat]; rfl⟩)
    refine ⟨_, by simp only [mkSupPomdp, hd, hr, bind, Except.bind, pure, Except.pure]; rfl, ?_⟩
    simp only
    rw [h3, hacts]
  · intro hn
    have hbad : ∃ a ∈ acts, a.attrs = none := by
      by_cases hnp : NoParallel t
      · have : ∃ a ∈ leaves t, a.attrs = none := by
          by_contra hcon
          apply hn
          refine ⟨hnp, fun a ha hx => hcon ⟨a, ha, hx⟩⟩
        rw [h4.1 hnp]
        exact this
      · obtain ⟨a, ha, fmt, a0, hc⟩ := h4.2.1 hnp
        refine ⟨a, ha, ?_⟩
        simp only [SupAction.ops, Except.ok.injEq] at hc
        rw [← hc]
    obtain ⟨a, ha, hat⟩ := hbad
    obtain ⟨i, p, h, hm⟩ := hmem a ha
    have := populateConditions_error d.nodes ([], []) ⟨_, hm, by intro cs; simp [conditionsOf, hat]⟩
    simp [mkSupPomdp, hd, this, bind, Except.bind]

/-! ### Non-vacuity -/

/-- Get a screw (`CONSUMES_SOME`), then either attach a leg (`CONSUMES`, needs holding) or use a tool. -/
def exSup : Htm SupAction :=
  .comb .sequential [.leaf ⟨"gather", some (none, [(2, "screws")])⟩ none none false,
    .comb .alternative [.leaf ⟨"leg", some (some "v", [(0, "leg"), (2, "screws")])⟩ none none false,
      .leaf ⟨"tool", some (none, [(1, "tool")])⟩ none none false] none none "choice" false (some [1 / 2, 1 / 2])]
    none none "root" false none

theorem exSup_ok : NonEmpty exSup ∧ Built exSup ∧ NoParallel exSup ∧ Supported exSup ∧ nesting exSup ≤ 3 := by
  refine ⟨by simp [exSup, NonEmpty, NonEmptyL], ?_, by simp [exSup, NoParallel, NoParallelL],
    by simp [exSup, Supported, leaves, leavesL], by decide⟩
  simp only [exSup, Built, BuiltL]
  refine ⟨by simp, trivial, ⟨⟨fun _ => ⟨by simp, _, rfl, ?_⟩, trivial, trivial, trivial⟩, trivial⟩⟩
  refine ⟨by simp, ?_, ?_⟩ <;> norm_num

/-- Non-vacuity of C25 to C28 and C70: the constructor accepts `exSup`. -/
theorem exSup_constructed : ∃ m, Constructed exSup m ∧ m.objects.length = 3 ∧ m.nActions = 9 := by
  obtain ⟨h1, h2, h3, h4, h5⟩ := exSup_ok
  obtain ⟨m, hm, _⟩ := (C70_accepts exSup h1 h2 {} (fun l => l) (fun _ _ => Iff.rfl) 3 h5).1 ⟨h3, h4⟩
  refine ⟨m, ⟨h1, h2, {}, fun l => l, 3, fun _ _ => Iff.rfl, h5, hm⟩, ?_⟩
  have : (mkSupPomdp {} (fun l => l) 3 exSup).toOption.map (fun m => (m.objects.length, m.nActions)) = some (3, 9) := by
    decide +kernel
  rw [hm] at this
  simp only [Except.toOption, Option.map_some, Option.some.injEq, Prod.mk.injEq] at this
  exact this

/-- Non-vacuity of the episodes of C26: three waits end in the clean value and a fourth in the final one. -/
example : ∃ m s l, Constructed exSup m ∧ m.sampleStart 0 (fun _ => 1) (fun _ => 1) = .ok s ∧ Run m s l ∧
    visited m s l = [0, 1, 3, 4] ∧ finishes m s l = 1 := by
  obtain ⟨h1, h2, h3, h4, h5⟩ := exSup_ok
  let d : Draws := ⟨fun _ => 1, fun _ => 1, 1, 0, fun _ => 1, 1, 1⟩
  have key : ∃ m, mkSupPomdp {} (fun l => l) 3 exSup = .ok m ∧ m.sampleStart 0 (fun _ => 1) (fun _ => 1) = .ok 0 ∧
      m.sampleTransition d 0 0 true = .ok (33, 0, -5) ∧ m.sampleTransition d 0 33 true = .ok (97, 0, -5) ∧
      m.sampleTransition d 0 97 true = .ok (129, 0, 85) ∧ visited m 0 [(0, 33, -5), (0, 97, -5), (0, 129, 85)] = [0, 1, 3, 4] ∧
      finishes m 0 [(0, 33, -5), (0, 97, -5), (0, 129, 85)] = 1 := by
    cases hm : mkSupPomdp {} (fun l => l) 3 exSup with
    | error e =>
      have : (mkSupPomdp {} (fun l => l) 3 exSup).toOption.isSome = true := by decide +kernel
      rw [hm] at this
      cases this
    | ok m =>
      have : (mkSupPomdp {} (fun l => l) 3 exSup).toOption.any (fun m =>
        decide (m.sampleStart 0 (fun _ => 1) (fun _ => 1) = .ok 0 ∧
        m.sampleTransition d 0 0 true = .ok (33, 0, -5) ∧ m.sampleTransition d 0 33 true = .ok (97, 0, -5) ∧
      m.sampleTransition d 0 97 true = .ok (129, 0, 85) ∧ visited m 0 [(0, 33, -5), (0, 97, -5), (0, 129, 85)] = [0, 1, 3, 4] ∧
      finishes m 0 [(0, 33, -5), (0, 97, -5), (0, 129, 85)] = 1)) = true := by decide +kernel
      rw [hm] at this
      simp only [Except.toOption, Option.any_some, decide_eq_true_eq] at this
      exact ⟨m, rfl, this⟩
  obtain ⟨m, hm, k1, k2, k3, k4, k5, k6⟩ := key
  exact ⟨m, 0, [(0, 33, -5), (0, 97, -5), (0, 129, 85)],
    ⟨h1, h2, {}, fun l => l, 3, fun _ _ => Iff.rfl, h5, hm⟩, k1,
    ⟨⟨d, true, 0, k2⟩, ⟨d, true, 0, k3⟩, ⟨d, true, 0, k4⟩, trivial⟩, k5, k6⟩

/-- Non-vacuity of the rejection in C70. -/
example : mkSupPomdp {} (fun l => l) 5 (.comb .parallel [.leaf ⟨"a", some (none, [])⟩ none none false]
    none none "p" false none) = .error .attributeError := by
  refine (C70_accepts _ ?_ ?_ {} (fun l => l) (fun _ _ => Iff.rfl) 5 ?_).2 ?_
  · simp [NonEmpty, NonEmptyL]
  · simp [Built, BuiltL]
  · decide
  · simp [NoParallel]

end Verif
