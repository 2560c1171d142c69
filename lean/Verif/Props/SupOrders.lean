import Verif.Proof.SupOrders
import Verif.Props.Supportive

/-! Property C86: the probabilities of the orders of supportive episodes. -/

set_option linter.unusedSectionVars false
set_option linter.unusedSimpArgs false

namespace Verif
open Spec SupState SupPomdp SupOrd

/-! ### What the simulator draws -/

theorem share_index (l : List Nat) (hl : l ≠ []) (hn : l.Nodup) (P : Nat → Prop) [DecidablePred P] (k : Nat)
    (h : ∀ c h, choose l c = .ok h → (P c ↔ h = k)) : share l.length P = evenly l k := by
  have hp : 0 < l.length := List.length_pos_iff.2 hl
  have hP : ∀ c < l.length, (P c ↔ l[c]? = some k) := by
    intro c hc
    have hch : choose l c = .ok l[c] := by simp [choose, Nat.mod_eq_of_lt hc, hc]
    rw [h c _ hch, List.getElem?_eq_getElem hc, Option.some.injEq]
  unfold share evenly
  have hcount : (List.range l.length).countP (fun c => decide (P c)) = if k ∈ l then 1 else 0 := by
    rw [List.countP_congr (q := fun c => decide (l[c]? = some k)) (by
      intro c hc
      simpa using hP c (List.mem_range.1 hc))]
    split
    · rename_i hk
      obtain ⟨i, hi, rfl⟩ := List.getElem_of_mem hk
      have : (List.range l.length).countP (fun c => decide (l[c]? = some l[i])) = (List.range l.length).count i := by
        rw [List.count, List.countP_congr]
        intro c hc
        have hc' := List.mem_range.1 hc
        simp only [decide_eq_true_eq, beq_iff_eq, List.getElem?_eq_getElem hc', Option.some.injEq]
        exact hn.getElem_inj_iff
      rw [this, List.count_eq_one_of_mem List.nodup_range (List.mem_range.2 hi)]
    · rename_i hk
      rw [List.countP_eq_zero]
      intro c hc
      have hc' := List.mem_range.1 hc
      simp only [decide_eq_true_eq, List.getElem?_eq_getElem hc', Option.some.injEq]
      intro h0
      exact hk (h0 ▸ List.getElem_mem _)
  rw [hcount]
  split <;> simp

theorem sampleStart_htm {m : SupPomdp} {css : List (List (Nat × String))} (hw : m.WF css)
    (hp : m.par.pPreferences.length ≤ m.par.nPreferences) (c : Nat) (u v : Nat → ℚ) (h : Nat) (hc : choose m.init c = .ok h) :
    ∃ s, m.sampleStart c u v = .ok s ∧ htmOf m s = h := by
  have hx : ∀ (l : List (ℚ × Nat)) (x : SupState), SameShape (m.toState 0) x → (∀ pi ∈ l, pi.2 < m.par.nPreferences) →
      SameShape (m.toState 0) (l.foldl (fun x pi => x.setPref pi.2 (if u pi.2 < pi.1 then 1 else 0)) x) ∧
      (l.foldl (fun x pi => x.setPref pi.2 (if u pi.2 < pi.1 then 1 else 0)) x).htm = x.htm := by
    intro l
    induction l with
    | nil => intro x hx _; exact ⟨hx, rfl⟩
    | cons pi l ih =>
      intro x hx hl
      have h1 : x.shiftPref = m.objects.length + 1 := hx.2.1.symm
      have h2 : x.shiftHtm = m.objects.length + 1 + m.par.nPreferences := hx.2.2.1.symm
      have h3 := hl pi (by simp)
      obtain ⟨g1, g2⟩ := ih (x.setPref pi.2 (if u pi.2 < pi.1 then 1 else 0)) (hx.trans ⟨rfl, rfl, rfl, rfl⟩)
        (fun p hp => hl p (by simp [hp]))
      refine ⟨g1, g2.trans ?_⟩
      exact htm_setBit x (x.shiftPref + pi.2) _ (by split <;> omega) (by omega)
  obtain ⟨h1, h2⟩ := hx m.par.pPreferences.zipIdx ((m.toState 0).setHtm h) ⟨rfl, rfl, rfl, rfl⟩ (by
    intro pi hpi
    have := List.snd_lt_of_mem_zipIdx hpi
    simp at this
    omega)
  obtain ⟨h3, h4, _⟩ := randomObjects_spec
    (m.par.pPreferences.zipIdx.foldl (fun x pi => x.setPref pi.2 (if u pi.2 < pi.1 then 1 else 0)) ((m.toState 0).setHtm h))
    (by
      unfold SupState.nObjects
      rw [← h1.1, ← h1.2.2.1]
      show m.objects.length ≤ m.objects.length + 1 + m.par.nPreferences
      omega) v m.par.pChangedByHuman
  have h5 := toState_of_sameShape (h1.trans h3)
  rw [h2, htm_setHtm] at h4
  refine ⟨_, by simp [sampleStart, hc, bind, Except.bind, pure, Except.pure]; rfl, ?_⟩
  rw [htmOf_eq, h5, h4]

theorem updateForTransition_htm {m : SupPomdp} {css : List (List (Nat × String))} (hw : m.WF css) (d : Draws) (x : SupState) (node : Nat)
    (hx : SameShape (m.toState 0) x) (ss : List Nat) (hss : m.succs[node]? = some ss) (h : Nat) (hc : choose ss d.succ = .ok h) :
    ∃ y r, m.updateForTransition d x node = .ok (y, r) ∧ SameShape (m.toState 0) y ∧ y.htm = h := by
  obtain ⟨l, hl⟩ : ∃ l, m.conditions[node]? = some l :=
    ⟨_, List.getElem?_eq_getElem (by rw [hw.conditions_len, ← hw.succs_len]; exact (List.getElem?_eq_some_iff.1 hss).1)⟩
  have hsx : m.objects.length ≤ x.shiftHtm := by
    rw [← hx.2.2.1]
    show m.objects.length ≤ m.objects.length + 1 + m.par.nPreferences
    omega
  obtain ⟨h1, h2, h3⟩ := updateForConditions_spec m d.consume l.zipIdx (x.setHtm h) (by
    intro co hco
    exact hw.condObj node l hl co.1 (List.fst_mem_of_mem_zipIdx hco)) hsx
  refine ⟨(m.updateForConditions d.consume l.zipIdx (x.setHtm h)).1,
    (m.updateForConditions d.consume l.zipIdx (x.setHtm h)).2, ?_, (hx.trans ⟨rfl, rfl, rfl, rfl⟩).trans h1, by rw [h2, htm_setHtm]⟩
  simp [updateForTransition, hss, hl, hc, bind, Except.bind, pure, Except.pure]

/-- If a step completes a leaf, the same step with another number for the successor completes it too, and goes to that successor. -/
theorem sampleTransition_succ {t : Htm SupAction} {m : SupPomdp} {css : List (List (Nat × String))} (hcon : Constructed t m) (hw : m.WF css)
    (d : Draws) (a s : Nat) (random : Bool) (s' o : Nat) (r : ℚ) (hs : s < m.nStates) (hi : htmOf m s < m.nodes.length)
    (hd : m.sampleTransition d a s random = .ok (s', o, r)) (hne : htmOf m s' ≠ htmOf m s) (ss : List Nat)
    (hss : m.succs[htmOf m s]? = some ss) (c h : Nat) (hc : choose ss c = .ok h) :
    ∃ s'' o'' r'', m.sampleTransition { d with succ := c } a s random = .ok (s'', o'', r'') ∧ htmOf m s'' = h := by
  have hedge := (run_step hcon hw hs hd).2
  have ha3 : a = 0 ∨ a = 1 ∨ a = 2 := by
    rcases hedge with h1 | h1 | h1
    · exact absurd h1 hne
    · exact h1.1
    · exact Or.inl h1.1
  obtain ⟨hp1, hp2, hp3, _⟩ := perturb_spec m d s random
  have hpe : m.perturb { d with succ := c } s random = m.perturb d s random := rfl
  rw [sampleTransition_eq] at hd ⊢
  rw [hpe]
  generalize m.perturb d s random = x at *
  have hxi : x.htm = htmOf m s := hp2
  have hx0 : SameShape (m.toState 0) x := SameShape.trans ⟨rfl, rfl, rfl, rfl⟩ hp1
  have hfin : ¬ x.isFinal = true := by
    have h2 : x.nHtm = m.nodes.length + 2 := hp1.2.2.2.symm
    simp only [SupState.isFinal, decide_eq_true_eq]
    omega
  have hcl : ¬ x.htm = m.htmClean := by unfold htmClean; omega
  unfold branch waitStep at hd ⊢
  rw [if_pos ha3, if_neg hfin, if_neg hcl] at hd ⊢
  obtain ⟨ac, i, p, b, at', hn, hat⟩ := leaves_conditions css m.nodes hw.conds x.htm (by omega)
  have hneed : m.needsHold x.htm = .ok at'.1 := by simp [needsHold, hn, hat]
  obtain ⟨y, ry, h1, h2, h3⟩ := updateForTransition_htm hw { d with succ := c } x x.htm hx0 ss (by rw [hxi]; exact hss) h hc
  unfold taskStep at hd ⊢
  simp only [hneed, bind, Except.bind, pure, Except.pure] at hd ⊢
  split at hd
  · cases hd
  · rename_i v hv
    split at hv
    · cases hv
      cases hd
      rw [htmOf_eq, toState_of_sameShape hp1] at hne
      exact absurd hxi hne
    · rename_i hf
      rw [if_neg hf]
      simp only [h1]
      refine ⟨_, _, _, rfl, ?_⟩
      rw [htmOf_eq]
      rw [toState_of_sameShape (SameShape.trans ⟨rfl, rfl, rfl, rfl⟩ h2 : SameShape (m.toState s) y)]
      exact h3

/-- The model of a task without parallel combinations. -/
theorem model_graph {t : Htm SupAction} {m : SupPomdp} {par : SupParams} {uniq : List Nat → List Nat} {limit : Nat} (hne : NonEmpty t) (hb : Built t)
    (hu : ∀ l x, x ∈ uniq l ↔ x ∈ l) (hn : ∀ l, (uniq l).Nodup) (hl : nesting t ≤ limit) (hm : mkSupPomdp par uniq limit t = .ok m) :
    NoParallel t ∧ m.nodes.map leafAct = (leaves t).map some ∧ m.nodes.length = size t ∧ m.init = firstAt uniq t 0 ∧
      m.succs = succsOf uniq t 0 [size t] := by
  obtain ⟨hacc, hrej⟩ := C70_accepts t hne hb par uniq hu limit hl
  have hok : NoParallel t ∧ Supported t := by
    by_contra hno
    rw [hrej hno] at hm
    cases hm
  obtain ⟨m', hm', hnodes⟩ := hacc hok
  rw [hm] at hm'
  cases hm'
  obtain ⟨r, h1, h2, h3, h4⟩ := getInitialFinal_adds SupAction.ops hu limit t hne hok.1 hl ⟨[], []⟩ rfl
  obtain ⟨_, _, d, hd, hdn, hds, _⟩ := mk_wf par uniq hu limit t hne hb hl m hm
  simp only [htmToDag, h1, bind, Except.bind, pure, Except.pure, Except.ok.injEq, Prod.mk.injEq] at hd
  obtain ⟨hd1, hd2⟩ := hd
  have hlen : m.nodes.length = size t := by
    have := congrArg List.length hnodes
    simpa [size] using this
  refine ⟨hok.1, hnodes, hlen, ?_, ?_⟩
  · rw [← hd1, h2]; rfl
  · rw [hds, ← hd2, h4, h3]
    simp only [List.length_nil, List.nil_append, Nat.zero_add]
    have := succsOf_map (uniq := uniq) (fun s => if s.length = 0 then [size t] else s) (by
      intro l hl
      rw [if_neg (by simpa using hl)]) hu hn t hne 0 []
    simpa using this

/-- **C86**, what the simulator does: the orders in which the leaves of a task are completed have in the simulator the probabilities that
they have in the task *when each alternative is drawn with a probability proportional to the number of leaves with which it may start*. -/
theorem C86_first_leaves_partial {t : Htm SupAction} {m : SupPomdp} {par : SupParams} {uniq : List Nat → List Nat} {limit : Nat} (hne : NonEmpty t)
    (hb : Built t) (hu : ∀ l x, x ∈ uniq l ↔ x ∈ l) (hn : ∀ l, (uniq l).Nodup) (hl : nesting t ≤ limit)
    (hm : mkSupPomdp par uniq limit t = .ok m) (hpref : par.pPreferences.length ≤ par.nPreferences) : SupOrders m (firstChances t) := by
  have hcon : Constructed t m := ⟨hne, hb, par, uniq, limit, hu, hl, hm⟩
  obtain ⟨⟨css, hw⟩, hpar, _⟩ := mk_wf par uniq hu limit t hne hb hl m hm
  obtain ⟨hnp, hnodes, hlen, hinit, hsucc⟩ := model_graph hne hb hu hn hl hm
  refine ⟨evenly m.init, fun i => evenly (m.succs.getD i []), ⟨?_, ?_⟩, ?_⟩
  · intro u v k
    refine share_index m.init hw.init_ne (by rw [hinit]; exact firstAt_nodup hu hn t 0) _ k ?_
    intro c h hc
    obtain ⟨s, h1, h2⟩ := sampleStart_htm hw (by rw [hpar]; exact hpref) c u v h hc
    rw [h1]
    simp [StartsAt, h2]
  · intro i hi d a s random s' o r hs hsi hd hch k
    have hss : m.succs[i]? = some (m.succs.getD i []) := by
      rw [List.getD_eq_getElem?_getD, List.getElem?_eq_getElem (by rw [hw.succs_len]; exact hi)]
      rfl
    have hnd : (m.succs.getD i []).Nodup := by
      have hall : ∀ (t : Htm SupAction) lo next, next.Nodup → ∀ ss ∈ succsOf uniq t lo next, ss.Nodup := by
        intro t
        induction t using Htm.induct with
        | hleaf a i p h =>
          intro lo next hnx ss hss
          simp only [succsOf, List.mem_singleton] at hss
          rw [hss]
          exact hnx
        | hcomb k cs i p n h pr ih =>
          intro lo next hnx
          have hseq : ∀ lo, ∀ ss ∈ succsSeq uniq cs lo next, ss.Nodup := by
            induction cs with
            | nil => intro lo ss hss; simp [succsSeq] at hss
            | cons c cs ihc =>
              intro lo ss hss
              simp only [succsSeq, List.mem_append] at hss
              rcases hss with hss | hss
              · refine ih c (by simp) lo _ ?_ ss hss
                cases cs with
                | nil => simpa [firstAtL] using hnx
                | cons c' cs => simpa [firstAtL] using firstAt_nodup hu hn c' _
              · exact ihc (fun c hc => ih c (by simp [hc])) _ ss hss
          have hall : ∀ lo, ∀ ss ∈ succsAll uniq cs lo next, ss.Nodup := by
            clear hseq
            induction cs with
            | nil => intro lo ss hss; simp [succsAll] at hss
            | cons c cs ihc =>
              intro lo ss hss
              simp only [succsAll, List.mem_append] at hss
              rcases hss with hss | hss
              · exact ih c (by simp) lo _ hnx ss hss
              · exact ihc (fun c hc => ih c (by simp [hc])) _ ss hss
          cases k with
          | sequential => exact hseq lo
          | alternative => exact hall lo
          | parallel => exact hall lo
      exact hall t 0 [size t] (by simp) _ (by rw [← hsucc]; exact List.mem_of_getElem? hss)
    refine share_index _ (hw.succs_ok i _ hss).1 hnd _ k ?_
    intro c h hc
    obtain ⟨s2, o2, r2, h1, h2⟩ := sampleTransition_succ hcon hw d a s random s' o r hs (by omega) hd (by rw [hsi]; exact hch) _
      (by rw [hsi]; exact hss) c h hc
    rw [h1]
    simp [LeadsTo, h2]
  · have := walks_same hu hn t hne hnp (fun k => m.succs.getD k []) (by
      intro i hi
      rw [hsucc, Nat.zero_add]) (by
      rw [List.getD_eq_getElem?_getD, List.getElem?_eq_none (by rw [hw.succs_len, hlen])]
      rfl) (List.Forall₂ fun i a => ∃ j p h, m.nodes[i]? = some (.leaf a j p h)) (by
      intro ks as h
      refine h.imp fun i a hia => ?_
      have : (m.nodes.map leafAct)[i]? = some (some a) := by
        rw [hnodes, List.getElem?_map, hia]
        rfl
      rw [List.getElem?_map, Option.map_eq_some_iff] at this
      obtain ⟨n, h1, h2⟩ := this
      cases n with
      | leaf b j p h =>
        simp only [leafAct, Option.some.injEq] at h2
        subst h2
        exact ⟨j, p, h, h1⟩
      | comb => simp [leafAct] at h2)
    rw [← hinit] at this
    rw [hlen]
    exact this

/-- **C86**, when the alternatives of each alternative combination are all as likely and may start with the same number of leaves (in
particular, when they are all leaves or sequences that start with a leaf): the orders have in the simulator the probabilities of the task.

Missing: other alternatives, see `C86_false_nested` and `C86_false_probabilities`. -/
theorem C86_orders_partial {t : Htm SupAction} {m : SupPomdp} {par : SupParams} {uniq : List Nat → List Nat} {limit : Nat} (hne : NonEmpty t)
    (hb : Built t) (hu : ∀ l x, x ∈ uniq l ↔ x ∈ l) (hn : ∀ l, (uniq l).Nodup) (hl : nesting t ≤ limit)
    (hm : mkSupPomdp par uniq limit t = .ok m) (hpref : par.pPreferences.length ≤ par.nPreferences) (hbal : Balanced t) (heven : UniformAlts t) :
    SupOrders m (chances t) := by
  have h := C86_first_leaves_partial hne hb hu hn hl hm hpref
  obtain ⟨hnp, _⟩ := model_graph hne hb hu hn hl hm
  rwa [firstChances_even t hne hnp hbal, evenChances_uniform t heven] at h

/-- Non-vacuity: the task of C25 meets the hypotheses; its orders and their probabilities. -/
example : (∃ m, mkSupPomdp {} List.dedup 3 exSup = .ok m) ∧ Balanced exSup ∧ UniformAlts exSup ∧
    (chances exSup).map (fun x => (x.1.map SupAction.name, x.2)) = [(["gather", "leg"], 1 / 2), (["gather", "tool"], 1 / 2)] := by
  obtain ⟨h1, h2, h3, h4, h5⟩ := exSup_ok
  obtain ⟨m, hm, _⟩ := (C70_accepts exSup h1 h2 {} List.dedup (fun _ _ => List.mem_dedup) 3 h5).1 ⟨h3, h4⟩
  refine ⟨⟨m, hm⟩, by simp [exSup, Balanced, BalancedL, firstsL, firsts], by simp [exSup, UniformAlts, UniformAltsL], ?_⟩
  simp [exSup, chances, chancesBy, chancesByL, allD, thenD, scaleD]

/-! ### Other alternatives -/

/-- Waiting completes a leaf. -/
theorem wait_completes {m : SupPomdp} {css : List (List (Nat × String))} (hw : m.WF css) (d : Draws) (s : Nat) (random : Bool)
    (hi : htmOf m s < m.nodes.length) : ∃ s' o r, m.sampleTransition d 0 s random = .ok (s', o, r) ∧ htmOf m s' ≠ htmOf m s := by
  obtain ⟨hp1, hp2, hp3, _⟩ := perturb_spec m d s random
  rw [sampleTransition_eq]
  generalize m.perturb d s random = x at *
  have hxi : x.htm = htmOf m s := hp2
  have hx0 : SameShape (m.toState 0) x := SameShape.trans ⟨rfl, rfl, rfl, rfl⟩ hp1
  have hfin : ¬ x.isFinal = true := by
    have h2 : x.nHtm = m.nodes.length + 2 := hp1.2.2.2.symm
    simp only [SupState.isFinal, decide_eq_true_eq]
    omega
  have hcl : ¬ x.htm = m.htmClean := by unfold htmClean; omega
  unfold branch waitStep
  rw [if_pos (Or.inl rfl), if_neg hfin, if_neg hcl]
  obtain ⟨ac, i, p, b, at', hn, hat⟩ := leaves_conditions css m.nodes hw.conds x.htm (by omega)
  have hneed : m.needsHold x.htm = .ok at'.1 := by simp [needsHold, hn, hat]
  obtain ⟨y, ry, ss, h1, h2, h3, h4, _⟩ := updateForTransition_spec hw d x x.htm (by omega) hx0
  unfold taskStep
  simp only [hneed, bind, Except.bind, pure, Except.pure]
  rw [if_neg (by simp)]
  simp only [h1]
  refine ⟨_, _, _, rfl, ?_⟩
  rw [htmOf_eq, toState_of_sameShape (SameShape.trans ⟨rfl, rfl, rfl, rfl⟩ h2 : SameShape (m.toState s) y)]
  have := (hw.succs_ok _ _ h3).2 _ h4
  omega

theorem share_le_one (n : Nat) (P : Nat → Prop) [DecidablePred P] : 0 ≤ share n P ∧ share n P ≤ 1 := by
  unfold share
  refine ⟨by positivity, ?_⟩
  have : (List.range n).countP (fun c => decide (P c)) ≤ n := by
    simpa using List.countP_le_length (p := fun c => decide (P c)) (l := List.range n)
  rcases Nat.eq_zero_or_pos n with rfl | hn
  · simp
  · rw [div_le_one (by positivity)]
    exact_mod_cast this

/-- No order is more likely than its first leaf. -/
theorem single_le {t : Htm SupAction} {m : SupPomdp} {par : SupParams} {uniq : List Nat → List Nat} {limit : Nat} (hne : NonEmpty t)
    (hb : Built t) (hu : ∀ l x, x ∈ uniq l ↔ x ∈ l) (hn : ∀ l, (uniq l).Nodup) (hl : nesting t ≤ limit)
    (hm : mkSupPomdp par uniq limit t = .ok m) (hpref : par.pPreferences.length ≤ par.nPreferences) {d : Chances SupAction} (h : SupOrders m d)
    {a : SupAction} {p : ℚ} (hp : ([a], p) ∈ d) : p ≤ 1 / (firsts t : ℚ) := by
  obtain ⟨⟨css, hw⟩, hpar, _⟩ := mk_wf par uniq hu limit t hne hb hl m hm
  obtain ⟨hnp, hnodes, hlen, hinit, hsucc⟩ := model_graph hne hb hu hn hl hm
  obtain ⟨q0, q, hq, l, h1, _, h3, _⟩ := h
  obtain ⟨x, hx, hxe⟩ := List.mem_map.1 (h1.mem_iff.2 hp)
  obtain ⟨h4, h5⟩ := h3 x hx
  simp only [Prod.mk.injEq] at hxe
  rw [hxe.1] at h4
  obtain ⟨i, ks, ⟨j, pa, hh, hi⟩, hks, hxks⟩ := List.forall₂_cons_right_iff.1 h4
  cases hks
  rw [hxks] at h5
  simp only [List.singleton_append, List.head?_cons, Option.elim_some, walkProb, mul_one] at h5
  have hil : i < m.nodes.length := (List.getElem?_eq_some_iff.1 hi).1
  have hq0 : q0 i ≤ 1 / (firsts t : ℚ) := by
    have he : share m.init.length (fun c => StartsAt m (m.sampleStart c (fun _ => 0) fun _ => 0) i) = evenly m.init i := by
      refine share_index m.init hw.init_ne (by rw [hinit]; exact firstAt_nodup hu hn t 0) _ i ?_
      intro c h hc
      obtain ⟨s, h1, h2⟩ := sampleStart_htm hw (by rw [hpar]; exact hpref) c (fun _ => 0) (fun _ => 0) h hc
      rw [h1]
      simp [StartsAt, h2]
    rw [← hq.start (fun _ => 0) (fun _ => 0) i, he, evenly, hinit, firstAt_length hu hn]
    split
    · exact le_rfl
    · positivity
  have hq0' : 0 ≤ q0 i := by
    rw [← hq.start (fun _ => 0) (fun _ => 0) i]
    exact (share_le_one _ _).1
  have hqi : q i m.nodes.length ≤ 1 := by
    let s := ((m.toState 0).setHtm i).s
    have hs : htmOf m s = i := by
      show (m.toState ((m.toState 0).setHtm i).s).htm = i
      rw [toState_of_sameShape (⟨rfl, rfl, rfl, rfl⟩ : SameShape (m.toState 0) ((m.toState 0).setHtm i)), htm_setHtm]
    have hsr : s < m.nStates := by
      rw [lt_nStates]
      show htmOf m s < _
      rw [hs]
      show i < m.nodes.length + 2
      omega
    obtain ⟨s', o, r, g1, g2⟩ := wait_completes hw ⟨fun _ => 0, fun _ => 0, 0, 0, fun _ => 0, 0, 0⟩ s false (by rw [hs]; exact hil)
    rw [← hq.next i hil _ 0 s false s' o r hsr hs g1 (by rw [← hs]; exact g2) m.nodes.length]
    exact (share_le_one _ _).2
  rw [← hxe.2, ← h5]
  calc q0 i * q i m.nodes.length ≤ q0 i * 1 := mul_le_mul_of_nonneg_left hqi hq0'
    _ = q0 i := mul_one _
    _ ≤ _ := hq0

/-- A leaf, or one of two others. -/
def nestedSup : Htm SupAction :=
  let l (s : String) : Htm SupAction := .leaf ⟨s, some (none, [])⟩ none none false
  .comb .alternative [l "a", .comb .alternative [l "b", l "c"] none none "inner" false (some [1 / 2, 1 / 2])] none none "outer" false (some [1 / 2, 1 / 2])

/-- One of two leaves, the second being more likely. -/
def unevenSup : Htm SupAction :=
  let l (s : String) : Htm SupAction := .leaf ⟨s, some (none, [])⟩ none none false
  .comb .alternative [l "a", l "b"] none none "choice" false (some [1 / 3, 2 / 3])

theorem nestedSup_ok : NonEmpty nestedSup ∧ Built nestedSup ∧ NoParallel nestedSup ∧ Supported nestedSup ∧ UniformAlts nestedSup := by
  refine ⟨by simp [nestedSup, NonEmpty, NonEmptyL], ?_, by simp [nestedSup, NoParallel, NoParallelL],
    by simp [nestedSup, Supported, leaves, leavesL], by simp [nestedSup, UniformAlts, UniformAltsL]⟩
  have hd : IsDistrib [(1 : ℚ) / 2, 1 / 2] := ⟨List.cons_ne_nil _ _, by norm_num, by norm_num⟩
  simp [nestedSup, Built, BuiltL]
  simpa using hd

theorem unevenSup_ok : NonEmpty unevenSup ∧ Built unevenSup ∧ NoParallel unevenSup ∧ Supported unevenSup := by
  refine ⟨by simp [unevenSup, NonEmpty, NonEmptyL], ?_, by simp [unevenSup, NoParallel, NoParallelL],
    by simp [unevenSup, Supported, leaves, leavesL]⟩
  have hd : IsDistrib [(1 : ℚ) / 3, 2 / 3] := ⟨List.cons_ne_nil _ _, by norm_num, by norm_num⟩
  simp [unevenSup, Built, BuiltL]
  simpa using hd

/-- **C86** is false of nested alternatives, even if all are as likely: the first leaf is drawn evenly among all the first leaves
(`supportive.py:42-44, 512`), whatever the alternative to which they belong. -/
theorem C86_false_nested (par : SupParams) (hpref : par.pPreferences.length ≤ par.nPreferences) (uniq : List Nat → List Nat)
    (hu : ∀ l x, x ∈ uniq l ↔ x ∈ l) (hn : ∀ l, (uniq l).Nodup) (limit : Nat) (hl : 3 ≤ limit) :
    NonEmpty nestedSup ∧ Built nestedSup ∧ UniformAlts nestedSup ∧
      ∃ m, mkSupPomdp par uniq limit nestedSup = .ok m ∧ ¬ SupOrders m (chances nestedSup) := by
  obtain ⟨h1, h2, h3, h4, h5⟩ := nestedSup_ok
  obtain ⟨m, hm, _⟩ := (C70_accepts nestedSup h1 h2 par uniq hu limit hl).1 ⟨h3, h4⟩
  refine ⟨h1, h2, h5, m, hm, fun h => ?_⟩
  have := single_le h1 h2 hu hn hl hm hpref h (a := ⟨"a", some (none, [])⟩) (p := 1 / 2)
    (by simp [nestedSup, chances, chancesBy, chancesByL, scaleD])
  have hf : firsts nestedSup = 3 := rfl
  rw [hf] at this
  norm_num at this

/-- **C86** is false of alternatives with different probabilities: the supportive model does not use them. -/
theorem C86_false_probabilities (par : SupParams) (hpref : par.pPreferences.length ≤ par.nPreferences) (uniq : List Nat → List Nat)
    (hu : ∀ l x, x ∈ uniq l ↔ x ∈ l) (hn : ∀ l, (uniq l).Nodup) (limit : Nat) (hl : 2 ≤ limit) :
    NonEmpty unevenSup ∧ Built unevenSup ∧ Balanced unevenSup ∧
      ∃ m, mkSupPomdp par uniq limit unevenSup = .ok m ∧ ¬ SupOrders m (chances unevenSup) := by
  obtain ⟨h1, h2, h3, h4⟩ := unevenSup_ok
  obtain ⟨m, hm, _⟩ := (C70_accepts unevenSup h1 h2 par uniq hu limit hl).1 ⟨h3, h4⟩
  refine ⟨h1, h2, by simp [unevenSup, Balanced, BalancedL, firstsL, firsts], m, hm, fun h => ?_⟩
  have := single_le h1 h2 hu hn hl hm hpref h (a := ⟨"b", some (none, [])⟩) (p := 2 / 3)
    (by simp [unevenSup, chances, chancesBy, chancesByL, scaleD])
  have hf : firsts unevenSup = 2 := rfl
  rw [hf] at this
  norm_num at this

/-- The parameters of the false statements are possible: the default ones, sets iterated in increasing order. -/
example : ({} : SupParams).pPreferences.length ≤ ({} : SupParams).nPreferences ∧ (∀ l x, x ∈ List.dedup l ↔ x ∈ (l : List Nat)) ∧
    ∀ l : List Nat, (List.dedup l).Nodup := ⟨by decide, fun _ _ => List.mem_dedup, List.nodup_dedup⟩

end Verif
