import Verif.Model.VisitRun
import Verif.Spec.VisitRun
import Verif.Props.GraphPolicy

/-! Lemmas on the runs of visited policies. -/

set_option linter.unusedSectionVars false
set_option linter.unusedSimpArgs false

namespace Verif
open Spec

variable (g : GraphPolicy) (p : Pomdp) (nS nA nO : Nat)

/-! ### The nodes are beliefs that can be reached -/

theorem follows_snoc {b b1 b2 : List ℚ} {hist : List (Nat × Nat)} {w : List Name} {io : Nat} {o : Name} (hf : Follows g p nS b hist w b1)
    (ho : p.observations[io]? = some o) (h : PolicyPosterior g p nS b1 io b2) : ∃ hist' w', Follows g p nS b hist' w' b2 := by
  obtain ⟨act, a, h1, h2, h3⟩ := h
  exact ⟨_, _, follows_append g p nS _ _ _ _ _ _ _ hf (.cons h1 h2 ho h3 (.nil _))⟩

theorem reached_dist (hp : Stochastic p nS nA nO) (hf : Fits g p nS) (hd : NamesDistinct p) (hs : IsDist nS p.start) {b : List ℚ}
    (h : Reached g p nS b) : IsDist nS b := by
  obtain ⟨hist, w, h⟩ := h
  have key : ∀ {b b' : List ℚ} {hist : List (Nat × Nat)} {w : List Name}, Follows g p nS b hist w b' → IsDist nS b → IsDist nS b' := by
    intro b b' hist w h
    induction h with
    | nil => exact id
    | @cons b b1 b2 act a o on hist w h1 h2 h3 h4 _ ih =>
      intro hb
      apply ih
      rcases resetStep_cases g p nS nA nO hp hf hd b hb o on h3 with ⟨_, k⟩ | ⟨b', _, k1, act', a', k2, k3, k4⟩
      · exact absurd ⟨b1, act, a, h1, h2, h4⟩ k
      · have e1 := policyAction_unique g b _ _ h1 k2
        subst e1
        have e2 := nodup_index _ hd.1 _ _ _ h2 k3
        subst e2
        rw [posterior_unique p nS a o b b1 b' h4 k4]
        exact k1
  exact key h hs

theorem reached_step (hp : Stochastic p nS nA nO) (hf : Fits g p nS) (hd : NamesDistinct p) (hs : IsDist nS p.start) {b b' : List ℚ} {o : Name}
    (h : Reached g p nS b) (ho : o ∈ p.observations) (hr : resetStep g p b o = .ok b') : Reached g p nS b' := by
  obtain ⟨io, hio⟩ := List.mem_iff_getElem?.1 ho
  rcases resetStep_cases g p nS nA nO hp hf hd b (reached_dist g p nS nA nO hp hf hd hs h) io o hio with ⟨k, _⟩ | ⟨b1, k1, _, k2⟩
  · rw [k] at hr; cases hr
  · rw [k1] at hr
    cases hr
    obtain ⟨hist, w, h⟩ := h
    exact follows_snoc g p nS h hio k2

/-- The nodes satisfy `P` and the queue has positions of nodes. -/
def AllNodes (P : List ℚ → Prop) (x : Aux) : Prop := (∀ b ∈ x.nodes, P b) ∧ ∀ i ∈ x.queue, i < x.nodes.length

theorem auxAdd_all {P : List ℚ → Prop} {x y : Aux} {b : List ℚ} {j : Nat} (hx : AllNodes P x) (hb : P b) (h : auxAdd g p x b = .ok (j, y)) :
    AllNodes P y ∧ x.nodes.length ≤ y.nodes.length := by
  unfold auxAdd at h
  cases h1 : nodeFromBelief g.values b with
  | error e => rw [h1] at h; cases h
  | ok n =>
    rw [h1] at h
    have h : ((g.getAction n) >>= _) = _ := h
    cases h2 : g.getAction n with
    | error e => rw [h2] at h; cases h
    | ok a =>
      rw [h2] at h
      cases h
      refine ⟨⟨?_, ?_⟩, by simp⟩
      · intro c hc
        rcases List.mem_append.1 hc with hc | hc
        · exact hx.1 c hc
        · rw [List.mem_singleton.1 hc]; exact hb
      · intro i hi
        rcases List.mem_append.1 hi with hi | hi
        · have := hx.2 i hi; simp; omega
        · rw [List.mem_singleton.1 hi]; simp

theorem auxIndex_all {P : List ℚ → Prop} {x y : Aux} {b : List ℚ} {j : Nat} (hx : AllNodes P x) (hb : P b) (h : auxIndex g p x b = .ok (j, y)) :
    AllNodes P y ∧ x.nodes.length ≤ y.nodes.length := by
  unfold auxIndex at h
  split at h
  · split at h
    · cases h; exact ⟨hx, le_refl _⟩
    · exact auxAdd_all g p hx hb h
  · exact auxAdd_all g p hx hb h

theorem visitObs_all {P : List ℚ → Prop} (hP : ∀ b b' o, P b → o ∈ p.observations → resetStep g p b o = .ok b' → P b') (ib : Nat) :
    ∀ (L : List Name) (io : Nat) (x y : Aux), (∀ o ∈ L, o ∈ p.observations) → AllNodes P x → ib < x.nodes.length →
      visitObs g p ib L io x = .ok y → AllNodes P y := by
  intro L
  induction L with
  | nil => intro io x y _ hx _ h; cases h; exact hx
  | cons o L ih =>
    intro io x y hL hx hib h
    unfold visitObs at h
    split at h
    · exact ih _ _ _ (fun o ho => hL o (by simp [ho])) hx hib h
    · cases h
    · rename_i b hb
      cases h1 : auxIndex g p x b with
      | error e => rw [h1] at h; cases h
      | ok z =>
        rw [h1] at h
        have hPb : P b := hP _ _ o (hx.1 _ (getD_mem _ _ _ hib)) (hL o (by simp)) hb
        obtain ⟨hz, hle⟩ := auxIndex_all g p (j := z.1) (y := z.2) hx hPb h1
        have hz' : AllNodes P { z.2 with trans := setTrans z.2.trans ib io z.1 } := ⟨hz.1, hz.2⟩
        exact ih _ _ _ (fun o ho => hL o (by simp [ho])) hz' (show ib < z.2.nodes.length by omega) h

theorem visitLoop_all {P : List ℚ → Prop} (hP : ∀ b b' o, P b → o ∈ p.observations → resetStep g p b o = .ok b' → P b') (maxNodes : Nat) :
    ∀ (fuel : Nat) (x y : Aux), AllNodes P x → visitLoop g p maxNodes fuel x = .ok (some y) → AllNodes P y := by
  intro fuel
  induction fuel with
  | zero =>
    intro x y hx h
    unfold visitLoop at h
    split at h
    · cases h; exact hx
    · cases h
  | succ fuel ih =>
    intro x y hx h
    unfold visitLoop at h
    split at h
    · cases h; exact hx
    · split at h
      · cases h; exact hx
      · rename_i ib rest hq
        cases h1 : visitObs g p ib p.observations 0 { x with queue := rest } with
        | error e => rw [h1] at h; cases h
        | ok z =>
          rw [h1] at h
          have hib : ib < x.nodes.length := hx.2 ib (by rw [hq]; simp)
          have hx' : AllNodes P { x with queue := rest } := ⟨hx.1, fun i hi => hx.2 i (by
            have hi : i ∈ rest := hi
            rw [hq]
            exact List.mem_cons_of_mem _ hi)⟩
          exact ih z y (visitObs_all g p hP ib _ _ _ _ (fun o ho => ho) hx' hib h1) h

/-- The result of `visit`. -/
theorem visit_result {maxStates fuel : Nat} {q : GraphPolicy} {y : Aux} (h : visit g p maxStates fuel = .ok (some (q, y))) :
    ∃ x, auxIndex g p ⟨[], [], [], []⟩ p.start = .ok x ∧ visitLoop g p maxStates fuel x.2 = .ok (some y) ∧ q.values = y.nodes ∧
      q.actions.length = q.transitions.length := by
  unfold visit at h
  cases h1 : auxIndex g p ⟨[], [], [], []⟩ p.start with
  | error e => rw [h1] at h; cases h
  | ok x =>
    rw [h1] at h
    have h : (visitLoop g p maxStates fuel x.2 >>= _) = _ := h
    cases h2 : visitLoop g p maxStates fuel x.2 with
    | error e => rw [h2] at h; cases h
    | ok r =>
      rw [h2] at h
      cases r with
      | none => cases h
      | some z =>
        have h : (vstack z.nodes >>= _) = _ := h
        cases h3 : vstack z.nodes with
        | error e => rw [h3] at h; cases h
        | ok v =>
          rw [h3] at h
          have h : (mkGraphPolicy z.actions p.observations z.trans v none (some 0) >>= _) = _ := h
          cases h4 : mkGraphPolicy z.actions p.observations z.trans v none (some 0) with
          | error e => rw [h4] at h; cases h
          | ok q' =>
            rw [h4] at h
            cases h
            obtain ⟨k1, k2, k3, k4, k5, -⟩ := mkGraphPolicy_ok _ _ _ _ _ _ _ h4
            exact ⟨x, rfl, h2, by rw [k5, (vstack_eq _ _ h3).1], by rw [k2, k4, k1.1]⟩

theorem visit_reached (hp : Stochastic p nS nA nO) (hf : Fits g p nS) (hd : NamesDistinct p) (hs : IsDist nS p.start) {maxStates fuel : Nat}
    {q : GraphPolicy} {y : Aux} (h : visit g p maxStates fuel = .ok (some (q, y))) : ∀ b ∈ q.values, Reached g p nS b := by
  obtain ⟨x, h1, h2, h3, -⟩ := visit_result g p h
  have hP : ∀ b b' o, Reached g p nS b → o ∈ p.observations → resetStep g p b o = .ok b' → Reached g p nS b' :=
    fun b b' o hb ho hr => reached_step g p nS nA nO hp hf hd hs hb ho hr
  have hx := (auxIndex_all g p (P := Reached g p nS) (x := ⟨[], [], [], []⟩) (y := x.2) (j := x.1) ⟨by simp, by simp⟩ ⟨[], [], .nil _⟩ h1).1
  rw [h3]
  exact (visitLoop_all g p hP maxStates fuel x.2 y hx h2).1

/-! ### Runs -/

theorem policyPosterior_unique (hd : NamesDistinct p) {b b1 b2 : List ℚ} {io : Nat} (h1 : PolicyPosterior g p nS b io b1)
    (h2 : PolicyPosterior g p nS b io b2) : b1 = b2 := by
  obtain ⟨act, a, k1, k2, k3⟩ := h1
  obtain ⟨act', a', l1, l2, l3⟩ := h2
  have e1 := policyAction_unique g b _ _ k1 l1
  subst e1
  have e2 := nodup_index _ hd.1 _ _ _ k2 l2
  subst e2
  exact posterior_unique p nS a io b b1 b2 k3 l3

/-- A belief runner gives the run from its belief. -/
theorem beliefRun_run (hp : Stochastic p nS nA nO) (hf : Fits g p nS) (hd : NamesDistinct p) {b : List ℚ} {w as : List Name} {e : Option PyErr}
    (h : BeliefRun g p nS b w as e) : ∀ r : BRunner, BRunner.Valid g nS r → r.belief = b → runBelief g p w r = (as, e) := by
  have hact : ∀ (r : BRunner) (a : Name), BRunner.Valid g nS r → PolicyAction g r.belief a → g.getAction r.current = .ok a := by
    rintro r a ⟨-, n, hn, hbest⟩ ⟨m, hm, ha⟩
    have := bestNode_unique _ _ _ _ hbest hm
    subst this
    rw [hn]
    exact getAction_nat g n a ha
  induction h with
  | last ha =>
    intro r hr hb
    subst hb
    rw [runBelief, hact r _ hr ha]
  | @step b b' a o io w as e ha ho hpost _ ih =>
    intro r hr hb
    subst hb
    obtain ⟨r1, k1, k2, k3⟩ := (C46_step g p nS nA nO hp hf hd r hr io o ho).1 ⟨b', hpost⟩
    rw [runBelief, hact r _ hr ha]
    simp only [k1, ih r1 k2 (policyPosterior_unique g p nS hd k3 hpost)]
  | @impossible b a o io w ha ho hno =>
    intro r hr hb
    subst hb
    have := (C46_step g p nS nA nO hp hf hd r hr io o ho).2 hno
    rw [runBelief, hact r _ hr ha]
    simp only [this]
  | @unknown b a o w ha ho =>
    intro r hr hb
    subst hb
    have : bStep g p o r = (.error .valueError, r) := by
      have : bPosterior g p r o = .error .valueError := by
        unfold bPosterior
        rw [hact r _ hr ha]
        obtain ⟨n, -, han⟩ := ha
        obtain ⟨i, hi, -⟩ := indexOf_spec p.actions a (hf.2.2.2 _ (List.mem_of_getElem? han))
        show (indexOf p.actions a >>= _) = _
        rw [hi]
        show (indexOf p.observations o >>= _) = _
        rw [indexOf_unknown _ _ ho]
        rfl
      unfold bStep
      rw [this]
    rw [runBelief, hact r _ hr ha]
    simp only [this]

theorem policyAction_exists (hf : Fits g p nS) {b : List ℚ} (hb : b.length = nS) : ∃ a, PolicyAction g b a := by
  obtain ⟨n, h1, h2⟩ := nodeFromBelief_spec g.values b hf.1 (fun v hv => by rw [hf.2.2.1 v hv, hb])
  have hna : n < g.actions.length := by rw [← hf.2.1]; exact h2.1
  exact ⟨_, n, h2, List.getElem?_eq_getElem hna⟩

theorem beliefRun_total (hp : Stochastic p nS nA nO) (hf : Fits g p nS) (hd : NamesDistinct p) (hs : IsDist nS p.start) (w : List Name) :
    ∀ b, Reached g p nS b → ∃ as e, BeliefRun g p nS b w as e := by
  induction w with
  | nil =>
    intro b hb
    obtain ⟨a, ha⟩ := policyAction_exists g p nS hf (reached_dist g p nS nA nO hp hf hd hs hb).1
    exact ⟨_, _, .last ha⟩
  | cons o w ih =>
    intro b hb
    obtain ⟨a, ha⟩ := policyAction_exists g p nS hf (reached_dist g p nS nA nO hp hf hd hs hb).1
    by_cases ho : o ∈ p.observations
    · obtain ⟨io, hio⟩ := List.mem_iff_getElem?.1 ho
      by_cases hpost : ∃ b', PolicyPosterior g p nS b io b'
      · obtain ⟨b', hpost⟩ := hpost
        have hb' : Reached g p nS b' := by
          obtain ⟨hist, w', h⟩ := hb
          exact follows_snoc g p nS h hio hpost
        obtain ⟨as, e, h⟩ := ih b' hb'
        exact ⟨_, _, .step ha hio hpost h⟩
      · exact ⟨_, _, .impossible ha hio hpost⟩
    · exact ⟨_, _, .unknown ha ho⟩

theorem entry_get {t : List (List (Option Int))} {i io n : Nat} (hi : i < t.length) (hl : ∀ row ∈ t, row.length = n) (hio : io < n) :
    ∃ row, t[i]? = some row ∧ row[io]? = some (entry t i io) := by
  refine ⟨t[i], List.getElem?_eq_getElem hi, ?_⟩
  have : io < t[i].length := by rw [hl _ (List.getElem_mem hi)]; exact hio
  unfold entry
  rw [List.getElem?_eq_getElem this]
  simp [List.getD_eq_getElem?_getD, List.getElem?_eq_getElem hi, List.getElem?_eq_getElem this]

theorem firstAt_nodup {l : List Name} (h : l.Nodup) {i : Nat} {o : Name} (ho : l[i]? = some o) : FirstAt l o i :=
  ⟨ho, fun j hj hjo => by have := nodup_index _ h _ _ _ ho hjo; omega⟩

/-- What is needed of a policy graph whose nodes are the beliefs that can be reached. -/
structure ExactGraph (q : GraphPolicy) : Prop where
  obs : q.observations = p.observations
  lacts : q.actions.length = q.transitions.length
  ltrans : q.transitions.length = q.values.length
  rows : ∀ row ∈ q.transitions, row.length = nO
  acts : ∀ (i : Nat) (b : List ℚ), q.values[i]? = some b → ∃ act, q.actions[i]? = some act ∧ PolicyAction g b act
  next : ∀ (i io : Nat) (b b' : List ℚ), q.values[i]? = some b → PolicyPosterior g p nS b io b' → io < nO → ∃ n : Nat, entry q.transitions i io = some (n : Int) ∧
    q.values[n]? = some b'
  none : ∀ (i io : Nat) (b : List ℚ), q.values[i]? = some b → io < nO → (¬ ∃ b', PolicyPosterior g p nS b io b') → entry q.transitions i io = none

theorem exact_run {q : GraphPolicy} (hq : ExactGraph g p nS nO q) (hO : p.observations.length = nO) (hd : NamesDistinct p) {b : List ℚ}
    {w as : List Name} {e : Option PyErr} (h : BeliefRun g p nS b w as e) : ∀ i : Nat, q.values[i]? = some b → runPolicy q (i : Int) w = (as, e) := by
  have hlt : ∀ (i : Nat) (b : List ℚ), q.values[i]? = some b → i < q.actions.length := by
    intro i b hi
    have := (List.getElem?_eq_some_iff.1 hi).1
    rw [hq.lacts, hq.ltrans]; exact this
  have hact : ∀ (i : Nat) (b : List ℚ) (a : Name), q.values[i]? = some b → PolicyAction g b a → q.actions[i]? = some a := by
    intro i b a hi ha
    obtain ⟨a', h1, h2⟩ := hq.acts i b hi
    rw [policyAction_unique g b _ _ ha h2]; exact h1
  have hex : ∀ (i : Nat) (w as : List Name) (e : Option PyErr), Executes q.actions q.observations q.transitions (i : Int) w as e →
      runPolicy q (i : Int) w = (as, e) := fun i w as e h => executes_run q hq.lacts.symm h
  suffices ∀ i : Nat, q.values[i]? = some b → Executes q.actions q.observations q.transitions (i : Int) w as e from fun i hi => hex _ _ _ _ (this i hi)
  induction h with
  | last ha => exact fun i hi => .last ⟨hlt i _ hi, .inl rfl⟩ (hact i _ _ hi ha)
  | @step b b' a o io w as e ha ho hpost _ ih =>
    intro i hi
    have hio : io < nO := by rw [← hO]; exact (List.getElem?_eq_some_iff.1 ho).1
    obtain ⟨n, h1, h2⟩ := hq.next i io b b' hi hpost hio
    obtain ⟨row, h3, h4⟩ := entry_get (show i < q.transitions.length by rw [← hq.lacts]; exact hlt i b hi) hq.rows hio
    refine .step ⟨hlt i _ hi, .inl rfl⟩ (hact i _ _ hi ha) ?_ h3 (by rw [h4, h1]) (ih n h2)
    rw [hq.obs]; exact firstAt_nodup hd.2 ho
  | @impossible b a o io w ha ho hno =>
    intro i hi
    have hio : io < nO := by rw [← hO]; exact (List.getElem?_eq_some_iff.1 ho).1
    obtain ⟨row, h3, h4⟩ := entry_get (show i < q.transitions.length by rw [← hq.lacts]; exact hlt i b hi) hq.rows hio
    refine .impossible ⟨hlt i _ hi, .inl rfl⟩ (hact i _ _ hi ha) ?_ h3 (by rw [h4, hq.none i io b hi hio hno])
    rw [hq.obs]; exact firstAt_nodup hd.2 ho
  | @unknown b a o w ha ho =>
    intro i hi
    refine .unknown ⟨hlt i _ hi, .inl rfl⟩ (hact i _ _ hi ha) ?_
    rw [hq.obs]; exact ho

theorem distSq_self (n : Nat) (b : List ℚ) : distSq n b b = 0 := by
  unfold distSq
  induction n with
  | zero => rfl
  | succ n ih => simp [sumRange, List.range_succ] at ih ⊢

end Verif
