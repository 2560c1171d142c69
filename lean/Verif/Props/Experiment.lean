import Verif.Props.Evaluation
import Verif.Props.PomcpRunner
import Verif.Props.Supportive

/-! The evaluation of a search policy on the supportive model (C73). -/

set_option linter.unusedSectionVars false
set_option linter.unusedSimpArgs false

namespace Verif
open Spec
variable {σ β η : Type} [DecidableEq β]

theorem finishedOrN_bounded (isFinal : Nat → Bool) : BoundedHor (finishedOrN isFinal) (fun h => h.n.toNat) where
  step h hr a s s' o := by
    simp only [finishedOrN, Bool.or_eq_false_iff, decide_eq_false_iff_not] at hr ⊢
    omega
  copy h := le_rfl

section
variable {ok : β → Prop} {inside : β → Nat → Prop} {state : Nat → Prop} {S : Search σ β η} {b0 : β}

theorem simulateMany_safe (hs : SafeSim S.sim ok inside state) {m : η → Nat} (hm : BoundedHor S.hor m) (hit : 0 < S.rolloutIt) (h0 : ok b0)
    (hf : m S.horizon < S.fuel) (hb : m S.horizon ≤ S.bound) (i : Nat) : ∀ (k : Nat) (st : SearchState σ β), TInv S b0 st.tree →
    i < st.tree.size → M.Post (simulateMany S i k) st (fun _ _ => True) (fun _ _ => False) := by
  intro k
  induction k with
  | zero => intro st _ _; exact M.post_pure.2 trivial
  | succ k ih =>
      intro st ht hi
      unfold simulateMany
      have p1 := M.post_iff.1 (simulateFromNode_post (S := S) i none st ht hi)
      have p2 := M.post_iff.1 (simulateFromNode_safe hs hm hit h0 hf hb i none (by simp) st ht hi)
      refine M.post_bind (Q1 := fun _ s1 => TInv S b0 s1.tree ∧ i < s1.tree.size) (E1 := fun _ _ => False) ?_ (fun _ _ h => h) ?_
      · rw [M.post_iff]
        refine ⟨fun u s1 h1 => ?_, fun e s1 h1 => p2.2 e s1 h1⟩
        obtain ⟨q1, q2, _⟩ := p1.1 u s1 h1
        exact ⟨q1, lt_of_lt_of_le hi q2⟩
      · rintro _ s1 _ ⟨h1, h2⟩
        exact ih s1 h1 h2

/-- `get_action` does not raise. -/
theorem searchGetAction_safe (hs : SafeSim S.sim ok inside state) {m : η → Nat} (hm : BoundedHor S.hor m) (hit : 0 < S.rolloutIt) (h0 : ok b0)
    (hf : m S.horizon < S.fuel) (hb : m S.horizon ≤ S.bound) (n : Nat) (rs : SearchRunner σ β) (k : Known) (h : RInv S b0 rs k) :
    M.Post (searchGetAction S n) rs
      (fun name rs' => ∃ a, RInv S b0 rs' { k with last := some name } ∧ rs'.history = rs.history ∧ rs'.last = some a ∧
        a < S.sim.nActions ∧ S.sim.actions[a]? = some name) (fun _ _ => False) := by
  have hp := M.post_iff.1 (getAction_post S n rs k h)
  have hsafe : M.Post (searchGetAction S n) rs (fun _ rs' => ∃ a, rs'.last = some a) (fun _ _ => False) := by
    unfold searchGetAction
    apply M.post_read_bind
    have q1 := M.post_iff.1 (simulateMany_safe hs hm hit h0 hf hb rs.node n rs.search h.tree h.node)
    have q2 := M.post_iff.1 (simulateMany_inv S rs.node n rs.search h.tree h.node)
    refine M.post_bind (Q1 := fun _ rs1 => TInv S b0 rs1.search.tree) (E1 := fun _ _ => False) (onSearch_post _ _ ?_) (fun _ _ h => h) ?_
    · rw [M.post_iff]
      exact ⟨fun u s1 h1 => (q2.1 u s1 h1).1, fun e s1 h1 => q1.2 e s1 h1⟩
    · intro _ rs1 _ h1
      have r1 := M.post_iff.1 (getBest_post S.sim S.bonus 0 false rs.node rs1.search)
      have r2 := M.post_iff.1 (getBest_safe hs S.bonus 0 false rs.node rs1.search (h1.len _) (h1.sum _))
      refine M.post_bind (Q1 := fun a _ => a < S.sim.nActions) (E1 := fun _ _ => False) (onSearch_post _ _ ?_) (fun _ _ h => h) ?_
      · rw [M.post_iff]
        refine ⟨fun u s1 h2 => ?_, fun e s1 h1 => r2.2 e s1 h1⟩
        have := (r1.1 u s1 h2).2.1
        rw [h1.len] at this
        exact this
      · intro a rs2 _ ha
        refine M.post_ok_bind (a := ()) (s1 := { rs2 with last := some a }) rfl ?_
        have hlt : a < S.sim.actions.length := ha
        rw [List.getElem?_eq_getElem hlt]
        exact (M.post_lift).2 ⟨fun _ _ => ⟨a, rfl⟩, fun _ he => by cases he⟩
  rw [M.post_iff] at hsafe ⊢
  refine ⟨fun name rs' h1 => ?_, fun e rs' h1 => hsafe.2 e rs' h1⟩
  obtain ⟨a, ha⟩ := hsafe.1 name rs' h1
  obtain ⟨i1, i2, _⟩ := hp.1 name rs' h1
  refine ⟨a, i1, i2, ha, i1.last a ha, ?_⟩
  have := i1.known
  rw [ha] at this
  exact this.symm

/-- The pairs of actions and observations for which the successor of a belief can only fail for lack of samples. -/
def Fine (sim : Sim σ β) (ok : β → Prop) (ao : Nat × Nat) : Prop :=
  ao.1 < sim.nActions ∧ ∀ b, ok b → ∀ g e g', sim.successor b ao.1 ao.2 g = (.error e, g') → e = .maxSamplesReached

theorem getNodeFrom_safe (hs : SafeSim S.sim ok inside state) (h0 : ok b0) : ∀ (h : List (Nat × Nat)) (i : Nat) (st : SearchState σ β),
    TInv S b0 st.tree → i < st.tree.size → (∀ ao ∈ h, Fine S.sim ok ao) →
    M.Post (getNodeFrom S i h) st (fun _ _ => True) (fun e _ => e = .maxSamplesReached) := by
  intro h
  induction h with
  | nil => intro i st _ _ _; exact M.post_pure.2 trivial
  | cons ao h ih =>
      intro i st ht hi hfine
      obtain ⟨a, o⟩ := ao
      obtain ⟨f1, f2⟩ := hfine (a, o) (by simp)
      unfold getNodeFrom
      have p1 := M.post_iff.1 (getNodeStep_post (S := S) i a o st ht hi)
      have p2 : M.Post (getNodeStep S i a o) st (fun _ _ => True) (fun e _ => e = .maxSamplesReached) := by
        unfold getNodeStep
        refine M.post_bind (safeGetChild_post (a := a) ht hi) (fun e s2 h2 => by have := h2.2.2; simp only at f1; omega) ?_
        rintro _ s2 _ ⟨_, ht2, g2, c2, ha2, _, _, hs2, hlt, _⟩
        apply M.post_read_bind
        have hi2 : i < s2.tree.size := by rw [hs2]; exact hi
        rcases hj : s2.tree.next i a o with _ | j
        · refine M.post_mono (createChild_post ht2 hi2 ha2 hj) (fun _ _ _ => trivial) ?_
          rintro e s4 ⟨_, h1⟩
          exact f2 _ ((ht2.reach i hi2).holds hs h0) _ _ _ h1
        · exact M.post_pure.2 trivial
      rw [M.post_iff] at p2
      refine M.post_bind (Q1 := fun j s1 => TInv S b0 s1.tree ∧ j < s1.tree.size) (E1 := fun e _ => e = .maxSamplesReached) ?_ (fun _ _ h => h) ?_
      · rw [M.post_iff]
        exact ⟨fun j s1 h1 => ⟨(p1.1 j s1 h1).1, (p1.1 j s1 h1).2.2.2.2.1⟩, fun e s1 h1 => p2.2 e s1 h1⟩
      · rintro j s1 _ ⟨h1, h2⟩
        exact ih j s1 h1 h2 (fun ao hm => hfine ao (by simp [hm]))

/-- `step` after an action only raises `MaxSamplesReached`. -/
theorem searchStep_safe (hs : SafeSim S.sim ok inside state) (h0 : ok b0) (rs : SearchRunner σ β) (k : Known) (h : RInv S b0 rs k)
    (o : Name) (ho : o ∈ S.sim.observations) (a : Nat) (ha : rs.last = some a) (hh : ∀ ao ∈ rs.history, Fine S.sim ok ao)
    (hf : Fine S.sim ok (a, S.sim.observations.idxOf o)) :
    M.Post (searchStep S o) rs (fun _ rs' => (∃ k', RInv S b0 rs' k') ∧ ∀ ao ∈ rs'.history, Fine S.sim ok ao)
      (fun e _ => e = .maxSamplesReached) := by
  have hp := M.post_iff.1 (step_post S o rs k h)
  have hfine : ∀ ao ∈ rs.history ++ [(a, S.sim.observations.idxOf o)], Fine S.sim ok ao := by
    intro ao hm
    rcases List.mem_append.1 hm with hm | hm
    · exact hh ao hm
    · rw [List.mem_singleton.1 hm]; exact hf
  have hsafe : M.Post (searchStep S o) rs (fun _ _ => True) (fun e _ => e = .maxSamplesReached) := by
    unfold searchStep
    apply M.post_read_bind
    rw [ha]
    refine M.post_ok_bind (a := a) (s1 := rs) rfl ?_
    unfold searchMove Sim.obsIndex
    rw [if_pos ho]
    refine M.post_ok_bind (a := S.sim.observations.idxOf o) (s1 := rs) rfl ?_
    apply M.post_read_bind
    refine M.post_bind (Q1 := fun _ _ => True) (E1 := fun e _ => e = .maxSamplesReached) (onSearch_post _ _ ?_) (fun _ _ h => h) ?_
    · exact getNodeFrom_safe hs h0 _ 0 rs.search h.tree h.tree.pos hfine
    · intro j rs1 _ _
      exact M.post_modify.2 trivial
  rw [M.post_iff] at hsafe ⊢
  refine ⟨fun u rs' h1 => ?_, fun e rs' h1 => hsafe.2 e rs' h1⟩
  obtain ⟨a', name, _, e1, e2, _, e3, _⟩ := hp.1 u rs' h1
  rw [ha] at e1
  cases e1
  exact ⟨⟨_, e2⟩, by rw [e3]; exact hfine⟩

/-- One transition of an evaluation of a search policy on its own model. -/
theorem evalStep_safe (hs : SafeSim S.sim ok inside state) {m : η → Nat} (hm : BoundedHor S.hor m) (hit : 0 < S.rolloutIt) (h0 : ok b0)
    (hf : m S.horizon < S.fuel) (hb : m S.horizon ≤ S.bound) (hnA : S.sim.actions.Nodup) (hnO : S.sim.observations.Nodup)
    (hfine : ∀ a s g x g', a < S.sim.nActions → state s → S.sim.sampleTransition a s g = (.ok x, g') →
      x.2.1 < S.sim.observations.length ∧ Fine S.sim ok (a, x.2.1))
    (isFinal : Nat → Bool) (calls : SearchRunner σ β → Int) (start : M σ Nat) (iterations : Nat)
    (s : Nat) (rs : SearchRunner σ β) (k : Known) (hst : state s) (hinv : RInv S b0 rs k) (hh : ∀ ao ∈ rs.history, Fine S.sim ok ao) :
    M.Post (evalStep (searchModel S.sim isFinal calls start) (searchPolicy S iterations) s) rs
      (fun y rs' => state y.2.1 ∧ (∃ k', RInv S b0 rs' k') ∧ ∀ ao ∈ rs'.history, Fine S.sim ok ao) (fun e _ => e = .maxSamplesReached) := by
  unfold evalStep
  refine M.post_bind (searchGetAction_safe hs hm hit h0 hf hb iterations rs k hinv) (fun _ _ h => h.elim) ?_
  rintro name rs1 _ ⟨a, i1, i2, i3, i4, i5⟩
  have hmem : name ∈ S.sim.actions := List.mem_of_getElem? i5
  have hidx : S.sim.actions.idxOf name = a := by
    have h1 := (List.getElem?_eq_some_iff.1 i5)
    obtain ⟨hlt, rfl⟩ := h1
    exact hnA.idxOf_getElem a hlt
  have hia : indexOfName (searchModel S.sim isFinal calls start).actions name = .ok a := by
    show (if name ∈ S.sim.actions then Except.ok (S.sim.actions.idxOf name) else _) = _
    rw [if_pos hmem, hidx]
  rw [hia]
  refine M.post_ok_bind (a := a) (s1 := rs1) rfl ?_
  obtain ⟨x, g, hx, hxs⟩ := hs.trans a s i4 hst rs1.search.rng
  have hx' : (searchModel S.sim isFinal calls start).sampleTransition a s rs1 = (.ok x, { rs1 with search := ⟨rs1.search.tree, g⟩ }) := by
    show onSearch (onRng _) rs1 = _
    unfold onSearch onRng
    rw [hx]
  refine M.post_ok_bind hx' ?_
  obtain ⟨f1, f2⟩ := hfine a s _ x _ i4 hst hx
  have hno : nameAt (searchModel S.sim isFinal calls start).observations x.2.1 = .ok S.sim.observations[x.2.1] := by
    show (match S.sim.observations[x.2.1]? with | some name => Except.ok name | none => _) = _
    rw [List.getElem?_eq_getElem f1]
  rw [hno]
  refine M.post_ok_bind (a := S.sim.observations[x.2.1]) (s1 := { rs1 with search := ⟨rs1.search.tree, g⟩ }) rfl ?_
  have hinv2 := i1.grow (s := ⟨rs1.search.tree, g⟩) i1.tree (.refl _)
  refine M.post_bind (searchStep_safe hs h0 _ _ hinv2 _ (List.getElem_mem _) a i3 (by rw [show _ = rs.history from i2]; exact hh)
    (by rw [hnO.idxOf_getElem]; exact f2)) (fun _ _ h => h) ?_
  rintro _ rs3 _ ⟨j1, j2⟩
  exact M.post_pure.2 ⟨hxs, j1, j2⟩

/-- The evaluation of a search policy on its own model: it returns an episode or raises `MaxSamplesReached`. -/
theorem evaluation_safe (hs : SafeSim S.sim ok inside state) {m : η → Nat} (hm : BoundedHor S.hor m) (hit : 0 < S.rolloutIt) (h0 : ok b0)
    (hf : m S.horizon < S.fuel) (hb : m S.horizon ≤ S.bound) (hnA : S.sim.actions.Nodup) (hnO : S.sim.observations.Nodup)
    (hfine : ∀ a s g x g', a < S.sim.nActions → state s → S.sim.sampleTransition a s g = (.ok x, g') →
      x.2.1 < S.sim.observations.length ∧ Fine S.sim ok (a, x.2.1))
    (isFinal : Nat → Bool) (calls : SearchRunner σ β → Int) (start : M σ Nat)
    (hstart : ∀ g, ∃ s g', start g = (.ok s, g') ∧ state s) (iterations : Nat)
    (maxHorizon : Int) (discount : Bool) (bound : Nat) (hbd : maxHorizon.toNat ≤ bound) (rs : SearchRunner σ β) (k : Known) (h : RInv S b0 rs k) :
    M.Post (simulateOneEvaluation (searchModel S.sim isFinal calls start) (searchPolicy S iterations) maxHorizon discount bound) rs
      (fun _ rs' => ∃ k', RInv S b0 rs' k') (fun e _ => e = .maxSamplesReached) := by
  have hstep : ∀ (s : Nat) (rs : SearchRunner σ β) (k : Known), state s → RInv S b0 rs k → (∀ ao ∈ rs.history, Fine S.sim ok ao) →
      M.Post (evalStep (searchModel S.sim isFinal calls start) (searchPolicy S iterations) s) rs
        (fun y rs' => state y.2.1 ∧ (∃ k', RInv S b0 rs' k') ∧ ∀ ao ∈ rs'.history, Fine S.sim ok ao) (fun e _ => e = .maxSamplesReached) :=
    fun s rs k hst hinv hh => evalStep_safe hs hm hit h0 hf hb hnA hnO hfine isFinal calls start iterations s rs k hst hinv hh
  have hloop : ∀ (bound : Nat) (hz : FinHorizon) (ep : Episode) (s : Nat) (rs : SearchRunner σ β) (k : Known), hz.n.toNat ≤ bound →
      ep.states.getLast? = some s → state s → RInv S b0 rs k → (∀ ao ∈ rs.history, Fine S.sim ok ao) →
      M.Post (evalLoop (searchModel S.sim isFinal calls start) (searchPolicy S iterations)
        (if discount then (searchModel S.sim isFinal calls start).discount else 1) bound hz ep) rs
        (fun _ rs' => ∃ k', RInv S b0 rs' k') (fun e _ => e = .maxSamplesReached) := by
    intro bound
    induction bound with
    | zero =>
        intro hz ep s rs k hn hl hst hinv hh
        unfold evalLoop
        rw [if_pos (by simp only [finishedOrN, Bool.or_eq_true, decide_eq_true_eq]; left; omega)]
        exact M.post_pure.2 ⟨k, hinv⟩
    | succ j ih =>
        intro hz ep s rs k hn hl hst hinv hh
        unfold evalLoop
        apply M.post_ite
        · intro _; exact M.post_pure.2 ⟨k, hinv⟩
        · intro _
          have : lastOf ep.states = .ok s := by unfold lastOf; rw [hl]
          rw [this]
          refine M.post_ok_bind (a := s) (s1 := rs) rfl ?_
          refine M.post_bind (hstep s rs k hst hinv hh) (fun _ _ h => h) ?_
          rintro y rs1 _ ⟨h1, ⟨k', h2⟩, h3⟩
          refine ih _ _ y.2.1 rs1 k' ?_ (by simp [Episode.add]) h1 h2 h3
          simp only [finishedOrN]
          omega
  unfold simulateOneEvaluation
  apply M.post_read_bind
  refine M.post_ok_bind (a := ()) (s1 := ⟨rs.search, [], 0, none⟩) rfl ?_
  obtain ⟨s, g, hs1, hs2⟩ := hstart rs.search.rng
  refine M.post_ok_bind (a := s) (s1 := ⟨⟨rs.search.tree, g⟩, [], 0, none⟩) (by
    show onSearch (onRng start) _ = _
    unfold onSearch onRng
    simp only [hs1]) ?_
  have hinv : RInv S b0 ⟨⟨rs.search.tree, g⟩, [], 0, none⟩ ⟨none, []⟩ :=
    ⟨h.tree, h.tree.pos, rfl, rfl, fun a ha => (by cases ha), rfl⟩
  refine M.post_bind (hloop bound ⟨maxHorizon, false⟩ _ s _ _ hbd rfl hs2 hinv (by simp)) (fun _ _ h => h) ?_
  rintro ep rs1 _ hk
  apply M.post_read_bind
  exact M.post_pure.2 hk

end

/-- **C73.**  For every task accepted by the constructor of the supportive model, the evaluation of a POMCP policy with particle
beliefs, after any calls of this policy, returns an episode or raises `MaxSamplesReached`, whatever the random outcomes. -/
theorem C73_evaluation {t : Htm SupAction} {m : SupPomdp} (ht : Constructed t m) (hp : m.par.pPreferences.length ≤ m.par.nPreferences)
    (gamma : ℚ) (n : Nat) (hn : 0 < n) (d : Nat → Nat → SupPomdp.Draws) (c : Nat → Nat → Nat)
    (S : Search Nat (List Nat) FinHorizon) (hS : S.sim = supSim m gamma n d c) (hor : S.hor = finishedOrN m.isFinal)
    (hit : 0 < S.rolloutIt) (hf : S.horizon.n.toNat < S.fuel) (hb : S.horizon.n.toNat ≤ S.bound)
    (b : List Nat) (hbl : b.length = n) (hbs : ∀ s ∈ b, s < m.nStates) (rng : Nat) (ops : List RunnerOp) (iterations : Nat)
    (calls : SearchRunner Nat (List Nat) → Int) (sd : Nat → Nat × (Nat → ℚ) × (Nat → ℚ))
    (maxHorizon : Int) (discount : Bool) (bound : Nat) (hbd : maxHorizon.toNat ≤ bound) :
    let r := (simulateOneEvaluation
      (searchModel S.sim m.isFinal calls fun g => (m.sampleStart (sd g).1 (sd g).2.1 (sd g).2.2, g + 1))
      (searchPolicy S iterations) maxHorizon discount bound (runRunnerOps S (S.runner b rng) ⟨none, []⟩ ops).1).1
    (∃ ep, r = .ok ep) ∨ r = .error .maxSamplesReached := by
  have hlen : m.actions.length = m.nActions := (C27_names ht).1
  have hsafe : SafeSim S.sim (ParticlesOk m.nStates n) (fun _ s => s < m.nStates) (fun s => s < m.nStates) := by
    rw [hS]
    refine particlesOver_safe (by simp [SupPomdp.actions]) hn ?_ ?_
    · intro k j a s ha hs
      obtain ⟨s', o, r, h1, h2, _⟩ := C25_transition ht (d k j) a s true hs (by rw [← hlen]; simpa using ha)
      exact ⟨_, h1, h2⟩
    · intro k j a s x hx
      by_contra hc
      rw [C25_unknownAction ht (d k j) a s true (by rw [← hlen]; simpa using hc)] at hx
      cases hx
  have hnA : S.sim.nActions = m.nActions := by rw [hS, ← hlen]; exact List.length_map ..
  have hinv := runRunnerOps_inv S ops (S.runner b rng) ⟨none, []⟩ (runner_inv S b rng)
  have hpost := evaluation_safe (m := fun h => h.n.toNat) hsafe (by rw [hor]; exact finishedOrN_bounded _) hit ⟨hbl, hbs⟩ hf hb
    (by
      rw [hS]
      exact (C27_names ht).2.map (fun a b h => by cases h; rfl))
    (by rw [hS]; show supObservations.Nodup; decide)
    (by
      intro a s g x g' ha hs hx
      have ha' : a < m.nActions := by rw [← hnA]; exact ha
      rw [hS] at hx
      obtain ⟨s', o, r, h1, h2, h3⟩ := C25_transition ht (d g 0) a s true hs ha'
      have hx' : m.sampleTransition (d g 0) a s = .ok x := congrArg Prod.fst hx
      rw [h1] at hx'
      cases hx'
      refine ⟨by rw [hS]; exact h3, ha, fun b hb g2 e g3 he => ?_⟩
      rw [← hS] at hx
      exact hsafe.noRaise b s a _ g g' hb hs ha hx g2 e g3 he)
    m.isFinal calls (fun g => (m.sampleStart (sd g).1 (sd g).2.1 (sd g).2.2, g + 1))
    (by
      intro g
      obtain ⟨s, h1, h2, _⟩ := C25_start ht hp (sd g).1 (sd g).2.1 (sd g).2.2
      exact ⟨s, g + 1, by rw [h1], h2⟩)
    iterations maxHorizon discount bound hbd _ _ hinv
  intro r
  have hr : r = (simulateOneEvaluation
      (searchModel S.sim m.isFinal calls fun g => (m.sampleStart (sd g).1 (sd g).2.1 (sd g).2.2, g + 1))
      (searchPolicy S iterations) maxHorizon discount bound (runRunnerOps S (S.runner b rng) ⟨none, []⟩ ops).1).1 := rfl
  unfold M.Post at hpost
  split at hpost
  · rename_i ep s' he
    left; exact ⟨ep, by rw [hr, he]⟩
  · rename_i e s' he
    right
    rw [hr, he, hpost]

/-- **C73 (return).**  The return of the episode weighs the rewards with the discount given to the model (with 1 if the returns are not
to be discounted), the last reward with weight 1, and there are at most as many rewards as the horizon of the evaluation allows. -/
theorem C73_return {m : SupPomdp} (gamma : ℚ) (n : Nat) (d : Nat → Nat → SupPomdp.Draws) (c : Nat → Nat → Nat)
    (S : Search Nat (List Nat) FinHorizon) (hS : S.sim = supSim m gamma n d c) (iterations : Nat)
    (calls : SearchRunner Nat (List Nat) → Int) (sd : Nat → Nat × (Nat → ℚ) × (Nat → ℚ))
    (maxHorizon : Int) (discount : Bool) (bound : Nat) (rs rs' : SearchRunner Nat (List Nat)) (ep : Episode)
    (h : simulateOneEvaluation
      (searchModel S.sim m.isFinal calls fun g => (m.sampleStart (sd g).1 (sd g).2.1 (sd g).2.2, g + 1))
      (searchPolicy S iterations) maxHorizon discount bound rs = (.ok ep, rs')) :
    ep.ret = sumRange ep.rewards.length (fun t => (if discount then gamma else 1) ^ (ep.rewards.length - 1 - t) * ep.rewards.getD t 0) ∧
    ep.rewards.length ≤ maxHorizon.toNat ∧ ep.calls = calls rs' - calls rs := by
  have hd : S.sim.discount = gamma := by rw [hS]; rfl
  have hcalls := C60_calls maxHorizon discount bound rs rs' ep h
  rw [C60_record_harmless maxHorizon discount bound rs []] at h
  generalize hr : simulateOneEvaluation (recordModel (searchModel S.sim m.isFinal calls
      fun g => (m.sampleStart (sd g).1 (sd g).2.1 (sd g).2.2, g + 1))) (recordPolicy (searchPolicy S iterations)) maxHorizon discount
      bound (rs, []) = x at h
  obtain ⟨r, g2⟩ := x
  simp only [Prod.mk.injEq] at h
  obtain ⟨rfl, _⟩ := h
  obtain ⟨s, moves, evs, _, _, _, _, _, _, h4, h6, _, _, h5⟩ := C60_record _ _ _ _ _ _ hr
  have hl : ep.rewards.length = moves.length := by rw [h4, List.length_map]
  refine ⟨?_, by rw [hl]; exact h6, hcalls⟩
  rw [hl, h5]
  show sumRange moves.length (fun t => (if discount then S.sim.discount else 1) ^ _ * _) = _
  rw [hd]

/-- Non-vacuity of `C73_return`: an evaluation that returns an episode with two rewards, discounted. -/
example : (mkSupPomdp {} (fun l => l) 3 exSup).toOption.map (fun m =>
    let S : Search Nat (List Nat) FinHorizon := ⟨supSim m (9 / 10) 5 (fun _ _ => ⟨fun _ => 0, fun _ => 0, 0, 0, fun _ => 0, 0, 0⟩)
      (fun _ _ => 0), finishedOrN m.isFinal, ⟨20, false⟩, 1, false, 10, 0, fun _ _ => 0, false, 25, 25⟩
    (simulateOneEvaluation (searchModel S.sim m.isFinal (fun _ => 0) (fun g => (m.sampleStart 0 (fun _ => 0) (fun _ => 0), g + 1)))
      (searchPolicy S 1) 2 true 3 (S.runner [0, 0, 0, 0, 0] 0)).1.toOption.map fun ep => (ep.rewards, ep.ret)) =
    some (some ([-2, -2], -19 / 5)) := by decide +kernel

/-- Non-vacuity of C73: a search with 5 particles on the model of `exSup`, evaluated after one call of `get_action`. -/
example : ∃ m, Constructed exSup m ∧ m.par.pPreferences.length ≤ m.par.nPreferences ∧ ∀ d c calls (sd : Nat → Nat × (Nat → ℚ) × (Nat → ℚ)), ∃ S : Search Nat (List Nat) FinHorizon,
    S.sim = supSim m (9 / 10) 5 d c ∧
    let r := (simulateOneEvaluation
      (searchModel S.sim m.isFinal calls fun g => (m.sampleStart (sd g).1 (sd g).2.1 (sd g).2.2, g + 1))
      (searchPolicy S 100) 20 true 30 (runRunnerOps S (S.runner [0, 0, 0, 0, 0] 0) ⟨none, []⟩ [.getAction 1000]).1).1
    (∃ ep, r = .ok ep) ∨ r = .error .maxSamplesReached := by
  obtain ⟨h1, h2, h3, h4, h5⟩ := exSup_ok
  obtain ⟨m, hm, _⟩ := (C70_accepts exSup h1 h2 {} (fun l => l) (fun _ _ => Iff.rfl) 3 h5).1 ⟨h3, h4⟩
  have ht : Constructed exSup m := ⟨h1, h2, {}, fun l => l, 3, fun _ _ => Iff.rfl, h5, hm⟩
  have hk : (mkSupPomdp {} (fun l => l) 3 exSup).toOption.map
      (fun m => decide (m.par.pPreferences.length ≤ m.par.nPreferences ∧ 0 < m.nStates)) = some true := by decide +kernel
  rw [hm] at hk
  simp only [Except.toOption, Option.map_some, Option.some.injEq, decide_eq_true_eq] at hk
  refine ⟨m, ht, hk.1, fun d c calls sd => ⟨⟨supSim m (9 / 10) 5 d c, finishedOrN m.isFinal, ⟨20, false⟩, 1, false, 10, 0, fun _ _ => 0, false,
    25, 25⟩, rfl, ?_⟩⟩
  exact C73_evaluation ht hk.1 (9 / 10) 5 (by decide) d c _ rfl rfl (by norm_num) (by norm_num) (by norm_num) [0, 0, 0, 0, 0] rfl
    (by simpa using hk.2) 0 _ 100 calls sd 20 true 30 (by decide)

end Verif
