import Verif.Proof.PomcpUct
import Mathlib.Tactic.Ring

/-! What one simulation does: its path, its transitions, its return, and its effect on the counts. -/

set_option linter.unusedSectionVars false
set_option linter.unusedSimpArgs false

namespace Verif
open Spec
variable {σ β η : Type}

theorem discountedSum_nil (γ : ℚ) : discountedSum γ [] = 0 := rfl

theorem discountedSum_cons (γ : ℚ) (e : Ev) (es : List Ev) : discountedSum γ (e :: es) = e.reward + γ * discountedSum γ es := by
  unfold discountedSum
  rw [List.length_cons, Nat.add_comm, sumRange_append]
  have h1 : sumRange 1 (fun k => γ ^ k * (List.map Ev.reward (e :: es)).getD k 0) = e.reward := by
    rw [show (1 : Nat) = 0 + 1 from rfl, sumRange_succ]
    simp [sumRange]
  rw [h1, ← sumRange_mul_left]
  congr 1
  apply sumRange_congr
  intro k _
  rw [Nat.add_comm 1 k, pow_succ]
  simp only [List.map_cons, List.getD_cons_succ]
  ring

section
variable (sim : Sim σ β)

theorem logged_transition_post (a s : Nat) (g : σ × List Ev) :
    M.Post ((logged sim).sampleTransition a s) g
      (fun x g' => g'.2 = g.2 ++ [⟨a, s, x.1, x.2.1, x.2.2⟩] ∧ sim.sampleTransition a s g.1 = (.ok x, g'.1))
      (fun e g' => g'.2 = g.2 ∧ sim.sampleTransition a s g.1 = (.error e, g'.1)) := by
  unfold M.Post logged
  rcases h : sim.sampleTransition a s g.1 with ⟨r, g1⟩
  cases r <;> simp [h]

theorem logged_rand_post (g : σ × List Ev) :
    M.Post (logged sim).rand g (fun x g' => g'.2 = g.2 ∧ sim.rand g.1 = (.ok x, g'.1))
      (fun e g' => g'.2 = g.2 ∧ sim.rand g.1 = (.error e, g'.1)) := by
  unfold M.Post logged
  rcases h : sim.rand g.1 with ⟨r, g1⟩
  cases r <;> simp [h]

theorem logged_sampleBelief_post (b : β) (g : σ × List Ev) :
    M.Post ((logged sim).sampleBelief b) g (fun x g' => g'.2 = g.2 ∧ sim.sampleBelief b g.1 = (.ok x, g'.1))
      (fun e g' => g'.2 = g.2 ∧ sim.sampleBelief b g.1 = (.error e, g'.1)) := by
  unfold M.Post logged
  rcases h : sim.sampleBelief b g.1 with ⟨r, g1⟩
  cases r <;> simp [h]

theorem logged_randomAction_post (g : σ × List Ev) :
    M.Post (randomAction (logged sim)) g (fun _ g' => g'.2 = g.2)
      (fun e g' => g'.2 = g.2 ∧ (QuietSim sim → e ≠ .maxSamplesReached)) := by
  unfold randomAction
  refine M.post_bind (logged_rand_post sim g) (fun e g1 h => ⟨h.1, fun hq he => hq.2.2 g.1 (by rw [h.2, he])⟩) ?_
  rintro c g1 _ ⟨h1, _⟩
  rw [M.post_lift]
  refine ⟨fun _ _ => h1, fun e he => ⟨h1, fun _ he' => ?_⟩⟩
  subst he'
  split at he <;> simp at he

theorem rolloutLoop_post (hor : HorizonOps η) : ∀ (bound s : Nat) (h : η) (gamma full : ℚ) (g : σ × List Ev),
    M.Post (rolloutLoop (logged sim) hor bound s h gamma full) g
      (fun x g' => ∃ evs, g'.2 = g.2 ++ evs ∧ Chained s evs ∧ Within hor h evs ∧ hor.isReached (horizonAfter hor h evs) = true ∧
        x = full + gamma * discountedSum sim.discount evs)
      (fun e _ => QuietSim sim → e ≠ .maxSamplesReached) := by
  intro bound
  induction bound with
  | zero =>
      intro s h gamma full g
      unfold rolloutLoop
      apply M.post_ite
      · intro hr
        rw [M.post_pure]
        exact ⟨[], by simp, trivial, trivial, hr, by simp [discountedSum_nil]⟩
      · intro hr
        rw [M.post_raise]
        simp
  | succ k ih =>
      intro s h gamma full g
      unfold rolloutLoop
      apply M.post_ite
      · intro hr
        rw [M.post_pure]
        exact ⟨[], by simp, trivial, trivial, hr, by simp [discountedSum_nil]⟩
      · intro hr
        refine M.post_bind (logged_randomAction_post sim g) (fun e g1 h => h.2) ?_
        intro a g1 _ h1
        refine M.post_bind (logged_transition_post sim a s g1) (fun e g2 h hq he => hq.1 a s g1.1 (by rw [h.2, he])) ?_
        rintro x g2 _ ⟨h2, _⟩
        refine M.post_mono (ih x.1 _ _ _ g2) ?_ (fun _ _ h => h)
        rintro y g3 ⟨evs, e1, e2, e3, e4, e5⟩
        refine ⟨⟨a, s, x.1, x.2.1, x.2.2⟩ :: evs, ?_, ⟨rfl, e2⟩, ⟨by simpa using hr, e3⟩, e4, ?_⟩
        · rw [e1, h2, h1]; simp
        · rw [e5, discountedSum_cons]
          show full + gamma * x.2.2 + gamma * sim.discount * _ = _
          ring

end

section
variable (S0 : Search σ β η)

theorem rollouts_post (b : β) (h : η) : ∀ (k : Nat) (total : ℚ) (g : σ × List Ev),
    M.Post (rollouts (loggedSearch S0) b h k total) g
      (fun x g' => ∃ rolls : List (List Ev), rolls.length = k ∧ g'.2 = g.2 ++ rolls.flatten ∧ (∀ r ∈ rolls, IsRollout S0.hor h r) ∧
        x = total + (rolls.map (discountedSum S0.sim.discount)).sum)
      (fun e _ => QuietSim S0.sim → e ≠ .maxSamplesReached) := by
  intro k
  induction k with
  | zero =>
      intro total g
      exact M.post_pure.2 ⟨[], rfl, by simp, by simp, by simp⟩
  | succ k ih =>
      intro total g
      unfold rollouts
      refine M.post_bind (logged_sampleBelief_post S0.sim b g) (fun e g1 h hq he => hq.2.1 b g.1 (by rw [h.2, he])) ?_
      rintro s g1 _ ⟨h1, _⟩
      refine M.post_bind (rolloutLoop_post S0.sim S0.hor S0.bound s (S0.hor.copy h) 1 0 g1) (fun _ _ h => h) ?_
      rintro x g2 _ ⟨evs, e1, e2, e3, e4, e5⟩
      refine M.post_mono (ih (total + x) g2) ?_ (fun _ _ h => h)
      rintro y g3 ⟨rolls, r1, r2, r3, r4⟩
      refine ⟨evs :: rolls, by simp [r1], ?_, ?_, ?_⟩
      · rw [r2, e1, h1]; simp
      · intro r hr
        rcases List.mem_cons.1 hr with rfl | hr
        · exact ⟨⟨s, e2⟩, e3, e4⟩
        · exact r3 r hr
      · rw [r4, e5]
        simp only [List.map_cons, List.sum_cons]
        ring

variable [DecidableEq β] {b0 : β}

theorem linked_congr {t t' : Tree β} (h : ∀ i a o, t'.next i a o = t.next i a o) (evs : List Ev) :
    ∀ (i : Nat) (path : List (Nat × Nat)) (last : Option Nat), LinkedRun t i path evs last → LinkedRun t' i path evs last := by
  induction evs with
  | nil =>
      intro i path last hl
      cases path with
      | nil => exact hl
      | cons p path => exact hl.elim
  | cons e evs ih =>
      intro i path last hl
      cases path with
      | nil => exact hl.elim
      | cons p path =>
          obtain ⟨j, a⟩ := p
          obtain ⟨h1, h2, h3⟩ := hl
          refine ⟨h1, h2, ?_⟩
          rcases h3 with ⟨h3, h4⟩ | ⟨k, h3, h4⟩
          · exact .inl ⟨by rw [h]; exact h3, h4⟩
          · exact .inr ⟨k, by rw [h]; exact h3, ih k path last h4⟩

theorem tailReturn_congr (γ : ℚ) (hor : HorizonOps η) {t t' : Tree β} (h : ∀ j, (t'.nodes j).avg = (t.nodes j).avg) (hh : η)
    (rolls : List (List Ev)) (e : Ending) : tailReturn γ hor t' hh rolls e = tailReturn γ hor t hh rolls e := by
  cases e <;> simp [tailReturn, h]

/-- The part of a trace after one transition. -/
structure Rest (S : Search (σ × List Ev) β η) (st st' : SearchState (σ × List Ev) β) (i a o s : Nat) (h : η) (x : ℚ)
    (path : List (Nat × Nat)) (evs : List Ev) (rolls : List (List Ev)) (ending : Ending) : Prop where
  log : st'.rng.2 = st.rng.2 ++ evs ++ rolls.flatten
  chained : Chained s evs
  within : Within S.hor h evs
  linked : (st'.tree.next i a o = none ∧ path = [] ∧ evs = [] ∧ ending.node = none) ∨
    ∃ k, st'.tree.next i a o = some k ∧ LinkedRun st'.tree k path evs ending.node
  rollsOk : RollsOk S.hor S.rolloutIt (horizonAfter S.hor h evs) rolls ending
  result : x = discountedSum S.sim.discount evs +
    S.sim.discount ^ evs.length * tailReturn S.sim.discount S.hor st.tree (horizonAfter S.hor h evs) rolls ending
  nodes : ∀ j, nodeVisits st'.tree j = nodeVisits st.tree j + (path.map Prod.fst).count j +
    (if rolledNode S.hor (horizonAfter S.hor h evs) ending = some j then 1 else 0)
  acts : ∀ j a, actionVisits st'.tree j a = actionVisits st.tree j a + path.count (j, a)

/-- The trace made of one transition and the rest. -/
theorem Rest.cons {S : Search (σ × List Ev) β η} {st s3 s4 st' : SearchState (σ × List Ev) β} {i a s : Nat} {h : η}
    {x : Nat × Nat × ℚ} {y : ℚ} {path : List (Nat × Nat)} {evs : List Ev} {rolls : List (List Ev)} {ending : Ending}
    (hr : Rest S s3 s4 i a x.2.1 x.1 (S.hor.decrement a s x.1 x.2.1 h) y path evs rolls ending)
    (hreach : S.hor.isReached h = false)
    (hlog : s3.rng.2 = st.rng.2 ++ [⟨a, s, x.1, x.2.1, x.2.2⟩])
    (hc : SameCounts st.tree s3.tree) (havg : ∀ j, (s3.tree.nodes j).avg = (st.tree.nodes j).avg)
    (ha : s4.tree.anode i a ≠ none)
    (hst : st' = ⟨(s4.tree.bumpA S.alpha i a (x.2.2 + S.sim.discount * y)).bump S.alpha i (x.2.2 + S.sim.discount * y), s4.rng⟩) :
    Trace S st st' i s h (x.2.2 + S.sim.discount * y) ((i, a) :: path) (⟨a, s, x.1, x.2.1, x.2.2⟩ :: evs) rolls ending := by
  have hnext : ∀ j b o, st'.tree.next j b o = s4.tree.next j b o := fun j b o => by
    rw [hst]; show Tree.next (Tree.bump _ _ _ _) j b o = _; rw [Tree.bump_next, Tree.bumpA_next]
  constructor
  · rw [hst]; show s4.rng.2 = _; rw [hr.log, hlog]; simp
  · exact ⟨rfl, hr.chained⟩
  · exact ⟨hreach, hr.within⟩
  · refine ⟨rfl, rfl, ?_⟩
    rcases hr.linked with ⟨h1, h2⟩ | ⟨k, h1, h2⟩
    · exact .inl ⟨by rw [hnext]; exact h1, h2⟩
    · exact .inr ⟨k, by rw [hnext]; exact h1, linked_congr hnext _ _ _ _ h2⟩
  · exact hr.rollsOk
  · have h1 := hr.result
    rw [tailReturn_congr _ _ havg] at h1
    rw [discountedSum_cons, List.length_cons, pow_succ]
    show _ = x.2.2 + S.sim.discount * discountedSum S.sim.discount evs + S.sim.discount ^ evs.length * S.sim.discount *
      tailReturn S.sim.discount S.hor st.tree (horizonAfter S.hor (S.hor.decrement a s x.1 x.2.1 h) evs) rolls ending
    rw [h1]
    ring
  · intro j
    rw [hst]
    show nodeVisits (Tree.bump _ _ _ _) j = _
    rw [Tree.bump_nodeVisits]
    have h1 : nodeVisits (s4.tree.bumpA S.alpha i a (x.2.2 + S.sim.discount * y)) j = nodeVisits s4.tree j := by
      unfold nodeVisits Tree.bumpA; rw [Tree.updA_avg]
    rw [h1, hr.nodes j, hc.1, List.map_cons, List.count_cons]
    show _ = _ + _ + if rolledNode S.hor (horizonAfter S.hor (S.hor.decrement a s x.1 x.2.1 h) evs) ending = some j then 1 else 0
    by_cases hj : j = i
    · subst hj; simp; omega
    · simp [hj, Ne.symm hj]
  · intro j b
    rw [hst]
    show actionVisits (Tree.bump _ _ _ _) j b = _
    rw [Tree.bump_actionVisits, Tree.bumpA_actionVisits ha, hr.acts, hc.2, List.count_cons]
    by_cases hj : j = i ∧ b = a
    · obtain ⟨rfl, rfl⟩ := hj; simp; omega
    · rw [if_neg hj]
      have : ((i, a) == (j, b)) = false := by
        simp only [beq_eq_false_iff_ne, ne_eq, Prod.mk.injEq]
        rintro ⟨rfl, rfl⟩; exact hj ⟨rfl, rfl⟩
      simp [this]

theorem trace_toRest {S : Search (σ × List Ev) β η} {st st' : SearchState (σ × List Ev) β} {i a o j s : Nat} {h : η} {x : ℚ}
    {path : List (Nat × Nat)} {evs : List Ev} {rolls : List (List Ev)} {ending : Ending}
    (ht : Trace S st st' j s h x path evs rolls ending) (hn : st'.tree.next i a o = some j) :
    Rest S st st' i a o s h x path evs rolls ending :=
  ⟨ht.log, ht.chained, ht.within, .inr ⟨j, hn, ht.linked⟩, ht.rollsOk, ht.result, ht.nodes, ht.acts⟩

theorem expand_trace {i a o s : Nat} {h : η} {st : SearchState (σ × List Ev) β} (hq : QuietSim S0.sim)
    (ht : TInv (loggedSearch S0) b0 st.tree) (hi : i < st.tree.size) (ha : st.tree.anode i a ≠ none)
    (hn : st.tree.next i a o = none) :
    M.Post (expand (loggedSearch S0) i a o h) st
      (fun y st' => ∃ rolls ending, Rest (loggedSearch S0) st st' i a o s h y [] [] rolls ending) (fun _ _ => True) := by
  unfold expand
  refine M.post_try (Q1 := fun y st' => ∃ rolls ending, Rest (loggedSearch S0) st st' i a o s h y [] [] rolls ending)
    (E1 := fun e st' => e = .maxSamplesReached → st'.tree = st.tree ∧ st'.rng.2 = st.rng.2) ?_ (fun _ _ _ h => h)
    (fun _ _ _ _ => trivial) ?_
  · refine M.post_bind (createChild_post ht hi ha hn) ?_ ?_
    · rintro e s1 ⟨h1, h2⟩ _
      refine ⟨h1, ?_⟩
      have : ((loggedSearch S0).sim.successor (st.tree.nodes i).belief a o st.rng).2.2 = s1.rng.2 := by rw [h2]
      exact this.symm
    · rintro j s1 _ ⟨g1, g2, g3, g4, g5, g6, g7, _, g8, g9⟩
      have hlog : s1.rng.2 = st.rng.2 := by
        have : ((loggedSearch S0).sim.successor (st.tree.nodes i).belief a o st.rng).2.2 = s1.rng.2 := by rw [g9]
        exact this.symm
      have hnext : s1.tree.next i a o = some j := by rw [g6]; simp
      refine M.post_mono (rolloutFromNode_post (S := loggedSearch S0) j h s1) ?_ ?_
      · rintro y s2 (⟨hr, hy, rfl⟩ | ⟨hr, hro, x, hx, hy, hb⟩)
        · refine ⟨[], .created j, by simp [hlog], trivial, trivial, .inr ⟨j, hnext, rfl⟩, ?_, ?_, ?_, ?_⟩
          · show RollsOk _ _ h [] (.created j)
            simp [RollsOk, hr]
          · show y = 0 + _ * tailReturn _ _ _ h [] (.created j)
            simp [tailReturn, hr, hy]
          · intro k
            show _ = _ + _ + if rolledNode _ h (.created j) = some k then 1 else 0
            rw [g3.1]; simp [rolledNode, hr]
          · intro k b; rw [g3.2]; simp
        · obtain ⟨rolls, r1, r2, r3, r4⟩ := (M.post_iff.1 (rollouts_post S0 _ h S0.rolloutIt 0 s1.rng)).1 _ _ hx
          have hl : rolls.length = (loggedSearch S0).rolloutIt := r1
          refine ⟨rolls, .created j, by rw [r2, hlog]; simp, trivial, trivial, .inr ⟨j, ?_, rfl⟩, ?_, ?_, ?_, ?_⟩
          · rw [hb, Tree.bump_next]; exact hnext
          · show RollsOk _ _ h rolls (.created j)
            unfold RollsOk
            rw [hr]
            exact ⟨hl, r3⟩
          · show y = 0 + _ ^ 0 * tailReturn _ _ _ h rolls (.created j)
            unfold tailReturn
            rw [hr, hy, r4, hl]
            simp only [zero_add, pow_zero, one_mul]
            rfl
          · intro k
            show _ = _ + _ + if rolledNode _ h (.created j) = some k then 1 else 0
            rw [hb, Tree.bump_nodeVisits, g3.1]
            unfold rolledNode
            rw [hr]
            by_cases hk : k = j
            · simp [hk]
            · simp [hk, Ne.symm hk]
          · intro k b; rw [hb, Tree.bump_actionVisits, g3.2]; simp
      · rintro e s2 ⟨_, _, hx | ⟨rfl, _⟩⟩ he
        · exact absurd he ((M.post_iff.1 (rollouts_post S0 _ h S0.rolloutIt 0 s1.rng)).2 _ _ hx hq)
        · cases he
  · intro s1 _ h1
    obtain ⟨h2, h3⟩ := h1 rfl
    rw [M.post_pure]
    refine ⟨[], .skipped, by simp [h3], trivial, trivial, .inl ⟨by rw [h2]; exact hn, rfl, rfl, rfl⟩, rfl, ?_, ?_, ?_⟩
    · show (0 : ℚ) = 0 + _ * 0
      simp
    · intro k; rw [h2]; simp [rolledNode]
    · intro k b; rw [h2]; simp

theorem simulate_trace (hq : QuietSim S0.sim) : ∀ (fuel i s : Nat) (h : η) (act : Option Nat) (st : SearchState (σ × List Ev) β),
    TInv (loggedSearch S0) b0 st.tree → i < st.tree.size →
    M.Post (simulate (loggedSearch S0) fuel i s h act) st
      (fun x st' => ∃ path evs rolls ending, Trace (loggedSearch S0) st st' i s h x path evs rolls ending ∧
        (S0.hor.isReached h = false → ∃ a p, path = (i, a) :: p ∧ (act = none → UctChoice S0 st.tree i a) ∧
          (∀ b, act = some b → a = b) ∧ ∀ y ∈ p, UctChoice S0 st.tree y.1 y.2))
      (fun _ _ => True) := by
  intro fuel
  induction fuel with
  | zero => intro i s h act st ht hi; exact M.post_raise.2 trivial
  | succ fuel ih =>
      intro i s h act st ht hi
      unfold simulate
      apply M.post_ite
      · intro hr
        rw [M.post_read]
        refine ⟨[], [], [], .known i, ⟨by simp, trivial, trivial, rfl, ⟨rfl, hr⟩, ?_, ?_, ?_⟩, fun h' => ?_⟩
        · show _ = 0 + _ ^ 0 * (st.tree.nodes i).avg.value
          simp
        · intro j; simp [rolledNode]
        · intro j a; simp
        · exact absurd hr (by simpa [loggedSearch] using h')
      · intro hr
        have hr' : (loggedSearch S0).hor.isReached h = false := by simpa using hr
        refine M.post_bind (Q1 := fun a s1 => s1.tree = st.tree ∧ s1.rng.2 = st.rng.2 ∧
          (act = none → UctChoice S0 st.tree i a) ∧ (∀ b, act = some b → a = b))
          (E1 := fun _ _ => True) ?_ (fun _ _ _ => trivial) ?_
        · cases act with
          | some b =>
              refine M.post_pure.2 ⟨rfl, rfl, fun h => by simp at h, fun c hc => ?_⟩
              simpa using hc
          | none =>
              unfold chooseAction
              have h1 := getBest_post (loggedSearch S0).sim (loggedSearch S0).bonus (loggedSearch S0).exploration
                (loggedSearch S0).relative i st
              have h2 : M.Post (getBestAction (loggedSearch S0).sim (loggedSearch S0).bonus (loggedSearch S0).exploration
                (loggedSearch S0).relative i) st (fun _ s1 => s1.rng.2 = st.rng.2) (fun _ _ => True) := by
                unfold getBestAction
                apply M.post_read_bind
                apply M.post_ite
                · intro _
                  rw [M.post_lift]
                  exact ⟨fun _ _ => rfl, fun _ _ => trivial⟩
                · intro _
                  apply onRng_post
                  unfold pickFrom
                  refine M.post_bind (logged_rand_post S0.sim st.rng) (fun _ _ _ => trivial) ?_
                  rintro c g _ ⟨hg, _⟩
                  rw [M.post_lift]
                  exact ⟨fun _ _ => hg, fun _ _ => trivial⟩
              have h5 := getBest_uct (loggedSearch S0) i st
              rw [M.post_iff] at h1 h2 h5 ⊢
              refine ⟨fun a s1 hs => ?_, fun _ _ _ => trivial⟩
              exact ⟨(h1.1 a s1 hs).1, h2.1 a s1 hs, fun _ => h5.1 a s1 hs, fun b hb => by simp at hb⟩
        · rintro a s1 _ ⟨h1, hl1, hact1, hact2⟩
          have ht1 : TInv (loggedSearch S0) b0 s1.tree := by rw [h1]; exact ht
          have hi1 : i < s1.tree.size := by rw [h1]; exact hi
          refine M.post_bind (safeGetChild_post (a := a) ht1 hi1) (fun _ _ _ => trivial) ?_
          rintro _ s2 hsafe ⟨hrng2, ht2, g2, c2, ha2, hnx2, hav2, hs2, _⟩
          rw [h1] at g2 c2 hs2 hav2 hnx2
          have hval2 := (M.post_iff.1 (safeGetChild_values i a s1)).1 _ _ hsafe
          rw [h1] at hval2
          refine M.post_bind (Q1 := fun x s3 => s3.tree = s2.tree ∧ s3.rng.2 = s2.rng.2 ++ [⟨a, s, x.1, x.2.1, x.2.2⟩])
            (E1 := fun _ _ => True) ?_ (fun _ _ _ => trivial) ?_
          · apply onRng_tree
            · intro x g hg
              exact ⟨rfl, ((M.post_iff.1 (logged_transition_post S0.sim a s s2.rng)).1 _ _ hg).1⟩
            · intro _ _ _; trivial
          · rintro x s3 _ ⟨h3, hl3⟩
            apply M.post_read_bind
            have ht3 : TInv (loggedSearch S0) b0 s3.tree := by rw [h3]; exact ht2
            have hi3 : i < s3.tree.size := by rw [h3, hs2]; exact hi
            have ha3 : s3.tree.anode i a ≠ none := by rw [h3]; exact ha2
            have c3 : SameCounts st.tree s3.tree := by rw [h3]; exact c2
            have hlog : s3.rng.2 = st.rng.2 ++ [⟨a, s, x.1, x.2.1, x.2.2⟩] := by rw [hl3, hrng2, hl1]
            have hav : ∀ j, (s3.tree.nodes j).avg = (st.tree.nodes j).avg := by rw [h3]; exact hav2
            refine M.post_bind (Q1 := fun y s4 => Tree.Grows s3.tree s4.tree ∧ ∃ path evs rolls ending,
              Rest (loggedSearch S0) s3 s4 i a x.2.1 x.1 ((loggedSearch S0).hor.decrement a s x.1 x.2.1 h) y path evs rolls ending ∧
              ∀ z ∈ path, UctChoice S0 st.tree z.1 z.2)
              (E1 := fun _ _ => True) ?_ (fun _ _ _ => trivial) ?_
            · rcases hj : s3.tree.next i a x.2.1 with _ | j
              · have e1 := expand_trace S0 (s := x.1) (h := (loggedSearch S0).hor.decrement a s x.1 x.2.1 h) hq ht3 hi3 ha3 hj
                have e2 := expand_post (S := loggedSearch S0) (h := (loggedSearch S0).hor.decrement a s x.1 x.2.1 h) ht3 hi3 ha3 hj
                unfold proceed
                rw [M.post_iff] at e1 e2 ⊢
                refine ⟨fun y s4 hy => ?_, fun _ _ _ => trivial⟩
                obtain ⟨rolls, ending, hr⟩ := e1.1 y s4 hy
                exact ⟨(e2.1 y s4 hy).2, [], [], rolls, ending, hr, by simp⟩
              · have hjl := (ht3.range i a _ j hj).1
                have e1 := ih j x.1 ((loggedSearch S0).hor.decrement a s x.1 x.2.1 h) none s3 ht3 hjl
                have e2 := simulate_post (S := loggedSearch S0) fuel j x.1 ((loggedSearch S0).hor.decrement a s x.1 x.2.1 h) none s3 ht3 hjl
                unfold proceed
                rw [M.post_iff] at e1 e2 ⊢
                refine ⟨fun y s4 hy => ?_, fun _ _ _ => trivial⟩
                obtain ⟨path, evs, rolls, ending, hr, hch⟩ := e1.1 y s4 hy
                have hg := (e2.1 y s4 hy).2
                refine ⟨hg, path, evs, rolls, ending, trace_toRest hr (hg.next i a _ j hi3 hj), ?_⟩
                have hcg : ∀ k b, UctChoice S0 s3.tree k b → UctChoice S0 st.tree k b := fun k b hu =>
                  UctChoice.congr hu (by rw [ht3.len, ht.len]) c3 (by rw [h3]; exact hval2 k)
                by_cases hre : S0.hor.isReached ((loggedSearch S0).hor.decrement a s x.1 x.2.1 h) = false
                · obtain ⟨a', p, hp, k1, _, k2⟩ := hch hre
                  rw [hp]
                  intro z hz
                  rcases List.mem_cons.1 hz with rfl | hz
                  · exact hcg _ _ (k1 rfl)
                  · exact hcg _ _ (k2 z hz)
                · have hre' : S0.hor.isReached ((loggedSearch S0).hor.decrement a s x.1 x.2.1 h) = true := by simpa using hre
                  have hw := hr.within
                  have hlk := hr.linked
                  cases evs with
                  | cons e evs => have hf : S0.hor.isReached ((loggedSearch S0).hor.decrement a s x.1 x.2.1 h) = false := hw.1; rw [hre'] at hf; cases hf
                  | nil =>
                      cases path with
                      | nil => simp
                      | cons y path => obtain ⟨y1, y2⟩ := y; cases hlk
            · rintro y s4 _ ⟨hg, path, evs, rolls, ending, hr, hch⟩
              rw [M.post_of_ok (updateBoth_run ..)]
              refine ⟨(i, a) :: path, ⟨a, s, x.1, x.2.1, x.2.2⟩ :: evs, rolls, ending, ?_, fun _ => ⟨a, path, rfl, hact1, hact2, hch⟩⟩
              exact hr.cons hr' hlog c3 hav (hg.anode i a hi3 ha3) rfl

end
end Verif
