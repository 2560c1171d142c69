import Verif.Spec.HtmHorizon
import Verif.Props.Launchers
import Verif.Proof.Returns
import Mathlib.Algebra.BigOperators.Fin
import Mathlib.Algebra.Order.Archimedean.Basic

/-! Proofs about searches with a horizon of completed subtasks (C84). -/

set_option linter.unusedSectionVars false
set_option linter.unusedSimpArgs false

namespace Verif
open Spec SupState SupPomdp

/-! ### Rollouts -/

/-- A `wait` moves in the task or ends in the final state. -/
theorem wait_moves {t : Htm SupAction} {m : SupPomdp} (h : Constructed t m) (d : Draws) {s s' o : Nat} {r : ℚ} (hs : s < m.nStates)
    (hx : m.sampleTransition d 0 s true = .ok (s', o, r)) :
    (m.toState s').isFinal = true ∨ (m.toState s).htm ≠ (m.toState s').htm := by
  obtain ⟨css, hw⟩ := constructed_wf h
  obtain ⟨hp1, hp2, hp3, -⟩ := perturb_spec m d s true
  rw [sampleTransition_eq] at hx
  have hsh : SameShape (m.toState 0) (m.perturb d s true) := SameShape.trans ⟨rfl, rfl, rfl, rfl⟩ hp1
  have hh : (m.perturb d s true).htm < m.nHtmStates := by rw [hp2]; exact (lt_nStates m s).1 hs
  rw [← hp2]
  generalize m.perturb d s true = x at *
  obtain ⟨y, h1, h2⟩ := branch_outcome hw d 0 x true hsh hh (by unfold nActions; omega)
  rw [h1] at hx
  simp only [bind, Except.bind, pure, Except.pure, Except.ok.injEq, Prod.mk.injEq] at hx
  obtain ⟨rfl, -, -⟩ := hx
  have hfin : ∀ z : SupState, SameShape (m.toState 0) z → z.htm = m.htmFinal → (m.toState z.s).isFinal = true := by
    intro z hz hzf
    rw [toState_of_sameShape hz]
    have : z.nHtm = m.nodes.length + 2 := hz.2.2.2.symm
    simp only [SupState.isFinal, decide_eq_true_eq]
    unfold htmFinal at hzf
    omega
  generalize hyy : y = yy at h2
  cases h2 with
  | final ha hf => exact .inl (hfin x hsh hf)
  | finish ha hf => exact .inl (hfin _ (hsh.trans ⟨rfl, rfl, rfl, rfl⟩) (htm_setHtm _ _))
  | cleanHold ha hf => omega
  | failed ha => omega
  | good hlt needs hn hp hg => rcases hg with ⟨_, h⟩ | ⟨_, h⟩ <;> cases h
  | other ha hlt needs hn hg z c hu =>
      right
      obtain ⟨z', c', ss, e1, e2, e3, e4, -⟩ := updateForTransition_spec hw d x x.htm hlt hsh
      rw [hu] at e1
      cases e1
      rw [toState_of_sameShape e2]
      have := (hw.succs_ok _ _ e3).2 _ e4
      omega
  | ask ha => omega
  | there ha => omega
  | missed ha => omega
  | moved ha => omega

theorem decrement_le (m : SupPomdp) {h : NHtmHorizon} (hr : (nHtm m).isReached h = false) (a s s' o : Nat) :
    ((nHtm m).decrement a s s' o h).n ≤ h.n := by
  simp only [nHtm, NHtmHorizon.isReached, NHtmHorizon.decrement, decide_eq_false_iff_not] at hr ⊢
  split
  · omega
  · split <;> omega

theorem decrement_wait {t : Htm SupAction} {m : SupPomdp} (hc : Constructed t m) (d : Draws) {s s' o : Nat} {r : ℚ} (hs : s < m.nStates)
    (hx : m.sampleTransition d 0 s true = .ok (s', o, r)) {h : NHtmHorizon} (hr : (nHtm m).isReached h = false) :
    ((nHtm m).decrement 0 s s' o h).n ≤ h.n - 1 := by
  have := wait_moves hc d hs hx
  simp only [nHtm, NHtmHorizon.isReached, NHtmHorizon.decrement, decide_eq_false_iff_not] at hr ⊢
  split
  · omega
  · next hf =>
      rw [if_pos (this.resolve_left hf)]

theorem randomAction_sup {t : Htm SupAction} {m : SupPomdp} (hc : Constructed t m) (discount : ℚ) (np : Nat) (d : Nat → Nat → Draws)
    (c : Nat → Nat → Nat) (g : Nat) : randomAction (supSim m discount np d c) g = (.ok (c g 0 % m.nActions), g + 1) := by
  have hlen : m.actions.length = m.nActions := (C27_names hc).1
  have hpos : 0 < m.nActions := by unfold nActions; omega
  unfold randomAction
  rw [M.bind_run]
  show (M.lift (if (List.map Name.str m.actions).length = 0 then _ else _)) (g + 1) = _
  rw [List.length_map, hlen, if_neg (by omega)]
  show (Except.ok (c g 0 % (List.map Name.str m.actions).length), g + 1) = _
  rw [List.length_map, hlen]

/-- A rollout ends as soon as enough `wait` are drawn. -/
theorem rollout_ends {t : Htm SupAction} {m : SupPomdp} (hc : Constructed t m) (discount : ℚ) (np : Nat) (d : Nat → Nat → Draws)
    (c : Nat → Nat → Nat) : ∀ (B s : Nat) (h : NHtmHorizon) (gamma full : ℚ) (g : Nat), s < m.nStates → h.n ≤ waits c m.nActions g B →
    ∃ x g', ∀ B' ≥ B, rolloutLoop (supSim m discount np d c) (nHtm m) B' s h gamma full g = (.ok x, g') := by
  have hpos : 0 < m.nActions := by unfold nActions; omega
  intro B
  induction B with
  | zero =>
      intro s h gamma full g hs hn
      refine ⟨full, g, fun B' _ => ?_⟩
      unfold rolloutLoop
      rw [if_pos (by simp only [waits] at hn; simpa [nHtm, NHtmHorizon.isReached] using hn)]
      rfl
  | succ B ih =>
      intro s h gamma full g hs hn
      by_cases hr : (nHtm m).isReached h = true
      · refine ⟨full, g, fun B' _ => ?_⟩
        unfold rolloutLoop
        rw [if_pos hr]
        rfl
      · have hr' : (nHtm m).isReached h = false := by simpa using hr
        obtain ⟨s', o, r, h1, h2, -⟩ := C25_transition hc (d (g + 1) 0) (c g 0 % m.nActions) s true hs (Nat.mod_lt _ hpos)
        have hn' : ((nHtm m).decrement (c g 0 % m.nActions) s s' o h).n ≤ waits c m.nActions (g + 2) B := by
          unfold waits at hn
          by_cases hz : c g 0 % m.nActions = 0
          · rw [if_pos hz] at hn
            rw [hz] at h1 ⊢
            have := decrement_wait hc _ hs h1 hr'
            push_cast at hn
            omega
          · rw [if_neg hz] at hn
            have := decrement_le m hr' (c g 0 % m.nActions) s s' o
            push_cast at hn
            omega
        obtain ⟨x, g', hx⟩ := ih s' _ (gamma * (supSim m discount np d c).discount) (full + gamma * r) (g + 2) h2 hn'
        refine ⟨x, g', fun B' hB => ?_⟩
        obtain ⟨k, rfl⟩ : ∃ k, B' = k + 1 := ⟨B' - 1, by omega⟩
        unfold rolloutLoop
        rw [if_neg hr]
        simp only
        rw [M.bind_of_ok (randomAction_sup hc discount np d c g)]
        have hx2 : (supSim m discount np d c).sampleTransition (c g 0 % m.nActions) s (g + 1) = (.ok (s', o, r), g + 2) := by
          show (m.sampleTransition (d (g + 1) 0) _ s, g + 1 + 1) = _
          rw [h1]
        rw [M.bind_of_ok hx2]
        exact hx k (by omega)

theorem waits_forever {c : Nat → Nat → Nat} {nA : Nat} (h : WaitsForever c nA) (n : Nat) : ∀ g, ∃ B, n ≤ waits c nA g B := by
  induction n with
  | zero => intro g; exact ⟨0, by omega⟩
  | succ n ih =>
      have key : ∀ i g, c (g + 2 * i) 0 % nA = 0 → ∃ B, n + 1 ≤ waits c nA g B := by
        intro i
        induction i with
        | zero =>
            intro g hg
            obtain ⟨B, hB⟩ := ih (g + 2)
            refine ⟨B + 1, ?_⟩
            unfold waits
            rw [if_pos (by simpa using hg)]
            omega
        | succ i ihi =>
            intro g hg
            obtain ⟨B, hB⟩ := ihi (g + 2) (by rw [← hg]; congr 2; ring)
            refine ⟨B + 1, ?_⟩
            unfold waits
            omega
      intro g
      obtain ⟨i, hi⟩ := h g
      exact key i g hi

/-! ### Counting -/

theorem waits_drawn {c : Nat → Nat → Nat} {nA : Nat} : ∀ {k : Nat} (g : Nat) (f : Fin k → Fin nA), Drawn c g f →
    waits c nA g k = (Finset.univ.filter fun i => (f i : Nat) = 0).card := by
  intro k
  induction k with
  | zero => intro g f _; simp [waits]
  | succ k ih =>
      intro g f hf
      have h0 : c g 0 % nA = f 0 := by simpa using hf 0
      have hs : Drawn c (g + 2) (fun i : Fin k => f i.succ) := by
        intro i
        rw [← hf i.succ]
        simp only [Fin.val_succ]
        congr 2
        ring
      rw [waits, ih _ _ hs, h0, Finset.card_filter, Finset.card_filter, Fin.sum_univ_succ]

theorem few_zero (nA k : Nat) : (fewWaits nA 0 k).card = 0 := by simp [fewWaits]

theorem few_succ (nA n k : Nat) :
    (fewWaits (nA + 1) (n + 1) (k + 1)).card = (fewWaits (nA + 1) n k).card + nA * (fewWaits (nA + 1) (n + 1) k).card := by
  have e : (fewWaits (nA + 1) (n + 1) (k + 1)).card =
      ∑ a : Fin (nA + 1), ∑ f : Fin k → Fin (nA + 1), if (Finset.univ.filter fun i => ((Fin.cons a f : Fin (k + 1) → Fin (nA + 1)) i : Nat) = 0).card < n + 1 then 1 else 0 := by
    unfold fewWaits
    rw [Finset.card_filter, ← Fintype.sum_prod_type']
    refine (Fintype.sum_equiv (Fin.consEquiv (fun _ => Fin (nA + 1))) _ _ ?_).symm
    intro x
    rfl
  have h0 : ∀ (a : Fin (nA + 1)) (f : Fin k → Fin (nA + 1)),
      (Finset.univ.filter fun i => ((Fin.cons a f : Fin (k + 1) → Fin (nA + 1)) i : Nat) = 0).card =
      (if (a : Nat) = 0 then 1 else 0) + (Finset.univ.filter fun i => (f i : Nat) = 0).card := by
    intro a f
    rw [Finset.card_filter, Finset.card_filter, Fin.sum_univ_succ]
    simp
  rw [e, Fin.sum_univ_succ]
  congr 1
  · unfold fewWaits
    rw [Finset.card_filter]
    refine Finset.sum_congr rfl fun f _ => ?_
    rw [h0]
    simp only [Fin.val_zero, if_true]
    congr 1
    simp only [eq_iff_iff]
    omega
  · have : ∀ i : Fin nA, (∑ f : Fin k → Fin (nA + 1), if (Finset.univ.filter fun j => ((Fin.cons i.succ f : Fin (k + 1) → Fin (nA + 1)) j : Nat) = 0).card < n + 1 then 1 else 0) = (fewWaits (nA + 1) (n + 1) k).card := by
      intro i
      unfold fewWaits
      rw [Finset.card_filter]
      refine Finset.sum_congr rfl fun f _ => ?_
      rw [h0]
      simp
    rw [Finset.sum_congr rfl fun i _ => this i, Finset.sum_const, Finset.card_univ, Fintype.card_fin, smul_eq_mul]

theorem few_le (nA n k : Nat) : (fewWaits nA n k).card ≤ nA ^ k := by
  refine le_trans (Finset.card_le_univ _) ?_
  simp

/-- The sequences with few `wait` become rare. -/
theorem few_rare (nA : Nat) (n : Nat) : ∀ ε : ℚ, 0 < ε → ∃ k0, ∀ k ≥ k0, ((fewWaits (nA + 1) n k).card : ℚ) ≤ ε * ((nA + 1 : Nat) : ℚ) ^ k := by
  induction n with
  | zero =>
      intro ε hε
      refine ⟨0, fun k _ => ?_⟩
      rw [few_zero]
      positivity
  | succ n ih =>
      intro ε hε
      obtain ⟨k1, h1⟩ := ih (ε / 2) (by positivity)
      have hA : (0 : ℚ) < ((nA + 1 : Nat) : ℚ) := by positivity
      have key : ∀ j, ((fewWaits (nA + 1) (n + 1) (k1 + j)).card : ℚ) ≤
          ((nA : ℚ) / ((nA + 1 : Nat) : ℚ)) ^ j * ((nA + 1 : Nat) : ℚ) ^ (k1 + j) + ε / 2 * ((nA + 1 : Nat) : ℚ) ^ (k1 + j) := by
        intro j
        induction j with
        | zero =>
            have : ((fewWaits (nA + 1) (n + 1) (k1 + 0)).card : ℚ) ≤ ((nA + 1 : Nat) : ℚ) ^ (k1 + 0) := by
              exact_mod_cast few_le (nA + 1) (n + 1) (k1 + 0)
            have h2 : 0 ≤ ε / 2 * ((nA + 1 : Nat) : ℚ) ^ (k1 + 0) := by positivity
            rw [pow_zero, one_mul]
            linarith
        | succ j ihj =>
            rw [← Nat.add_assoc, few_succ]
            push_cast at ihj h1 ⊢
            have hA' : (0 : ℚ) < (nA : ℚ) + 1 := by positivity
            have h2 := h1 (k1 + j) (by omega)
            have h3 : (nA : ℚ) * ((fewWaits (nA + 1) (n + 1) (k1 + j)).card : ℚ) ≤ (nA : ℚ) * (((nA : ℚ) / ((nA : ℚ) + 1)) ^ j * ((nA : ℚ) + 1) ^ (k1 + j) + ε / 2 * ((nA : ℚ) + 1) ^ (k1 + j)) :=
              mul_le_mul_of_nonneg_left ihj (by positivity)
            have e1 : ((nA : ℚ) / ((nA : ℚ) + 1)) ^ (j + 1) * ((nA : ℚ) + 1) ^ (k1 + j + 1) = (nA : ℚ) * (((nA : ℚ) / ((nA : ℚ) + 1)) ^ j * ((nA : ℚ) + 1) ^ (k1 + j)) := by
              rw [pow_succ, pow_succ ((nA : ℚ) + 1) (k1 + j)]
              field_simp
            rw [e1, pow_succ ((nA : ℚ) + 1) (k1 + j)]
            nlinarith [h2, h3]
      have hq : (nA : ℚ) / ((nA + 1 : Nat) : ℚ) < 1 := by
        rw [div_lt_one hA]
        push_cast
        linarith
      obtain ⟨j0, hj⟩ := exists_pow_lt_of_lt_one (show (0 : ℚ) < ε / 2 by positivity) hq
      refine ⟨k1 + j0, fun k hk => ?_⟩
      obtain ⟨j, rfl⟩ : ∃ j, k = k1 + (j0 + j) := ⟨k - k1 - j0, by omega⟩
      refine le_trans (key _) ?_
      have hle : ((nA : ℚ) / ((nA + 1 : Nat) : ℚ)) ^ (j0 + j) ≤ ε / 2 := by
        refine le_trans (pow_le_pow_of_le_one (by positivity) hq.le (Nat.le_add_right j0 j)) hj.le
      have hp : (0 : ℚ) ≤ ((nA + 1 : Nat) : ℚ) ^ (k1 + (j0 + j)) := by positivity
      nlinarith [mul_le_mul_of_nonneg_right hle hp]

end Verif
