import Verif.Model.Belief
import Mathlib.Tactic.Linarith
import Mathlib.Tactic.FieldSimp
import Mathlib.Algebra.BigOperators.Group.List.Basic
import Mathlib.Algebra.Order.BigOperators.Group.List

/-! # Particle beliefs: C50 and C51 -/

set_option linter.unusedSectionVars false
set_option linter.unusedSimpArgs false

namespace Verif

section
variable {σ α : Type} (sampler : σ → Py α × σ)

/-- The state of the sampler before its `i`-th call, when it is called again and again from the state `st`. -/
def stateAt (st : σ) : Nat → σ
  | 0 => st
  | i + 1 => (sampler (stateAt st i)).2

/-- The result of the `i`-th call. -/
def resultAt (st : σ) (i : Nat) : Py α := (sampler (stateAt sampler st i)).1

theorem stateAt_succ (st : σ) (i : Nat) : stateAt sampler (sampler st).2 i = stateAt sampler st (i + 1) := by
  induction i with
  | zero => rfl
  | succ i ih => simp only [stateAt] at ih ⊢; rw [ih]

theorem resultAt_succ (st : σ) (i : Nat) : resultAt sampler (sampler st).2 i = resultAt sampler st (i + 1) := by
  unfold resultAt; rw [stateAt_succ]

/-- What the loop does: the results of the first calls, up to the first exception. -/
theorem fillParticles_spec (k : Nat) (st : σ) :
    (∀ (j : Nat) (x : α), (fillParticles sampler k st).1[j]? = some x → resultAt sampler st j = .ok x) ∧
    (fillParticles sampler k st).1.length ≤ k ∧
    ((fillParticles sampler k st).2.1 = none → (fillParticles sampler k st).1.length = k) ∧
    (∀ e, (fillParticles sampler k st).2.1 = some e → (fillParticles sampler k st).1.length < k ∧
      resultAt sampler st (fillParticles sampler k st).1.length = .error e) := by
  induction k generalizing st with
  | zero => simp [fillParticles]
  | succ k ih =>
      have hr : resultAt sampler st 0 = (sampler st).1 := rfl
      rcases hs : sampler st with ⟨r, st'⟩
      rw [hs] at hr
      cases r with
      | error e => 
          simp only [fillParticles, hs]
          refine ⟨by simp, by simp, by simp, ?_⟩
          intro e' he
          simp at he
          subst he
          exact ⟨by simp, hr⟩
      | ok x =>
          simp only [fillParticles, hs]
          have hst : st' = (sampler st).2 := by rw [hs]
          obtain ⟨h1, h2, h3, h4⟩ := ih st'
          refine ⟨?_, by simpa using h2, by simpa using h3, ?_⟩
          · intro j y hj
            cases j with
            | zero => simp at hj; subst hj; exact hr
            | succ j => 
                simp at hj
                have := h1 j y hj
                rw [hst, resultAt_succ] at this
                exact this
          · intro e he
            obtain ⟨h5, h6⟩ := h4 e he
            refine ⟨by simpa using h5, ?_⟩
            rw [hst, resultAt_succ, ← hst] at h6
            simpa using h6

theorem duplicates_length (parts : List α) (choose : Nat → Nat) (k : Nat) (h : parts ≠ []) :
    (duplicates parts choose k).length = k := by
  unfold duplicates
  have : ∀ i, ∃ x, parts[choose i % parts.length]? = some x := by
    intro i
    have hl : 0 < parts.length := List.length_pos_iff.mpr h
    exact ⟨_, List.getElem?_eq_getElem (Nat.mod_lt _ hl)⟩
  induction k with
  | zero => rfl
  | succ k ih =>
      obtain ⟨x, hx⟩ := this k
      simp [List.range_succ, List.filterMap_append, hx, ih]

theorem mem_duplicates {parts : List α} {choose : Nat → Nat} {k : Nat} {x : α} (h : x ∈ duplicates parts choose k) :
    x ∈ parts := by
  unfold duplicates at h
  rw [List.mem_filterMap] at h
  obtain ⟨i, _, hi⟩ := h
  exact List.mem_of_getElem? hi

theorem mk_none {n : Nat} {st st' : σ} {choose : Nat → Nat} {parts : List α} (h : fillParticles sampler n st = (parts, none, st')) :
    mkParticles sampler choose n st = (.ok parts, st') := by
  unfold mkParticles; rw [h]

theorem mk_max {n : Nat} {st st' : σ} {choose : Nat → Nat} {parts : List α}
    (h : fillParticles sampler n st = (parts, some .maxSamplesReached, st')) :
    mkParticles sampler choose n st = if parts = [] then (.error .maxSamplesReached, st')
      else (.ok (parts ++ duplicates parts choose (n - parts.length)), st') := by
  unfold mkParticles; rw [h]

theorem mk_err {n : Nat} {st st' : σ} {choose : Nat → Nat} {parts : List α} {e : PyErr} (he : e ≠ .maxSamplesReached)
    (h : fillParticles sampler n st = (parts, some e, st')) : mkParticles sampler choose n st = (.error e, st') := by
  unfold mkParticles; rw [h]
  cases e <;> first | rfl | exact absurd rfl he

end

/-- **C50** A particle belief has exactly `n` particles, all of them values returned by the sampler; the values of the calls
that succeeded, up to the first failure, come first and in order. -/
theorem C50_complete {σ α : Type} (sampler : σ → Py α × σ) (choose : Nat → Nat) (n : Nat) (st : σ) (ps : List α)
    (h : (mkParticles sampler choose n st).1 = .ok ps) :
    ps.length = n ∧ (∀ x ∈ ps, ∃ i < n, resultAt sampler st i = .ok x) ∧
    (∀ i < n, (∀ j ≤ i, ∃ x, resultAt sampler st j = .ok x) → ∃ x, ps[i]? = some x ∧ resultAt sampler st i = .ok x) := by
  obtain ⟨h1, h2, h3, h4⟩ := fillParticles_spec sampler n st
  rcases hf : fillParticles sampler n st with ⟨parts, oe, st'⟩
  rw [hf] at h1 h2 h3 h4
  simp only at h1 h2 h3 h4
  have mem1 : ∀ x ∈ parts, ∃ i < n, resultAt sampler st i = .ok x := by
    intro x hx
    obtain ⟨j, hj⟩ := List.getElem?_of_mem hx
    have := List.getElem?_eq_some_iff.mp hj
    exact ⟨j, lt_of_lt_of_le this.1 h2, h1 j x hj⟩
  have pre : ∀ i < parts.length, ∃ x, parts[i]? = some x ∧ resultAt sampler st i = .ok x := by
    intro i hi
    exact ⟨parts[i], List.getElem?_eq_getElem hi, h1 i _ (List.getElem?_eq_getElem hi)⟩
  cases oe with
  | none =>
      rw [mk_none sampler hf] at h
      simp at h
      subst h
      have := h3 rfl
      exact ⟨this, mem1, fun i hi _ => pre i (by omega)⟩
  | some e =>
      obtain ⟨h5, h6⟩ := h4 e rfl
      by_cases hcase : e = .maxSamplesReached
      case neg => rw [mk_err sampler hcase hf] at h; simp at h
      subst hcase
      rw [mk_max sampler hf] at h
      by_cases hne : parts = []
      case pos => simp [hne] at h
      rw [if_neg hne] at h
      simp only [Except.ok.injEq] at h
      have hps := h
      subst hps
      have hl := duplicates_length parts choose (n - parts.length) hne
      refine ⟨by rw [List.length_append, hl]; omega, ?_, ?_⟩
      · intro x hx
        rw [List.mem_append] at hx
        rcases hx with hx | hx
        · exact mem1 x hx
        · exact mem1 x (mem_duplicates hx)
      · intro i hi hall
        by_cases hil : i < parts.length
        · obtain ⟨x, hx, hr⟩ := pre i hil
          exact ⟨x, by rw [List.getElem?_append_left hil]; exact hx, hr⟩
        · obtain ⟨x, hx⟩ := hall parts.length (by omega)
          rw [h6] at hx
          cases hx

/-- **C50** `MaxSamplesReached` is raised iff a particle is wanted and the sampler raised it at its first call. -/
theorem C50_gives_up {σ α : Type} (sampler : σ → Py α × σ) (choose : Nat → Nat) (n : Nat) (st : σ) :
    (mkParticles sampler choose n st).1 = .error .maxSamplesReached ↔
      0 < n ∧ resultAt sampler st 0 = .error .maxSamplesReached := by
  obtain ⟨h1, h2, h3, h4⟩ := fillParticles_spec sampler n st
  rcases hf : fillParticles sampler n st with ⟨parts, oe, st'⟩
  rw [hf] at h1 h2 h3 h4
  simp only at h1 h2 h3 h4
  have first : ∀ e, resultAt sampler st 0 = .error e → parts = [] := by
    intro e he
    cases parts with
    | nil => rfl
    | cons x xs => have := h1 0 x rfl; rw [he] at this; cases this
  cases oe with
  | none =>
      rw [mk_none sampler hf]
      simp only [reduceCtorEq, false_iff, not_and]
      intro hn hr
      have := first _ hr
      subst this
      have := h3 rfl
      simp at this
      omega
  | some e =>
      obtain ⟨h5, h6⟩ := h4 e rfl
      have hcase : e = .maxSamplesReached ∨ e ≠ .maxSamplesReached := em _
      rcases hcase with he | he
      · subst he
        rw [mk_max sampler hf]
        by_cases hp : parts = []
        · subst hp
          simp only [List.length_nil] at h5 h6
          simp [h5, h6]
        · simp [hp]
          intro _ hr
          exact hp (first _ hr)
      · rw [mk_err sampler he hf]
        simp only [Except.error.injEq, he, false_iff, not_and]
        intro _ hr
        have := first _ hr
        subst this
        simp only [List.length_nil] at h6
        rw [h6] at hr
        simp at hr
        exact he hr

/-- **C50** Any other exception of the sampler before `n` values are found is passed on, and nothing else is raised. -/
theorem C50_passes_on {σ α : Type} (sampler : σ → Py α × σ) (choose : Nat → Nat) (n : Nat) (st : σ) (e : PyErr)
    (he : e ≠ .maxSamplesReached) :
    (mkParticles sampler choose n st).1 = .error e ↔
      ∃ i < n, (∀ j < i, ∃ x, resultAt sampler st j = .ok x) ∧ resultAt sampler st i = .error e := by
  obtain ⟨h1, h2, h3, h4⟩ := fillParticles_spec sampler n st
  rcases hf : fillParticles sampler n st with ⟨parts, oe, st'⟩
  rw [hf] at h1 h2 h3 h4
  simp only at h1 h2 h3 h4
  have pre : ∀ i < parts.length, ∃ x, resultAt sampler st i = .ok x := by
    intro i hi
    exact ⟨parts[i], h1 i _ (List.getElem?_eq_getElem hi)⟩
  cases oe with
  | none =>
      rw [mk_none sampler hf]
      simp only [reduceCtorEq, false_iff, not_exists, not_and]
      intro i hi _ hr
      obtain ⟨x, hx⟩ := pre i (by have := h3 rfl; omega)
      rw [hx] at hr; cases hr
  | some e' =>
      obtain ⟨h5, h6⟩ := h4 e' rfl
      have uniq : ∀ i, (∀ j < i, ∃ x, resultAt sampler st j = .ok x) → ∀ e'', resultAt sampler st i = .error e'' → e'' = e' := by
        intro i hi e'' hr
        rcases lt_trichotomy i parts.length with hlt | heq | hgt
        · obtain ⟨x, hx⟩ := pre i hlt; rw [hx] at hr; cases hr
        · rw [heq, h6] at hr; cases hr; rfl
        · obtain ⟨x, hx⟩ := hi _ hgt; rw [h6] at hx; cases hx
      by_cases hcase : e' = .maxSamplesReached
      · subst hcase
        rw [mk_max sampler hf]
        by_cases hp : parts = []
        · simp only [hp, if_true, Except.error.injEq]
          constructor
          · intro h; exact absurd h.symm he
          · rintro ⟨i, _, hi, hr⟩
            exact (uniq i hi e hr).symm
        · simp only [hp, if_false, reduceCtorEq, false_iff, not_exists, not_and]
          intro i _ hi hr
          exact he (uniq i hi e hr)
      · rw [mk_err sampler hcase hf]
        simp only [Except.error.injEq]
        constructor
        · intro h
          exact ⟨parts.length, h5, pre, by rw [h6, h]⟩
        · rintro ⟨i, _, hi, hr⟩
          exact (uniq i hi e hr).symm

theorem sum_map_div (l : List ℚ) (c : ℚ) : (l.map (· / c)).sum = l.sum / c := by
  induction l with
  | nil => simp
  | cons x xs ih => simp [ih, add_div]

theorem sum_counts (nStates : Nat) (parts : List Nat) (h : ∀ i ∈ parts, i < nStates) :
    ((List.range nStates).map fun i => (parts.count i : ℚ)).sum = (parts.length : ℚ) := by
  induction parts with
  | nil => simp
  | cons p ps ih =>
      have hp := h p (by simp)
      have e : ((List.range nStates).map fun i => ((p :: ps).count i : ℚ)) =
          (List.range nStates).map fun i => ((ps.count i : ℚ) + if p = i then 1 else 0) := by
        apply List.map_congr_left
        intro i _
        rw [List.count_cons]
        by_cases hpi : p = i <;> simp [hpi]
      have e1 : ∀ m, ((List.range m).map fun i => (if p = i then 1 else 0 : ℚ)).sum = if p < m then 1 else 0 := by
        intro m
        induction m with
        | zero => simp
        | succ m ihm =>
            rw [List.range_succ, List.map_append, List.sum_append, ihm]
            by_cases h1 : p < m
            · have : p ≠ m := by omega
              simp [h1, this, Nat.lt_succ_of_lt h1]
            · by_cases h2 : p = m
              · simp [h2]
              · have : ¬ p < m + 1 := by omega
                simp [h1, h2, this]
      rw [e, List.sum_map_add, ih (fun i hi => h i (by simp [hi])), e1, if_pos hp]
      simp

/-- **C50** `array` is the empirical distribution of the particles: entry `i` is the proportion of particles in state `i`; it
is non-negative and sums to 1.  It raises `IndexError` iff a particle is not a state. -/
theorem C50_array (nStates : Nat) (parts : List Nat) :
    (particleArray nStates parts = .error .indexError ↔ ∃ i ∈ parts, nStates ≤ i) ∧
    ((∀ i ∈ parts, i < nStates) → parts ≠ [] → ∃ l : List ℚ, particleArray nStates parts = .ok l ∧ l.length = nStates ∧
      (∀ i < nStates, l.getD i 0 = (parts.count i : ℚ) / (parts.length : ℚ)) ∧ (∀ x ∈ l, 0 ≤ x) ∧ l.sum = 1) ∧
    (parts = [] → particleArray nStates parts = .ok (List.replicate nStates 0)) := by
  refine ⟨?_, ?_, ?_⟩
  · unfold particleArray
    by_cases hall : parts.all (fun i => decide (i < nStates))
    · rw [if_pos hall]
      simp only [List.all_eq_true, decide_eq_true_eq] at hall
      simp only [reduceCtorEq, false_iff, not_exists, not_and, not_le]
      exact hall
    · rw [if_neg hall]
      simp only [List.all_eq_true, decide_eq_true_eq] at hall
      push Not at hall
      simpa using hall
  · intro hall hne
    have hsum := sum_counts nStates parts hall
    have hpos : (0 : ℚ) < (parts.length : ℚ) := by
      exact_mod_cast List.length_pos_iff.mpr hne
    have hp : parts.all (fun i => decide (i < nStates)) = true := by simpa using hall
    refine ⟨_, by unfold particleArray; rw [if_pos hp], by simp, ?_, ?_, ?_⟩
    · intro i hi
      rw [hsum, if_neg (ne_of_gt hpos)]
      simp [List.getD, List.getElem?_range, hi]
    · intro x hx
      simp only [List.map_map, List.mem_map, Function.comp] at hx
      obtain ⟨i, _, rfl⟩ := hx
      rw [hsum, if_neg (ne_of_gt hpos)]
      exact div_nonneg (by positivity) hpos.le
    · rw [sum_map_div, hsum, if_neg (ne_of_gt hpos), div_self (ne_of_gt hpos)]
  · rintro rfl
    unfold particleArray
    simp only [List.all_nil, if_true, List.count_nil, Nat.cast_zero]
    congr 1
    apply List.ext_getElem
    · simp
    · intro i h1 h2
      simp

/-! ### C51 -/

section
variable (draw : Nat → Py Nat) (sim : Nat → Nat → Nat → Py (Nat × Nat × ℚ)) (mx a o : Nat)

theorem successorCall_ok (k : Nat) (s' : Nat) (h : (successorCall draw sim mx a o k).1 = .ok s') :
    ∃ i < mx, ∃ s r, draw i = .ok s ∧ sim i a s = .ok (s', o, r) := by
  induction hm : mx - k generalizing k with
  | zero =>
      rw [successorCall, if_pos (by omega)] at h
      simp at h
  | succ m ih =>
      rw [successorCall, if_neg (by omega)] at h
      cases hd : draw k with
      | error e => rw [hd] at h; simp at h
      | ok s =>
          rw [hd] at h
          simp only at h
          rcases hs : sim k a s with e | ⟨s1, o1, r⟩
          · rw [hs] at h; simp at h
          · rw [hs] at h
            simp only at h
            by_cases ho : o1 = o
            · simp [ho] at h
              subst h; subst ho
              exact ⟨k, by omega, s, r, hd, hs⟩
            · simp [ho] at h
              exact ih (k + 1) h (by omega)

theorem successorCall_counter (k : Nat) (hk : k ≤ mx) :
    (successorCall draw sim mx a o k).2 ≤ mx + 1 ∧
    ((successorCall draw sim mx a o k).1 ≠ .error .maxSamplesReached → (successorCall draw sim mx a o k).2 ≤ mx) := by
  induction hm : mx - k generalizing k with
  | zero =>
      rw [successorCall, if_pos (by omega)]
      simp; omega
  | succ m ih =>
      rw [successorCall, if_neg (by omega)]
      have h1 : k + 1 ≤ mx := by omega
      cases hd : draw k with
      | error e => exact ⟨by simp; omega, fun _ => by simp; omega⟩
      | ok s =>
          simp only
          rcases hs : sim k a s with e | ⟨s1, o1, r⟩
          · exact ⟨by simp; omega, fun _ => by simp; omega⟩
          · simp only
            by_cases ho : o1 = o
            · simp only [ho, ne_eq, not_true_eq_false, if_false]
              exact ⟨by omega, fun _ => by omega⟩
            · simp only [ho, ne_eq, not_false_eq_true, if_true]
              exact ih (k + 1) h1 (by omega)

theorem successorCall_congr (draw' : Nat → Py Nat) (sim' : Nat → Nat → Nat → Py (Nat × Nat × ℚ))
    (hd : ∀ k < mx, draw k = draw' k) (hs : ∀ k < mx, sim k = sim' k) (k : Nat) :
    successorCall draw sim mx a o k = successorCall draw' sim' mx a o k := by
  induction hm : mx - k generalizing k with
  | zero =>
      rw [successorCall.eq_1 draw sim mx a o k, successorCall.eq_1 draw' sim' mx a o k, if_pos (by omega), if_pos (by omega)]
  | succ m ih =>
      rw [successorCall.eq_1 draw sim mx a o k, successorCall.eq_1 draw' sim' mx a o k, if_neg (by omega), if_neg (by omega), hd k (by omega), hs k (by omega)]
      cases draw' k with
      | error e => rfl
      | ok s =>
          simp only
          rcases sim' k a s with e | ⟨s1, o1, r⟩
          · rfl
          · simp only
            by_cases ho : o1 = o
            · simp [ho]
            · simp only [ho, ne_eq, not_false_eq_true, if_true]
              exact ih (k + 1) (by omega)

/-- The end states of the consistent transitions among the calls `k, ..., mx - 1`. -/
def consistentFrom (tr : Nat → Nat × Nat × ℚ) (mx o k : Nat) : List Nat :=
  (List.range' k (mx - k)).filterMap fun i => if (tr i).2.1 = o then some (tr i).1 else none

variable (tr : Nat → Nat × Nat × ℚ) (htr : ∀ k < mx, ∃ s, draw k = .ok s ∧ sim k a s = .ok (tr k))
include htr

theorem successorCall_total (k : Nat) (hk : k ≤ mx) :
    (consistentFrom tr mx o k = [] ∧ successorCall draw sim mx a o k = (.error .maxSamplesReached, mx + 1)) ∨
    ∃ s' k', k < k' ∧ k' ≤ mx ∧ successorCall draw sim mx a o k = (.ok s', k') ∧
      consistentFrom tr mx o k = s' :: consistentFrom tr mx o k' := by
  induction hm : mx - k generalizing k with
  | zero =>
      left
      rw [successorCall, if_pos (by omega)]
      refine ⟨by simp [consistentFrom, hm], ?_⟩
      have : k = mx := by omega
      rw [this]
  | succ m ih =>
      obtain ⟨s, hd, hs⟩ := htr k (by omega)
      have hc : consistentFrom tr mx o k = (if (tr k).2.1 = o then [(tr k).1] else []) ++ consistentFrom tr mx o (k + 1) := by
        unfold consistentFrom
        rw [hm, List.range'_succ, List.filterMap_cons]
        have : mx - (k + 1) = m := by omega
        rw [this]
        by_cases ho : (tr k).2.1 = o <;> simp [ho]
      rw [successorCall, if_neg (by omega), hd]
      simp only [hs]
      by_cases ho : (tr k).2.1 = o
      · right
        refine ⟨(tr k).1, k + 1, by omega, by omega, by simp [ho], by rw [hc]; simp [ho]⟩
      · simp only [ho, ne_eq, not_false_eq_true, if_true]
        rw [if_neg ho, List.nil_append] at hc
        rw [hc]
        rcases ih (k + 1) (by omega) (by omega) with h | ⟨s', k', h1, h2, h3, h4⟩
        · left; exact h
        · right; exact ⟨s', k', by omega, h2, h3, h4⟩

theorem fill_successor (n k : Nat) (hk : k ≤ mx) :
    (fillParticles (successorCall draw sim mx a o) n k).1 = (consistentFrom tr mx o k).take n ∧
    (fillParticles (successorCall draw sim mx a o) n k).2.1 =
      if (consistentFrom tr mx o k).length < n then some .maxSamplesReached else none := by
  induction n generalizing k with
  | zero => simp [fillParticles]
  | succ n ih =>
      rcases successorCall_total draw sim mx a o tr htr k hk with ⟨h1, h2⟩ | ⟨s', k', h1, h2, h3, h4⟩
      · simp [fillParticles, h2, h1]
      · obtain ⟨i1, i2⟩ := ih k' h2
        simp only [fillParticles, h3]
        rw [h4, i1, i2]
        simp

end

/-- **C51** Every particle of the successor is the end state of a simulated transition of action `a`, from a particle of the
old belief, that produced the observation `o`; and there are `n` of them. -/
theorem C51_consistent (parts : List Nat) (n : Nat) (pick choose : Nat → Nat) (sim : Nat → Nat → Nat → Py (Nat × Nat × ℚ))
    (a o : Nat) (ps : List Nat) (h : (particleSuccessor parts n pick choose sim a o).1 = .ok ps) :
    ps.length = n ∧ ∀ s' ∈ ps, ∃ k < 100 * n, ∃ s ∈ parts, ∃ r, sim k a s = .ok (s', o, r) := by
  obtain ⟨h1, h2, _⟩ := C50_complete _ _ _ _ _ h
  refine ⟨h1, ?_⟩
  intro s' hs'
  obtain ⟨i, _, hi⟩ := h2 s' hs'
  obtain ⟨k, hk, s, r, hd, hs⟩ := successorCall_ok _ _ _ _ _ _ _ hi
  refine ⟨k, hk, s, ?_, r, hs⟩
  unfold particleSample at hd
  split_ifs at hd
  cases hp : parts[pick k % n]? with
  | none => rw [hp] at hd; simp at hd
  | some x => rw [hp] at hd; simp at hd; subst hd; exact List.mem_of_getElem? hp

theorem fill_counter {draw : Nat → Py Nat} {sim : Nat → Nat → Nat → Py (Nat × Nat × ℚ)} {mx a o : Nat} (n k : Nat) (hk : k ≤ mx) :
    (fillParticles (successorCall draw sim mx a o) n k).2.2 ≤ mx + 1 := by
  induction n generalizing k with
  | zero => simp [fillParticles]; omega
  | succ n ih =>
      obtain ⟨h1, h2⟩ := successorCall_counter draw sim mx a o k hk
      unfold fillParticles
      rcases hs : successorCall draw sim mx a o k with ⟨r, k'⟩
      rw [hs] at h1 h2
      cases r with
      | error e => exact h1
      | ok x => exact ih k' (h2 (by simp))

theorem fill_congr {σ α : Type} {f g : σ → Py α × σ} (h : ∀ s, f s = g s) (n : Nat) (s : σ) :
    fillParticles f n s = fillParticles g n s := by
  have : f = g := funext h
  rw [this]

/-- **C51** At most `100 * n` transitions are simulated: the outcomes of later calls of the simulator are not used, and the
counter stops at `100 * n + 1`. -/
theorem C51_bounded (parts : List Nat) (n : Nat) (pick choose : Nat → Nat) (sim : Nat → Nat → Nat → Py (Nat × Nat × ℚ))
    (a o : Nat) :
    (particleSuccessor parts n pick choose sim a o).2 ≤ 100 * n + 1 ∧
    ∀ sim', (∀ k < 100 * n, sim k = sim' k) →
      particleSuccessor parts n pick choose sim a o = particleSuccessor parts n pick choose sim' a o := by
  constructor
  · have := @fill_counter (fun k => particleSample parts n (pick k)) sim (100 * n) a o n 0 (Nat.zero_le _)
    unfold particleSuccessor mkParticles
    rcases hf : fillParticles (successorCall (fun k => particleSample parts n (pick k)) sim (100 * n) a o) n 0 with ⟨ps, oe, k⟩
    rw [hf] at this
    cases oe with
    | none => exact this
    | some e =>
        cases e <;> first | exact this | (simp only; split_ifs <;> exact this)
  · intro sim' hs
    have : successorCall (fun k => particleSample parts n (pick k)) sim (100 * n) a o =
        successorCall (fun k => particleSample parts n (pick k)) sim' (100 * n) a o :=
      funext fun k => successorCall_congr _ _ _ _ _ _ _ (fun _ _ => rfl) hs k
    unfold particleSuccessor
    rw [this]

/-- **C51** When no call of the simulator raises, the successor fails iff none of the `100 * n` simulated transitions gives the
observation, and otherwise its first particles are the end states of the first `n` transitions that do, in order. -/
theorem C51_exact (parts : List Nat) (n : Nat) (pick choose : Nat → Nat) (sim : Nat → Nat → Nat → Py (Nat × Nat × ℚ))
    (a o : Nat) (tr : Nat → Nat × Nat × ℚ) (hn : 0 < n) (hl : parts.length = n)
    (htr : ∀ k < 100 * n, ∀ s, parts[pick k % n]? = some s → sim k a s = .ok (tr k)) :
    ((particleSuccessor parts n pick choose sim a o).1 = .error .maxSamplesReached ↔ ∀ k < 100 * n, (tr k).2.1 ≠ o) ∧
    ((∃ k < 100 * n, (tr k).2.1 = o) → ∃ ps, (particleSuccessor parts n pick choose sim a o).1 = .ok ps ∧
      (((List.range (100 * n)).filter fun k => decide ((tr k).2.1 = o)).map fun k => (tr k).1).take n <+: ps) := by
  have htr' : ∀ k < 100 * n, ∃ s, particleSample parts n (pick k) = .ok s ∧ sim k a s = .ok (tr k) := by
    intro k hk
    have hm : pick k % n < parts.length := by rw [hl]; exact Nat.mod_lt _ hn
    refine ⟨parts[pick k % n], ?_, htr k hk _ (List.getElem?_eq_getElem hm)⟩
    unfold particleSample
    rw [if_neg (by omega), List.getElem?_eq_getElem hm]
  obtain ⟨f1, f2⟩ := fill_successor (fun k => particleSample parts n (pick k)) sim (100 * n) a o tr htr' n 0 (Nat.zero_le _)
  have hc : consistentFrom tr (100 * n) o 0 = ((List.range (100 * n)).filter fun k => decide ((tr k).2.1 = o)).map fun k => (tr k).1 := by
    unfold consistentFrom
    rw [Nat.sub_zero, ← List.range_eq_range']
    generalize List.range (100 * n) = l
    induction l with
    | nil => rfl
    | cons x xs ih => by_cases hx : (tr x).2.1 = o <;> simp [hx, ih]
  have hempty : consistentFrom tr (100 * n) o 0 = [] ↔ ∀ k < 100 * n, (tr k).2.1 ≠ o := by
    rw [hc]
    simp [List.filter_eq_nil_iff]
  rw [← hc]
  unfold particleSuccessor mkParticles
  rcases hf : fillParticles (successorCall (fun k => particleSample parts n (pick k)) sim (100 * n) a o) n 0 with ⟨ps, oe, k⟩
  rw [hf] at f1 f2
  simp only at f1 f2
  subst f1
  constructor
  · rw [← hempty]
    by_cases hlt : (consistentFrom tr (100 * n) o 0).length < n
    · rw [if_pos hlt] at f2
      subst f2
      simp only
      by_cases hn' : consistentFrom tr (100 * n) o 0 = []
      · simp [hn']
      · have : (consistentFrom tr (100 * n) o 0).take n ≠ [] := by
          simp [List.take_eq_nil_iff, hn']; omega
        rw [if_neg this]
        simp [hn']
    · rw [if_neg hlt] at f2
      subst f2
      simp only [reduceCtorEq, false_iff]
      intro h0
      rw [h0] at hlt
      simp at hlt
      omega
  · rintro ⟨k, hk, hko⟩
    have hne : consistentFrom tr (100 * n) o 0 ≠ [] := fun h => hempty.mp h k hk hko
    have hne' : (consistentFrom tr (100 * n) o 0).take n ≠ [] := by
      simp [List.take_eq_nil_iff, hne]; omega
    by_cases hlt : (consistentFrom tr (100 * n) o 0).length < n
    · rw [if_pos hlt] at f2
      subst f2
      simp only [if_neg hne']
      exact ⟨_, rfl, List.prefix_append _ _⟩
    · rw [if_neg hlt] at f2
      subst f2
      exact ⟨_, rfl, List.prefix_rfl⟩

/-- Simulator of an example: from state `s`, call `k` leads to `s + k` and observes the parity of `k`. -/
def demoSim (k _a s : Nat) : Py (Nat × Nat × ℚ) := .ok (s + k, k % 2, 0)

/-- Non-vacuity: three particles, half of the simulated transitions are rejected. -/
example : (particleSuccessor [0, 10, 20] 3 (fun k => k) (fun _ => 0) demoSim 0 1).1 = .ok [11, 3, 25] := by decide +kernel

/-- Non-vacuity: an observation that never occurs. -/
example : (particleSuccessor [0] 1 (fun k => k) (fun _ => 0) demoSim 0 7).1 = .error .maxSamplesReached := by decide +kernel

/-- Non-vacuity: the hypothesis of `C51_exact`. -/
example : ∀ k < 100 * 3, ∀ s, ([0, 10, 20] : List Nat)[(fun k => k) k % 3]? = some s →
    demoSim k 0 s = .ok (([0, 10, 20] : List Nat).getD (k % 3) 0 + k, k % 2, 0) := by
  intro k _ s hs
  simp only [demoSim, List.getD, hs, Option.getD]

/-- A sampler that gives two values and gives up: the other particles are duplicates. -/
example : (mkParticles (fun st : Nat => if st < 2 then ((.ok (st + 5) : Py Nat), st + 1) else (.error .maxSamplesReached, st))
    (fun i => i) 5 0).1 = .ok [5, 6, 5, 6, 5] := by decide +kernel

example : particleArray 4 [1, 3, 1, 1] = .ok [0, 3 / 4, 0, 1 / 4] := by decide +kernel

end Verif
