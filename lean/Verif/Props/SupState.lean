import Verif.Proof.SupState
import Verif.Proof.Num
import Mathlib.Tactic.NormNum
import Mathlib.Algebra.BigOperators.Group.List.Basic

/-! Properties C23, C24, C29 and C30 (states of the supportive model). -/

set_option linter.unusedSectionVars false
set_option linter.unusedSimpArgs false

namespace Verif
open SupState

/-- **C23 (read back and frame).**  For every state with any numbers of features: after an assignment of one feature its
value is the one assigned and all the others are unchanged. -/
theorem C23_readBack (nH nP nB nO s : Nat) :
    let x := mkSupState nH nP nB nO s
    (∀ n, (x.setHtm n).htm = n ∧ (∀ i < nP, (x.setHtm n).hasPref i = x.hasPref i) ∧
      (∀ i < nB, (x.setHtm n).hasBody i = x.hasBody i) ∧ (∀ i < nO, (x.setHtm n).getBit i = x.getBit i)) ∧
    (∀ k b, k < nP → b < 2 → (x.setPref k b).htm = x.htm ∧
      (∀ i < nP, (x.setPref k b).hasPref i = if i = k then b else x.hasPref i) ∧
      (∀ i < nB, (x.setPref k b).hasBody i = x.hasBody i) ∧ (∀ i < nO, (x.setPref k b).getBit i = x.getBit i)) ∧
    (∀ k b, k < nB → b < 2 → (x.setBody k b).htm = x.htm ∧ (∀ i < nP, (x.setBody k b).hasPref i = x.hasPref i) ∧
      (∀ i < nB, (x.setBody k b).hasBody i = if i = k then b else x.hasBody i) ∧
      (∀ i < nO, (x.setBody k b).getBit i = x.getBit i)) ∧
    (∀ k b, k < nO → b < 2 → (x.setBit k b).htm = x.htm ∧ (∀ i < nP, (x.setBit k b).hasPref i = x.hasPref i) ∧
      (∀ i < nB, (x.setBit k b).hasBody i = x.hasBody i) ∧
      (∀ i < nO, (x.setBit k b).getBit i = if i = k then b else x.getBit i)) := by
  intro x
  have hs : x.shiftHtm = nO + nB + nP := rfl
  have hp : x.shiftPref = nO + nB := rfl
  have hb' : x.shiftBody = nO := rfl
  refine ⟨?_, ?_, ?_, ?_⟩
  · intro n
    refine ⟨htm_setHtm x n, ?_, ?_, ?_⟩
    · intro i hi; exact getBit_setHtm x n _ (by rw [hs]; show x.shiftPref + i < _; omega)
    · intro i hi; exact getBit_setHtm x n _ (by rw [hs]; show x.shiftBody + i < _; omega)
    · intro i hi; exact getBit_setHtm x n _ (by omega)
  · intro k b hk hb
    refine ⟨htm_setBit x _ b hb (by omega), ?_, ?_, ?_⟩
    · intro i hi
      show (x.setBit (x.shiftPref + k) b).getBit (x.shiftPref + i) = _
      rw [getBit_setBit x _ b _ hb]
      by_cases h : i = k
      · simp [h]
      · rw [if_neg (by omega), if_neg h]; rfl
    · intro i hi
      show (x.setBit (x.shiftPref + k) b).getBit (x.shiftBody + i) = _
      rw [getBit_setBit x _ b _ hb, if_neg (by omega)]
      rfl
    · intro i hi
      show (x.setBit (x.shiftPref + k) b).getBit i = _
      rw [getBit_setBit x _ b _ hb, if_neg (by omega)]
  · intro k b hk hb
    refine ⟨htm_setBit x _ b hb (by omega), ?_, ?_, ?_⟩
    · intro i hi
      show (x.setBit (x.shiftBody + k) b).getBit (x.shiftPref + i) = _
      rw [getBit_setBit x _ b _ hb, if_neg (by omega)]
      rfl
    · intro i hi
      show (x.setBit (x.shiftBody + k) b).getBit (x.shiftBody + i) = _
      rw [getBit_setBit x _ b _ hb]
      by_cases h : i = k
      · simp [h]
      · rw [if_neg (by omega), if_neg h]; rfl
    · intro i hi
      show (x.setBit (x.shiftBody + k) b).getBit i = _
      rw [getBit_setBit x _ b _ hb, if_neg (by omega)]
  · intro k b hk hb
    refine ⟨htm_setBit x _ b hb (by omega), ?_, ?_, ?_⟩
    · intro i hi
      show (x.setBit k b).getBit (x.shiftPref + i) = _
      rw [getBit_setBit x _ b _ hb, if_neg (by omega)]
      rfl
    · intro i hi
      show (x.setBit k b).getBit (x.shiftBody + i) = _
      rw [getBit_setBit x _ b _ hb, if_neg (by omega)]
      rfl
    · intro i hi
      exact getBit_setBit x _ b _ hb

/-- **C23 (bijection).**  Every combination of an HTM value below `n_htm` and feature values is the one of exactly one
integer below `n_states`; the HTM value of an integer is below `n_htm` iff the integer is below `n_states`. -/
theorem C23_bijection (nH nP nB nO : Nat) :
    (∀ h (p b o : Nat → Nat), h < nH → (∀ i < nP, p i < 2) → (∀ i < nB, b i < 2) → (∀ i < nO, o i < 2) →
      ∃! s, s < (mkSupState nH nP nB nO s).nStates ∧ (mkSupState nH nP nB nO s).htm = h ∧
        (∀ i < nP, (mkSupState nH nP nB nO s).hasPref i = p i) ∧
        (∀ i < nB, (mkSupState nH nP nB nO s).hasBody i = b i) ∧
        (∀ i < nO, (mkSupState nH nP nB nO s).getBit i = o i)) ∧
    (∀ s, s < (mkSupState nH nP nB nO s).nStates ↔ (mkSupState nH nP nB nO s).htm < nH) := by
  have key : ∀ s, s < (mkSupState nH nP nB nO s).nStates ↔ (mkSupState nH nP nB nO s).htm < nH :=
    fun s => lt_nStates_iff (mkSupState nH nP nB nO s)
  refine ⟨?_, key⟩
  intro h p b o hh hp hb ho
  obtain ⟨s, h1, h2⟩ := exists_bits (nO + nB + nP) h
    (fun j => if j < nO then o j else if j < nO + nB then b (j - nO) else p (j - (nO + nB))) (by
      intro j hj
      split
      · exact ho j (by assumption)
      · split
        · exact hb _ (by omega)
        · exact hp _ (by omega))
  refine ⟨s, ⟨(key s).2 (by show s / 2 ^ (nO + nB + nP) < nH; omega), h1, ?_, ?_, ?_⟩, ?_⟩
  · intro i hi
    show bitAt s (nO + nB + i) = p i
    rw [h2 _ (by omega), if_neg (by omega), if_neg (by omega)]
    congr 1; omega
  · intro i hi
    show bitAt s (nO + i) = b i
    rw [h2 _ (by omega), if_neg (by omega), if_pos (by omega)]
    congr 1; omega
  · intro i hi
    show bitAt s i = o i
    rw [h2 _ (by omega), if_pos hi]
  · rintro s' ⟨_, g1, g2, g3, g4⟩
    apply eq_of_bits (nO + nB + nP)
    · rw [h1]; exact g1
    · intro j hj
      rw [h2 j hj]
      by_cases hjo : j < nO
      · rw [if_pos hjo]; exact g4 j hjo
      · rw [if_neg hjo]
        by_cases hjb : j < nO + nB
        · rw [if_pos hjb]
          have := g3 (j - nO) (by omega)
          rw [← this]
          show bitAt s' j = bitAt s' (nO + (j - nO))
          congr 1; omega
        · rw [if_neg hjb]
          have := g2 (j - (nO + nB)) (by omega)
          rw [← this]
          show bitAt s' j = bitAt s' (nO + nB + (j - (nO + nB)))
          congr 1; omega

/-- Non-vacuity of C23: five HTM values, one preference, one body feature and two objects; 5 * 16 states. -/
example : (mkSupState 5 1 1 2 57).nStates = 80 ∧ (mkSupState 5 1 1 2 57).htm = 3 ∧
    (mkSupState 5 1 1 2 57).hasPref 0 = 1 ∧ (mkSupState 5 1 1 2 57).hasBody 0 = 0 ∧
    (mkSupState 5 1 1 2 57).getBit 0 = 1 ∧ (mkSupState 5 1 1 2 57).getBit 1 = 0 := by decide

/-- **C24 (partial).**  A copy has the same integer and the same features.  (Missing: the number of HTM values and
`is_final`, which are false, `C24_false`.) -/
theorem C24_features_partial (nH nP nB nO s : Nat) :
    let x := mkSupState nH nP nB nO s
    x.copy.s = x.s ∧ x.copy.htm = x.htm ∧ (∀ i, x.copy.hasPref i = x.hasPref i) ∧
      (∀ i, x.copy.hasBody i = x.hasBody i) ∧ (∀ i, x.copy.getBit i = x.getBit i) ∧
      x.copy.nObjects = nO ∧ x.copy.nBody = nB ∧ x.copy.nPref = nP := by
  intro x
  have e1 : x.nPref = nP := by show nO + nB + nP - (nO + nB) = nP; omega
  have e2 : x.nBody = nB := by show nO + nB - nO = nB; omega
  have e3 : x.nObjects = nO := rfl
  have e : x.copy = mkSupState (nH + 1) nP nB nO s := by
    unfold SupState.copy
    rw [e1, e2, e3]
    rfl
  rw [e]
  refine ⟨rfl, rfl, fun _ => rfl, fun _ => rfl, fun _ => rfl, rfl, ?_, ?_⟩
  · show nO + nB - nO = nB; omega
  · show nO + nB + nP - (nO + nB) = nP; omega

/-- **C24 is false of the code.**  The copy has one HTM value more; the copy of a state in range is never final, although
the state itself is final when its HTM value is the last one. -/
theorem C24_false (nH nP nB nO s : Nat) (hs : s < (mkSupState nH nP nB nO s).nStates) :
    (mkSupState nH nP nB nO s).copy.nHtm = nH + 1 ∧ (mkSupState nH nP nB nO s).copy.isFinal = false ∧
    ((mkSupState nH nP nB nO s).isFinal = true ↔ (mkSupState nH nP nB nO s).htm = nH - 1) := by
  have h1 := (C23_bijection nH nP nB nO).2 s |>.1 hs
  refine ⟨rfl, ?_, ?_⟩
  · have h2 := (C24_features_partial nH nP nB nO s).2.1
    unfold SupState.isFinal
    rw [h2]
    simp only [decide_eq_false_iff_not]
    show ¬ (_ + 1 = nH + 1)
    omega
  · unfold SupState.isFinal
    simp only [decide_eq_true_eq]
    show (_ + 1 = nH) ↔ _
    omega

/-- Non-vacuity of C24: a final state in range. -/
example : (64 < (mkSupState 5 1 1 2 64).nStates) ∧ (mkSupState 5 1 1 2 64).isFinal = true ∧
    (mkSupState 5 1 1 2 64).copy.isFinal = false := by decide

/-- The sum of an array over the states that satisfy a condition. -/
def mass (x : SupState) (array : List ℚ) (cond : SupState → Prop) [∀ s, Decidable (cond { x with s := s })] : ℚ :=
  sumRange x.nStates fun s => if cond { x with s := s } then array.getD s 0 else 0

/-- **C29.**  `belief_quotient` raises `AssertionError` iff the length of the array is not the number of states; otherwise
entry `h` of the result is the mass of the states with HTM value `h`, the total is preserved, and so is
non-negativity. -/
theorem C29_quotient (x : SupState) (array : List ℚ) :
    (array.length ≠ x.nStates → beliefQuotient x array = .error .assertionError) ∧
    (array.length = x.nStates → ∃ q, beliefQuotient x array = .ok q ∧ q.length = x.nHtm ∧
      (∀ h < x.nHtm, q[h]? = some (mass x array (fun y => y.htm = h))) ∧ q.sum = array.sum ∧
      ((∀ v ∈ array, 0 ≤ v) → ∀ v ∈ q, 0 ≤ v)) := by
  constructor
  · intro h
    simp only [beliefQuotient]
    rw [if_pos (by simpa [SupState.nStates] using h)]
  · intro h
    have hn : array.length = x.nHtm * 2 ^ x.shiftHtm := h
    refine ⟨_, by simp only [beliefQuotient]; rw [if_neg (by simpa using hn)], by simp, ?_, ?_, ?_⟩
    · intro h hh
      rw [List.getElem?_map, List.getElem?_range hh]
      simp only [Option.map_some, Option.some.injEq]
      unfold mass
      show _ = sumRange (x.nHtm * 2 ^ x.shiftHtm) _
      rw [sumRange_mul]
      rw [sumRange_congr x.nHtm _ (fun i => if i = h then
        sumRange (2 ^ x.shiftHtm) (fun k => array.getD (h * 2 ^ x.shiftHtm + k) 0) else 0)]
      · rw [sumRange_ite _ _ _ hh]
      · intro i hi
        split
        · rename_i e
          subst e
          apply sumRange_congr
          intro k hk
          rw [if_pos]
          exact div_add_mul _ _ _ hk
        · rename_i e
          refine Eq.trans (sumRange_congr _ _ (fun _ => 0) ?_) (sumRange_zero (2 ^ x.shiftHtm))
          intro k hk
          rw [if_neg]
          show (i * 2 ^ x.shiftHtm + k) / 2 ^ x.shiftHtm ≠ h
          rw [div_add_mul _ _ _ hk]
          exact e
    · rw [sum_eq_sumRange array, hn, sumRange_mul]
      rfl
    · intro hv v hvm
      obtain ⟨h, _, rfl⟩ := List.mem_map.1 hvm
      apply sumRange_nonneg
      intro k _
      rw [List.getD_eq_getElem?_getD]
      rcases hg : array[h * 2 ^ x.shiftHtm + k]? with _ | v
      · simp
      · exact hv v (List.mem_of_getElem? hg)

/-- Non-vacuity of C29: two HTM values and one preference. -/
example : beliefQuotient (mkSupState 2 1 0 0) [1/2, 1/4, 1/8, 1/8] = .ok [3/4, 1/4] := by
  decide +kernel

/-! ### Preferences -/

/-- The number written by a list of bits, the most significant first. -/
def bitsVal (l : List Nat) : Nat := l.foldl (fun a b => 2 * a + b) 0

theorem foldl_bits (l : List Nat) (a : Nat) : l.foldl (fun a b => 2 * a + b) a = a * 2 ^ l.length + bitsVal l := by
  induction l generalizing a with
  | nil => simp [bitsVal]
  | cons b l ih =>
    simp only [List.foldl_cons, bitsVal, List.length_cons]
    rw [ih, ih (2 * 0 + b)]
    ring

theorem bitsVal_cons (b : Nat) (l : List Nat) : bitsVal (b :: l) = b * 2 ^ l.length + bitsVal l := by
  show List.foldl _ (2 * 0 + b) l = _
  rw [foldl_bits]
  ring

theorem mem_allBits (n : Nat) (l : List Nat) (h : l ∈ allBits n) : l.length = n ∧ (∀ b ∈ l, b < 2) ∧ bitsVal l < 2 ^ n := by
  induction n generalizing l with
  | zero => simp only [allBits, List.mem_singleton] at h; subst h; simp [bitsVal]
  | succ n ih =>
    simp only [allBits, List.mem_append, List.mem_map] at h
    rcases h with ⟨l, hl, rfl⟩ | ⟨l, hl, rfl⟩
    · obtain ⟨h1, h2, h3⟩ := ih l hl
      refine ⟨by simp [h1], ?_, ?_⟩
      · intro b hb
        rcases List.mem_cons.1 hb with rfl | hb
        · omega
        · exact h2 b hb
      · rw [bitsVal_cons, Nat.pow_succ]; omega
    · obtain ⟨h1, h2, h3⟩ := ih l hl
      refine ⟨by simp [h1], ?_, ?_⟩
      · intro b hb
        rcases List.mem_cons.1 hb with rfl | hb
        · omega
        · exact h2 b hb
      · rw [bitsVal_cons, Nat.pow_succ, h1]; omega

theorem map_bitsVal (n : Nat) : (allBits n).map bitsVal = List.range (2 ^ n) := by
  induction n with
  | zero => rfl
  | succ n ih =>
    have e1 : ((allBits n).map (0 :: ·)).map bitsVal = List.range (2 ^ n) := by
      rw [← ih, List.map_map]
      apply List.map_congr_left
      intro l _
      simp [bitsVal_cons]
    have e2 : ((allBits n).map (1 :: ·)).map bitsVal = (List.range (2 ^ n)).map (2 ^ n + ·) := by
      rw [← ih, List.map_map, List.map_map]
      apply List.map_congr_left
      intro l hl
      simp [bitsVal_cons, (mem_allBits n l hl).1]
    rw [allBits, List.map_append, e1, e2, Nat.pow_succ, Nat.mul_two, List.range_add]

theorem bitAt_bitsVal (n : Nat) (l : List Nat) (h : l ∈ allBits n) (i : Nat) (hi : i < n) :
    l[i]? = some (bitAt (bitsVal l) (n - 1 - i)) := by
  induction n generalizing l i with
  | zero => omega
  | succ n ih =>
    have hm := mem_allBits _ _ h
    simp only [allBits, List.mem_append, List.mem_map] at h
    obtain ⟨b, l', hl', rfl, hb⟩ : ∃ b l', l' ∈ allBits n ∧ l = b :: l' ∧ b < 2 := by
      rcases h with ⟨l', hl', rfl⟩ | ⟨l', hl', rfl⟩
      · exact ⟨0, l', hl', rfl, by omega⟩
      · exact ⟨1, l', hl', rfl, by omega⟩
    obtain ⟨h1, _, h3⟩ := mem_allBits n l' hl'
    rw [bitsVal_cons, h1]
    cases i with
    | zero =>
      simp only [List.getElem?_cons_zero, Option.some.injEq, Nat.add_sub_cancel, Nat.sub_zero]
      unfold bitAt
      rw [div_add_mul _ _ _ h3]
      omega
    | succ i =>
      simp only [List.getElem?_cons_succ]
      rw [ih l' hl' i (by omega), bitAt_add_mul _ _ _ _ (by omega)]
      congr 2
      omega

theorem ravel_bits (np n k : Nat) (l : List Nat) (hl : l.length = np) :
    ravel (List.replicate np 2 ++ [n]) (l ++ [k]) = bitsVal l * n + k := by
  induction l generalizing np with
  | nil => subst hl; simp [ravel, bitsVal]
  | cons b l ih =>
    subst hl
    simp only [List.length_cons, List.replicate_succ, List.cons_append, ravel, List.prod_append, List.prod_replicate,
      List.prod_cons, List.prod_nil, Nat.mul_one, bitsVal_cons]
    rw [ih _ rfl]
    ring

theorem sum_filter_map {α : Type} (l : List α) (P : α → Bool) (f : α → ℚ) :
    ((l.filter P).map f).sum = (l.map fun x => if P x then f x else 0).sum := by
  induction l with
  | nil => rfl
  | cons x l ih =>
    rw [List.filter_cons]
    split <;> rename_i h <;> simp [h, ih]

/-- The result of `belief_preferences`: entry `i` is the mass of the states with preference `n_preferences - 1 - i`. -/
theorem C30_reversed_partial (nH nP nB nO : Nat) (array : List ℚ) :
    let x := mkSupState nH nP nB nO
    (array.length ≠ x.nStates → beliefPreferences x array = .error .assertionError) ∧
    (array.length = x.nStates → ∃ q, beliefPreferences x array = .ok q ∧ q.length = nP ∧
      ∀ i < nP, q[i]? = some (mass x array (fun y => y.hasPref (nP - 1 - i) = 1))) := by
  intro x
  have hnp : x.nPref = nP := by show nO + nB + nP - (nO + nB) = nP; omega
  have hst : x.nStates = nH * 2 ^ nP * 2 ^ x.shiftPref := by
    show nH * 2 ^ (nO + nB + nP) = nH * 2 ^ nP * 2 ^ (nO + nB)
    rw [Nat.mul_assoc, ← Nat.pow_add, Nat.add_comm nP]
  constructor
  · intro h
    simp only [beliefPreferences]
    rw [if_pos]
    rw [hnp]
    exact fun h' => h (h'.trans hst.symm)
  · intro h
    refine ⟨_, by
      simp only [beliefPreferences]
      rw [if_neg]
      rw [hnp]
      exact not_not.2 (h.trans hst), by simp [hnp], ?_⟩
    intro i hi
    rw [List.getElem?_map, hnp, List.getElem?_range hi]
    simp only [Option.map_some, Option.some.injEq]
    unfold mass
    show _ = sumRange x.nStates _
    rw [hst, sumRange_mul, sumRange_mul]
    rw [sum_filter_map]
    -- left-hand side as a sum over numbers
    have e1 : ((allBits nP).map fun idx => if decide (idx[i]? = some 1) = true then
        sumRange x.nHtm (fun h => sumRange (2 ^ x.shiftPref) fun k =>
          array.getD (ravel (x.nHtm :: (List.replicate nP 2 ++ [2 ^ x.shiftPref])) (h :: (idx ++ [k]))) 0) else 0).sum =
        sumRange (2 ^ nP) (fun v => sumRange nH fun h => sumRange (2 ^ x.shiftPref) fun k =>
          if bitAt v (nP - 1 - i) = 1 then array.getD ((h * 2 ^ nP + v) * 2 ^ x.shiftPref + k) 0 else 0) := by
      unfold sumRange
      rw [← map_bitsVal nP, List.map_map]
      congr 1
      apply List.map_congr_left
      intro l hl
      have hb := bitAt_bitsVal nP l hl i hi
      have hlen := (mem_allBits nP l hl).1
      simp only [Function.comp]
      rw [hb]
      simp only [Option.some.injEq, decide_eq_true_eq]
      split
      · apply congrArg List.sum
        apply List.map_congr_left
        intro h _
        apply congrArg List.sum
        apply List.map_congr_left
        intro k _
        congr 1
        rw [show ravel (x.nHtm :: (List.replicate nP 2 ++ [2 ^ x.shiftPref])) (h :: (l ++ [k])) =
          h * (List.replicate nP 2 ++ [2 ^ x.shiftPref]).prod + ravel (List.replicate nP 2 ++ [2 ^ x.shiftPref]) (l ++ [k])
          from rfl, ravel_bits _ _ _ _ hlen]
        simp only [List.prod_append, List.prod_replicate, List.prod_cons, List.prod_nil, Nat.mul_one]
        ring
      · symm
        exact (sumRange_congr nH _ (fun _ => 0) (fun h _ => sumRange_zero _)).trans (sumRange_zero nH)
    rw [e1, sumRange_comm]
    apply sumRange_congr
    intro h hh
    apply sumRange_congr
    intro v hv
    apply sumRange_congr
    intro k hk
    have e2 : bitAt v (nP - 1 - i) =
        SupState.hasPref { x with s := (h * 2 ^ nP + v) * 2 ^ x.shiftPref + k } (nP - 1 - i) := by
      show _ = ((h * 2 ^ nP + v) * 2 ^ x.shiftPref + k) / 2 ^ (x.shiftPref + (nP - 1 - i)) % 2
      rw [Nat.pow_add, ← Nat.div_div_eq_div_mul, div_add_mul _ _ _ hk]
      exact (bitAt_add_mul h v nP _ (by omega)).symm
    rw [e2]

/-- **C30 (partial): one preference.**  With a single preference, as in `SupportivePOMDP`, the result is the marginal of
that preference.  (With more preferences the order is reversed: `C30_reversed_partial`, `C30_false`.) -/
theorem C30_single_partial (nH nB nO : Nat) (array : List ℚ) (h : array.length = (mkSupState nH 1 nB nO).nStates) :
    beliefPreferences (mkSupState nH 1 nB nO) array =
      .ok [mass (mkSupState nH 1 nB nO) array (fun y => y.hasPref 0 = 1)] := by
  obtain ⟨q, h1, h2, h3⟩ := (C30_reversed_partial nH 1 nB nO array).2 h
  rw [h1]
  match q, h2 with
  | [v], _ => simpa using h3 0 (by omega)

/-- **C30 is false of the code.**  With two preferences and all the mass on the state that has preference 0 only, the
result says that the probability of preference 0 is zero and that of preference 1 is one. -/
theorem C30_false :
    let x := mkSupState 1 2 0 0
    mass x [0, 1, 0, 0] (fun y => y.hasPref 0 = 1) = 1 ∧ mass x [0, 1, 0, 0] (fun y => y.hasPref 1 = 1) = 0 ∧
      beliefPreferences x [0, 1, 0, 0] = .ok [0, 1] := by
  refine ⟨?_, ?_, ?_⟩ <;> decide +kernel

/-- Non-vacuity of C30. -/
example : beliefPreferences (mkSupState 2 1 0 1) [1/8, 1/8, 0, 1/4, 0, 0, 1/2, 0] = .ok [3/4] := by decide +kernel

end Verif
