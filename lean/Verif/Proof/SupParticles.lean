import Verif.Spec.SupParticles
import Verif.Props.SupKernel
import Verif.Props.Sampling
import Verif.Proof.Mean

/-! Proofs for particle beliefs in the supportive simulator (C97). -/

set_option linter.unusedSectionVars false
set_option linter.unusedSimpArgs false

namespace Verif
open Spec SupState SupPomdp

/-! ### Rewards are summed out -/

theorem chance_exists_mem {Ω : Type} [Fintype Ω] {ι : Type} [DecidableEq ι] (P : ι → Ω → Prop) (hd : ∀ i j ω, P i ω → P j ω → i = j) (R : Finset ι) :
    chance (fun ω => ∃ r ∈ R, P r ω) = ∑ r ∈ R, chance (P r) := by
  induction R using Finset.induction_on with
  | empty => simp [chance_false]
  | insert x R hx ih =>
      rw [Finset.sum_insert hx, ← ih, ← chance_or]
      · exact chance_congr fun ω => by simp
      · rintro ω h ⟨r, hr, h'⟩
        rw [hd _ _ _ h h'] at hx
        exact hx hr

theorem chance_zero {Ω : Type} [Fintype Ω] {P : Ω → Prop} (h : chance P = 0) (ω : Ω) : ¬ P ω := by
  classical
  intro hp
  haveI : Nonempty Ω := ⟨ω⟩
  rw [chance_eq, div_eq_zero_iff] at h
  rcases h with h | h
  · have : ω ∈ Finset.univ.filter P := by simpa using hp
    have h0 : (Finset.univ.filter P).card = 0 := by exact_mod_cast h
    rw [Finset.card_eq_zero.1 h0] at this
    simp at this
  · have : Fintype.card Ω ≠ 0 := Fintype.card_ne_zero
    exact this (by exact_mod_cast h)

theorem chance_reward {Ω : Type} [Fintype Ω] (X : Ω → Py (Nat × Nat × ℚ)) (s' o : Nat) (F : ℚ → ℚ)
    (h : ∀ r, chance (fun ω => X ω = .ok (s', o, r)) = F r) (R : Finset ℚ) (hR : ∀ r, r ∉ R → F r = 0) :
    chance (fun ω => ∃ r, X ω = .ok (s', o, r)) = ∑ r ∈ R, F r := by
  rw [Finset.sum_congr rfl fun r _ => (h r).symm,
    ← chance_exists_mem (fun (r : ℚ) ω => X ω = .ok (s', o, r)) (fun i j ω h1 h2 => by rw [h1] at h2; cases h2; rfl)]
  refine chance_congr fun ω => ⟨fun ⟨r, hr⟩ => ?_, fun ⟨r, _, hr⟩ => ⟨r, hr⟩⟩
  refine ⟨r, ?_, hr⟩
  by_contra hc
  exact chance_zero ((h r).trans (hR r hc)) ω hr

theorem sum_one_eq (R : Finset ℚ) (P : Prop) [Decidable P] (r0 : ℚ) (h : r0 ∈ R) : ∑ r ∈ R, one (P ∧ r = r0) = one P := by
  unfold one
  by_cases hP : P
  · simp [hP, h]
  · simp [hP]

theorem one_congr {P Q : Prop} [Decidable P] [Decidable Q] (h : P ↔ Q) : one P = one Q := by
  unfold one
  simp [h]

theorem one_zero {P : Prop} [Decidable P] (h : ¬ P) : one P = 0 := if_neg h

section
variable {D K N : Nat} {m : SupPomdp}

abbrev RestNumbers (D K N : Nat) : Type := Fin D × Fin K × (Fin N → Fin D) × Fin D × Fin D

theorem ask_outcome (hF : Fine m D K N) (s1 s' o : Nat) :
    chance (fun w : RestNumbers D K N => ∃ r, stepFrom m (restDraws w) 3 s1 = .ok (s', o, r)) = askOutcome m s1 s' o := by
  rw [chance_reward _ s' o _ (ask_chance hF s1 s' o) {-m.par.costIntrinsic} (by
    intro r hr
    rw [Finset.mem_singleton] at hr
    unfold askChance
    rw [one_zero (fun h => hr h.2), zero_mul])]
  rw [Finset.sum_singleton]
  unfold askChance askOutcome
  rw [one_congr (Q := s' = s1) (by simp)]

theorem object_outcome {css : List (List (Nat × String))} (hw : m.WF css) (hF : Fine m D K N) (a obj b : Nat) (ha : 4 ≤ a)
    (hob : m.objFromAction a = .ok obj) (hb : b = if m.isBring a then 1 else 0) (hlt : obj < m.objects.length) (s1 s' o : Nat) :
    chance (fun w : RestNumbers D K N => ∃ r, stepFrom m (restDraws w) a s1 = .ok (s', o, r)) = objectOutcome m obj b s1 s' o := by
  rw [chance_reward _ s' o _ (object_chance hw hF a obj b ha hob hb hlt s1 s' o) {-m.par.costIntrinsic} (by
    intro r hr
    rw [Finset.mem_singleton] at hr
    unfold objectChance
    rw [one_zero hr, zero_mul])]
  rw [Finset.sum_singleton]
  unfold objectChance objectOutcome
  rw [show one (-m.par.costIntrinsic = -m.par.costIntrinsic) = 1 from if_pos rfl, one_mul]

/-- The possible rewards of completing a leaf. -/
def rewardsOf (m : SupPomdp) (a s1 : Nat) : Finset ℚ :=
  (Finset.range ((leafConditions m s1).length + 1)).image fun k => completeReward m a s1 k

theorem finishChance_zero (a s1 s' o : Nat) (r : ℚ) (hr : r ∉ rewardsOf m a s1) : finishChance m a s1 s' o r = 0 := by
  unfold finishChance
  refine Finset.sum_eq_zero fun k hk => ?_
  rw [one_zero (fun h => hr (Finset.mem_image.2 ⟨k, hk, h.2.symm⟩)), zero_mul]

theorem finishChance_sum (a s1 s' o : Nat) (R : Finset ℚ) (hR : rewardsOf m a s1 ⊆ R) :
    ∑ r ∈ R, finishChance m a s1 s' o r = one (o = 0) * completeOutcome m s1 s' := by
  unfold finishChance completeOutcome
  rw [Finset.sum_comm, Finset.mul_sum]
  refine Finset.sum_congr rfl fun k hk => ?_
  rw [← Finset.sum_mul, sum_one_eq _ _ _ (hR (Finset.mem_image.2 ⟨k, hk, rfl⟩))]

theorem wait_outcome {css : List (List (Nat × String))} (hw : m.WF css) (hF : Fine m D K N) (a : Nat) (ha : a < 3) (s1 s' o : Nat)
    (h1 : s1 < m.nStates) :
    chance (fun w : RestNumbers D K N => ∃ r, stepFrom m (restDraws w) a s1 = .ok (s', o, r)) = waitOutcome m a s1 s' o := by
  have hz : ∀ (R : Finset ℚ), (∀ r, r ∉ R → waitChance m a s1 s' o r = 0) → 
      chance (fun w : RestNumbers D K N => ∃ r, stepFrom m (restDraws w) a s1 = .ok (s', o, r)) = ∑ r ∈ R, waitChance m a s1 s' o r := fun R hR =>
    chance_reward _ s' o _ (fun r => wait_chance hw hF a ha s1 s' o h1 r) R hR
  unfold waitChance at hz
  unfold waitOutcome
  by_cases c1 : htmOf m s1 = m.nodes.length + 1
  · simp only [if_pos c1] at hz ⊢
    rw [hz {if a = 0 then 0 else -m.par.costHold} (fun r hr => one_zero fun h => hr (by rw [Finset.mem_singleton]; exact h.2.2)), Finset.sum_singleton]
    exact one_congr (by simp)
  simp only [if_neg c1] at hz ⊢
  by_cases c2 : htmOf m s1 = m.nodes.length
  · simp only [if_pos c2] at hz ⊢
    by_cases c3 : a = 0
    · simp only [if_pos c3] at hz ⊢
      rw [hz {m.par.rFinal - m.par.costGet * ((List.range m.objects.length).countP fun i => bit s1 i = 1)}
        (fun r hr => one_zero fun h => hr (by rw [Finset.mem_singleton]; exact h.2.2.2)), Finset.sum_singleton]
      exact one_congr (by simp)
    · simp only [if_neg c3] at hz ⊢
      rw [hz {-m.par.costHold} (fun r hr => one_zero fun h => hr (by rw [Finset.mem_singleton]; exact h.2.2)), Finset.sum_singleton]
      exact one_congr (by simp)
  simp only [if_neg c2] at hz ⊢
  by_cases c4 : a = 0 ∨ Welcome m a s1
  · simp only [if_pos c4] at hz ⊢
    rw [hz (rewardsOf m a s1) (fun r hr => finishChance_zero a s1 s' o r hr), finishChance_sum a s1 s' o _ subset_rfl]
  · simp only [if_neg c4] at hz ⊢
    rw [hz (insert (-m.par.costHold) (rewardsOf m a s1)) (fun r hr => by
      rw [Finset.mem_insert, not_or] at hr
      rw [one_zero fun h => hr.1 h.2.2, finishChance_zero a s1 s' o r hr.2]
      ring)]
    rw [Finset.sum_add_distrib, ← Finset.mul_sum, ← Finset.mul_sum, finishChance_sum a s1 s' o _ (Finset.subset_insert _ _)]
    rw [Finset.sum_congr rfl fun r _ => one_congr (Q := (s' = s1 ∧ o = 1) ∧ r = -m.par.costHold) (by rw [and_assoc]), sum_one_eq _ _ _ (by simp)]

end

theorem outcome_total {t : Htm SupAction} {m : SupPomdp} (_ : Constructed t m) {D K N : Nat} (hF : Fine m D K N) (a s : Nat) (hs : s < m.nStates)
    (s' o : Nat) :
    chance (fun ω : Numbers m D K N => ∃ r, m.sampleTransition (drawsOf ω) a s true = .ok (s', o, r)) =
      ∑ s1 ∈ Finset.range m.nStates, changeChance m s s1 *
        chance (fun w : RestNumbers D K N => ∃ r, stepFrom m (restDraws w) a s1 = .ok (s', o, r)) := by
  have h := chance_total (A := (Fin m.objects.length → Fin D) × (Fin m.par.nPreferences → Fin D))
    (B := RestNumbers D K N) (fun u => (m.perturb (flipDraws u) s true).s) m.nStates (by
      intro u
      obtain ⟨_, h2, h3, _⟩ := perturb_spec m (flipDraws u) s true
      rw [lt_nStates, h3, h2]
      exact (lt_nStates m s).1 hs) (fun s1 w => ∃ r, stepFrom m (restDraws w) a s1 = .ok (s', o, r))
  rw [chance_congr fun ω => exists_congr fun r => by rw [sampleTransition_drawsOf], h]
  exact Finset.sum_congr rfl fun s1 _ => by rw [chance_change m hF]

theorem bring_facts {t : Htm SupAction} {m : SupPomdp} (h : Constructed t m) {obj a : Nat} (ha : m.bring obj = .ok a) :
    4 ≤ a ∧ m.objFromAction a = .ok obj ∧ m.isBring a = true ∧ obj < m.objects.length := by
  obtain ⟨css, hw⟩ := constructed_wf h
  have hob := ((C27_inverse h a).1 obj).2 (Or.inl ha)
  have hb : m.aBring[obj]? = some a := by
    unfold SupPomdp.bring at ha
    split at ha
    · next x hx => cases ha; exact hx
    · cases ha
  have hmem : a ∈ m.aBring := List.mem_of_getElem? hb
  have h4 := ((mem_acts_iff hw a).1 (Or.inl hmem))
  obtain ⟨o', h1, h2, _⟩ := objFromAction_ok hw a h4.1 h4.2
  rw [hob, Except.ok.injEq] at h1
  subst h1
  exact ⟨h4.1, hob, by simp [isBring, hmem], h2⟩

theorem clear_facts {t : Htm SupAction} {m : SupPomdp} (h : Constructed t m) {obj a : Nat} (ha : m.clear obj = .ok a) :
    4 ≤ a ∧ m.objFromAction a = .ok obj ∧ m.isBring a = false ∧ obj < m.objects.length := by
  obtain ⟨css, hw⟩ := constructed_wf h
  have hob := ((C27_inverse h a).1 obj).2 (Or.inr ha)
  have hb : m.aClear[obj]? = some (some a) := by
    unfold SupPomdp.clear at ha
    split at ha
    · next x hx => cases ha; exact hx
    · cases ha
    · cases ha
  have hmem : some a ∈ m.aClear := List.mem_of_getElem? hb
  have hnb : a ∉ m.aBring := by
    obtain ⟨_, _, _, s4, _⟩ := objectActions_spec m.clearable 4
    rw [← hw.acts] at s4
    exact fun hh => (s4 a hh).2.2 hmem
  have h4 := ((mem_acts_iff hw a).1 (Or.inr hmem))
  obtain ⟨o', h1, h2, _⟩ := objFromAction_ok hw a h4.1 h4.2
  rw [hob, Except.ok.injEq] at h1
  subst h1
  exact ⟨h4.1, hob, by simp [isBring, hnb], h2⟩

theorem outcomes_chance {t : Htm SupAction} {m : SupPomdp} (h : Constructed t m) {D K N : Nat} (hF : Fine m D K N) {a : Nat}
    {k : Nat → Nat → Nat → ℚ} (hk : OutcomesOf m a k) (s : Nat) (hs : s < m.nStates) (s' o : Nat) :
    chance (fun ω : Numbers m D K N => ∃ r, m.sampleTransition (drawsOf ω) a s = .ok (s', o, r)) =
      ∑ s1 ∈ Finset.range m.nStates, changeChance m s s1 * k s1 s' o := by
  obtain ⟨css, hw⟩ := constructed_wf h
  rw [outcome_total h hF a s hs]
  refine Finset.sum_congr rfl fun s1 h1 => ?_
  rw [Finset.mem_range] at h1
  congr 1
  rcases hk with ⟨ha, rfl⟩ | ⟨rfl, rfl⟩ | ⟨obj, ⟨ha, rfl⟩ | ⟨ha, rfl⟩⟩
  · exact wait_outcome hw hF a ha s1 s' o h1
  · exact ask_outcome hF s1 s' o
  · obtain ⟨g1, g2, g3, g4⟩ := bring_facts h ha
    exact object_outcome hw hF a obj 1 g1 g2 (by rw [g3]; rfl) g4 s1 s' o
  · obtain ⟨g1, g2, g3, g4⟩ := clear_facts h ha
    exact object_outcome hw hF a obj 0 g1 g2 (by rw [g3]; rfl) g4 s1 s' o

theorem outcomes_lt {t : Htm SupAction} {m : SupPomdp} (h : Constructed t m) {a : Nat} {k : Nat → Nat → Nat → ℚ} (hk : OutcomesOf m a k) :
    a < m.nActions := by
  have h4 : 4 ≤ m.nActions := by unfold nActions; omega
  rcases hk with ⟨ha, _⟩ | ⟨rfl, _⟩ | ⟨obj, ⟨ha, _⟩ | ⟨ha, _⟩⟩
  · omega
  · omega
  · by_contra hc
    have h1 := (C27_inverse h a).2.2.2 (.inr (by omega))
    rw [((C27_inverse h a).1 obj).2 (.inl ha)] at h1
    cases h1
  · by_contra hc
    have h1 := (C27_inverse h a).2.2.2 (.inr (by omega))
    rw [((C27_inverse h a).1 obj).2 (.inr ha)] at h1
    cases h1

theorem outcomes_known {t : Htm SupAction} {m : SupPomdp} (h : Constructed t m) {a : Nat} (ha : a < m.nActions) : ∃ k, OutcomesOf m a k := by
  by_cases h3 : a < 3
  · exact ⟨_, .inl ⟨h3, rfl⟩⟩
  by_cases h4 : a = 3
  · exact ⟨_, .inr (.inl ⟨h4, rfl⟩)⟩
  obtain ⟨css, hw⟩ := constructed_wf h
  obtain ⟨o, h1, _, _⟩ := objFromAction_ok hw a (by omega) ha
  rcases ((C27_inverse h a).1 o).1 h1 with h2 | h2
  · exact ⟨_, .inr (.inr ⟨o, .inl ⟨h2, rfl⟩⟩)⟩
  · exact ⟨_, .inr (.inr ⟨o, .inr ⟨h2, rfl⟩⟩)⟩

/-! ### Rejection sampling with any simulator -/

theorem consistent_some {o : Nat} {x : Py (Nat × Nat × ℚ)} {s' : Nat} : consistentWith o x = some s' ↔ ∃ r, x = .ok (s', o, r) := by
  unfold consistentWith
  split
  · next r =>
      obtain ⟨s1, o1, r⟩ := r
      constructor
      · intro h
        simp only at h
        split at h
        · next ho => cases h; subst ho; exact ⟨r, rfl⟩
        · cases h
      · rintro ⟨r', h⟩
        cases h
        simp
  · constructor
    · intro h; cases h
    · rintro ⟨r, h⟩; cases h

theorem chance_lists {α : Type} [Fintype α] [Nonempty α] (f : α → Option Nat) (post : Nat → ℚ) (hW : chance (fun x => (f x).isSome = true) ≠ 0)
    (hp : ∀ s, chance (fun x => f x = some s) = post s * chance (fun x => (f x).isSome = true)) (N n : Nat) :
    (∀ l : List Nat, chance (fun ω : Fin N → α => found f n ω = l) =
      (l.map post).prod * chance (fun ω : Fin N → α => (found f n ω).length = l.length)) ∧
    ∀ j, ∀ i < j, ∀ s, chance (fun ω : Fin N → α => (found f n ω).length = j ∧ (found f n ω)[i]? = some s) =
      post s * chance (fun ω : Fin N → α => (found f n ω).length = j) := by
  classical
  have hc : (Fintype.card α : ℚ) ≠ 0 := by exact_mod_cast Fintype.card_ne_zero
  have e1 : chance (fun x => (f x).isSome = true) = someCount f / Fintype.card α := chance_eq _
  have e2 : ∀ s, chance (fun x => f x = some s) = stateCount f s / Fintype.card α := fun s => chance_eq _
  have hWp : someCount f ≠ 0 := by
    intro h0
    rw [e1, h0, zero_div] at hW
    exact hW rfl
  have hpost : ∀ s, stateCount f s = post s * someCount f := by
    intro s
    have := hp s
    rw [e1, e2] at this
    field_simp at this
    exact this
  refine ⟨fun l => ?_, fun j i hij s => ?_⟩
  · have h4 := rejection f N n l
    have e : (l.map post).prod * someCount f ^ l.length = (l.map (stateCount f)).prod := by
      clear h4
      induction l with
      | nil => simp
      | cons s l ih =>
          simp only [List.map_cons, List.prod_cons, List.length_cons]
          rw [← ih, hpost s]
          ring
    have h5 : foundCount f n l N = (l.map post).prod * lengthCount f n l.length N := by
      apply mul_right_cancel₀ (pow_ne_zero l.length hWp)
      rw [h4, ← e]
      ring
    rw [chance_eq, chance_eq, ← mul_div_assoc]
    congr 1
  · have h4 := rejection_place f s N n j i hij
    have h5 : placeCount f n j i s N = post s * lengthCount f n j N := by
      apply mul_right_cancel₀ hWp
      rw [h4, hpost s]
      ring
    rw [chance_eq, chance_eq, ← mul_div_assoc]
    congr 1

theorem chance_position {Ω : Type} [Fintype Ω] (n : Nat) (P : Fin n → Ω → Prop) :
    chance (fun x : Fin n × Ω => P x.1 x.2) = (∑ i, chance (P i)) / n := by
  classical
  rw [chance_eq, Finset.sum_congr rfl fun i _ => chance_eq (P i), ← Finset.sum_div, Fintype.card_prod, Fintype.card_fin, div_div, Nat.cast_mul,
    mul_comm (n : ℚ)]
  congr 1
  rw [← Nat.cast_sum, Finset.card_filter, Fintype.sum_prod_type]
  congr 1
  exact Finset.sum_congr rfl fun i _ => (Finset.card_filter _ _).symm

theorem chance_all {α : Type} [Fintype α] (P : α → Prop) (N : Nat) : chance (fun ω : Fin N → α => ∀ i, P (ω i)) = chance P ^ N := by
  classical
  rw [chance_eq, chance_eq, div_pow]
  have e : (Finset.univ.filter fun ω : Fin N → α => ∀ i, P (ω i)) = Fintype.piFinset fun _ => Finset.univ.filter P := by
    ext ω
    simp [Fintype.mem_piFinset]
  rw [e, Fintype.card_piFinset]
  simp

theorem chance_empty {α : Type} [Fintype α] [Nonempty α] (f : α → Option Nat) (N n : Nat) (hn : 0 < n) :
    chance (fun ω : Fin N → α => found f n ω = []) = (1 - chance (fun x => (f x).isSome = true)) ^ N := by
  rw [← chance_not, ← chance_all]
  refine chance_congr fun ω => ?_
  unfold found
  rw [List.take_eq_nil_iff, List.filterMap_eq_nil_iff]
  simp only [List.mem_ofFn, Bool.not_eq_true, Option.isSome_eq_false_iff, Option.isNone_iff_eq_none]
  constructor
  · rintro (h | h) i
    · omega
    · exact h _ ⟨i, rfl⟩
  · exact fun h => .inr (by rintro _ ⟨i, rfl⟩; exact h i)

/-- The chance that one attempt finds the state `s'`. -/
theorem chance_find {t : Htm SupAction} {m : SupPomdp} (h : Constructed t m) {D K N : Nat} (hF : Fine m D K N) {a : Nat}
    {k : Nat → Nat → Nat → ℚ} (hk : OutcomesOf m a k) {parts : List Nat} (hne : parts ≠ []) (hin : ∀ s ∈ parts, s < m.nStates) {b : List ℚ}
    (hb : particleArray m.nStates parts = .ok b) (o s' : Nat) :
    chance (fun x : SupAttempt m parts.length D K N => consistentWith o (supAttempt m parts a x) = some s') = supJoint m k b o s' := by
  rw [chance_congr fun x => consistent_some]
  refine (chance_position parts.length fun (i : Fin parts.length) (ω : Numbers m D K N) =>
    ∃ r, m.sampleTransition (drawsOf ω) a (parts.getD i 0) = .ok (s', o, r)).trans ?_
  have hmem : ∀ i : Fin parts.length, parts.getD i 0 < m.nStates := by
    intro i
    have : parts.getD i 0 = parts[i] := by simp
    rw [this]
    exact hin _ (List.getElem_mem _)
  rw [Finset.sum_congr rfl fun (i : Fin parts.length) _ => outcomes_chance h hF hk (parts.getD i 0) (hmem i) s' o,
    list_sum_fin parts (fun s => ∑ s1 ∈ Finset.range m.nStates, changeChance m s s1 * k s1 s' o), list_sum_count m.nStates parts hin,
    sumRange_eq_sum, Finset.sum_div]
  obtain ⟨l, hl, _, h3, _⟩ := (C50_array m.nStates parts).2.1 hin hne
  rw [hb] at hl
  cases hl
  refine Finset.sum_congr rfl fun s hs => ?_
  rw [h3 s (Finset.mem_range.1 hs)]
  ring

theorem chance_evidence {t : Htm SupAction} {m : SupPomdp} (h : Constructed t m) {D K N : Nat} (hF : Fine m D K N) {a : Nat}
    {k : Nat → Nat → Nat → ℚ} (hk : OutcomesOf m a k) {parts : List Nat} (hne : parts ≠ []) (hin : ∀ s ∈ parts, s < m.nStates) {b : List ℚ}
    (hb : particleArray m.nStates parts = .ok b) (o : Nat) :
    chance (fun x : SupAttempt m parts.length D K N => (consistentWith o (supAttempt m parts a x)).isSome = true) = supEvidence m k b o := by
  unfold supEvidence
  rw [Finset.sum_congr rfl fun s' _ => (chance_find h hF hk hne hin hb o s').symm,
    ← chance_exists_mem (fun s' x => consistentWith o (supAttempt m parts a x) = some s') (fun i j x h1 h2 => by rw [h1] at h2; cases h2; rfl)]
  refine chance_congr fun x => ⟨fun hx => ?_, fun ⟨r, _, hr⟩ => by rw [hr]; rfl⟩
  obtain ⟨s', hs'⟩ := Option.isSome_iff_exists.1 hx
  refine ⟨s', ?_, hs'⟩
  obtain ⟨r, hr⟩ := consistent_some.1 hs'
  have hmem : parts.getD x.1 0 < m.nStates := by
    have : parts.getD x.1 0 = parts[x.1] := by simp
    rw [this]
    exact hin _ (List.getElem_mem _)
  obtain ⟨s2, o2, r2, h1, h2, _⟩ := C25_transition h (drawsOf x.2) a _ true hmem (outcomes_lt h hk)
  unfold supAttempt at hr
  rw [h1] at hr
  cases hr
  exact Finset.mem_range.2 h2

theorem chance_find_out {t : Htm SupAction} {m : SupPomdp} (h : Constructed t m) {D K N : Nat} {a : Nat} (ha : a < m.nActions)
    {parts : List Nat} (hin : ∀ s ∈ parts, s < m.nStates) (o s' : Nat) (hs' : m.nStates ≤ s') :
    chance (fun x : SupAttempt m parts.length D K N => consistentWith o (supAttempt m parts a x) = some s') = 0 := by
  refine chance_false fun x hx => ?_
  obtain ⟨r, hr⟩ := consistent_some.1 hx
  have hmem : parts.getD x.1 0 < m.nStates := by
    have : parts.getD x.1 0 = parts[x.1] := by simp
    rw [this]
    exact hin _ (List.getElem_mem _)
  obtain ⟨s2, o2, r2, h1, h2, _⟩ := C25_transition h (drawsOf x.2) a _ true hmem ha
  unfold supAttempt at hr
  rw [h1] at hr
  cases hr
  omega

theorem successor_found {Ω : Type} (sim : Ω → Nat → Nat → Py (Nat × Nat × ℚ)) (parts : List Nat) (n : Nat) (hn : parts.length = n) (hpos : 0 < n)
    (a o : Nat) (hok : ∀ w, ∀ s ∈ parts, ∃ r, sim w a s = .ok r) (choose : Nat → Nat) (ω : Fin (100 * n) → Fin n × Ω) :
    let f : Fin n × Ω → Option Nat := fun x => consistentWith o (sim x.2 a (parts.getD x.1 0))
    ((particleSuccessor parts n (positionsOf ω) choose (simulatorOf sim ω) a o).1 = .error .maxSamplesReached ↔ found f n ω = []) ∧
    (found f n ω ≠ [] →
      ∃ ps, (particleSuccessor parts n (positionsOf ω) choose (simulatorOf sim ω) a o).1 = .ok ps ∧
        found f n ω <+: ps ∧ ((found f n ω).length = n → ps = found f n ω)) := by
  intro f
  have hat : ∀ x : Fin n × Ω, ∃ r, sim x.2 a (parts.getD x.1 0) = .ok r := by
    intro x
    apply hok
    have hx : (x.1 : Nat) < parts.length := by rw [hn]; exact x.1.2
    rw [List.getD_eq_getElem?_getD, List.getElem?_eq_getElem hx]
    exact List.getElem_mem _
  choose tr0 htr0 using hat
  let tr : Nat → Nat × Nat × ℚ := fun k => if h : k < 100 * n then tr0 (ω ⟨k, h⟩) else (0, 0, 0)
  obtain ⟨h1, h2⟩ := C51_exact parts n (positionsOf ω) choose (simulatorOf sim ω) a o tr hpos hn (by
    intro k hk s hs
    have hs' : parts.getD (ω ⟨k, hk⟩).1 0 = s := by
      have e : positionsOf ω k % n = (ω ⟨k, hk⟩).1 := by
        unfold positionsOf
        rw [dif_pos hk]
        exact Nat.mod_eq_of_lt (ω ⟨k, hk⟩).1.2
      rw [e] at hs
      simp [List.getD_eq_getElem?_getD, hs]
    unfold simulatorOf
    rw [dif_pos hk]
    simp only [tr, dif_pos hk]
    rw [← htr0, hs'])
  have hlist : ((List.range (100 * n)).filter fun k => decide ((tr k).2.1 = o)).map (fun k => (tr k).1) = (List.ofFn ω).filterMap f := by
    have e1 : (List.ofFn ω) = (List.range (100 * n)).filterMap fun k => if h : k < 100 * n then some (ω ⟨k, h⟩) else none := by
      rw [List.ofFn_eq_map, ← List.map_coe_finRange_eq_range, List.filterMap_map]
      have : ((fun k => if h : k < 100 * n then some (ω ⟨k, h⟩) else none) ∘ (fun i : Fin (100 * n) => (i : Nat))) = fun i => some (ω i) := by
        funext i
        simp
      rw [this]
      simp
    rw [e1, List.filterMap_filterMap]
    have : ∀ l : List Nat, (∀ k ∈ l, k < 100 * n) → (l.filter fun k => decide ((tr k).2.1 = o)).map (fun k => (tr k).1) =
        l.filterMap fun k => (if h : k < 100 * n then some (ω ⟨k, h⟩) else none).bind f := by
      intro l hl
      induction l with
      | nil => rfl
      | cons k l ih =>
          have hk := hl k List.mem_cons_self
          have ih := ih fun j hj => hl j (List.mem_cons_of_mem _ hj)
          have e : tr k = tr0 (ω ⟨k, hk⟩) := by simp only [tr, dif_pos hk]
          by_cases ho : (tr0 (ω ⟨k, hk⟩)).2.1 = o
          · rw [List.filter_cons_of_pos (by simp [e, ho]), List.map_cons, ih, e, List.filterMap_cons_some (b := (tr0 (ω ⟨k, hk⟩)).1)
              (by simp only [dif_pos hk, Option.bind_some, f, htr0, consistentWith, if_pos ho])]
          · rw [List.filter_cons_of_neg (by simp [e, ho]), ih, List.filterMap_cons_none
              (by simp only [dif_pos hk, Option.bind_some, f, htr0, consistentWith, if_neg ho])]
    exact this _ fun k hk => List.mem_range.1 hk
  have hfound : found f n ω = (((List.range (100 * n)).filter fun k => decide ((tr k).2.1 = o)).map fun k => (tr k).1).take n := by
    rw [hlist]; rfl
  have hnil : found f n ω = [] ↔ ∀ k < 100 * n, (tr k).2.1 ≠ o := by
    rw [hfound, List.take_eq_nil_iff, List.map_eq_nil_iff, List.filter_eq_nil_iff]
    simp only [List.mem_range, decide_eq_true_eq]
    constructor
    · rintro (h | h)
      · omega
      · exact h
    · exact .inr
  refine ⟨by rw [hnil]; exact h1, fun hf => ?_⟩
  obtain ⟨ps, g1, g2⟩ := h2 (by
    by_contra hc
    push Not at hc
    exact hf (hnil.2 hc))
  rw [← hfound] at g2
  refine ⟨ps, g1, g2, fun hlen => ?_⟩
  have := (C51_consistent _ _ _ _ _ _ _ _ g1).1
  exact (g2.eq_of_length (by rw [hlen, this])).symm

end Verif
