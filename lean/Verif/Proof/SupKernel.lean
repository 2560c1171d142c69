import Verif.Proof.Chance
import Verif.Proof.Supportive
import Verif.Props.Supportive

/-! The probabilities of the supportive simulator. -/

set_option linter.unusedSectionVars false
set_option linter.unusedSimpArgs false

namespace Verif
open Spec SupState SupPomdp

/-! ### Random changes -/

theorem foldl_flip (c : Nat) (x : SupState) (f : SupState → Nat → SupState)
    (hf : ∀ y i, SameShape x y → f y i = y.setBit (c + i) (1 - y.getBit (c + i))) :
    ∀ (l : List Nat), l.Nodup → ∀ y, SameShape x y → ∀ k, (l.foldl f y).getBit k = if k ∈ l.map (c + ·) then 1 - y.getBit k else y.getBit k := by
  intro l
  induction l with
  | nil => intro _ y _ k; simp
  | cons i l ih =>
      intro hn y hy k
      rw [List.nodup_cons] at hn
      have hb : 1 - y.getBit (c + i) < 2 := by omega
      have hs : SameShape x (f y i) := by rw [hf y i hy]; exact hy.trans ⟨rfl, rfl, rfl, rfl⟩
      rw [List.foldl_cons, ih hn.2 _ hs k, hf y i hy, getBit_setBit _ _ _ _ hb]
      by_cases hk : k = c + i
      · subst hk
        have h1 : c + i ∉ l.map (c + ·) := by
          simp only [List.mem_map, not_exists, not_and]
          intro j hj h
          have : j = i := by omega
          exact hn.1 (this ▸ hj)
        have h2 : c + i ∈ (i :: l).map (c + ·) := by simp
        rw [if_neg h1, if_pos rfl, if_pos h2]
      · rw [if_neg hk]
        have : k ∈ (i :: l).map (c + ·) ↔ k ∈ l.map (c + ·) := by
          simp only [List.map_cons, List.mem_cons]
          constructor
          · rintro (h | h)
            · exact absurd h hk
            · exact h
          · exact Or.inr
        simp only [this]

theorem randomObjects_bit (x : SupState) (u : Nat → ℚ) (p : ℚ) (k : Nat) :
    (x.randomObjects u p).getBit k = if k < x.nObjects ∧ u k < p then 1 - x.getBit k else x.getBit k := by
  unfold randomObjects
  rw [foldl_flip 0 x _ (fun y i _ => by rw [Nat.zero_add]) _ (List.Nodup.filter _ List.nodup_range) x (.refl x) k]
  have : k ∈ ((List.range x.nObjects).filter fun i => decide (u i < p)).map (0 + ·) ↔ k < x.nObjects ∧ u k < p := by
    simp
  simp only [this]

theorem randomPrefs_bit (x : SupState) (u : Nat → ℚ) (p : ℚ) (k : Nat) :
    (x.randomPrefs u p).getBit k = if x.shiftPref ≤ k ∧ k < x.shiftPref + x.nPref ∧ u (k - x.shiftPref) < p then 1 - x.getBit k else x.getBit k := by
  unfold randomPrefs
  rw [foldl_flip x.shiftPref x _ (fun y i hy => by rw [hy.2.1]; rfl) _ (List.Nodup.filter _ List.nodup_range) x (.refl x) k]
  have : k ∈ ((List.range x.nPref).filter fun i => decide (u i < p)).map (x.shiftPref + ·) ↔
      x.shiftPref ≤ k ∧ k < x.shiftPref + x.nPref ∧ u (k - x.shiftPref) < p := by
    simp only [List.mem_map, List.mem_filter, List.mem_range, decide_eq_true_eq]
    constructor
    · rintro ⟨i, ⟨h1, h2⟩, rfl⟩
      refine ⟨by omega, by omega, ?_⟩
      rw [Nat.add_sub_cancel_left]
      exact h2
    · rintro ⟨h1, h2, h3⟩
      exact ⟨k - x.shiftPref, ⟨by omega, h3⟩, by omega⟩
  simp only [this]

/-- A state is determined by its features. -/
theorem state_eq_iff (m : SupPomdp) (s s' : Nat) :
    s = s' ↔ htmOf m s = htmOf m s' ∧ ∀ i < m.objects.length + 1 + m.par.nPreferences, bit s i = bit s' i := by
  constructor
  · rintro rfl; exact ⟨rfl, fun _ _ => rfl⟩
  · rintro ⟨h1, h2⟩
    exact eq_of_bits _ s s' h1 h2

theorem bit_lt (s i : Nat) : bit s i < 2 := Nat.mod_lt _ (by omega)

theorem flip_iff (b b' : Nat) (hb : b < 2) (hb' : b' < 2) (p : Prop) [Decidable p] : (if p then 1 - b else b) = b' ↔ (p ↔ ¬ b' = b) := by
  by_cases hp : p
  · simp only [hp, if_true, true_iff]; omega
  · simp only [hp, if_false, false_iff, not_not]; exact eq_comm

theorem perturb_iff (m : SupPomdp) (d : Draws) (s s1 : Nat) : (m.perturb d s true).s = s1 ↔
    (htmOf m s1 = htmOf m s ∧ bit s1 m.objects.length = bit s m.objects.length) ∧
    (∀ i < m.objects.length, d.objects i < m.par.pChangedByHuman ↔ ¬ bit s1 i = bit s i) ∧
    ∀ i < m.par.nPreferences, d.prefs i < m.par.pChangePreference ↔
      ¬ bit s1 (m.objects.length + 1 + i) = bit s (m.objects.length + 1 + i) := by
  obtain ⟨h1, h2, h3, _⟩ := perturb_spec m d s true
  have hsh := randomObjects_spec (m.toState s) (by
    show m.objects.length ≤ m.objects.length + 1 + m.par.nPreferences
    omega) d.objects m.par.pChangedByHuman
  have hbit : ∀ k, bit (m.perturb d s true).s k = (m.perturb d s true).getBit k := fun k => rfl
  have e0 : ∀ k, (m.toState s).getBit k = bit s k := fun k => rfl
  have hk : ∀ k, (m.perturb d s true).getBit k =
      if m.objects.length + 1 ≤ k ∧ k < m.objects.length + 1 + m.par.nPreferences ∧ d.prefs (k - (m.objects.length + 1)) < m.par.pChangePreference
      then 1 - ((m.toState s).randomObjects d.objects m.par.pChangedByHuman).getBit k
      else ((m.toState s).randomObjects d.objects m.par.pChangedByHuman).getBit k := by
    intro k
    have := randomPrefs_bit ((m.toState s).randomObjects d.objects m.par.pChangedByHuman) d.prefs m.par.pChangePreference k
    have e1 : ((m.toState s).randomObjects d.objects m.par.pChangedByHuman).shiftPref = m.objects.length + 1 := hsh.1.2.1.symm
    have e2 : ((m.toState s).randomObjects d.objects m.par.pChangedByHuman).nPref = m.par.nPreferences := by
      unfold SupState.nPref
      rw [← hsh.1.2.1, ← hsh.1.2.2.1]
      show m.objects.length + 1 + m.par.nPreferences - (m.objects.length + 1) = _
      omega
    rw [e1, e2] at this
    exact this
  have hhtm : htmOf m (m.perturb d s true).s = htmOf m s := by
    have e : ∀ s, htmOf m s = (m.toState s).htm := fun s => rfl
    rw [e, e, h3, h2]
  rw [state_eq_iff m, hhtm]
  have ho : ∀ k, ((m.toState s).randomObjects d.objects m.par.pChangedByHuman).getBit k =
      if k < m.objects.length ∧ d.objects k < m.par.pChangedByHuman then 1 - bit s k else bit s k := by
    intro k
    rw [randomObjects_bit]
    rfl
  have c1 : ∀ i < m.objects.length, (bit (m.perturb d s true).s i = bit s1 i ↔ (d.objects i < m.par.pChangedByHuman ↔ ¬ bit s1 i = bit s i)) := by
    intro i hi
    rw [hbit, hk, if_neg (by omega), ho]
    rw [← flip_iff _ _ (bit_lt s i) (bit_lt s1 i)]
    simp only [hi, true_and]
  have c2 : bit (m.perturb d s true).s m.objects.length = bit s m.objects.length := by
    rw [hbit, hk, if_neg (by omega), ho, if_neg (by omega)]
  have c3 : ∀ i < m.par.nPreferences, (bit (m.perturb d s true).s (m.objects.length + 1 + i) = bit s1 (m.objects.length + 1 + i) ↔
      (d.prefs i < m.par.pChangePreference ↔ ¬ bit s1 (m.objects.length + 1 + i) = bit s (m.objects.length + 1 + i))) := by
    intro i hi
    rw [hbit, hk, ho, if_neg (by omega : ¬ (m.objects.length + 1 + i < m.objects.length ∧ _)), Nat.add_sub_cancel_left]
    rw [← flip_iff _ _ (bit_lt s _) (bit_lt s1 _)]
    have : (m.objects.length + 1 ≤ m.objects.length + 1 + i ∧ m.objects.length + 1 + i < m.objects.length + 1 + m.par.nPreferences ∧
        d.prefs i < m.par.pChangePreference) ↔ d.prefs i < m.par.pChangePreference := by
      constructor
      · exact fun h => h.2.2
      · exact fun h => ⟨by omega, by omega, h⟩
    simp only [this]
  constructor
  · rintro ⟨h4, h5⟩
    exact ⟨⟨h4.symm, by rw [← h5 _ (by omega), c2]⟩, fun i hi => (c1 i hi).1 (h5 i (by omega)),
      fun i hi => (c3 i hi).1 (h5 _ (by omega))⟩
  · rintro ⟨⟨h4, h5⟩, h6, h7⟩
    refine ⟨h4.symm, ?_⟩
    intro i hi
    rcases Nat.lt_trichotomy i m.objects.length with h | h | h
    · exact (c1 i h).2 (h6 i h)
    · subst h; rw [c2, h5]
    · obtain ⟨j, rfl⟩ := Nat.exists_eq_add_of_le (show m.objects.length + 1 ≤ i by omega)
      exact (c3 j (by omega)).2 (h7 j (by omega))

/-- The random numbers of the changes. -/
def flipDraws {n k D : Nat} (u : (Fin n → Fin D) × (Fin k → Fin D)) : Draws where
  objects := numberAt u.1
  prefs := numberAt u.2
  hold := 0
  succ := 0
  consume := fun _ => 0
  ask := 0
  fail := 0

/-- The random numbers of the step. -/
def restDraws {D K N : Nat} (w : Fin D × Fin K × (Fin N → Fin D) × Fin D × Fin D) : Draws where
  objects := fun _ => 0
  prefs := fun _ => 0
  hold := equidistant w.1
  succ := w.2.1
  consume := numberAt w.2.2.1
  ask := equidistant w.2.2.2.1
  fail := equidistant w.2.2.2.2

theorem one_mul_chance {Ω : Type} [Fintype Ω] (c : Prop) [Decidable c] (P : Ω → Prop) : chance (fun ω => c ∧ P ω) = one c * chance P := by
  unfold one
  split
  · next h => rw [one_mul]; exact chance_congr fun ω => by simp [h]
  · next h => rw [zero_mul]; exact chance_false fun ω => by simp [h]

theorem chance_flips {n D : Nat} (hD : 0 < D) {p : ℚ} (hp : Multiple D p) (h1 : p ≤ 1) (b b' : Nat → Nat) :
    chance (fun u : Fin n → Fin D => ∀ i < n, numberAt u i < p ↔ ¬ b' i = b i) = ∏ i : Fin n, if b' i = b i then 1 - p else p := by
  rw [chance_congr (Q := fun u : Fin n → Fin D => ∀ i, (fun (i : Fin n) (x : Fin D) => (equidistant x < p ↔ ¬ b' i = b i)) i (u i))]
  · refine (chance_pi (fun (i : Fin n) (x : Fin D) => (equidistant x < p ↔ ¬ b' i = b i))).trans ?_
    apply Finset.prod_congr rfl
    intro i _
    split
    · next h => exact (chance_congr fun x => by simp [h]).trans (chance_nlt hD hp h1)
    · next h => exact (chance_congr fun x => by simp [h]).trans (chance_lt hD hp h1)
  · intro u
    constructor
    · intro h i
      have := h i i.2
      unfold numberAt at this
      rw [dif_pos i.2] at this
      exact this
    · intro h i hi
      unfold numberAt
      rw [dif_pos hi]
      exact h ⟨i, hi⟩

theorem chance_change (m : SupPomdp) {D K N : Nat} (hF : Fine m D K N) (s s1 : Nat) :
    chance (fun u : (Fin m.objects.length → Fin D) × (Fin m.par.nPreferences → Fin D) => (m.perturb (flipDraws u) s true).s = s1) =
      changeChance m s s1 := by
  rw [chance_congr fun u => perturb_iff m (flipDraws u) s s1, one_mul_chance]
  unfold changeChance
  rw [mul_assoc]
  congr 1
  have := chance_and (fun u : Fin m.objects.length → Fin D => ∀ i < m.objects.length, numberAt u i < m.par.pChangedByHuman ↔ ¬ bit s1 i = bit s i)
    (fun u : Fin m.par.nPreferences → Fin D => ∀ i < m.par.nPreferences, numberAt u i < m.par.pChangePreference ↔
      ¬ bit s1 (m.objects.length + 1 + i) = bit s (m.objects.length + 1 + i))
  refine this.trans ?_
  rw [chance_flips hF.posD hF.object.1 hF.object.2 (bit s) (bit s1),
    chance_flips hF.posD hF.preference.1 hF.preference.2 (fun i => bit s (m.objects.length + 1 + i)) (fun i => bit s1 (m.objects.length + 1 + i))]

/-! ### One step -/

/-- The rest of `sample_transition`, after the random changes. -/
def stepFrom (m : SupPomdp) (d : Draws) (a s1 : Nat) : Py (Nat × Nat × ℚ) := do
  let r ← m.branch d a (m.toState s1) (m.toState s1) true
  return (r.1.s, r.2.1, r.2.2)

theorem sampleTransition_drawsOf (m : SupPomdp) {D K N : Nat} (ω : Numbers m D K N) (a s : Nat) :
    m.sampleTransition (drawsOf ω) a s true = stepFrom m (restDraws ω.2) a (m.perturb (flipDraws ω.1) s true).s := by
  rw [sampleTransition_eq]
  unfold stepFrom
  have h1 : m.perturb (drawsOf ω) s true = m.perturb (flipDraws ω.1) s true := rfl
  rw [h1, (perturb_spec m (flipDraws ω.1) s true).2.2.1]
  rfl

theorem kernel_total {t : Htm SupAction} {m : SupPomdp} (_ : Constructed t m) {D K N : Nat} (hF : Fine m D K N) (a s : Nat) (hs : s < m.nStates)
    (out : Nat × Nat × ℚ) :
    chance (fun ω : Numbers m D K N => m.sampleTransition (drawsOf ω) a s true = .ok out) =
      ∑ s1 ∈ Finset.range m.nStates, changeChance m s s1 *
        chance (fun w : Fin D × Fin K × (Fin N → Fin D) × Fin D × Fin D => stepFrom m (restDraws w) a s1 = .ok out) := by
  have h := chance_total (A := (Fin m.objects.length → Fin D) × (Fin m.par.nPreferences → Fin D))
    (B := Fin D × Fin K × (Fin N → Fin D) × Fin D × Fin D) (fun u => (m.perturb (flipDraws u) s true).s) m.nStates (by
      intro u
      obtain ⟨_, h2, h3, _⟩ := perturb_spec m (flipDraws u) s true
      rw [lt_nStates, h3, h2]
      exact (lt_nStates m s).1 hs) (fun s1 w => stepFrom m (restDraws w) a s1 = .ok out)
  rw [chance_congr fun ω => by rw [sampleTransition_drawsOf], h]
  exact Finset.sum_congr rfl fun s1 _ => by rw [chance_change m hF]

theorem chance_if {Ω : Type} [Fintype Ω] [Nonempty Ω] (P : Ω → Prop) [DecidablePred P] (c1 c2 : Prop) [Decidable c1] [Decidable c2] :
    chance (fun ω => if P ω then c1 else c2) = chance P * one c1 + (1 - chance P) * one c2 := by
  rw [← chance_not, mul_comm _ (one c1), mul_comm _ (one c2), ← one_mul_chance, ← one_mul_chance, ← chance_or]
  · exact chance_congr fun ω => by by_cases h : P ω <;> simp [h]
  · rintro ω ⟨_, h⟩ ⟨_, h'⟩; exact h' h

theorem chance_if_prod {A B : Type} [Fintype A] [Fintype B] [Nonempty A] [Nonempty B] (P : A → Prop) [DecidablePred P] (c1 : Prop)
    [Decidable c1] (Q : B → Prop) :
    chance (fun ω : A × B => if P ω.1 then c1 else Q ω.2) = chance P * one c1 + (1 - chance P) * chance Q := by
  rw [← chance_not, ← chance_and, mul_comm _ (one c1), ← chance_fst (B := B) P, ← one_mul_chance, ← chance_or]
  · exact chance_congr fun ω => by by_cases h : P ω.1 <;> simp [h]
  · rintro ω ⟨_, h⟩ ⟨h', _⟩; exact h' h

section
variable {D K N : Nat} {m : SupPomdp}

theorem _root_.Verif.Spec.Fine.neD (hF : Fine m D K N) : Nonempty (Fin D) := ⟨⟨0, hF.posD⟩⟩
theorem _root_.Verif.Spec.Fine.neK (hF : Fine m D K N) : Nonempty (Fin K) := ⟨⟨0, hF.posK⟩⟩

theorem ask_chance (hF : Fine m D K N) (s1 s' o : Nat) (r : ℚ) :
    chance (fun w : Fin D × Fin K × (Fin N → Fin D) × Fin D × Fin D => stepFrom m (restDraws w) 3 s1 = .ok (s', o, r)) = askChance m s1 s' o r := by
  haveI := hF.neD
  haveI := hF.neK
  have hpref : (m.toState s1).hasPref 0 = bit s1 (m.objects.length + 1) := rfl
  have key : ∀ (p : ℚ) (x : Nat), Multiple D p → p ≤ 1 →
      chance (fun w : Fin D × Fin K × (Fin N → Fin D) × Fin D × Fin D =>
        (s' = s1 ∧ r = -m.par.costIntrinsic) ∧ (if equidistant w.2.2.2.1 < p then o = x else o = 0)) =
        one (s' = s1 ∧ r = -m.par.costIntrinsic) * (p * one (o = x) + (1 - p) * one (o = 0)) := by
    intro p x hp h1
    rw [one_mul_chance]
    congr 1
    have e1 := chance_snd (A := Fin D) (fun v : Fin K × (Fin N → Fin D) × Fin D × Fin D => if equidistant v.2.2.1 < p then o = x else o = 0)
    have e2 := chance_snd (A := Fin K) (fun v : (Fin N → Fin D) × Fin D × Fin D => if equidistant v.2.1 < p then o = x else o = 0)
    have e3 := chance_snd (A := Fin N → Fin D) (fun v : Fin D × Fin D => if equidistant v.1 < p then o = x else o = 0)
    have e4 := chance_fst (B := Fin D) (fun v : Fin D => if equidistant v < p then o = x else o = 0)
    rw [e1, e2, e3, e4, chance_if, chance_lt hF.posD hp h1]
  unfold askChance
  by_cases hb : bit s1 (m.objects.length + 1) = 1
  · rw [if_pos hb]
    have := key (9 / 10) 3 (by have := multiple_percent hF.hundred 90; norm_num at this ⊢; exact this) (by norm_num)
    norm_num at this ⊢
    rw [← this]
    refine chance_congr fun w => ?_
    unfold stepFrom branch askStep
    rw [if_neg (by omega), if_pos rfl, hpref, if_pos (by omega)]
    simp only [bind, Except.bind, pure, Except.pure, Except.ok.injEq, Prod.mk.injEq, restDraws, oYES, oNONE]
    by_cases hu : equidistant w.2.2.2.1 < 9 / 10
    · simp [hu, toState, mkSupState]; tauto
    · simp [hu, toState, mkSupState]; tauto
  · rw [if_neg hb]
    have := key (95 / 100) 4 (by have := multiple_percent hF.hundred 95; norm_num at this ⊢; exact this) (by norm_num)
    norm_num at this ⊢
    rw [← this]
    refine chance_congr fun w => ?_
    unfold stepFrom branch askStep
    have hb2 := bit_lt s1 (m.objects.length + 1)
    rw [if_neg (by omega), if_pos rfl, hpref, if_neg (by omega)]
    simp only [bind, Except.bind, pure, Except.pure, Except.ok.injEq, Prod.mk.injEq, restDraws, oNO, oNONE]
    by_cases hu : equidistant w.2.2.2.1 < 95 / 100
    · have hu' : equidistant w.2.2.2.1 < (19 / 20 : ℚ) := by norm_num at hu ⊢; exact hu
      simp [hu, hu', toState, mkSupState]; tauto
    · have hu' : ¬ equidistant w.2.2.2.1 < (19 / 20 : ℚ) := by norm_num at hu ⊢; exact hu
      simp [hu, hu', toState, mkSupState]; tauto

theorem object_chance {css : List (List (Nat × String))} (hw : m.WF css) (hF : Fine m D K N) (a obj b : Nat) (ha : 4 ≤ a)
    (hob : m.objFromAction a = .ok obj) (hbb : b = if m.isBring a then 1 else 0) (hobj : obj < m.objects.length) (s1 s' o : Nat) (r : ℚ) :
    chance (fun w : Fin D × Fin K × (Fin N → Fin D) × Fin D × Fin D => stepFrom m (restDraws w) a s1 = .ok (s', o, r)) =
      objectChance m obj b s1 s' o r := by
  haveI := hF.neD
  haveI := hF.neK
  have hb2 : b < 2 := by rw [hbb]; split <;> omega
  have hst : ∀ d, stepFrom m d a s1 = .ok (s', o, r) ↔ r = -m.par.costIntrinsic ∧
      if bit s1 obj = b then s' = s1 ∧ o = 2 else if d.fail < m.par.pFail then s' = s1 ∧ o = 1
        else s' = ((m.toState s1).setBit obj b).s ∧ o = 0 := by
    intro d
    unfold stepFrom branch objectStep
    rw [if_neg (by omega), if_neg (by omega), hob, ← hbb]
    have hg : (m.toState s1).getBit obj = bit s1 obj := rfl
    have ht : (m.toState s1).s = s1 := rfl
    simp only [bind, Except.bind, pure, Except.pure, hg]
    by_cases h1 : bit s1 obj = b
    · simp only [h1, if_true, oNOT_FOUND, Except.ok.injEq, Prod.mk.injEq, ht]; tauto
    · simp only [h1, if_false, Bool.true_and, decide_eq_true_eq]
      by_cases h2 : d.fail < m.par.pFail
      · simp only [h2, if_true, oFAIL, Except.ok.injEq, Prod.mk.injEq, ht]; tauto
      · simp only [h2, if_false, oNONE, Except.ok.injEq, Prod.mk.injEq]; tauto
  rw [chance_congr fun w => hst (restDraws w), one_mul_chance]
  unfold objectChance
  congr 1
  by_cases h1 : bit s1 obj = b
  · simp only [h1, if_true]
    rw [chance_const]
  · simp only [h1, if_false]
    have e0 : (s' = ((m.toState s1).setBit obj b).s ∧ o = 0) ↔ (htmOf m s' = htmOf m s1 ∧
        (∀ i < m.objects.length + 1 + m.par.nPreferences, bit s' i = if i = obj then b else bit s1 i) ∧ o = 0) := by
      have hh : htmOf m ((m.toState s1).setBit obj b).s = htmOf m s1 := htm_setBit (m.toState s1) obj b hb2 (by
        show obj < m.objects.length + 1 + m.par.nPreferences
        omega)
      have hbits : ∀ i, bit ((m.toState s1).setBit obj b).s i = if i = obj then b else bit s1 i := fun i => getBit_setBit (m.toState s1) obj b i hb2
      rw [state_eq_iff m, hh]
      simp only [hbits, and_assoc]
    simp only [e0]
    have e1 := chance_snd (A := Fin D) (fun v : Fin K × (Fin N → Fin D) × Fin D × Fin D => if equidistant v.2.2.2 < m.par.pFail then
      s' = s1 ∧ o = 1 else htmOf m s' = htmOf m s1 ∧
        (∀ i < m.objects.length + 1 + m.par.nPreferences, bit s' i = if i = obj then b else bit s1 i) ∧ o = 0)
    have e2 := chance_snd (A := Fin K) (fun v : (Fin N → Fin D) × Fin D × Fin D => if equidistant v.2.2 < m.par.pFail then
      s' = s1 ∧ o = 1 else htmOf m s' = htmOf m s1 ∧
        (∀ i < m.objects.length + 1 + m.par.nPreferences, bit s' i = if i = obj then b else bit s1 i) ∧ o = 0)
    have e3 := chance_snd (A := Fin N → Fin D) (fun v : Fin D × Fin D => if equidistant v.2 < m.par.pFail then
      s' = s1 ∧ o = 1 else htmOf m s' = htmOf m s1 ∧
        (∀ i < m.objects.length + 1 + m.par.nPreferences, bit s' i = if i = obj then b else bit s1 i) ∧ o = 0)
    have e4 := chance_snd (A := Fin D) (fun v : Fin D => if equidistant v < m.par.pFail then
      s' = s1 ∧ o = 1 else htmOf m s' = htmOf m s1 ∧
        (∀ i < m.objects.length + 1 + m.par.nPreferences, bit s' i = if i = obj then b else bit s1 i) ∧ o = 0)
    refine e1.trans (e2.trans (e3.trans (e4.trans ?_)))
    rw [chance_if, chance_lt hF.posD hF.fail.1 hF.fail.2]

/-! ### Completing a leaf -/

theorem chance_among {Ω : Type} [Fintype Ω] (P : Nat → Ω → Prop) (hd : ∀ i j ω, P i ω → P j ω → i = j) (R : Finset Nat) :
    chance (fun ω => ∃ r ∈ R, P r ω) = ∑ r ∈ R, chance (P r) := by
  induction R using Finset.induction_on with
  | empty => simp [chance_false]
  | insert x R hx ih =>
      rw [Finset.sum_insert hx, ← ih, ← chance_or]
      · exact chance_congr fun ω => by simp
      · rintro ω h ⟨r, hr, h'⟩
        exact hx (hd x r ω h h' ▸ hr)

/-- The presence of an object after a condition. -/
def newBit (m : SupPomdp) (c : Nat) (u : ℚ) (b0 : Nat) : Nat :=
  if c = 0 then 0 else if c = 2 then (if u < m.par.pConsumeAll then 0 else 1) else if c = 1 then 1 else b0

theorem newBit_lt (c : Nat) (u : ℚ) (b0 : Nat) (h : b0 < 2) : newBit m c u b0 < 2 := by
  unfold newBit
  split
  · omega
  · split
    · split <;> omega
    · split <;> omega

theorem updateForCondition_bit (x : SupState) (c obj : Nat) (u : ℚ) (k : Nat) :
    (m.updateForCondition x c obj u).1.getBit k = (if k = obj then newBit m c u (x.getBit obj) else x.getBit k) := by
  unfold updateForCondition newBit
  simp only [cCONSUMES, cCONSUMES_SOME, cUSES]
  by_cases h0 : c = 0
  · simp only [h0, if_true]
    rw [getBit_setBit _ _ _ _ (by omega)]
  · by_cases h2 : c = 2
    · simp only [h2, if_true]
      rw [if_neg (by omega), getBit_setBit _ _ _ _ (by split <;> omega)]
      simp
    · by_cases h1 : c = 1
      · simp only [h1, if_true]
        rw [if_neg (by omega), if_neg (by omega), getBit_setBit _ _ _ _ (by omega)]
        simp
      · simp only [h0, h1, h2, if_false]
        split
        · next h => rw [h]
        · rfl

theorem updateForCondition_reward (x : SupState) (c obj : Nat) (u : ℚ) :
    (m.updateForCondition x c obj u).2 = -(m.par.costGet * if x.getBit obj = 0 then 1 else 0) := by
  have e : (m.updateForCondition x c obj u).2 = if x.getBit obj ≠ 0 then 0 else -m.par.costGet := by
    unfold updateForCondition costGetOf
    simp only
    split
    · rfl
    · split
      · rfl
      · split <;> rfl
  rw [e]
  by_cases h : x.getBit obj = 0 <;> simp [h]

/-- What the conditions do with the bits, and how many objects are missing when they are needed. -/
def condRun (m : SupPomdp) : (Nat → ℚ) → List (Nat × Nat) → (Nat → Nat) → (Nat → Nat) × Nat
  | _, [], b => (b, 0)
  | u, co :: l, b =>
      let r := condRun m (fun i => u (i + 1)) l (Function.update b co.2 (newBit m co.1 (u 0) (b co.2)))
      (r.1, r.2 + if b co.2 = 0 then 1 else 0)

theorem condRun_le : ∀ (l : List (Nat × Nat)) (u : Nat → ℚ) (b : Nat → Nat), (condRun m u l b).2 ≤ l.length := by
  intro l
  induction l with
  | nil => intro u b; exact le_rfl
  | cons co l ih =>
      intro u b
      have := ih (fun i => u (i + 1)) (Function.update b co.2 (newBit m co.1 (u 0) (b co.2)))
      show (condRun m _ l _).2 + _ ≤ l.length + 1
      split <;> omega

theorem updateForConditions_run (u : Nat → ℚ) : ∀ (l : List (Nat × Nat)) (n : Nat) (x : SupState),
    (∀ k, (m.updateForConditions u (l.zipIdx n) x).1.getBit k = (condRun m (fun i => u (i + n)) l x.getBit).1 k) ∧
    (m.updateForConditions u (l.zipIdx n) x).2 = -(m.par.costGet * (condRun m (fun i => u (i + n)) l x.getBit).2) := by
  intro l
  induction l with
  | nil => intro n x; exact ⟨fun _ => rfl, by simp [updateForConditions, condRun]⟩
  | cons co l ih =>
      intro n x
      obtain ⟨h1, h2⟩ := ih (n + 1) (m.updateForCondition x co.1 co.2 (u n)).1
      have hb : (m.updateForCondition x co.1 co.2 (u n)).1.getBit =
          Function.update x.getBit co.2 (newBit m co.1 (u (0 + n)) (x.getBit co.2)) := by
        funext k
        rw [updateForCondition_bit, Function.update_apply, Nat.zero_add]
      have hu : (fun i => u (i + (n + 1))) = fun i => u (i + 1 + n) := by
        funext i
        congr 1
        omega
      rw [hb, hu] at h1 h2
      refine ⟨h1, ?_⟩
      show (m.updateForCondition x co.1 co.2 (u n)).2 +
        (m.updateForConditions u (l.zipIdx (n + 1)) (m.updateForCondition x co.1 co.2 (u n)).1).2 = _
      rw [h2, updateForCondition_reward]
      show _ = -(m.par.costGet * (((condRun m (fun i => u (i + 1 + n)) l _).2 + if x.getBit co.2 = 0 then 1 else 0 : Nat) : ℚ))
      push_cast
      split <;> ring

theorem condition_chance (hF : Fine m D K N) (c b b0 : Nat) (hb : b < 2) :
    chance (fun u : Fin D => newBit m c (equidistant u) b0 = b) = conditionChance m c b b0 := by
  haveI := hF.neD
  unfold newBit conditionChance
  by_cases h0 : c = 0
  · simp only [h0, if_true]
    rw [chance_const]
    unfold one
    simp only [eq_comm]
  · by_cases h2 : c = 2
    · simp only [h2, if_true]
      simp only [show ¬ (2 = 0) by omega, show ¬ (2 = 1) by omega, if_false]
      by_cases hb0 : b = 0
      · rw [if_pos hb0]
        refine (chance_congr fun u => ?_).trans (chance_lt hF.posD hF.consume.1 hF.consume.2)
        subst hb0
        by_cases hu : equidistant u < m.par.pConsumeAll <;> simp [hu]
      · rw [if_neg hb0]
        have : b = 1 := by omega
        refine (chance_congr fun u => ?_).trans (chance_nlt hF.posD hF.consume.1 hF.consume.2)
        subst this
        by_cases hu : equidistant u < m.par.pConsumeAll <;> simp [hu]
    · by_cases h1 : c = 1
      · simp only [h1, if_true]
        simp only [show ¬ (1 = 0) by omega, show ¬ (1 = 2) by omega, if_false]
        rw [chance_const]
        unfold one
        simp only [eq_comm]
      · simp only [h0, h1, h2, if_false]
        rw [chance_const]
        unfold one
        simp only [eq_comm]

theorem chance_equiv {A B : Type} (e : A ≃ B) (P : B → Prop) : chance (fun a => P (e a)) = chance P := by
  unfold chance
  rw [Nat.card_congr e, Nat.card_congr (e.subtypeEquiv (q := P) fun a => Iff.rfl)]

theorem condRun_congr : ∀ (l : List (Nat × Nat)) (u u' : Nat → ℚ) (b b' : Nat → Nat) (n : Nat), (∀ co ∈ l, co.2 < n) → (∀ i < l.length, u i = u' i) →
    (∀ i < n, b i = b' i) →
    (∀ i < n, (condRun m u l b).1 i = (condRun m u' l b').1 i) ∧ (condRun m u l b).2 = (condRun m u' l b').2 := by
  intro l
  induction l with
  | nil => intro u u' b b' n _ _ h; exact ⟨h, rfl⟩
  | cons co l ih =>
      intro u u' b b' n hl hu h
      have hco := hl co List.mem_cons_self
      obtain ⟨h1, h2⟩ := ih (fun i => u (i + 1)) (fun i => u' (i + 1)) (Function.update b co.2 (newBit m co.1 (u 0) (b co.2)))
        (Function.update b' co.2 (newBit m co.1 (u' 0) (b' co.2))) n (fun c hc => hl c (List.mem_cons_of_mem _ hc))
        (fun i hi => hu (i + 1) (by simpa using hi)) (by
          intro i hi
          rw [Function.update_apply, Function.update_apply, h _ hco, hu 0 (by simp), h i hi])
      refine ⟨h1, ?_⟩
      show (condRun m _ l _).2 + (if b co.2 = 0 then 1 else 0) = (condRun m _ l _).2 + if b' co.2 = 0 then 1 else 0
      rw [h2, h _ hco]

theorem conditions_chance (hF : Fine m D K N) (s' : Nat) : ∀ (l : List (Nat × Nat)) (M : Nat), l.length ≤ M → ∀ (b : Nat → Nat),
    (∀ i, b i < 2) → ∀ k : Nat,
    chance (fun v : Fin M → Fin D => (condRun m (numberAt v) l b).2 = k ∧
      ∀ i < m.objects.length + 1 + m.par.nPreferences, bit s' i = (condRun m (numberAt v) l b).1 i) = conditionsChance m s' l b k := by
  haveI := hF.neD
  intro l
  induction l with
  | nil =>
      intro M _ b _ k
      unfold conditionsChance
      rw [← chance_const (Ω := Fin M → Fin D)]
      exact chance_congr fun v => and_congr_left fun _ => eq_comm
  | cons co l ih =>
      intro M hM b hb k
      cases M with
      | zero => simp at hM
      | succ M =>
          have hM' : l.length ≤ M := by simpa using hM
          rw [← chance_equiv (Fin.consEquiv fun _ : Fin (M + 1) => Fin D)]
          have hnum : ∀ w : Fin D × (Fin M → Fin D), (numberAt (Fin.consEquiv (fun _ : Fin (M + 1) => Fin D) w) 0 = equidistant w.1) ∧
              (fun i => numberAt (Fin.consEquiv (fun _ : Fin (M + 1) => Fin D) w) (i + 1)) = numberAt w.2 := by
            intro w
            refine ⟨?_, ?_⟩
            · unfold numberAt
              rw [dif_pos (Nat.succ_pos M)]
              rfl
            · funext i
              unfold numberAt
              by_cases hi : i < M
              · rw [dif_pos hi, dif_pos (by omega)]
                rfl
              · rw [dif_neg hi, dif_neg (by omega)]
          have hrun : ∀ w : Fin D × (Fin M → Fin D), condRun m (numberAt (Fin.consEquiv (fun _ : Fin (M + 1) => Fin D) w)) (co :: l) b =
              ((condRun m (numberAt w.2) l (Function.update b co.2 (newBit m co.1 (equidistant w.1) (b co.2)))).1,
                (condRun m (numberAt w.2) l (Function.update b co.2 (newBit m co.1 (equidistant w.1) (b co.2)))).2 +
                  if b co.2 = 0 then 1 else 0) := by
            intro w
            rw [condRun, (hnum w).1, (hnum w).2]
          rw [conditionsChance]
          refine (chance_congr (Q := fun w : Fin D × (Fin M → Fin D) => (fun (j : Nat) (v : Fin M → Fin D) =>
            ((condRun m (numberAt v) l (Function.update b co.2 j)).2 + if b co.2 = 0 then 1 else 0) = k ∧
              ∀ i < m.objects.length + 1 + m.par.nPreferences, bit s' i = (condRun m (numberAt v) l (Function.update b co.2 j)).1 i)
            (newBit m co.1 (equidistant w.1) (b co.2)) w.2) (fun w => by rw [hrun w])).trans ?_
          rw [chance_total (A := Fin D) (B := Fin M → Fin D) (fun x : Fin D => newBit m co.1 (equidistant x) (b co.2)) 2
            (fun x => newBit_lt _ _ _ (hb _)) (fun (j : Nat) (v : Fin M → Fin D) =>
            ((condRun m (numberAt v) l (Function.update b co.2 j)).2 + if b co.2 = 0 then 1 else 0) = k ∧
              ∀ i < m.objects.length + 1 + m.par.nPreferences, bit s' i = (condRun m (numberAt v) l (Function.update b co.2 j)).1 i)]
          by_cases h0 : b co.2 = 0 ∧ k = 0
          · rw [if_pos h0]
            refine Finset.sum_eq_zero fun j _ => ?_
            rw [chance_false (P := fun v : Fin M → Fin D => _) (fun v hv => by
              have := hv.1
              rw [if_pos h0.1, h0.2] at this
              omega), mul_zero]
          · rw [if_neg h0]
            have hj : ∀ j < 2, chance (fun v : Fin M → Fin D =>
                ((condRun m (numberAt v) l (Function.update b co.2 j)).2 + if b co.2 = 0 then 1 else 0) = k ∧
                ∀ i < m.objects.length + 1 + m.par.nPreferences, bit s' i = (condRun m (numberAt v) l (Function.update b co.2 j)).1 i) =
                conditionsChance m s' l (Function.update b co.2 j) (if b co.2 = 0 then k - 1 else k) := by
              intro j hj
              rw [← ih M hM' (Function.update b co.2 j) (by
                intro i
                rw [Function.update_apply]
                split
                · exact hj
                · exact hb i)]
              refine chance_congr fun v => and_congr_left fun _ => ?_
              by_cases hz : b co.2 = 0
              · have : k ≠ 0 := fun hk => h0 ⟨hz, hk⟩
                rw [if_pos hz, if_pos hz]
                omega
              · rw [if_neg hz, if_neg hz]
                omega
            rw [Finset.sum_range_succ, Finset.sum_range_succ, Finset.sum_range_zero, zero_add, hj 0 (by omega), hj 1 (by omega),
              condition_chance hF _ _ _ (by omega), condition_chance hF _ _ _ (by omega)]

/-- Completing a leaf. -/
theorem complete_chance {css : List (List (Nat × String))} (hw : m.WF css) (hF : Fine m D K N) (s1 s' : Nat)
    (hh : htmOf m s1 < m.nodes.length) (r : ℚ) (f : ℚ → ℚ) (o o' : Nat) :
    chance (fun w : Fin K × (Fin N → Fin D) × Fin D × Fin D => ∀ hold : ℚ,
      (m.updateForTransition
        { objects := fun _ => 0, prefs := fun _ => 0, hold := hold, succ := w.1, consume := numberAt w.2.1, ask := equidistant w.2.2.1,
          fail := equidistant w.2.2.2 } (m.toState s1) (htmOf m s1)).map (fun t => (t.1.s, o', f t.2)) = .ok (s', o, r)) =
      ∑ k ∈ Finset.range ((leafConditions m s1).length + 1), one (o = o' ∧ r = f (-(m.par.costGet * k))) * completeChance m s1 s' k := by
  haveI := hF.neD
  haveI := hF.neK
  obtain ⟨ss, hss⟩ : ∃ ss, m.succs[htmOf m s1]? = some ss := ⟨_, List.getElem?_eq_getElem (by rw [hw.succs_len]; exact hh)⟩
  obtain ⟨l, hl⟩ : ∃ l, m.conditions[htmOf m s1]? = some l := ⟨_, List.getElem?_eq_getElem (by rw [hw.conditions_len]; exact hh)⟩
  have hcond := hw.condObj _ l hl
  have hN := hF.conditions l (List.mem_of_getElem? hl)
  have hne := (hw.succs_ok _ _ hss).1
  have hK := hF.succs ss (List.mem_of_getElem? hss)
  have el : leafConditions m s1 = l := by simp [leafConditions, List.getD_eq_getElem?_getD, hl]
  have es : m.succs.getD (htmOf m s1) [] = ss := by simp [List.getD_eq_getElem?_getD, hss]
  -- the event
  have hev : ∀ (c : Nat) (u : Nat → ℚ) (d : Draws), d.succ = c → d.consume = u →
      ((m.updateForTransition d (m.toState s1) (htmOf m s1)).map (fun t => (t.1.s, o', f t.2)) = .ok (s', o, r) ↔
      choose ss c = .ok (htmOf m s') ∧ (o = o' ∧ r = f (-(m.par.costGet * (condRun m u l (bit s1)).2))) ∧
      ∀ i < m.objects.length + 1 + m.par.nPreferences, bit s' i = (condRun m u l (bit s1)).1 i) := by
    intro c u d hd1 hd2
    obtain ⟨h, _, hc⟩ := choose_mem ss c hne
    have e : m.updateForTransition d (m.toState s1) (htmOf m s1) = .ok (m.updateForConditions u l.zipIdx ((m.toState s1).setHtm h)) := by
      simp [updateForTransition, hss, hl, hd1, hc, hd2, bind, Except.bind, pure, Except.pure]
    obtain ⟨b1, b3⟩ := updateForConditions_run (m := m) u l 0 ((m.toState s1).setHtm h)
    obtain ⟨g1, g2, g3⟩ := updateForConditions_spec m u l.zipIdx ((m.toState s1).setHtm h) (by
      intro co hco
      exact hcond co.1 (List.fst_mem_of_mem_zipIdx hco)) (by
        show m.objects.length ≤ m.objects.length + 1 + m.par.nPreferences
        omega)
    rw [htm_setHtm] at g2
    have hbit : ∀ k < m.objects.length + 1 + m.par.nPreferences, ((m.toState s1).setHtm h).getBit k = bit s1 k := fun k hk =>
      getBit_setHtm (m.toState s1) h k hk
    obtain ⟨c1, c2⟩ := condRun_congr (m := m) l (fun i => u (i + 0)) u ((m.toState s1).setHtm h).getBit (bit s1)
      (m.objects.length + 1 + m.par.nPreferences) (fun co hco => by have := hcond co hco; omega) (fun _ _ => rfl) hbit
    rw [c2] at b3
    rw [e]
    simp only [Except.map, Except.ok.injEq, Prod.mk.injEq]
    rw [b3, hc, Except.ok.injEq, state_eq_iff m]
    have hY : htmOf m (m.updateForConditions u l.zipIdx ((m.toState s1).setHtm h)).1.s = h := by
      have e2 : SameShape (m.toState 0) (m.updateForConditions u l.zipIdx ((m.toState s1).setHtm h)).1 :=
        SameShape.trans ⟨rfl, rfl, rfl, rfl⟩ g1
      have := toState_of_sameShape e2
      show (m.toState _).htm = h
      rw [this, g2]
    rw [hY]
    have hgb : ∀ k < m.objects.length + 1 + m.par.nPreferences,
        bit (m.updateForConditions u l.zipIdx ((m.toState s1).setHtm h)).1.s k = (condRun m u l (bit s1)).1 k := fun k hk =>
      (b1 k).trans (c1 k hk)
    constructor
    · rintro ⟨⟨e1, e2⟩, e3, e4⟩
      exact ⟨e1, ⟨e3.symm, e4.symm⟩, fun i hi => by rw [← e2 i hi, hgb i hi]⟩
    · rintro ⟨e1, ⟨e3, e4⟩, e5⟩
      exact ⟨⟨e1, fun i hi => by rw [hgb i hi, e5 i hi]⟩, e3.symm, e4.symm⟩
  have e1 : ∀ w : Fin K × (Fin N → Fin D) × Fin D × Fin D, (∀ hold : ℚ,
      (m.updateForTransition
        { objects := fun _ => 0, prefs := fun _ => 0, hold := hold, succ := w.1, consume := numberAt w.2.1, ask := equidistant w.2.2.1,
          fail := equidistant w.2.2.2 } (m.toState s1) (htmOf m s1)).map (fun t => (t.1.s, o', f t.2)) = .ok (s', o, r)) ↔
      choose ss w.1 = .ok (htmOf m s') ∧ (o = o' ∧ r = f (-(m.par.costGet * (condRun m (numberAt w.2.1) l (bit s1)).2))) ∧
      ∀ i < m.objects.length + 1 + m.par.nPreferences, bit s' i = (condRun m (numberAt w.2.1) l (bit s1)).1 i := by
    intro w
    constructor
    · intro h
      exact (hev w.1 (numberAt w.2.1) _ rfl rfl).1 (h 0)
    · intro h hold
      exact (hev w.1 (numberAt w.2.1) _ rfl rfl).2 h
  rw [chance_congr e1]
  have e2 := chance_and (A := Fin K) (B := (Fin N → Fin D) × Fin D × Fin D) (fun c => choose ss c = .ok (htmOf m s'))
    (fun v => (o = o' ∧ r = f (-(m.par.costGet * (condRun m (numberAt v.1) l (bit s1)).2))) ∧
      ∀ i < m.objects.length + 1 + m.par.nPreferences, bit s' i = (condRun m (numberAt v.1) l (bit s1)).1 i)
  refine e2.trans ?_
  rw [chance_choose ss hne hF.posK hK]
  have e3 := chance_fst (A := Fin N → Fin D) (B := Fin D × Fin D)
    (fun v => (o = o' ∧ r = f (-(m.par.costGet * (condRun m (numberAt v) l (bit s1)).2))) ∧
      ∀ i < m.objects.length + 1 + m.par.nPreferences, bit s' i = (condRun m (numberAt v) l (bit s1)).1 i)
  rw [e3, el]
  have e4 : chance (fun v : Fin N → Fin D => (o = o' ∧ r = f (-(m.par.costGet * (condRun m (numberAt v) l (bit s1)).2))) ∧
      ∀ i < m.objects.length + 1 + m.par.nPreferences, bit s' i = (condRun m (numberAt v) l (bit s1)).1 i) =
      ∑ k ∈ Finset.range (l.length + 1), chance (fun v : Fin N → Fin D => (o = o' ∧ r = f (-(m.par.costGet * k))) ∧
        ((condRun m (numberAt v) l (bit s1)).2 = k ∧
          ∀ i < m.objects.length + 1 + m.par.nPreferences, bit s' i = (condRun m (numberAt v) l (bit s1)).1 i)) := by
    rw [← chance_among (fun (k : Nat) (v : Fin N → Fin D) => (o = o' ∧ r = f (-(m.par.costGet * k))) ∧
        ((condRun m (numberAt v) l (bit s1)).2 = k ∧
          ∀ i < m.objects.length + 1 + m.par.nPreferences, bit s' i = (condRun m (numberAt v) l (bit s1)).1 i))
      (fun i j v h h' => h.2.1.symm.trans h'.2.1)]
    refine chance_congr fun v => ?_
    constructor
    · rintro ⟨q1, q2⟩
      exact ⟨_, Finset.mem_range.2 (Nat.lt_succ_of_le (condRun_le l (numberAt v) (bit s1))), q1, rfl, q2⟩
    · rintro ⟨k, _, q1, q2, q3⟩
      rw [← q2] at q1
      exact ⟨q1, q3⟩
  rw [e4, Finset.mul_sum]
  refine Finset.sum_congr rfl fun k _ => ?_
  rw [one_mul_chance, conditions_chance hF s' l N hN (bit s1) (fun i => bit_lt _ _)]
  unfold completeChance
  simp only [el, es]
  ring

theorem conditionsChance_once (s' : Nat) : ∀ (l : List (Nat × Nat)) (b : Nat → Nat) (k : Nat), (l.map Prod.snd).Nodup →
    (∀ co ∈ l, co.2 < m.objects.length + 1 + m.par.nPreferences) →
    conditionsChance m s' l b k = one (k = l.countP fun co => b co.2 = 0) *
      (one (∀ i < m.objects.length + 1 + m.par.nPreferences, i ∉ l.map Prod.snd → bit s' i = b i) *
        (l.map fun co => conditionChance m co.1 (bit s' co.2) (b co.2)).prod) := by
  intro l
  induction l with
  | nil =>
      intro b k _ _
      unfold conditionsChance one
      by_cases h : k = 0
      · simp [h]
      · simp [h]
  | cons co l ih =>
      intro b k hn hlt
      rw [List.map_cons, List.nodup_cons] at hn
      have hne : ∀ c ∈ l, c.2 ≠ co.2 := fun c hc he => hn.1 (he ▸ List.mem_map_of_mem (f := Prod.snd) hc)
      have hcount : ∀ j, (l.countP fun c => decide (Function.update b co.2 j c.2 = 0)) = l.countP fun c => decide (b c.2 = 0) := by
        intro j
        apply List.countP_congr
        intro c hc
        rw [Function.update_of_ne (hne c hc)]
      have hprod : ∀ j, (l.map fun c => conditionChance m c.1 (bit s' c.2) (Function.update b co.2 j c.2)) =
          l.map fun c => conditionChance m c.1 (bit s' c.2) (b c.2) := by
        intro j
        apply List.map_congr_left
        intro c hc
        rw [Function.update_of_ne (hne c hc)]
      have hone : ∀ j, one (∀ i < m.objects.length + 1 + m.par.nPreferences, i ∉ l.map Prod.snd → bit s' i = Function.update b co.2 j i) =
          one (bit s' co.2 = j) *
            one (∀ i < m.objects.length + 1 + m.par.nPreferences, i ∉ (co :: l).map Prod.snd → bit s' i = b i) := by
        intro j
        have : (∀ i < m.objects.length + 1 + m.par.nPreferences, i ∉ l.map Prod.snd → bit s' i = Function.update b co.2 j i) ↔
            bit s' co.2 = j ∧ ∀ i < m.objects.length + 1 + m.par.nPreferences, i ∉ (co :: l).map Prod.snd → bit s' i = b i := by
          constructor
          · intro h
            refine ⟨by rw [h co.2 (hlt co List.mem_cons_self) hn.1, Function.update_self], fun i hi hi' => ?_⟩
            rw [List.map_cons, List.mem_cons, not_or] at hi'
            rw [h i hi hi'.2, Function.update_of_ne hi'.1]
          · rintro ⟨h1, h2⟩ i hi hi'
            by_cases hc : i = co.2
            · rw [hc, Function.update_self, h1]
            · rw [Function.update_of_ne hc]
              exact h2 i hi (by rw [List.map_cons, List.mem_cons, not_or]; exact ⟨hc, hi'⟩)
        unfold one
        by_cases h1 : bit s' co.2 = j
        · by_cases h2 : ∀ i < m.objects.length + 1 + m.par.nPreferences, i ∉ (co :: l).map Prod.snd → bit s' i = b i
          · rw [if_pos (this.2 ⟨h1, h2⟩), if_pos h1, if_pos h2, mul_one]
          · rw [if_neg (fun h => h2 (this.1 h).2), if_neg h2, mul_zero]
        · rw [if_neg (fun h => h1 (this.1 h).1), if_neg h1, zero_mul]
      rw [conditionsChance, ih _ _ hn.2 (fun c hc => hlt c (List.mem_cons_of_mem _ hc)), ih _ _ hn.2 (fun c hc => hlt c (List.mem_cons_of_mem _ hc)),
        hcount, hcount, hprod, hprod, hone, hone, List.countP_cons, List.map_cons (f := fun co : Nat × Nat => conditionChance m co.1 (bit s' co.2) (b co.2)),
        List.prod_cons]
      have hk : ∀ z : ℚ, (if b co.2 = 0 ∧ k = 0 then 0 else
          one ((if b co.2 = 0 then k - 1 else k) = l.countP fun c => decide (b c.2 = 0)) * z) =
          one (k = (l.countP fun c => decide (b c.2 = 0)) + if decide (b co.2 = 0) = true then 1 else 0) * z := by
        intro z
        unfold one
        by_cases h0 : b co.2 = 0
        · by_cases hk0 : k = 0
          · rw [if_pos ⟨h0, hk0⟩, if_neg (by simp [h0]; omega), zero_mul]
          · rw [if_neg (by tauto), if_pos h0]
            have : (k - 1 = l.countP fun c => decide (b c.2 = 0)) ↔
                k = (l.countP fun c => decide (b c.2 = 0)) + if decide (b co.2 = 0) = true then 1 else 0 := by
              simp only [h0, decide_true, if_true]
              omega
            simp only [this]
        · rw [if_neg (by tauto), if_neg h0]
          have : (k = l.countP fun c => decide (b c.2 = 0)) ↔
              k = (l.countP fun c => decide (b c.2 = 0)) + if decide (b co.2 = 0) = true then 1 else 0 := by
            simp [h0]
          simp only [← this]
      rw [← hk]
      split
      · rfl
      · rcases (show bit s' co.2 = 0 ∨ bit s' co.2 = 1 by have := bit_lt s' co.2; omega) with hb | hb
        · rw [hb]
          simp only [one, if_true, if_neg (show ¬ (0 = 1) by omega)]
          ring
        · rw [hb]
          simp only [one, if_true, if_neg (show ¬ (1 = 0) by omega)]
          ring

theorem foldl_present (c r : ℚ) (x : SupState) : ∀ (l : List Nat) (r : ℚ),
    l.foldl (fun r o => r - c * (x.getBit o : ℚ)) r = r - c * (l.countP fun i => x.getBit i = 1) := by
  intro l
  induction l with
  | nil => intro r; simp
  | cons i l ih =>
      intro r
      rw [List.foldl_cons, ih, List.countP_cons]
      have := x.getBit_lt i
      by_cases h : x.getBit i = 1
      · simp only [h, decide_true, if_true]
        push_cast
        ring
      · have h0 : x.getBit i = 0 := by omega
        simp [h0]

theorem wait_chance {css : List (List (Nat × String))} (hw : m.WF css) (hF : Fine m D K N) (a : Nat) (ha : a < 3) (s1 s' o : Nat)
    (hs1 : s1 < m.nStates) (r : ℚ) :
    chance (fun w : Fin D × Fin K × (Fin N → Fin D) × Fin D × Fin D => stepFrom m (restDraws w) a s1 = .ok (s', o, r)) = waitChance m a s1 s' o r := by
  haveI := hF.neD
  haveI := hF.neK
  have hhtm : (m.toState s1).htm = htmOf m s1 := rfl
  have hst : (m.toState s1).s = s1 := rfl
  have hfin : (m.toState s1).isFinal = true ↔ htmOf m s1 = m.nodes.length + 1 := by
    unfold SupState.isFinal
    rw [decide_eq_true_eq, hhtm]
    show htmOf m s1 + 1 = m.nodes.length + 2 ↔ _
    omega
  have hlt : htmOf m s1 < m.nodes.length + 2 := (lt_nStates m s1).1 hs1
  unfold waitChance
  by_cases h1 : htmOf m s1 = m.nodes.length + 1
  · rw [if_pos h1]
    rw [← chance_const (Ω := Fin D × Fin K × (Fin N → Fin D) × Fin D × Fin D)]
    refine chance_congr fun w => ?_
    unfold stepFrom branch waitStep
    rw [if_pos (by omega)]
    simp only [hfin.2 h1, if_true, bind, Except.bind, pure, Except.pure, Except.ok.injEq, Prod.mk.injEq, hst, oNONE]
    simp only [eq_comm]
  rw [if_neg h1]
  have hfin' : (m.toState s1).isFinal = false := by
    rw [Bool.eq_false_iff]
    exact fun h => h1 (hfin.1 h)
  by_cases h2 : htmOf m s1 = m.nodes.length
  · rw [if_pos h2]
    by_cases ha0 : a = 0
    · rw [if_pos ha0, ← chance_const (Ω := Fin D × Fin K × (Fin N → Fin D) × Fin D × Fin D)]
      refine chance_congr fun w => ?_
      unfold stepFrom branch waitStep
      rw [if_pos (by omega)]
      simp only [hfin', Bool.false_eq_true, if_false, ha0, if_true, htmClean, hhtm, h2, bind, Except.bind, pure, Except.pure, Except.ok.injEq, Prod.mk.injEq, oNONE,
        htmFinal, costGetOf]
      rw [foldl_present _ 0]
      have e1 : htmOf m ((m.toState s1).setHtm (m.nodes.length + 1)).s = m.nodes.length + 1 := htm_setHtm (m.toState s1) _
      have e2 : ∀ i < m.objects.length + 1 + m.par.nPreferences, bit ((m.toState s1).setHtm (m.nodes.length + 1)).s i = bit s1 i :=
        fun i hi => getBit_setHtm (m.toState s1) _ i hi
      rw [state_eq_iff m, e1]
      have e3 : (∀ i < m.objects.length + 1 + m.par.nPreferences, bit ((m.toState s1).setHtm (m.nodes.length + 1)).s i = bit s' i) ↔
          ∀ i < m.objects.length + 1 + m.par.nPreferences, bit s' i = bit s1 i := by
        constructor
        · intro h i hi; rw [← h i hi, e2 i hi]
        · intro h i hi; rw [h i hi, e2 i hi]
      rw [e3]
      have e4 : (0 - m.par.costGet * ((List.range m.objects.length).countP fun i => decide ((m.toState s1).getBit i = 1)) + m.par.rFinal = r) ↔
          r = m.par.rFinal - m.par.costGet * ((List.range m.objects.length).countP fun i => decide (bit s1 i = 1)) := by
        have : ((List.range m.objects.length).countP fun i => decide ((m.toState s1).getBit i = 1)) =
          (List.range m.objects.length).countP fun i => decide (bit s1 i = 1) := rfl
        rw [this]
        constructor
        · intro h; rw [← h]; ring
        · intro h; rw [h]; ring
      rw [e4]
      constructor
      · rintro ⟨⟨q1, q2⟩, q3, q4⟩; exact ⟨q1.symm, q2, q3.symm, q4⟩
      · rintro ⟨q1, q2, q3, q4⟩; exact ⟨⟨q1.symm, q2⟩, q3.symm, q4⟩
    · rw [if_neg ha0, ← chance_const (Ω := Fin D × Fin K × (Fin N → Fin D) × Fin D × Fin D)]
      refine chance_congr fun w => ?_
      unfold stepFrom branch waitStep
      rw [if_pos (by omega)]
      simp only [hfin', Bool.false_eq_true, if_false, ha0, htmClean, hhtm, h2, if_true, bind, Except.bind, pure, Except.pure, Except.ok.injEq, Prod.mk.injEq, oFAIL, hst]
      constructor
      · rintro ⟨q1, q2, q3⟩; exact ⟨q1.symm, q2.symm, q3.symm⟩
      · rintro ⟨q1, q2, q3⟩; exact ⟨q1.symm, q2.symm, q3.symm⟩
  rw [if_neg h2]
  have hn : htmOf m s1 < m.nodes.length := by omega
  obtain ⟨ac, i, p, b, at', hnode, hat⟩ := leaves_conditions css m.nodes hw.conds _ hn
  have hneed : m.needsHold (htmOf m s1) = .ok at'.1 := by simp [needsHold, hnode, hat]
  have hgood : ((decide ((m.toState s1).hasPref 0 ≠ 0) &&
      ((decide (at'.1 = some "h") && decide (a = 1)) || (decide (at'.1 = some "v") && decide (a = 2)))) = true) ↔ Welcome m a s1 := by
    unfold Welcome
    rw [hneed]
    have hp : (m.toState s1).hasPref 0 = bit s1 (m.objects.length + 1) := rfl
    have := bit_lt s1 (m.objects.length + 1)
    rw [hp]
    simp only [Bool.and_eq_true, Bool.or_eq_true, decide_eq_true_eq, Except.ok.injEq]
    constructor
    · rintro ⟨g1, g2⟩; exact ⟨by omega, g2⟩
    · rintro ⟨g1, g2⟩; exact ⟨by omega, g2⟩
  let f : ℚ → ℚ := fun t =>
    if m.par.rewardIndependentPreference && decide ((m.toState s1).hasPref 0 = 0) then
      ((if Welcome m a s1 then (if a = 0 then 0 else -m.par.costHold) + m.par.rPreference else (if a = 0 then 0 else -m.par.costHold)) + t + m.par.rSubtask) +
        (m.par.rPreference - m.par.costHold)
    else (if Welcome m a s1 then (if a = 0 then 0 else -m.par.costHold) + m.par.rPreference else (if a = 0 then 0 else -m.par.costHold)) + t + m.par.rSubtask
  have hf : ∀ k : Nat, f (-(m.par.costGet * k)) = completeReward m a s1 k := by
    intro k
    have hp : (m.toState s1).hasPref 0 = bit s1 (m.objects.length + 1) := rfl
    simp only [f, completeReward, hp, Bool.and_eq_true, decide_eq_true_eq]
    split <;> split <;> split <;> ring
  have hev : ∀ d : Draws, stepFrom m d a s1 = .ok (s', o, r) ↔
      if (¬ Welcome m a s1 ∧ ¬ a = 0) ∧ d.hold < 98 / 100 then s' = s1 ∧ o = 1 ∧ r = -m.par.costHold
      else (m.updateForTransition d (m.toState s1) (htmOf m s1)).map (fun t => (t.1.s, 0, f t.2)) = .ok (s', o, r) := by
    intro d
    unfold stepFrom branch waitStep taskStep
    rw [if_pos (by omega)]
    simp only [hfin', Bool.false_eq_true, if_false, htmClean, hhtm, h2, hneed, bind, Except.bind, pure, Except.pure, oNONE, oFAIL, hgood]
    have ha12 : (a = 1 ∨ a = 2) ↔ ¬ a = 0 := by omega
    by_cases hwel : Welcome m a s1
    · have hg := hgood.2 hwel
      simp only [hg, Bool.not_true, Bool.false_and, if_false, hwel, not_true, false_and, if_true, Bool.false_eq_true]
      cases m.updateForTransition d (m.toState s1) (htmOf m s1) with
      | error e => simp [Except.map]
      | ok t => simp only [Except.map, f, hwel, if_true]
    · have hg : (decide ((m.toState s1).hasPref 0 ≠ 0) &&
          ((decide (at'.1 = some "h") && decide (a = 1)) || (decide (at'.1 = some "v") && decide (a = 2)))) = false := by
        rw [Bool.eq_false_iff]
        exact fun h => hwel (hgood.1 h)
      simp only [hg, Bool.not_false, Bool.true_and, Bool.not_true, Bool.false_or, Bool.and_eq_true, decide_eq_true_eq, ha12, hwel, not_false_eq_true,
        true_and, if_false]
      by_cases hc : ¬ a = 0 ∧ d.hold < 98 / 100
      · simp only [hc, and_self, if_true, Except.ok.injEq, Prod.mk.injEq, hst, not_false_eq_true]
        simp only [hc.1, if_false]
        constructor
        · rintro ⟨q1, q2, q3⟩; exact ⟨q1.symm, q2.symm, q3.symm⟩
        · rintro ⟨q1, q2, q3⟩; exact ⟨q1.symm, q2.symm, q3.symm⟩
      · rw [if_neg hc, if_neg hc]
        cases m.updateForTransition d (m.toState s1) (htmOf m s1) with
        | error e => simp [Except.map]
        | ok t => simp only [Except.map, f, hwel, if_false, Bool.and_eq_true, decide_eq_true_eq]
  have hC := complete_chance hw hF s1 s' hn r f o 0
  simp only [hf] at hC
  rw [show (∑ k ∈ Finset.range ((leafConditions m s1).length + 1), one (o = 0 ∧ r = completeReward m a s1 k) * completeChance m s1 s' k) =
    finishChance m a s1 s' o r from rfl] at hC
  have hupd : ∀ (d d' : Draws) (x : SupState) (k : Nat), d.succ = d'.succ → d.consume = d'.consume →
      m.updateForTransition d x k = m.updateForTransition d' x k := by
    intro d d' x k q1 q2
    unfold updateForTransition
    rw [q1, q2]
  have hall : ∀ w : Fin D × Fin K × (Fin N → Fin D) × Fin D × Fin D,
      (m.updateForTransition (restDraws w) (m.toState s1) (htmOf m s1)).map (fun t => (t.1.s, 0, f t.2)) = .ok (s', o, r) ↔
      ∀ hold : ℚ, (m.updateForTransition
        { objects := fun _ => 0, prefs := fun _ => 0, hold := hold, succ := w.2.1, consume := numberAt w.2.2.1, ask := equidistant w.2.2.2.1,
          fail := equidistant w.2.2.2.2 } (m.toState s1) (htmOf m s1)).map (fun t => (t.1.s, 0, f t.2)) = .ok (s', o, r) := by
    intro w
    constructor
    · intro h hold
      refine Eq.trans (congrArg _ ?_) h
      exact hupd _ (restDraws w) _ _ rfl rfl
    · intro h
      refine Eq.trans (congrArg _ ?_) (h 0)
      exact hupd (restDraws w) _ _ _ rfl rfl
  by_cases hc : a = 0 ∨ Welcome m a s1
  · rw [if_pos hc, ← hC]
    refine (chance_congr fun w => ?_).trans (chance_snd (A := Fin D) _)
    rw [hev, if_neg (by tauto), hall]
  · rw [if_neg hc]
    have h98 : chance (fun u : Fin D => equidistant u < (98 / 100 : ℚ)) = 98 / 100 :=
      chance_lt hF.posD (by have := multiple_percent hF.hundred 98; norm_num at this ⊢; exact this) (by norm_num)
    have e := chance_if_prod (A := Fin D) (fun u : Fin D => equidistant u < (98 / 100 : ℚ)) (s' = s1 ∧ o = 1 ∧ r = -m.par.costHold)
      (fun w : Fin K × (Fin N → Fin D) × Fin D × Fin D => ∀ hold : ℚ, (m.updateForTransition
        { objects := fun _ => 0, prefs := fun _ => 0, hold := hold, succ := w.1, consume := numberAt w.2.1, ask := equidistant w.2.2.1,
          fail := equidistant w.2.2.2 } (m.toState s1) (htmOf m s1)).map (fun t => (t.1.s, 0, f t.2)) = .ok (s', o, r))
    rw [hC, h98] at e
    have e98 : (1 - 98 / 100 : ℚ) = 2 / 100 := by norm_num
    rw [e98] at e
    rw [← e]
    refine chance_congr fun w => ?_
    rw [hev]
    have hcc : ((¬ Welcome m a s1 ∧ ¬ a = 0) ∧ (restDraws w).hold < 98 / 100) ↔ equidistant w.1 < (98 / 100 : ℚ) := by
      constructor
      · exact fun h => h.2
      · exact fun h => ⟨by tauto, h⟩
    simp only [hcc]
    split
    · rfl
    · rw [hall]

/-! ### Start -/

theorem foldl_setPref (u : Nat → ℚ) : ∀ (l : List (ℚ × Nat)) (x : SupState), (l.map Prod.snd).Nodup →
    (∀ pi ∈ l, x.shiftPref + pi.2 < x.shiftHtm) →
    SameShape x (l.foldl (fun x pi => x.setPref pi.2 (if u pi.2 < pi.1 then 1 else 0)) x) ∧
    (l.foldl (fun x pi => x.setPref pi.2 (if u pi.2 < pi.1 then 1 else 0)) x).htm = x.htm ∧
    (∀ pi ∈ l, (l.foldl (fun x pi => x.setPref pi.2 (if u pi.2 < pi.1 then 1 else 0)) x).getBit (x.shiftPref + pi.2) = if u pi.2 < pi.1 then 1 else 0) ∧
    ∀ k, (∀ pi ∈ l, k ≠ x.shiftPref + pi.2) → (l.foldl (fun x pi => x.setPref pi.2 (if u pi.2 < pi.1 then 1 else 0)) x).getBit k = x.getBit k := by
  intro l
  induction l with
  | nil => intro x _ _; exact ⟨.refl _, rfl, by simp, fun _ _ => rfl⟩
  | cons pi l ih =>
      intro x hn hr
      rw [List.map_cons, List.nodup_cons] at hn
      have hb : (if u pi.2 < pi.1 then 1 else 0) < 2 := by split <;> omega
      have hne : ∀ q ∈ l, q.2 ≠ pi.2 := fun q hq he => hn.1 (he ▸ List.mem_map_of_mem (f := Prod.snd) hq)
      obtain ⟨h1, h2, h3, h4⟩ := ih (x.setPref pi.2 (if u pi.2 < pi.1 then 1 else 0)) hn.2 (fun q hq => hr q (List.mem_cons_of_mem _ hq))
      have e : ∀ k, (x.setPref pi.2 (if u pi.2 < pi.1 then 1 else 0)).getBit k = if k = x.shiftPref + pi.2 then (if u pi.2 < pi.1 then 1 else 0) else x.getBit k :=
        fun k => getBit_setBit x (x.shiftPref + pi.2) _ k hb
      rw [List.foldl_cons]
      refine ⟨SameShape.trans ⟨rfl, rfl, rfl, rfl⟩ h1, ?_, ?_, ?_⟩
      · rw [h2]; exact htm_setBit x (x.shiftPref + pi.2) _ hb (hr pi List.mem_cons_self)
      · intro q hq
        rcases List.mem_cons.1 hq with rfl | hq
        · rw [h4 _ (fun p hp => by
            have := hne p hp
            show x.shiftPref + q.2 ≠ x.shiftPref + p.2
            omega), e, if_pos rfl]
        · exact h3 q hq
      · intro k hk
        rw [h4 k (fun p hp => hk p (List.mem_cons_of_mem _ hp)), e, if_neg (hk pi List.mem_cons_self)]

theorem setBit_iff (b : Nat) (hb : b < 2) (p : Prop) [Decidable p] : (if p then 1 else 0) = b ↔ (p ↔ b = 1) := by
  by_cases hp : p
  · simp only [hp, if_true, true_iff]; omega
  · simp only [hp, if_false, false_iff]; omega

theorem sampleStart_iff (hpl : m.par.pPreferences.length ≤ m.par.nPreferences) (c : Nat) (u v : Nat → ℚ) (s : Nat)
    (hne : m.init ≠ []) (hu0 : ∀ i, 0 ≤ u i) :
    m.sampleStart c u v = .ok s ↔ bit s m.objects.length = 0 ∧ choose m.init c = .ok (htmOf m s) ∧
      (∀ i < m.par.nPreferences, u i < m.par.pPreferences.getD i 0 ↔ bit s (m.objects.length + 1 + i) = 1) ∧
      ∀ i < m.objects.length, v i < m.par.pChangedByHuman ↔ bit s i = 1 := by
  obtain ⟨h, _, hc⟩ := choose_mem m.init c hne
  have hx0 : ∀ k < m.objects.length + 1 + m.par.nPreferences, ((m.toState 0).setHtm h).getBit k = 0 := by
    intro k hk
    rw [getBit_setHtm (m.toState 0) h k hk]
    show 0 / 2 ^ k % 2 = 0
    simp
  obtain ⟨g1, g2, g3, g4⟩ := foldl_setPref u m.par.pPreferences.zipIdx ((m.toState 0).setHtm h) (by
      rw [List.zipIdx_map_snd]
      exact List.nodup_range') (by
      intro pi hpi
      have := List.snd_lt_of_mem_zipIdx hpi
      show m.objects.length + 1 + pi.2 < m.objects.length + 1 + m.par.nPreferences
      simp at this
      omega)
  generalize hy : m.par.pPreferences.zipIdx.foldl (fun x pi => x.setPref pi.2 (if u pi.2 < pi.1 then 1 else 0)) ((m.toState 0).setHtm h) = y at *
  have hyo : y.nObjects = m.objects.length := g1.1.symm
  obtain ⟨r1, r2, _⟩ := randomObjects_spec y (by
    rw [hyo, ← g1.2.2.1]
    show m.objects.length ≤ m.objects.length + 1 + m.par.nPreferences
    omega) v m.par.pChangedByHuman
  have e : m.sampleStart c u v = .ok (y.randomObjects v m.par.pChangedByHuman).s := by
    simp only [sampleStart, hc, bind, Except.bind, pure, Except.pure, hy]
  have hH : htmOf m (y.randomObjects v m.par.pChangedByHuman).s = h := by
    have e2 : SameShape (m.toState 0) (y.randomObjects v m.par.pChangedByHuman) := SameShape.trans ⟨rfl, rfl, rfl, rfl⟩ (g1.trans r1)
    show (m.toState _).htm = h
    rw [toState_of_sameShape e2, r2, g2, htm_setHtm]
  have hbit : ∀ k, bit (y.randomObjects v m.par.pChangedByHuman).s k =
      if k < m.objects.length ∧ v k < m.par.pChangedByHuman then 1 - y.getBit k else y.getBit k := by
    intro k
    rw [← hyo]
    exact randomObjects_bit y v _ k
  have hyb : ∀ k ≤ m.objects.length, y.getBit k = 0 := by
    intro k hk
    rw [g4 k (fun pi _ => by
      show k ≠ m.objects.length + 1 + pi.2
      omega), hx0 k (by omega)]
  have hyp : ∀ i < m.par.nPreferences, y.getBit (m.objects.length + 1 + i) = if u i < m.par.pPreferences.getD i 0 then 1 else 0 := by
    intro i hi
    by_cases hil : i < m.par.pPreferences.length
    · have hm : (m.par.pPreferences[i], i) ∈ m.par.pPreferences.zipIdx := by
        rw [List.mem_iff_getElem?]
        exact ⟨i, by simp [hil]⟩
      have := g3 _ hm
      have e3 : m.par.pPreferences.getD i 0 = m.par.pPreferences[i] := by simp [List.getD_eq_getElem?_getD, hil]
      rw [e3]
      exact this
    · have e3 : m.par.pPreferences.getD i 0 = 0 := by simp [List.getD_eq_getElem?_getD, List.getElem?_eq_none (by omega : m.par.pPreferences.length ≤ i)]
      rw [e3, if_neg (by have := hu0 i; linarith)]
      rw [g4 _ (fun pi hpi => by
        have := List.snd_lt_of_mem_zipIdx hpi
        simp at this
        show m.objects.length + 1 + i ≠ m.objects.length + 1 + pi.2
        omega), hx0 _ (by omega)]
  rw [e, hc, Except.ok.injEq, Except.ok.injEq, state_eq_iff m, hH]
  have c1 : ∀ i < m.objects.length, (bit (y.randomObjects v m.par.pChangedByHuman).s i = bit s i ↔ (v i < m.par.pChangedByHuman ↔ bit s i = 1)) := by
    intro i hi
    rw [hbit, hyb i (by omega), ← setBit_iff (bit s i) (bit_lt s i)]
    simp only [hi, true_and, Nat.sub_zero]
  have c2 : bit (y.randomObjects v m.par.pChangedByHuman).s m.objects.length = 0 := by
    rw [hbit, if_neg (by omega), hyb _ (Nat.le_refl _)]
  have c3 : ∀ i < m.par.nPreferences, (bit (y.randomObjects v m.par.pChangedByHuman).s (m.objects.length + 1 + i) = bit s (m.objects.length + 1 + i) ↔
      (u i < m.par.pPreferences.getD i 0 ↔ bit s (m.objects.length + 1 + i) = 1)) := by
    intro i hi
    rw [hbit, if_neg (by omega), hyp i hi, ← setBit_iff _ (bit_lt s _)]
  constructor
  · rintro ⟨h4, h5⟩
    exact ⟨by rw [← h5 _ (by omega), c2], h4, fun i hi => (c3 i hi).1 (h5 _ (by omega)), fun i hi => (c1 i hi).1 (h5 i (by omega))⟩
  · rintro ⟨h4, h5, h6, h7⟩
    refine ⟨h5, ?_⟩
    intro i hi
    rcases Nat.lt_trichotomy i m.objects.length with hh | hh | hh
    · exact (c1 i hh).2 (h7 i hh)
    · subst hh; rw [c2, h4]
    · obtain ⟨j, rfl⟩ := Nat.exists_eq_add_of_le (show m.objects.length + 1 ≤ i by omega)
      exact (c3 j (by omega)).2 (h6 j (by omega))

theorem numberAt_nonneg {n D : Nat} (u : Fin n → Fin D) (i : Nat) : 0 ≤ numberAt u i := by
  unfold numberAt equidistant
  split
  · positivity
  · exact le_refl _

theorem chance_bits {n D : Nat} (hD : 0 < D) (p : Nat → ℚ) (hp : ∀ i < n, Multiple D (p i) ∧ p i ≤ 1) (b : Nat → Nat) :
    chance (fun u : Fin n → Fin D => ∀ i < n, numberAt u i < p i ↔ b i = 1) = ∏ i : Fin n, if b i = 1 then p i else 1 - p i := by
  refine (chance_congr (Q := fun u : Fin n → Fin D => ∀ i, (fun (i : Fin n) (x : Fin D) => (equidistant x < p i ↔ b i = 1)) i (u i)) ?_).trans ?_
  · intro u
    constructor
    · intro h i
      have := h i i.2
      unfold numberAt at this
      rw [dif_pos i.2] at this
      exact this
    · intro h i hi
      unfold numberAt
      rw [dif_pos hi]
      exact h ⟨i, hi⟩
  · refine (chance_pi (fun (i : Fin n) (x : Fin D) => (equidistant x < p i ↔ b i = 1))).trans ?_
    apply Finset.prod_congr rfl
    intro i _
    split
    · next h => exact (chance_congr fun x => by simp [h]).trans (chance_lt hD (hp i i.2).1 (hp i i.2).2)
    · next h => exact (chance_congr fun x => by simp [h]).trans (chance_nlt hD (hp i i.2).1 (hp i i.2).2)

theorem start_chance {css : List (List (Nat × String))} (hw : m.WF css) (hpl : m.par.pPreferences.length ≤ m.par.nPreferences) (hD : 0 < D) (hK : 0 < K)
    (hi : m.init.length ∣ K) (hp : ∀ p ∈ m.par.pPreferences, Multiple D p ∧ p ≤ 1)
    (hc : Multiple D m.par.pChangedByHuman ∧ m.par.pChangedByHuman ≤ 1) (s : Nat) :
    chance (fun ω : StartNumbers m D K => m.sampleStart ω.1 (numberAt ω.2.1) (numberAt ω.2.2) = .ok s) = startChance m s := by
  rw [chance_congr fun ω : StartNumbers m D K => sampleStart_iff hpl ω.1 (numberAt ω.2.1) (numberAt ω.2.2) s hw.init_ne (numberAt_nonneg _), one_mul_chance]
  unfold startChance
  rw [mul_assoc, mul_assoc]
  congr 1
  have e1 := chance_and (A := Fin K) (B := (Fin m.par.nPreferences → Fin D) × (Fin m.objects.length → Fin D)) (fun c => choose m.init c = .ok (htmOf m s))
    (fun v => (∀ i < m.par.nPreferences, numberAt v.1 i < m.par.pPreferences.getD i 0 ↔ bit s (m.objects.length + 1 + i) = 1) ∧
      ∀ i < m.objects.length, numberAt v.2 i < m.par.pChangedByHuman ↔ bit s i = 1)
  refine e1.trans ?_
  rw [chance_choose m.init hw.init_ne hK hi]
  congr 1
  have e2 := chance_and (A := Fin m.par.nPreferences → Fin D) (B := Fin m.objects.length → Fin D)
    (fun v => ∀ i < m.par.nPreferences, numberAt v i < m.par.pPreferences.getD i 0 ↔ bit s (m.objects.length + 1 + i) = 1)
    (fun v => ∀ i < m.objects.length, numberAt v i < m.par.pChangedByHuman ↔ bit s i = 1)
  refine e2.trans ?_
  rw [chance_bits hD (fun i => m.par.pPreferences.getD i 0) (fun i _ => by
      by_cases hil : i < m.par.pPreferences.length
      · have e3 : m.par.pPreferences.getD i 0 = m.par.pPreferences[i] := by simp [List.getD_eq_getElem?_getD, hil]
        rw [e3]
        exact hp _ (List.getElem_mem hil)
      · have e3 : m.par.pPreferences.getD i 0 = 0 := by
          simp [List.getD_eq_getElem?_getD, List.getElem?_eq_none (by omega : m.par.pPreferences.length ≤ i)]
        rw [e3]
        exact ⟨⟨0, by simp⟩, by norm_num⟩) (fun i => bit s (m.objects.length + 1 + i)),
    chance_bits hD (fun _ => m.par.pChangedByHuman) (fun _ _ => hc) (bit s)]

end

end Verif
