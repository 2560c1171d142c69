import Verif.Proof.SupKernel
import Mathlib.Tactic.NormNum

/-! Property C92: the probabilities of the supportive simulator. -/

set_option linter.unusedSectionVars false
set_option linter.unusedSimpArgs false

namespace Verif
open Spec SupState SupPomdp

/-- **C92 (random changes).**  Before the action takes effect, each object is moved with probability `p_changed_by_human` and each
preference changes with probability `p_change_preference`, all independently, and nothing else changes. -/
theorem C92_changes {m : SupPomdp} {D K N : Nat} (hF : Fine m D K N) (s s1 : Nat) :
    chance (fun ω : Numbers m D K N => (m.perturb (drawsOf ω) s true).s = s1) = changeChance m s s1 := by
  haveI := hF.neD
  haveI := hF.neK
  rw [← chance_change m hF s s1]
  exact chance_fst (A := (Fin m.objects.length → Fin D) × (Fin m.par.nPreferences → Fin D)) (B := Fin D × Fin K × (Fin N → Fin D) × Fin D × Fin D)
    (fun u => (m.perturb (flipDraws u) s true).s = s1)

/-- **C92 (random changes)**: these are all the possibilities. -/
theorem C92_changes_total {m : SupPomdp} {D K N : Nat} (hF : Fine m D K N) (s : Nat) (hs : s < m.nStates) :
    ∑ s1 ∈ Finset.range m.nStates, changeChance m s s1 = 1 := by
  haveI := hF.neD
  have h := chance_total (A := (Fin m.objects.length → Fin D) × (Fin m.par.nPreferences → Fin D)) (B := Unit)
    (fun u => (m.perturb (flipDraws u) s true).s) m.nStates (by
      intro u
      obtain ⟨_, h2, h3, _⟩ := perturb_spec m (flipDraws u) s true
      rw [lt_nStates, h3, h2]
      exact (lt_nStates m s).1 hs) (fun _ _ => True)
  rw [chance_true (fun _ => trivial)] at h
  rw [h]
  refine Finset.sum_congr rfl fun s1 _ => ?_
  rw [chance_change m hF, chance_true (fun _ => trivial), mul_one]

/-- **C92 (wait and hold).**  The outcome of wait, hold H and hold V has the probabilities of the random changes followed by
`waitChance`: a hold that is not welcome fails with probability 0.98, a completed leaf is followed by each of its successors with the same
probability, and its objects are consumed as its conditions say, one condition after the other, partly consumed ones with probability
`p_consume_all`. -/
theorem C92_wait {t : Htm SupAction} {m : SupPomdp} (h : Constructed t m) {D K N : Nat} (hF : Fine m D K N) (a s : Nat)
    (ha : a < 3) (hs : s < m.nStates) (s' o : Nat) (r : ℚ) :
    chance (fun ω : Numbers m D K N => m.sampleTransition (drawsOf ω) a s = .ok (s', o, r)) =
      ∑ s1 ∈ Finset.range m.nStates, changeChance m s s1 * waitChance m a s1 s' o r := by
  obtain ⟨css, hw⟩ := constructed_wf h
  rw [kernel_total h hF a s hs]
  refine Finset.sum_congr rfl fun s1 h1 => ?_
  rw [wait_chance hw hF a ha s1 s' o (Finset.mem_range.1 h1) r]

/-- **C92 (one condition for each object).**  If no leaf has two conditions on the same object, the objects of a leaf change independently,
and the human fetches those that are not there at the beginning. -/
theorem C92_once {t : Htm SupAction} {m : SupPomdp} (h : Constructed t m) (ho : OnceEach m) (a s1 s' o : Nat) (r : ℚ)
    (hs : htmOf m s1 < m.nodes.length) : finishChance m a s1 s' o r = onceChance m a s1 s' o r := by
  obtain ⟨css, hw⟩ := constructed_wf h
  obtain ⟨l, hl⟩ : ∃ l, m.conditions[htmOf m s1]? = some l := ⟨_, List.getElem?_eq_getElem (by rw [hw.conditions_len]; exact hs)⟩
  have hcond := hw.condObj _ l hl
  have hnd := ho l (List.mem_of_getElem? hl)
  have el : leafConditions m s1 = l := by simp [leafConditions, List.getD_eq_getElem?_getD, hl]
  unfold finishChance onceChance completeChance
  simp only [el]
  have e : ∀ k, conditionsChance m s' l (bit s1) k = _ := fun k =>
    conditionsChance_once s' l (bit s1) k hnd fun co hco => by have := hcond co hco; omega
  simp only [e]
  rw [Finset.sum_eq_single (l.countP fun co => bit s1 co.2 = 0)]
  · rw [show one ((l.countP fun co => decide (bit s1 co.2 = 0)) = l.countP fun co => decide (bit s1 co.2 = 0)) = 1 from if_pos rfl, one_mul]
  · intro k _ hk
    rw [show one (k = l.countP fun co => decide (bit s1 co.2 = 0)) = 0 from if_neg hk, zero_mul, mul_zero, mul_zero]
  · intro hc
    exact absurd (Finset.mem_range.2 (Nat.lt_succ_of_le List.countP_le_length)) hc

/-- **C92 (ask).**  A human who wants help says so with probability 0.9, one who does not with probability 0.95, and otherwise there is no
answer; all this after the random changes. -/
theorem C92_ask {t : Htm SupAction} {m : SupPomdp} (h : Constructed t m) {D K N : Nat} (hF : Fine m D K N) (s : Nat) (hs : s < m.nStates)
    (s' o : Nat) (r : ℚ) :
    chance (fun ω : Numbers m D K N => m.sampleTransition (drawsOf ω) 3 s = .ok (s', o, r)) =
      ∑ s1 ∈ Finset.range m.nStates, changeChance m s s1 * askChance m s1 s' o r := by
  rw [kernel_total h hF 3 s hs]
  exact Finset.sum_congr rfl fun s1 _ => by rw [ask_chance hF]

/-- **C92 (bring).**  Bringing an object fails with probability `p_fail`, unless it is there already. -/
theorem C92_bring {t : Htm SupAction} {m : SupPomdp} (h : Constructed t m) {D K N : Nat} (hF : Fine m D K N) (obj a : Nat)
    (ha : m.bring obj = .ok a) (s : Nat) (hs : s < m.nStates) (s' o : Nat) (r : ℚ) :
    chance (fun ω : Numbers m D K N => m.sampleTransition (drawsOf ω) a s = .ok (s', o, r)) =
      ∑ s1 ∈ Finset.range m.nStates, changeChance m s s1 * objectChance m obj 1 s1 s' o r := by
  obtain ⟨css, hw⟩ := constructed_wf h
  have hob := ((C27_inverse h a).1 obj).2 (Or.inl ha)
  have hb : m.aBring[obj]? = some a := by
    unfold SupPomdp.bring at ha
    split at ha
    · next x hx => cases ha; exact hx
    · cases ha
  have hmem : a ∈ m.aBring := List.mem_of_getElem? hb
  have h4 := ((mem_acts_iff hw a).1 (Or.inl hmem))
  obtain ⟨o', h1, h2, _⟩ := objFromAction_ok hw a h4.1 h4.2
  rw [hob, Except.ok.injEq] at h1
  subst h1
  rw [kernel_total h hF a s hs]
  refine Finset.sum_congr rfl fun s1 _ => ?_
  rw [object_chance hw hF a obj 1 h4.1 hob (by simp [isBring, hmem]) h2]

/-- **C92 (clear).**  Clearing an object fails with probability `p_fail`, unless it is not there. -/
theorem C92_clear {t : Htm SupAction} {m : SupPomdp} (h : Constructed t m) {D K N : Nat} (hF : Fine m D K N) (obj a : Nat)
    (ha : m.clear obj = .ok a) (s : Nat) (hs : s < m.nStates) (s' o : Nat) (r : ℚ) :
    chance (fun ω : Numbers m D K N => m.sampleTransition (drawsOf ω) a s = .ok (s', o, r)) =
      ∑ s1 ∈ Finset.range m.nStates, changeChance m s s1 * objectChance m obj 0 s1 s' o r := by
  obtain ⟨css, hw⟩ := constructed_wf h
  have hob := ((C27_inverse h a).1 obj).2 (Or.inr ha)
  have hb : m.aClear[obj]? = some (some a) := by
    unfold SupPomdp.clear at ha
    split at ha
    · next x hx => cases ha; exact hx
    · cases ha
    · cases ha
  have hmem : some a ∈ m.aClear := List.mem_of_getElem? hb
  have hnb : a ∉ m.aBring := by
    obtain ⟨_, _, _, s4, _⟩ := objectActions_spec m.clearable 4
    rw [← hw.acts] at s4
    exact fun hh => (s4 a hh).2.2 hmem
  have h4 := ((mem_acts_iff hw a).1 (Or.inr hmem))
  obtain ⟨o', h1, h2, _⟩ := objFromAction_ok hw a h4.1 h4.2
  rw [hob, Except.ok.injEq] at h1
  subst h1
  rw [kernel_total h hF a s hs]
  refine Finset.sum_congr rfl fun s1 _ => ?_
  rw [object_chance hw hF a obj 0 h4.1 hob (by simp [isBring, hnb]) h2]

/-- **C92 (start).**  The initial leaf is drawn evenly, each preference holds with its probability, and each object is there with
probability `p_changed_by_human`, all independently. -/
theorem C92_start {t : Htm SupAction} {m : SupPomdp} (h : Constructed t m) (hpl : m.par.pPreferences.length ≤ m.par.nPreferences) {D K : Nat}
    (hD : 0 < D) (hK : 0 < K) (hi : m.init.length ∣ K) (hp : ∀ p ∈ m.par.pPreferences, Multiple D p ∧ p ≤ 1)
    (hc : Multiple D m.par.pChangedByHuman ∧ m.par.pChangedByHuman ≤ 1) (s : Nat) :
    chance (fun ω : StartNumbers m D K => m.sampleStart ω.1 (numberAt ω.2.1) (numberAt ω.2.2) = .ok s) = startChance m s := by
  obtain ⟨css, hw⟩ := constructed_wf h
  exact start_chance hw hpl hD hK hi hp hc s

/-! ### Non-vacuity -/

/-- The hypotheses hold for a task with three leaves, of which one partly consumes an object and two are alternatives, with the default
parameters; an unwelcome hold in the state without objects, for instance, fails without any other change with a probability of
0.98 * 0.99 ^ 4. -/
example : ∃ m, Constructed exSup m ∧ OnceEach m ∧ Fine m 100 2 2 ∧ m.init.length ∣ 2 ∧ 0 < m.nStates ∧ m.bring 0 = .ok 4 ∧ m.clear 0 = .ok 5 ∧
    changeChance m 0 0 * waitChance m 1 0 0 1 (-2) = 98 / 100 * (99 / 100) ^ 4 ∧
    completeChance m 0 33 1 = 1 / 2 * (1 / 2) ∧ startChance m 16 = 3 / 10 * (99 / 100) ^ 3 := by
  obtain ⟨h1, h2, h3, h4, h5⟩ := exSup_ok
  cases hm : mkSupPomdp {} (fun l => l) 3 exSup with
  | error e =>
      have : (mkSupPomdp {} (fun l => l) 3 exSup).toOption.isSome = true := by decide +kernel
      rw [hm] at this
      cases this
  | ok m =>
      have hpar : (mkSupPomdp {} (fun l => l) 3 exSup).toOption.any (fun m =>
        decide (m.par.pFail = 1 / 100 ∧ m.par.pConsumeAll = 1 / 2 ∧ m.par.pChangedByHuman = 1 / 100 ∧ m.par.pChangePreference = 1 / 100 ∧
          (∀ l ∈ m.succs, l.length ∣ 2) ∧ (∀ l ∈ m.conditions, l.length ≤ 2 ∧ (l.map Prod.snd).Nodup) ∧ m.init.length ∣ 2 ∧ 0 < m.nStates ∧
          m.bring 0 = .ok 4 ∧ m.clear 0 = .ok 5 ∧ changeChance m 0 0 * waitChance m 1 0 0 1 (-2) = 98 / 100 * (99 / 100) ^ 4 ∧
          completeChance m 0 33 1 = 1 / 2 * (1 / 2) ∧ startChance m 16 = 3 / 10 * (99 / 100) ^ 3)) = true := by decide +kernel
      rw [hm] at hpar
      simp only [Except.toOption, Option.any_some, decide_eq_true_eq] at hpar
      obtain ⟨p1, p2, p3, p4, p5, p6, p7, p8, p9, p10, p11, p12, p13⟩ := hpar
      refine ⟨m, ⟨h1, h2, {}, fun l => l, 3, fun _ _ => Iff.rfl, h5, hm⟩, fun l hl => (p6 l hl).2, ?_, p7, p8, p9, p10, p11, p12, p13⟩
      refine ⟨by omega, by omega, by omega, ?_, ?_, ?_, ?_, p5, fun l hl => (p6 l hl).1⟩
      · rw [p1]; exact ⟨⟨1, by norm_num⟩, by norm_num⟩
      · rw [p2]; exact ⟨⟨50, by norm_num⟩, by norm_num⟩
      · rw [p3]; exact ⟨⟨1, by norm_num⟩, by norm_num⟩
      · rw [p4]; exact ⟨⟨1, by norm_num⟩, by norm_num⟩

/-- A task in which one leaf uses up some screws and then all of them. -/
def twiceSup : Htm SupAction :=
  .comb .sequential [.leaf ⟨"gather", some (none, [(2, "screws"), (0, "screws")])⟩ none none false,
    .leaf ⟨"tool", some (none, [(1, "tool")])⟩ none none false] none none "root" false none

/-- Its first leaf, completed with screws there (state 1), leads to the second leaf without screws; with probability 1/2 each the human had
to fetch none, or one for the second condition. -/
example : ∃ m, Constructed twiceSup m ∧ ¬ OnceEach m ∧ Fine m 100 1 2 ∧ (∃ s' < m.nStates, htmOf m s' = 1 ∧ bit s' 0 = 0 ∧
    completeChance m 1 s' 0 = 1 / 2 ∧ completeChance m 1 s' 1 = 1 / 2 ∧
    finishChance m 0 1 s' 0 (completeReward m 0 1 0) = 1 / 2 ∧ finishChance m 0 1 s' 0 (completeReward m 0 1 1) = 1 / 2) := by
  have h1 : NonEmpty twiceSup := by simp [twiceSup, NonEmpty, NonEmptyL]
  have h2 : Built twiceSup := by
    simp only [twiceSup, Built, BuiltL]
    simp
  have h5 : nesting twiceSup ≤ 3 := by decide
  cases hm : mkSupPomdp {} (fun l => l) 3 twiceSup with
  | error e =>
      have : (mkSupPomdp {} (fun l => l) 3 twiceSup).toOption.isSome = true := by decide +kernel
      rw [hm] at this
      cases this
  | ok m =>
      have hpar : (mkSupPomdp {} (fun l => l) 3 twiceSup).toOption.any (fun m =>
        decide (m.par.pFail = 1 / 100 ∧ m.par.pConsumeAll = 1 / 2 ∧ m.par.pChangedByHuman = 1 / 100 ∧ m.par.pChangePreference = 1 / 100 ∧
          (∀ l ∈ m.succs, l.length ∣ 1) ∧ (∀ l ∈ m.conditions, l.length ≤ 2) ∧ ¬ (∀ l ∈ m.conditions, (l.map Prod.snd).Nodup) ∧
          (∃ s' < m.nStates, htmOf m s' = 1 ∧ bit s' 0 = 0 ∧
            completeChance m 1 s' 0 = 1 / 2 ∧ completeChance m 1 s' 1 = 1 / 2 ∧
            finishChance m 0 1 s' 0 (completeReward m 0 1 0) = 1 / 2 ∧ finishChance m 0 1 s' 0 (completeReward m 0 1 1) = 1 / 2))) = true := by
        decide +kernel
      rw [hm] at hpar
      replace hpar := of_decide_eq_true (show decide _ = true from hpar)
      obtain ⟨p1, p2, p3, p4, p5, p6, p7, p8⟩ := hpar
      refine ⟨m, ⟨h1, h2, {}, fun l => l, 3, fun _ _ => Iff.rfl, h5, hm⟩, p7, ?_, p8⟩
      refine ⟨by omega, by omega, by omega, ?_, ?_, ?_, ?_, p5, p6⟩
      · rw [p1]; exact ⟨⟨1, by norm_num⟩, by norm_num⟩
      · rw [p2]; exact ⟨⟨50, by norm_num⟩, by norm_num⟩
      · rw [p3]; exact ⟨⟨1, by norm_num⟩, by norm_num⟩
      · rw [p4]; exact ⟨⟨1, by norm_num⟩, by norm_num⟩

end Verif
