import Verif.Proof.NodePaths
import Verif.Proof.NodeFrom
import Mathlib.Tactic.Linarith

/-! The model made by `HTMToPOMDP`: last rows, sums, names, trajectories. -/

set_option linter.unusedSectionVars false
set_option linter.unusedSimpArgs false

namespace Verif
open Spec N2P

section
variable (exp : ℚ → ℚ) (h : HtmParams) (n : N2P CAction)

theorem size3 : n.size 3 ≤ 3 * n.leaves.length := le_refl _

theorem htmT_mid (x y : Nat) (hy : y < 3 * n.leaves.length) : htmTArr exp h n x y = midT exp h n (3 * n.leaves.length) x y := by
  funext z
  unfold htmTArr htmTEnd htmNS
  split
  · split <;> exact if_neg (by omega)
  · split
    · rename_i hr
      simp only [setAll]
      rw [if_neg (by omega), if_neg (by omega)]
    · simp only [setAll]
      rw [if_neg (by omega)]

theorem htmT_end (hl : h.loop = false) (x y : Nat) (hy : 3 * n.leaves.length ≤ y) (hy' : y < htmNS h n) : htmTArr exp h n x y = stay (htmNS h n - 1) := by
  funext z
  have hm := congrFun (midT_end exp h (n := n) (fin := 3 * n.leaves.length) x y hy) z
  unfold htmTArr htmTEnd
  simp only [hl, Bool.false_eq_true, if_false, stay]
  unfold htmNS at *
  split
  · rename_i hr
    rw [if_pos hr] at hy'
    simp only [setAll, hm]
    by_cases hz : z = 3 * n.leaves.length + 2 - 1
    · rw [if_pos hz]
      by_cases h1 : y = 3 * n.leaves.length + 2 - 1
      · rw [if_pos ⟨h1, hz⟩]
      · rw [if_neg (by tauto), if_pos ⟨by omega, hz⟩]
    · rw [if_neg hz, if_neg (by tauto), if_neg (by tauto)]
  · rename_i hr
    rw [if_neg hr] at hy'
    simp only [setAll, hm]
    have : y = 3 * n.leaves.length + 1 - 1 := by omega
    simp only [this, true_and]

theorem htmT_loop (hl : h.loop = true) (hr : h.rewardState = false) (x z : Nat) :
    htmTArr exp h n x (3 * n.leaves.length) z = if z ∈ n.init 3 0 then 1 else 0 := by
  have hm := congrFun (midT_end exp h (n := n) (fin := 3 * n.leaves.length) x (3 * n.leaves.length) le_rfl) z
  unfold htmTArr htmTEnd htmNS
  simp [hl, hr, hm]

theorem htmT_loopReward (hl : h.loop = true) (hr : h.rewardState = true) (x : Nat) :
    htmTArr exp h n x (3 * n.leaves.length) = fun _ => 0 := by
  funext z
  have hm := congrFun (midT_end exp h (n := n) (fin := 3 * n.leaves.length) x (3 * n.leaves.length) le_rfl) z
  unfold htmTArr htmTEnd htmNS
  simp [hl, hr, hm]

variable {n}

theorem leaf_of_state {s : Nat} (hs : s < 3 * n.leaves.length) : ∃ k i c, k < n.leaves.length ∧ i < 3 ∧ s = 3 * k + i ∧ s / 3 = k ∧
    (rootCtxs 3 4 1 n (3 * n.leaves.length))[k]? = some c := by
  obtain ⟨c, hc⟩ := root_exists (w := 3) (wa := 4) (a := 1) (fin := 3 * n.leaves.length) (n := n) (k := s / 3) (by omega)
  exact ⟨s / 3, s % 3, c, by omega, by omega, by omega, rfl, hc⟩

theorem sum_mix (N : Nat) (p : ℚ) (f g : Nat → ℚ) (hf : sumRange N f = 1) (hg : sumRange N g = 1) :
    sumRange N (fun z => p * f z + (1 - p) * g z) = 1 := by
  rw [sumRange_add', sumRange_mul_left, sumRange_mul_left, hf, hg]; ring

theorem htmT_sum_leaf (hf : Full n) (x y : Nat) (hy : y < 3 * n.leaves.length) : sumRange (htmNS h n) (htmTArr exp h n x y) = 1 := by
  obtain ⟨k, i, c, hk, hi, rfl, -, hc⟩ := leaf_of_state hy
  have hN : 3 * n.leaves.length < htmNS h n := by unfold htmNS; split <;> omega
  rw [htmT_mid exp h n x _ hy]
  obtain ⟨h1, h2, h3⟩ := midT_leaf exp h hf (size3 n) hc x
  have hq := ctxDist_next (by omega) hf (size3 n) hc hN
  have hu := (ctxUniform_next (by omega) hf (size3 n) hc hN).1
  have : i = 0 ∨ i = 1 ∨ i = 2 := by omega
  rcases this with rfl | rfl | rfl
  · rw [Nat.add_zero, h1]
    unfold initRow
    split
    · exact sum_mix _ _ _ _ (sumRange_stay _ _ (by omega)) (sumRange_stay _ _ (by omega))
    · split
      · exact sumRange_stay _ _ (by omega)
      · exact sumRange_stay _ _ (by omega)
  · rw [h2]
    split
    · unfold humanRowDet
      split
      · exact hu.2.2
      · exact sumRange_stay _ _ (by omega)
    · unfold humanRow
      exact sum_mix _ _ _ _ (sumRange_stay _ _ (by omega)) hq.2.2
  · rw [h3]
    unfold robotRow
    split
    · exact sum_mix _ _ _ _ (sumRange_stay _ _ (by omega)) hq.2.2
    · exact sumRange_stay _ _ (by omega)

theorem htmT_sum_end (hl : h.loop = false) (x y : Nat) (hy : 3 * n.leaves.length ≤ y) (hy' : y < htmNS h n) :
    sumRange (htmNS h n) (htmTArr exp h n x y) = 1 := by
  rw [htmT_end exp h n hl x y hy hy']
  exact sumRange_stay _ _ (by omega)

theorem sumRange_ind (N : Nat) (l : List Nat) (hn : l.Nodup) (hl : ∀ z ∈ l, z < N) : sumRange N (fun z => if z ∈ l then 1 else 0) = l.length := by
  have := scatter_sum N l (List.replicate l.length 1) (fun _ => 0) hn (by simp) hl (fun _ _ => rfl)
  rw [sumRange_const] at this
  simp only [mul_zero, zero_add, List.sum_replicate, nsmul_eq_mul, mul_one] at this
  rw [← this]
  refine sumRange_congr _ _ _ fun z _ => ?_
  by_cases hz : z ∈ l
  · obtain ⟨v, hv, e⟩ := scatter_mem l (List.replicate l.length 1) (fun _ => (0 : ℚ)) z hn (by simp) hz
    rw [e, (List.mem_replicate.1 hv).2, if_pos hz]
  · rw [scatter_not_mem _ _ _ _ hz, if_neg hz]

theorem init_lt (z : Nat) (hz : z ∈ n.init 3 0) : z < 3 * n.leaves.length := by
  obtain ⟨k, hk, rfl⟩ := init_range 3 n 0 z hz
  omega

theorem htmT_sum_loop (hf : Full n) (hl : h.loop = true) (hr : h.rewardState = false) (x : Nat) :
    sumRange (htmNS h n) (htmTArr exp h n x (3 * n.leaves.length)) = ((n.init 3 0).length : ℚ) := by
  rw [show htmTArr exp h n x (3 * n.leaves.length) = fun z => if z ∈ n.init 3 0 then 1 else 0 from funext fun z => htmT_loop exp h n hl hr x z]
  refine sumRange_ind _ _ (init_nodup 3 (by omega) n 0) fun z hz => ?_
  have := init_lt z hz
  unfold htmNS
  omega

/-! ### Signs -/

theorem stay_nonneg (s z : Nat) : 0 ≤ stay s z := by unfold stay; split <;> norm_num

theorem mix_nonneg {p f g : ℚ} (h0 : 0 ≤ p) (h1 : p ≤ 1) (hf : 0 ≤ f) (hg : 0 ≤ g) : 0 ≤ p * f + (1 - p) * g :=
  add_nonneg (mul_nonneg h0 hf) (mul_nonneg (by linarith) hg)

theorem htmT_nonneg (hf : Full n) (hc : ∀ c ∈ n.leaves, CAction.Prob c)
    (he : h.deterministic = false → ∀ c ∈ n.leaves, ∀ x < 4 * n.leaves.length + 1, 0 ≤ exp (-actDuration h n x / c.tHum) ∧ exp (-actDuration h n x / c.tHum) ≤ 1)
    (x y z : Nat) (hx : x < 4 * n.leaves.length + 1) (hy : y < htmNS h n) : 0 ≤ htmTArr exp h n x y z := by
  by_cases hyl : y < 3 * n.leaves.length
  · obtain ⟨k, i, c, hk, hi, rfl, -, hcx⟩ := leaf_of_state hyl
    have hN : 3 * n.leaves.length < htmNS h n := by unfold htmNS; split <;> omega
    rw [htmT_mid exp h n x _ hyl]
    obtain ⟨h1, h2, h3⟩ := midT_leaf exp h hf (size3 n) hcx x
    have hq := ctxDist_next (by omega) hf (size3 n) hcx hN
    have hu := (ctxUniform_next (by omega) hf (size3 n) hcx hN).1
    have hmem : c.act ∈ n.leaves := List.mem_of_getElem? (root_get hcx).1
    obtain ⟨p1, p2, p3, p4⟩ := hc _ hmem
    have : i = 0 ∨ i = 1 ∨ i = 2 := by omega
    rcases this with rfl | rfl | rfl
    · rw [Nat.add_zero, h1]
      unfold initRow
      split
      · exact mix_nonneg p1 p2 (stay_nonneg _ _) (stay_nonneg _ _)
      · split <;> exact stay_nonneg _ _
    · rw [h2]
      split
      · unfold humanRowDet
        split
        · exact hu.1 z
        · exact stay_nonneg _ _
      · rename_i hd
        obtain ⟨e1, e2⟩ := he (by simpa using hd) _ hmem x hx
        exact mix_nonneg e1 e2 (stay_nonneg _ _) (hq.1 z)
    · rw [h3]
      unfold robotRow
      split
      · exact mix_nonneg p3 p4 (stay_nonneg _ _) (hq.1 z)
      · exact stay_nonneg _ _
  · cases hl : h.loop
    · rw [htmT_end exp h n hl x y (by omega) hy]; exact stay_nonneg _ _
    · cases hr : h.rewardState
      · have : y = 3 * n.leaves.length := by unfold htmNS at hy; simp [hr] at hy; omega
        rw [this, htmT_loop exp h n hl hr]
        split <;> norm_num
      · have hm := congrFun (midT_end exp h (n := n) (fin := 3 * n.leaves.length) x y (by unfold N2P.size; omega)) z
        unfold htmTArr htmTEnd
        simp only [hl, if_true]
        split
        · norm_num
        · rw [hm]

/-! ### Observations -/

theorem obs_length : (htmObservations h).length = if h.loop ∨ h.rewardState then 5 else 4 := by
  unfold htmObservations
  split <;> rfl

theorem midO_unit (hs : h.structured = false) (x y : Nat) (hx : x < 4 * n.leaves.length + 1) :
    ∃ o < 4, setObsAll 0 (unit oNone) (midO h n (3 * n.leaves.length)) x y = unit o := by
  by_cases h0 : x = 0
  · exact ⟨0, by omega, by funext z; simp [setObsAll, h0, oNone]⟩
  · obtain ⟨c, hk⟩ := root_exists (w := 3) (wa := 4) (a := 1) (fin := 3 * n.leaves.length) (n := n) (k := (x - 1) / 4) (by omega)
    have e : setObsAll 0 (unit oNone) (midO h n (3 * n.leaves.length)) x y = midO h n (3 * n.leaves.length) x y := by
      funext z; simp [setObsAll, h0]
    rw [e, midO_leaf h n hk x (by omega)]
    have ha := (root_get hk).2.1
    have : x = c.a ∨ x = c.a + 1 ∨ x = c.a + 2 ∨ x = c.a + 3 := by omega
    rcases this with h1 | h1 | h1 | h1 <;> rw [h1]
    · rw [leafO_phy]
      split
      · exact ⟨_, by decide, rfl⟩
      · exact ⟨_, by decide, rfl⟩
    · rw [leafO_ask _ _ _ _ _ _ _ _ hs]
      split
      · exact ⟨_, by decide, rfl⟩
      · split
        · exact ⟨_, by decide, rfl⟩
        · exact ⟨_, by decide, rfl⟩
    · rw [leafO_tell _ _ _ _ _ _ _ _ hs]
      exact ⟨_, by decide, rfl⟩
    · cases hd : h.deterministic
      · rw [leafO_finished _ _ _ _ _ _ _ _ hd]
        split
        · exact ⟨_, by decide, rfl⟩
        · exact ⟨_, by decide, rfl⟩
      · rw [leafO_finishedDet _ _ _ _ _ _ _ _ hd]
        split
        · exact ⟨_, by decide, rfl⟩
        · split
          · exact ⟨_, by decide, rfl⟩
          · exact ⟨_, by decide, rfl⟩

theorem htmO_mid (hs : h.structured = false) (x y : Nat) (hx : x < 4 * n.leaves.length + 1) (hy : y < 3 * n.leaves.length ∨ (h.loop = false ∧ h.rewardState = false)) :
    htmOArr h n x y = setObsAll 0 (unit oNone) (midO h n (3 * n.leaves.length)) x y := by
  obtain ⟨o, ho, e⟩ := midO_unit h hs x y hx
  rw [e]
  unfold htmOArr htmOEnd
  have hn : y < 3 * n.leaves.length → y ≠ htmNS h n - 1 ∧ (h.rewardState = true → y ≠ htmNS h n - 2) := by
    intro hy
    unfold htmNS
    refine ⟨?_, fun hr => ?_⟩
    · split <;> omega
    · rw [hr]; simp only [if_true]; omega
  split
  · rename_i hlr
    have hy : y < 3 * n.leaves.length := by
      rcases hy with hy | ⟨h1, h2⟩
      · exact hy
      · rw [h1, h2] at hlr; simp at hlr
    obtain ⟨n1, n2⟩ := hn hy
    split
    · rename_i hr
      funext z
      have := congrFun e z
      simp only [setObsState, if_neg n1, if_neg (n2 hr), this, unit]
      split
      · rfl
      · rw [if_neg (by omega)]
    · funext z
      have := congrFun e z
      simp only [setObsState, if_neg n1, this, unit]
      split
      · rfl
      · rw [if_neg (by omega)]
  · exact e

theorem htmO_endReward (hr : h.rewardState = true) (x : Nat) :
    htmOArr h n x (3 * n.leaves.length) = unit 4 ∧ htmOArr h n x (3 * n.leaves.length + 1) = unit 0 := by
  unfold htmOArr htmOEnd
  rw [if_pos (Or.inr hr), if_pos hr]
  have e : htmNS h n = 3 * n.leaves.length + 2 := by simp [htmNS, hr]
  constructor <;> funext z <;> simp [setObsState, e]

theorem htmO_endLoop (hl : h.loop = true) (hr : h.rewardState = false) (x : Nat) : htmOArr h n x (3 * n.leaves.length) = unit 4 := by
  unfold htmOArr htmOEnd
  rw [if_pos (Or.inl hl), if_neg (by simp [hr])]
  have e : htmNS h n = 3 * n.leaves.length + 1 := by simp [htmNS, hr]
  funext z
  simp [setObsState, e]

theorem htmO_unit (hs : h.structured = false) (x y : Nat) (hx : x < 4 * n.leaves.length + 1) (hy : y < htmNS h n) :
    ∃ o < (htmObservations h).length, htmOArr h n x y = unit o := by
  rw [obs_length]
  by_cases hyl : y < 3 * n.leaves.length ∨ (h.loop = false ∧ h.rewardState = false)
  · obtain ⟨o, ho, e⟩ := midO_unit h hs x y hx
    exact ⟨o, by split <;> omega, by rw [htmO_mid h hs x y hx hyl, e]⟩
  · rw [not_or] at hyl
    cases hr : h.rewardState
    · have hl : h.loop = true := by
        cases hl : h.loop
        · exact absurd ⟨hl, hr⟩ hyl.2
        · rfl
      have : y = 3 * n.leaves.length := by unfold htmNS at hy; simp [hr] at hy; omega
      exact ⟨4, by simp [hl], by rw [this, htmO_endLoop h hl hr]⟩
    · have : y = 3 * n.leaves.length ∨ y = 3 * n.leaves.length + 1 := by unfold htmNS at hy; simp [hr] at hy; omega
      rcases this with rfl | rfl
      · exact ⟨4, by simp, (htmO_endReward h hr x).1⟩
      · exact ⟨0, by simp, (htmO_endReward h hr x).2⟩

theorem sumRange_unit (N o : Nat) (ho : o < N) : sumRange N (unit o) = 1 := sumRange_stay N o ho

theorem unit_nonneg (o z : Nat) : 0 ≤ unit o z := stay_nonneg o z

/-! ### Start -/

theorem htmStart (hf : Full n) (N : Nat) (hN : 3 * n.leaves.length < N) :
    sumRange N (scatter (fun _ => 0) (n.init 3 0) n.start) = 1 ∧ (∀ z, 0 ≤ scatter (fun _ => 0) (n.init 3 0) n.start z) ∧
    ∀ z, 0 < scatter (fun _ => 0) (n.init 3 0) n.start z ↔ z ∈ n.init 3 0 := by
  obtain ⟨h1, h2⟩ := start_dist n hf
  have hn := init_nodup 3 (by omega) n 0
  have hl := start_length 3 n 0
  refine ⟨?_, fun z => scatter_nonneg _ _ _ _ le_rfl (fun v hv => (h2 v hv).le), fun z => ⟨fun h => ?_, fun h => ?_⟩⟩
  · rw [scatter_sum N _ _ _ hn hl.symm _ (fun _ _ => rfl), h1, sumRange_const]
    · simp
    · intro z hz
      have := init_lt z hz
      omega
  · by_contra hz
    rw [scatter_not_mem _ _ _ _ hz] at h
    exact absurd h (lt_irrefl _)
  · obtain ⟨v, hv, e⟩ := scatter_mem _ _ (fun _ => (0 : ℚ)) z hn hl.symm h
    rw [e]
    exact h2 v hv

end

/-! ### Names -/

theorem strAppend_inj (p a b : String) : p ++ a = p ++ b ↔ a = b := by
  constructor
  · intro h
    have := congrArg String.toList h
    simp only [String.toList_append, List.append_cancel_left_eq] at this
    exact String.toList_inj.1 this
  · rintro rfl; rfl

theorem str_append_ne (p q a b : String) (i : Nat) (hp : i < p.toList.length) (hq : i < q.toList.length) (h : p.toList[i]? ≠ q.toList[i]?) : p ++ a ≠ q ++ b := by
  intro e
  have := congrArg (fun s => s.toList[i]?) e
  simp only [String.toList_append, List.getElem?_append_left hp, List.getElem?_append_left hq] at this
  exact h this

theorem flatMap_nodup {α β γ : Type} (f : α → List β) (g : α → γ) (hf : ∀ a, (f a).Nodup) (hdis : ∀ a b, g a ≠ g b → (f a).Disjoint (f b))
    (hsame : ∀ a b, g a = g b → f a ≠ [] ∧ ∃ x ∈ f a, x ∈ f b) (l : List α) : (l.flatMap f).Nodup ↔ (l.map g).Nodup := by
  induction l with
  | nil => simp
  | cons a l ih =>
    rw [List.flatMap_cons, List.nodup_append', List.map_cons, List.nodup_cons, ih]
    constructor
    · rintro ⟨_, h2, h3⟩
      refine ⟨fun hm => ?_, h2⟩
      obtain ⟨b, hb, e⟩ := List.mem_map.1 hm
      obtain ⟨_, x, hx, hx'⟩ := hsame a b e.symm
      exact h3 hx (List.mem_flatMap.2 ⟨b, hb, hx'⟩)
    · rintro ⟨h1, h2⟩
      refine ⟨hf a, h2, fun x hx hx' => ?_⟩
      obtain ⟨b, hb, hxb⟩ := List.mem_flatMap.1 hx'
      exact hdis a b (fun e => h1 (e ▸ List.mem_map_of_mem hb)) hx hxb

/-- Two prefixes that differ at some position. -/
def Clash (p q : String) : Bool := decide (∃ i < p.toList.length, i < q.toList.length ∧ p.toList[i]? ≠ q.toList[i]?)

theorem Clash.ne {p q : String} (h : Clash p q = true) (a b : String) : p ++ a ≠ q ++ b := by
  obtain ⟨i, h1, h2, h3⟩ := of_decide_eq_true h
  exact str_append_ne p q a b i h1 h2 h3

/-- Prefixed names. -/
def tagged (ps : List String) (r : String) : List Name := ps.map fun p => Name.str (p ++ r)

theorem tagged_inj {ps : List String} (hp : ps.Pairwise fun p q => Clash p q = true) {p q : String} (h1 : p ∈ ps) (h2 : q ∈ ps) {a b : String}
    (h : p ++ a = q ++ b) : p = q ∧ a = b := by
  have : p = q := by
    by_contra hne
    have hsym : ∀ p q : String, Clash p q = true → Clash q p = true := by
      intro p q h
      obtain ⟨i, h1, h2, h3⟩ := of_decide_eq_true h
      exact decide_eq_true ⟨i, h2, h1, h3.symm⟩
    obtain ⟨i, hi, rfl⟩ := List.getElem_of_mem h1
    obtain ⟨j, hj, rfl⟩ := List.getElem_of_mem h2
    rw [List.pairwise_iff_getElem] at hp
    rcases Nat.lt_trichotomy i j with hij | rfl | hij
    · exact Clash.ne (hp i j hi hj hij) a b h
    · exact hne rfl
    · exact Clash.ne (hsym _ _ (hp j i hj hi hij)) a b h
  subst this
  exact ⟨rfl, (strAppend_inj _ _ _).1 h⟩

theorem tagged_nodup {ps : List String} (hp : ps.Pairwise fun p q => Clash p q = true) (r : String) : (tagged ps r).Nodup := by
  unfold tagged
  refine List.pairwise_map.2 (hp.imp fun h e => ?_)
  exact Clash.ne h r r (by injection e)

theorem tagged_flatMap_nodup {α : Type} {ps : List String} (hp : ps.Pairwise fun p q => Clash p q = true) (hne : ps ≠ []) (g : α → String) (l : List α) :
    (l.flatMap fun a => tagged ps (g a)).Nodup ↔ (l.map g).Nodup := by
  refine flatMap_nodup _ g (fun a => tagged_nodup hp _) ?_ ?_ l
  · intro a b hab x hx hy
    obtain ⟨p, h1, rfl⟩ := List.mem_map.1 hx
    obtain ⟨q, h2, e⟩ := List.mem_map.1 hy
    injection e with e
    exact hab (tagged_inj hp h2 h1 e).2.symm
  · intro a b hab
    obtain ⟨p, hp'⟩ := List.exists_mem_of_ne_nil _ hne
    refine ⟨by simpa [tagged] using hne, Name.str (p ++ g a), List.mem_map_of_mem hp', ?_⟩
    rw [hab]
    exact List.mem_map_of_mem hp'

theorem htm_states_nodup (radix : String → String) (h : HtmParams) (n : N2P CAction) :
    (n.concat (leafStates radix) ++ endStates h).Nodup ↔ (n.leaves.map fun c => radix c.name).Nodup := by
  have e : n.concat (leafStates radix) = n.leaves.flatMap fun c => tagged ["init-", "H-", "R-"] (radix c.name) := rfl
  rw [List.nodup_append', e, tagged_flatMap_nodup (by decide) (by decide)]
  refine ⟨fun h => h.1, fun h1 => ⟨h1, ?_, ?_⟩⟩
  · unfold endStates; split <;> decide
  · intro x hx hy
    obtain ⟨c, _, hc⟩ := List.mem_flatMap.1 hx
    obtain ⟨p, hp, rfl⟩ := List.mem_map.1 hc
    have hend : ∀ q ∈ ["init-", "H-", "R-"], ∀ r ∈ ["end-reward", "end"], Clash q r = true := by decide
    have hy' : ∃ r ∈ ["end-reward", "end"], Name.str (p ++ radix c.name) = Name.str r := by
      unfold endStates at hy
      split at hy
      · simpa using hy
      · exact ⟨"end", by simp, by simpa using hy⟩
    obtain ⟨r, hr, e⟩ := hy'
    injection e with e
    exact Clash.ne (hend p hp r hr) (radix c.name) "" (by rw [e, String.append_empty])

theorem htm_actions_nodup (radix : String → String) (n : N2P CAction) :
    (Name.str "wait" :: n.concat (leafActions radix)).Nodup ↔ (n.leaves.map fun c => radix c.name).Nodup := by
  have e : n.concat (leafActions radix) = n.leaves.flatMap fun c =>
      tagged ["phy-", "com-ask-intention-", "com-tell-intention-", "com-ask-finished-"] (radix c.name) := by
    unfold N2P.concat leafActions tagged
    rfl
  rw [List.nodup_cons, e, tagged_flatMap_nodup (by decide) (by decide)]
  refine ⟨fun h => h.2, fun h1 => ⟨?_, h1⟩⟩
  intro hx
  obtain ⟨c, _, hc⟩ := List.mem_flatMap.1 hx
  obtain ⟨p, hp, e⟩ := List.mem_map.1 hc
  have hw : ∀ q ∈ ["phy-", "com-ask-intention-", "com-tell-intention-", "com-ask-finished-"], Clash q "wait" = true := by decide
  injection e with e
  exact Clash.ne (hw p hp) (radix c.name) "" (by rw [e, String.append_empty])

/-! ### Trajectories -/

section
variable (exp : ℚ → ℚ) (h : HtmParams) {n : N2P CAction}

theorem htmT_beyond (x y : Nat) (hy : htmNS h n ≤ y) : htmTArr exp h n x y = fun _ => 0 := by
  funext z
  have h1 : 3 * n.leaves.length ≤ y := by unfold htmNS at hy; omega
  have hm := congrFun (midT_end exp h (n := n) (fin := 3 * n.leaves.length) x y h1) z
  have hp : 0 < htmNS h n := by unfold htmNS; split <;> omega
  have e1 : y ≠ htmNS h n - 1 := by omega
  have e2 : y ≠ htmNS h n - 2 := by omega
  unfold htmTArr htmTEnd
  split
  · simp [e1, hm]
  · split <;> simp [setAll, e1, e2, hm]

theorem htm_follows (hf : Full n) (hl : h.loop = false) (hfail : ∀ c ∈ n.leaves, c.failProba < 1) :
    Follows 3 n (fun s s' => ∃ a < 4 * n.leaves.length + 1, 0 < htmTArr exp h n a s s') (htmNS h n - 1) where
  leaf := by
    rintro s s' hs ⟨x, hx, hpos⟩
    obtain ⟨k, i, c, hk, hi, rfl, hdiv, hc⟩ := leaf_of_state hs
    have hN : 3 * n.leaves.length < htmNS h n := by unfold htmNS; split <;> omega
    rw [htmT_mid exp h n x _ hs] at hpos
    obtain ⟨h1, h2, h3⟩ := midT_leaf exp h hf (size3 n) hc x
    have hq := ctxDist_next (by omega) hf (size3 n) hc hN
    have hu := (ctxUniform_next (by omega) hf (size3 n) hc hN).1
    rw [hdiv]
    have hown : ∀ i', i' < 3 → s' = 3 * k + i' → s' < 3 * n.leaves.length ∧ s' / 3 = k := by intro i' h1 h2; omega
    have hst : ∀ (j : Nat) (p : ℚ), p * stay (3 * k + j) s' ≠ 0 → s' = 3 * k + j := by
      intro j p hp
      by_contra hne
      rw [stay, if_neg hne, mul_zero] at hp
      exact hp rfl
    have hst' : ∀ (j : Nat), stay (3 * k + j) s' ≠ 0 → s' = 3 * k + j := by
      intro j hp
      by_contra hne
      rw [stay, if_neg hne] at hp
      exact hp rfl
    have hnx : ∀ (q : Nat → ℚ) (p : ℚ), NextDist 3 n (3 * n.leaves.length) k (htmNS h n) q → p * q s' ≠ 0 → IsNext 3 n (3 * n.leaves.length) k s' := by
      intro q p hq hp
      refine (hq.2.1 s').1 (lt_of_le_of_ne (hq.1 s') (Ne.symm ?_))
      rintro h0
      rw [h0, mul_zero] at hp
      exact hp rfl
    have hadd : ∀ a b : ℚ, 0 < a + b → a ≠ 0 ∨ b ≠ 0 := by
      intro a b hab
      by_contra hne
      rw [not_or, not_not, not_not] at hne
      rw [hne.1, hne.2] at hab
      simp at hab
    have : i = 0 ∨ i = 1 ∨ i = 2 := by omega
    rcases this with rfl | rfl | rfl
    · rw [Nat.add_zero] at hpos
      rw [h1] at hpos
      unfold initRow at hpos
      left
      split at hpos
      · rcases hadd _ _ hpos with h4 | h4
        · exact hown 2 (by omega) (hst 2 _ h4)
        · exact hown 1 (by omega) (hst 1 _ h4)
      · split at hpos
        · exact hown 2 (by omega) (hst' 2 hpos.ne')
        · exact hown 0 (by omega) (hst' 0 hpos.ne')
    · rw [h2] at hpos
      split at hpos
      · unfold humanRowDet at hpos
        split at hpos
        · exact Or.inr ((hu.2.1 s').1 hpos)
        · exact Or.inl (hown 1 (by omega) (hst' 1 hpos.ne'))
      · rcases hadd _ _ hpos with h4 | h4
        · exact Or.inl (hown 1 (by omega) (hst 1 _ h4))
        · exact Or.inr (hnx _ _ hq h4)
    · rw [h3] at hpos
      unfold robotRow at hpos
      split at hpos
      · rcases hadd _ _ hpos with h4 | h4
        · exact Or.inl (hown 2 (by omega) (hst 2 _ h4))
        · exact Or.inr (hnx _ _ hq h4)
      · exact Or.inl (hown 2 (by omega) (hst' 2 hpos.ne'))
  out := by
    rintro s s' hs ⟨x, hx, hpos⟩
    by_cases hs' : s < htmNS h n
    · rw [htmT_end exp h n hl x s hs hs'] at hpos
      unfold stay at hpos
      split at hpos
      · rename_i e
        rw [e]; unfold htmNS; split <;> omega
      · exact absurd hpos (lt_irrefl _)
    · rw [htmT_beyond exp h x s (by omega)] at hpos
      exact absurd hpos (lt_irrefl _)
  step := by
    intro k hk z hz
    obtain ⟨c, hc⟩ := root_exists (w := 3) (wa := 4) (a := 1) (fin := 3 * n.leaves.length) (n := n) hk
    have hN : 3 * n.leaves.length < htmNS h n := by unfold htmNS; split <;> omega
    have hq := ctxDist_next (by omega) hf (size3 n) hc hN
    refine ⟨[3 * k + 2], by intro m hm; rw [List.mem_singleton] at hm; omega, ?_⟩
    rw [List.cons_append, List.nil_append, List.isChain_cons_cons, List.isChain_cons_cons]
    refine ⟨⟨4 * k + 3, by omega, ?_⟩, ⟨4 * k + 1, by omega, ?_⟩, List.isChain_singleton _⟩
    · rw [htmT_mid exp h n _ _ (by omega), (midT_leaf exp h hf (size3 n) hc _).1]
      simp [initRow, stay]
    · rw [htmT_mid exp h n _ _ (by omega), (midT_leaf exp h hf (size3 n) hc _).2.2]
      have h1 : z ≠ 3 * k + 2 := by
        rcases isNext_lt hf _ _ hz with rfl | ⟨j, _, _, rfl⟩ <;> omega
      have h2 := hfail c.act (List.mem_of_getElem? (root_get hc).1)
      simp only [robotRow, if_true, stay, if_neg h1, mul_zero, zero_add]
      exact mul_pos (by linarith) ((hq.2.1 z).2 hz)
  final := by
    cases hr : h.rewardState
    · refine ⟨[], by simp, List.isChain_singleton _, ?_⟩
      simp [htmNS, hr]
    · refine ⟨[3 * n.leaves.length + 1], by simp, ?_, by simp [htmNS, hr]⟩
      rw [List.isChain_cons_cons]
      refine ⟨⟨0, by omega, ?_⟩, List.isChain_singleton _⟩
      rw [htmT_end exp h n hl 0 _ le_rfl (by simp [htmNS, hr])]
      simp [stay, htmNS, hr]

end

/-! ### Success -/

theorem htmConvert_structured (solver : Option String) (exp : ℚ → ℚ) (radix : String → String) (h : HtmParams) (n : N2P CAction) (hf : Full n)
    (hs : h.structured = true) : htmConvert solver exp radix h n = .error .attributeError := by
  unfold htmConvert
  simp only [full_noEmpty n hf, Bool.false_eq_true, if_false]
  rw [htmT_eq, htmO_eq, htmR_structured h hs n hf]
  rfl

theorem htmConvert_ok (path : String) (exp : ℚ → ℚ) (radix : String → String) (h : HtmParams) (n : N2P CAction) (hf : Full n) (p : Pomdp)
    (hp : htmConvert (some path) exp radix h n = .ok p) :
    h.structured = false ∧ p.T = ⟨4 * n.leaves.length + 1, htmNS h n, htmNS h n, htmTArr exp h n⟩ ∧
    p.O = ⟨4 * n.leaves.length + 1, htmNS h n, (htmObservations h).length, htmOArr h n⟩ ∧
    p.R = ⟨4 * n.leaves.length + 1, htmNS h n, htmNS h n, (htmObservations h).length, fun a s s' o => - htmRArr h n a s s' o⟩ ∧
    p.start = (List.range (htmNS h n)).map (scatter (fun _ => 0) (n.init 3 0) n.start) ∧ p.discount = 1 ∧
    p.states = n.concat (leafStates radix) ++ endStates h ∧ p.actions = Name.str "wait" :: n.concat (leafActions radix) ∧
    p.observations = htmObservations h ∧ p.Good := by
  cases hs : h.structured
  · rw [htmConvert_eq _ _ _ _ _ (full_noEmpty n hf) hs, mk'_ok_iff] at hp
    obtain ⟨r, path', hr, _, hg, rfl⟩ := hp
    have : r = ⟨4 * n.leaves.length + 1, htmNS h n, htmNS h n, (htmObservations h).length, fun a s s' o => - htmRArr h n a s s' o⟩ := by
      simp [Pomdp.rewardOf] at hr
      exact hr.symm
    subst this
    exact ⟨rfl, rfl, rfl, rfl, rfl, rfl, rfl, rfl, rfl, hg⟩
  · rw [htmConvert_structured _ _ _ _ _ hf hs] at hp
    cases hp

theorem copyTotal : CopyTotal CAction.ops := fun _ _ => ⟨_, rfl, rfl⟩

theorem copyChain_fields {a b : CAction} (hab : CopyChain CAction.ops a b) :
    b.tHum = a.tHum ∧ b.tRob = a.tRob ∧ b.tErr = a.tErr ∧ b.noProba = a.noProba ∧ b.failProba = a.failProba := by
  induction hab with
  | refl => exact ⟨rfl, rfl, rfl, rfl, rfl⟩
  | step i _ h ih =>
    injection h with h
    subst h
    exact ih

theorem htmToPomdp_ok (solver : Option String) (exp : ℚ → ℚ) (radix : String → String) (h : HtmParams) (fuel : Nat) (t : Htm CAction)
    (hb : Built t) (hf : HFull t) (hd : callDepth t ≤ fuel) :
    ∃ n, N2P.fromNode CAction.ops fuel t = .ok n ∧ FromOk CAction.ops t n ∧ htmToPomdp solver exp radix h fuel t = htmConvert solver exp radix h n := by
  obtain ⟨n, h1, h2⟩ := fromNode_spec CAction.ops copyTotal fuel t hb hf hd
  exact ⟨n, h1, h2, by simp [htmToPomdp, h1, bind, Except.bind]⟩

end Verif
