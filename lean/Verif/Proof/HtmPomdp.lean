import Verif.Spec.HtmPomdp
import Verif.Proof.Scatter
import Mathlib.Tactic.FieldSimp
import Mathlib.Tactic.Positivity

/-! Rows of the arrays made by `HTMToPOMDP`. -/

set_option linter.unusedSectionVars false
set_option linter.unusedSimpArgs false

namespace Verif
open Spec N2P

/-! ### Durations -/

theorem flatMap_getD_const {α : Type} (w : Nat) (hw : 0 < w) (f : α → List ℚ) (hf : ∀ a, (f a).length = w) (l : List α) :
    ∀ x, (l.flatMap f).getD x 0 = match l[x / w]? with | none => 0 | some c => (f c).getD (x % w) 0 := by
  induction l with
  | nil => intro x; simp
  | cons c l ih =>
    intro x
    simp only [List.flatMap_cons]
    by_cases h : x < w
    · rw [Nat.div_eq_of_lt h, Nat.mod_eq_of_lt h]
      simp only [List.getElem?_cons_zero, List.getD_eq_getElem?_getD]
      rw [List.getElem?_append_left (by rw [hf]; exact h)]
    · obtain ⟨y, rfl⟩ : ∃ y, x = y + w := ⟨x - w, by omega⟩
      rw [Nat.add_div_right _ hw, Nat.add_mod_right, List.getElem?_cons_succ, ← ih]
      simp only [List.getD_eq_getElem?_getD]
      rw [List.getElem?_append_right (by rw [hf]; omega), hf, Nat.add_sub_cancel]

theorem htmDurations_getD (h : HtmParams) (n : N2P CAction) (x : Nat) : (htmDurations h n).getD x 0 = actDuration h n x := by
  cases x with
  | zero => rfl
  | succ x =>
    simp only [htmDurations, List.getD_cons_succ, concat, actDuration]
    rw [flatMap_getD_const 4 (by omega) _ (fun a => rfl)]
    cases n.leaves[x / 4]? <;> rfl

/-! ### Transitions -/

section T
variable (exp : ℚ → ℚ) (h : HtmParams) (ds : List ℚ) (c : CAction) (a s : Nat) (next : List Nat) (probas : List ℚ) (T : F3)

theorem leafT_other (x y : Nat) (hy : y ≠ s ∧ y ≠ s + 1 ∧ y ≠ s + 2) : leafT exp h ds c a s next probas T x y = T x y := by
  funext z
  obtain ⟨h1, h2, h3⟩ := hy
  unfold leafT leafTHuman
  split <;> simp [set1, setAll, setNext, setNextAll, h1, h2, h3]

theorem leafT_init (x : Nat) (hT : T x s = fun _ => 0) : leafT exp h ds c a s next probas T x s =
    fun z => if x = a + 1 then c.noProba * stay (s + 2) z + (1 - c.noProba) * stay (s + 1) z
      else if x = a + 2 then stay (s + 2) z else stay s z := by
  funext z
  have hT' : T x s z = 0 := by rw [hT]
  unfold leafT leafTHuman
  have e1 : s ≠ s + 1 := by omega
  have e2 : s ≠ s + 2 := by omega
  have key : (set1 (a + 2) s (s + 2) 1 (set1 (a + 2) s s 0 (set1 (a + 1) s (s + 1) (1 - c.noProba)
      (set1 (a + 1) s (s + 2) c.noProba (set1 (a + 1) s s 0 (setAll s s (fun _ => 1) T)))))) x s z =
      if x = a + 1 then c.noProba * stay (s + 2) z + (1 - c.noProba) * stay (s + 1) z
      else if x = a + 2 then stay (s + 2) z else stay s z := by
    simp only [set1, setAll, stay, true_and]
    by_cases hx : x = a + 1
    · by_cases z1 : z = s + 1
      · simp [hx, z1]
      · by_cases z2 : z = s + 2
        · simp [hx, z1, z2]
        · by_cases z3 : z = s
          · simp [hx, z1, z2, z3]
          · simp [hx, z1, z2, z3, hT']
            rw [← hx, hT']
    · by_cases hx2 : x = a + 2
      · by_cases z2 : z = s + 2
        · simp [hx, hx2, z2]
        · by_cases z3 : z = s
          · simp [hx, hx2, z2, z3]
          · simp [hx2, z2, z3]
            rw [← hx2, hT']
      · by_cases z3 : z = s
        · simp [hx, hx2, z3]
        · simp [hx, hx2, z3, hT']
  rw [← key]
  split <;> simp [set1, setAll, setNext, setNextAll, e1, e2]

theorem leafT_human (x : Nat) (hd : h.deterministic = false) (hT : T x (s + 1) = fun _ => 0) : leafT exp h ds c a s next probas T x (s + 1) =
    scatter (fun z => notFinished exp c (ds.getD x 0) * stay (s + 1) z) next (probas.map fun p => (1 - notFinished exp c (ds.getD x 0)) * p) := by
  funext z
  unfold leafT leafTHuman
  have e1 : s + 1 ≠ s := by omega
  have e2 : s + 1 ≠ s + 2 := by omega
  simp only [hd, Bool.false_eq_true, if_false]
  simp only [setNext, set1, setAll, setNextAll, e1, e2, false_and, and_false, if_false, if_true, true_and]
  congr 1
  funext z
  have : T x (s + 1) z = 0 := by rw [hT]
  simp only [stay, this, setAll, set1, e1, e2, false_and, and_false, if_false, if_true, true_and]
  split <;> simp

theorem leafT_humanDet (x : Nat) (hd : h.deterministic = true) (hT : T x (s + 1) = fun _ => 0) : leafT exp h ds c a s next probas T x (s + 1) =
    if x = a + 3 then scatter (fun _ => 0) next (uniform next.length) else stay (s + 1) := by
  funext z
  unfold leafT leafTHuman
  have e1 : s + 1 ≠ s := by omega
  have e2 : s + 1 ≠ s + 2 := by omega
  have hT' : ∀ z, T x (s + 1) z = 0 := fun z => by rw [hT]
  simp only [hd, if_true]
  simp only [setNext, set1, setAll, setNextAll, e1, e2, false_and, and_false, if_false, if_true, true_and, and_true]
  by_cases hx : x = a + 3
  · simp only [hx, true_and, if_true]
    congr 1
    funext z
    rw [← hx]
    simp only [set1, setAll, e1, e2, false_and, and_false, if_false, if_true, true_and, hT']
    split <;> rfl
  · simp only [hx, false_and, if_false, stay, hT']

theorem leafT_robot (x : Nat) (hT : T x (s + 2) = fun _ => 0) : leafT exp h ds c a s next probas T x (s + 2) =
    if x = a then scatter (fun z => c.failProba * stay (s + 2) z) next (probas.map fun p => (1 - c.failProba) * p) else stay (s + 2) := by
  funext z
  have e1 : s + 2 ≠ s := by omega
  have e2 : s + 2 ≠ s + 1 := by omega
  have hT' : ∀ z, T x (s + 2) z = 0 := fun z => by rw [hT]
  have key : ∀ z, leafTHuman exp h c ds a s next probas
      (set1 (a + 2) s (s + 2) 1 (set1 (a + 2) s s 0 (set1 (a + 1) s (s + 1) (1 - c.noProba)
      (set1 (a + 1) s (s + 2) c.noProba (set1 (a + 1) s s 0 (setAll s s (fun _ => 1) T)))))) x (s + 2) z = 0 := by
    intro z
    unfold leafTHuman
    split <;> simp [set1, setAll, setNext, setNextAll, e1, e2, hT']
  unfold leafT
  generalize (leafTHuman exp h c ds a s next probas
      (set1 (a + 2) s (s + 2) 1 (set1 (a + 2) s s 0 (set1 (a + 1) s (s + 1) (1 - c.noProba)
      (set1 (a + 1) s (s + 2) c.noProba (set1 (a + 1) s s 0 (setAll s s (fun _ => 1) T))))))) = T' at key
  simp only [setNext, set1, setAll, and_true, true_and]
  by_cases hx : x = a
  · simp only [hx, if_true, true_and]
    congr 1
    funext z
    rw [← hx]
    simp only [set1, setAll, key, stay, true_and]
    split <;> simp
  · simp only [hx, if_false, false_and, key, stay]

end T

/-- The array before the rows of the end are filled. -/
def midT (exp : ℚ → ℚ) (h : HtmParams) (n : N2P CAction) (fin : Nat) : F3 :=
  (rootCtxs 3 4 1 n fin).foldl (fun T c => leafT exp h (htmDurations h n) c.act c.a c.s c.next c.probas T) (fun _ _ _ => 0)

theorem htmT_eq (exp : ℚ → ℚ) (h : HtmParams) (n : N2P CAction) (nS : Nat) :
    htmT exp h n nS = .ok (htmTEnd h nS (n.init 3 0) (midT exp h n (if h.rewardState then nS - 2 else nS - 1))) := by
  unfold htmT
  simp only [travT_eq 3 4 _ n 1 0 _ [1] [] [if h.rewardState = true then nS - 2 else nS - 1]]
  rw [show (fun st (c : Ctx CAction) => (Except.ok (leafT exp h (htmDurations h n) c.act c.a c.s c.next c.probas st) : Py F3)) =
    fun st c => .ok ((fun T (c : Ctx CAction) => leafT exp h (htmDurations h n) c.act c.a c.s c.next c.probas T) st c) from rfl, foldlM_pure]
  rfl

theorem sumRange_stay (N s : Nat) (hs : s < N) : sumRange N (stay s) = 1 := by
  have := sumRange_update N (fun _ => 0) s 1 hs
  rw [sumRange_const] at this
  simp only [mul_zero, sub_zero, zero_add] at this
  exact this

theorem sumRange_add' (N : Nat) (f g : Nat → ℚ) : sumRange N (fun i => f i + g i) = sumRange N f + sumRange N g := by
  simp [sumRange, List.sum_map_add]

/-- The distribution over the next states of a context. -/
def ctxDist {A : Type} (c : Ctx A) : Nat → ℚ := scatter (fun _ => 0) c.next c.probas

theorem lin_range {A : Type} (n : N2P A) : ∀ (k : Nat) (ks : List Nat), Lin n k ks → (∀ j ∈ ks, k ≤ j ∧ j < k + n.leaves.length) ∧ ks.Pairwise (· < ·) := by
  induction n using N2P.induct with
  | hleaf x => rintro k ks rfl; simp [N2P.leaves]
  | hseq cs ih =>
    intro k ks h
    simp only [Lin, N2P.leaves] at *
    induction cs generalizing k ks with
    | nil => rw [LinSeq] at h; subst h; simp
    | cons c cs ihl =>
      obtain ⟨v, u, rfl, h1, h2⟩ := h
      have h3 := ih c (by simp) k v h1
      have h4 := ihl (fun c hc => ih c (by simp [hc])) _ _ h2
      simp only [N2P.leavesL, List.length_append]
      refine ⟨fun j hj => ?_, List.pairwise_append.2 ⟨h3.2, h4.2, fun x hx y hy => ?_⟩⟩
      · rcases List.mem_append.1 hj with hj | hj
        · have := h3.1 j hj; omega
        · have := h4.1 j hj; omega
      · have := h3.1 x hx
        have := h4.1 y hy
        omega
  | halt cs ih =>
    intro k ks h
    simp only [Lin, N2P.leaves] at *
    induction cs generalizing k ks with
    | nil => exact h.elim
    | cons c cs ihl =>
      simp only [N2P.leavesL, List.length_append]
      rcases h with h1 | h1
      · have h3 := ih c (by simp) k ks h1
        exact ⟨fun j hj => by have := h3.1 j hj; omega, h3.2⟩
      · have h3 := ihl (fun c hc => ih c (by simp [hc])) _ _ h1
        exact ⟨fun j hj => by have := h3.1 j hj; omega, h3.2⟩

section rows
variable {A : Type} {n : N2P A} {w wa a fin : Nat}

theorem root_next_iff (hw : 0 < w) (hf : Full n) (hfin : n.size w ≤ fin) {k : Nat} {c : Ctx A} (hk : (rootCtxs w wa a n fin)[k]? = some c) (z : Nat) :
    z ∈ c.next ↔ IsNext w n fin k z := by
  constructor
  · intro hz
    rcases root_next_cases hw hf hk hz with rfl | ⟨j, hj, _, rfl⟩
    · exact Or.inr ⟨rfl, (root_next_fin hw hf hfin hk).1 hz⟩
    · exact Or.inl ⟨j, (root_next_leaf hw hf hfin hk hj).1 hz, rfl⟩
  · rintro (⟨j, hj, rfl⟩ | ⟨rfl, hl⟩)
    · refine (root_next_leaf hw hf hfin hk ?_).2 hj
      obtain ⟨u, v, huv⟩ := hj
      have := ((lin_range n 0 _ huv).1 j (by simp)).2
      omega
    · exact (root_next_fin hw hf hfin hk).2 hl

theorem ctxDist_next (hw : 0 < w) (hf : Full n) (hfin : n.size w ≤ fin) {k : Nat} {c : Ctx A} (hk : (rootCtxs w wa a n fin)[k]? = some c) {N : Nat}
    (hN : fin < N) : NextDist w n fin k N (ctxDist c) := by
  obtain ⟨h1, _, h3, h4, h5⟩ := root_next_probas hw hf c (List.mem_of_getElem? hk)
  refine ⟨fun z => scatter_nonneg _ _ _ _ le_rfl (fun v hv => (h5 v hv).le), fun z => ?_, ?_⟩
  · rw [← root_next_iff hw hf hfin hk]
    constructor
    · intro h
      by_contra hz
      rw [ctxDist, scatter_not_mem _ _ _ _ hz] at h
      exact absurd h (lt_irrefl _)
    · intro h
      obtain ⟨v, hv, h6⟩ := scatter_mem c.next c.probas (fun _ => 0) z h1 h3.symm h
      rw [ctxDist, h6]
      exact h5 v hv
  · rw [ctxDist, scatter_sum N _ _ _ h1 h3.symm _ (fun _ _ => rfl), h4, sumRange_const]
    · simp
    · intro z hz
      rcases root_next_cases hw hf hk hz with rfl | ⟨j, hj, _, rfl⟩
      · exact hN
      · have : w * j < w * n.leaves.length := Nat.mul_lt_mul_of_pos_left hj hw
        unfold N2P.size at hfin
        omega

/-- The uniform distribution over the next states of a context. -/
def ctxUniform {A : Type} (c : Ctx A) : Nat → ℚ := scatter (fun _ => 0) c.next (uniform c.next.length)

theorem uniform_sum (m : Nat) (hm : m ≠ 0) : (uniform m).sum = 1 := by
  rw [uniform, List.sum_replicate, nsmul_eq_mul]
  field_simp

theorem ctxUniform_next (hw : 0 < w) (hf : Full n) (hfin : n.size w ≤ fin) {k : Nat} {c : Ctx A} (hk : (rootCtxs w wa a n fin)[k]? = some c) {N : Nat}
    (hN : fin < N) : NextDist w n fin k N (ctxUniform c) ∧ ∀ z, IsNext w n fin k z → ctxUniform c z = 1 / (c.next.length : ℚ) := by
  obtain ⟨h1, h2, _, _, _⟩ := root_next_probas hw hf c (List.mem_of_getElem? hk)
  have hlen : c.next.length ≠ 0 := by simpa using h2
  have hl : c.next.length = (uniform c.next.length).length := by simp [uniform]
  have hpos : ∀ v ∈ uniform c.next.length, v = 1 / (c.next.length : ℚ) := fun v hv => (List.mem_replicate.1 hv).2
  have hq : 0 < 1 / (c.next.length : ℚ) := by
    have : 0 < (c.next.length : ℚ) := by exact_mod_cast Nat.pos_of_ne_zero hlen
    positivity
  have hval : ∀ z ∈ c.next, ctxUniform c z = 1 / (c.next.length : ℚ) := by
    intro z hz
    obtain ⟨v, hv, h6⟩ := scatter_mem c.next _ (fun _ => 0) z h1 hl hz
    rw [ctxUniform, h6, hpos v hv]
  refine ⟨⟨fun z => scatter_nonneg _ _ _ _ le_rfl (fun v hv => by rw [hpos v hv]; exact hq.le), fun z => ?_, ?_⟩, fun z hz => ?_⟩
  · rw [← root_next_iff hw hf hfin hk]
    constructor
    · intro h
      by_contra hz
      rw [ctxUniform, scatter_not_mem _ _ _ _ hz] at h
      exact absurd h (lt_irrefl _)
    · intro h
      rw [hval z h]
      exact hq
  · rw [ctxUniform, scatter_sum N _ _ _ h1 hl _ (fun _ _ => rfl), uniform_sum _ hlen, sumRange_const]
    · simp
    · intro z hz
      rcases root_next_cases hw hf hk hz with rfl | ⟨j, hj, _, rfl⟩
      · exact hN
      · have : w * j < w * n.leaves.length := Nat.mul_lt_mul_of_pos_left hj hw
        unfold N2P.size at hfin
        omega
  · exact hval z ((root_next_iff hw hf hfin hk z).2 hz)

theorem scatter_mix {c : Ctx A} (h1 : c.next.Nodup) (h3 : c.probas.length = c.next.length) (p : ℚ) (s' : Nat) (hs : s' ∉ c.next) (z : Nat) :
    scatter (fun z => p * stay s' z) c.next (c.probas.map fun x => (1 - p) * x) z = p * stay s' z + (1 - p) * ctxDist c z := by
  by_cases hz : z ∈ c.next
  · rw [scatter_map _ _ _ _ _ h1 h3.symm hz]
    have : z ≠ s' := by rintro rfl; exact hs hz
    simp [stay, this, ctxDist]
  · rw [scatter_not_mem _ _ _ _ hz, ctxDist, scatter_not_mem _ _ _ _ hz]
    simp

end rows

section rowsT
variable (exp : ℚ → ℚ) (h : HtmParams) {n : N2P CAction} {fin : Nat}

theorem root_s_other {w wa a : Nat} {k j : Nat} {c c' : Ctx CAction} (hk : (rootCtxs w wa a n fin)[k]? = some c) (hj : (rootCtxs w wa a n fin)[j]? = some c')
    (hjk : j ≠ k) : c.s = w * k ∧ c'.s = w * j := ⟨(root_get hk).2.2, (root_get hj).2.2⟩

theorem midT_row (hf : Full n) (hfin : n.size 3 ≤ fin) {k : Nat} {c : Ctx CAction} (hk : (rootCtxs 3 4 1 n fin)[k]? = some c) (x i : Nat) (hi : i < 3) :
    midT exp h n fin x (3 * k + i) = leafT exp h (htmDurations h n) c.act c.a c.s c.next c.probas (fun _ _ _ => 0) x (3 * k + i) := by
  refine foldl_obs _ (fun T : F3 => T x (3 * k + i)) (fun _ => 0) _ _ k c hk ?_ ?_ (fun _ _ _ => 0) rfl
  · intro j c' hjk hj T
    have h2 := (root_get hj).2.2
    refine leafT_other _ _ _ _ _ _ _ _ _ _ _ ⟨?_, ?_, ?_⟩ <;> omega
  · intro T hT
    have h1 := (root_get hk).2.2
    have : i = 0 ∨ i = 1 ∨ i = 2 := by omega
    rcases this with rfl | rfl | rfl
    · rw [Nat.add_zero, ← h1] at *
      rw [leafT_init _ _ _ _ _ _ _ _ _ _ hT, leafT_init _ _ _ _ _ _ _ _ _ _ rfl]
    · rw [← h1] at *
      cases hd : h.deterministic
      · rw [leafT_human _ _ _ _ _ _ _ _ _ _ hd hT, leafT_human _ _ _ _ _ _ _ _ _ _ hd rfl]
      · rw [leafT_humanDet _ _ _ _ _ _ _ _ _ _ hd hT, leafT_humanDet _ _ _ _ _ _ _ _ _ _ hd rfl]
    · rw [← h1] at *
      rw [leafT_robot _ _ _ _ _ _ _ _ _ _ hT, leafT_robot _ _ _ _ _ _ _ _ _ _ rfl]

theorem not_next {k i : Nat} {w wa a : Nat} (hf : Full n) (hfin : n.size w ≤ fin) {c : Ctx CAction} (hk : (rootCtxs w wa a n fin)[k]? = some c)
    (hi : i < w) : w * k + i ∉ c.next := by
  intro hz
  have hlt := root_lt hk
  have h0 : w * k + w ≤ w * n.leaves.length := by
    rw [← Nat.mul_succ]
    exact Nat.mul_le_mul_left _ hlt
  unfold N2P.size at hfin
  rcases root_next_cases (by omega) hf hk hz with h | ⟨j, hj, hkj, h⟩
  · omega
  · have : w * k + w ≤ w * j := by
      rw [← Nat.mul_succ]
      exact Nat.mul_le_mul_left _ hkj
    omega

/-- All rows of the leaves. -/
theorem midT_leaf (hf : Full n) (hfin : n.size 3 ≤ fin) {k : Nat} {c : Ctx CAction} (hk : (rootCtxs 3 4 1 n fin)[k]? = some c) (x : Nat) :
    midT exp h n fin x (3 * k) = initRow c.act k x ∧
    midT exp h n fin x (3 * k + 1) = (if h.deterministic then humanRowDet (ctxUniform c) k x else humanRow exp c.act (actDuration h n x) (ctxDist c) k) ∧
    midT exp h n fin x (3 * k + 2) = robotRow c.act (ctxDist c) k x := by
  obtain ⟨h1, _, h3, _, _⟩ := root_next_probas (by omega) hf c (List.mem_of_getElem? hk)
  obtain ⟨_, ha, hs⟩ := root_get hk
  refine ⟨?_, ?_, ?_⟩
  · have := midT_row exp h hf hfin hk x 0 (by omega)
    rw [Nat.add_zero] at this
    rw [this, ← hs, leafT_init _ _ _ _ _ _ _ _ _ _ rfl]
    funext z
    unfold initRow
    rw [ha, hs, show 1 + 4 * k + 1 = 4 * k + 2 by omega, show 1 + 4 * k + 2 = 4 * k + 3 by omega]
  · rw [midT_row exp h hf hfin hk x 1 (by omega), ← hs]
    cases hd : h.deterministic
    · rw [leafT_human _ _ _ _ _ _ _ _ _ _ hd rfl]
      funext z
      rw [scatter_mix h1 h3 _ _ (by rw [hs]; exact not_next hf hfin hk (by omega)), htmDurations_getD]
      rw [hs]; rfl
    · rw [leafT_humanDet _ _ _ _ _ _ _ _ _ _ hd rfl]
      funext z
      simp only [if_true, humanRowDet, ha, show 1 + 4 * k + 3 = 4 * k + 4 by omega, hs]
      split <;> rfl
  · rw [midT_row exp h hf hfin hk x 2 (by omega), ← hs, leafT_robot _ _ _ _ _ _ _ _ _ _ rfl]
    funext z
    unfold robotRow
    rw [ha, show 1 + 4 * k = 4 * k + 1 by omega]
    split
    · rw [scatter_mix h1 h3 _ _ (by rw [hs]; exact not_next hf hfin hk (by omega)), hs]
    · rw [hs]

theorem midT_end (x y : Nat) (hy : n.size 3 ≤ y) : midT exp h n fin x y = fun _ => 0 := by
  refine foldl_frame _ (fun T : F3 => T x y) _ ?_ (fun _ _ _ => 0)
  intro c hc T
  obtain ⟨k, hk⟩ := List.getElem?_of_mem hc
  have h1 := (root_get hk).2.2
  have h2 := root_lt hk
  unfold N2P.size at hy
  refine leafT_other _ _ _ _ _ _ _ _ _ _ _ ⟨?_, ?_, ?_⟩ <;> omega

end rowsT

/-! ### Observations -/

section O
variable (h : HtmParams) (c : CAction) (a s : Nat) (next before after : List Nat) (O : F3)

theorem leafO_other (x : Nat) (hx : x < a ∨ a + 4 ≤ x) : leafO h c a s next before after O x = O x := by
  funext y z
  have h0 : x ≠ a := by omega
  have h1 : x ≠ a + 1 := by omega
  have h2 : x ≠ a + 2 := by omega
  have h3 : x ≠ a + 3 := by omega
  unfold leafO leafOFinished leafOTell
  split <;> split <;> simp [setObs, setObsAll, h0, h1, h2, h3]

theorem leafO_own (x : Nat) (hx : a ≤ x ∧ x < a + 4) (O' : F3) : leafO h c a s next before after O x = leafO h c a s next before after O' x := by
  funext y z
  unfold leafO leafOFinished leafOTell
  have : x = a ∨ x = a + 1 ∨ x = a + 2 ∨ x = a + 3 := by omega
  rcases this with rfl | rfl | rfl | rfl <;> split <;> split <;> simp [setObs, setObsAll]

theorem leafO_phy (y : Nat) : leafO h c a s next before after O a y = if y ∈ next then unit oNone else unit oErr := by
  funext z
  unfold leafO leafOFinished leafOTell
  split <;> split <;> simp [setObs, setObsAll] <;> split <;> rfl

theorem leafO_ask (hs : h.structured = false) (y : Nat) : leafO h c a s next before after O (a + 1) y =
    if y = s + 2 then unit oNo else if y = s + 1 then unit oYes else unit oNone := by
  funext z
  unfold leafO leafOFinished leafOTell
  split <;> simp [setObs, setObsAll, hs] <;> split <;> (try rfl) <;> split <;> rfl

theorem leafO_tell (hs : h.structured = false) (y : Nat) : leafO h c a s next before after O (a + 2) y = unit oNone := by
  funext z
  unfold leafO leafOFinished leafOTell
  split <;> simp [setObs, setObsAll, hs]

theorem leafO_finished (hd : h.deterministic = false) (y : Nat) : leafO h c a s next before after O (a + 3) y =
    if y ∈ after then unit oYes else unit oNo := by
  funext z
  unfold leafO leafOFinished leafOTell
  simp [setObs, setObsAll, hd]; split <;> rfl

theorem leafO_finishedDet (hd : h.deterministic = true) (y : Nat) : leafO h c a s next before after O (a + 3) y =
    if y ∈ next then unit oYes else if y = s + 1 then unit oNo else unit oErr := by
  funext z
  unfold leafO leafOFinished leafOTell
  simp [setObs, setObsAll, hd]; split <;> (try rfl) <;> split <;> rfl

end O

/-- The array before the last rows are filled. -/
def midO (h : HtmParams) (n : N2P CAction) (fin : Nat) : F3 :=
  (rootCtxs 3 4 1 n fin).foldl (fun O c => leafO h c.act c.a c.s c.next c.before c.after O) (fun _ _ _ => 0)

theorem htmO_eq (h : HtmParams) (n : N2P CAction) (nS : Nat) :
    htmO h n nS = .ok (htmOEnd h nS (setObsAll 0 (unit oNone) (midO h n (if h.rewardState then nS - 2 else nS - 1)))) := by
  unfold htmO
  simp only [travO_eq 3 4 _ n 1 0 _ [1] [] [if h.rewardState = true then nS - 2 else nS - 1]]
  rw [show (fun st (c : Ctx CAction) => (Except.ok (leafO h c.act c.a c.s c.next c.before c.after st) : Py F3)) =
    fun st c => .ok ((fun O (c : Ctx CAction) => leafO h c.act c.a c.s c.next c.before c.after O) st c) from rfl, foldlM_pure]
  rfl

theorem midO_leaf (h : HtmParams) (n : N2P CAction) {fin k : Nat} {c : Ctx CAction} (hk : (rootCtxs 3 4 1 n fin)[k]? = some c) (x : Nat)
    (hx : 4 * k + 1 ≤ x ∧ x < 4 * k + 5) :
    midO h n fin x = leafO h c.act c.a c.s c.next c.before c.after (fun _ _ _ => 0) x := by
  refine foldl_obs _ (fun O : F3 => O x) (fun _ _ => 0) _ _ k c hk ?_ ?_ (fun _ _ _ => 0) rfl
  · intro j c' hjk hj O
    have h2 := (root_get hj).2.1
    exact leafO_other _ _ _ _ _ _ _ _ _ (by omega)
  · intro O _
    have h2 := (root_get hk).2.1
    exact leafO_own _ _ _ _ _ _ _ _ _ (by omega) _

/-! ### Costs -/

/-- `update_R` of a leaf without the flag `structured`. -/
def leafRPure (h : HtmParams) (ds : List ℚ) (c : CAction) (a s : Nat) (R : F4) : F4 :=
  let R : F4 := fun x y z o => if s ≤ y ∧ y < s + 3 then ds.getD x 0 else R x y z o
  let R : F4 := fun x y z o => if x ≠ 0 ∧ s ≤ y ∧ y < s + 3 then R x y z o + h.intrCost else R x y z o
  let R : F4 := fun x y z o => if x = a ∧ y = s + 2 then c.tRob + h.intrCost else R x y z o
  match h.subtaskReward with
  | none => R
  | some r =>
      let R : F4 := fun x y z o => if s ≤ y ∧ y < s + 3 ∧ z < s then R x y z o - r else R x y z o
      fun x y z o => if s ≤ y ∧ y < s + 3 ∧ s + 3 ≤ z then R x y z o - r else R x y z o

theorem leafR_eq (h : HtmParams) (hs : h.structured = false) (ds : List ℚ) (c : CAction) (a s : Nat) (R : F4) :
    leafR h ds c a s R = .ok (leafRPure h ds c a s R) := by
  unfold leafR leafRPure
  simp only [hs, Bool.false_eq_true, if_false]
  cases h.subtaskReward <;> rfl

theorem leafR_structured (h : HtmParams) (hs : h.structured = true) (ds : List ℚ) (c : CAction) (a s : Nat) (R : F4) :
    leafR h ds c a s R = .error .attributeError := by
  unfold leafR
  simp [hs]

theorem leafRPure_other (h : HtmParams) (ds : List ℚ) (c : CAction) (a s : Nat) (R : F4) (y : Nat) (hy : y < s ∨ s + 3 ≤ y) (x : Nat) :
    leafRPure h ds c a s R x y = R x y := by
  have h1 : ¬ (s ≤ y ∧ y < s + 3) := by omega
  have h2 : y ≠ s + 2 := by omega
  have h3 : ∀ p, ¬ (s ≤ y ∧ y < s + 3 ∧ p) := by intro p hp; omega
  funext z o
  unfold leafRPure
  cases h.subtaskReward <;> simp only [h1, h2, h3, and_false, if_false]

theorem leafRPure_own (h : HtmParams) (ds : List ℚ) (c : CAction) (a s : Nat) (R : F4) (y : Nat) (hy : s ≤ y ∧ y < s + 3) (x z o : Nat) :
    leafRPure h ds c a s R x y z o =
      (if x = a ∧ y = s + 2 then c.tRob + h.intrCost else if x = 0 then ds.getD x 0 else ds.getD x 0 + h.intrCost) -
      (if z < s ∨ s + 3 ≤ z then h.subtaskReward.getD 0 else 0) := by
  unfold leafRPure
  have h3 : ∀ p, (s ≤ y ∧ y < s + 3 ∧ p) ↔ p := fun p => ⟨fun h => h.2.2, fun h => ⟨hy.1, hy.2, h⟩⟩
  cases h.subtaskReward with
  | none =>
    simp only [hy, h3, and_true, if_true, Option.getD_none, ite_self, sub_zero]
    split
    · rfl
    · by_cases hx : x = 0 <;> simp [hx]
  | some r =>
    simp only [hy, h3, and_true, if_true, Option.getD_some]
    by_cases hx : x = 0 <;> by_cases ha : x = a ∧ y = s + 2 <;> by_cases hz : z < s <;> by_cases hz' : s + 3 ≤ z <;>
      simp [hx, ha, hz, hz'] <;> omega

/-- The array before the last rows are filled. -/
def midR (h : HtmParams) (n : N2P CAction) (fin : Nat) : F4 :=
  (rootCtxs 3 4 1 n fin).foldl (fun R c => leafRPure h (htmDurations h n) c.act c.a c.s R) (fun _ _ _ _ => 0)

theorem htmR_eq (h : HtmParams) (hs : h.structured = false) (n : N2P CAction) (nS fin : Nat) :
    htmR h n nS = .ok (htmREnd h nS (midR h n fin)) := by
  unfold htmR
  simp only [travR_eq 3 4 _ n 1 0 [fin] [1] [] [fin]]
  rw [show (fun st (c : Ctx CAction) => leafR h (htmDurations h n) c.act c.a c.s st) =
    fun st c => .ok ((fun R (c : Ctx CAction) => leafRPure h (htmDurations h n) c.act c.a c.s R) st c) from
      funext fun st => funext fun c => leafR_eq h hs _ _ _ _ _, foldlM_pure]
  rfl

theorem htmR_structured (h : HtmParams) (hs : h.structured = true) (n : N2P CAction) (hf : Full n) (nS : Nat) :
    htmR h n nS = .error .attributeError := by
  unfold htmR
  simp only [travR_eq 3 4 _ n 1 0 [0] [1] [] [0]]
  have hl := ctxs_length 3 4 n 1 0 [0] [1] [] [0]
  have hp := leaves_pos n hf
  cases hc : ctxs 3 4 n 1 0 [0] [1] [] [0] with
  | nil => rw [hc] at hl; simp at hl; omega
  | cons c l => simp [leafR_structured h hs, bind, Except.bind]

theorem midR_leaf (h : HtmParams) (n : N2P CAction) {fin k : Nat} {c : Ctx CAction} (hk : (rootCtxs 3 4 1 n fin)[k]? = some c) (x i z o : Nat) (hi : i < 3) :
    midR h n fin x (3 * k + i) z o =
      (if x = 4 * k + 1 ∧ i = 2 then c.act.tRob + h.intrCost else if x = 0 then actDuration h n x else actDuration h n x + h.intrCost) -
      (if z < 3 * k ∨ 3 * k + 3 ≤ z then h.subtaskReward.getD 0 else 0) := by
  obtain ⟨_, ha, hs⟩ := root_get hk
  have := foldl_obs (fun R (c : Ctx CAction) => leafRPure h (htmDurations h n) c.act c.a c.s R) (fun R : F4 => R x (3 * k + i) z o) 0
    ((if x = 4 * k + 1 ∧ i = 2 then c.act.tRob + h.intrCost else if x = 0 then actDuration h n x else actDuration h n x + h.intrCost) -
      (if z < 3 * k ∨ 3 * k + 3 ≤ z then h.subtaskReward.getD 0 else 0)) _ k c hk ?_ ?_ (fun _ _ _ _ => 0) rfl
  · exact this
  · intro j c' hjk hj R
    have h2 := (root_get hj).2.2
    rw [leafRPure_other _ _ _ _ _ _ _ (by omega)]
  · intro R _
    rw [leafRPure_own _ _ _ _ _ _ _ (by omega), htmDurations_getD, hs, ha]
    have e1 : (x = 1 + 4 * k ∧ 3 * k + i = 3 * k + 2) ↔ (x = 4 * k + 1 ∧ i = 2) := by omega
    simp only [e1]

/-! ### The model -/

/-- The number of states. -/
def htmNS (h : HtmParams) (n : N2P CAction) : Nat := 3 * n.leaves.length + (if h.rewardState then 2 else 1)

/-- The arrays of the model. -/
def htmTArr (exp : ℚ → ℚ) (h : HtmParams) (n : N2P CAction) : F3 := htmTEnd h (htmNS h n) (n.init 3 0) (midT exp h n (3 * n.leaves.length))
@[inherit_doc htmTArr]
def htmOArr (h : HtmParams) (n : N2P CAction) : F3 := htmOEnd h (htmNS h n) (setObsAll 0 (unit oNone) (midO h n (3 * n.leaves.length)))
@[inherit_doc htmTArr]
def htmRArr (h : HtmParams) (n : N2P CAction) : F4 := htmREnd h (htmNS h n) (midR h n (3 * n.leaves.length))

theorem flatMap_length_const {α β : Type} (w : Nat) (f : α → List β) (hf : ∀ a, (f a).length = w) (l : List α) : (l.flatMap f).length = w * l.length := by
  induction l with
  | nil => simp
  | cons c l ih => simp [hf, ih]; ring

theorem flatMap_get_const {α β : Type} (w : Nat) (f : α → List β) (hf : ∀ a, (f a).length = w) (l : List α) :
    ∀ (k : Nat) (c : α), l[k]? = some c → ∀ i < w, (l.flatMap f)[w * k + i]? = (f c)[i]? := by
  induction l with
  | nil => intro k c h; simp at h
  | cons a l ih =>
    intro k c h i hi
    rw [List.flatMap_cons]
    cases k with
    | zero =>
      have : a = c := by simpa using h
      subst this
      rw [List.getElem?_append_left (by rw [hf]; omega)]
      simp
    | succ k =>
      rw [List.getElem?_append_right (by rw [hf, Nat.mul_succ]; omega), hf,
        show w * (k + 1) + i - w = w * k + i by rw [Nat.mul_succ]; omega]
      exact ih k c (by simpa using h) i hi

theorem htm_states_length (radix : String → String) (h : HtmParams) (n : N2P CAction) :
    (n.concat (leafStates radix) ++ endStates h).length = htmNS h n := by
  rw [List.length_append, concat, flatMap_length_const 3 _ (fun a => rfl), htmNS, endStates]
  split <;> rfl

theorem htm_actions_length (radix : String → String) (n : N2P CAction) :
    (Name.str "wait" :: n.concat (leafActions radix)).length = 4 * n.leaves.length + 1 := by
  rw [List.length_cons, concat, flatMap_length_const 4 _ (fun a => rfl)]

theorem htmConvert_eq (solver : Option String) (exp : ℚ → ℚ) (radix : String → String) (h : HtmParams) (n : N2P CAction) (hf : n.hasEmptySeq = false)
    (hs : h.structured = false) :
    htmConvert solver exp radix h n =
      Pomdp.mk' solver ⟨4 * n.leaves.length + 1, htmNS h n, htmNS h n, htmTArr exp h n⟩ ⟨4 * n.leaves.length + 1, htmNS h n, (htmObservations h).length, htmOArr h n⟩
        ⟨4 * n.leaves.length + 1, htmNS h n, htmNS h n, (htmObservations h).length, htmRArr h n⟩
        ((List.range (htmNS h n)).map (scatter (fun _ => 0) (n.init 3 0) n.start)) 1 (some (n.concat (leafStates radix) ++ endStates h))
        (some (Name.str "wait" :: n.concat (leafActions radix))) (some (htmObservations h)) "cost" := by
  unfold htmConvert
  simp only [hf, Bool.false_eq_true, if_false]
  rw [htm_states_length, htm_actions_length, htmT_eq, htmO_eq, htmR_eq h hs n _ (3 * n.leaves.length)]
  have e : (if h.rewardState = true then htmNS h n - 2 else htmNS h n - 1) = 3 * n.leaves.length := by
    unfold htmNS
    split <;> omega
  simp only [e, bind, Except.bind]
  rfl

theorem full_noEmpty {A : Type} (n : N2P A) (hf : Full n) : n.hasEmptySeq = false := by
  induction n using N2P.induct with
  | hleaf x => rfl
  | hseq cs ih =>
    obtain ⟨h1, h2⟩ := hf
    rw [fullL_iff] at h2
    simp only [N2P.hasEmptySeq, Bool.or_eq_false_iff]
    refine ⟨by simpa using h1, ?_⟩
    clear h1
    induction cs with
    | nil => rfl
    | cons c cs ihl =>
      simp only [N2P.hasEmptySeqL, Bool.or_eq_false_iff]
      exact ⟨ih c (by simp) (h2 c (by simp)), ihl (fun c hc => ih c (by simp [hc])) (fun c hc => h2 c (by simp [hc]))⟩
  | halt cs ih =>
    obtain ⟨h1, h2⟩ := hf
    rw [fullL_iff] at h2
    simp only [N2P.hasEmptySeq]
    clear h1
    induction cs with
    | nil => rfl
    | cons c cs ihl =>
      simp only [N2P.hasEmptySeqL, Bool.or_eq_false_iff]
      exact ⟨ih c (by simp) (h2 c (by simp)), ihl (fun c hc => ih c (by simp [hc])) (fun c hc => h2 c (by simp [hc]))⟩

theorem mk'_cost (path : String) (T O : Arr3) (R : Arr4) (start : List ℚ) (discount : ℚ) (S A Ob : Option (List Name)) :
    (∃ p, Pomdp.mk' (some path) T O R start discount S A Ob "cost" = .ok p) ∨
      Pomdp.mk' (some path) T O R start discount S A Ob "cost" = .error .valueError := by
  unfold Pomdp.mk'
  have hr : Pomdp.rewardOf "cost" R = .ok R.neg := by simp [Pomdp.rewardOf]
  rw [hr]
  simp only [bind, Except.bind]
  split
  · exact Or.inr rfl
  · split
    · exact Or.inr rfl
    · split
      · exact Or.inr rfl
      · split
        · exact Or.inr rfl
        · exact Or.inl ⟨_, by simp; rfl⟩

end Verif
