import Verif.Spec.Visits
import Verif.Proof.Orders
import Mathlib.Data.List.Count
import Mathlib.Algebra.BigOperators.Group.List.Basic
import Mathlib.Analysis.Complex.Exponential

/-! Proofs about the plays of a model of `HTMToPOMDP` (C105). -/

set_option linter.unusedSectionVars false
set_option linter.unusedSimpArgs false

namespace Verif
open Spec

/-! ### Linearisations go from left to right -/

section lin
variable {A : Type}

theorem lin_increasing (n : N2P A) : ∀ k u, Lin n k u → u.Pairwise (· < ·) ∧ ∀ j ∈ u, k ≤ j ∧ j < k + n.leaves.length := by
  refine N2P.rec (motive_1 := fun n => ∀ k u, Lin n k u → u.Pairwise (· < ·) ∧ ∀ j ∈ u, k ≤ j ∧ j < k + n.leaves.length)
    (motive_2 := fun cs => (∀ k u, LinSeq cs k u → u.Pairwise (· < ·) ∧ ∀ j ∈ u, k ≤ j ∧ j < k + (N2P.leavesL cs).length) ∧
      ∀ k u, LinAlt cs k u → u.Pairwise (· < ·) ∧ ∀ j ∈ u, k ≤ j ∧ j < k + (N2P.leavesL cs).length) ?_ ?_ ?_ ?_ ?_ n
  · intro a k u h
    simp only [Lin] at h
    subst h
    simp [N2P.leaves]
  · intro cs ih k u h
    simp only [Lin] at h
    simpa only [N2P.leaves] using ih.1 k u h
  · intro cs ih k u h
    simp only [Lin] at h
    simpa only [N2P.leaves] using ih.2 k u h
  · refine ⟨fun k u h => ?_, fun k u h => ?_⟩
    · simp only [LinSeq] at h
      subst h
      simp
    · simp only [LinAlt] at h
  · intro c cs ihc ih
    refine ⟨fun k u h => ?_, fun k u h => ?_⟩
    · simp only [LinSeq] at h
      obtain ⟨v, w, rfl, h1, h2⟩ := h
      obtain ⟨p1, b1⟩ := ihc k v h1
      obtain ⟨p2, b2⟩ := ih.1 _ w h2
      simp only [N2P.leavesL, List.length_append]
      refine ⟨List.pairwise_append.2 ⟨p1, p2, fun i hi j hj => ?_⟩, fun j hj => ?_⟩
      · have := b1 i hi
        have := b2 j hj
        omega
      · rcases List.mem_append.1 hj with hj | hj
        · have := b1 j hj
          omega
        · have := b2 j hj
          omega
    · simp only [LinAlt] at h
      simp only [N2P.leavesL, List.length_append]
      rcases h with h | h
      · obtain ⟨p1, b1⟩ := ihc k u h
        refine ⟨p1, fun j hj => ?_⟩
        have := b1 j hj
        omega
      · obtain ⟨p1, b1⟩ := ih.2 _ u h
        refine ⟨p1, fun j hj => ?_⟩
        have := b1 j hj
        omega

theorem followedBy_lt {n : N2P A} {k j : Nat} (h : FollowedBy n k j) : k < j ∧ j < n.leaves.length := by
  obtain ⟨u, v, h⟩ := h
  obtain ⟨p, b⟩ := lin_increasing n 0 _ h
  refine ⟨?_, by simpa using (b j (by simp)).2⟩
  have := (List.pairwise_append.1 p).2.1
  rw [List.pairwise_cons] at this
  exact this.1 j (by simp)

end lin

/-! ### Plays of a leaf -/

/-- The rows of the model, with `m` leaves `cs`. -/
structure VRows (exp : ℚ → ℚ) (dur : Nat → ℚ) (m : Nat) (leaf : Nat → Option CAction) (q : Nat → Nat → ℚ) (T : Nat → Nat → Nat → ℚ) : Prop where
  some_lt : ∀ k c, leaf k = some c → k < m
  init : ∀ k c, leaf k = some c → ∀ x z, T x (3 * k) z = initRow c k x z
  human : ∀ k c, leaf k = some c → ∀ x z, T x (3 * k + 1) z = humanRow exp c (dur x) (q k) k z
  robot : ∀ k c, leaf k = some c → ∀ x z, T x (3 * k + 2) z = robotRow c (q k) k x z
  next : ∀ k c, leaf k = some c → ∀ z, q k z ≠ 0 → (∃ j c', z = 3 * j ∧ k < j ∧ leaf j = some c') ∨ z = 3 * m

section play
variable {exp : ℚ → ℚ} {dur : Nat → ℚ} {m : Nat} {leaf : Nat → Option CAction} {q : Nat → Nat → ℚ} {T : Nat → Nat → Nat → ℚ}

theorem VRows.off (H : VRows exp dur m leaf q T) {k : Nat} {c : CAction} (hc : leaf k = some c) (z : Nat) (hz : ∀ j, z ≠ 3 * j) : q k z = 0 := by
  by_contra h
  rcases H.next k c hc z h with ⟨j, _, e, _⟩ | e
  · exact hz _ e
  · exact hz _ e

theorem playProb_stay (f : Nat → ℚ) (s : Nat) (xs : List Nat) (h : ∀ x ∈ xs, T x s s = f x) (w : List (Nat × Nat)) :
    playProb T s (xs.map (fun x => (x, s)) ++ w) = (xs.map f).prod * playProb T s w := by
  induction xs with
  | nil => simp
  | cons x xs ih =>
    simp only [List.map_cons, List.cons_append, playProb, List.prod_cons]
    rw [ih fun y hy => h y (by simp [hy]), h x (by simp)]
    ring

theorem prod_count (p : ℚ) (a : Nat) (xs : List Nat) : (xs.map fun x => if x = a then p else 1).prod = p ^ xs.count a := by
  induction xs with
  | nil => simp
  | cons x xs ih =>
    rw [List.map_cons, List.prod_cons, ih, List.count_cons]
    by_cases hx : x = a
    · simp [hx, pow_succ, mul_comm]
    · simp [hx]

theorem VRows.visit (H : VRows exp dur m leaf q T) (v : Visit) (hv : v.Valid) {c : CAction} (hc : leaf v.leaf = some c) (j : Nat) (w : List (Nat × Nat)) :
    playProb T (3 * v.leaf) (v.inside ++ (v.last, 3 * j) :: w) = visitChance exp dur c v * q v.leaf (3 * j) * playProb T (3 * j) w := by
  obtain ⟨k, before, enter, robot, during, last⟩ := v
  obtain ⟨h1, h2, h3⟩ := hv
  dsimp only at *
  have o1 := H.off hc (3 * k + 1) (by omega)
  have o2 := H.off hc (3 * k + 2) (by omega)
  simp only [Visit.inside, Visit.place, List.append_assoc]
  rw [playProb_stay (fun _ => 1) (3 * k) before]
  · rw [List.map_const', List.prod_replicate, one_pow, one_mul]
    cases robot
    · obtain rfl : enter = 4 * k + 2 := by simpa using h2
      simp only [Bool.false_eq_true, if_false, List.cons_append, playProb]
      rw [playProb_stay (fun x => notDone exp c (dur x)) (3 * k + 1) during, H.init k c hc]
      · simp only [playProb]
        rw [H.human k c hc]
        simp only [initRow, humanRow, stay, visitChance, notDone, Bool.false_eq_true, if_false, if_true]
        rw [if_neg (by omega), if_neg (by omega)]
        ring
      · intro x _
        rw [H.human k c hc, humanRow, o1, stay, if_pos rfl, notDone]
        ring
    · obtain rfl := h3 rfl
      simp only [if_true, List.cons_append, playProb]
      rw [playProb_stay (fun x => if x = 4 * k + 1 then c.failProba else 1) (3 * k + 2) during, H.init k c hc, prod_count]
      · simp only [playProb]
        rw [H.robot k c hc]
        simp only [initRow, robotRow, stay, visitChance, if_true]
        rw [if_neg (show ¬ 3 * j = 3 * k + 2 by omega), if_neg (show ¬ 3 * k + 2 = 3 * k + 1 by omega)]
        rcases h2 with rfl | ⟨rfl, -⟩
        · simp only [if_true]
          ring
        · rw [if_neg (by omega), if_pos rfl, if_neg (show ¬ 4 * k + 3 = 4 * k + 2 by omega)]
          ring
      · intro x _
        rw [H.robot k c hc, robotRow, o2, stay, if_pos rfl]
        split <;> ring
  · intro x hx
    rw [H.init k c hc, initRow, if_neg (h1 x hx).1, if_neg (h1 x hx).2, stay, if_pos rfl]

/-- The probability of visits. -/
theorem VRows.follow (H : VRows exp dur m leaf q T) (vs : List Visit) (cs : List CAction) (hv : ∀ v ∈ vs, v.Valid)
    (hc : List.Forall₂ (fun v c => leaf v.leaf = some c) vs cs) (hne : vs ≠ []) :
    playProb T (firstState (3 * m) vs) (playOf (3 * m) vs) =
      followProb 3 (3 * m) q (vs.map Visit.leaf) * (List.zipWith (fun v c => visitChance exp dur c v) vs cs).prod := by
  induction hc with
  | nil => exact absurd rfl hne
  | @cons v c vs cs h hs ih =>
    simp only [playOf, List.zipWith_cons_cons, List.prod_cons]
    cases hs with
    | nil =>
      simp only [firstState, playOf, List.map_cons, List.map_nil, followProb, List.zipWith_nil_left, List.prod_nil, mul_one]
      rw [H.visit v (hv v (by simp)) h, playProb]
      ring
    | @cons v' c' vs' cs' h' hs' =>
      have := ih (fun v hv' => hv v (by simp [hv'])) (by simp)
      simp only [firstState, List.map_cons, followProb] at this ⊢
      rw [H.visit v (hv v (by simp)) h, this]
      ring

/-! ### All plays are visits -/

theorem VRows.split (H : VRows exp dur m leaf q T) (w : List (Nat × Nat)) : ∀ s, playProb T s w ≠ 0 → (w.map Prod.snd).getLast? = some (3 * m) →
    (∀ z ∈ (w.map Prod.snd).dropLast, z ≠ 3 * m) →
    (∀ k c, leaf k = some c → s = 3 * k → ∃ v vs, w = playOf (3 * m) (v :: vs) ∧ v.leaf = k ∧ (∀ u ∈ v :: vs, u.Valid ∧ ∃ c, leaf u.leaf = some c) ∧
      ((v :: vs).map Visit.leaf).Pairwise (· < ·)) ∧
    (∀ k c (b : Bool), leaf k = some c → s = (if b then 3 * k + 2 else 3 * k + 1) → ∃ (during : List Nat) (last : Nat) (vs : List Visit),
      w = during.map (fun x => (x, s)) ++ (last, firstState (3 * m) vs) :: playOf (3 * m) vs ∧ (b = true → last = 4 * k + 1) ∧
      (∀ u ∈ vs, u.Valid ∧ ∃ c, leaf u.leaf = some c) ∧ (k :: vs.map Visit.leaf).Pairwise (· < ·)) := by
  induction w with
  | nil => intro s _ h; simp at h
  | cons y w ih =>
    obtain ⟨x, z⟩ := y
    intro s hp hl hd
    simp only [playProb] at hp
    obtain ⟨hT, hp'⟩ := mul_ne_zero_iff.1 hp
    have hzm : w ≠ [] → z ≠ 3 * m := by
      intro hw
      cases w with
      | nil => exact absurd rfl hw
      | cons y w => exact hd z (by simp)
    have hw0 : w = [] → z = 3 * m := by
      rintro rfl
      simpa using hl
    have ih' : w ≠ [] → _ := fun hw => ih z hp'
      (by
        cases w with
        | nil => exact absurd rfl hw
        | cons y w => simpa using hl)
      (by
        cases w with
        | nil => exact absurd rfl hw
        | cons y w =>
          intro z' hz'
          exact hd z' (by simp only [List.map_cons, List.dropLast_cons_of_ne_nil (List.cons_ne_nil _ _)] at hz' ⊢; exact List.mem_cons_of_mem _ hz'))
    -- arriving at another leaf or at the end
    have harrive : ∀ k c, leaf k = some c → q k z ≠ 0 → ∃ vs, z = firstState (3 * m) vs ∧ w = playOf (3 * m) vs ∧
        (∀ u ∈ vs, u.Valid ∧ ∃ c, leaf u.leaf = some c) ∧ (k :: vs.map Visit.leaf).Pairwise (· < ·) := by
      intro k c hc hq
      rcases H.next k c hc z hq with ⟨j, c', rfl, hkj, hj⟩ | rfl
      · have hw : w ≠ [] := by
          intro hw
          have := hw0 hw
          have := H.some_lt j c' hj
          omega
        obtain ⟨v, vs, rfl, rfl, hval, hpw⟩ := (ih' hw).1 j c' hj rfl
        refine ⟨v :: vs, rfl, rfl, hval, List.pairwise_cons.2 ⟨?_, hpw⟩⟩
        intro i hi
        rw [List.map_cons] at hi hpw
        rcases List.mem_cons.1 hi with rfl | hi
        · exact hkj
        · exact hkj.trans ((List.pairwise_cons.1 hpw).1 i hi)
      · have hw : w = [] := by
          by_contra hw
          exact hzm hw rfl
        subst hw
        exact ⟨[], rfl, rfl, by simp, by simp⟩
    refine ⟨fun k c hc hs => ?_, fun k c b hc hs => ?_⟩
    · subst hs
      have hkm := H.some_lt k c hc
      rw [H.init k c hc, initRow] at hT
      by_cases hx2 : x = 4 * k + 2
      · rw [if_pos hx2] at hT
        have hz : ∃ b : Bool, z = if b then 3 * k + 2 else 3 * k + 1 := by
          by_cases h2 : z = 3 * k + 2
          · exact ⟨true, h2⟩
          · by_cases h1 : z = 3 * k + 1
            · exact ⟨false, h1⟩
            · simp [stay, h1, h2] at hT
        obtain ⟨b, hz⟩ := hz
        have hw : w ≠ [] := by
          intro hw
          have := hw0 hw
          cases b <;> simp at hz <;> omega
        obtain ⟨during, last, vs, rfl, hlast, hval, hpw⟩ := (ih' hw).2 k c b hc hz
        refine ⟨⟨k, [], x, b, during, last⟩, vs, ?_, rfl, ?_, hpw⟩
        · simp only [playOf, Visit.inside, Visit.place, List.map_nil, List.nil_append, hz, List.cons_append]
        · intro u hu
          rcases List.mem_cons.1 hu with rfl | hu
          · exact ⟨⟨by simp, .inl hx2, hlast⟩, c, hc⟩
          · exact hval u hu
      · rw [if_neg hx2] at hT
        by_cases hx3 : x = 4 * k + 3
        · rw [if_pos hx3] at hT
          have hz : z = 3 * k + 2 := by
            by_contra h2
            simp [stay, h2] at hT
          have hw : w ≠ [] := by
            intro hw
            have := hw0 hw
            omega
          obtain ⟨during, last, vs, rfl, hlast, hval, hpw⟩ := (ih' hw).2 k c true hc hz
          refine ⟨⟨k, [], x, true, during, last⟩, vs, ?_, rfl, ?_, hpw⟩
          · simp only [playOf, Visit.inside, Visit.place, List.map_nil, List.nil_append, hz, List.cons_append, if_true]
          · intro u hu
            rcases List.mem_cons.1 hu with rfl | hu
            · exact ⟨⟨by simp, .inr ⟨hx3, rfl⟩, hlast⟩, c, hc⟩
            · exact hval u hu
        · rw [if_neg hx3] at hT
          have hz : z = 3 * k := by
            by_contra h2
            simp [stay, h2] at hT
          have hw : w ≠ [] := by
            intro hw
            have := hw0 hw
            omega
          obtain ⟨v, vs, rfl, hvk, hval, hpw⟩ := (ih' hw).1 k c hc hz
          obtain ⟨⟨hv1, hv2, hv3⟩, hvc⟩ := hval v (by simp)
          refine ⟨{ v with before := x :: v.before }, vs, ?_, hvk, ?_, hpw⟩
          · simp only [playOf, Visit.inside, Visit.place, List.map_cons, List.cons_append, hvk, hz]
          · intro u hu
            rcases List.mem_cons.1 hu with rfl | hu
            · refine ⟨⟨fun y hy => ?_, hv2, hv3⟩, hvc⟩
              rcases List.mem_cons.1 hy with rfl | hy
              · dsimp only
                rw [hvk]
                exact ⟨hx2, hx3⟩
              · exact hv1 y hy
            · exact hval u (by simp [hu])
    · have hkm := H.some_lt k c hc
      -- staying
      have hstay : z = s → ∃ (during : List Nat) (last : Nat) (vs : List Visit),
          (x, z) :: w = during.map (fun x => (x, s)) ++ (last, firstState (3 * m) vs) :: playOf (3 * m) vs ∧ (b = true → last = 4 * k + 1) ∧
          (∀ u ∈ vs, u.Valid ∧ ∃ c, leaf u.leaf = some c) ∧ (k :: vs.map Visit.leaf).Pairwise (· < ·) := by
        intro hz
        have hw : w ≠ [] := by
          intro hw
          have := hw0 hw
          cases b <;> simp at hs <;> omega
        obtain ⟨during, last, vs, rfl, hrest⟩ := (ih' hw).2 k c b hc (hz.trans hs)
        exact ⟨x :: during, last, vs, by simp only [List.map_cons, List.cons_append, hz], hrest⟩
      by_cases hz : z = s
      · exact hstay hz
      · cases b
        · simp only [Bool.false_eq_true, if_false] at hs
          subst hs
          rw [H.human k c hc, humanRow, stay, if_neg hz, mul_zero, zero_add] at hT
          obtain ⟨vs, rfl, rfl, hval, hpw⟩ := harrive k c hc (mul_ne_zero_iff.1 hT).2
          exact ⟨[], x, vs, rfl, by simp, hval, hpw⟩
        · simp only [if_true] at hs
          subst hs
          rw [H.robot k c hc, robotRow, stay, if_neg hz] at hT
          by_cases hx : x = 4 * k + 1
          · rw [if_pos hx, mul_zero, zero_add] at hT
            obtain ⟨vs, rfl, rfl, hval, hpw⟩ := harrive k c hc (mul_ne_zero_iff.1 hT).2
            exact ⟨[], x, vs, rfl, fun _ => hx, hval, hpw⟩
          · rw [if_neg hx] at hT
            exact absurd rfl hT

theorem stay_unique {s t t' y y' : Nat} {w w' : List (Nat × Nat)} (ht : t ≠ s) (ht' : t' ≠ s) : ∀ xs xs' : List Nat,
    xs.map (fun x => (x, s)) ++ (y, t) :: w = xs'.map (fun x => (x, s)) ++ (y', t') :: w' → xs = xs' ∧ y = y' ∧ t = t' ∧ w = w'
  | [], [], h => by simpa [and_assoc] using h
  | x :: xs, [], h => by
    simp only [List.map_cons, List.cons_append, List.map_nil, List.nil_append, List.cons.injEq, Prod.mk.injEq] at h
    exact absurd h.1.2.symm ht'
  | [], x :: xs, h => by
    simp only [List.map_cons, List.cons_append, List.map_nil, List.nil_append, List.cons.injEq, Prod.mk.injEq] at h
    exact absurd h.1.2 ht
  | x :: xs, x' :: xs', h => by
    simp only [List.map_cons, List.cons_append, List.cons.injEq, Prod.mk.injEq] at h
    obtain ⟨rfl, h2⟩ := stay_unique ht ht' xs xs' h.2
    exact ⟨by rw [h.1.1], h2⟩

/-- A play is made of the visits of only one sequence. -/
theorem playOf_inj (m : Nat) : ∀ vs vs' : List Visit, firstState (3 * m) vs = firstState (3 * m) vs' → playOf (3 * m) vs = playOf (3 * m) vs' → vs = vs'
  | [], [], _, _ => rfl
  | [], v :: vs, _, h => by simp [playOf, Visit.inside] at h
  | v :: vs, [], _, h => by simp [playOf, Visit.inside] at h
  | v :: vs, v' :: vs', hs, h => by
    have hplace : ∀ u : Visit, u.place ≠ 3 * u.leaf := by
      intro u
      unfold Visit.place
      split <;> omega
    have hfirst : ∀ (u : Visit) (us : List Visit), firstState (3 * m) us ≠ u.place := by
      intro u us
      unfold Visit.place
      cases us <;> simp only [firstState] <;> split <;> omega
    obtain ⟨k, before, enter, robot, during, last⟩ := v
    obtain ⟨k', before', enter', robot', during', last'⟩ := v'
    simp only [firstState] at hs
    obtain rfl : k = k' := by omega
    simp only [playOf, Visit.inside, List.append_assoc, List.cons_append] at h
    obtain ⟨rfl, rfl, h3, h4⟩ := stay_unique (hplace ⟨k, before, enter, robot, during, last⟩) (hplace ⟨k, before', enter', robot', during', last'⟩) _ _ h
    have : robot = robot' := by
      simp only [Visit.place] at h3
      cases robot <;> cases robot' <;> simp at h3 ⊢
    subst this
    obtain ⟨rfl, rfl, h7, h8⟩ := stay_unique (hfirst ⟨k, before, enter, robot, during, last⟩ vs) (hfirst ⟨k, before, enter, robot, during', last'⟩ vs') _ _ h4
    rw [playOf_inj m vs vs' h7 h8]

end play

/-! ### Rewards -/

section rewards
variable {R : Nat → Nat → Nat → Nat → ℚ}

theorem earns_append_stay (f : Nat → ℚ) (s : Nat) (xs : List Nat) (h : ∀ x ∈ xs, ∀ o, R x s s o = f x) (w : List (Nat × Nat)) (r : ℚ)
    (hw : Earns R s w r) : Earns R s (xs.map (fun x => (x, s)) ++ w) ((xs.map f).sum + r) := by
  induction xs with
  | nil => simpa using hw
  | cons x xs ih =>
    rw [List.map_cons, List.map_cons, List.sum_cons, List.cons_append, add_assoc]
    exact .cons _ _ _ _ _ _ (h x (by simp)) (ih fun y hy => h y (by simp [hy]))

theorem earns_unique {s : Nat} {w : List (Nat × Nat)} {r r' : ℚ} (h : Earns R s w r) (h' : Earns R s w r') : r = r' := by
  induction h generalizing r' with
  | nil => cases h'; rfl
  | cons s x z w r v hr _ ih =>
    cases h' with
    | cons _ _ _ _ r2 v2 hr2 hv2 => rw [ih hv2, ← hr 0, ← hr2 0]

/-- The rewards of the model, with `m` leaves. -/
def VCosts (h : HtmParams) (dur : Nat → ℚ) (leaf : Nat → Option CAction) (R : Nat → Nat → Nat → Nat → ℚ) : Prop :=
  ∀ k c, leaf k = some c → ∀ i < 3, ∀ x z o, R x (3 * k + i) z o = - ((if x = 4 * k + 1 ∧ i = 2 then c.tRob + h.intrCost
    else if x = 0 then h.tWait else dur x + h.intrCost) - (if z / 3 = k then 0 else h.subtaskReward.getD 0))

theorem earns_visit {h : HtmParams} {dur : Nat → ℚ} {leaf : Nat → Option CAction} (H : VCosts h dur leaf R) (v : Visit) {c : CAction}
    (hc : leaf v.leaf = some c) (j : Nat) (hj : j ≠ v.leaf) (w : List (Nat × Nat)) (r : ℚ) (hw : Earns R (3 * j) w r) :
    Earns R (3 * v.leaf) (v.inside ++ (v.last, 3 * j) :: w) (-visitCost h dur c v + h.subtaskReward.getD 0 + r) := by
  obtain ⟨k, before, enter, robot, during, last⟩ := v
  dsimp only at *
  have hin : ∀ x o, R x (3 * k) (3 * k) o = -actCost h dur x := by
    intro x o
    have := H k c hc 0 (by omega) x (3 * k) o
    rw [add_zero] at this
    rw [this, if_neg (show ¬ (x = 4 * k + 1 ∧ (0 : ℕ) = 2) by omega), if_pos (show 3 * k / 3 = k by omega), sub_zero]
    rfl
  have hplace : ∀ x z o, R x (if robot then 3 * k + 2 else 3 * k + 1) z o =
      -(doingCost h dur c ⟨k, before, enter, robot, during, last⟩ x - if z / 3 = k then 0 else h.subtaskReward.getD 0) := by
    intro x z o
    cases robot
    · simp only [Bool.false_eq_true, if_false]
      rw [H k c hc 1 (by omega), if_neg (show ¬ (x = 4 * k + 1 ∧ (1 : ℕ) = 2) by omega)]
      simp [doingCost, actCost]
    · simp only [if_true]
      rw [H k c hc 2 (by omega)]
      simp [doingCost, actCost]
  have hdiv : (if robot then 3 * k + 2 else 3 * k + 1) / 3 = k := by split <;> omega
  have hlast : Earns R (if robot then 3 * k + 2 else 3 * k + 1) ((last, 3 * j) :: w)
      (-(doingCost h dur c ⟨k, before, enter, robot, during, last⟩ last) + h.subtaskReward.getD 0 + r) := by
    refine .cons _ _ _ _ _ _ (fun o => ?_) hw
    rw [hplace, if_neg (show ¬ 3 * j / 3 = k by omega)]
    ring
  have hduring := earns_append_stay (fun x => -doingCost h dur c ⟨k, before, enter, robot, during, last⟩ x) _ during
    (fun x _ o => by rw [hplace, if_pos hdiv, sub_zero]) _ _ hlast
  have he : ∀ o, R enter (3 * k) (if robot then 3 * k + 2 else 3 * k + 1) o = -actCost h dur enter := by
    intro o
    have := H k c hc 0 (by omega) enter (if robot then 3 * k + 2 else 3 * k + 1) o
    rw [add_zero] at this
    rw [this, if_neg (show ¬ (enter = 4 * k + 1 ∧ (0 : ℕ) = 2) by omega), if_pos hdiv, sub_zero]
    rfl
  have henter := Earns.cons (R := R) (3 * k) enter _ _ _ _ he hduring
  have hall := earns_append_stay (fun x => -actCost h dur x) (3 * k) before (fun x _ o => hin x o) _ _ henter
  have key : ∀ (f : Nat → ℚ) (l : List Nat), (l.map fun x => -f x).sum = -(l.map f).sum := by
    intro f l
    induction l with
    | nil => simp
    | cons a l ih => rw [List.map_cons, List.map_cons, List.sum_cons, List.sum_cons, ih]; ring
  convert hall using 1
  · simp [Visit.inside, Visit.place]
  · simp only [visitCost, List.map_append, List.sum_append, List.map_cons, List.map_nil, List.sum_cons, List.sum_nil, add_zero, key]
    ring

theorem earns_visits {h : HtmParams} {dur : Nat → ℚ} {leaf : Nat → Option CAction} {m : Nat} (hm : ∀ k c, leaf k = some c → k < m)
    (H : VCosts h dur leaf R) (vs : List Visit) (cs : List CAction) (hc : List.Forall₂ (fun v c => leaf v.leaf = some c) vs cs)
    (hp : (vs.map Visit.leaf).IsChain (· ≠ ·)) :
    Earns R (firstState (3 * m) vs) (playOf (3 * m) vs) ((List.zipWith (fun v c => h.subtaskReward.getD 0 - visitCost h dur c v) vs cs).sum) := by
  induction hc with
  | nil => exact .nil _
  | @cons v c vs cs h1 hs ih =>
    rw [List.zipWith_cons_cons, List.sum_cons]
    have hr := ih (by rw [List.map_cons] at hp; exact hp.tail)
    obtain ⟨j, hj, hne⟩ : ∃ j, firstState (3 * m) vs = 3 * j ∧ j ≠ v.leaf := by
      cases vs with
      | nil => exact ⟨m, rfl, by have := hm _ _ h1; omega⟩
      | cons v' vs =>
        refine ⟨v'.leaf, rfl, ?_⟩
        simp only [List.map_cons, List.isChain_cons_cons] at hp
        exact hp.1.symm
    rw [hj] at hr
    have := earns_visit H v h1 j hne _ _ hr
    rw [← hj] at this
    rw [show h.subtaskReward.getD 0 - visitCost h dur c v = -visitCost h dur c v + h.subtaskReward.getD 0 by ring]
    exact this

end rewards

/-! ### Time -/

theorem prod_near (ε : ℝ) (f : Nat → ℚ) (g : Nat → ℝ) : ∀ xs : List Nat, (∀ x ∈ xs, 0 ≤ f x ∧ f x ≤ 1 ∧ 0 ≤ g x ∧ g x ≤ 1 ∧ |(f x : ℝ) - g x| ≤ ε) →
    0 ≤ (xs.map f).prod ∧ (xs.map f).prod ≤ 1 ∧ 0 ≤ (xs.map g).prod ∧ (xs.map g).prod ≤ 1 ∧
      |(((xs.map f).prod : ℚ) : ℝ) - (xs.map g).prod| ≤ xs.length * ε
  | [], _ => by simp
  | x :: xs, h => by
    obtain ⟨f0, f1, g0, g1, he⟩ := h x (by simp)
    obtain ⟨F0, F1, G0, G1, hE⟩ := prod_near ε f g xs fun y hy => h y (by simp [hy])
    simp only [List.map_cons, List.prod_cons, List.length_cons]
    refine ⟨mul_nonneg f0 F0, mul_le_one₀ f1 F0 F1, mul_nonneg g0 G0, mul_le_one₀ g1 G0 G1, ?_⟩
    have f0' : (0 : ℝ) ≤ f x := by exact_mod_cast f0
    have f1' : (f x : ℝ) ≤ 1 := by exact_mod_cast f1
    push_cast
    have e : (f x : ℝ) * ((xs.map f).prod : ℚ) - g x * (xs.map g).prod =
        f x * (((xs.map f).prod : ℚ) - (xs.map g).prod) + (f x - g x) * (xs.map g).prod := by ring
    rw [e]
    refine (abs_add_le _ _).trans ?_
    rw [abs_mul, abs_mul, abs_of_nonneg f0', abs_of_nonneg G0]
    have h1 := mul_le_mul f1' hE (abs_nonneg _) zero_le_one
    have h2 := mul_le_mul he G1 G0 ((abs_nonneg _).trans he)
    linarith

theorem exp_sum (t : ℝ) (d : Nat → ℝ) (xs : List Nat) : (xs.map fun x => Real.exp (-d x / t)).prod = Real.exp (-(xs.map d).sum / t) := by
  induction xs with
  | nil => simp
  | cons x xs ih =>
    rw [List.map_cons, List.prod_cons, ih, List.map_cons, List.sum_cons, ← Real.exp_add]
    congr 1
    ring

/-! ### Repeated attempts -/

/-- Sums over the number of failed attempts, each with probability `e`. -/
theorem attempts_sum (e : ℚ) (m : Nat) : sumRange m (fun f => e ^ f * (1 - e)) = 1 - e ^ m := by
  induction m with
  | zero => simp [sumRange]
  | succ m ih =>
    rw [sumRange_succ, ih]
    ring

theorem attempts_cost (e A B : ℚ) (he : e ≠ 1) (m : Nat) :
    sumRange m (fun f => e ^ f * (1 - e) * (A + (f + 1) * B)) = A * (1 - e ^ m) + B * ((1 - e ^ m) / (1 - e) - m * e ^ m) := by
  have : 1 - e ≠ 0 := sub_ne_zero.2 (Ne.symm he)
  induction m with
  | zero => simp [sumRange]
  | succ m ih =>
    rw [sumRange_succ, ih]
    push_cast
    field_simp
    ring

end Verif
