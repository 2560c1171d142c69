import Verif.Proof.Converge

/-! The values of a search in a model without randomness converge. -/

set_option linter.unusedSectionVars false
set_option linter.unusedSimpArgs false

namespace Verif.Uct
open Spec
variable {σ β : Type} [DecidableEq β]
variable {S : Search σ β Int} {nx ob : Nat → Nat → Nat} {rew : Nat → Nat → ℚ} {L H : ℚ} {n s0 : Nat}

section
variable (S L H)

/-- What is used of the trees that can be obtained. -/
structure Base (t : Tree β) : Prop where
  wf : Wf S t
  pos : 0 < t.size
  vals : ∀ i a, L ≤ actionValue t i a ∧ actionValue t i a ≤ H
  sum : ∀ i, ∑ a ∈ Finset.range S.sim.nActions, actionVisits t i a ≤ nodeVisits t i
  plain : ∀ i, nodeVisits t i ≤ ∑ a ∈ Finset.range S.sim.nActions, actionVisits t i a + 1

variable (nx ob rew)

/-- What is used of the trees that can be obtained when the averages are plain ones. -/
structure Facts (lab : Nat → Nat × Nat) (t : Tree β) : Prop extends Base S L H t where
  avg : DInv S nx ob rew L H lab (fun _ => False) t

variable (n s0)

/-- The trees obtained by simulations from the root, all with the property `P`. -/
inductive Reached (P : (Nat → Nat × Nat) → Tree β → Prop) : (Nat → Nat × Nat) → Tree β → Prop
  | init (lab : Nat → Nat × Nat) (t : Tree β) (h0 : ∀ i a, actionVisits t i a = 0) (hf : P lab t) : Reached P lab t
  | step (lab lab' : Nat → Nat × Nat) (t t' : Tree β) (x : ℚ) (hp : Reached P lab t) (hr : Run S nx ob rew L H 0 s0 n t t' x)
      (hl : ∀ k < t.size, lab' k = lab k) (hf : P lab' t') : Reached P lab' t'

/-- The largest return of `h` actions. -/
def opt : Nat → Nat → ℚ
  | 0, _ => 0
  | h + 1, s => maxOf ((List.range S.sim.nActions).map fun a => rew a s + S.sim.discount * opt h (nx a s))

/-- The return of an action followed by the best ones. -/
def qopt (h s a : Nat) : ℚ := rew a s + S.sim.discount * opt S nx rew h (nx a s)

end

section
variable {P : (Nat → Nat × Nat) → Tree β → Prop}

theorem Reached.prop {lab : Nat → Nat × Nat} {t : Tree β} (h : Reached S nx ob rew L H n s0 P lab t) : P lab t := by
  cases h with
  | init _ _ _ hf => exact hf
  | step _ _ _ _ _ _ _ _ hf => exact hf

theorem visits_le {t : Tree β} (h : Base S L H t) (i a : Nat) (ha : a < S.sim.nActions) :
    actionVisits t i a ≤ nodeVisits t i :=
  (Finset.single_le_sum (f := fun a => actionVisits t i a) (fun _ _ => Nat.zero_le _) (Finset.mem_range.2 ha)).trans (h.sum i)

/-- If an action has been tried few times, then no action of the same node has been tried many times. -/
theorem few (hP : ∀ lab t, P lab t → Base S L H t) (hrel : S.relative = false) (he : 0 < S.exploration) (hbonus : FavoursRare S.bonus)
    (K : Nat) : ∃ N, ∀ lab t, Reached S nx ob rew L H n s0 P lab t → ∀ k a b, a < S.sim.nActions → b < S.sim.nActions →
      actionVisits t k a < K → actionVisits t k b ≤ N := by
  obtain ⟨N, hN⟩ := hbonus K ((H - L) / S.exploration)
  refine ⟨N + 1, fun lab t h => ?_⟩
  induction h with
  | init lab t h0 hf => intro k a b _ _ _; rw [h0]; omega
  | step lab lab' t t' x hp hr hl hf ih =>
      intro k a b ha hb hK
      have hfacts := hP _ _ hp.prop
      obtain ⟨hc, _⟩ := hr.chosen hfacts.wf hfacts.pos
      have hKa : actionVisits t k a < K := by
        rcases hc k a with h | ⟨h, _⟩ <;> omega
      rcases hc k b with h | ⟨h, huct⟩
      · rw [h]; exact ih k a b ha hb hKa
      · by_cases hbig : N + 1 ≤ actionVisits t k b
        · have := Explore.choice_rare huct hrel he (hfacts.vals k) (K := K) (N := N + 1) (fun n m j h1 h2 h3 h4 => hN n m j (by omega) (by omega) h3 h4)
            (by omega) (hbig.trans (visits_le hfacts k b hb)) (by rw [hfacts.wf.len]; exact ha) hKa
          omega
        · omega

/-- All the actions of a node with enough visits have been tried `K` times. -/
theorem often (hP : ∀ lab t, P lab t → Base S L H t) (hrel : S.relative = false) (he : 0 < S.exploration) (hbonus : FavoursRare S.bonus)
    (K : Nat) : ∃ N, ∀ lab t, Reached S nx ob rew L H n s0 P lab t → ∀ k a, a < S.sim.nActions → N ≤ nodeVisits t k →
      K ≤ actionVisits t k a := by
  obtain ⟨N, hN⟩ := few (nx := nx) (ob := ob) (rew := rew) (n := n) (s0 := s0) hP hrel he hbonus K
  refine ⟨S.sim.nActions * N + 2, fun lab t h k a ha hn => ?_⟩
  by_contra hlt
  have h1 : ∑ b ∈ Finset.range S.sim.nActions, actionVisits t k b ≤ S.sim.nActions * N := by
    have := Finset.sum_le_card_nsmul (Finset.range S.sim.nActions) (fun b => actionVisits t k b) N
      (fun b hb => hN lab t h k a b ha (Finset.mem_range.1 hb) (by omega))
    simpa using this
  have := (hP _ _ h.prop).plain k
  omega

end

local notation "Rch" => Reached S nx ob rew L H n s0 (Facts S nx ob rew L H)

theorem Reached.facts {lab : Nat → Nat × Nat} {t : Tree β} (h : Rch lab t) : Facts S nx ob rew L H lab t := h.prop

/-- A bound for all the actions. -/
theorem uniform {n : Nat} {P : Nat → Nat → Prop} (hmono : ∀ a m m', m ≤ m' → P a m → P a m') (h : ∀ a < n, ∃ m, P a m) :
    ∃ m, ∀ a < n, P a m := by
  induction n with
  | zero => exact ⟨0, fun a ha => by omega⟩
  | succ n ih =>
      obtain ⟨m, hm⟩ := ih fun a ha => h a (by omega)
      obtain ⟨m', hm'⟩ := h n (by omega)
      refine ⟨max m m', fun a ha => ?_⟩
      by_cases he : a = n
      · subst he; exact hmono _ _ _ (le_max_right _ _) hm'
      · exact hmono _ _ _ (le_max_left _ _) (hm a (by omega))

section
variable (S nx ob rew L H n s0)

/-- The values of the nodes for the state `s` and the horizon `h` converge. -/
def Conv (h s : Nat) : Prop := ∀ e : ℚ, 0 < e → ∃ m : Nat, ∀ lab t, Rch lab t → ∀ j, lab j = (h, s) → m ≤ nodeVisits t j →
  |(nodeAvg t j).value - opt S nx rew h s| ≤ e

/-- The values of the action `a` in these nodes converge. -/
def ConvQ (h s a : Nat) : Prop := ∀ e : ℚ, 0 < e → ∃ m : Nat, ∀ lab t, Rch lab t → ∀ i, lab i = (h + 1, s) → m ≤ actionVisits t i a →
  |actionValue t i a - qopt S nx rew h s a| ≤ e

end

theorem value_eq {v : Avg} (h : v.n ≠ 0) : v.value = v.total / v.n := by
  unfold Avg.value; rw [if_neg h]

theorem total_eq {v : Avg} (h : v.n ≠ 0) : v.total = v.n * v.value := by
  have : (v.n : ℚ) ≠ 0 := by exact_mod_cast h
  rw [value_eq h]
  field_simp

theorem Conv.act (hd0 : 0 ≤ S.sim.discount) (hd1 : S.sim.discount ≤ 1) {h s a : Nat} (hc : Conv S nx ob rew L H n s0 h (nx a s)) :
    ConvQ S nx ob rew L H n s0 h s a := by
  intro e he
  obtain ⟨m, hm⟩ := hc e he
  refine ⟨max m 1, fun lab t hr i hi hv => ?_⟩
  have hv1 : 1 ≤ actionVisits t i a := (le_max_right _ _).trans hv
  have hvm : m ≤ actionVisits t i a := (le_max_left _ _).trans hv
  have hf := hr.facts
  rw [actionVisits_eq] at hv1 hvm
  obtain ⟨a1, a2⟩ := hf.avg.arc i a (fun _ _ _ h => h)
  rw [hi] at a1 a2
  rcases hx : t.next i a (ob a s) with _ | j
  · have := a2 hx
    rw [this] at hv1
    simp [Avg.new] at hv1
  · obtain ⟨b1, b2⟩ := a1 j hx
    obtain ⟨h', c1, _, c2⟩ := hf.avg.edge i a _ j hx
    rw [hi] at c1 c2
    simp only [Nat.add_right_cancel_iff] at c1
    subst c1
    simp only at b1 c2
    rw [c2] at b2
    have hn0 : (actAvg t i a).n ≠ 0 := by omega
    have hnq : ((actAvg t i a).n : ℚ) ≠ 0 := by exact_mod_cast hn0
    rw [actionValue_eq]
    unfold qopt
    have key : (actAvg t i a).value = rew a s + S.sim.discount * (nodeAvg t j).value := by
      rw [value_eq hn0, b1]
      by_cases h0 : h = 0
      · subst h0
        rw [hf.avg.zero j (by rw [c2])]
        simp [Avg.new, Avg.value]
        field_simp
      · have e1 := b2 (by simp; omega)
        rw [value_eq (by omega), e1]
        field_simp
    have hval : |(nodeAvg t j).value - opt S nx rew h (nx a s)| ≤ e := by
      by_cases h0 : h = 0
      · subst h0
        rw [hf.avg.zero j (by rw [c2])]
        simp [Avg.new, Avg.value, opt]
        exact he.le
      · have e1 := b2 (by simp; omega)
        exact hm lab t hr j c2 (by rw [nodeVisits_eq, e1]; exact hvm)
    rw [key, show rew a s + S.sim.discount * (nodeAvg t j).value - (rew a s + S.sim.discount * opt S nx rew h (nx a s)) =
      S.sim.discount * ((nodeAvg t j).value - opt S nx rew h (nx a s)) by ring, abs_mul, abs_of_nonneg hd0]
    calc _ ≤ 1 * |(nodeAvg t j).value - opt S nx rew h (nx a s)| := mul_le_mul_of_nonneg_right hd1 (abs_nonneg _)
      _ ≤ e := by rw [one_mul]; exact hval

theorem opt_spec (hA : 0 < S.sim.nActions) (h s : Nat) :
    (∃ a < S.sim.nActions, qopt S nx rew h s a = opt S nx rew (h + 1) s) ∧
      ∀ a < S.sim.nActions, qopt S nx rew h s a ≤ opt S nx rew (h + 1) s := by
  obtain ⟨h1, h2⟩ := maxOf_spec (l := (List.range S.sim.nActions).map fun a => rew a s + S.sim.discount * opt S nx rew h (nx a s))
    (by simp; omega)
  obtain ⟨a, ha, e⟩ := List.mem_map.1 h1
  refine ⟨⟨a, List.mem_range.1 ha, e⟩, fun b hb => h2 _ (List.mem_map.2 ⟨b, List.mem_range.2 hb, rfl⟩)⟩

/-- All the actions are close to their values in the nodes with enough visits. -/
theorem close (hrel : S.relative = false) (he : 0 < S.exploration) (hbonus : FavoursRare S.bonus) {h s : Nat}
    (hc : ∀ a < S.sim.nActions, ConvQ S nx ob rew L H n s0 h s a) (e : ℚ) (he0 : 0 < e) :
    ∃ m : Nat, ∀ lab t, Rch lab t → ∀ i, lab i = (h + 1, s) → m ≤ nodeVisits t i → ∀ a < S.sim.nActions,
      0 < actionVisits t i a ∧ |actionValue t i a - qopt S nx rew h s a| ≤ e := by
  obtain ⟨m, hm⟩ := uniform (P := fun a m => ∀ lab t, Rch lab t → ∀ i, lab i = (h + 1, s) → m ≤ actionVisits t i a →
      |actionValue t i a - qopt S nx rew h s a| ≤ e) (fun a m m' hmm hp lab t hr i hi hv => hp lab t hr i hi (hmm.trans hv))
      (fun a ha => hc a ha e he0)
  obtain ⟨N, hN⟩ := often (nx := nx) (ob := ob) (rew := rew) (n := n) (s0 := s0)
    (fun lab t (hf : Facts S nx ob rew L H lab t) => hf.toBase) hrel he hbonus (max m 1)
  refine ⟨N, fun lab t hr i hi hv a ha => ?_⟩
  have := hN lab t hr i a ha hv
  exact ⟨lt_of_lt_of_le Nat.zero_lt_one ((le_max_right _ _).trans this), hm a ha lab t hr i hi ((le_max_left _ _).trans this)⟩

/-- The actions that are not optimal are tried less and less. -/
theorem seldom (hrel : S.relative = false) (he : 0 < S.exploration) (hbonus : FavoursRare S.bonus) (hfade : Fades S.bonus) {h s : Nat}
    (hA : 0 < S.sim.nActions) (hc : ∀ a < S.sim.nActions, ConvQ S nx ob rew L H n s0 h s a) {a : Nat} (ha : a < S.sim.nActions)
    (hsub : qopt S nx rew h s a < opt S nx rew (h + 1) s) (δ : ℚ) (hδ : 0 < δ) :
    ∃ C : Nat, ∀ lab t, Rch lab t → ∀ i, lab i = (h + 1, s) → (actionVisits t i a : ℚ) ≤ δ * nodeVisits t i + C := by
  obtain ⟨Δ, hΔ⟩ : ∃ Δ, Δ = opt S nx rew (h + 1) s - qopt S nx rew h s a := ⟨_, rfl⟩
  have hΔ0 : 0 < Δ := by rw [hΔ]; linarith
  obtain ⟨⟨b, hb, hbopt⟩, _⟩ := opt_spec (nx := nx) (rew := rew) hA h s
  obtain ⟨m, hm⟩ := close hrel he hbonus hc (Δ / 4) (by linarith)
  obtain ⟨N, hN⟩ := hfade.2 δ (Δ / 4 / S.exploration) hδ (div_pos (by linarith) he)
  refine ⟨max m N + 2, fun lab t hr => ?_⟩
  have hnn : ∀ k : Nat, (0 : ℚ) ≤ δ * k := fun k => mul_nonneg hδ.le (Nat.cast_nonneg _)
  induction hr with
  | init lab t h0 hf =>
      intro i _
      rw [h0]
      have := hnn (nodeVisits t i)
      have : (0 : ℚ) ≤ ((max m N + 2 : Nat) : ℚ) := Nat.cast_nonneg _
      push_cast at *
      linarith
  | step lab lab' t t' x hp hr hl hf ih =>
      intro i hi
      have hfacts := hp.facts
      obtain ⟨hch, hmono⟩ := hr.chosen hfacts.wf hfacts.pos
      by_cases hsz : t.size ≤ i
      · have h0 : actionVisits t i a = 0 := by
          rw [actionVisits_eq, (hfacts.wf.free i hsz a).1]; rfl
        have h1 : actionVisits t' i a ≤ 1 := by rcases hch i a with h | ⟨h, _⟩ <;> omega
        have h1 : (actionVisits t' i a : ℚ) ≤ 1 := by exact_mod_cast h1
        have := hnn (nodeVisits t' i)
        have : (0 : ℚ) ≤ ((max m N : Nat) : ℚ) := Nat.cast_nonneg _
        push_cast at *
        linarith
      · have hsz := not_le.1 hsz
        have hlab : lab i = (h + 1, s) := by rw [← hl i hsz]; exact hi
        have hnode : nodeVisits t i ≤ nodeVisits t' i := by
          rcases hmono i with h | h
          · exact h
          · omega
        have hnodeq : δ * (nodeVisits t i : ℚ) ≤ δ * nodeVisits t' i := by
          apply mul_le_mul_of_nonneg_left _ hδ.le
          exact_mod_cast hnode
        rcases hch i a with h1 | ⟨h1, huct⟩
        · have := ih i hlab
          rw [h1]
          linarith
        · rw [h1]
          push_cast
          have hC : (0 : ℚ) ≤ ((max m N : Nat) : ℚ) := Nat.cast_nonneg _
          push_cast at hC
          by_cases hlow : (actionVisits t i a : ℚ) ≤ δ * nodeVisits t i
          · linarith
          · have hlow := (not_le.1 hlow).le
            by_cases hbig : max m N ≤ nodeVisits t i
            · exfalso
              have hcl := hm lab t hp i hlab ((le_max_left _ _).trans hbig)
              have hfad := hN (nodeVisits t i) (actionVisits t i a) ((le_max_right _ _).trans hbig) hlow
              obtain ⟨_, _, u3⟩ := huct
              obtain ⟨w, hw, hbest, _⟩ := u3 (by
                unfold unexplored
                rw [List.filter_eq_nil_iff]
                intro x hx
                have := (hcl x (by rw [← hfacts.wf.len i]; exact List.mem_range.1 hx)).1
                simp
                omega)
              unfold IsWeight at hw
              rw [if_neg (by rw [hrel]; simp)] at hw
              subst hw
              have hsc := hbest b (by rw [hfacts.wf.len]; exact hb)
              unfold uctScore at hsc
              obtain ⟨q1, q2⟩ := hcl b hb
              obtain ⟨q3, q4⟩ := hcl a ha
              have hpos := hfade.1 (nodeVisits t i) (actionVisits t i b) (lt_of_lt_of_le q1 (visits_le hfacts.toBase i b hb)) q1
              have hpos := mul_nonneg he.le hpos
              have hfad := mul_le_mul_of_nonneg_left hfad he.le
              rw [mul_div_cancel₀ _ he.ne'] at hfad
              have e1 := (abs_le.1 q2).1
              have e2 := (abs_le.1 q4).2
              rw [hbopt] at e1
              linarith
            · have h2 := visits_le hfacts.toBase i a ha
              have h3 : actionVisits t i a ≤ max m N := by omega
              have h4 : (actionVisits t i a : ℚ) ≤ ((max m N : Nat) : ℚ) := by exact_mod_cast h3
              have := hnn (nodeVisits t' i)
              push_cast at h4
              linarith

theorem Conv.zero (s : Nat) : Conv S nx ob rew L H n s0 0 s := by
  intro e he
  refine ⟨0, fun lab t hr j hj _ => ?_⟩
  rw [hr.facts.avg.zero j (by rw [hj])]
  simp [Avg.new, Avg.value, opt]
  exact he.le

theorem Conv.succ (hrel : S.relative = false) (he : 0 < S.exploration) (hbonus : FavoursRare S.bonus) (hfade : Fades S.bonus)
    (hA : 0 < S.sim.nActions) {h s : Nat} (hc : ∀ a < S.sim.nActions, ConvQ S nx ob rew L H n s0 h s a) :
    Conv S nx ob rew L H n s0 (h + 1) s := by
  intro e he0
  obtain ⟨v, hv⟩ : ∃ v, v = opt S nx rew (h + 1) s := ⟨_, rfl⟩
  obtain ⟨_, hmax⟩ := opt_spec (nx := nx) (rew := rew) hA h s
  rw [← hv] at hmax
  obtain ⟨D, hD⟩ : ∃ D, D = |L| + |H| + |v| := ⟨_, rfl⟩
  have hD0 : 0 ≤ D := by rw [hD]; positivity
  obtain ⟨k, hk⟩ : ∃ k : ℚ, k = S.sim.nActions := ⟨_, rfl⟩
  have hk0 : 0 < k := by rw [hk]; exact_mod_cast hA
  obtain ⟨δ, hδ⟩ : ∃ δ, δ = e / 4 / (k * (D + 1)) := ⟨_, rfl⟩
  have hδ0 : 0 < δ := by rw [hδ]; positivity
  obtain ⟨m, hm⟩ := close hrel he hbonus hc (e / 4) (by linarith)
  obtain ⟨C, hC⟩ := uniform (n := S.sim.nActions) (P := fun a (C : Nat) => qopt S nx rew h s a < v → ∀ lab t, Rch lab t → ∀ i, lab i = (h + 1, s) →
      (actionVisits t i a : ℚ) ≤ δ * nodeVisits t i + C) (fun a m m' hmm hp hq lab t hr i hi => by
        have := hp hq lab t hr i hi
        have : (m : ℚ) ≤ m' := by exact_mod_cast hmm
        linarith) (fun a ha => by
        by_cases hq : qopt S nx rew h s a < v
        · obtain ⟨C, hC⟩ := seldom hrel he hbonus hfade hA hc ha (by rw [← hv]; exact hq) δ hδ0
          exact ⟨C, fun _ => hC⟩
        · exact ⟨0, fun h => absurd h hq⟩)
  obtain ⟨M, hM⟩ := exists_nat_ge ((k * C * (D + 1) + D) / (e / 4))
  refine ⟨max (max m M) 1, fun lab t hr i hi hn => ?_⟩
  have hn1 : 1 ≤ nodeVisits t i := (le_max_right _ _).trans hn
  have hnm : m ≤ nodeVisits t i := (le_max_left m M).trans ((le_max_left _ _).trans hn)
  have hnM : M ≤ nodeVisits t i := (le_max_right m M).trans ((le_max_left _ _).trans hn)
  have hf := hr.facts
  have hcl := hm lab t hr i hi hnm
  rw [← hv]
  obtain ⟨N, hN⟩ : ∃ N : ℚ, N = nodeVisits t i := ⟨_, rfl⟩
  have hN0 : 0 < N := by rw [hN]; exact_mod_cast hn1
  have hNM : k * C * (D + 1) + D ≤ e / 4 * N := by
    have : (k * C * (D + 1) + D) / (e / 4) ≤ N := hM.trans (by rw [hN]; exact_mod_cast hnM)
    rw [div_le_iff₀ (by linarith)] at this
    linarith
  -- the part of the visits that belong to no action
  obtain ⟨g, hg⟩ : ∃ g : ℚ, g = N - ∑ a ∈ Finset.range S.sim.nActions, (actionVisits t i a : ℚ) := ⟨_, rfl⟩
  have hg0 : 0 ≤ g := by
    have : (∑ a ∈ Finset.range S.sim.nActions, (actionVisits t i a : ℚ)) ≤ nodeVisits t i := by exact_mod_cast hf.sum i
    rw [hg, hN]; linarith
  have hg1 : g ≤ 1 := by
    have : (nodeVisits t i : ℚ) ≤ ∑ a ∈ Finset.range S.sim.nActions, (actionVisits t i a : ℚ) + 1 := by exact_mod_cast hf.plain i
    rw [hg, hN]; linarith
  have hlow := hf.avg.lower i
  have hupp := hf.avg.upper i
  simp only [← actionVisits_eq, ← nodeVisits_eq] at hlow hupp
  rw [← hN, ← hg] at hlow hupp
  have htot : (nodeAvg t i).total = N * (nodeAvg t i).value := by
    rw [total_eq (by rw [← nodeVisits_eq]; omega), hN, nodeVisits_eq]
  have hacts : ∀ a ∈ Finset.range S.sim.nActions, (actAvg t i a).total = actionVisits t i a * actionValue t i a := by
    intro a ha
    have := (hcl a (Finset.mem_range.1 ha)).1
    rw [actionVisits_eq] at this ⊢
    rw [actionValue_eq]
    exact total_eq (by omega)
  rw [htot, Finset.sum_congr rfl hacts] at hlow hupp
  -- the difference, as a sum over the actions
  have hdiff : ∑ a ∈ Finset.range S.sim.nActions, (actionVisits t i a : ℚ) * (actionValue t i a - v) =
      ∑ a ∈ Finset.range S.sim.nActions, (actionVisits t i a : ℚ) * actionValue t i a - (N - g) * v := by
    rw [hg]
    simp only [mul_sub, Finset.sum_sub_distrib, ← Finset.sum_mul]
    ring
  have habs : ∀ x, L ≤ x → x ≤ H → |x - v| ≤ D := by
    intro x h1 h2
    rw [hD, abs_le]
    have a1 := neg_abs_le L
    have a2 := le_abs_self H
    have a3 := abs_le.1 (le_refl |v|)
    have a4 := abs_nonneg L
    have a5 := abs_nonneg H
    constructor <;> linarith [a3.1, a3.2]
  have hLH : L ≤ H := (hf.vals i 0).1.trans (hf.vals i 0).2
  have hgL : -D ≤ g * (L - v) := by
    have := (abs_le.1 (habs L le_rfl hLH)).1
    nlinarith
  have hgH : g * (H - v) ≤ D := by
    have := (abs_le.1 (habs H hLH le_rfl)).2
    nlinarith
  have hup : ∑ a ∈ Finset.range S.sim.nActions, (actionVisits t i a : ℚ) * (actionValue t i a - v) ≤ (N - g) * (e / 4) := by
    have : (N - g) * (e / 4) = ∑ a ∈ Finset.range S.sim.nActions, (actionVisits t i a : ℚ) * (e / 4) := by
      rw [← Finset.sum_mul, hg]; ring
    rw [this]
    apply Finset.sum_le_sum
    intro a ha
    apply mul_le_mul_of_nonneg_left _ (Nat.cast_nonneg _)
    have h1 := (abs_le.1 (hcl a (Finset.mem_range.1 ha)).2).2
    have h2 := hmax a (Finset.mem_range.1 ha)
    linarith
  have hdown : -((N - g) * (e / 4)) - k * ((δ * N + C) * (D + 1)) ≤
      ∑ a ∈ Finset.range S.sim.nActions, (actionVisits t i a : ℚ) * (actionValue t i a - v) := by
    have : -((N - g) * (e / 4)) - k * ((δ * N + C) * (D + 1)) =
        ∑ a ∈ Finset.range S.sim.nActions, (-((actionVisits t i a : ℚ) * (e / 4)) - (δ * N + C) * (D + 1)) := by
      rw [Finset.sum_sub_distrib, Finset.sum_neg_distrib, ← Finset.sum_mul, Finset.sum_const, Finset.card_range, hg, hk, nsmul_eq_mul]
      ring
    rw [this]
    apply Finset.sum_le_sum
    intro a ha
    have ha := Finset.mem_range.1 ha
    have hna : (0 : ℚ) ≤ actionVisits t i a := Nat.cast_nonneg _
    have hCC : (0 : ℚ) ≤ (δ * N + C) * (D + 1) := by positivity
    rcases (hmax a ha).eq_or_lt with hq | hq
    · have h1 := (abs_le.1 (hcl a ha).2).1
      rw [hq] at h1
      have := mul_le_mul_of_nonneg_left h1 hna
      linarith
    · have h1 := hC a ha hq lab t hr i hi
      rw [← hN] at h1
      have h2 := (abs_le.1 (habs _ (hf.vals i a).1 (hf.vals i a).2)).1
      have h3 := mul_le_mul_of_nonneg_left (show -(D + 1) ≤ actionValue t i a - v by linarith) hna
      have h4 := mul_le_mul_of_nonneg_right h1 (show (0 : ℚ) ≤ D + 1 by linarith)
      have h5 := mul_nonneg hna (show (0 : ℚ) ≤ e / 4 by linarith)
      linarith
  have hδe : k * (δ * N * (D + 1)) = e / 4 * N := by
    rw [hδ]
    have : D + 1 ≠ 0 := by linarith
    field_simp
  have hge : 0 ≤ g * (e / 4) := mul_nonneg hg0 (by linarith)
  rw [hdiff] at hup hdown
  have hkC : 0 ≤ k * C * (D + 1) := by positivity
  rw [abs_le]
  constructor
  · have : -(e * N) ≤ N * ((nodeAvg t i).value - v) := by nlinarith
    by_contra hlt
    have := mul_lt_mul_of_pos_left (not_le.1 hlt) hN0
    linarith
  · have : N * ((nodeAvg t i).value - v) ≤ e * N := by nlinarith
    by_contra hlt
    have := mul_lt_mul_of_pos_left (not_le.1 hlt) hN0
    linarith

theorem Conv.all (hrel : S.relative = false) (he : 0 < S.exploration) (hbonus : FavoursRare S.bonus) (hfade : Fades S.bonus)
    (hA : 0 < S.sim.nActions) (hd0 : 0 ≤ S.sim.discount) (hd1 : S.sim.discount ≤ 1) : ∀ h s, Conv S nx ob rew L H n s0 h s := by
  intro h
  induction h with
  | zero => exact Conv.zero
  | succ h ih => exact fun s => Conv.succ hrel he hbonus hfade hA fun a _ => Conv.act hd0 hd1 (ih (nx a s))

/-- The optimal return is that of a plan. -/
theorem opt_isOptimum (hA : 0 < S.sim.nActions) (hd0 : 0 ≤ S.sim.discount) : ∀ h s,
    IsOptimum S.sim.discount nx rew S.sim.nActions h s (opt S nx rew h s) := by
  intro h
  induction h with
  | zero =>
      intro s
      refine ⟨⟨[], ⟨rfl, by simp⟩, rfl⟩, fun p hp => ?_⟩
      rw [List.length_eq_zero_iff.1 hp.1]
      exact le_refl _
  | succ h ih =>
      intro s
      obtain ⟨⟨a, ha, e⟩, hmax⟩ := opt_spec (nx := nx) (rew := rew) hA h s
      obtain ⟨⟨p, hp, hpe⟩, _⟩ := ih (nx a s)
      refine ⟨⟨a :: p, ⟨by simp [hp.1], by simpa using ⟨ha, hp.2⟩⟩, ?_⟩, fun p hp => ?_⟩
      · rw [← e]
        show rew a s + S.sim.discount * planReturn _ _ _ _ p = _
        rw [hpe]
        rfl
      · cases p with
        | nil => have := hp.1; simp at this
        | cons b p =>
            have hb : b < S.sim.nActions := hp.2 b (by simp)
            have := (ih (nx b s)).2 p ⟨by simpa using hp.1, fun x hx => hp.2 x (by simp [hx])⟩
            refine le_trans ?_ (hmax b hb)
            show rew b s + S.sim.discount * _ ≤ rew b s + S.sim.discount * _
            have := mul_le_mul_of_nonneg_left this hd0
            linarith

end Verif.Uct
