import Verif.Spec.Snap
import Mathlib.RingTheory.ZMod.UnitsCyclic

/-! Proofs about the model of CPython sets in `Verif.Model.Snap`. -/

set_option linter.unusedSectionVars false
set_option linter.unusedSimpArgs false

namespace Verif

/-! ### The probe sequence visits every slot -/

/-- One step of the probe sequence without perturbation. -/
def probeNext (n i : Nat) : Nat := (i * 5 + 1) % n

theorem four_probe (k : Nat) (m i : Nat) :
    ((4 * ((probeNext (2 ^ k))^[m] i) + 1 : Nat) : ZMod (2 ^ (k + 2))) = 5 ^ m * ((4 * i + 1 : Nat) : ZMod (2 ^ (k + 2))) := by
  induction m with
  | zero => simp
  | succ m ih =>
    rw [Function.iterate_succ_apply']
    have e5 : (5 : ZMod (2 ^ (k + 2))) ^ (m + 1) * ((4 * i + 1 : Nat) : ZMod (2 ^ (k + 2))) =
        ((4 * ((probeNext (2 ^ k))^[m] i) + 1 : Nat) : ZMod (2 ^ (k + 2))) * 5 := by
      rw [ih, pow_succ (5 : ZMod (2 ^ (k + 2))) m]
      ring
    rw [e5]
    generalize (probeNext (2 ^ k))^[m] i = j
    have h : 4 * probeNext (2 ^ k) j + 1 ≡ (4 * j + 1) * 5 [MOD 2 ^ (k + 2)] := by
      have h1 : (4 * probeNext (2 ^ k) j) ≡ 4 * (j * 5 + 1) [MOD 2 ^ (k + 2)] := by
        have : (2 : Nat) ^ (k + 2) = 4 * 2 ^ k := by rw [pow_add]; ring
        rw [this]
        exact (Nat.mod_modEq _ _).mul_left' 4
      have := h1.add_right 1
      have e : 4 * (j * 5 + 1) + 1 = (4 * j + 1) * 5 := by ring
      rwa [e] at this
    have := (ZMod.natCast_eq_natCast_iff _ _ _).2 h
    rw [this]
    push_cast
    rfl

theorem probe_inj (k i m n : Nat) (hmn : m < n) (hn : n < 2 ^ k)
    (h : (probeNext (2 ^ k))^[m] i = (probeNext (2 ^ k))^[n] i) : False := by
  have h1 := four_probe k m i
  have h2 := four_probe k n i
  rw [h, h2] at h1
  have hu : IsUnit ((4 * i + 1 : Nat) : ZMod (2 ^ (k + 2))) := by
    rw [ZMod.isUnit_iff_coprime]
    apply Nat.Coprime.pow_right
    rw [Nat.coprime_two_right]
    exact ⟨2 * i, by ring⟩
  have h3 := hu.mul_right_cancel h1
  have h5 : IsUnit (5 : ZMod (2 ^ (k + 2))) := by
    have : ((5 : Nat) : ZMod (2 ^ (k + 2))) = 5 := by norm_cast
    rw [← this, ZMod.isUnit_iff_coprime]
    apply Nat.Coprime.pow_right
    decide
  have h4 : (5 : ZMod (2 ^ (k + 2))) ^ (n - m) = 1 := by
    have : (5 : ZMod (2 ^ (k + 2))) ^ m * 5 ^ (n - m) = 5 ^ m * 1 := by
      rw [mul_one, ← pow_add (5 : ZMod (2 ^ (k + 2))) m (n - m), Nat.add_sub_cancel' hmn.le]
      exact h3
    exact (h5.pow m).mul_left_cancel this
  have hd := orderOf_dvd_of_pow_eq_one h4
  rw [ZMod.orderOf_five k] at hd
  have := Nat.le_of_dvd (by omega) hd
  omega

/-- Without perturbation the probe sequence visits every slot within as many steps as there are slots. -/
theorem probe_surj (k i j : Nat) (hk : 1 ≤ k) (hi : i < 2 ^ k) (hj : j < 2 ^ k) :
    ∃ m < 2 ^ k, (probeNext (2 ^ k))^[m] i = j := by
  have hlt : ∀ m, (probeNext (2 ^ k))^[m] i < 2 ^ k := by
    intro m
    cases m with
    | zero => exact hi
    | succ m =>
      rw [Function.iterate_succ_apply']
      exact Nat.mod_lt _ (by positivity)
  have hinj : Function.Injective (fun m : Fin (2 ^ k) => (⟨(probeNext (2 ^ k))^[m.1] i, hlt m.1⟩ : Fin (2 ^ k))) := by
    intro a b hab
    simp only [Fin.mk.injEq] at hab
    rcases lt_trichotomy a.1 b.1 with h | h | h
    · exact (probe_inj k i _ _ h b.2 hab).elim
    · exact Fin.ext h
    · exact (probe_inj k i _ _ h a.2 hab.symm).elim
  obtain ⟨m, hm⟩ := (Finite.injective_iff_surjective.1 hinj) ⟨j, hj⟩
  simp only [Fin.mk.injEq] at hm
  exact ⟨m.1, m.2, hm⟩

section
variable {α : Type} [DecidableEq α]

/-- A slot without an element. -/
def FreeAt (t : HTable α) (j : Nat) : Prop := t[j]? = some none

theorem probeRun_lt (mask i j : Nat) (hi : i ≤ mask) (h : j ∈ probeRun mask i) : j ≤ mask := by
  unfold probeRun at h
  split at h
  · simp only [List.mem_map, List.mem_range] at h
    obtain ⟨a, ha, rfl⟩ := h
    omega
  · simp only [List.mem_singleton] at h
    omega

theorem probeRun_head (mask i : Nat) : ∃ r, probeRun mask i = i :: r := by
  unfold probeRun
  split
  · exact ⟨_, rfl⟩
  · exact ⟨_, rfl⟩

theorem runFind_free (t : HTable α) (x : α) (mask i : Nat) (h : FreeAt t i) : runFind t x (probeRun mask i) = some i := by
  obtain ⟨r, hr⟩ := probeRun_head mask i
  unfold FreeAt at h
  simp [runFind, hr, List.find?, h]

theorem runFind_eq (t : HTable α) (x : α) (mask i : Nat) (h : t[i]? = some (some x)) :
    runFind t x (probeRun mask i) = some i := by
  obtain ⟨r, hr⟩ := probeRun_head mask i
  simp [runFind, hr, List.find?, h]

/-- What a run finds. -/
theorem runFind_some (t : HTable α) (x : α) (run : List Nat) (j : Nat) (h : runFind t x run = some j)
    (hr : ∀ i ∈ run, i < t.length) : j ∈ run ∧ (FreeAt t j ∨ t[j]? = some (some x)) := by
  have hm := List.mem_of_find?_eq_some h
  refine ⟨hm, ?_⟩
  have hp := List.find?_some h
  have hlt := hr j hm
  unfold FreeAt
  rcases hj : t[j]? with _ | _ | y
  · rw [List.getElem?_eq_none_iff] at hj
    omega
  · left; rfl
  · rw [hj] at hp
    simp only [decide_eq_true_eq] at hp
    right; rw [hp]

/-- The search returns a slot of the table that is free or has the element. -/
theorem setProbe_some (t : HTable α) (x : α) (mask : Nat) (ht : t.length = mask + 1) (fuel i p j : Nat) (hi : i ≤ mask)
    (h : setProbe t x mask fuel i p = .ok j) : FreeAt t j ∨ t[j]? = some (some x) := by
  induction fuel generalizing i p with
  | zero => simp [setProbe] at h
  | succ fuel ih =>
    unfold setProbe at h
    split at h
    · rename_i j' hj'
      injection h with h
      subst h
      exact (runFind_some t x _ _ hj' (fun a ha => by have := probeRun_lt mask i a hi ha; omega)).2
    · exact ih _ _ (Nat.lt_succ_iff.1 (Nat.mod_lt _ (by omega))) h

theorem setProbe_iter (t : HTable α) (x : α) (mask : Nat) (m i fuel : Nat) (hm : m < fuel)
    (h : FreeAt t ((probeNext (mask + 1))^[m] i)) : ∃ j, setProbe t x mask fuel i 0 = .ok j := by
  induction fuel generalizing i m with
  | zero => omega
  | succ fuel ih =>
    unfold setProbe
    rcases hr : runFind t x (probeRun mask i) with _ | j
    · simp only
      cases m with
      | zero =>
        rw [runFind_free t x mask i h] at hr
        simp at hr
      | succ m =>
        have := ih m ((i * 5 + 1) % (mask + 1)) (by omega) (by
          rw [Function.iterate_succ_apply] at h
          exact h)
        simpa using this
    · exact ⟨j, rfl⟩

theorem setProbe_perturb (t : HTable α) (x : α) (k : Nat) (hk : 1 ≤ k) (ht : t.length = 2 ^ k) (hf : ∃ j, FreeAt t j)
    (r : Nat) (i p fuel : Nat) (hi : i < 2 ^ k) (hp : p < 32 ^ r) (hfuel : 2 ^ k + r ≤ fuel) :
    ∃ j, setProbe t x (2 ^ k - 1) fuel i p = .ok j := by
  have hpos : 0 < 2 ^ k := by positivity
  have hmask : 2 ^ k - 1 + 1 = 2 ^ k := by omega
  induction r generalizing i p fuel with
  | zero =>
    have : p = 0 := by simpa using hp
    subst this
    obtain ⟨j, hj⟩ := hf
    have hjl : j < 2 ^ k := by
      unfold FreeAt at hj
      have := (List.getElem?_eq_some_iff.1 hj).1
      omega
    obtain ⟨m, hm, he⟩ := probe_surj k i j hk hi hjl
    exact setProbe_iter t x _ m i fuel (by omega) (by rw [hmask, he]; exact hj)
  | succ r ih =>
    obtain ⟨fuel, rfl⟩ : ∃ f, fuel = f + 1 := ⟨fuel - 1, by omega⟩
    unfold setProbe
    rcases hr : runFind t x (probeRun (2 ^ k - 1) i) with _ | j
    · simp only
      apply ih
      · rw [hmask]
        exact Nat.mod_lt _ hpos
      · rw [Nat.div_lt_iff_lt_mul (by decide)]
        rw [pow_succ] at hp
        exact hp
      · omega
    · exact ⟨j, rfl⟩

/-- **Probing ends** if the table has a free slot. -/
theorem setSlot_ok (t : HTable α) (x : α) (k h : Nat) (hk : 1 ≤ k) (ht : t.length = 2 ^ k) (hf : ∃ j, FreeAt t j)
    (hh : h < wordMod) : ∃ j, setSlot t x h = .ok j ∧ (FreeAt t j ∨ t[j]? = some (some x)) := by
  have hpos : 0 < 2 ^ k := by positivity
  have hlt : h % t.length < 2 ^ k := by rw [ht]; exact Nat.mod_lt _ hpos
  obtain ⟨j, hj⟩ := setProbe_perturb t x k hk ht hf 13 (h % t.length) h (t.length + 64) hlt
    (lt_of_lt_of_le hh (by decide)) (by omega)
  refine ⟨j, ?_, ?_⟩
  · unfold setSlot
    rw [← ht] at hj
    exact hj
  · exact setProbe_some t x (2 ^ k - 1) (by omega) _ _ _ j (by omega) hj

/-! ### Stability of searches -/

/-- A run whose search for `x` ends at `x`, or finds nothing, is not changed by storing another element in a free slot. -/
theorem runFind_stable (t : HTable α) (x y : α) (hxy : x ≠ y) (j' : Nat) (hj' : FreeAt t j') (run : List Nat) :
    (runFind t x run = none → runFind (t.set j' (some y)) x run = none) ∧
    (∀ j, runFind t x run = some j → t[j]? = some (some x) → runFind (t.set j' (some y)) x run = some j) := by
  unfold FreeAt at hj'
  induction run with
  | nil => simp [runFind]
  | cons a run ih =>
    unfold runFind at ih ⊢
    by_cases haj : a = j'
    · subst haj
      refine ⟨?_, ?_⟩
      · intro h
        simp [List.find?, hj'] at h
      · intro j h hj
        simp [List.find?, hj'] at h
        subst h
        rw [hj'] at hj
        simp at hj
    · have hset : (t.set j' (some y))[a]? = t[a]? := by
        rw [List.getElem?_set_ne (Ne.symm haj)]
      refine ⟨?_, ?_⟩
      · intro h
        rw [List.find?_cons] at h ⊢
        rw [hset]
        split at h
        · simp at h
        · exact ih.1 h
      · intro j h hj
        rw [List.find?_cons] at h ⊢
        rw [hset]
        split at h
        · exact h
        · exact ih.2 j h hj

theorem setProbe_stable (t : HTable α) (x y : α) (hxy : x ≠ y) (j' : Nat) (hj' : FreeAt t j') (mask fuel i p j : Nat)
    (h : setProbe t x mask fuel i p = .ok j) (hj : t[j]? = some (some x)) :
    setProbe (t.set j' (some y)) x mask fuel i p = .ok j := by
  induction fuel generalizing i p with
  | zero => simp [setProbe] at h
  | succ fuel ih =>
    unfold setProbe at h ⊢
    split at h
    · rename_i a ha
      injection h with h
      subst h
      rw [(runFind_stable t x y hxy j' hj' _).2 _ ha hj]
    · rename_i ha
      rw [(runFind_stable t x y hxy j' hj' _).1 ha]
      exact ih _ _ h

/-- Searching for an element that has just been stored in the free slot the search had found. -/
theorem setProbe_self (t : HTable α) (x : α) (hx : ∀ j : Nat, t[j]? ≠ some (some x)) (mask fuel i p j : Nat)
    (ht : t.length = mask + 1) (hi : i ≤ mask)
    (h : setProbe t x mask fuel i p = .ok j) : setProbe (t.set j (some x)) x mask fuel i p = .ok j := by
  have hrun : ∀ run : List Nat, (∀ a ∈ run, a < t.length) →
      (runFind t x run = some j → runFind (t.set j (some x)) x run = some j) ∧
      (j ∉ run → runFind (t.set j (some x)) x run = runFind t x run) := by
    intro run hr
    refine ⟨?_, ?_⟩
    · intro hf
      have hjl : j < t.length := hr j (List.mem_of_find?_eq_some hf)
      induction run with
      | nil => simp [runFind] at hf
      | cons a run ih =>
        unfold runFind at hf ih ⊢
        by_cases haj : a = j
        · subst haj
          simp [List.find?, List.getElem?_set, hjl]
        · have hset : (t.set j (some x))[a]? = t[a]? := by rw [List.getElem?_set_ne (Ne.symm haj)]
          rw [List.find?_cons] at hf ⊢
          rw [hset]
          split at hf
          · simp only [Option.some.injEq] at hf
            exact absurd hf haj
          · exact ih (fun b hb => hr b (by simp [hb])) hf
    · intro hj
      unfold runFind
      induction run with
      | nil => rfl
      | cons a run ih =>
        have haj : j ≠ a := fun h => hj (by simp [h])
        have hset : (t.set j (some x))[a]? = t[a]? := by rw [List.getElem?_set_ne haj]
        rw [List.find?_cons, List.find?_cons, hset,
          ih (fun b hb => hr b (by simp [hb])) (fun h => hj (by simp [h]))]
  induction fuel generalizing i p with
  | zero => simp [setProbe] at h
  | succ fuel ih =>
    have hr : ∀ a ∈ probeRun mask i, a < t.length := fun a ha => by
      have := probeRun_lt mask i a hi ha
      omega
    unfold setProbe at h ⊢
    split at h
    · rename_i a ha
      injection h with h
      subst h
      rw [(hrun _ hr).1 ha]
    · rename_i ha
      have hjn : j ∉ probeRun mask i := by
        intro hjm
        have hfree : FreeAt t j := by
          rcases setProbe_some t x mask ht fuel _ _ j (Nat.lt_succ_iff.1 (Nat.mod_lt _ (by omega))) h with hf | hf
          · exact hf
          · exact absurd hf (hx j)
        have := List.find?_eq_none.1 ha j hjm
        unfold FreeAt at hfree
        rw [hfree] at this
        simp at this
      rw [(hrun _ hr).2 hjn, ha]
      exact ih _ _ (Nat.lt_succ_iff.1 (Nat.mod_lt _ (by omega))) h

/-! ### Tables -/

theorem mem_elems (t : HTable α) (x : α) : x ∈ t.elems ↔ ∃ j : Nat, t[j]? = some (some x) := by
  unfold HTable.elems
  rw [List.mem_filterMap]
  constructor
  · rintro ⟨a, ha, hx⟩
    simp only [id] at hx
    subst hx
    exact List.mem_iff_getElem?.1 ha
  · rintro ⟨j, hj⟩
    exact ⟨some x, List.mem_iff_getElem?.2 ⟨j, hj⟩, rfl⟩

theorem elems_set_free (t : HTable α) (j : Nat) (x : α) (h : FreeAt t j) :
    (HTable.elems (t.set j (some x))).Perm (x :: t.elems) := by
  unfold FreeAt at h
  unfold HTable.elems
  induction t generalizing j with
  | nil => simp at h
  | cons a t ih =>
    cases j with
    | zero =>
      simp only [List.getElem?_cons_zero, Option.some.injEq] at h
      subst h
      simp
    | succ j =>
      simp only [List.getElem?_cons_succ] at h
      have := ih j h
      cases a with
      | none => simpa using this
      | some y =>
        simp only [List.set_cons_succ, List.filterMap_cons, id]
        exact (this.cons y).trans (List.Perm.swap _ _ _)

theorem exists_free (t : HTable α) (h : t.elems.length < t.length) : ∃ j, FreeAt t j := by
  unfold HTable.elems at h
  unfold FreeAt
  induction t with
  | nil => simp at h
  | cons a t ih =>
    cases a with
    | none => exact ⟨0, rfl⟩
    | some y =>
      have hc : (List.filterMap id (some y :: t)).length = (List.filterMap id t).length + 1 := rfl
      rw [hc, List.length_cons] at h
      obtain ⟨j, hj⟩ := ih (by omega)
      exact ⟨j + 1, by simpa using hj⟩

/-- The invariant of a table: the number of slots is a power of two, at least 8, and the search for an element of the table
finds it. -/
structure TableOk (hash : α → Nat) (t : HTable α) : Prop where
  size : ∃ k, 3 ≤ k ∧ t.length = 2 ^ k
  found : ∀ (j : Nat) (x : α), t[j]? = some (some x) → setSlot t x (hash x) = .ok j

/-- If no two elements have the same hash modulo the number of slots, every element is in the slot of its hash. -/
def DirectOk (hash : α → Nat) (t : HTable α) : Prop :=
  (∀ x ∈ t.elems, ∀ y ∈ t.elems, hash x % t.length = hash y % t.length → x = y) →
    ∀ x ∈ t.elems, t[hash x % t.length]? = some (some x)

theorem tableOk_empty (hash : α → Nat) (k : Nat) (hk : 3 ≤ k) :
    TableOk hash (List.replicate (2 ^ k) (none : Option α)) ∧ DirectOk hash (List.replicate (2 ^ k) (none : Option α)) ∧
      HTable.elems (List.replicate (2 ^ k) (none : Option α)) = [] := by
  have he : HTable.elems (List.replicate (2 ^ k) (none : Option α)) = [] := by
    unfold HTable.elems
    rw [List.filterMap_replicate_of_none]
    rfl
  refine ⟨⟨⟨k, hk, by simp⟩, ?_⟩, ?_, he⟩
  · intro j x h
    rw [List.getElem?_replicate] at h
    split at h <;> simp at h
  · intro _ x hx
    rw [he] at hx
    simp at hx

theorem table_unique (hash : α → Nat) (t : HTable α) (ht : TableOk hash t) (i j : Nat) (x : α)
    (hi : t[i]? = some (some x)) (hj : t[j]? = some (some x)) : i = j := by
  have h1 := ht.found i x hi
  have h2 := ht.found j x hj
  rw [h1] at h2
  injection h2

/-- Storing an element of the table changes nothing. -/
theorem setStore_mem (hash : α → Nat) (t : HTable α) (ht : TableOk hash t) (x : α) (hx : x ∈ t.elems) :
    setStore hash t x = .ok t := by
  obtain ⟨j, hj⟩ := (mem_elems t x).1 hx
  unfold setStore
  rw [ht.found j x hj]
  simp only [bind, Except.bind, pure, Except.pure]
  congr 1
  apply List.ext_getElem?
  intro i
  rw [List.getElem?_set]
  split
  · rename_i h
    subst h
    rw [hj, if_pos (List.getElem?_eq_some_iff.1 hj).1]
  · rfl

/-- Storing a new element. -/
theorem setStore_new (hash : α → Nat) (hh : ∀ x, hash x < wordMod) (t : HTable α) (ht : TableOk hash t) (x : α)
    (hx : x ∉ t.elems) (hfree : t.elems.length < t.length) :
    ∃ t', setStore hash t x = .ok t' ∧ TableOk hash t' ∧ t'.length = t.length ∧ t'.elems.Perm (x :: t.elems) ∧
      (DirectOk hash t → DirectOk hash t') := by
  obtain ⟨k, hk, hlen⟩ := ht.size
  have hpos : 0 < 2 ^ k := by positivity
  obtain ⟨j, hj, hcase⟩ := setSlot_ok t x k (hash x) (by omega) hlen (exists_free t hfree) (hh x)
  have hnot : ∀ i : Nat, t[i]? ≠ some (some x) := fun i hi => hx ((mem_elems t x).2 ⟨i, hi⟩)
  have hf : FreeAt t j := hcase.resolve_right (hnot j)
  have hjl : j < t.length := (List.getElem?_eq_some_iff.1 hf).1
  have hperm := elems_set_free t j x hf
  refine ⟨t.set j (some x), ?_, ⟨⟨k, hk, by simpa using hlen⟩, ?_⟩, by simp, hperm, ?_⟩
  · unfold setStore
    rw [hj]
    rfl
  · intro i y hy
    rw [List.getElem?_set] at hy
    split at hy
    · rename_i hij
      subst hij
      simp only [Option.some.injEq] at hy
      subst hy
      unfold setSlot at hj ⊢
      simp only [List.length_set]
      exact setProbe_self t x hnot _ _ _ _ j (by omega)
        (by have := Nat.mod_lt (hash x) (show 0 < t.length by omega); omega) hj
    · have hyx : y ≠ x := fun h => hnot i (by rw [← h]; exact hy)
      have := ht.found i y hy
      unfold setSlot at this ⊢
      simp only [List.length_set]
      exact setProbe_stable t y x hyx j hf _ _ _ _ i this hy
  · intro hd hdist
    simp only [List.length_set] at hdist ⊢
    have hold := hd (fun a ha b hb => hdist a (hperm.mem_iff.2 (by simp [ha])) b (hperm.mem_iff.2 (by simp [hb])))
    have hslot : FreeAt t (hash x % t.length) := by
      have hlt : hash x % t.length < t.length := Nat.mod_lt _ (by omega)
      unfold FreeAt
      rcases hc : t[hash x % t.length]? with _ | _ | y
      · rw [List.getElem?_eq_none_iff] at hc
        omega
      · rfl
      · exfalso
        have hy : y ∈ t.elems := (mem_elems t y).2 ⟨_, hc⟩
        have hu := table_unique hash t ht _ _ y hc (hold y hy)
        have := hdist x (hperm.mem_iff.2 (by simp)) y (hperm.mem_iff.2 (by simp [hy])) hu
        subst this
        exact hx hy
    have hjx : j = hash x % t.length := by
      have : setSlot t x (hash x) = .ok (hash x % t.length) := by
        unfold setSlot
        rw [show t.length + 64 = (t.length + 63) + 1 by rfl]
        unfold setProbe
        rw [runFind_free t x _ _ hslot]
      rw [hj] at this
      injection this
    intro y hy
    rcases List.mem_cons.1 (hperm.mem_iff.1 hy) with rfl | hy
    · rw [hjx, List.getElem?_set_self (by omega)]
    · rw [List.getElem?_set_ne, hold y hy]
      intro hjy
      have := hold y hy
      rw [← hjy] at this
      unfold FreeAt at hf
      rw [hf] at this
      simp at this

/-- Storing several new elements. -/
theorem setStoreL_new (hash : α → Nat) (hh : ∀ x, hash x < wordMod) (xs : List α) (t : HTable α) (ht : TableOk hash t)
    (hd : DirectOk hash t) (hx : ∀ x ∈ xs, x ∉ t.elems) (hnd : xs.Nodup) (hfree : t.elems.length + xs.length ≤ t.length) :
    ∃ t', setStoreL hash t xs = .ok t' ∧ TableOk hash t' ∧ t'.length = t.length ∧ t'.elems.Perm (xs ++ t.elems) ∧
      DirectOk hash t' := by
  induction xs generalizing t with
  | nil => exact ⟨t, rfl, ht, rfl, List.Perm.refl _, hd⟩
  | cons x xs ih =>
    simp only [List.length_cons] at hfree
    obtain ⟨t1, h1, ok1, len1, p1, d1⟩ := setStore_new hash hh t ht x (hx x (by simp)) (by omega)
    obtain ⟨hxn, hnd⟩ := List.nodup_cons.1 hnd
    obtain ⟨t2, h2, ok2, len2, p2, d2⟩ := ih t1 ok1 (d1 hd) (by
      intro y hy hyt
      rcases List.mem_cons.1 (p1.mem_iff.1 hyt) with rfl | hyt
      · exact hxn hy
      · exact hx y (by simp [hy]) hyt) hnd (by rw [p1.length_eq, len1]; simp only [List.length_cons]; omega)
    refine ⟨t2, ?_, ok2, by omega, ?_, d2⟩
    · unfold setStoreL
      simp only [h1, bind, Except.bind]
      exact h2
    · refine p2.trans ((p1.append_left xs).trans ?_)
      exact List.perm_middle

/-- The size of a table after a change of size. -/
theorem tableSize_spec (m fuel k : Nat) (h : m < 2 ^ fuel * 2 ^ k) :
    ∃ r, tableSize m fuel (2 ^ k) = 2 ^ r ∧ k ≤ r ∧ m < 2 ^ r ∧ (r = k ∨ 2 ^ r ≤ 2 * m) := by
  induction fuel generalizing k with
  | zero => exact ⟨k, rfl, le_rfl, by simpa using h, Or.inl rfl⟩
  | succ fuel ih =>
    unfold tableSize
    split
    · rename_i hle
      have e : 2 * 2 ^ k = 2 ^ (k + 1) := by rw [pow_succ]; ring
      rw [e]
      obtain ⟨r, h1, h2, h3, h4⟩ := ih (k + 1) (by
        rw [pow_succ] at h
        rw [← e]
        calc m < 2 ^ fuel * 2 * 2 ^ k := h
          _ = _ := by ring)
      refine ⟨r, h1, by omega, h3, Or.inr ?_⟩
      rcases h4 with h4 | h4
      · rw [h4, ← e]
        omega
      · exact h4
    · rename_i hle
      exact ⟨k, rfl, le_rfl, by omega, Or.inl rfl⟩

theorem tableSize_eight (m : Nat) :
    ∃ r, tableSize m m 8 = 2 ^ r ∧ 3 ≤ r ∧ m < 2 ^ r ∧ (r = 3 ∨ 2 ^ r ≤ 2 * m) := by
  have h8 : (8 : Nat) = 2 ^ 3 := rfl
  rw [h8]
  apply tableSize_spec
  have := Nat.lt_two_pow_self (n := m)
  omega

theorem copySize_eq (t : HTable α) : copySize t = copySlots t.elems.length := by
  unfold copySize copySlots
  generalize t.elems.length = n
  by_cases h : n ≤ 4
  · rw [if_pos h, if_neg (by omega)]
  · rw [if_neg h, if_pos (by omega)]
    have e2 : n * 2 = 2 * n := by ring
    rw [e2]
    obtain ⟨r, h1, h2, h3, h4⟩ := tableSize_eight (2 * n)
    rw [h1]
    congr 1
    have hr : 2 ^ r ≤ 2 * (2 * n) := by
      rcases h4 with rfl | h4
      · omega
      · exact h4
    obtain ⟨q, rfl⟩ : ∃ q, r = q + 2 := ⟨r - 2, by omega⟩
    have e4 : 2 ^ (q + 2) = 4 * 2 ^ q := by rw [pow_add]; ring
    rw [e4] at h3 hr
    have : Nat.log 2 n = q := by
      rw [Nat.log_eq_iff (Or.inr ⟨by decide, by omega⟩)]
      rw [pow_succ]
      omega
    omega

theorem elems_nodup (hash : α → Nat) (t : HTable α) (ht : TableOk hash t) : t.elems.Nodup := by
  have hu := table_unique hash t ht
  clear ht
  unfold HTable.elems
  induction t with
  | nil => simp
  | cons a t ih =>
    have iht := ih (fun i j x hi hj => by
      have := hu (i + 1) (j + 1) x (by simpa using hi) (by simpa using hj)
      omega)
    cases a with
    | none => simpa using iht
    | some y =>
      simp only [List.filterMap_cons, id, List.nodup_cons]
      refine ⟨?_, iht⟩
      intro hy
      obtain ⟨j, hj⟩ := (mem_elems t y).1 hy
      have := hu 0 (j + 1) y (by simp) (by simpa using hj)
      omega

/-- The load of a table. -/
def LoadOk (t : HTable α) : Prop := t.elems.length * 5 < (t.length - 1) * 3

theorem setGrow_spec (hash : α → Nat) (hh : ∀ x, hash x < wordMod) (t : HTable α) (ht : TableOk hash t)
    (hd : DirectOk hash t) (hne : 1 ≤ t.elems.length) :
    ∃ t', setGrow hash t = .ok t' ∧ TableOk hash t' ∧ t'.elems.Perm t.elems ∧ DirectOk hash t' ∧ LoadOk t' := by
  unfold setGrow
  split
  · rename_i hl
    exact ⟨t, rfl, ht, List.Perm.refl _, hd, hl⟩
  · unfold setResize
    obtain ⟨r, h1, h2, h3, _⟩ := tableSize_eight (t.elems.length * 4)
    rw [h1]
    obtain ⟨ok0, d0, e0⟩ := tableOk_empty (α := α) hash r h2
    obtain ⟨t', h', ok', len', p', d'⟩ := setStoreL_new hash hh t.elems _ ok0 d0 (by rw [e0]; simp) (elems_nodup hash t ht)
      (by rw [e0]; simp; omega)
    rw [e0, List.append_nil] at p'
    refine ⟨t', h', ok', p', d', ?_⟩
    unfold LoadOk
    rw [p'.length_eq, len']
    simp only [List.length_replicate]
    omega

theorem hsetAdd_spec (hash : α → Nat) (hh : ∀ x, hash x < wordMod) (t : HTable α) (ht : TableOk hash t)
    (hd : DirectOk hash t) (hl : LoadOk t) (x : α) :
    ∃ t', hsetAdd hash t x = .ok t' ∧ TableOk hash t' ∧ DirectOk hash t' ∧ LoadOk t' ∧
      ∀ y, y ∈ t'.elems ↔ y ∈ t.elems ∨ y = x := by
  unfold hsetAdd
  by_cases hx : x ∈ t.elems
  · refine ⟨t, ?_, ht, hd, hl, ?_⟩
    · simp [setStore_mem hash t ht x hx, bind, Except.bind, hx, pure, Except.pure]
    · intro y
      constructor
      · exact Or.inl
      · rintro (h | rfl)
        · exact h
        · exact hx
  · obtain ⟨t1, h1, ok1, len1, p1, d1⟩ := setStore_new hash hh t ht x hx (by unfold LoadOk at hl; omega)
    obtain ⟨t2, h2, ok2, p2, d2, l2⟩ := setGrow_spec hash hh t1 ok1 (d1 hd) (by rw [p1.length_eq]; simp)
    refine ⟨t2, ?_, ok2, d2, l2, ?_⟩
    · simp [h1, bind, Except.bind, hx, h2]
    · intro y
      rw [p2.mem_iff, p1.mem_iff, List.mem_cons, or_comm]

theorem hsetOf_spec (hash : α → Nat) (hh : ∀ x, hash x < wordMod) (l : List α) (t : HTable α) (ht : TableOk hash t)
    (hd : DirectOk hash t) (hl : LoadOk t) :
    ∃ t', hsetOf hash t l = .ok t' ∧ TableOk hash t' ∧ DirectOk hash t' ∧ LoadOk t' ∧
      ∀ y, y ∈ t'.elems ↔ y ∈ t.elems ∨ y ∈ l := by
  induction l generalizing t with
  | nil => exact ⟨t, rfl, ht, hd, hl, by simp⟩
  | cons x l ih =>
    obtain ⟨t1, h1, ok1, d1, l1, m1⟩ := hsetAdd_spec hash hh t ht hd hl x
    obtain ⟨t2, h2, ok2, d2, l2, m2⟩ := ih t1 ok1 d1 l1
    refine ⟨t2, ?_, ok2, d2, l2, ?_⟩
    · unfold hsetOf
      simp only [h1, bind, Except.bind]
      exact h2
    · intro y
      rw [m2, m1, List.mem_cons, or_assoc]

theorem copySlots_spec (n : Nat) : ∃ k, 3 ≤ k ∧ copySlots n = 2 ^ k ∧ n ≤ copySlots n := by
  unfold copySlots
  split
  · exact ⟨3, le_rfl, rfl, by omega⟩
  · rename_i h
    have h1 : 1 ≤ Nat.log 2 n := (Nat.le_log_iff_pow_le (by decide) (by omega)).2 (by omega)
    have h2 := Nat.lt_pow_succ_log_self (b := 2) (by decide) n
    refine ⟨Nat.log 2 n + 2, by omega, rfl, ?_⟩
    have : 2 ^ (Nat.log 2 n + 2) = 2 * 2 ^ (Nat.log 2 n + 1) := by rw [pow_succ _ (Nat.log 2 n + 1)]; ring
    rw [this]
    have h3 : n < 2 ^ (Nat.log 2 n + 1) := h2
    omega

theorem hsetCopy_spec (hash : α → Nat) (hh : ∀ x, hash x < wordMod) (t : HTable α) (ht : TableOk hash t)
    (hd : DirectOk hash t) :
    ∃ c, hsetCopy hash t = .ok c ∧ TableOk hash c ∧ DirectOk hash c ∧ c.elems.Perm t.elems ∧
      c.length = copySlots t.elems.length := by
  obtain ⟨k, hk, hck, hle⟩ := copySlots_spec t.elems.length
  obtain ⟨ok0, d0, e0⟩ := tableOk_empty (α := α) hash k hk
  unfold hsetCopy
  by_cases he : t.elems = []
  · rw [if_pos he, he]
    obtain ⟨ok0, d0, e0⟩ := tableOk_empty (α := α) hash 3 le_rfl
    exact ⟨_, rfl, ok0, d0, by rw [show (8 : Nat) = 2 ^ 3 by rfl, e0], rfl⟩
  · rw [if_neg he, copySize_eq]
    split
    · rename_i hl
      exact ⟨t, rfl, ht, hd, List.Perm.refl _, hl.symm⟩
    · rw [hck]
      obtain ⟨t', h', ok', len', p', d'⟩ := setStoreL_new hash hh t.elems _ ok0 d0 (by rw [e0]; simp)
        (elems_nodup hash t ht) (by rw [e0]; simp; omega)
      rw [e0, List.append_nil] at p'
      exact ⟨t', h', ok', d', p', by rw [len']; simp⟩

/-- The elements of a table whose elements are at increasing positions. -/
theorem elems_sorted (f : α → Nat) (t : HTable α) (d : Nat) (h : ∀ (j : Nat) (x : α), t[j]? = some (some x) → f x = j + d) :
    t.elems.Pairwise (fun x y => f x < f y) := by
  unfold HTable.elems
  induction t generalizing d with
  | nil => simp
  | cons a t ih =>
    have iht := ih (d + 1) (fun j x hj => by have := h (j + 1) x (by simpa using hj); omega)
    cases a with
    | none => simpa using iht
    | some y =>
      simp only [List.filterMap_cons, id, List.pairwise_cons]
      refine ⟨?_, iht⟩
      intro z hz
      obtain ⟨j, hj⟩ := (mem_elems t z).1 hz
      have h0 := h 0 y (by simp)
      have h1 := h (j + 1) z (by simpa using hj)
      omega

/-- **Iteration over the copy of a set.**  Building a set from a list, copying it and iterating always ends, gives every
element once, and gives the elements in the order of their hashes modulo the size of the copy when these are distinct. -/
theorem hiter_spec (hash : α → Nat) (hh : ∀ x, hash x < wordMod) (l : List α) :
    ∃ t c, hsetOf hash (List.replicate 8 none) l = .ok t ∧ hsetCopy hash t = .ok c ∧ c.elems.Nodup ∧
      (∀ x, x ∈ c.elems ↔ x ∈ l) ∧
      ((∀ x ∈ l, ∀ y ∈ l, hash x % copySlots c.elems.length = hash y % copySlots c.elems.length → x = y) →
        c.elems.Pairwise fun x y => hash x % copySlots c.elems.length < hash y % copySlots c.elems.length) := by
  obtain ⟨ok0, d0, e0⟩ := tableOk_empty (α := α) hash 3 le_rfl
  have l0 : LoadOk (List.replicate (2 ^ 3) (none : Option α)) := by
    unfold LoadOk
    rw [e0]
    simp
  obtain ⟨t, h1, ok1, d1, l1, m1⟩ := hsetOf_spec hash hh l _ ok0 d0 l0
  obtain ⟨c, h2, ok2, d2, p2, len2⟩ := hsetCopy_spec hash hh t ok1 d1
  have hmem : ∀ x, x ∈ c.elems ↔ x ∈ l := by
    intro x
    rw [p2.mem_iff, m1, e0]
    simp
  refine ⟨t, c, h1, h2, elems_nodup hash c ok2, hmem, ?_⟩
  intro hdist
  rw [← p2.length_eq] at len2
  rw [← len2] at hdist ⊢
  have hdir := d2 (fun x hx y hy => hdist x ((hmem x).1 hx) y ((hmem y).1 hy))
  apply elems_sorted _ c 0
  intro j x hj
  have hx : x ∈ c.elems := (mem_elems c x).2 ⟨j, hj⟩
  exact table_unique hash c ok2 _ _ x (hdir x hx) hj

end
end Verif
