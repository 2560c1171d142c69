import Verif.Spec.Snap
import Verif.Props.Actions
import Verif.Proof.HashSet

/-! Properties C63 and C65 (snap circuits). -/

set_option linter.unusedSectionVars false
set_option linter.unusedSimpArgs false

namespace Verif

theorem npIndex_ok (n : Nat) (i : Int) (h : AxisOk n i) : npIndex n i = .ok (i % n).toNat := by
  unfold npIndex AxisOk at *
  split
  · rename_i h1
    rw [Int.emod_eq_of_lt h1.1 h1.2]
  · rename_i h1
    rw [if_pos ⟨h.1, by omega⟩]
    have : i % n = i + n := by
      rw [← Int.add_emod_right, Int.emod_eq_of_lt (by omega) (by omega)]
    rw [this]

theorem npIndex_err (n : Nat) (i : Int) (h : ¬ AxisOk n i) : npIndex n i = .error .indexError := by
  unfold npIndex AxisOk at *
  rw [if_neg (by omega), if_neg (by omega)]

/-- The position of a placed part in the feature vector. -/
def cellOf (board : Nat × Nat) (e : SnapLoc × SnapPart) : Nat :=
  (((e.2.id % 20).toNat * board.1 + (e.1.1 % board.1).toNat) * board.2 + (e.1.2.1 % board.2).toNat) * 4 +
    (e.1.2.2 % 4).toNat

theorem offset_ok (board : Nat × Nat) (e : SnapLoc × SnapPart) (h : PlacedOk board e) :
    Nd4.offset (featureShape board) e.2.id e.1.1 e.1.2.1 e.1.2.2 = .ok (cellOf board e) := by
  obtain ⟨h1, h2, h3, h4⟩ := h
  unfold Nd4.offset featureShape
  simp only [npIndex_ok _ _ h1, npIndex_ok _ _ h2, npIndex_ok _ _ h3]
  have : npIndex orientationNames.length e.1.2.2 = .ok (e.1.2.2 % 4).toNat := npIndex_ok 4 _ h4
  simp only [this]
  rfl

theorem offset_err (board : Nat × Nat) (e : SnapLoc × SnapPart) (h : ¬ PlacedOk board e) :
    Nd4.offset (featureShape board) e.2.id e.1.1 e.1.2.1 e.1.2.2 = .error .indexError := by
  unfold Nd4.offset featureShape
  have h4 : orientationNames.length = 4 := rfl
  rw [h4]
  simp only
  by_cases h1 : AxisOk 20 e.2.id
  · by_cases h2 : AxisOk board.1 e.1.1
    · by_cases h3 : AxisOk board.2 e.1.2.1
      · have h4 : ¬ AxisOk 4 e.1.2.2 := fun h4 => h ⟨h1, h2, h3, h4⟩
        rw [npIndex_ok _ _ h1, npIndex_ok _ _ h2, npIndex_ok _ _ h3, npIndex_err _ _ h4]
        rfl
      · rw [npIndex_ok _ _ h1, npIndex_ok _ _ h2, npIndex_err _ _ h3]
        rfl
    · rw [npIndex_ok _ _ h1, npIndex_err _ _ h2]
      rfl
  · rw [npIndex_err _ _ h1]
    rfl

theorem toNat_emod_lt (n : Nat) (i : Int) (h : AxisOk n i) : (i % n).toNat < n := by
  unfold AxisOk at h
  have h0 : (n : Int) ≠ 0 := by omega
  have := Int.emod_nonneg i h0
  have := Int.emod_lt_of_pos i (show (0 : Int) < n by omega)
  omega

theorem lin_inj {r p x p' x' : Nat} (hx : x < r) (hx' : x' < r) (h : p * r + x = p' * r + x') : p = p' ∧ x = x' := by
  have h1 : (p * r + x) / r = p := by
    rw [Nat.mul_comm, Nat.mul_add_div (by omega), Nat.div_eq_of_lt hx]; simp
  have h2 : (p' * r + x') / r = p' := by
    rw [Nat.mul_comm, Nat.mul_add_div (by omega), Nat.div_eq_of_lt hx']; simp
  have : p = p' := by rw [← h1, ← h2, h]
  subst this
  exact ⟨rfl, by omega⟩

theorem lin_lt {r p x q : Nat} (hp : p < q) (hx : x < r) : p * r + x < q * r := by
  calc p * r + x < p * r + r := by omega
    _ = (p + 1) * r := by ring
    _ ≤ q * r := Nat.mul_le_mul_right _ hp

theorem toNat_emod_inj (n : Nat) (i j : Int) (hi : AxisOk n i) (hj : AxisOk n j) :
    (i % n).toNat = (j % n).toNat ↔ i % n = j % n := by
  unfold AxisOk at hi hj
  have h0 : (n : Int) ≠ 0 := by omega
  have := Int.emod_nonneg i h0
  have := Int.emod_nonneg j h0
  omega

theorem cellOf_inj (board : Nat × Nat) (e f : SnapLoc × SnapPart) (he : PlacedOk board e) (hf : PlacedOk board f) :
    cellOf board e = cellOf board f ↔ SameCell board e f := by
  obtain ⟨e1, e2, e3, e4⟩ := he
  obtain ⟨f1, f2, f3, f4⟩ := hf
  have i1 := toNat_emod_inj 20 _ _ e1 f1
  have i2 := toNat_emod_inj _ _ _ e2 f2
  have i3 := toNat_emod_inj _ _ _ e3 f3
  have i4 := toNat_emod_inj 4 _ _ e4 f4
  unfold SameCell cellOf
  constructor
  · intro h
    obtain ⟨h, h4⟩ := lin_inj (toNat_emod_lt 4 _ e4) (toNat_emod_lt 4 _ f4) h
    obtain ⟨h, h3⟩ := lin_inj (toNat_emod_lt _ _ e3) (toNat_emod_lt _ _ f3) h
    obtain ⟨h1, h2⟩ := lin_inj (toNat_emod_lt _ _ e2) (toNat_emod_lt _ _ f2) h
    exact ⟨i1.1 h1, i2.1 h2, i3.1 h3, i4.1 h4⟩
  · rintro ⟨h1, h2, h3, h4⟩
    rw [h1, h2, h3, h4]

theorem cellOf_lt (board : Nat × Nat) (e : SnapLoc × SnapPart) (he : PlacedOk board e) :
    cellOf board e < 20 * board.1 * board.2 * 4 := by
  obtain ⟨e1, e2, e3, e4⟩ := he
  exact lin_lt (lin_lt (lin_lt (toNat_emod_lt 20 _ e1) (toNat_emod_lt _ _ e2)) (toNat_emod_lt _ _ e3))
    (toNat_emod_lt 4 _ e4)

theorem set_ok (board : Nat × Nat) (a : Nd4) (ha : a.shape = featureShape board) (e : SnapLoc × SnapPart)
    (h : PlacedOk board e) (v : ℚ) :
    a.set e.2.id e.1.1 e.1.2.1 e.1.2.2 v = .ok { a with data := a.data.set (cellOf board e) v } := by
  unfold Nd4.set
  rw [ha, offset_ok board e h]
  rfl

theorem set_err (board : Nat × Nat) (a : Nd4) (ha : a.shape = featureShape board) (e : SnapLoc × SnapPart)
    (h : ¬ PlacedOk board e) (v : ℚ) : a.set e.2.id e.1.1 e.1.2.1 e.1.2.2 v = .error .indexError := by
  unfold Nd4.set
  rw [ha, offset_err board e h]
  rfl

/-- The feature vector after the loop. -/
theorem snapFill_ok (board : Nat × Nat) (l : List (SnapLoc × SnapPart)) (a : Nd4) (ha : a.shape = featureShape board)
    (hlen : a.data.length = 20 * board.1 * board.2 * 4) (hl : ∀ e ∈ l, PlacedOk board e) :
    ∃ b : Nd4, snapFill a l = .ok b ∧ b.data.length = 20 * board.1 * board.2 * 4 ∧
      ∀ k, k < 20 * board.1 * board.2 * 4 →
        ((∃ e ∈ l, cellOf board e = k) → b.data[k]? = some 1) ∧
        ((¬ ∃ e ∈ l, cellOf board e = k) → b.data[k]? = a.data[k]?) := by
  induction l generalizing a with
  | nil => exact ⟨a, rfl, hlen, fun k _ => ⟨by rintro ⟨e, he, _⟩; simp at he, fun _ => rfl⟩⟩
  | cons e l ih =>
    have he := hl e (by simp)
    obtain ⟨b, hb, hbl, hbk⟩ := ih { a with data := a.data.set (cellOf board e) 1 } ha (by simpa using hlen)
      (fun f hf => hl f (by simp [hf]))
    refine ⟨b, ?_, hbl, ?_⟩
    · rcases e with ⟨⟨x, y, o⟩, p⟩
      unfold snapFill
      have := set_ok board a ha ((x, y, o), p) he 1
      simp only at this
      simp only [this, bind, Except.bind]
      exact hb
    · intro k hk
      obtain ⟨h1, h2⟩ := hbk k hk
      refine ⟨?_, ?_⟩
      · rintro ⟨f, hf, hfk⟩
        by_cases hin : ∃ e ∈ l, cellOf board e = k
        · exact h1 hin
        · rw [h2 hin]
          rcases List.mem_cons.1 hf with rfl | hf
          · rw [hfk]
            simp [List.getElem?_set, hlen, hk]
          · exact absurd ⟨f, hf, hfk⟩ hin
      · intro hno
        rw [h2 (fun ⟨f, hf, hfk⟩ => hno ⟨f, by simp [hf], hfk⟩)]
        have : cellOf board e ≠ k := fun h => hno ⟨e, by simp, h⟩
        simp [List.getElem?_set, this]

theorem snapFill_err (board : Nat × Nat) (l : List (SnapLoc × SnapPart)) (a : Nd4) (ha : a.shape = featureShape board)
    (hl : ∃ e ∈ l, ¬ PlacedOk board e) : snapFill a l = .error .indexError := by
  induction l generalizing a with
  | nil => obtain ⟨e, he, _⟩ := hl; simp at he
  | cons e l ih =>
    rcases e with ⟨⟨x, y, o⟩, p⟩
    unfold snapFill
    by_cases he : PlacedOk board ((x, y, o), p)
    · have := set_ok board a ha ((x, y, o), p) he 1
      simp only at this
      simp only [this, bind, Except.bind]
      refine ih { a with data := a.data.set (cellOf board ((x, y, o), p)) 1 } ha ?_
      obtain ⟨f, hf, hfn⟩ := hl
      rcases List.mem_cons.1 hf with rfl | hf
      · exact absurd he hfn
      · exact ⟨f, hf, hfn⟩
    · have := set_err board a ha ((x, y, o), p) he 1
      simp only at this
      simp only [this, bind, Except.bind]

/-- **C63, features.**  The features of a state whose parts index its board: as many as `n_dim`, the one of a part at a
location is 1 if a part of the state uses it, the others are 0. -/
theorem C63_features (s : SnapState) (h : ∀ e ∈ s.parts, PlacedOk s.board e) :
    ∃ f : List ℚ, s.getFeatures = .ok f ∧ f.length = s.nDim ∧ (∀ x ∈ f, x = 0 ∨ x = 1) ∧
      ∀ e, PlacedOk s.board e → ∃ k, Nd4.offset (featureShape s.board) e.2.id e.1.1 e.1.2.1 e.1.2.2 = .ok k ∧
        ((∃ f ∈ s.parts, SameCell s.board f e) → f[k]? = some 1) ∧
        ((¬ ∃ f ∈ s.parts, SameCell s.board f e) → f[k]? = some 0) := by
  obtain ⟨b, hb, hbl, hbk⟩ := snapFill_ok s.board s.parts (Nd4.zeros (featureShape s.board)) rfl
    (by simp [Nd4.zeros, featureShape, orientationNames]) h
  have hz : ∀ k, k < 20 * s.board.1 * s.board.2 * 4 → (Nd4.zeros (featureShape s.board)).data[k]? = some 0 := by
    intro k hk
    simp only [Nd4.zeros, List.getElem?_replicate]
    rw [if_pos (by simpa [featureShape, orientationNames] using hk)]
  refine ⟨b.data, ?_, ?_, ?_, ?_⟩
  · unfold SnapState.getFeatures SnapState.features
    have hb' := hb
    unfold SnapState.board at hb'
    rw [hb']
    rfl
  · rw [hbl]
    simp [SnapState.nDim, featureShape, orientationNames, SnapState.board]
  · intro x hx
    obtain ⟨k, hk, rfl⟩ := List.mem_iff_getElem.1 hx
    obtain ⟨h1, h2⟩ := hbk k (by omega)
    by_cases hin : ∃ e ∈ s.parts, cellOf s.board e = k
    · right
      have := h1 hin
      rw [List.getElem?_eq_getElem hk] at this
      simpa using this
    · left
      have := h2 hin
      rw [hz k (by omega), List.getElem?_eq_getElem hk] at this
      simpa using this
  · intro e he
    refine ⟨cellOf s.board e, offset_ok _ _ he, ?_, ?_⟩
    · rintro ⟨f, hf, hfe⟩
      exact (hbk _ (cellOf_lt _ _ he)).1 ⟨f, hf, (cellOf_inj _ _ _ (h f hf) he).2 hfe⟩
    · intro hno
      rw [(hbk _ (cellOf_lt _ _ he)).2, hz _ (cellOf_lt _ _ he)]
      rintro ⟨f, hf, hfe⟩
      exact hno ⟨f, hf, (cellOf_inj _ _ _ (h f hf) he).1 hfe⟩

/-- The mask of a presence condition. -/
def oneHot (n k : Nat) : List ℚ := (List.replicate n 0).set k 1

theorem oneHot_get (n k i : Nat) (hi : i < n) : (oneHot n k)[i]? = some (if k = i then 1 else 0) := by
  unfold oneHot
  rw [List.getElem?_set]
  split
  · rename_i h
    subst h
    simp [hi]
  · simp [List.getElem?_replicate, hi]

theorem oneHot_length (n k : Nat) : (oneHot n k).length = n := by simp [oneHot]

/-- The value of a presence condition. -/
def hotIf (b : Bool) (n k : Nat) : List ℚ := if b then oneHot n k else List.replicate n 0

theorem hotIf_length (b : Bool) (n k : Nat) : (hotIf b n k).length = n := by
  cases b <;> simp [hotIf, oneHot_length]

theorem hotIf_get (b : Bool) (n k i : Nat) (hi : i < n) :
    (hotIf b n k)[i]? = some (if k = i then (if b then 1 else 0) else 0) := by
  cases b
  · simp [hotIf, List.getElem?_replicate, hi]
  · simp [hotIf, oneHot_get n k i hi]

theorem mkPresence_ok (board : Nat × Nat) (part : SnapPart) (loc : SnapLoc) (b : Bool) (h : PlacedOk board (loc, part)) :
    mkPresence board part loc b = .ok (.cond ⟨.float64, oneHot (20 * board.1 * board.2 * 4) (cellOf board (loc, part))⟩
      ⟨.float64, hotIf b (20 * board.1 * board.2 * 4) (cellOf board (loc, part))⟩) := by
  set n := 20 * board.1 * board.2 * 4 with hn
  set k := cellOf board (loc, part) with hk
  have hs := set_ok board (Nd4.zeros (featureShape board)) rfl (loc, part) h 1
  have hd : (Nd4.zeros (featureShape board)).data = List.replicate n 0 := by
    simp [Nd4.zeros, featureShape, orientationNames, hn]
  have hv : ∃ v : Nd4, presenceValue b (featureShape board) part loc = .ok v ∧ v.data = hotIf b n k := by
    cases b
    · exact ⟨_, rfl, by simp [hd, hotIf]⟩
    · exact ⟨_, hs, by simp [hd, hotIf, oneHot, hk]⟩
  obtain ⟨v, hv, hvd⟩ := hv
  simp only at hs
  unfold mkPresence
  simp only [hs, hv, bind, Except.bind, Nd4.flatten, hd, hvd]
  have hcon := C64_construct ⟨.float64, oneHot n k⟩ ⟨.float64, hotIf b n k⟩ (by simp [oneHot_length, hotIf_length]) (by
    intro x hx
    obtain ⟨i, hi, rfl⟩ := List.mem_iff_getElem.1 hx
    have := oneHot_get n k i (by simpa [oneHot_length] using hi)
    rw [List.getElem?_eq_getElem hi] at this
    simp only [Option.some.injEq] at this
    simp only [this]
    split <;> simp)
  rcases hcon.1 with he | he
  · exfalso
    obtain ⟨i, hi, h0, h1⟩ := hcon.2.1 he
    have hin : i < n := by simpa [oneHot_length] using hi
    have g1 := oneHot_get n k i hin
    have g2 := hotIf_get b n k i hin
    rw [List.getElem?_eq_getElem hi] at g1
    rw [List.getElem?_eq_getElem (by simpa [hotIf_length] using hin)] at g2
    simp only [Option.some.injEq] at g1 g2
    simp only at h0 h1
    rw [g1] at h0
    rw [g2] at h1
    by_cases hki : k = i <;> simp_all
  · exact he

theorem mkPresence_err (board : Nat × Nat) (part : SnapPart) (loc : SnapLoc) (b : Bool)
    (h : ¬ PlacedOk board (loc, part)) : mkPresence board part loc b = .error .indexError := by
  have := set_err board (Nd4.zeros (featureShape board)) rfl (loc, part) h 1
  simp only at this
  unfold mkPresence
  simp only [this, bind, Except.bind]

/-- Checking a presence condition on features. -/
theorem presence_check (b : Bool) (n k : Nat) (hk : k < n) (f : List ℚ) (hf : f.length = n) :
    (Cond.cond ⟨.float64, oneHot n k⟩ ⟨.float64, hotIf b n k⟩).check f =
      .ok (decide (f[k]? = some (if b then 1 else 0))) := by
  unfold Cond.check
  simp only [oneHot_length, hf, ne_eq, not_true_eq_false, if_false]
  congr 1
  rw [Bool.eq_iff_iff, List.all_eq_true]
  have hl : ((List.zipWith (· * ·) f (oneHot n k)).zip (hotIf b n k)).length = n := by
    simp [oneHot_length, hotIf_length, hf]
  have hg : ∀ i, (hi : i < n) → ((List.zipWith (· * ·) f (oneHot n k)).zip (hotIf b n k))[i]'(by omega) =
      (f[i]'(by omega) * (if k = i then 1 else 0), if k = i then (if b then 1 else 0) else 0) := by
    intro i hi
    have g1 := oneHot_get n k i hi
    have g2 := hotIf_get b n k i hi
    rw [List.getElem?_eq_getElem (by simpa [oneHot_length] using hi)] at g1
    rw [List.getElem?_eq_getElem (by simpa [hotIf_length] using hi)] at g2
    simp only [Option.some.injEq] at g1 g2
    simp [List.getElem_zip, List.getElem_zipWith, g1, g2]
  constructor
  · intro h
    have := h _ (List.getElem_mem (l := (List.zipWith (· * ·) f (oneHot n k)).zip (hotIf b n k)) (n := k) (by omega))
    rw [hg k hk] at this
    simp only [if_true, mul_one, decide_eq_true_eq] at this
    rw [List.getElem?_eq_getElem (by omega)]
    simpa using this
  · intro h x hx
    obtain ⟨i, hi, rfl⟩ := List.mem_iff_getElem.1 hx
    rw [hg i (by omega)]
    by_cases hki : k = i
    · subst hki
      rw [List.getElem?_eq_getElem (by omega)] at h
      simpa using h
    · simp [hki]

theorem orientationName_ok (board : Nat × Nat) (e : SnapLoc × SnapPart) (h : PlacedOk board e) :
    orientationName e.1.2.2 = .ok (orientationNames.getD (e.1.2.2 % 4).toNat "") := by
  unfold orientationName
  have : npIndex orientationNames.length e.1.2.2 = .ok (e.1.2.2 % 4).toNat := npIndex_ok 4 _ h.2.2.2
  rw [this]
  rfl

/-- The action that is constructed. -/
theorem mkPlace_ok (board : Nat × Nat) (part : SnapPart) (loc : SnapLoc) (h : PlacedOk board (loc, part)) :
    ∃ name, mkPlace board part loc = .ok
      { pre := .cond ⟨.float64, oneHot (20 * board.1 * board.2 * 4) (cellOf board (loc, part))⟩
          ⟨.float64, hotIf false (20 * board.1 * board.2 * 4) (cellOf board (loc, part))⟩
        post := .cond ⟨.float64, oneHot (20 * board.1 * board.2 * 4) (cellOf board (loc, part))⟩
          ⟨.float64, hotIf true (20 * board.1 * board.2 * 4) (cellOf board (loc, part))⟩
        name := name, part := part, location := loc } := by
  have ho := orientationName_ok board (loc, part) h
  simp only at ho
  unfold mkPlace
  simp only [mkPresence_ok board part loc false h, mkPresence_ok board part loc true h, ho, bind, Except.bind]
  exact ⟨_, rfl⟩

/-- **C63, construction.**  A `PlaceAction` can be constructed exactly when numpy accepts the part number and the location
as indices for the board; otherwise the constructor raises `IndexError`. -/
theorem C63_construct (board : Nat × Nat) (part : SnapPart) (loc : SnapLoc) :
    (PlacedOk board (loc, part) → ∃ a, mkPlace board part loc = .ok a ∧ a.part = part ∧ a.location = loc) ∧
    (¬ PlacedOk board (loc, part) → mkPlace board part loc = .error .indexError) := by
  refine ⟨?_, ?_⟩
  · intro h
    obtain ⟨name, hn⟩ := mkPlace_ok board part loc h
    exact ⟨_, hn, rfl, rfl⟩
  · intro h
    unfold mkPlace
    simp only [mkPresence_err board part loc _ h, bind, Except.bind]

/-- Features of a state on a board at the place of an action. -/
theorem checkSnap_ok (board : Nat × Nat) (e : SnapLoc × SnapPart) (he : PlacedOk board e) (b : Bool) (s : SnapState)
    (hs : s.board = board) (hp : ∀ f ∈ s.parts, PlacedOk board f) :
    ∃ r, (Cond.cond ⟨.float64, oneHot (20 * board.1 * board.2 * 4) (cellOf board e)⟩
      ⟨.float64, hotIf b (20 * board.1 * board.2 * 4) (cellOf board e)⟩).checkSnap s = .ok r ∧
      (r = true ↔ (b = true ↔ ∃ f ∈ s.parts, SameCell board f e)) := by
  subst hs
  obtain ⟨f, hf, hfl, _, hfe⟩ := C63_features s hp
  obtain ⟨k, hk, h1, h2⟩ := hfe e he
  have hkc : k = cellOf s.board e := by
    rw [offset_ok _ _ he] at hk
    simpa using hk.symm
  subst hkc
  have hn : s.nDim = 20 * s.board.1 * s.board.2 * 4 := by
    simp [SnapState.nDim, featureShape, orientationNames, SnapState.board]
  unfold Cond.checkSnap
  simp only [hf, bind, Except.bind]
  rw [presence_check b _ _ (cellOf_lt _ _ he) f (by omega)]
  refine ⟨_, rfl, ?_⟩
  by_cases hin : ∃ f ∈ s.parts, SameCell s.board f e
  · rw [h1 hin]
    cases b <;> simp [hin]
  · rw [h2 hin]
    cases b <;> simp [hin]

/-- **C63, all indices.**  For a part number and a location accepted by the constructor, and states of the same board whose
parts have accepted indices, `check(before, after)` is true exactly if no part of `before` uses the feature of the action and
one of `after` does. -/
theorem C63_check_indices (board : Nat × Nat) (part : SnapPart) (loc : SnapLoc) (h : PlacedOk board (loc, part)) (a : PlaceAct)
    (ha : mkPlace board part loc = .ok a) (before after : SnapState) (hb : before.board = board) (haf : after.board = board)
    (hbp : ∀ e ∈ before.parts, PlacedOk board e) (hap : ∀ e ∈ after.parts, PlacedOk board e) :
    ∃ r, a.check before after = .ok r ∧
      (r = true ↔ (¬ ∃ e ∈ before.parts, SameCell board e (loc, part)) ∧
        ∃ e ∈ after.parts, SameCell board e (loc, part)) := by
  obtain ⟨name, hn⟩ := mkPlace_ok board part loc h
  rw [hn] at ha
  injection ha with ha
  subst ha
  obtain ⟨r1, h1, e1⟩ := checkSnap_ok board (loc, part) h false before hb hbp
  obtain ⟨r2, h2, e2⟩ := checkSnap_ok board (loc, part) h true after haf hap
  unfold PlaceAct.check
  simp only [h1, h2, bind, Except.bind]
  cases r1
  · refine ⟨false, rfl, ?_⟩
    simp only [Bool.false_eq_true, false_iff] at e1 ⊢
    intro hc
    exact e1 (by simp [hc.1])
  · refine ⟨r2, by simp, ?_⟩
    rw [e2]
    simp only [true_iff, Bool.false_eq_true, false_iff] at e1 ⊢
    simp [e1]

/-- **C63.**  On a board that contains the location, for a part number below 20 and states of that board, `check(before,
after)` of a `PlaceAction` is true exactly if `before` has no part with that number at that location and `after` has one. -/
theorem C63_check (board : Nat × Nat) (part : SnapPart) (loc : SnapLoc) (h : PlacedIn board (loc, part))
    (before after : SnapState) (hb : before.board = board) (haf : after.board = board)
    (hbp : ∀ e ∈ before.parts, PlacedIn board e) (hap : ∀ e ∈ after.parts, PlacedIn board e) :
    ∃ a r, mkPlace board part loc = .ok a ∧ a.check before after = .ok r ∧
      (r = true ↔ (¬ ∃ q : SnapPart, q.id = part.id ∧ (loc, q) ∈ before.parts) ∧
        ∃ q : SnapPart, q.id = part.id ∧ (loc, q) ∈ after.parts) := by
  have hok : ∀ e, PlacedIn board e → PlacedOk board e := by
    rintro e ⟨h1, h2, h3, h4⟩
    unfold PlacedOk AxisOk
    refine ⟨⟨?_, ?_⟩, ⟨?_, ?_⟩, ⟨?_, ?_⟩, ⟨?_, ?_⟩⟩ <;> omega
  have hsame : ∀ e, PlacedIn board e → (SameCell board e (loc, part) ↔ e.2.id = part.id ∧ e.1 = loc) := by
    rintro ⟨⟨x, y, o⟩, q⟩ ⟨h1, h2, h3, h4⟩
    obtain ⟨x', y', o'⟩ := loc
    obtain ⟨k1, k2, k3, k4⟩ := h
    simp only at h1 h2 h3 h4 k1 k2 k3 k4
    unfold SameCell
    simp only [Prod.mk.injEq]
    rw [Int.emod_eq_of_lt h1.1 h1.2, Int.emod_eq_of_lt h2.1 h2.2, Int.emod_eq_of_lt h3.1 h3.2,
      Int.emod_eq_of_lt h4.1 h4.2, Int.emod_eq_of_lt k1.1 k1.2, Int.emod_eq_of_lt k2.1 k2.2,
      Int.emod_eq_of_lt k3.1 k3.2, Int.emod_eq_of_lt k4.1 k4.2]
  have hex : ∀ s : SnapState, (∀ e ∈ s.parts, PlacedIn board e) →
      ((∃ e ∈ s.parts, SameCell board e (loc, part)) ↔ ∃ q : SnapPart, q.id = part.id ∧ (loc, q) ∈ s.parts) := by
    intro s hs
    constructor
    · rintro ⟨⟨l, q⟩, he, hc⟩
      obtain ⟨h1, h2⟩ := (hsame _ (hs _ he)).1 hc
      simp only at h1 h2
      subst h2
      exact ⟨q, h1, he⟩
    · rintro ⟨q, hq, he⟩
      exact ⟨_, he, (hsame _ (hs _ he)).2 ⟨hq, rfl⟩⟩
  obtain ⟨a, ha, _⟩ := (C63_construct board part loc).1 (hok _ h)
  obtain ⟨r, hr, hiff⟩ := C63_check_indices board part loc (hok _ h) a ha before after hb haf
    (fun e he => hok e (hbp e he)) (fun e he => hok e (hap e he))
  refine ⟨a, r, ha, hr, ?_⟩
  rw [hiff, hex before hbp, hex after hap]

/-- **C63, errors.**  A state with a part that does not index its board has no features: checking any condition on it raises
`IndexError`. -/
theorem C63_outside (s : SnapState) (h : ∃ e ∈ s.parts, ¬ PlacedOk s.board e) (c : Cond) :
    c.checkSnap s = .error .indexError := by
  have := snapFill_err s.board s.parts (Nd4.zeros (featureShape s.board)) rfl h
  unfold SnapState.board at this
  simp [Cond.checkSnap, SnapState.getFeatures, SnapState.features, this, bind, Except.bind]

/-- **C63, equality.**  Two `PlaceAction` of one board are equal exactly if they use the same feature (for indices from zero:
the same part number and the same location, whatever the labels). -/
theorem C63_equal (board : Nat × Nat) (p q : SnapPart) (l m : SnapLoc) (hp : PlacedOk board (l, p))
    (hq : PlacedOk board (m, q)) :
    ∃ a b r, mkPlace board p l = .ok a ∧ mkPlace board q m = .ok b ∧ a.toAct.eq b.toAct = .ok r ∧
      (r = true ↔ SameCell board (l, p) (m, q)) := by
  obtain ⟨n, hn⟩ := mkPlace_ok board p l hp
  obtain ⟨n', hn'⟩ := mkPlace_ok board q m hq
  refine ⟨_, _, _, hn, hn', rfl, ?_⟩
  rw [← cellOf_inj _ _ _ hp hq]
  simp only [Cond.eq, Arr.equal, Bool.and_eq_true, decide_eq_true_eq]
  constructor
  · rintro ⟨⟨h, _⟩, _⟩
    have hlt := cellOf_lt board _ hp
    have := oneHot_get (20 * board.1 * board.2 * 4) (cellOf board (l, p)) _ hlt
    rw [h, oneHot_get _ _ _ hlt] at this
    by_contra hne
    simp [Ne.symm hne] at this
  · intro h
    rw [h]
    simp

/-- Non-vacuity of C63: the second action of the sample `snap_circuit_scenarii.py`. -/
example :
    PlacedIn (7, 10) ((4, 5, 1), ⟨1, "2"⟩) ∧
    (mkSnapState (7, 10) [((2, 5, 0), ⟨0, "2"⟩), ((4, 5, 1), ⟨1, "2"⟩)]).board = (7, 10) ∧
    (∀ e ∈ (mkSnapState (7, 10) [((2, 5, 0), ⟨0, "2"⟩), ((4, 5, 1), ⟨1, "2"⟩)]).parts, PlacedIn (7, 10) e) := by
  refine ⟨by simp [PlacedIn], rfl, ?_⟩
  intro e he
  have : e = ((2, 5, 0), ⟨0, "2"⟩) ∨ e = ((4, 5, 1), ⟨1, "2"⟩) := by
    have h : e ∈ [(((2, 5, 0), ⟨0, "2"⟩) : SnapLoc × SnapPart), ((4, 5, 1), ⟨1, "2"⟩)] := he
    simpa using h
  rcases this with rfl | rfl <;> simp [PlacedIn]

/-! ## Hashes -/

theorem hashTuple_lt (l : List Nat) : hashTuple l < wordMod := by
  unfold hashTuple
  simp only
  split
  · unfold wordMod
    decide
  · exact Nat.mod_lt _ (by unfold wordMod; decide)

/-- **C65, iteration.**  For every list of parts, building the set, copying it and iterating over the copy ends and gives
every part once. -/
theorem C65_iteration (parts : List (SnapLoc × SnapPart)) :
    ∃ order, iterParts parts = .ok order ∧ order.Nodup ∧ (∀ e, e ∈ order ↔ e ∈ parts) ∧
      ∀ board, ∃ h, snapHash board parts = .ok h := by
  obtain ⟨t, c, h1, h2, h3, h4, _⟩ := hiter_spec hashPlaced (fun x => hashTuple_lt _) parts
  have hi : iterParts parts = .ok c.elems := by
    unfold iterParts
    simp only [h1, h2, bind, Except.bind]
    rfl
  refine ⟨c.elems, hi, h3, h4, ?_⟩
  intro board
  unfold snapHash
  simp only [hi, bind, Except.bind]
  exact ⟨_, rfl⟩

/-- Duplicate-free lists with the same members that are sorted by the same key are equal. -/
theorem sorted_unique {α : Type} (f : α → Nat) (l m : List α) (hl : l.Nodup) (hm : m.Nodup) (h : ∀ x, x ∈ l ↔ x ∈ m)
    (sl : l.Pairwise fun x y => f x < f y) (sm : m.Pairwise fun x y => f x < f y) : l = m := by
  have hp : l.Perm m := (List.perm_ext_iff_of_nodup hl hm).2 h
  exact hp.eq_of_pairwise (fun a b _ _ h1 h2 => absurd h1 (by omega)) sl sm

theorem mem_setOf_iff {α : Type} [DecidableEq α] (l : List α) (x : α) : x ∈ setOf l ↔ x ∈ l := by
  have key : ∀ (l acc : List α), x ∈ l.foldl setAdd acc ↔ x ∈ acc ∨ x ∈ l := by
    intro l
    induction l with
    | nil => simp
    | cons a l ih =>
      intro acc
      rw [List.foldl_cons, ih]
      unfold setAdd
      split
      · rename_i h
        constructor
        · rintro (h' | h')
          · exact Or.inl h'
          · exact Or.inr (by simp [h'])
        · rintro (h' | h')
          · exact Or.inl h'
          · rcases List.mem_cons.1 h' with rfl | h'
            · exact Or.inl h
            · exact Or.inr h'
      · simp only [List.mem_append, List.mem_singleton, List.mem_cons, or_assoc, List.not_mem_nil, false_or]
  simpa using key l []

/-- States are equal exactly if they have the same board and the same parts. -/
theorem snapEq_iff (b b' : Nat × Nat) (l m : List (SnapLoc × SnapPart)) :
    (mkSnapState b l).eq (mkSnapState b' m) = true ↔ b = b' ∧ ∀ e, e ∈ l ↔ e ∈ m := by
  obtain ⟨r, c⟩ := b
  obtain ⟨r', c'⟩ := b'
  unfold SnapState.eq mkSnapState setEq featureShape
  simp only [Bool.and_eq_true, decide_eq_true_eq, List.all_eq_true, mem_setOf_iff, Prod.mk.injEq, true_and, and_true]
  constructor
  · rintro ⟨h, h1, h2⟩
    exact ⟨h, fun e => ⟨h1 e, h2 e⟩⟩
  · rintro ⟨h, h1⟩
    exact ⟨h, fun e => (h1 e).1, fun e => (h1 e).2⟩

/-- **C63, states.**  A state keeps each part that it is given exactly once, and two states are equal exactly when their boards are and
they are given the same parts, in any order and any number of times. -/
theorem C63_states (b b' : Nat × Nat) (l m : List (SnapLoc × SnapPart)) :
    ((mkSnapState b l).board = b ∧ (mkSnapState b l).parts.Nodup ∧ ∀ e, e ∈ (mkSnapState b l).parts ↔ e ∈ l) ∧
    ((mkSnapState b l).eq (mkSnapState b' m) = true ↔ b = b' ∧ ∀ e, e ∈ l ↔ e ∈ m) :=
  ⟨⟨rfl, nodup_setOf l, mem_setOf l⟩, snapEq_iff b b' l m⟩

/-- **C65, the part that holds.**  If the hashes of the parts are distinct modulo the number of slots of the copied set (8
slots up to four parts, else the first power of two above twice the number of parts), equal states have equal hashes,
whatever the order in which, and how often, the parts were given. -/
theorem C65_distinct_partial (board board' : Nat × Nat) (l m : List (SnapLoc × SnapPart))
    (heq : (mkSnapState board l).eq (mkSnapState board' m) = true)
    (hdist : ∀ x ∈ l, ∀ y ∈ l, hashPlaced x % copySlots l.toFinset.card = hashPlaced y % copySlots l.toFinset.card → x = y) :
    ∃ h, snapHash board l = .ok h ∧ snapHash board' m = .ok h := by
  obtain ⟨rfl, hmem⟩ := (snapEq_iff _ _ _ _).1 heq
  obtain ⟨t, c, h1, h2, h3, h4, h5⟩ := hiter_spec hashPlaced (fun x => hashTuple_lt _) l
  obtain ⟨t', c', h1', h2', h3', h4', h5'⟩ := hiter_spec hashPlaced (fun x => hashTuple_lt _) m
  have hcard : c.elems.length = l.toFinset.card := by
    rw [← List.toFinset_card_of_nodup h3]
    congr 1
    ext x
    simp [h4]
  have hsame : ∀ x, x ∈ c.elems ↔ x ∈ c'.elems := fun x => by rw [h4, h4', hmem]
  have hlen : c.elems.length = c'.elems.length := ((List.perm_ext_iff_of_nodup h3 h3').2 hsame).length_eq
  rw [hcard] at h5
  rw [← hlen, hcard] at h5'
  have he := sorted_unique (fun x => hashPlaced x % copySlots l.toFinset.card) _ _ h3 h3' hsame (h5 hdist)
    (h5' (fun x hx y hy => hdist x ((hmem x).2 hx) y ((hmem y).2 hy)))
  have i1 : iterParts l = .ok c.elems := by
    unfold iterParts
    simp only [h1, h2, bind, Except.bind]
    rfl
  have i2 : iterParts m = .ok c.elems := by
    unfold iterParts
    simp only [h1', h2', bind, Except.bind]
    rw [he]
    rfl
  unfold snapHash
  simp only [i1, i2, bind, Except.bind]
  exact ⟨_, rfl, rfl⟩

/-- The two parts of the sample `snap_circuit_scenarii.py` for the position `(2, 5)`. -/
def sampleL : SnapLoc × SnapPart := ((2, 5, 0), ⟨0, "2"⟩)
/-- The second part. -/
def sampleL' : SnapLoc × SnapPart := ((4, 5, 1), ⟨1, "2"⟩)

/-- **C65 is false of the code.**  The states of the sample with the two parts given in one or the other order are equal, but
their hashes differ (the values are those that CPython 3.11 computes, as unsigned words). -/
theorem C65_false_hash :
    (mkSnapState (7, 10) [sampleL, sampleL']).eq (mkSnapState (7, 10) [sampleL', sampleL]) = true ∧
    snapHash (7, 10) [sampleL, sampleL'] = .ok 810198713578607718 ∧
    snapHash (7, 10) [sampleL', sampleL] = .ok 5876686812098183169 := by
  refine ⟨?_, ?_, ?_⟩ <;> decide +kernel

/-- **C65 is false of the code, lookups.**  A dictionary whose key is one of these states does not find the other one. -/
theorem C65_false_lookup {ν : Type} (v : ν) (h h' : Nat) (hh : snapHash (7, 10) [sampleL, sampleL'] = .ok h)
    (hh' : snapHash (7, 10) [sampleL', sampleL] = .ok h') :
    hashedGet SnapState.eq (hashedOne h (mkSnapState (7, 10) [sampleL, sampleL']) v) h
      (mkSnapState (7, 10) [sampleL, sampleL']) = some v ∧
    hashedGet SnapState.eq (hashedOne h (mkSnapState (7, 10) [sampleL, sampleL']) v) h'
      (mkSnapState (7, 10) [sampleL', sampleL]) = none := by
  rw [C65_false_hash.2.1] at hh
  rw [C65_false_hash.2.2] at hh'
  injection hh with hh
  injection hh' with hh'
  subst hh hh'
  have hself : (mkSnapState (7, 10) [sampleL, sampleL']).eq (mkSnapState (7, 10) [sampleL, sampleL']) = true := by
    rw [snapEq_iff]
    simp
  refine ⟨?_, ?_⟩
  · simp [hashedGet, hashedOne, hself]
  · simp [hashedGet, hashedOne]

/-- Six parts. -/
def sixParts : List (SnapLoc × SnapPart) :=
  [((0, 0, 0), ⟨0, "a"⟩), ((2, 0, 0), ⟨0, "a"⟩), ((0, 1, 1), ⟨1, "a"⟩), ((1, 1, 1), ⟨1, "a"⟩), ((1, 2, 2), ⟨2, "a"⟩),
    ((0, 3, 3), ⟨3, "a"⟩)]

/-- Non-vacuity of C65: six parts whose hashes are distinct modulo 16. -/
example : (mkSnapState (7, 10) sixParts).eq (mkSnapState (7, 10) (sixParts.reverse ++ sixParts)) = true ∧
    copySlots sixParts.toFinset.card = 16 ∧
    ∀ x ∈ sixParts, ∀ y ∈ sixParts, hashPlaced x % copySlots sixParts.toFinset.card =
      hashPlaced y % copySlots sixParts.toFinset.card → x = y := by
  refine ⟨?_, ?_, ?_⟩ <;> decide +kernel

end Verif
