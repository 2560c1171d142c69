import Verif.Model.Actions
import Verif.Proof.Htm

/-! Properties C20, C21 and C64 (meta actions, equality and hashing of actions, conditions). -/

set_option linter.unusedSectionVars false
set_option linter.unusedSimpArgs false

namespace Verif

/-- Induction on actions. -/
theorem Act.induct {P : Act → Prop} (h1 : ∀ n, P (.plain n)) (h2 : ∀ k as, (∀ a ∈ as, P a) → P (.metaAct k as))
    (h3 : ∀ p q n, P (.prePost p q n)) (a : Act) : P a := by
  refine Act.rec (motive_1 := P) (motive_2 := fun as => ∀ a ∈ as, P a) h1 (fun k as ih => h2 k as ih) h3 ?_ ?_ a
  · intro a ha
    simp at ha
  · intro a as ha has b hb
    rcases List.mem_cons.1 hb with rfl | hb
    · exact ha
    · exact has b hb

/-- **C20 is false of the code.**  `MetaAction` can be constructed exactly with the kinds `'sequence'`, `'parallel'` and
`'alternative'`, and then `to_combination` raises `KeyError` whatever the actions. -/
theorem C20_false (kind : String) (actions : List Act) :
    (mkMeta kind actions = .error .keyError ∧ kind ≠ "sequence" ∧ kind ≠ "parallel" ∧ kind ≠ "alternative") ∨
    ∃ m, mkMeta kind actions = .ok m ∧ m.toCombination = .error .keyError := by
  have hk : ∀ k : MKind, combinationClass k.str = .error .keyError := by
    intro k
    cases k <;> decide
  have key : ∀ a : Act, (∃ k as, a = .metaAct k as) → a.toCombination = .error .keyError := by
    intro a
    induction a using Act.induct with
    | h1 n => rintro ⟨_, _, h⟩; cases h
    | h3 p q n => rintro ⟨_, _, h⟩; cases h
    | h2 k as ih =>
      intro hx
      clear hx
      have hl : (∃ cs, Act.toCombinationL as = .ok cs) ∨ Act.toCombinationL as = .error .keyError := by
        induction as with
        | nil => left; exact ⟨[], by simp [Act.toCombinationL]⟩
        | cons a as iha =>
          have ih' := iha (fun b hb => ih b (by simp [hb]))
          cases a with
          | metaAct k' as' =>
            right
            simp [Act.toCombinationL, ih (.metaAct k' as') (by simp) ⟨_, _, rfl⟩, bind, Except.bind]
          | plain n =>
            rcases ih' with ⟨cs, h⟩ | h
            · left; exact ⟨_, by simp [Act.toCombinationL, h, bind, Except.bind, pure, Except.pure]; rfl⟩
            · right; simp [Act.toCombinationL, h, bind, Except.bind]
          | prePost p q n =>
            rcases ih' with ⟨cs, h⟩ | h
            · left; exact ⟨_, by simp [Act.toCombinationL, h, bind, Except.bind, pure, Except.pure]; rfl⟩
            · right; simp [Act.toCombinationL, h, bind, Except.bind]
      rcases hl with ⟨cs, h⟩ | h
      · simp [Act.toCombination, h, bind, Except.bind, hk]
      · simp [Act.toCombination, h, bind, Except.bind]
  unfold mkMeta
  split
  · right; exact ⟨_, rfl, key _ ⟨_, _, rfl⟩⟩
  · split
    · right; exact ⟨_, rfl, key _ ⟨_, _, rfl⟩⟩
    · split
      · right; exact ⟨_, rfl, key _ ⟨_, _, rfl⟩⟩
      · left; exact ⟨rfl, by assumption, by assumption, by assumption⟩

/-- **C20 (construction).**  A meta action that can be constructed has the kind and the actions that were given, and its name is the names of the
actions in brackets, joined by the sign of the kind. -/
theorem C20_construct_partial (kind : String) (actions : List Act) (m : Act) (h : mkMeta kind actions = .ok m) :
    ∃ k : MKind, m = .metaAct k actions ∧ k.str = kind ∧ ∃ sep, (kind, sep) ∈ [("sequence", "→"), ("parallel", "||"), ("alternative", "∨")] ∧
      m.name = "(" ++ String.intercalate sep (actions.map Act.name) ++ ")" := by
  have hn : Act.names actions = actions.map Act.name := by
    clear h
    induction actions with
    | nil => rfl
    | cons a as ih => simp [Act.names, ih]
  unfold mkMeta at h
  split_ifs at h with h1 h2 h3
  · cases h; subst h1; exact ⟨.sequence, rfl, rfl, "→", by simp, by rw [← hn]; rfl⟩
  · cases h; subst h2; exact ⟨.parallel, rfl, rfl, "||", by simp, by rw [← hn]; rfl⟩
  · cases h; subst h3; exact ⟨.alternative, rfl, rfl, "∨", by simp, by rw [← hn]; rfl⟩

/-- Non-vacuity of C20. -/
example : mkMeta "sequence" [.plain "a", .plain "b"] = .ok (.metaAct .sequence [.plain "a", .plain "b"]) := by
  simp [mkMeta]

/-! ### Equality -/

theorem Arr.equal_iff (a b : Arr) : a.equal b = true ↔ a.data = b.data := by simp [Arr.equal]

theorem Cond.eq_refl (c : Cond) : c.eq c = true := by cases c <;> simp [Cond.eq, Arr.equal]

theorem Cond.eq_symm (c d : Cond) : c.eq d = d.eq c := by
  cases c <;> cases d <;> simp [Cond.eq, Arr.equal, eq_comm]

theorem Cond.eq_trans (c d e : Cond) (h : c.eq d = true) (h' : d.eq e = true) : c.eq e = true := by
  cases c <;> cases d <;> cases e <;> simp_all [Cond.eq, Arr.equal]

/-- Equal lists: same length and elements equal in order. -/
theorem Act.eqL_true_iff (as bs : List Act) :
    Act.eqL as bs = .ok true ↔ List.Forall₂ (fun a b => Act.eq a b = .ok true) as bs := by
  induction as generalizing bs with
  | nil => cases bs <;> simp [Act.eqL]
  | cons a as ih =>
    cases bs with
    | nil => simp [Act.eqL]
    | cons b bs =>
      simp only [Act.eqL, List.forall₂_cons]
      constructor
      · intro h
        split at h
        · rcases he : Act.eq a b with e | e
          · rw [he] at h; simp [bind, Except.bind] at h
          · rw [he] at h
            simp only [bind, Except.bind] at h
            cases e with
            | false => simp [pure, Except.pure] at h
            | true => exact ⟨rfl, (ih bs).1 (by simpa using h)⟩
        · simp at h
      · rintro ⟨h1, h2⟩
        simp only [h2.length_eq, if_true, h1, bind, Except.bind]
        exact (ih bs).2 h2

/-- **C21 (partial): equivalence.**  `==` is reflexive; and "`==` returned `True`" is symmetric and transitive, on all
actions of any nesting.  (Missing: the comparison of a `PrePostConditionAction` with an action of another class, which
raises in one direction, `C21_false_symmetry`.) -/
theorem C21_equivalence_partial :
    (∀ a : Act, a.eq a = .ok true) ∧
    (∀ a b : Act, a.eq b = .ok true → b.eq a = .ok true) ∧
    (∀ a b c : Act, a.eq b = .ok true → b.eq c = .ok true → a.eq c = .ok true) := by
  refine ⟨?_, ?_, ?_⟩
  · intro a
    induction a using Act.induct with
    | h1 n => simp [Act.eq]
    | h3 p q n => simp [Act.eq, Cond.eq_refl]
    | h2 k as ih =>
      simp only [Act.eq, if_true, Act.eqL_true_iff]
      exact List.forall₂_same.2 ih
  · intro a
    induction a using Act.induct with
    | h1 n => intro b h; cases b <;> simp_all [Act.eq]
    | h3 p q n =>
      intro b h
      cases b with
      | plain => simp [Act.eq] at h
      | metaAct => simp [Act.eq] at h
      | prePost p' q' n' => simp only [Act.eq] at h ⊢; rw [Cond.eq_symm p' p, Cond.eq_symm q' q]; exact h
    | h2 k as ih =>
      intro b h
      cases b with
      | plain => simp [Act.eq] at h
      | prePost => simp [Act.eq] at h
      | metaAct k' bs =>
        simp only [Act.eq] at h ⊢
        split at h
        · rename_i hk
          rw [if_pos hk.symm]
          rw [Act.eqL_true_iff] at h ⊢
          clear hk k k'
          induction h with
          | nil => exact .nil
          | cons h1 h2 ih2 => exact .cons (ih _ (by simp) _ h1) (ih2 (fun a ha => ih a (by simp [ha])))
        · simp at h
  · intro a
    induction a using Act.induct with
    | h1 n => intro b c h h'; cases b <;> cases c <;> simp_all [Act.eq]
    | h3 p q n =>
      intro b c h h'
      cases b with
      | plain => simp [Act.eq] at h
      | metaAct => simp [Act.eq] at h
      | prePost p' q' n' =>
        cases c with
        | plain => simp [Act.eq] at h'
        | metaAct => simp [Act.eq] at h'
        | prePost p'' q'' n'' =>
          simp only [Act.eq, Except.ok.injEq, Bool.and_eq_true] at h h' ⊢
          exact ⟨Cond.eq_trans _ _ _ h.1 h'.1, Cond.eq_trans _ _ _ h.2 h'.2⟩
    | h2 k as ih =>
      intro b c h h'
      cases b with
      | plain => simp [Act.eq] at h
      | prePost => simp [Act.eq] at h
      | metaAct k' bs =>
        cases c with
        | plain => simp [Act.eq] at h'
        | prePost => simp [Act.eq] at h'
        | metaAct k'' cs =>
          simp only [Act.eq] at h h' ⊢
          split at h
          · rename_i hk
            split at h'
            · rename_i hk'
              rw [if_pos (hk.trans hk')]
              rw [Act.eqL_true_iff] at h h' ⊢
              clear hk hk' k k' k''
              induction h generalizing cs with
              | nil => cases h'; exact .nil
              | cons h1 h2 ih2 =>
                cases h' with
                | cons h3 h4 =>
                  exact .cons (ih _ (by simp) _ _ h1 h3) (ih2 (fun a ha => ih a (by simp [ha])) _ h4)
            · simp at h'
          · simp at h

/-- Actions made of abstract actions and meta actions only. -/
inductive Act.NoPrePost : Act → Prop
  | plain (n : String) : NoPrePost (.plain n)
  | metaAct (k : MKind) (as : List Act) (h : ∀ a ∈ as, NoPrePost a) : NoPrePost (.metaAct k as)

theorem eq_name (a b : Act) (ha : a.NoPrePost) (h : a.eq b = .ok true) : a.name = b.name := by
  induction a using Act.induct generalizing b with
  | h1 n =>
    cases b with
    | plain m => simpa [Act.eq, Act.name] using h
    | metaAct => simp [Act.eq] at h
    | prePost => simp [Act.eq] at h
  | h3 p q n => cases ha
  | h2 k as ih =>
    cases b with
    | plain => simp [Act.eq] at h
    | prePost => simp [Act.eq] at h
    | metaAct k' bs =>
      cases ha with
      | metaAct _ _ ha =>
        simp only [Act.eq] at h
        split at h
        · rename_i hk
          subst hk
          rw [Act.eqL_true_iff] at h
          have : Act.names as = Act.names bs := by
            induction h with
            | nil => rfl
            | cons h1 h2 ih2 =>
              simp only [Act.names]
              rw [ih _ (by simp) _ (ha _ (by simp)) h1,
                ih2 (fun a ha' => ih a (by simp [ha'])) (fun a ha' => ha a (by simp [ha']))]
          simp [Act.name, this]
        · simp at h

/-- All arrays of a condition have element type `d`. -/
def Cond.HasType (d : DType) : Cond → Prop
  | .matchAll => True
  | .cond m v => m.dtype = d ∧ v.dtype = d

/-- **C21 (partial): hashing.**  Equal actions have equal hashes when they are made of abstract and meta actions, or when
they are condition actions whose arrays have the same element type.  (Missing: meta actions that contain condition
actions and arrays of different element types, which are false, `C21_false_metaHash`, `C21_false_dtype`.) -/
theorem C21_hash_partial (H : HashFns) :
    (∀ a b : Act, a.NoPrePost → a.eq b = .ok true → a.hash H = b.hash H) ∧
    (∀ (d : DType) (p q p' q' : Cond) (n n' : String), p.HasType d → q.HasType d → p'.HasType d → q'.HasType d →
      (Act.prePost p q n).eq (.prePost p' q' n') = .ok true →
      (Act.prePost p q n).hash H = (Act.prePost p' q' n').hash H) := by
  refine ⟨?_, ?_⟩
  · intro a b ha h
    have hn := eq_name a b ha h
    cases a with
    | plain n =>
      cases b with
      | plain m => simpa [Act.hash, Act.name] using congrArg H.str hn
      | metaAct => simp [Act.eq] at h
      | prePost => simp [Act.eq] at h
    | metaAct k as =>
      cases b with
      | plain => simp [Act.eq] at h
      | prePost => simp [Act.eq] at h
      | metaAct k' bs => simp only [Act.hash]; rw [hn]
    | prePost => cases ha
  · intro d p q p' q' n n' h1 h2 h3 h4 h
    have key : ∀ c c' : Cond, c.HasType d → c'.HasType d → c.eq c' = true → c.hash H = c'.hash H := by
      intro c c' hc hc' he
      cases c <;> cases c' <;> simp_all [Cond.eq, Cond.hash, Arr.equal, Cond.HasType]
    simp only [Act.eq, Except.ok.injEq, Bool.and_eq_true] at h
    simp only [Act.hash]
    rw [key p p' h1 h3 h.1, key q q' h2 h4 h.2]

/-- **C21 is false of the code, symmetry.**  A condition action compared with an abstract action raises
`AttributeError`, the other way round it is `False`. -/
theorem C21_false_symmetry (p q : Cond) (n m : String) :
    (Act.prePost p q n).eq (.plain m) = .error .attributeError ∧ (Act.plain m).eq (.prePost p q n) = .ok false := by
  simp [Act.eq]

/-- **C21 is false of the code, meta actions.**  Condition actions with the same conditions and different names are
equal, so the meta actions that contain them are equal, but the hashes are those of different strings. -/
theorem C21_false_metaHash (H : HashFns) :
    let a := Act.metaAct .sequence [.prePost .matchAll .matchAll "x"]
    let b := Act.metaAct .sequence [.prePost .matchAll .matchAll "y"]
    a.eq b = .ok true ∧ a.hash H = H.str "(x)" ∧ b.hash H = H.str "(y)" := by
  refine ⟨by simp [Act.eq, Act.eqL, Cond.eq, bind, Except.bind], rfl, rfl⟩

/-- **C21 is false of the code, element types.**  Conditions with equal integer and floating-point arrays are equal, but
the hashes are computed from different bytes. -/
theorem C21_false_dtype (H : HashFns) :
    let c := Cond.cond ⟨.int64, [1]⟩ ⟨.int64, [1]⟩
    let d := Cond.cond ⟨.float64, [1]⟩ ⟨.float64, [1]⟩
    c.eq d = true ∧ c.hash H = H.pair (H.bytes .int64 [1]) (H.bytes .int64 [1]) ∧
      d.hash H = H.pair (H.bytes .float64 [1]) (H.bytes .float64 [1]) := by
  refine ⟨by simp [Cond.eq, Arr.equal], rfl, rfl⟩

/-- Non-vacuity of C21: nested meta actions. -/
example : (Act.metaAct .parallel [.plain "a", .metaAct .sequence [.plain "b"]]).NoPrePost := by
  refine .metaAct _ _ ?_
  intro a ha
  simp only [List.mem_cons, List.not_mem_nil, or_false] at ha
  rcases ha with rfl | rfl
  · exact .plain _
  · exact .metaAct _ _ (by intro a ha; simp at ha; subst ha; exact .plain _)

/-! ### Conditions -/

/-- **C64 (construction).**  For a 0/1 mask and a value of the same length, the constructor raises `ValueError` iff the
value is non-zero somewhere outside the mask. -/
theorem C64_construct (mask value : Arr) (hlen : mask.data.length = value.data.length)
    (hm : ∀ x ∈ mask.data, x = 0 ∨ x = 1) :
    (mkCond mask value = .error .valueError ∨ mkCond mask value = .ok (.cond mask value)) ∧
    (mkCond mask value = .error .valueError ↔
      ∃ (i : Nat) (h : i < mask.data.length), mask.data[i] = 0 ∧ value.data[i] ≠ 0) := by
  have hany : (List.zipWith (fun m v => (1 - m) * v) mask.data value.data).any (fun x => decide (x ≠ 0)) = true ↔
      ∃ (i : Nat) (h : i < mask.data.length), mask.data[i] = 0 ∧ value.data[i] ≠ 0 := by
    rw [List.any_eq_true]
    constructor
    · rintro ⟨x, hx, hne⟩
      obtain ⟨i, hi, rfl⟩ := List.getElem_of_mem hx
      simp only [List.length_zipWith] at hi
      have hi' : i < mask.data.length := by omega
      refine ⟨i, hi', ?_⟩
      simp only [List.getElem_zipWith, decide_eq_true_eq] at hne
      rcases hm _ (List.getElem_mem hi') with h | h
      · refine ⟨h, fun h0 => hne ?_⟩
        rw [h0]; simp
      · exfalso; apply hne; rw [h]; simp
    · rintro ⟨i, hi, h0, hv⟩
      refine ⟨(1 - mask.data[i]) * value.data[i], ?_, ?_⟩
      · rw [List.mem_iff_getElem]
        exact ⟨i, by simp; omega, by simp⟩
      · simp [h0, hv]
  rw [← hany]
  unfold mkCond
  rw [if_neg (not_not.2 hlen)]
  constructor
  · split <;> simp
  · split <;> rename_i h <;> simp only [h, reduceCtorEq, true_iff, iff_self]

/-- **C64 (check).**  A constructed condition with a 0/1 mask accepts a state with as many features iff the features
agree with the value wherever the mask is 1. -/
theorem C64_check (mask value : Arr) (c : Cond) (hm : ∀ x ∈ mask.data, x = 0 ∨ x = 1) (hc : mkCond mask value = .ok c)
    (features : List ℚ) (hf : features.length = mask.data.length) :
    ∃ b, c.check features = .ok b ∧
      (b = true ↔ ∀ (i : Nat) (h : i < mask.data.length) (h' : i < value.data.length),
        mask.data[i] = 1 → features[i] = value.data[i]) := by
  have hlen : mask.data.length = value.data.length := by
    by_contra h
    simp [mkCond, h] at hc
  have hcon := C64_construct mask value hlen hm
  rcases hcon.1 with h | h
  · rw [h] at hc; cases hc
  · rw [h] at hc
    cases hc
    have hz : ∀ (i : Nat) (h1 : i < mask.data.length), mask.data[i] = 0 → value.data[i] = 0 := by
      intro i h1 h0
      by_contra hv
      have := hcon.2.2 ⟨i, h1, h0, hv⟩
      rw [h] at this
      cases this
    refine ⟨_, by simp only [Cond.check, hf, ne_eq, not_true_eq_false, if_false]; rfl, ?_⟩
    rw [List.all_eq_true]
    constructor
    · intro hall i h1 h2 h3
      have := hall (features[i] * mask.data[i], value.data[i]) (by
        rw [List.mem_iff_getElem]
        exact ⟨i, by simp; omega, by simp⟩)
      simpa [h3] using this
    · rintro hall ⟨x, y⟩ hxy
      obtain ⟨i, hi, he⟩ := List.getElem_of_mem hxy
      simp only [List.length_zip, List.length_zipWith] at hi
      simp only [List.getElem_zip, List.getElem_zipWith, Prod.mk.injEq] at he
      obtain ⟨rfl, rfl⟩ := he
      rw [decide_eq_true_eq]
      have h1 : i < mask.data.length := by omega
      rcases hm _ (List.getElem_mem h1) with h0 | h0
      · rw [hz i h1 h0]; rw [h0]; simp
      · rw [h0]; simp [hall i h1 (by omega) h0]

/-- **C64 (equal conditions).**  Equal conditions accept the same states. -/
theorem C64_equal (c d : Cond) (h : c.eq d = true) (features : List ℚ) : c.check features = d.check features := by
  cases c <;> cases d <;> simp_all [Cond.eq, Arr.equal, Cond.check]

/-- Non-vacuity of C64. -/
example : mkCond ⟨.int64, [1, 0, 1]⟩ ⟨.int64, [1, 0, 0]⟩ = .ok (.cond ⟨.int64, [1, 0, 1]⟩ ⟨.int64, [1, 0, 0]⟩) ∧
    (Cond.cond ⟨.int64, [1, 0, 1]⟩ ⟨.int64, [1, 0, 0]⟩).check [1, 5, 0] = .ok true ∧
    (Cond.cond ⟨.int64, [1, 0, 1]⟩ ⟨.int64, [1, 0, 0]⟩).check [1, 5, 2] = .ok false := by
  refine ⟨?_, ?_, ?_⟩ <;> decide +kernel

end Verif
