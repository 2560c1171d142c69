import Verif.Spec.NodeTree
import Verif.Proof.Htm
import Verif.Proof.Pomdp
import Mathlib.Logic.Relation
import Mathlib.Data.List.Destutter

/-! Lemmas on the trees of the conversions to POMDPs. -/

set_option linter.unusedSectionVars false
set_option linter.unusedSimpArgs false

namespace Verif
open Spec
variable {A : Type}

theorem N2P.induct {P : N2P A → Prop} (hleaf : ∀ a, P (.leaf a)) (hseq : ∀ cs, (∀ c ∈ cs, P c) → P (.seq cs))
    (halt : ∀ cs, (∀ c ∈ cs, P c) → P (.alt cs)) (n : N2P A) : P n := by
  refine N2P.rec (motive_1 := P) (motive_2 := fun cs => ∀ c ∈ cs, P c) hleaf hseq halt ?_ ?_ n
  · intro c hc
    simp at hc
  · intro c cs h1 h2 c' hc'
    rcases List.mem_cons.1 hc' with rfl | hc'
    · exact h1
    · exact h2 c' hc'

namespace N2P

/-- The arguments of the methods of a leaf. -/
structure Ctx (A : Type) where
  act : A
  a : Nat
  s : Nat
  next : List Nat
  probas : List ℚ
  before : List Nat
  after : List Nat

mutual
/-- The calls of the methods of the leaves. -/
def ctxs (w wa : Nat) : N2P A → Nat → Nat → List Nat → List ℚ → List Nat → List Nat → List (Ctx A)
  | .leaf x, a, s, next, probas, before, after => [⟨x, a, s, next, probas, before, after⟩]
  | .seq cs, a, s, next, probas, before, after => ctxsSeq w wa cs a s next probas before after []
  | .alt cs, a, s, next, probas, before, after => ctxsAlt w wa cs a s next probas before after
@[inherit_doc ctxs]
def ctxsSeq (w wa : Nat) : List (N2P A) → Nat → Nat → List Nat → List ℚ → List Nat → List Nat → List Nat → List (Ctx A)
  | [], _, _, _, _, _, _, _ => []
  | c :: cs, a, s, next, probas, before, after, done =>
      ctxs w wa c a s (nextInit w cs (s + c.size w) next) (nextProbas cs probas) (before ++ done) (after ++ statesOf w (s + c.size w) cs) ++
      ctxsSeq w wa cs (a + c.size wa) (s + c.size w) next probas before after (done ++ statesOf w s [c])
@[inherit_doc ctxs]
def ctxsAlt (w wa : Nat) : List (N2P A) → Nat → Nat → List Nat → List ℚ → List Nat → List Nat → List (Ctx A)
  | [], _, _, _, _, _, _ => []
  | c :: cs, a, s, next, probas, before, after =>
      ctxs w wa c a s next probas before after ++ ctxsAlt w wa cs (a + c.size wa) (s + c.size w) next probas before after
end

variable {S : Type}

theorem bind_congr' {α β : Type} {x y : Py α} {f g : α → Py β} (h : x = y) (h' : ∀ v, f v = g v) :
    x >>= f = y >>= g := by
  subst h
  congr 1
  funext v
  exact h' v

theorem travT_eq (w wa : Nat) (f : A → Nat → Nat → List Nat → List ℚ → S → Py S) (n : N2P A) :
    ∀ a s next probas before after st, travT w wa f n a s next probas st =
      (ctxs w wa n a s next probas before after).foldlM (fun st c => f c.act c.a c.s c.next c.probas st) st := by
  induction n using N2P.induct with
  | hleaf x =>
    intro a s next probas before after st
    simp only [travT, ctxs, List.foldlM_cons, List.foldlM_nil]
    cases f x a s next probas st <;> rfl
  | hseq cs ih =>
    intro a s next probas before after st
    simp only [travT, ctxs]
    generalize ([] : List Nat) = done
    induction cs generalizing a s st done with
    | nil => simp [travSeqT, ctxsSeq, pure, Except.pure]
    | cons c cs ihl =>
      simp only [travSeqT, ctxsSeq, List.foldlM_append]
      exact bind_congr' (ih c (by simp) _ _ _ _ _ _ _) fun st => ihl (fun c hc => ih c (by simp [hc])) _ _ _ _
  | halt cs ih =>
    intro a s next probas before after st
    simp only [travT, ctxs]
    induction cs generalizing a s st with
    | nil => simp [travAltT, ctxsAlt, pure, Except.pure]
    | cons c cs ihl =>
      simp only [travAltT, ctxsAlt, List.foldlM_append]
      exact bind_congr' (ih c (by simp) _ _ _ _ _ _ _) fun st => ihl (fun c hc => ih c (by simp [hc])) _ _ _

theorem travO_eq (w wa : Nat) (f : A → Nat → Nat → List Nat → List Nat → List Nat → S → Py S) (n : N2P A) :
    ∀ a s next probas before after st, travO w wa f n a s next before after st =
      (ctxs w wa n a s next probas before after).foldlM (fun st c => f c.act c.a c.s c.next c.before c.after st) st := by
  induction n using N2P.induct with
  | hleaf x =>
    intro a s next probas before after st
    simp only [travO, ctxs, List.foldlM_cons, List.foldlM_nil]
    cases f x a s next before after st <;> rfl
  | hseq cs ih =>
    intro a s next probas before after st
    simp only [travO, ctxs]
    generalize ([] : List Nat) = done
    induction cs generalizing a s st done with
    | nil => simp [travSeqO, ctxsSeq, pure, Except.pure]
    | cons c cs ihl =>
      simp only [travSeqO, ctxsSeq, List.foldlM_append]
      exact bind_congr' (ih c (by simp) _ _ _ _ _ _ _) fun st => ihl (fun c hc => ih c (by simp [hc])) _ _ _ _
  | halt cs ih =>
    intro a s next probas before after st
    simp only [travO, ctxs]
    induction cs generalizing a s st with
    | nil => simp [travAltO, ctxsAlt, pure, Except.pure]
    | cons c cs ihl =>
      simp only [travAltO, ctxsAlt, List.foldlM_append]
      exact bind_congr' (ih c (by simp) _ _ _ _ _ _ _) fun st => ihl (fun c hc => ih c (by simp [hc])) _ _ _

theorem travR_eq (w wa : Nat) (f : A → Nat → Nat → S → Py S) (n : N2P A) :
    ∀ a s next probas before after st, travR w wa f n a s st =
      (ctxs w wa n a s next probas before after).foldlM (fun st c => f c.act c.a c.s st) st := by
  induction n using N2P.induct with
  | hleaf x =>
    intro a s next probas before after st
    simp only [travR, ctxs, List.foldlM_cons, List.foldlM_nil]
    cases f x a s st <;> rfl
  | hseq cs ih =>
    intro a s next probas before after st
    simp only [travR, ctxs]
    generalize ([] : List Nat) = done
    induction cs generalizing a s st done with
    | nil => simp [travRL, ctxsSeq, pure, Except.pure]
    | cons c cs ihl =>
      simp only [travRL, ctxsSeq, List.foldlM_append]
      exact bind_congr' (ih c (by simp) a s (nextInit w cs (s + c.size w) next) (nextProbas cs probas) (before ++ done) (after ++ statesOf w (s + c.size w) cs) _) fun st => ihl (fun c hc => ih c (by simp [hc])) _ _ _ _
  | halt cs ih =>
    intro a s next probas before after st
    simp only [travR, ctxs]
    induction cs generalizing a s st with
    | nil => simp [travRL, ctxsAlt, pure, Except.pure]
    | cons c cs ihl =>
      simp only [travRL, ctxsAlt, List.foldlM_append]
      exact bind_congr' (ih c (by simp) a s next probas before after _) fun st => ihl (fun c hc => ih c (by simp [hc])) _ _ _

/-! ### Positions -/

/-- The leaves with their offsets. -/
def lay (w wa : Nat) : Nat → Nat → List A → List (A × Nat × Nat)
  | _, _, [] => []
  | a, s, x :: xs => (x, a, s) :: lay w wa (a + wa) (s + w) xs

theorem lay_append (w wa : Nat) (l m : List A) : ∀ a s, lay w wa a s (l ++ m) = lay w wa a s l ++
    lay w wa (a + wa * l.length) (s + w * l.length) m := by
  induction l with
  | nil => intro a s; simp [lay]
  | cons x l ih =>
    intro a s
    simp only [List.cons_append, lay, ih, List.length_cons]
    have e1 : a + wa + wa * l.length = a + wa * (l.length + 1) := by ring
    have e2 : s + w + w * l.length = s + w * (l.length + 1) := by ring
    rw [e1, e2]

theorem lay_get (w wa : Nat) (l : List A) : ∀ a s k, (lay w wa a s l)[k]? = l[k]?.map fun x => (x, a + wa * k, s + w * k) := by
  induction l with
  | nil => intro a s k; simp [lay]
  | cons x l ih =>
    intro a s k
    cases k with
    | zero => simp [lay]
    | succ k =>
      simp only [lay, List.getElem?_cons_succ, ih]
      have e1 : a + wa + wa * k = a + wa * (k + 1) := by ring
      have e2 : s + w + w * k = s + w * (k + 1) := by ring
      rw [e1, e2]

theorem leavesL_eq (cs : List (N2P A)) : leavesL cs = cs.flatMap leaves := by
  induction cs with
  | nil => rfl
  | cons c cs ih => simp [leavesL, ih]

theorem ctxs_lay (w wa : Nat) (n : N2P A) : ∀ a s next probas before after,
    (ctxs w wa n a s next probas before after).map (fun c => (c.act, c.a, c.s)) = lay w wa a s n.leaves := by
  induction n using N2P.induct with
  | hleaf x => intro a s next probas before after; rfl
  | hseq cs ih =>
    intro a s next probas before after
    simp only [ctxs, leaves]
    generalize ([] : List Nat) = done
    induction cs generalizing a s done with
    | nil => rfl
    | cons c cs ihl =>
      simp only [ctxsSeq, List.map_append, leavesL, lay_append, ih c (by simp), size]
      rw [ihl (fun c hc => ih c (by simp [hc]))]
  | halt cs ih =>
    intro a s next probas before after
    simp only [ctxs, leaves]
    induction cs generalizing a s with
    | nil => rfl
    | cons c cs ihl =>
      simp only [ctxsAlt, List.map_append, leavesL, lay_append, ih c (by simp), size]
      rw [ihl (fun c hc => ih c (by simp [hc]))]

theorem ctxs_get (w wa : Nat) (n : N2P A) (a s : Nat) (next : List Nat) (probas : List ℚ) (before after : List Nat) (k : Nat) (c : Ctx A)
    (h : (ctxs w wa n a s next probas before after)[k]? = some c) :
    n.leaves[k]? = some c.act ∧ c.a = a + wa * k ∧ c.s = s + w * k := by
  have h1 := congrArg (fun l => l[k]?) (ctxs_lay w wa n a s next probas before after)
  simp only [List.getElem?_map, h, Option.map_some, lay_get] at h1
  cases hl : n.leaves[k]? with
  | none => rw [hl] at h1; cases h1
  | some x =>
    rw [hl] at h1
    simp only [Option.map_some, Option.some.injEq, Prod.mk.injEq] at h1
    exact ⟨by rw [h1.1], h1.2.1, h1.2.2⟩

theorem ctxs_length (w wa : Nat) (n : N2P A) (a s : Nat) (next : List Nat) (probas : List ℚ) (before after : List Nat) :
    (ctxs w wa n a s next probas before after).length = n.leaves.length := by
  have h1 := congrArg List.length (ctxs_lay w wa n a s next probas before after)
  rw [List.length_map] at h1
  rw [h1]
  clear h1
  generalize n.leaves = l
  induction l generalizing a s with
  | nil => rfl
  | cons x l ih => simp [lay, ih]

/-! ### Initial states -/

theorem fullL_iff (cs : List (N2P A)) : FullL cs ↔ ∀ c ∈ cs, Full c := by
  induction cs with
  | nil => simp [FullL]
  | cons c cs ih => simp [FullL, ih]

theorem leaves_pos (n : N2P A) (h : Full n) : 0 < n.leaves.length := by
  induction n using N2P.induct with
  | hleaf x => simp [leaves]
  | hseq cs ih =>
    match cs, h with
    | c :: cs, h =>
      have := ih c (by simp) h.2.1
      simp [leaves, leavesL]; omega
    | [], h => exact absurd rfl h.1
  | halt cs ih =>
    match cs, h with
    | c :: cs, h =>
      have := ih c (by simp) h.2.1
      simp [leaves, leavesL]; omega
    | [], h => exact absurd rfl h.1

theorem init_range (w : Nat) (n : N2P A) : ∀ s x, x ∈ n.init w s → ∃ k < n.leaves.length, x = s + w * k := by
  induction n using N2P.induct with
  | hleaf a => intro s x hx; simp [init] at hx; exact ⟨0, by simp [leaves], by simp [hx]⟩
  | hseq cs ih =>
    intro s x hx
    cases cs with
    | nil => simp [init, initSeq] at hx
    | cons c cs =>
      obtain ⟨k, h1, h2⟩ := ih c (by simp) s x hx
      exact ⟨k, by simp [leaves, leavesL]; omega, h2⟩
  | halt cs ih =>
    intro s x hx
    simp only [init, leaves] at *
    induction cs generalizing s with
    | nil => simp [initAlt] at hx
    | cons c cs ihl =>
      simp only [initAlt, List.mem_append] at hx
      rcases hx with hx | hx
      · obtain ⟨k, h1, h2⟩ := ih c (by simp) s x hx
        exact ⟨k, by simp [leavesL]; omega, h2⟩
      · obtain ⟨k, h1, h2⟩ := ihl (fun c hc => ih c (by simp [hc])) _ hx
        refine ⟨c.leaves.length + k, by simp [leavesL]; omega, ?_⟩
        rw [h2, size]; ring

theorem init_ne_nil (w : Nat) (n : N2P A) (h : Full n) : ∀ s, n.init w s ≠ [] := by
  induction n using N2P.induct with
  | hleaf a => intro s; simp [init]
  | hseq cs ih =>
    intro s
    match cs, h with
    | c :: cs, h => exact ih c (by simp) h.2.1 s
    | [], h => exact absurd rfl h.1
  | halt cs ih =>
    intro s
    match cs, h with
    | c :: cs, h => simp [init, initAlt, ih c (by simp) h.2.1 s]
    | [], h => exact absurd rfl h.1

theorem init_nodup (w : Nat) (hw : 0 < w) (n : N2P A) : ∀ s, (n.init w s).Nodup := by
  induction n using N2P.induct with
  | hleaf a => intro s; simp [init]
  | hseq cs ih =>
    intro s
    cases cs with
    | nil => simp [init, initSeq]
    | cons c cs => exact ih c (by simp) s
  | halt cs ih =>
    intro s
    simp only [init]
    induction cs generalizing s with
    | nil => simp [initAlt]
    | cons c cs ihl =>
      simp only [initAlt, List.nodup_append]
      refine ⟨ih c (by simp) s, ihl (fun c hc => ih c (by simp [hc])) _, ?_⟩
      intro x hx y hy hxy
      obtain ⟨k, h1, h2⟩ := init_range w c s x hx
      obtain ⟨j, h3, h4⟩ := init_range w (.alt cs) (s + c.size w) y hy
      have : w * k < w * c.leaves.length := Nat.mul_lt_mul_of_pos_left h1 hw
      rw [size] at h4
      omega

theorem start_length (w : Nat) (n : N2P A) : ∀ s, n.start.length = (n.init w s).length := by
  induction n using N2P.induct with
  | hleaf a => intro s; simp [init, start]
  | hseq cs ih =>
    intro s
    cases cs with
    | nil => simp [init, initSeq, start, startSeq]
    | cons c cs => exact ih c (by simp) s
  | halt cs ih =>
    intro s
    simp only [init, start]
    generalize (1 / (cs.length : ℚ)) = p
    induction cs generalizing s with
    | nil => simp [initAlt, startAlt]
    | cons c cs ihl =>
      simp only [initAlt, startAlt, List.length_append, List.length_map]
      rw [ih c (by simp) s, ihl (fun c hc => ih c (by simp [hc]))]

theorem sum_map_mul_const (l : List ℚ) (p : ℚ) : (l.map (· * p)).sum = l.sum * p := by
  induction l with
  | nil => simp
  | cons x l ih => simp [ih, add_mul]

/-- The start probabilities are positive and sum to 1. -/
theorem start_dist (n : N2P A) (h : Full n) : n.start.sum = 1 ∧ ∀ x ∈ n.start, 0 < x := by
  induction n using N2P.induct with
  | hleaf a => simp [start]
  | hseq cs ih =>
    match cs, h with
    | c :: cs, h => exact ih c (by simp) h.2.1
    | [], h => exact absurd rfl h.1
  | halt cs ih =>
    simp only [start]
    have hcs := (fullL_iff cs).1 h.2
    have key : ∀ (p : ℚ) (l : List (N2P A)), (∀ c ∈ l, c.start.sum = 1 ∧ ∀ x ∈ c.start, 0 < x) →
        (startAlt p l).sum = l.length * p ∧ (0 < p → ∀ x ∈ startAlt p l, 0 < x) := by
      intro p l
      induction l with
      | nil => intro _; simp [startAlt]
      | cons c l ihl =>
        intro hl
        obtain ⟨h1, h2⟩ := ihl (fun c hc => hl c (by simp [hc]))
        obtain ⟨h3, h4⟩ := hl c (by simp)
        constructor
        · have : (c.start.map (· * p)).sum = c.start.sum * p := sum_map_mul_const c.start p
          simp only [startAlt, List.sum_append, this, h1, h3, List.length_cons]
          push_cast
          ring
        · intro hp x hx
          simp only [startAlt, List.mem_append, List.mem_map] at hx
          rcases hx with ⟨y, hy, rfl⟩ | hx
          · exact mul_pos (h4 y hy) hp
          · exact h2 hp x hx
    obtain ⟨h1, h2⟩ := key (1 / (cs.length : ℚ)) cs (fun c hc => ih c hc (hcs c hc))
    have hpos : (0 : ℚ) < cs.length := by
      have := List.length_pos_iff.2 h.1
      exact_mod_cast this
    refine ⟨?_, h2 (by positivity)⟩
    rw [h1]
    field_simp

/-! ### Successors -/

/-- Where the next states are. -/
theorem ctxs_next (w wa : Nat) (hw : 0 < w) (n : N2P A) (hf : Full n) : ∀ a s next probas before after, ∀ c ∈ ctxs w wa n a s next probas before after,
    (c.next = next ∧ c.probas = probas ∨ c.next.Nodup ∧ c.next ≠ [] ∧ c.probas.length = c.next.length ∧ c.probas.sum = 1 ∧ (∀ x ∈ c.probas, 0 < x) ∧
      ∀ x ∈ c.next, ∃ k < n.leaves.length, x = s + w * k ∧ c.s < x) := by
  induction n using N2P.induct with
  | hleaf x =>
    intro a s next probas before after c hc
    simp [ctxs] at hc
    subst hc
    exact Or.inl ⟨rfl, rfl⟩
  | hseq cs ih =>
    intro a s next probas before after
    have hcs := (fullL_iff cs).1 hf.2
    simp only [ctxs, leaves]
    intro c
    generalize hd0 : ctxsSeq w wa cs a s next probas before after [] = L
    have hd : ∃ done, ctxsSeq w wa cs a s next probas before after done = L := ⟨[], hd0⟩
    clear hd0
    clear hf
    revert c
    induction cs generalizing a s L with
    | nil => intro c hc; obtain ⟨_, rfl⟩ := hd; simp [ctxsSeq] at hc
    | cons d cs ihl =>
      intro c hc
      obtain ⟨done, rfl⟩ := hd
      simp only [ctxsSeq, List.mem_append] at hc
      rcases hc with hc | hc
      · have hpos : c.s < s + d.size w := by
          obtain ⟨k, hk⟩ := List.getElem?_of_mem hc
          obtain ⟨h1, _, h3⟩ := ctxs_get _ _ _ _ _ _ _ _ _ _ _ hk
          rw [h3, size]
          have := Nat.mul_lt_mul_of_pos_left (List.getElem?_eq_some_iff.1 h1).1 hw
          omega
        rcases ih d (by simp) (hcs d (by simp)) _ _ _ _ _ _ c hc with ⟨h1, h2⟩ | ⟨h1, h2, h3, h4, h5, h6⟩
        · cases cs with
          | nil => exact Or.inl ⟨h1, h2⟩
          | cons e cs =>
            right
            have he := hcs e (by simp)
            simp only [nextInit, nextProbas] at h1 h2
            rw [h1, h2]
            obtain ⟨s1, s2⟩ := start_dist e he
            refine ⟨init_nodup w hw e _, init_ne_nil w e he _, start_length w e _, s1, s2, ?_⟩
            intro x hx
            obtain ⟨k, k1, k2⟩ := init_range w e _ x hx
            refine ⟨d.leaves.length + k, by simp [leavesL]; omega, by rw [k2, size]; ring, ?_⟩
            have : 0 ≤ w * k := Nat.zero_le _
            omega
        · right
          refine ⟨h1, h2, h3, h4, h5, fun x hx => ?_⟩
          obtain ⟨k, k1, k2⟩ := h6 x hx
          exact ⟨k, by simp [leavesL]; omega, k2⟩
      · rcases ihl (fun c hc => ih c (by simp [hc])) _ _ (fun c hc => hcs c (by simp [hc])) _ ⟨_, rfl⟩ c hc with h | ⟨h1, h2, h3, h4, h5, h6⟩
        · exact Or.inl h
        · right
          refine ⟨h1, h2, h3, h4, h5, fun x hx => ?_⟩
          obtain ⟨k, k1, k2, k3⟩ := h6 x hx
          exact ⟨d.leaves.length + k, by simp [leavesL]; omega, by rw [k2, size]; ring, k3⟩
  | halt cs ih =>
    intro a s next probas before after
    have hcs := (fullL_iff cs).1 hf.2
    clear hf
    simp only [ctxs, leaves]
    induction cs generalizing a s with
    | nil => intro c hc; simp [ctxsAlt] at hc
    | cons d cs ihl =>
      intro c hc
      simp only [ctxsAlt, List.mem_append] at hc
      rcases hc with hc | hc
      · rcases ih d (by simp) (hcs d (by simp)) _ _ _ _ _ _ c hc with h | ⟨h1, h2, h3, h4, h5, h6⟩
        · exact Or.inl h
        · right
          refine ⟨h1, h2, h3, h4, h5, fun x hx => ?_⟩
          obtain ⟨k, k1, k2⟩ := h6 x hx
          exact ⟨k, by simp [leavesL]; omega, k2⟩
      · rcases ihl (fun c hc => ih c (by simp [hc])) _ _ (fun c hc => hcs c (by simp [hc])) c hc with h | ⟨h1, h2, h3, h4, h5, h6⟩
        · exact Or.inl h
        · right
          refine ⟨h1, h2, h3, h4, h5, fun x hx => ?_⟩
          obtain ⟨k, k1, k2, k3⟩ := h6 x hx
          exact ⟨d.leaves.length + k, by simp [leavesL]; omega, by rw [k2, size]; ring, k3⟩

end N2P
end Verif
