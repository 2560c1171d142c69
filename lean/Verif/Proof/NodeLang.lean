import Verif.Proof.NodeTree

/-! The sequences of leaves allowed by the successors computed by the conversions are the linearisations of the tree. -/

set_option linter.unusedSectionVars false
set_option linter.unusedSimpArgs false

namespace Verif
open Spec
variable {A : Type}
namespace N2P

mutual
/-- `Lin` with leaves of size `w`. -/
def LinW (w : Nat) : N2P A → Nat → List Nat → Prop
  | .leaf _, s, u => u = [s]
  | .seq cs, s, u => LinWSeq w cs s u
  | .alt cs, s, u => LinWAlt w cs s u
@[inherit_doc LinW]
def LinWSeq (w : Nat) : List (N2P A) → Nat → List Nat → Prop
  | [], _, u => u = []
  | c :: cs, s, u => ∃ u1 u2, u = u1 ++ u2 ∧ LinW w c s u1 ∧ LinWSeq w cs (s + c.size w) u2
@[inherit_doc LinW]
def LinWAlt (w : Nat) : List (N2P A) → Nat → List Nat → Prop
  | [], _, _ => False
  | c :: cs, s, u => LinW w c s u ∨ LinWAlt w cs (s + c.size w) u
end

theorem linW_iff (w : Nat) (n : N2P A) : ∀ k u, LinW w n (w * k) u ↔ ∃ ks, Lin n k ks ∧ u = ks.map (w * ·) := by
  induction n using N2P.induct with
  | hleaf x => intro k u; simp [LinW, Lin]
  | hseq cs ih =>
    intro k u
    simp only [LinW, Lin]
    induction cs generalizing k u with
    | nil => simp [LinWSeq, LinSeq]
    | cons c cs ihl =>
      have e : w * k + c.size w = w * (k + c.leaves.length) := by rw [size]; ring
      simp only [LinWSeq, LinSeq, e, ih c (by simp), ihl (fun c hc => ih c (by simp [hc]))]
      constructor
      · rintro ⟨u1, u2, rfl, ⟨k1, h1, rfl⟩, ⟨k2, h2, rfl⟩⟩
        exact ⟨k1 ++ k2, ⟨k1, k2, rfl, h1, h2⟩, by simp⟩
      · rintro ⟨ks, ⟨k1, k2, rfl, h1, h2⟩, rfl⟩
        exact ⟨_, _, by simp, ⟨k1, h1, rfl⟩, ⟨k2, h2, rfl⟩⟩
  | halt cs ih =>
    intro k u
    simp only [LinW, Lin]
    induction cs generalizing k u with
    | nil => simp [LinWAlt, LinAlt]
    | cons c cs ihl =>
      have e : w * k + c.size w = w * (k + c.leaves.length) := by rw [size]; ring
      simp only [LinWAlt, LinAlt, e, ih c (by simp), ihl (fun c hc => ih c (by simp [hc]))]
      constructor
      · rintro (⟨k1, h1, rfl⟩ | ⟨k1, h1, rfl⟩)
        · exact ⟨k1, Or.inl h1, rfl⟩
        · exact ⟨k1, Or.inr h1, rfl⟩
      · rintro ⟨ks, h1 | h1, rfl⟩
        · exact Or.inl ⟨ks, h1, rfl⟩
        · exact Or.inr ⟨ks, h1, rfl⟩

/-- The words read from `x` to `fin` along the relation. -/
inductive Acc (R : Nat → Nat → Prop) (fin : Nat) : Nat → List Nat → Prop
  | fin : Acc R fin fin []
  | step {x y : Nat} {u : List Nat} : x ≠ fin → R x y → Acc R fin y u → Acc R fin x (x :: u)

/-- The relation has the successors of the contexts. -/
def Agree (R : Nat → Nat → Prop) (C : List (Ctx A)) : Prop := ∀ c ∈ C, ∀ y, R c.s y ↔ y ∈ c.next

theorem Agree.append {R : Nat → Nat → Prop} {C D : List (Ctx A)} (h : Agree R (C ++ D)) : Agree R C ∧ Agree R D :=
  ⟨fun c hc => h c (by simp [hc]), fun c hc => h c (by simp [hc])⟩

variable {R : Nat → Nat → Prop} {fin : Nat} {w wa : Nat}

theorem acc_node (n : N2P A) (hf : Full n) : ∀ a s next probas before after, Agree R (ctxs w wa n a s next probas before after) →
    (∀ c ∈ ctxs w wa n a s next probas before after, c.s ≠ fin) → ∀ u, (∃ x ∈ n.init w s, Acc R fin x u) ↔
    ∃ u1 u2, u = u1 ++ u2 ∧ LinW w n s u1 ∧ ∃ y ∈ next, Acc R fin y u2 := by
  induction n using N2P.induct with
  | hleaf x =>
    intro a s next probas before after hag hfin u
    have h1 := hag _ (List.mem_singleton.2 rfl)
    have h2 := hfin _ (List.mem_singleton.2 rfl)
    simp only at h1 h2
    simp only [init, List.mem_singleton, exists_eq_left, LinW]
    constructor
    · intro h
      cases h with
      | fin => exact absurd rfl h2
      | step _ hr hy => exact ⟨[s], _, rfl, rfl, _, (h1 _).1 hr, hy⟩
    · rintro ⟨u1, u2, rfl, rfl, y, hy, hacc⟩
      exact Acc.step h2 ((h1 y).2 hy) hacc
  | hseq cs ih =>
    intro a s next probas before after
    obtain ⟨hne, hcs⟩ := hf
    rw [fullL_iff] at hcs
    simp only [ctxs, LinW, init]
    match cs, hne with
    | [], hne => exact absurd rfl hne
    | c :: cs, hne =>
    clear hne
    generalize hdn : ([] : List Nat) = done
    clear hdn
    induction cs generalizing c a s done with
    | nil =>
      intro hag hfin u
      simp only [ctxsSeq, List.append_nil] at hag hfin
      simp only [initSeq, LinWSeq]
      rw [ih c (by simp) (hcs c (by simp)) _ _ _ _ _ _ hag hfin u]
      simp only [nextInit]
      constructor
      · rintro ⟨u1, u2, h1, h2, h3⟩
        exact ⟨u1, u2, h1, ⟨u1, [], by simp, h2, rfl⟩, h3⟩
      · rintro ⟨u1, u2, h1, ⟨v1, v2, rfl, h2, rfl⟩, h3⟩
        exact ⟨v1, u2, by simpa using h1, h2, h3⟩
    | cons d cs ihl =>
      intro hag hfin u
      rw [ctxsSeq] at hag hfin
      have hag := hag.append
      rw [initSeq, ih c (by simp) (hcs c (by simp)) _ _ _ _ _ _ hag.1 (fun c hc => hfin c (by simp [hc])) u]
      have key := ihl _ _ d (fun c hc => ih c (List.mem_cons_of_mem _ hc)) (fun c hc => hcs c (List.mem_cons_of_mem _ hc)) _ hag.2
        (fun c hc => hfin c (by simp only [List.mem_append]; exact Or.inr hc))
      simp only [initSeq] at key
      simp only [nextInit, key]
      constructor
      · rintro ⟨u1, u2, rfl, h1, v1, v2, rfl, h2, h3⟩
        exact ⟨u1 ++ v1, v2, by simp, ⟨u1, v1, rfl, h1, h2⟩, h3⟩
      · rintro ⟨u1, u2, rfl, ⟨v1, v2, rfl, h1, h2⟩, h3⟩
        exact ⟨v1, v2 ++ u2, by simp, h1, v2, u2, rfl, h2, h3⟩
  | halt cs ih =>
    intro a s next probas before after
    obtain ⟨hne, hcs⟩ := hf
    rw [fullL_iff] at hcs
    simp only [ctxs, LinW, init]
    clear hne
    induction cs generalizing a s with
    | nil => intro _ _ u; simp [initAlt, LinWAlt]
    | cons c cs ihl =>
      intro hag hfin u
      simp only [ctxsAlt] at hag hfin
      have hag := hag.append
      have h1 := ih c (by simp) (hcs c (by simp)) _ _ _ _ _ _ hag.1 (fun c hc => hfin c (by simp [hc])) u
      have h2 := ihl (fun c hc => ih c (by simp [hc])) _ _ (fun c hc => hcs c (by simp [hc])) hag.2 (fun c hc => hfin c (by simp [hc])) u
      simp only [initAlt, List.mem_append, or_and_right, exists_or, h1, h2, LinWAlt, and_or_left]

theorem init_mem_ctxs (n : N2P A) (a s : Nat) (next : List Nat) (probas : List ℚ) (before after : List Nat) (x : Nat) (hx : x ∈ n.init w s) :
    ∃ c ∈ ctxs w wa n a s next probas before after, c.s = x := by
  obtain ⟨k, hk, rfl⟩ := init_range w n s x hx
  rw [← ctxs_length w wa n a s next probas before after] at hk
  exact ⟨_, List.getElem_mem hk, (ctxs_get w wa n a s next probas before after k _ (List.getElem?_eq_getElem hk)).2.2⟩

theorem ctxs_range (n : N2P A) (hw : 0 < w) (a s : Nat) (next : List Nat) (probas : List ℚ) (before after : List Nat) (c : Ctx A)
    (hc : c ∈ ctxs w wa n a s next probas before after) : s ≤ c.s ∧ c.s + w ≤ s + n.size w := by
  obtain ⟨k, hk⟩ := List.getElem?_of_mem hc
  obtain ⟨h1, _, h3⟩ := ctxs_get _ _ _ _ _ _ _ _ _ _ _ hk
  have hlt := (List.getElem?_eq_some_iff.1 h1).1
  have : w * (k + 1) ≤ w * n.leaves.length := Nat.mul_le_mul_left w hlt
  rw [size, h3]
  constructor
  · omega
  · rw [Nat.mul_add] at this; omega

/-- From each leaf one can reach the end. -/
theorem coreach (n : N2P A) (hf : Full n) : ∀ a s next probas before after, Agree R (ctxs w wa n a s next probas before after) →
    (∀ c ∈ ctxs w wa n a s next probas before after, c.s ≠ fin) → next ≠ ([] : List Nat) → (∀ y ∈ next, ∃ q, Acc R fin y q) →
    ∀ c ∈ ctxs w wa n a s next probas before after, ∃ q, Acc R fin c.s q := by
  induction n using N2P.induct with
  | hleaf x =>
    intro a s next probas before after hag hfin hne hq c hc
    obtain ⟨y, hy⟩ := List.exists_mem_of_ne_nil next hne
    obtain ⟨q, hq⟩ := hq y hy
    have h1 := hag c hc y
    have h2 := hfin c hc
    simp only [ctxs, List.mem_singleton] at hc
    subst hc
    exact ⟨_, Acc.step h2 (h1.2 hy) hq⟩
  | hseq cs ih =>
    intro a s next probas before after
    obtain ⟨hne, hcs⟩ := hf
    rw [fullL_iff] at hcs
    clear hne
    simp only [ctxs]
    intro hag hfin hne
    revert hag hfin
    generalize hdn : ([] : List Nat) = done
    clear hdn
    induction cs generalizing a s done with
    | nil => intro _ _ _ c hc; simp [ctxsSeq] at hc
    | cons d cs ihl =>
      intro hag hfin hq c hc
      rw [ctxsSeq] at hag hfin hc
      have hag := hag.append
      have htail := ihl (fun c hc => ih c (by simp [hc])) _ _ (fun c hc => hcs c (by simp [hc])) _ hag.2
        (fun c hc => hfin c (by simp only [List.mem_append]; exact Or.inr hc)) hq
      rcases List.mem_append.1 hc with hc | hc
      · refine ih d (by simp) (hcs d (by simp)) _ _ _ _ _ _ hag.1 (fun c hc => hfin c (by simp [hc])) ?_ ?_ c hc
        · cases cs with
          | nil => exact hne
          | cons e cs => exact init_ne_nil w e (hcs e (by simp)) _
        · cases cs with
          | nil => exact hq
          | cons e cs =>
            intro y hy
            obtain ⟨c', h1, rfl⟩ := init_mem_ctxs (wa := wa) e (a + size wa d) _ (nextInit w cs (s + size w d + size w e) next) (nextProbas cs probas)
              (before ++ (done ++ statesOf w s [d])) (after ++ statesOf w (s + size w d + size w e) cs) y hy
            refine htail c' ?_
            rw [ctxsSeq]
            exact List.mem_append_left _ h1
      · exact htail c hc
  | halt cs ih =>
    intro a s next probas before after
    obtain ⟨hne, hcs⟩ := hf
    rw [fullL_iff] at hcs
    clear hne
    simp only [ctxs]
    induction cs generalizing a s with
    | nil => intro _ _ _ _ c hc; simp [ctxsAlt] at hc
    | cons d cs ihl =>
      intro hag hfin hne hq c hc
      rw [ctxsAlt] at hag hfin hc
      have hag := hag.append
      rcases List.mem_append.1 hc with hc | hc
      · exact ih d (by simp) (hcs d (by simp)) _ _ _ _ _ _ hag.1 (fun c hc => hfin c (by simp [hc])) hne hq c hc
      · exact ihl (fun c hc => ih c (by simp [hc])) _ _ (fun c hc => hcs c (by simp [hc])) hag.2
          (fun c hc => hfin c (by simp [hc])) hne hq c hc

/-- From each leaf one can reach all the states after the node. -/
theorem reach_next (n : N2P A) (hf : Full n) : ∀ a s next probas before after, Agree R (ctxs w wa n a s next probas before after) →
    ∀ c ∈ ctxs w wa n a s next probas before after, ∀ y ∈ next, Relation.TransGen R c.s y := by
  induction n using N2P.induct with
  | hleaf x =>
    intro a s next probas before after hag c hc y hy
    have h1 := hag c hc y
    simp only [ctxs, List.mem_singleton] at hc
    subst hc
    exact .single (h1.2 hy)
  | hseq cs ih =>
    intro a s next probas before after
    obtain ⟨hne, hcs⟩ := hf
    rw [fullL_iff] at hcs
    clear hne
    simp only [ctxs]
    generalize hdn : ([] : List Nat) = done
    clear hdn
    induction cs generalizing a s done with
    | nil => intro _ c hc; simp [ctxsSeq] at hc
    | cons d cs ihl =>
      intro hag c hc y hy
      rw [ctxsSeq] at hag hc
      have hag := hag.append
      have htail := ihl (fun c hc => ih c (by simp [hc])) _ _ (fun c hc => hcs c (by simp [hc])) _ hag.2
      rcases List.mem_append.1 hc with hc | hc
      · have hd := ih d (by simp) (hcs d (by simp)) _ _ _ _ _ _ hag.1 c hc
        cases cs with
        | nil => exact hd y hy
        | cons e cs =>
          obtain ⟨z, hz⟩ := List.exists_mem_of_ne_nil _ (init_ne_nil w e (hcs e (by simp)) (s + d.size w))
          obtain ⟨c', h1, rfl⟩ := init_mem_ctxs (wa := wa) e (a + size wa d) _ (nextInit w cs (s + size w d + size w e) next) (nextProbas cs probas)
            (before ++ (done ++ statesOf w s [d])) (after ++ statesOf w (s + size w d + size w e) cs) z hz
          refine (hd _ hz).trans (htail c' ?_ y hy)
          rw [ctxsSeq]
          exact List.mem_append_left _ h1
      · exact htail c hc y hy
  | halt cs ih =>
    intro a s next probas before after
    obtain ⟨hne, hcs⟩ := hf
    rw [fullL_iff] at hcs
    clear hne
    simp only [ctxs]
    induction cs generalizing a s with
    | nil => intro _ c hc; simp [ctxsAlt] at hc
    | cons d cs ihl =>
      intro hag c hc
      rw [ctxsAlt] at hag hc
      have hag := hag.append
      rcases List.mem_append.1 hc with hc | hc
      · exact ih d (by simp) (hcs d (by simp)) _ _ _ _ _ _ hag.1 c hc
      · exact ihl (fun c hc => ih c (by simp [hc])) _ _ (fun c hc => hcs c (by simp [hc])) hag.2 c hc

/-- Each leaf can be reached from an initial state. -/
theorem reach_init (n : N2P A) (hf : Full n) : ∀ a s next probas before after, Agree R (ctxs w wa n a s next probas before after) →
    ∀ c ∈ ctxs w wa n a s next probas before after, ∃ x ∈ n.init w s, Relation.ReflTransGen R x c.s := by
  induction n using N2P.induct with
  | hleaf x =>
    intro a s next probas before after hag c hc
    simp only [ctxs, List.mem_singleton] at hc
    subst hc
    exact ⟨s, by simp [init], .refl⟩
  | hseq cs ih =>
    intro a s next probas before after
    obtain ⟨hne, hcs⟩ := hf
    rw [fullL_iff] at hcs
    clear hne
    simp only [ctxs, init]
    generalize hdn : ([] : List Nat) = done
    clear hdn
    induction cs generalizing a s done with
    | nil => intro _ c hc; simp [ctxsSeq] at hc
    | cons d cs ihl =>
      intro hag c hc
      rw [ctxsSeq] at hag hc
      have hag := hag.append
      rcases List.mem_append.1 hc with hc | hc
      · exact ih d (by simp) (hcs d (by simp)) _ _ _ _ _ _ hag.1 c hc
      · obtain ⟨y, hy, hyc⟩ := ihl (fun c hc => ih c (by simp [hc])) _ _ (fun c hc => hcs c (by simp [hc])) _ hag.2 c hc
        obtain ⟨x, hx⟩ := List.exists_mem_of_ne_nil _ (init_ne_nil w d (hcs d (by simp)) s)
        obtain ⟨c', h1, rfl⟩ := init_mem_ctxs (wa := wa) d a _ (nextInit w cs (s + size w d) next) (nextProbas cs probas)
            (before ++ done) (after ++ statesOf w (s + size w d) cs) x hx
        refine ⟨_, hx, (reach_next d (hcs d (by simp)) _ _ _ _ _ _ hag.1 c' h1 y ?_).to_reflTransGen.trans hyc⟩
        cases cs with
        | nil => simp [initSeq] at hy
        | cons e cs => exact hy
  | halt cs ih =>
    intro a s next probas before after
    obtain ⟨hne, hcs⟩ := hf
    rw [fullL_iff] at hcs
    clear hne
    simp only [ctxs, init]
    induction cs generalizing a s with
    | nil => intro _ c hc; simp [ctxsAlt] at hc
    | cons d cs ihl =>
      intro hag c hc
      rw [ctxsAlt] at hag hc
      have hag := hag.append
      rcases List.mem_append.1 hc with hc | hc
      · obtain ⟨x, h1, h2⟩ := ih d (by simp) (hcs d (by simp)) _ _ _ _ _ _ hag.1 c hc
        exact ⟨x, by simp [initAlt, h1], h2⟩
      · obtain ⟨x, h1, h2⟩ := ihl (fun c hc => ih c (by simp [hc])) _ _ (fun c hc => hcs c (by simp [hc])) hag.2 c hc
        exact ⟨x, by simp [initAlt, h1], h2⟩

theorem reach_initSeq (cs : List (N2P A)) (hcs : ∀ c ∈ cs, Full c) (a s : Nat) (next : List Nat) (probas : List ℚ) (before after done : List Nat)
    (hag : Agree R (ctxsSeq w wa cs a s next probas before after done)) :
    ∀ c ∈ ctxsSeq w wa cs a s next probas before after done, ∃ x ∈ initSeq w cs s, Relation.ReflTransGen R x c.s := by
  induction cs generalizing a s done with
  | nil => intro c hc; simp [ctxsSeq] at hc
  | cons d cs ihl =>
    intro c hc
    rw [ctxsSeq] at hag hc
    have hag := hag.append
    rcases List.mem_append.1 hc with hc | hc
    · exact reach_init d (hcs d (by simp)) _ _ _ _ _ _ hag.1 c hc
    · obtain ⟨y, hy, hyc⟩ := ihl (fun c hc => hcs c (by simp [hc])) _ _ _ hag.2 c hc
      obtain ⟨x, hx⟩ := List.exists_mem_of_ne_nil _ (init_ne_nil w d (hcs d (by simp)) s)
      obtain ⟨c', h1, rfl⟩ := init_mem_ctxs (wa := wa) d a _ (nextInit w cs (s + size w d) next) (nextProbas cs probas)
          (before ++ done) (after ++ statesOf w (s + size w d) cs) x hx
      refine ⟨_, hx, (reach_next d (hcs d (by simp)) _ _ _ _ _ _ hag.1 c' h1 y ?_).to_reflTransGen.trans hyc⟩
      cases cs with
      | nil => simp [initSeq] at hy
      | cons e cs => exact hy

end N2P
end Verif
