import Verif.Proof.Dag
import Verif.Spec.Supportive

/-! The leaves of the DAG of a task. -/

set_option linter.unusedSectionVars false
set_option linter.unusedSimpArgs false

namespace Verif
open Spec
variable {A : Type}

/-- The action of a leaf. -/
def leafAct : Htm A → Option A
  | .leaf a _ _ _ => some a
  | .comb .. => none

/-- Results of `copy`. -/
def Copied (ops : ActOps A) (a : A) : Prop := ∃ fmt a0, ops.copy fmt a0 = .ok a

theorem noParallelL_iff (cs : List (Htm A)) : NoParallelL cs ↔ ∀ c ∈ cs, NoParallel c := by
  induction cs with
  | nil => simp [NoParallelL]
  | cons c cs ih => simp [NoParallelL, ih]

theorem leaves_copied (ops : ActOps A) (fmt : String → String) (t t' : Htm A) (h : CopyOf ops fmt t t') :
    ∀ a ∈ leaves t', Copied ops a := by
  induction t using Htm.induct generalizing t' with
  | hleaf a i p hh =>
    cases t' with
    | leaf a' i' p' h'' =>
      simp only [CopyOf] at h
      intro b hb
      simp only [leaves, List.mem_singleton] at hb
      subst hb
      exact ⟨fmt, a, h.1⟩
    | comb => simp [CopyOf] at h
  | hcomb k cs i p n hh pr ih =>
    cases t' with
    | leaf => simp [CopyOf] at h
    | comb k' cs' i' p' n' h'' pr' =>
      simp only [CopyOf, copyOfL_iff] at h
      obtain ⟨_, _, _, hf, _⟩ := h
      intro b hb
      simp only [leaves, leavesL_eq, List.mem_flatMap] at hb
      obtain ⟨c', hc', hb⟩ := hb
      obtain ⟨k, hk, rfl⟩ := List.getElem_of_mem hc'
      rw [List.forall₂_iff_get] at hf
      have hk' : k < cs.length := by rw [hf.1]; exact hk
      exact ih _ (List.getElem_mem hk') _ (hf.2 k hk' hk) b hb

/-- What is known of the actions of the DAG nodes created for `t`. -/
def ActsOf (ops : ActOps A) (t : Htm A) (acts : List A) : Prop :=
  (NoParallel t → acts = leaves t) ∧ (¬ NoParallel t → ∃ a ∈ acts, Copied ops a) ∧
  ((∀ a ∈ leaves t, Copied ops a) → ∀ a ∈ acts, Copied ops a) ∧ acts ≠ []

theorem linkSeq_nodes (fl : List (List Nat × List Nat)) : ∀ d : Dag A, (Dag.linkSeq fl d).nodes = d.nodes := by
  induction fl with
  | nil => intro d; rfl
  | cons p fl ih =>
    intro d
    cases fl with
    | nil => rfl
    | cons q fl =>
      simp only [Dag.linkSeq]
      rw [ih]
      rfl

theorem joinChildren_nodes (uniq : List Nat → List Nat) (k : Kind) (fl : List (List Nat × List Nat)) (d d' : Dag A)
    (x : List Nat × List Nat) (h : joinChildren uniq k fl d = .ok (x, d')) : d'.nodes = d.nodes := by
  unfold joinChildren at h
  split at h
  · cases h
  · split at h
    · simp only [Except.ok.injEq, Prod.mk.injEq] at h
      rw [← h.2, linkSeq_nodes]
    · simp only [Except.ok.injEq, Prod.mk.injEq] at h
      rw [← h.2]

theorem mapAccumM_nodes (f : Htm A → Dag A → Py ((List Nat × List Nat) × Dag A)) (R : Htm A → List A → Prop)
    (cs : List (Htm A)) (hf : ∀ c ∈ cs, ∀ d x d', f c d = .ok (x, d') → ∃ new acts, d'.nodes = d.nodes ++ new ∧
      new.map leafAct = acts.map some ∧ R c acts) :
    ∀ d r d', mapAccumM f cs d = .ok (r, d') → ∃ new actss, d'.nodes = d.nodes ++ new ∧
      new.map leafAct = actss.flatten.map some ∧ List.Forall₂ R cs actss := by
  induction cs with
  | nil =>
    intro d r d' h
    simp only [mapAccumM, Except.ok.injEq, Prod.mk.injEq] at h
    exact ⟨[], [], by simp [h.2], by simp, .nil⟩
  | cons c cs ih =>
    intro d r d' h
    simp only [mapAccumM, bind, Except.bind] at h
    split at h
    · cases h
    · rename_i y hy
      split at h
      · cases h
      · rename_i z hz
        simp only [pure, Except.pure, Except.ok.injEq, Prod.mk.injEq] at h
        obtain ⟨new1, acts1, h1, h2, h3⟩ := hf c (by simp) d y.1 y.2 hy
        obtain ⟨new2, actss, h4, h5, h6⟩ := ih (fun c hc => hf c (by simp [hc])) y.2 z.1 z.2 hz
        refine ⟨new1 ++ new2, acts1 :: actss, ?_, ?_, .cons h3 h6⟩
        · rw [← h.2, h4, h1, List.append_assoc]
        · simp [h2, h5]

theorem forall₂_exists_right {α β : Type} {R : α → β → Prop} {l : List α} {l' : List β} (h : List.Forall₂ R l l') {x : α}
    (hx : x ∈ l) : ∃ y ∈ l', R x y := by
  induction h with
  | nil => simp at hx
  | cons h1 h2 ih =>
    rcases List.mem_cons.1 hx with rfl | hx
    · exact ⟨_, by simp, h1⟩
    · obtain ⟨y, hy, hr⟩ := ih hx
      exact ⟨y, by simp [hy], hr⟩

theorem forall₂_exists_left {α β : Type} {R : α → β → Prop} {l : List α} {l' : List β} (h : List.Forall₂ R l l') {y : β}
    (hy : y ∈ l') : ∃ x ∈ l, R x y := by
  induction h with
  | nil => simp at hy
  | cons h1 h2 ih =>
    rcases List.mem_cons.1 hy with rfl | hy
    · exact ⟨_, by simp, h1⟩
    · obtain ⟨x, hx, hr⟩ := ih hy
      exact ⟨x, by simp [hx], hr⟩

theorem getInitialFinal_nodes (ops : ActOps A) (uniq : List Nat → List Nat)
    (hc : ∀ i a, ∃ a', ops.copy (orderFmt i) a = .ok a' ∧ ops.name a' = orderFmt i (ops.name a))
    (fuel : Nat) : ∀ (t : Htm A), NonEmpty t → Built t → ∀ (d : Dag A) x d', getInitialFinal ops uniq fuel t d = .ok (x, d') →
    ∃ new acts, d'.nodes = d.nodes ++ new ∧ new.map leafAct = acts.map some ∧ ActsOf ops t acts := by
  induction fuel with
  | zero => intro t _ _ d x d' h; simp [getInitialFinal] at h
  | succ fuel ih =>
    intro t hne hb d x d' h
    cases t with
    | leaf a i p hh =>
      simp only [getInitialFinal, Dag.push, Except.ok.injEq, Prod.mk.injEq] at h
      refine ⟨[.leaf a i p hh], [a], by rw [← h.2], rfl, ?_, ?_, ?_, by simp⟩
      · intro _; rfl
      · intro hn; exact absurd trivial hn
      · intro hl b hb'
        exact hl b (by simpa [leaves] using hb')
    | comb k cs i p n hh pr =>
      simp only [NonEmpty, nonEmptyL_iff] at hne
      simp only [Built, builtL_iff] at hb
      simp only [getInitialFinal, bind, Except.bind] at h
      split at h
      · cases h
      · rename_i kc hkc
        split at h
        · cases h
        · rename_i r hr
          have hnodes := joinChildren_nodes _ _ _ _ _ _ h
          by_cases hk : k = .parallel
          · subst hk
            obtain ⟨seqs, h1, h2, h3⟩ := toAlternative_spec ops cs n hh hb.2 (fun i a _ => hc i a)
            have hkc' : kc = (.alternative, seqs) := by
              simp only [expandParallel, h2, bind, Except.bind, pure, Except.pure, Htm.children, Except.ok.injEq] at hkc
              exact hkc.symm
            subst hkc'
            have hseq : ∀ c ∈ seqs, NonEmpty c ∧ Built c ∧ ∀ a ∈ leaves c, Copied ops a := by
              intro c hcm
              obtain ⟨⟨o, oi⟩, hom, picked, copies, h4, h5, h6, h7⟩ := forall₂_exists_left h3 hcm
              have ho : o ∈ orders cs.length := List.fst_mem_of_mem_zipIdx hom
              have hpick : ∀ c ∈ picked, c ∈ cs := by
                intro c hcp
                have : some c ∈ picked.map some := List.mem_map_of_mem hcp
                rw [h4] at this
                obtain ⟨j, _, hj⟩ := List.mem_map.1 this
                exact List.mem_of_getElem? hj
              have hplen : picked.length = cs.length := by
                have := congrArg List.length h4
                simp only [List.length_map] at this
                rw [this]
                simpa using ((mem_orders _ _).1 ho).length_eq
              rw [copyOfL_iff] at h5
              subst h7
              refine ⟨?_, ?_, ?_⟩
              · simp only [NonEmpty, nonEmptyL_iff]
                refine ⟨?_, ?_⟩
                · intro h0
                  rw [h0] at h5
                  have := h5.length_eq
                  rw [hplen] at this
                  exact hne.1 (List.length_eq_zero_iff.1 (by simpa using this))
                · intro c hcc
                  obtain ⟨c0, hc0, hcp⟩ := forall₂_exists_left h5 hcc
                  exact (nesting_copy ops _ _ _ hcp).2 (hne.2 _ (hpick _ hc0))
              · simp only [Built, builtL_iff]
                exact ⟨by simp, h6⟩
              · intro a ha
                simp only [leaves, leavesL_eq, List.mem_flatMap] at ha
                obtain ⟨c, hcc, ha⟩ := ha
                obtain ⟨c0, _, hcp⟩ := forall₂_exists_left h5 hcc
                exact leaves_copied ops _ _ _ hcp a ha
            obtain ⟨new, actss, g1, g2, g3⟩ := mapAccumM_nodes (getInitialFinal ops uniq fuel) (ActsOf ops) seqs
              (fun c hcm => ih c (hseq c hcm).1 (hseq c hcm).2.1) d r.1 r.2 hr
            have hall : ∀ a ∈ actss.flatten, Copied ops a := by
              intro a ha
              obtain ⟨acts, ham, haa⟩ := List.mem_flatten.1 ha
              obtain ⟨c, hcm, hR⟩ := forall₂_exists_left g3 ham
              exact hR.2.2.1 (hseq c hcm).2.2 a haa
            have hne' : actss.flatten ≠ [] := by
              have hs0 : seqs ≠ [] := by
                intro h0
                rw [h0] at h1
                exact Nat.factorial_ne_zero _ h1.symm
              obtain ⟨c, hcm⟩ := List.exists_mem_of_ne_nil _ hs0
              obtain ⟨acts, ham, hR⟩ := forall₂_exists_right g3 hcm
              obtain ⟨a, ha⟩ := List.exists_mem_of_ne_nil _ hR.2.2.2
              exact List.ne_nil_of_mem (List.mem_flatten.2 ⟨acts, ham, ha⟩)
            refine ⟨new, actss.flatten, by rw [hnodes, g1], g2, ?_, ?_, fun _ => hall, hne'⟩
            · intro hnp; exact absurd rfl hnp.1
            · intro _
              obtain ⟨a, ha⟩ := List.exists_mem_of_ne_nil _ hne'
              exact ⟨a, ha, hall a ha⟩
          · have hkc' : kc = (k, cs) := by
              cases k <;> simp_all [expandParallel]
            subst hkc'
            obtain ⟨new, actss, g1, g2, g3⟩ := mapAccumM_nodes (getInitialFinal ops uniq fuel) (ActsOf ops) cs
              (fun c hcm => ih c (hne.2 c hcm) (hb.2 c hcm)) d r.1 r.2 hr
            refine ⟨new, actss.flatten, by rw [hnodes, g1], g2, ?_, ?_, ?_, ?_⟩
            · intro hnp
              simp only [NoParallel, noParallelL_iff] at hnp
              simp only [leaves]
              clear * - g3 hnp
              induction g3 with
              | nil => simp [leavesL]
              | cons h1 h2 ih =>
                simp only [leavesL, List.flatten_cons]
                rw [h1.1 (hnp.2 _ (by simp)), ih ⟨hnp.1, fun c hc => hnp.2 c (by simp [hc])⟩]
            · intro hnp
              have : ∃ c ∈ cs, ¬ NoParallel c := by
                by_contra hcon
                apply hnp
                simp only [NoParallel, noParallelL_iff]
                exact ⟨hk, fun c hcm => by
                  by_contra hx
                  exact hcon ⟨c, hcm, hx⟩⟩
              obtain ⟨c, hcm, hcn⟩ := this
              obtain ⟨acts, ham, hR⟩ := forall₂_exists_right g3 hcm
              obtain ⟨a, ha, hca⟩ := hR.2.1 hcn
              exact ⟨a, List.mem_flatten.2 ⟨acts, ham, ha⟩, hca⟩
            · intro hl a ha
              obtain ⟨acts, ham, haa⟩ := List.mem_flatten.1 ha
              obtain ⟨c, hcm, hR⟩ := forall₂_exists_left g3 ham
              refine hR.2.2.1 (fun b hb => hl b ?_) a haa
              simp only [leaves, leavesL_eq, List.mem_flatMap]
              exact ⟨c, hcm, hb⟩
            · obtain ⟨c, hcm⟩ := List.exists_mem_of_ne_nil _ hne.1
              obtain ⟨acts, ham, hR⟩ := forall₂_exists_right g3 hcm
              obtain ⟨a, ha⟩ := List.exists_mem_of_ne_nil _ hR.2.2.2
              exact List.ne_nil_of_mem (List.mem_flatten.2 ⟨acts, ham, ha⟩)

end Verif
