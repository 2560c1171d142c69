import Verif.Model.Dag
import Verif.Spec.Dag
import Verif.Proof.Htm

/-! Lemmas on the conversion of task trees to DAGs. -/

set_option linter.unusedSectionVars false
set_option linter.unusedSimpArgs false

namespace Verif
open Spec
variable {A : Type}

/-! ### Languages -/

theorem linL_eq (ops : ActOps A) (ren : List Nat → String → String) (g : String → String) (cs : List (Htm A)) :
    linL ops ren g cs = cs.map (lin ops ren g) := by
  induction cs with
  | nil => simp [linL]
  | cons c cs ih => simp [linL, ih]

theorem nonEmptyL_iff (cs : List (Htm A)) : NonEmptyL cs ↔ ∀ c ∈ cs, NonEmpty c := by
  induction cs with
  | nil => simp [NonEmptyL]
  | cons c cs ih => simp [NonEmptyL, ih]

theorem nestingL_le (cs : List (Htm A)) (n : Nat) : nestingL cs ≤ n ↔ ∀ c ∈ cs, nesting c ≤ n := by
  induction cs with
  | nil => simp [nestingL]
  | cons c cs ih => simp [nestingL, ih]

theorem lin_copy (ops : ActOps A) (ren : List Nat → String → String) (fmt : String → String) (t t' : Htm A)
    (h : CopyOf ops fmt t t') (g : String → String) :
    lin ops ren g t' = lin ops ren (fun s => g (fmt s)) t := by
  induction t using Htm.induct generalizing t' g with
  | hleaf a i p hh =>
    cases t' with
    | leaf a' i' p' h'' =>
      simp only [CopyOf] at h
      funext w
      simp [lin, h.2.1]
    | comb => simp [CopyOf] at h
  | hcomb k cs i p n hh pr ih =>
    cases t' with
    | leaf => simp [CopyOf] at h
    | comb k' cs' i' p' n' h'' pr' =>
      simp only [CopyOf, copyOfL_iff] at h
      obtain ⟨rfl, _, _, hf, _⟩ := h
      have hl : ∀ g, linL ops ren g cs' = linL ops ren (fun s => g (fmt s)) cs := by
        intro g
        clear * - ih hf
        induction hf with
        | nil => simp [linL]
        | @cons c d cs ds hcd hf ihf =>
          simp only [linL]
          rw [ih c (by simp) d hcd g, ihf (fun c hc => ih c (by simp [hc]))]
      funext w
      cases k' with
      | sequential => simp only [lin, hl]
      | alternative => simp only [lin, hl]
      | parallel => simp only [lin, hl, hf.length_eq]

theorem nesting_copy (ops : ActOps A) (fmt : String → String) (t t' : Htm A)
    (h : CopyOf ops fmt t t') : nesting t' = nesting t ∧ (NonEmpty t → NonEmpty t') := by
  induction t using Htm.induct generalizing t' with
  | hleaf a i p hh =>
    cases t' with
    | leaf a' i' p' h'' => simp [nesting, NonEmpty]
    | comb => simp [CopyOf] at h
  | hcomb k cs i p n hh pr ih =>
    cases t' with
    | leaf => simp [CopyOf] at h
    | comb k' cs' i' p' n' h'' pr' =>
      simp only [CopyOf, copyOfL_iff] at h
      obtain ⟨rfl, _, _, hf, _⟩ := h
      have hl : nestingL cs' = nestingL cs ∧ (NonEmptyL cs → NonEmptyL cs') := by
        clear * - ih hf
        induction hf with
        | nil => simp [nestingL, NonEmptyL]
        | @cons c d cs ds hcd hf ihf =>
          simp only [nestingL, NonEmptyL]
          obtain ⟨h1, h2⟩ := ih c (by simp) d hcd
          obtain ⟨h3, h4⟩ := ihf (fun c hc => ih c (by simp [hc]))
          exact ⟨by rw [h1, h3], fun h => ⟨h2 h.1, h4 h.2⟩⟩
      have hne : cs ≠ [] → cs' ≠ [] := by
        intro h h'
        subst h'
        exact h (List.length_eq_zero_iff.1 (by simpa using hf.length_eq))
      constructor
      · cases k' <;> simp [nesting, hl.1]
      · simp only [NonEmpty]
        exact fun h => ⟨hne h.1, hl.2 h.2⟩

/-! ### Fragments of a DAG -/

/-- The name of node `i`. -/
def Dag.nameAt (ops : ActOps A) (d : Dag A) (i : Nat) : Option String := (d.nodes[i]?).map (Htm.name ops)

/-- Paths that stop at the first node of `last`. -/
inductive SPath (ops : ActOps A) (d : Dag A) (last : List Nat) : Nat → List String → Prop
  | stop (i : Nat) (n : String) (hl : i ∈ last) (hn : d.nameAt ops i = some n) : SPath ops d last i [n]
  | step (i j : Nat) (n : String) (ss : List Nat) (w : List String) (hl : i ∉ last) (hn : d.nameAt ops i = some n)
      (hs : d.succs[i]? = some ss) (hj : j ∈ ss) (h : SPath ops d last j w) : SPath ops d last i (n :: w)

/-- The nodes from `lo` to `hi` have the language `L`, from the nodes of `first` to those of `last`. -/
structure Frag (ops : ActOps A) (d : Dag A) (lo hi : Nat) (first last : List Nat) (L : Lang) : Prop where
  bound : hi ≤ d.nodes.length
  first_ne : first ≠ []
  first_sub : ∀ i ∈ first, lo ≤ i ∧ i < hi
  last_sub : ∀ i ∈ last, lo ≤ i ∧ i < hi
  succ_ok : ∀ i, lo ≤ i → i < hi → i ∉ last → ∃ ss, d.succs[i]? = some ss ∧ ss ≠ [] ∧
    ∀ j ∈ ss, lo ≤ j ∧ j < hi ∧ i < j
  lang : ∀ w, L w ↔ ∃ i ∈ first, SPath ops d last i w

theorem spath_congr (ops : ActOps A) (d d' : Dag A) (lo hi : Nat) (last last' : List Nat)
    (hlast : ∀ i, lo ≤ i → i < hi → (i ∈ last ↔ i ∈ last'))
    (hname : ∀ i, lo ≤ i → i < hi → d'.nameAt ops i = d.nameAt ops i)
    (hsucc : ∀ i, lo ≤ i → i < hi → i ∉ last → d'.succs[i]? = d.succs[i]?)
    (hcl : ∀ i, lo ≤ i → i < hi → i ∉ last → ∀ ss, d.succs[i]? = some ss → ∀ j ∈ ss, lo ≤ j ∧ j < hi)
    (i : Nat) (w : List String) (h : SPath ops d last i w) (hlo : lo ≤ i) (hhi : i < hi) : SPath ops d' last' i w := by
  induction h with
  | stop i n hl hn => exact .stop i n ((hlast i hlo hhi).1 hl) (by rw [hname i hlo hhi, hn])
  | step i j n ss w hl hn hs hj h ih =>
    have := hcl i hlo hhi hl ss hs j hj
    exact .step i j n ss w (fun h' => hl ((hlast i hlo hhi).2 h')) (by rw [hname i hlo hhi, hn])
      (by rw [hsucc i hlo hhi hl, hs]) hj (ih this.1 this.2)

theorem Frag.congr (ops : ActOps A) {d d' : Dag A} {lo hi : Nat} {first last first' last' : List Nat} {L : Lang}
    (h : Frag ops d lo hi first last L)
    (hfirst : ∀ i, i ∈ first ↔ i ∈ first') (hlast : ∀ i, i ∈ last ↔ i ∈ last')
    (hlen : d.nodes.length ≤ d'.nodes.length)
    (hname : ∀ i, lo ≤ i → i < hi → d'.nameAt ops i = d.nameAt ops i)
    (hsucc : ∀ i, lo ≤ i → i < hi → i ∉ last → d'.succs[i]? = d.succs[i]?) :
    Frag ops d' lo hi first' last' L where
  bound := h.bound.trans hlen
  first_ne := by
    intro h0
    subst h0
    obtain ⟨x, hx⟩ := List.exists_mem_of_ne_nil _ h.first_ne
    simpa using (hfirst x).1 hx
  first_sub := fun i hi => h.first_sub i ((hfirst i).2 hi)
  last_sub := fun i hi => h.last_sub i ((hlast i).2 hi)
  succ_ok := by
    intro i h1 h2 h3
    have h3' : i ∉ last := fun h' => h3 ((hlast i).1 h')
    obtain ⟨ss, h4, h5⟩ := h.succ_ok i h1 h2 h3'
    exact ⟨ss, by rw [hsucc i h1 h2 h3', h4], h5⟩
  lang := by
    have hcl : ∀ i, lo ≤ i → i < hi → i ∉ last → ∀ ss, d.succs[i]? = some ss → ∀ j ∈ ss, lo ≤ j ∧ j < hi := by
      intro i h1 h2 h3 ss hss
      obtain ⟨ss', h4, _, h5⟩ := h.succ_ok i h1 h2 h3
      rw [hss] at h4
      cases h4
      exact fun j hj => ⟨(h5 j hj).1, (h5 j hj).2.1⟩
    intro w
    rw [h.lang w]
    constructor
    · rintro ⟨i, hi', hp⟩
      have := h.first_sub i hi'
      exact ⟨i, (hfirst i).1 hi', spath_congr ops d d' lo hi last last' (fun i _ _ => hlast i) hname hsucc hcl i w hp
        this.1 this.2⟩
    · rintro ⟨i, hi', hp⟩
      have hi' := (hfirst i).2 hi'
      have := h.first_sub i hi'
      refine ⟨i, hi', spath_congr ops d' d lo hi last' last (fun i _ _ => (hlast i).symm)
        (fun i h1 h2 => (hname i h1 h2).symm) (fun i h1 h2 h3 => (hsucc i h1 h2 (fun h' => h3 ((hlast i).1 h'))).symm)
        ?_ i w hp this.1 this.2⟩
      intro i h1 h2 h3 ss hss
      have h3' : i ∉ last := fun h' => h3 ((hlast i).1 h')
      rw [hsucc i h1 h2 h3'] at hss
      exact hcl i h1 h2 h3' ss hss

theorem Frag.alt (ops : ActOps A) {d : Dag A} {a b c : Nat} {f1 l1 f2 l2 : List Nat} {L1 L2 : Lang}
    (h1 : Frag ops d a b f1 l1 L1) (h2 : Frag ops d b c f2 l2 L2) :
    Frag ops d a c (f1 ++ f2) (l1 ++ l2) (fun w => L1 w ∨ L2 w) where
  bound := h2.bound
  first_ne := by simp [h1.first_ne]
  first_sub := by
    intro i hi
    obtain ⟨x, hx⟩ := List.exists_mem_of_ne_nil _ h1.first_ne
    obtain ⟨y, hy⟩ := List.exists_mem_of_ne_nil _ h2.first_ne
    have hx' := h1.first_sub x hx
    have hy' := h2.first_sub y hy
    rcases List.mem_append.1 hi with h | h
    · have := h1.first_sub i h; omega
    · have := h2.first_sub i h; omega
  last_sub := by
    intro i hi
    obtain ⟨x, hx⟩ := List.exists_mem_of_ne_nil _ h1.first_ne
    obtain ⟨y, hy⟩ := List.exists_mem_of_ne_nil _ h2.first_ne
    have hx' := h1.first_sub x hx
    have hy' := h2.first_sub y hy
    rcases List.mem_append.1 hi with h | h
    · have := h1.last_sub i h; omega
    · have := h2.last_sub i h; omega
  succ_ok := by
    intro i hi hi' hl
    simp only [List.mem_append, not_or] at hl
    obtain ⟨x, hx⟩ := List.exists_mem_of_ne_nil _ h1.first_ne
    obtain ⟨y, hy⟩ := List.exists_mem_of_ne_nil _ h2.first_ne
    have hx' := h1.first_sub x hx
    have hy' := h2.first_sub y hy
    by_cases hb : i < b
    · obtain ⟨ss, h3, h4, h5⟩ := h1.succ_ok i hi hb hl.1
      refine ⟨ss, h3, h4, fun j hj => ?_⟩
      have := h5 j hj; omega
    · obtain ⟨ss, h3, h4, h5⟩ := h2.succ_ok i (by omega) hi' hl.2
      refine ⟨ss, h3, h4, fun j hj => ?_⟩
      have := h5 j hj; omega
  lang := by
    have hcl1 : ∀ i, a ≤ i → i < b → i ∉ l1 → ∀ ss, d.succs[i]? = some ss → ∀ j ∈ ss, a ≤ j ∧ j < b := by
      intro i h3 h4 h5 ss hss
      obtain ⟨ss', h6, _, h7⟩ := h1.succ_ok i h3 h4 h5
      rw [hss] at h6
      cases h6
      exact fun j hj => ⟨(h7 j hj).1, (h7 j hj).2.1⟩
    have hcl2 : ∀ i, b ≤ i → i < c → i ∉ l2 → ∀ ss, d.succs[i]? = some ss → ∀ j ∈ ss, b ≤ j ∧ j < c := by
      intro i h3 h4 h5 ss hss
      obtain ⟨ss', h6, _, h7⟩ := h2.succ_ok i h3 h4 h5
      rw [hss] at h6
      cases h6
      exact fun j hj => ⟨(h7 j hj).1, (h7 j hj).2.1⟩
    have e1 : ∀ i, a ≤ i → i < b → (i ∈ l1 ↔ i ∈ l1 ++ l2) := by
      intro i h3 h4
      simp only [List.mem_append]
      refine ⟨Or.inl, ?_⟩
      rintro (h | h)
      · exact h
      · have := h2.last_sub i h; omega
    have e2 : ∀ i, b ≤ i → i < c → (i ∈ l2 ↔ i ∈ l1 ++ l2) := by
      intro i h3 h4
      simp only [List.mem_append]
      refine ⟨Or.inr, ?_⟩
      rintro (h | h)
      · have := h1.last_sub i h; omega
      · exact h
    intro w
    rw [h1.lang w, h2.lang w]
    constructor
    · rintro (⟨i, hi, hp⟩ | ⟨i, hi, hp⟩)
      · have := h1.first_sub i hi
        exact ⟨i, by simp [hi], spath_congr ops d d a b l1 (l1 ++ l2) e1 (fun _ _ _ => rfl) (fun _ _ _ _ => rfl) hcl1 i w
          hp this.1 this.2⟩
      · have := h2.first_sub i hi
        exact ⟨i, by simp [hi], spath_congr ops d d b c l2 (l1 ++ l2) e2 (fun _ _ _ => rfl) (fun _ _ _ _ => rfl) hcl2 i w
          hp this.1 this.2⟩
    · rintro ⟨i, hi, hp⟩
      rcases List.mem_append.1 hi with hi | hi
      · have := h1.first_sub i hi
        exact Or.inl ⟨i, hi, spath_congr ops d d a b (l1 ++ l2) l1 (fun i h3 h4 => (e1 i h3 h4).symm) (fun _ _ _ => rfl)
          (fun _ _ _ _ => rfl) (fun i h3 h4 h5 => hcl1 i h3 h4 (fun h => h5 ((e1 i h3 h4).1 h))) i w hp this.1 this.2⟩
      · have := h2.first_sub i hi
        exact Or.inr ⟨i, hi, spath_congr ops d d b c (l1 ++ l2) l2 (fun i h3 h4 => (e2 i h3 h4).symm) (fun _ _ _ => rfl)
          (fun _ _ _ _ => rfl) (fun i h3 h4 h5 => hcl2 i h3 h4 (fun h => h5 ((e2 i h3 h4).1 h))) i w hp this.1 this.2⟩

theorem Frag.seq (ops : ActOps A) {d : Dag A} {a b c : Nat} {f1 l1 f2 l2 : List Nat} {L1 L2 : Lang}
    (h1 : Frag ops d a b f1 l1 L1) (h2 : Frag ops d b c f2 l2 L2) (hlink : ∀ l ∈ l1, d.succs[l]? = some f2) :
    Frag ops d a c f1 l2 (fun w => ∃ u v, w = u ++ v ∧ L1 u ∧ L2 v) := by
  obtain ⟨x, hx⟩ := List.exists_mem_of_ne_nil _ h1.first_ne
  obtain ⟨y, hy⟩ := List.exists_mem_of_ne_nil _ h2.first_ne
  have hx' := h1.first_sub x hx
  have hy' := h2.first_sub y hy
  have key1 : ∀ i w, SPath ops d l2 i w → a ≤ i → i < b →
      ∃ u v, w = u ++ v ∧ SPath ops d l1 i u ∧ ∃ j ∈ f2, SPath ops d l2 j v := by
    intro i w hp
    induction hp with
    | stop i n hl hn => intro h3 h4; have := h2.last_sub i hl; omega
    | step i j n ss w hl hn hs hj h ih =>
      intro h3 h4
      by_cases hi1 : i ∈ l1
      · rw [hlink i hi1] at hs
        cases hs
        exact ⟨[n], w, rfl, .stop i n hi1 hn, j, hj, h⟩
      · obtain ⟨ss', h6, _, h7⟩ := h1.succ_ok i h3 h4 hi1
        rw [hs] at h6
        cases h6
        obtain ⟨u, v, rfl, hu, hv⟩ := ih (h7 j hj).1 (h7 j hj).2.1
        exact ⟨n :: u, v, rfl, .step i j n ss u hi1 hn hs hj hu, hv⟩
  have key2 : ∀ i u, SPath ops d l1 i u → a ≤ i → i < b → ∀ j ∈ f2, ∀ v, SPath ops d l2 j v →
      SPath ops d l2 i (u ++ v) := by
    intro i u hp
    induction hp with
    | stop i n hl hn =>
      intro h3 h4 j hj v hv
      refine .step i j n f2 v (fun h => ?_) hn (hlink i hl) hj hv
      have := h2.last_sub i h; omega
    | step i j n ss w hl hn hs hj h ih =>
      intro h3 h4 j' hj' v hv
      obtain ⟨ss', h6, _, h7⟩ := h1.succ_ok i h3 h4 hl
      rw [hs] at h6
      cases h6
      refine .step i j n ss (w ++ v) (fun h => ?_) hn hs hj (ih (h7 j hj).1 (h7 j hj).2.1 j' hj' v hv)
      have := h2.last_sub i h; omega
  refine ⟨h2.bound, h1.first_ne, ?_, ?_, ?_, ?_⟩
  · intro i hi; have := h1.first_sub i hi; omega
  · intro i hi; have := h2.last_sub i hi; omega
  · intro i hi hi' hl
    by_cases hb : i < b
    · by_cases hi1 : i ∈ l1
      · refine ⟨f2, hlink i hi1, h2.first_ne, fun j hj => ?_⟩
        have := h2.first_sub j hj; omega
      · obtain ⟨ss, h3, h4, h5⟩ := h1.succ_ok i hi hb hi1
        refine ⟨ss, h3, h4, fun j hj => ?_⟩
        have := h5 j hj; omega
    · obtain ⟨ss, h3, h4, h5⟩ := h2.succ_ok i (by omega) hi' hl
      refine ⟨ss, h3, h4, fun j hj => ?_⟩
      have := h5 j hj; omega
  · intro w
    constructor
    · rintro ⟨u, v, rfl, hu, hv⟩
      obtain ⟨i, hi, hp⟩ := (h1.lang u).1 hu
      obtain ⟨j, hj, hq⟩ := (h2.lang v).1 hv
      have := h1.first_sub i hi
      exact ⟨i, hi, key2 i u hp this.1 this.2 j hj v hq⟩
    · rintro ⟨i, hi, hp⟩
      have := h1.first_sub i hi
      obtain ⟨u, v, hw, hu, j, hj, hv⟩ := key1 i w hp this.1 this.2
      exact ⟨u, v, hw, (h1.lang u).2 ⟨i, hi, hu⟩, (h2.lang v).2 ⟨j, hj, hv⟩⟩

/-- Consecutive fragments. -/
inductive Frags (ops : ActOps A) (d : Dag A) : Nat → Nat → List (List Nat × List Nat) → List Lang → Prop
  | nil (lo : Nat) : Frags ops d lo lo [] []
  | cons (lo mid hi : Nat) (p : List Nat × List Nat) (fl : List (List Nat × List Nat)) (L : Lang) (Ls : List Lang)
      (h : Frag ops d lo mid p.1 p.2 L) (he : ∀ l ∈ p.2, d.succs[l]? = some []) (hs : Frags ops d mid hi fl Ls) :
      Frags ops d lo hi (p :: fl) (L :: Ls)

theorem Frags.le (ops : ActOps A) {d : Dag A} {lo hi : Nat} {fl : List (List Nat × List Nat)} {Ls : List Lang}
    (h : Frags ops d lo hi fl Ls) : lo ≤ hi := by
  induction h with
  | nil => exact Nat.le_refl _
  | cons lo mid hi p fl L Ls hf he hs ih =>
    obtain ⟨x, hx⟩ := List.exists_mem_of_ne_nil _ hf.first_ne
    have := hf.first_sub x hx
    omega

/-- Changing a DAG below `lo` and appending to it keeps the fragments above. -/
theorem Frags.congr (ops : ActOps A) {d d' : Dag A} {lo hi : Nat} {fl : List (List Nat × List Nat)} {Ls : List Lang}
    (h : Frags ops d lo hi fl Ls) (hlen : d.nodes.length ≤ d'.nodes.length)
    (hname : ∀ i, lo ≤ i → i < hi → d'.nameAt ops i = d.nameAt ops i)
    (hsucc : ∀ i, lo ≤ i → i < hi → d'.succs[i]? = d.succs[i]?) : Frags ops d' lo hi fl Ls := by
  induction h with
  | nil lo => exact .nil lo
  | cons lo mid hi p fl L Ls hf he hs ih =>
    have hle := hs.le
    obtain ⟨x, hx⟩ := List.exists_mem_of_ne_nil _ hf.first_ne
    have hx' := hf.first_sub x hx
    refine .cons lo mid hi p fl L Ls
      (hf.congr ops (fun _ => Iff.rfl) (fun _ => Iff.rfl) hlen (fun i h1 h2 => hname i h1 (by omega))
        (fun i h1 h2 _ => hsucc i h1 (by omega))) ?_
      (ih (fun i h1 h2 => hname i (by omega) h2) (fun i h1 h2 => hsucc i (by omega) h2))
    intro l hl
    have := hf.last_sub l hl
    rw [hsucc l this.1 (by omega), he l hl]

theorem Frags.alt (ops : ActOps A) {d : Dag A} {lo hi : Nat} {fl : List (List Nat × List Nat)} {Ls : List Lang}
    (h : Frags ops d lo hi fl Ls) (hne : fl ≠ []) :
    Frag ops d lo hi (fl.flatMap Prod.fst) (fl.flatMap Prod.snd) (fun w => ∃ L ∈ Ls, L w) ∧
      ∀ l ∈ fl.flatMap Prod.snd, d.succs[l]? = some [] := by
  induction h with
  | nil lo => exact absurd rfl hne
  | cons lo mid hi p fl L Ls hf he hs ih =>
    cases hs with
    | nil =>
      refine ⟨?_, by simpa using he⟩
      have : (fun w => ∃ L' ∈ [L], L' w) = L := by funext w; simp
      rw [this]
      simpa using hf
    | cons _ mid' _ q fl' L' Ls' hf' he' hs' =>
      obtain ⟨h1, h2⟩ := ih (by simp)
      have := hf.alt ops h1
      refine ⟨?_, ?_⟩
      · have e : (fun w => ∃ M ∈ L :: L' :: Ls', M w) = (fun w => L w ∨ ∃ M ∈ L' :: Ls', M w) := by
          funext w; simp
        rw [e]
        simpa using this
      · intro l hl
        rw [List.flatMap_cons, List.mem_append] at hl
        rcases hl with hl | hl
        · exact he l hl
        · exact h2 l hl

theorem foldl_set_get (ll : List Nat) (ff : List Nat) (ss : List (List Nat)) (i : Nat) :
    (ll.foldl (fun ss l => ss.set l ff) ss)[i]? = if i ∈ ll then (if i < ss.length then some ff else none) else ss[i]? := by
  induction ll generalizing ss with
  | nil => simp
  | cons l ll ih =>
    simp only [List.foldl_cons, ih, List.length_set, List.mem_cons, List.getElem?_set]
    by_cases h1 : i ∈ ll
    · simp [h1]
    · by_cases h2 : l = i
      · subst h2; simp [h1]
      · simp [h1, h2, Ne.symm h2]

theorem foldl_set_length (ll : List Nat) (ff : List Nat) (ss : List (List Nat)) :
    (ll.foldl (fun ss l => ss.set l ff) ss).length = ss.length := by
  induction ll generalizing ss with
  | nil => rfl
  | cons l ll ih => simp [List.foldl_cons, ih]

theorem Frags.seq (ops : ActOps A) {d : Dag A} {lo hi : Nat} {p : List Nat × List Nat}
    {fl : List (List Nat × List Nat)} {Ls : List Lang} (hwf : d.succs.length = d.nodes.length)
    (h : Frags ops d lo hi (p :: fl) Ls) :
    Frag ops (Dag.linkSeq (p :: fl) d) lo hi p.1 ((p :: fl).getLast (by simp)).2 (cat Ls) ∧
    (∀ l ∈ ((p :: fl).getLast (by simp)).2, (Dag.linkSeq (p :: fl) d).succs[l]? = some []) ∧
    (Dag.linkSeq (p :: fl) d).nodes = d.nodes ∧
    (Dag.linkSeq (p :: fl) d).succs.length = d.succs.length ∧
    (∀ i < lo, (Dag.linkSeq (p :: fl) d).succs[i]? = d.succs[i]?) := by
  induction fl generalizing d lo p Ls with
  | nil =>
    cases h with
    | cons _ mid _ _ _ L Ls hf he hs =>
      cases hs with
      | nil =>
        refine ⟨?_, by simpa [Dag.linkSeq] using he, rfl, rfl, fun _ _ => rfl⟩
        have : cat [L] = L := by
          funext w
          simp [cat]
        simpa [Dag.linkSeq, this] using hf
  | cons q fl ih =>
    cases h with
    | cons _ mid _ _ _ L Ls hf he hs =>
      have hle := hs.le
      have hlo : lo ≤ mid := by
        obtain ⟨x, hx⟩ := List.exists_mem_of_ne_nil _ hf.first_ne
        have := hf.first_sub x hx
        omega
      have hget : ∀ i, (d.setSuccs p.2 q.1).succs[i]? =
          if i ∈ p.2 then (if i < d.succs.length then some q.1 else none) else d.succs[i]? :=
        fun i => foldl_set_get p.2 q.1 d.succs i
      have hlen1 : (d.setSuccs p.2 q.1).succs.length = d.succs.length := foldl_set_length _ _ _
      have hs1 : Frags ops (d.setSuccs p.2 q.1) mid hi (q :: fl) Ls := by
        refine hs.congr ops (Nat.le_refl _) (fun _ _ _ => rfl) ?_
        intro i h1 h2
        rw [hget, if_neg]
        intro h3
        have := hf.last_sub i h3
        omega
      have hwf1 : (d.setSuccs p.2 q.1).succs.length = (d.setSuccs p.2 q.1).nodes.length := by
        rw [hlen1, hwf]; rfl
      obtain ⟨h1, h2, h3, h4, h5⟩ := ih hwf1 hs1
      have e : Dag.linkSeq (p :: q :: fl) d = Dag.linkSeq (q :: fl) (d.setSuccs p.2 q.1) := rfl
      rw [List.getLast_cons (by simp), e]
      have hfd : Frag ops (Dag.linkSeq (q :: fl) (d.setSuccs p.2 q.1)) lo mid p.1 p.2 L := by
        refine hf.congr ops (fun _ => Iff.rfl) (fun _ => Iff.rfl) (by rw [h3]; exact Nat.le_refl _) ?_ ?_
        · intro i _ _
          simp only [Dag.nameAt, h3]
          rfl
        · intro i h6 h7 h8
          rw [h5 i h7, hget, if_neg h8]
      refine ⟨?_, h2, by rw [h3]; rfl, by rw [h4, hlen1], ?_⟩
      · exact hfd.seq ops h1 (by
          intro l hl
          have h6 := hf.last_sub l hl
          have h7 := hf.bound
          rw [h5 l h6.2, hget, if_pos hl, if_pos (by omega)])
      · intro i hi
        rw [h5 i (by omega), hget, if_neg]
        intro h6
        have := hf.last_sub i h6
        omega

/-! ### `get_initial_final` -/

/-- The new DAG extends the old one by a fragment with language `L` whose last nodes have no successors. -/
structure Extends (ops : ActOps A) (d d' : Dag A) (first last : List Nat) (L : Lang) : Prop where
  wf : d'.succs.length = d'.nodes.length
  le : d.nodes.length ≤ d'.nodes.length
  nodes : ∀ i < d.nodes.length, d'.nodes[i]? = d.nodes[i]?
  succs : ∀ i < d.nodes.length, d'.succs[i]? = d.succs[i]?
  frag : Frag ops d' d.nodes.length d'.nodes.length first last L
  last_empty : ∀ l ∈ last, d'.succs[l]? = some []

theorem mapAccumM_frags (ops : ActOps A) (f : Htm A → Dag A → Py ((List Nat × List Nat) × Dag A))
    (lang : Htm A → Lang) (cs : List (Htm A))
    (h : ∀ c ∈ cs, ∀ d : Dag A, d.succs.length = d.nodes.length →
      ∃ first last d', f c d = .ok ((first, last), d') ∧ Extends ops d d' first last (lang c))
    (d : Dag A) (hwf : d.succs.length = d.nodes.length) :
    ∃ fl d', mapAccumM f cs d = .ok (fl, d') ∧ fl.length = cs.length ∧ d'.succs.length = d'.nodes.length ∧
      d.nodes.length ≤ d'.nodes.length ∧ (∀ i < d.nodes.length, d'.nodes[i]? = d.nodes[i]?) ∧
      (∀ i < d.nodes.length, d'.succs[i]? = d.succs[i]?) ∧
      Frags ops d' d.nodes.length d'.nodes.length fl (cs.map lang) := by
  induction cs generalizing d with
  | nil => exact ⟨[], d, rfl, rfl, hwf, Nat.le_refl _, fun _ _ => rfl, fun _ _ => rfl, .nil _⟩
  | cons c cs ih =>
    obtain ⟨first, last, d1, h1, he⟩ := h c (by simp) d hwf
    obtain ⟨fl, d2, h2, h3, h4, h5, h6, h7, h8⟩ := ih (fun c hc => h c (by simp [hc])) d1 he.wf
    refine ⟨(first, last) :: fl, d2, by simp [mapAccumM, h1, h2, bind, Except.bind, pure, Except.pure], by simp [h3], h4,
      by have := he.le; omega, ?_, ?_, ?_⟩
    · intro i hi
      rw [h6 i (by have := he.le; omega), he.nodes i hi]
    · intro i hi
      rw [h7 i (by have := he.le; omega), he.succs i hi]
    · refine .cons _ d1.nodes.length _ (first, last) fl _ _ ?_ ?_ h8
      · refine he.frag.congr ops (fun _ => Iff.rfl) (fun _ => Iff.rfl) h5 ?_ ?_
        · intro i _ hi
          simp only [Dag.nameAt, h6 i hi]
        · intro i _ hi _
          exact h7 i hi
      · intro l hl
        rw [h7 l (he.frag.last_sub l hl).2, he.last_empty l hl]

/-- The language of the alternative that replaces a parallel node. -/
theorem lin_toAlternative (ops : ActOps A) (cs seqs : List (Htm A)) (name : String)
    (hlen : seqs.length = (orders cs.length).length)
    (hf : List.Forall₂ (fun (oi : List Nat × Nat) s => ∃ picked copies,
        picked.map some = oi.1.map (fun k => cs[k]?) ∧ CopyOfL ops (orderFmt oi.2) picked copies ∧
        (∀ c ∈ copies, Built c) ∧ s = Htm.comb .sequential copies none none (orderFmt oi.2 name) false none)
      (orders cs.length).zipIdx seqs) (w : List String) (i p : Option Int) (n : String) (h : Bool)
      (pr : Option (List ℚ)) :
    (∃ L ∈ seqs.map (lin ops orderRen (fun s => s)), L w) ↔
      lin ops orderRen (fun s => s) (.comb .parallel cs i p n h pr) w := by
  rw [List.forall₂_iff_get] at hf
  have hseq : ∀ (k : Nat) (hk : k < seqs.length) (hk' : k < (orders cs.length).length),
      lin ops orderRen (fun s => s) seqs[k] w ↔
      cat ((orders cs.length)[k].map fun j => (linL ops orderRen (fun s => orderRen (orders cs.length)[k] s) cs).getD j
        (fun _ => False)) w := by
    intro k hk hk'
    obtain ⟨picked, copies, h1, h2, _, h3⟩ := hf.2 k (by simpa using hk') hk
    simp only [List.get_eq_getElem, List.getElem_zipIdx, Nat.zero_add] at h1 h2 h3
    have hperm := (mem_orders _ _).1 (List.getElem_mem hk')
    have hlen' : (orders cs.length)[k].length = cs.length := by simpa using hperm.length_eq
    have hidx : orderRen (orders cs.length)[k] = orderFmt k := by
      unfold orderRen
      rw [hlen', show permutations (List.range cs.length) = orders cs.length from rfl,
        (nodup_orders _).idxOf_getElem]
    have hlang : linL ops orderRen (fun s => s) copies = picked.map (lin ops orderRen (fun s => orderFmt k s)) := by
      rw [copyOfL_iff] at h2
      clear * - h2
      induction h2 with
      | nil => simp [linL]
      | cons hcd hf ihf => simp only [linL, List.map_cons, ihf, lin_copy ops orderRen _ _ _ hcd]
    rw [h3]
    simp only [lin, hlang, hidx]
    have e : picked.map (lin ops orderRen (fun s => orderFmt k s)) =
        (orders cs.length)[k].map fun j => (linL ops orderRen (fun s => orderFmt k s) cs).getD j (fun _ => False) := by
      have h4 := congrArg (List.map (fun o : Option (Htm A) => (o.map (lin ops orderRen (fun s => orderFmt k s))).getD
        (fun _ => False))) h1
      simp only [List.map_map] at h4
      rw [show (picked.map (lin ops orderRen (fun s => orderFmt k s))) = picked.map
        ((fun o : Option (Htm A) => (o.map (lin ops orderRen (fun s => orderFmt k s))).getD (fun _ => False)) ∘ some) from
        rfl, h4]
      apply List.map_congr_left
      intro j _
      simp [linL_eq, List.getD_eq_getElem?_getD]
    rw [e]
  simp only [lin]
  constructor
  · rintro ⟨L, hL, hw⟩
    obtain ⟨s, hs, rfl⟩ := List.mem_map.1 hL
    obtain ⟨k, hk, rfl⟩ := List.getElem_of_mem hs
    have hk' : k < (orders cs.length).length := by omega
    exact ⟨(orders cs.length)[k], (mem_orders _ _).1 (List.getElem_mem _), (hseq k hk hk').1 hw⟩
  · rintro ⟨σ, hσ, hw⟩
    obtain ⟨k, hk, rfl⟩ := List.getElem_of_mem ((mem_orders _ _).2 hσ)
    have hk' : k < seqs.length := by omega
    exact ⟨_, List.mem_map_of_mem (List.getElem_mem hk'), (hseq k hk' hk).2 hw⟩

theorem getInitialFinal_spec (ops : ActOps A) (uniq : List Nat → List Nat) (huniq : ∀ l x, x ∈ uniq l ↔ x ∈ l)
    (hc : ∀ i a, ∃ a', ops.copy (orderFmt i) a = .ok a' ∧ ops.name a' = orderFmt i (ops.name a))
    (fuel : Nat) : ∀ (t : Htm A), NonEmpty t → Built t → nesting t ≤ fuel →
    ∀ d : Dag A, d.succs.length = d.nodes.length →
    ∃ first last d', getInitialFinal ops uniq fuel t d = .ok ((first, last), d') ∧
      Extends ops d d' first last (lin ops orderRen (fun s => s) t) := by
  induction fuel with
  | zero =>
    intro t _ _ hn
    cases t with
    | leaf => simp [nesting] at hn
    | comb k => cases k <;> simp [nesting] at hn
  | succ fuel ih =>
    intro t hne hb hn d hwf
    cases t with
    | leaf a i p h =>
      refine ⟨[d.nodes.length], [d.nodes.length], ⟨d.nodes ++ [.leaf a i p h], d.succs ++ [[]]⟩, rfl, ?_⟩
      have hname : Dag.nameAt ops ⟨d.nodes ++ [.leaf a i p h], d.succs ++ [[]]⟩ d.nodes.length = some (ops.name a) := by
        simp [Dag.nameAt, Htm.name]
      refine ⟨by simp [hwf], by simp, ?_, ?_, ⟨by simp, by simp, by simp, by simp, ?_, ?_⟩, ?_⟩
      · intro i hi; simp [List.getElem?_append_left, hi]
      · intro i hi; rw [List.getElem?_append_left (by omega)]
      · intro i h1 h2 h3
        simp at h2 h3
        omega
      · intro w
        simp only [lin, List.mem_singleton, exists_eq_left]
        constructor
        · rintro rfl
          exact .stop _ _ (by simp) hname
        · intro hp
          cases hp with
          | stop _ n hl hn => rw [hname] at hn; cases hn; rfl
          | step _ j n ss w hl => simp at hl
      · intro l hl
        simp only [List.mem_singleton] at hl
        subst hl
        rw [← hwf]
        simp
    | comb k cs i p n h pr =>
      simp only [NonEmpty, nonEmptyL_iff] at hne
      simp only [Built, builtL_iff] at hb
      -- the children after the replacement of parallel nodes
      have hexp : ∃ k' cs', expandParallel ops k cs n h = .ok (k', cs') ∧ cs' ≠ [] ∧ k' ≠ .parallel ∧
          (∀ c ∈ cs', NonEmpty c ∧ Built c ∧ nesting c ≤ fuel) ∧
          (∀ w, lin ops orderRen (fun s => s) (.comb k cs i p n h pr) w ↔
            lin ops orderRen (fun s => s) (.comb k' cs' i p n h pr) w) := by
        by_cases hk : k = .parallel
        · subst hk
          simp only [nesting] at hn
          obtain ⟨seqs, h1, h2, h3⟩ := toAlternative_spec ops cs n h hb.2 (fun i a _ => hc i a)
          refine ⟨.alternative, seqs, ?_, ?_, by simp, ?_, ?_⟩
          · simp [expandParallel, h2, bind, Except.bind, pure, Except.pure, Htm.children]
          · intro h0
            rw [h0] at h1
            exact Nat.factorial_ne_zero _ h1.symm
          · intro c hcm
            obtain ⟨k, hk, rfl⟩ := List.getElem_of_mem hcm
            have h3' := h3
            rw [List.forall₂_iff_get] at h3'
            have hk' : k < (orders cs.length).length := by rw [length_orders, ← h1]; exact hk
            obtain ⟨picked, copies, h4, h5, h6, h7⟩ := h3'.2 k (by simpa using hk') hk
            simp only [List.get_eq_getElem, List.getElem_zipIdx, Nat.zero_add] at h4 h5 h7
            have hpick : ∀ c ∈ picked, c ∈ cs := by
              intro c hcp
              have : some c ∈ picked.map some := List.mem_map_of_mem hcp
              rw [h4] at this
              obtain ⟨j, _, hj⟩ := List.mem_map.1 this
              exact List.mem_of_getElem? hj
            have hplen : picked.length = cs.length := by
              have := congrArg List.length h4
              simp only [List.length_map] at this
              rw [this]
              simpa using ((mem_orders _ _).1 (List.getElem_mem hk')).length_eq
            rw [copyOfL_iff] at h5
            have hcop : ∀ c ∈ copies, NonEmpty c ∧ nesting c ≤ nestingL cs := by
              intro c hcc
              obtain ⟨j, hj, rfl⟩ := List.getElem_of_mem hcc
              rw [List.forall₂_iff_get] at h5
              have hj' : j < picked.length := by rw [h5.1]; exact hj
              have h8 := nesting_copy ops _ _ _ (h5.2 j hj' hj)
              simp only [List.get_eq_getElem] at h8
              have hm := hpick _ (List.getElem_mem hj')
              refine ⟨h8.2 (hne.2 _ hm), ?_⟩
              rw [h8.1]
              exact (nestingL_le cs _).1 (Nat.le_refl _) _ hm
            rw [h7]
            refine ⟨?_, ?_, ?_⟩
            · simp only [NonEmpty, nonEmptyL_iff]
              refine ⟨?_, fun c hcc => (hcop c hcc).1⟩
              intro h0
              rw [h0] at h5
              have := h5.length_eq
              rw [hplen] at this
              exact hne.1 (List.length_eq_zero_iff.1 (by simpa using this))
            · simp only [Built, builtL_iff]
              exact ⟨by simp, h6⟩
            · simp only [nesting]
              have := (nestingL_le copies (nestingL cs)).2 (fun c hcc => (hcop c hcc).2)
              omega
          · intro w
            rw [← lin_toAlternative ops cs seqs n (by rw [h1, length_orders]) h3 w i p n h pr]
            simp only [lin, linL_eq]
        · refine ⟨k, cs, by cases k <;> simp_all [expandParallel], hne.1, hk, ?_, fun _ => Iff.rfl⟩
          have hn' : nestingL cs ≤ fuel := by cases k <;> simp_all [nesting]
          intro c hcm
          exact ⟨hne.2 c hcm, hb.2 c hcm, (nestingL_le cs fuel).1 hn' c hcm⟩
      obtain ⟨k', cs', he, hne', hk', hcs', hlang⟩ := hexp
      have hlang' : lin ops orderRen (fun s => s) (.comb k cs i p n h pr) =
          lin ops orderRen (fun s => s) (.comb k' cs' i p n h pr) := by
        funext w
        exact propext (hlang w)
      rw [hlang']
      obtain ⟨fl, d1, h1, h2, h3, h4, h5, h6, h7⟩ := mapAccumM_frags ops (getInitialFinal ops uniq fuel)
        (lin ops orderRen (fun s => s)) cs' (fun c hcm => ih c (hcs' c hcm).1 (hcs' c hcm).2.1 (hcs' c hcm).2.2) d hwf
      have hgo : getInitialFinal ops uniq (fuel + 1) (.comb k cs i p n h pr) d = joinChildren uniq k' fl d1 := by
        simp [getInitialFinal, he, h1, bind, Except.bind]
      rw [hgo]
      cases fl with
      | nil => exact absurd (List.length_eq_zero_iff.1 h2.symm) hne'
      | cons q fl =>
        cases k' with
        | parallel => exact absurd rfl hk'
        | sequential =>
          obtain ⟨g1, g2, g3, g4, g5⟩ := h7.seq ops h3
          refine ⟨_, _, _, rfl, ⟨by rw [g4, g3, h3], by rw [g3]; exact h4, ?_, ?_, ?_, g2⟩⟩
          · intro i hi; rw [g3]; exact h5 i hi
          · intro i hi; rw [g5 i hi]; exact h6 i hi
          · rw [g3]
            have e : lin ops orderRen (fun s => s) (.comb .sequential cs' i p n h pr) =
                cat (cs'.map (lin ops orderRen (fun s => s))) := by
              funext w; simp only [lin, linL_eq]
            rw [e]
            exact g1
        | alternative =>
          obtain ⟨g1, g2⟩ := h7.alt ops (by simp)
          refine ⟨_, _, _, rfl, ⟨h3, h4, h5, h6, ?_, ?_⟩⟩
          · have e : lin ops orderRen (fun s => s) (.comb .alternative cs' i p n h pr) =
                fun w => ∃ L ∈ cs'.map (lin ops orderRen (fun s => s)), L w := by
              funext w; simp only [lin, linL_eq]
            rw [e]
            exact g1.congr ops (fun x => (huniq _ x).symm) (fun x => (huniq _ x).symm) (Nat.le_refl _)
              (fun _ _ _ => rfl) (fun _ _ _ _ => rfl)
          · intro l hl
            exact g2 l ((huniq _ l).1 hl)

end Verif
