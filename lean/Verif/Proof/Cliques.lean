import Verif.Model.Cliques
import Verif.Spec.Cliques
import Verif.Proof.TaskGraph
import Mathlib.Data.List.Induction

/-! Lemmas about `Verif.Model.Cliques`. -/

set_option linter.unusedSectionVars false
set_option linter.unusedSimpArgs false

namespace Verif.Cliques
open Verif Verif.Spec
variable {α : Type} [DecidableEq α]

theorem pyMax_mem (key : α → Nat) (v : α) (vs : List α) : pyMax key v vs = v ∨ pyMax key v vs ∈ vs := by
  induction vs generalizing v with
  | nil => left; rfl
  | cons x xs ih =>
    unfold pyMax
    split
    · rcases ih x with h | h
      · right; rw [h]; simp
      · right; exact List.mem_cons_of_mem _ h
    · rcases ih v with h | h
      · left; exact h
      · right; exact List.mem_cons_of_mem _ h

theorem forM_nbrs (graph : List (α × List α)) (us : List α) (h : ∀ u ∈ us, ∃ s, nbrs graph u = .ok s) :
    us.forM (fun u => (nbrs graph u).map fun _ => ()) = Except.ok () := by
  induction us with
  | nil => rfl
  | cons u us ih =>
    obtain ⟨s, hs⟩ := h u (by simp)
    rw [show (u :: us).forM (fun u => (nbrs graph u).map fun _ => ()) =
      (do (nbrs graph u).map fun _ => (); us.forM (fun u => (nbrs graph u).map fun _ => ())) from rfl, hs]
    exact ih (fun x hx => h x (by simp [hx]))

/-- A symmetric graph given by a dictionary of sets whose elements are keys. -/
structure SymGraph (graph : List (α × List α)) (adj : α → α → Prop) : Prop where
  keys : (graph.map Prod.fst).Nodup
  nbr : ∀ u ∈ graph.map Prod.fst, ∃ s, nbrs graph u = .ok s ∧ ∀ v, v ∈ s ↔ adj u v
  dom : ∀ u v, adj u v → u ∈ graph.map Prod.fst
  symm : ∀ u v, adj u v → adj v u

variable {graph : List (α × List α)} {adj : α → α → Prop}

/-- What the recursion maintains. -/
structure BkInv (graph : List (α × List α)) (adj : α → α → Prop) (r p x : List α) : Prop where
  rn : r.Nodup
  pn : p.Nodup
  rnode : ∀ u ∈ r, u ∈ graph.map Prod.fst
  clique : IsClique adj (· ∈ r)
  disj : ∀ v ∈ p, v ∉ x
  common : ∀ v, v ∈ p ∨ v ∈ x ↔ v ∈ graph.map Prod.fst ∧ ∀ u ∈ r, adj u v

/-- The cliques the call on `(r, p, x)` is responsible for. -/
def Resp (graph : List (α × List α)) (adj : α → α → Prop) (r x : List α) (K : α → Prop) : Prop :=
  MaxClique (· ∈ graph.map Prod.fst) adj K ∧ (∀ u ∈ r, K u) ∧ (∀ v ∈ x, ¬ K v) ∧ Loopless adj K

/-- The list `outs` enumerates the sets satisfying `P`, once each. -/
def Enum (P : (α → Prop) → Prop) (outs : List (List α)) : Prop :=
  (∀ o ∈ outs, o.Nodup ∧ P (· ∈ o)) ∧ (∀ K, P K → ∃ o ∈ outs, ∀ u, u ∈ o ↔ K u) ∧
  outs.Pairwise (fun a b => ¬ ∀ u, u ∈ a ↔ u ∈ b)

theorem enum_congr {P Q : (α → Prop) → Prop} {outs : List (List α)} (h : ∀ K, P K ↔ Q K) (he : Enum P outs) :
    Enum Q outs :=
  ⟨fun o ho => ⟨(he.1 o ho).1, (h _).1 (he.1 o ho).2⟩, fun K hK => he.2.1 K ((h K).2 hK), he.2.2⟩

theorem enum_append {P Q : (α → Prop) → Prop} {o1 o2 : List (List α)} (h1 : Enum P o1) (h2 : Enum Q o2)
    (hd : ∀ K, P K → ¬ Q K) : Enum (fun K => P K ∨ Q K) (o1 ++ o2) := by
  refine ⟨?_, ?_, ?_⟩
  · intro o ho
    rcases List.mem_append.1 ho with ho | ho
    · exact ⟨(h1.1 o ho).1, Or.inl (h1.1 o ho).2⟩
    · exact ⟨(h2.1 o ho).1, Or.inr (h2.1 o ho).2⟩
  · rintro K (hK | hK)
    · obtain ⟨o, ho, h⟩ := h1.2.1 K hK
      exact ⟨o, List.mem_append_left _ ho, h⟩
    · obtain ⟨o, ho, h⟩ := h2.2.1 K hK
      exact ⟨o, List.mem_append_right _ ho, h⟩
  · rw [List.pairwise_append]
    refine ⟨h1.2.2, h2.2.2, ?_⟩
    intro a ha b hb hab
    have hPa := (h1.1 a ha).2
    have hQb := (h2.1 b hb).2
    have : (fun x => x ∈ a) = (fun x => x ∈ b) := funext fun u => propext (hab u)
    rw [this] at hPa
    exact hd _ hPa hQb

theorem resp_sub (G : SymGraph graph adj) {r p x : List α} (I : BkInv graph adj r p x)
    {K : α → Prop} (hK : Resp graph adj r x K) (v : α) (hv : K v) : v ∈ r ∨ v ∈ p := by
  by_cases hr : v ∈ r
  · exact Or.inl hr
  · right
    have : v ∈ p ∨ v ∈ x := (I.common v).2 ⟨hK.1.1 v hv, fun u hu =>
      hK.1.2.1 u v (hK.2.1 u hu) hv (by rintro rfl; exact hr hu)⟩
    rcases this with h | h
    · exact h
    · exact absurd hv (hK.2.2.1 v h)

theorem bkLoop_spec (G : SymGraph graph adj)
    (rec : List α → List α → List α → Py (List (List α))) (N : Nat)
    (hrec : ∀ r p x, BkInv graph adj r p x → p.length ≤ N →
      ∃ outs, rec r p x = .ok outs ∧ Enum (Resp graph adj r x) outs)
    (r : List α) (us p x : List α) (I : BkInv graph adj r p x) (hus : us.Nodup) (hsub : ∀ u ∈ us, u ∈ p)
    (hlen : ∀ u ∈ us, ∀ q : List α, q.Nodup → (∀ v ∈ q, v ∈ p ∧ adj u v) → q.length ≤ N) :
    ∃ outs, bkLoop graph rec r us p x = .ok outs ∧
      Enum (fun K => Resp graph adj r x K ∧ ∃ u ∈ us, K u) outs := by
  induction us generalizing p x with
  | nil =>
    refine ⟨[], rfl, ?_, ?_, ?_⟩
    · simp
    · rintro K ⟨_, u, hu, _⟩
      simp at hu
    · simp
  | cons u us ih =>
    have hup : u ∈ p := hsub u (by simp)
    have hucommon := (I.common u).1 (Or.inl hup)
    have hunode : u ∈ graph.map Prod.fst := hucommon.1
    obtain ⟨nu, hnu, hadj⟩ := G.nbr u hunode
    -- invariant of the recursive call
    have I1 : BkInv graph adj (setAdd r u) (p.filter (fun v => decide (v ∈ nu)))
        (x.filter (fun v => decide (v ∈ nu))) := by
      refine ⟨nodup_setAdd I.rn u, I.pn.filter _, ?_, ?_, ?_, ?_⟩
      · intro v hv
        rcases (mem_setAdd _ _ _).1 hv with hv | rfl
        · exact I.rnode v hv
        · exact hunode
      · intro a b ha hb hab
        rcases (mem_setAdd _ _ _).1 ha with ha | ha <;> rcases (mem_setAdd _ _ _).1 hb with hb | hb
        · exact I.clique a b ha hb hab
        · exact hb ▸ hucommon.2 a ha
        · exact ha ▸ G.symm _ _ (hucommon.2 b hb)
        · exact absurd (ha.trans hb.symm) hab
      · intro v hv
        simp only [List.mem_filter, decide_eq_true_eq] at hv ⊢
        exact fun h => I.disj v hv.1 h.1
      · intro v
        simp only [List.mem_filter, decide_eq_true_eq, mem_setAdd, hadj]
        constructor
        · rintro (⟨h1, h2⟩ | ⟨h1, h2⟩)
          · have := (I.common v).1 (Or.inl h1)
            refine ⟨this.1, ?_⟩
            rintro w (hw | rfl)
            · exact this.2 w hw
            · exact h2
          · have := (I.common v).1 (Or.inr h1)
            refine ⟨this.1, ?_⟩
            rintro w (hw | rfl)
            · exact this.2 w hw
            · exact h2
        · rintro ⟨h1, h2⟩
          have h3 := h2 u (Or.inr rfl)
          rcases (I.common v).2 ⟨h1, fun w hw => h2 w (Or.inl hw)⟩ with h | h
          · exact Or.inl ⟨h, h3⟩
          · exact Or.inr ⟨h, h3⟩
    have hl1 : (p.filter (fun v => decide (v ∈ nu))).length ≤ N := by
      refine hlen u (by simp) _ (I.pn.filter _) ?_
      intro v hv
      simp only [List.mem_filter, decide_eq_true_eq, hadj] at hv
      exact hv
    obtain ⟨o1, ho1, he1⟩ := hrec _ _ _ I1 hl1
    -- invariant of the rest of the loop
    have I2 : BkInv graph adj r (p.erase u) (setAdd x u) := by
      refine ⟨I.rn, I.pn.erase _, I.rnode, I.clique, ?_, ?_⟩
      · intro v hv
        have := (I.pn.mem_erase_iff).1 hv
        rw [mem_setAdd]
        rintro (h | h)
        · exact I.disj v this.2 h
        · exact this.1 h
      · intro v
        rw [← I.common, I.pn.mem_erase_iff, mem_setAdd]
        constructor
        · rintro (⟨_, h⟩ | h | rfl)
          · exact Or.inl h
          · exact Or.inr h
          · exact Or.inl hup
        · rintro (h | h)
          · by_cases hvu : v = u
            · exact Or.inr (Or.inr hvu)
            · exact Or.inl ⟨hvu, h⟩
          · exact Or.inr (Or.inl h)
    obtain ⟨o2, ho2, he2⟩ := ih (p.erase u) (setAdd x u) I2 (List.nodup_cons.1 hus).2
      (fun v hv => (I.pn.mem_erase_iff).2 ⟨by rintro rfl; exact (List.nodup_cons.1 hus).1 hv, hsub v (by simp [hv])⟩)
      (fun v hv q hq hqs => hlen v (by simp [hv]) q hq
        (fun w hw => ⟨List.mem_of_mem_erase (hqs w hw).1, (hqs w hw).2⟩))
    refine ⟨o1 ++ o2, ?_, ?_⟩
    · unfold bkLoop
      simp only [hnu, ho1, ho2, bind, Except.bind, hup, if_true]
      rfl
    · refine enum_congr (fun K => ?_) (enum_append he1 he2 ?_)
      · constructor
        · rintro (h | ⟨h, v, hv, hKv⟩)
          · have hKu : K u := h.2.1 u (by simp)
            refine ⟨⟨h.1, fun v hv => h.2.1 v (by simp [hv]), ?_, h.2.2.2⟩, u, by simp, hKu⟩
            intro v hv hKv
            have hne : u ≠ v := by
              rintro rfl
              exact I.disj u hup hv
            have hav := h.1.2.1 u v hKu hKv hne
            exact h.2.2.1 v (by simp [hv, hadj, hav]) hKv
          · exact ⟨⟨h.1, h.2.1, fun w hw => h.2.2.1 w (by simp [hw]), h.2.2.2⟩, v, by simp [hv], hKv⟩
        · rintro ⟨h, v, hv, hKv⟩
          by_cases hKu : K u
          · left
            refine ⟨h.1, ?_, ?_, h.2.2.2⟩
            · intro w hw
              rcases (mem_setAdd _ _ _).1 hw with hw | rfl
              · exact h.2.1 w hw
              · exact hKu
            · intro w hw
              simp only [List.mem_filter] at hw
              exact h.2.2.1 w hw.1
          · right
            rcases List.mem_cons.1 hv with rfl | hv
            · exact absurd hKv hKu
            · refine ⟨⟨h.1, h.2.1, ?_, h.2.2.2⟩, v, hv, hKv⟩
              intro w hw
              rcases (mem_setAdd _ _ _).1 hw with hw | rfl
              · exact h.2.2.1 w hw
              · exact hKu
      · rintro K h1 ⟨h2, _⟩
        exact h2.2.2.1 u (by simp) (h1.2.1 u (by simp))

theorem bk_spec (G : SymGraph graph adj) (ord : List α → List α → List α)
    (hord : ∀ r l, (ord r l).Perm l) (fuel : Nat) (r p x : List α) (I : BkInv graph adj r p x)
    (hf : p.length < fuel) :
    ∃ outs, bk graph ord fuel r p x = .ok outs ∧ Enum (Resp graph adj r x) outs := by
  induction fuel generalizing r p x with
  | zero => omega
  | succ fuel ih =>
    unfold bk
    rcases hp : ord r p with _ | ⟨v, vs⟩
    · have hpn : p = [] := by
        have := hord r p
        rw [hp] at this
        exact this.symm.eq_nil
      subst hpn
      refine ⟨_, rfl, ?_⟩
      rcases x with _ | ⟨y, x⟩
      · simp only [List.isEmpty_nil, if_true]
        have hmax : MaxClique (· ∈ graph.map Prod.fst) adj (· ∈ r) := by
          refine ⟨I.rnode, I.clique, ?_⟩
          intro w hw hwr hc
          have := (I.common w).2 ⟨hw, fun u hu => hc u w (Or.inl hu) (Or.inr rfl) (by rintro rfl; exact hwr hu)⟩
          simp at this
        refine ⟨?_, ?_, by simp⟩
        · intro o ho
          simp only [List.mem_singleton] at ho
          subst ho
          refine ⟨I.rn, hmax, fun u hu => hu, by simp, ?_⟩
          intro u hu hl
          have := (I.common u).2 ⟨I.rnode u hu, fun w hw => by
            by_cases hwu : w = u
            · exact hwu ▸ hl
            · exact I.clique w u hw hu hwu⟩
          simp at this
        · intro K hK
          refine ⟨r, by simp, ?_⟩
          intro u
          constructor
          · exact hK.2.1 u
          · intro hu
            rcases resp_sub G I hK u hu with h | h
            · exact h
            · simp at h
      · simp only [List.isEmpty_cons, Bool.false_eq_true, if_false]
        refine ⟨by simp, ?_, by simp⟩
        intro K hK
        exfalso
        have hy := (I.common y).1 (Or.inr (by simp))
        have hyK : ¬ K y := hK.2.2.1 y (by simp)
        refine hK.1.2.2 y hy.1 hyK ?_
        have hin : ∀ a, K a → a ∈ r := by
          intro a ha
          rcases resp_sub G I hK a ha with h | h
          · exact h
          · simp at h
        rintro a b (ha | rfl) (hb | rfl) hab
        · exact hK.1.2.1 a b ha hb hab
        · exact hy.2 a (hin a ha)
        · exact G.symm _ _ (hy.2 b (hin b hb))
        · exact absurd rfl hab
    · have hperm := hord r p
      have hnode : ∀ u ∈ p, u ∈ graph.map Prod.fst := fun u hu => ((I.common u).1 (Or.inl hu)).1
      have hmemp : ∀ u, u ∈ v :: vs ↔ u ∈ p := by
        intro u
        rw [← hp]
        exact hperm.mem_iff
      have hpivot : pyMax (degIn graph p) v vs ∈ p := by
        rw [← hmemp]
        rcases pyMax_mem (degIn graph p) v vs with h | h
        · rw [h]; simp
        · exact List.mem_cons_of_mem _ h
      obtain ⟨np, hnp, hadj⟩ := G.nbr _ (hnode _ hpivot)
      have hforM := forM_nbrs graph (v :: vs) (fun u hu => by
        obtain ⟨s, hs, _⟩ := G.nbr u (hnode u ((hmemp u).1 hu))
        exact ⟨s, hs⟩)
      have hmem : ∀ u, u ∈ ord r (p.filter (fun v => decide (v ∉ np))) ↔
          u ∈ p ∧ ¬ adj (pyMax (degIn graph p) v vs) u := by
        intro u
        rw [(hord _ _).mem_iff]
        simp [hadj]
      obtain ⟨outs, ho, he⟩ := bkLoop_spec G (bk graph ord fuel) (p.length - 1)
        (fun r' p' x' I' hl => ih r' p' x' I' (by
          have : 0 < p.length := List.length_pos_of_mem hpivot
          omega))
        r (ord r (p.filter (fun v => decide (v ∉ np)))) p x I ((hord _ _).nodup_iff.2 (I.pn.filter _))
        (fun u hu => ((hmem u).1 hu).1)
        (fun u hu q hq hqs => by
          have hsub : q ⊆ p.erase (pyMax (degIn graph p) v vs) := by
            intro w hw
            refine (I.pn.mem_erase_iff).2 ⟨?_, (hqs w hw).1⟩
            rintro rfl
            exact ((hmem u).1 hu).2 (G.symm _ _ (hqs _ hw).2)
          have := (List.subperm_of_subset hq hsub).length_le
          rw [List.length_erase_of_mem hpivot] at this
          exact this)
      refine ⟨outs, ?_, enum_congr (fun K => ?_) he⟩
      · simp only [hforM, hnp, bind, Except.bind]
        exact ho
      · constructor
        · exact fun h => h.1
        · intro h
          refine ⟨h, ?_⟩
          by_contra hno
          -- no member of `p \ N(pivot)` is in `K`: the pivot could be added
          have hall : ∀ u, K u → u ∈ r ∨ (u ∈ p ∧ adj (pyMax (degIn graph p) v vs) u) := by
            intro u hu
            rcases resp_sub G I h u hu with hr | hpu
            · exact Or.inl hr
            · right
              refine ⟨hpu, ?_⟩
              by_contra hna
              exact hno ⟨u, (hmem u).2 ⟨hpu, hna⟩, hu⟩
          have hpc := (I.common _).1 (Or.inl hpivot)
          have hpK : ¬ K (pyMax (degIn graph p) v vs) := by
            intro hK
            rcases hall _ hK with hr | ⟨_, ha⟩
            · exact h.2.2.2 _ hK (hpc.2 _ hr)
            · exact h.2.2.2 _ hK ha
          refine h.1.2.2 _ hpc.1 hpK ?_
          rintro a b (ha | rfl) (hb | rfl) hab
          · exact h.1.2.1 a b ha hb hab
          · rcases hall a ha with hr | ⟨_, h'⟩
            · exact hpc.2 a hr
            · exact G.symm _ _ h'
          · rcases hall b hb with hr | ⟨_, h'⟩
            · exact G.symm _ _ (hpc.2 b hr)
            · exact h'
          · exact absurd rfl hab

/-! Termination on symmetric graphs, possibly with self-loops. -/

theorem bkLoop_total (G : SymGraph graph adj) (rec : List α → List α → List α → Py (List (List α)))
    (pivot : α) (P : List α) (hpiv : pivot ∈ P) (hP : P.Nodup)
    (hrec : ∀ r p x, p.Nodup → (∀ u ∈ p, u ∈ graph.map Prod.fst) → p.length < P.length → ∃ outs, rec r p x = .ok outs)
    (r us p x : List α) (hp : p.Nodup) (hpn : ∀ u ∈ p, u ∈ graph.map Prod.fst) (hpP : ∀ u ∈ p, u ∈ P)
    (hus : us.Nodup) (hsub : ∀ u ∈ us, u ∈ p ∧ ¬ adj pivot u) :
    ∃ outs, bkLoop graph rec r us p x = .ok outs := by
  induction us generalizing p x with
  | nil => exact ⟨[], rfl⟩
  | cons u us ih =>
    obtain ⟨hup, hnu⟩ := hsub u (by simp)
    obtain ⟨nu, hn, hadj⟩ := G.nbr u (hpn u hup)
    have hlt : (p.filter (fun v => decide (v ∈ nu))).length < P.length := by
      have hs : pivot :: p.filter (fun v => decide (v ∈ nu)) ⊆ P := by
        intro w hw
        rcases List.mem_cons.1 hw with rfl | hw
        · exact hpiv
        · exact hpP w (List.mem_of_mem_filter hw)
      have hnd : (pivot :: p.filter (fun v => decide (v ∈ nu))).Nodup := by
        rw [List.nodup_cons]
        refine ⟨?_, hp.filter _⟩
        simp only [List.mem_filter, decide_eq_true_eq, hadj, not_and]
        exact fun _ h => hnu (G.symm _ _ h)
      have := (List.subperm_of_subset hnd hs).length_le
      simp only [List.length_cons] at this
      omega
    obtain ⟨o1, h1⟩ := hrec (setAdd r u) (p.filter (fun v => decide (v ∈ nu))) (x.filter (fun v => decide (v ∈ nu)))
      (hp.filter _) (fun w hw => hpn w (List.mem_of_mem_filter hw)) hlt
    obtain ⟨o2, h2⟩ := ih (p.erase u) (setAdd x u) (hp.erase _) (fun w hw => hpn w (List.mem_of_mem_erase hw))
      (fun w hw => hpP w (List.mem_of_mem_erase hw)) (List.nodup_cons.1 hus).2
      (fun w hw => ⟨(hp.mem_erase_iff).2 ⟨by rintro rfl; exact (List.nodup_cons.1 hus).1 hw, (hsub w (by simp [hw])).1⟩,
        (hsub w (by simp [hw])).2⟩)
    refine ⟨o1 ++ o2, ?_⟩
    unfold bkLoop
    simp only [hn, h1, h2, bind, Except.bind, hup, if_true]
    rfl

theorem bk_total (G : SymGraph graph adj) (ord : List α → List α → List α)
    (hord : ∀ r l, (ord r l).Perm l) (fuel : Nat) (r p x : List α) (hp : p.Nodup)
    (hpn : ∀ u ∈ p, u ∈ graph.map Prod.fst) (hf : p.length < fuel) :
    ∃ outs, bk graph ord fuel r p x = .ok outs := by
  induction fuel generalizing r p x with
  | zero => omega
  | succ fuel ih =>
    unfold bk
    rcases ho : ord r p with _ | ⟨v, vs⟩
    · exact ⟨_, rfl⟩
    · have hmemp : ∀ u, u ∈ v :: vs ↔ u ∈ p := by
        intro u
        rw [← ho]
        exact (hord r p).mem_iff
      have hpivot : pyMax (degIn graph p) v vs ∈ p := by
        rw [← hmemp]
        rcases pyMax_mem (degIn graph p) v vs with h | h
        · rw [h]; simp
        · exact List.mem_cons_of_mem _ h
      obtain ⟨np, hnp, hadj⟩ := G.nbr _ (hpn _ hpivot)
      have hforM := forM_nbrs graph (v :: vs) (fun u hu => by
        obtain ⟨s, hs, _⟩ := G.nbr u (hpn u ((hmemp u).1 hu))
        exact ⟨s, hs⟩)
      obtain ⟨outs, h⟩ := bkLoop_total G (bk graph ord fuel) (pyMax (degIn graph p) v vs) p hpivot hp
        (fun r' p' x' h1 h2 h3 => ih r' p' x' h1 h2 (by omega)) r (ord r (p.filter (fun v => decide (v ∉ np)))) p x
        hp hpn (fun u hu => hu) ((hord _ _).nodup_iff.2 (hp.filter _))
        (fun u hu => by
          have := (hord _ _).mem_iff.1 hu
          simp only [List.mem_filter, decide_eq_true_eq, hadj] at this
          exact this)
      refine ⟨outs, ?_⟩
      simp only [hforM, hnp, bind, Except.bind]
      exact h

/-! ### The symmetrised graph -/

theorem symStep_spec (unique : List (α × α)) (keys : List α) (hu : ∀ p ∈ unique, p.1 ∈ keys ∧ p.2 ∈ keys)
    (ps : List (α × α)) (hps : ∀ p ∈ ps, p ∈ unique) (sym : List (α × List α)) (hkn : keys.Nodup)
    (hk : sym.map Prod.fst = keys) (done : List (α × α))
    (hs : ∀ n ∈ keys, ∃ s, dget sym n = some s ∧
      ∀ m, m ∈ s ↔ ((n, m) ∈ done ∨ (m, n) ∈ done) ∧ (n, m) ∈ unique ∧ (m, n) ∈ unique) :
    ∃ sym', ps.foldlM (symStep unique) sym = .ok sym' ∧ sym'.map Prod.fst = keys ∧
      ∀ n ∈ keys, ∃ s, dget sym' n = some s ∧
        ∀ m, m ∈ s ↔ ((n, m) ∈ done ++ ps ∨ (m, n) ∈ done ++ ps) ∧ (n, m) ∈ unique ∧ (m, n) ∈ unique := by
  have hkeys : ∀ (d : List (α × List α)) k v, k ∈ d.map Prod.fst → (dset d k v).map Prod.fst = d.map Prod.fst := by
    intro d k v
    induction d with
    | nil => simp
    | cons kv d ih =>
      obtain ⟨k0, v0⟩ := kv
      intro h
      by_cases hk0 : k0 = k
      · simp [dset, hk0]
      · simp only [dset, hk0, if_false, List.map_cons, List.cons.injEq, true_and]
        apply ih
        rcases List.mem_cons.1 h with h | h
        · exact absurd h.symm hk0
        · exact h
  induction ps generalizing sym done with
  | nil => exact ⟨sym, rfl, hk, by simpa using hs⟩
  | cons sd ps ih =>
    obtain ⟨s, d⟩ := sd
    have hsd : (s, d) ∈ unique := hps _ (by simp)
    obtain ⟨hsk, hdk⟩ := hu _ hsd
    by_cases hm : (d, s) ∈ unique
    · obtain ⟨a, ha, ha'⟩ := hs s hsk
      have hb : ∃ b, dget (dset sym s (setAdd a d)) d = some b ∧
          b = if s = d then setAdd a d else (dget sym d).getD [] := by
        rw [dget_dset]
        by_cases h : s = d
        · simp [h]
        · obtain ⟨b, hb, _⟩ := hs d hdk
          simp [h, hb]
      obtain ⟨b, hb, hbe⟩ := hb
      have hstep : symStep unique sym (s, d) = .ok (dset (dset sym s (setAdd a d)) d (setAdd b s)) := by
        unfold symStep nbrs
        simp only [hm, if_true, ha, hb, bind, Except.bind]
        rfl
      have hk1 : (dset sym s (setAdd a d)).map Prod.fst = keys := by
        rw [hkeys _ _ _ (by rw [hk]; exact hsk), hk]
      have hk2 : (dset (dset sym s (setAdd a d)) d (setAdd b s)).map Prod.fst = keys := by
        rw [hkeys _ _ _ (by rw [hk1]; exact hdk), hk1]
      have := ih (fun p hp => hps p (by simp [hp])) _ hk2 (done ++ [(s, d)]) (by
        intro n hn
        obtain ⟨c, hc, hc'⟩ := hs n hn
        rw [dget_dset, dget_dset]
        by_cases h1 : d = n
        · subst h1
          refine ⟨_, by rw [if_pos rfl], ?_⟩
          intro m
          rw [mem_setAdd, hbe]
          by_cases h2 : s = d
          · subst h2
            simp only [if_true, mem_setAdd, ha', List.mem_append, List.mem_singleton, Prod.mk.injEq]
            constructor
            · rintro ((⟨h, h'⟩ | rfl) | rfl)
              · exact ⟨h.imp Or.inl Or.inl, h'⟩
              · exact ⟨Or.inl (Or.inr (by simp)), hm, hm⟩
              · exact ⟨Or.inl (Or.inr (by simp)), hm, hm⟩
            · rintro ⟨(h | ⟨_, rfl⟩) | (h | ⟨rfl, _⟩), h'⟩
              · exact Or.inl (Or.inl ⟨Or.inl h, h'⟩)
              · exact Or.inr rfl
              · exact Or.inl (Or.inl ⟨Or.inr h, h'⟩)
              · exact Or.inr rfl
          · rw [if_neg h2, hc, Option.getD_some, hc']
            simp only [List.mem_append, List.mem_singleton, Prod.mk.injEq]
            constructor
            · rintro (⟨h, h'⟩ | rfl)
              · exact ⟨h.imp Or.inl Or.inl, h'⟩
              · exact ⟨Or.inr (Or.inr (by simp)), hm, hsd⟩
            · rintro ⟨(h | ⟨h, _⟩) | (h | ⟨rfl, _⟩), h'⟩
              · exact Or.inl ⟨Or.inl h, h'⟩
              · exact absurd h.symm h2
              · exact Or.inl ⟨Or.inr h, h'⟩
              · exact Or.inr rfl
        · by_cases h2 : s = n
          · subst h2
            refine ⟨_, by rw [if_neg h1, if_pos rfl], ?_⟩
            intro m
            simp only [mem_setAdd, ha', List.mem_append, List.mem_singleton, Prod.mk.injEq]
            constructor
            · rintro (⟨h, h'⟩ | rfl)
              · exact ⟨h.imp Or.inl Or.inl, h'⟩
              · exact ⟨Or.inl (Or.inr (by simp)), hsd, hm⟩
            · rintro ⟨(h | ⟨_, rfl⟩) | (h | ⟨_, h⟩), h'⟩
              · exact Or.inl ⟨Or.inl h, h'⟩
              · exact Or.inr rfl
              · exact Or.inl ⟨Or.inr h, h'⟩
              · exact absurd h.symm h1
          · refine ⟨c, by rw [if_neg h1, if_neg h2]; exact hc, ?_⟩
            intro m
            rw [hc']
            simp only [List.mem_append, List.mem_singleton, Prod.mk.injEq]
            constructor
            · rintro ⟨h, h'⟩
              exact ⟨h.imp Or.inl Or.inl, h'⟩
            · rintro ⟨(h | ⟨h, _⟩) | (h | ⟨_, h⟩), h'⟩
              · exact ⟨Or.inl h, h'⟩
              · exact absurd h.symm h2
              · exact ⟨Or.inr h, h'⟩
              · exact absurd h.symm h1)
      obtain ⟨sym', h1, h2, h3⟩ := this
      refine ⟨sym', ?_, h2, by simpa using h3⟩
      rw [List.foldlM_cons, hstep]
      exact h1
    · have hstep : symStep unique sym (s, d) = .ok sym := by
        unfold symStep
        simp [hm]
      have := ih (fun p hp => hps p (by simp [hp])) sym hk (done ++ [(s, d)]) (by
        intro n hn
        obtain ⟨c, hc, hc'⟩ := hs n hn
        refine ⟨c, hc, ?_⟩
        intro m
        rw [hc']
        simp only [List.mem_append, List.mem_singleton, Prod.mk.injEq]
        constructor
        · rintro ⟨h, h'⟩
          exact ⟨h.imp Or.inl Or.inl, h'⟩
        · rintro ⟨(h | ⟨rfl, rfl⟩) | (h | ⟨rfl, rfl⟩), h'⟩
          · exact ⟨Or.inl h, h'⟩
          · exact absurd h'.2 hm
          · exact ⟨Or.inr h, h'⟩
          · exact absurd h'.1 hm)
      obtain ⟨sym', h1, h2, h3⟩ := this
      refine ⟨sym', ?_, h2, by simpa using h3⟩
      rw [List.foldlM_cons, hstep]
      exact h1

end Verif.Cliques
