import Verif.Spec.Orders
import Verif.Spec.BringNext
import Verif.Proof.NodePaths
import Verif.Proof.NodeFrom

/-! The orders of the leaves of a converted task have the probabilities given by the task (C83). -/

set_option linter.unusedSectionVars false
set_option linter.unusedSimpArgs false

namespace Verif
open Spec
variable {A X Y Z : Type}

/-! ### Related distributions -/

/-- The outcomes are related one to one, with equal probabilities. -/
def DRel (R : X → Y → Prop) (d : Chances X) (e : Chances Y) : Prop :=
  ∃ d', d.Perm d' ∧ List.Forall₂ (fun x y => x.2 = y.2 ∧ List.Forall₂ R x.1 y.1) d' e

namespace DRel
variable {R : X → Y → Prop}

theorem perm_left {d d' : Chances X} {e : Chances Y} (h : d.Perm d') (h' : DRel R d' e) : DRel R d e := by
  obtain ⟨d'', h1, h2⟩ := h'
  exact ⟨d'', h.trans h1, h2⟩

theorem perm_right {d : Chances X} {e e' : Chances Y} (h' : DRel R d e) (h : e.Perm e') : DRel R d e' := by
  obtain ⟨d'', h1, h2⟩ := h'
  obtain ⟨d3, h3, h4⟩ := List.perm_comp_forall₂ h.symm h2.flip
  exact ⟨d3, h1.trans h4.symm, h3.flip⟩

theorem append {d1 d2 : Chances X} {e1 e2 : Chances Y} (h1 : DRel R d1 e1) (h2 : DRel R d2 e2) : DRel R (d1 ++ d2) (e1 ++ e2) := by
  obtain ⟨d1', a1, b1⟩ := h1
  obtain ⟨d2', a2, b2⟩ := h2
  exact ⟨d1' ++ d2', a1.append a2, List.rel_append b1 b2⟩

theorem scale (p : ℚ) {d : Chances X} {e : Chances Y} (h : DRel R d e) : DRel R (scaleD p d) (scaleD p e) := by
  obtain ⟨d', h1, h2⟩ := h
  refine ⟨scaleD p d', h1.map _, ?_⟩
  unfold scaleD
  rw [List.forall₂_map_left_iff, List.forall₂_map_right_iff]
  exact h2.imp fun x y hxy => ⟨by rw [hxy.1], hxy.2⟩

theorem then_ {d1 d2 : Chances X} {e1 e2 : Chances Y} (h1 : DRel R d1 e1) (h2 : DRel R d2 e2) : DRel R (thenD d1 d2) (thenD e1 e2) := by
  obtain ⟨d1', a1, b1⟩ := h1
  obtain ⟨d2', a2, b2⟩ := h2
  refine ⟨thenD d1' d2', List.Perm.flatMap a1 fun x _ => a2.map _, ?_⟩
  unfold thenD
  refine List.rel_flatMap b1 ?_
  intro x y hxy
  rw [List.forall₂_map_left_iff, List.forall₂_map_right_iff]
  exact b2.imp fun x' y' h' => ⟨by rw [hxy.1, h'.1], List.rel_append hxy.2 h'.2⟩

theorem all {ds : List (Chances X)} {es : List (Chances Y)} (h : List.Forall₂ (DRel R) ds es) : DRel R (allD ds) (allD es) := by
  induction h with
  | nil => exact ⟨_, .refl _, .cons ⟨rfl, .nil⟩ .nil⟩
  | cons h1 _ ih => exact then_ h1 ih

theorem comp {S : Y → Z → Prop} {T : X → Z → Prop} (hT : ∀ a b c, R a b → S b c → T a c) {d : Chances X} {e : Chances Y} {f : Chances Z}
    (h1 : DRel R d e) (h2 : DRel S e f) : DRel T d f := by
  obtain ⟨e', a1, b1⟩ := h2
  obtain ⟨d', a2, b2⟩ := h1.perm_right a1
  refine ⟨d', a2, ?_⟩
  clear a1 a2 h1
  have hw : ∀ {u : List X} {v : List Y} {w : List Z}, List.Forall₂ R u v → List.Forall₂ S v w → List.Forall₂ T u w := by
    intro u v w h1
    induction h1 generalizing w with
    | nil => intro h2; cases h2; exact .nil
    | cons h3 _ ih =>
      intro h2
      cases h2 with
      | cons h4 h5 => exact .cons (hT _ _ _ h3 h4) (ih h5)
  induction b2 generalizing f with
  | nil => cases b1; exact .nil
  | cons h3 _ ih =>
    cases b1 with
    | cons h4 h5 => exact .cons ⟨h3.1.trans h4.1, hw h3.2 h4.2⟩ (ih h5)

theorem flat {ds : List (Chances X)} {es : List (Chances Y)} (h : List.Forall₂ (DRel R) ds es) : DRel R ds.flatten es.flatten := by
  induction h with
  | nil => exact ⟨_, .refl _, .nil⟩
  | cons h1 _ ih => simp only [List.flatten_cons]; exact append h1 ih

theorem refl' {R : X → X → Prop} (hR : ∀ a, R a a) (d : Chances X) : DRel R d d :=
  ⟨d, .refl _, List.forall₂_same.2 fun _ _ => ⟨rfl, List.forall₂_same.2 fun a _ => hR a⟩⟩

end DRel

theorem chancesByL_eq (draw : Nat → List ℚ → List ℚ) (cs : List (Htm A)) : chancesByL draw cs = cs.map (chancesBy draw) := by
  induction cs with
  | nil => rfl
  | cons c cs ih => simp [chancesByL, ih]

theorem uniformAltsL_iff (cs : List (Htm A)) : UniformAltsL cs ↔ ∀ c ∈ cs, UniformAlts c := by
  induction cs with
  | nil => simp [UniformAltsL]
  | cons c cs ih => simp [UniformAltsL, ih]

theorem evenChances_uniform (t : Htm A) (h : UniformAlts t) : evenChances t = chances t := by
  unfold evenChances chances
  induction t using Htm.induct with
  | hleaf a i p h => rfl
  | hcomb k cs i p n h' pr ih =>
    have hul := (uniformAltsL_iff cs).1 h.2
    have hch : cs.map (chancesBy fun n _ => List.replicate n (1 / (n : ℚ))) = cs.map (chancesBy fun _ ps => ps) :=
      List.map_congr_left fun c hc => ih c hc (hul c hc)
    cases k with
    | sequential => simp only [chancesBy, chancesByL_eq, hch]
    | alternative => simp only [chancesBy, chancesByL_eq, hch, h.1 rfl, Option.getD_some]
    | parallel => simp only [chancesBy, chancesByL_eq, hch]

theorem parFreeL_iff' (cs : List (Htm A)) : ParFreeL cs ↔ ∀ c ∈ cs, ParFree c := by
  induction cs with
  | nil => simp [ParFreeL]
  | cons c cs ih => simp [ParFreeL, ih]

theorem zip_replicate_map {α β γ : Type} (p : α) (l : List β) (f : α × β → List γ) :
    ((List.replicate l.length p).zip l).flatMap f = (l.map fun x => f (p, x)).flatten := by
  induction l with
  | nil => rfl
  | cons x l ih => simp [List.replicate_succ, ih]

theorem even_seq (cs : List (Htm A)) (i p n h pr) : evenChances (.comb .sequential cs i p n h pr) = allD (cs.map evenChances) := by
  simp only [evenChances, chancesBy, chancesByL_eq]
  rfl

theorem even_par (cs : List (Htm A)) (i p n h pr) : evenChances (.comb .parallel cs i p n h pr) =
    ((cs.map evenChances).permutations.map fun ds => scaleD (1 / (cs.length.factorial : ℚ)) (allD ds)).flatten := by
  simp only [evenChances, chancesBy, chancesByL_eq, List.flatMap_def]
  rfl

theorem even_alt (cs : List (Htm A)) (i p n h pr) : evenChances (.comb .alternative cs i p n h pr) =
    ((cs.map evenChances).map (scaleD (1 / (cs.length : ℚ)))).flatten := by
  simp only [evenChances, chancesBy, chancesByL_eq]
  have := zip_replicate_map (1 / (cs.length : ℚ)) (cs.map evenChances) (fun x => scaleD x.1 x.2)
  rw [List.length_map] at this
  exact this

theorem forall2_pairs {α β : Type} {R : α → β → Prop} {l : List α} {m : List β} (h : List.Forall₂ R l m) :
    ∃ z : List (α × β), l = z.map Prod.fst ∧ m = z.map Prod.snd ∧ ∀ x ∈ z, R x.1 x.2 := by
  induction h with
  | nil => exact ⟨[], rfl, rfl, by simp⟩
  | @cons a b _ _ h1 _ ih =>
    obtain ⟨z, rfl, rfl, hz⟩ := ih
    exact ⟨(a, b) :: z, rfl, rfl, by simpa using ⟨h1, fun a b hab => hz (a, b) hab⟩⟩

theorem forall2_permutations {α β : Type} {R : α → β → Prop} {l : List α} {m : List β} (h : List.Forall₂ R l m) :
    List.Forall₂ (List.Forall₂ R) l.permutations m.permutations := by
  obtain ⟨z, rfl, rfl, hz⟩ := forall2_pairs h
  rw [← List.map_permutations, ← List.map_permutations, List.forall₂_map_left_iff, List.forall₂_map_right_iff, List.forall₂_same]
  intro y hy
  rw [List.forall₂_map_left_iff, List.forall₂_map_right_iff, List.forall₂_same]
  exact fun x hx => hz x ((List.mem_permutations.1 hy).mem_iff.1 hx)

/-! ### Copies -/

theorem CopyOf.evenChances (ops : ActOps A) (fmt : String → String) (t : Htm A) : ∀ t', CopyOf ops fmt t t' →
    DRel (IsCopy ops fmt) (evenChances t) (evenChances t') := by
  induction t using Htm.induct with
  | hleaf a i p h =>
    intro t' ht
    match t', ht with
    | .leaf a' i' p' h', ht => exact ⟨_, .refl _, .cons ⟨rfl, .cons ht.1 .nil⟩ .nil⟩
    | .comb _ _ _ _ _ _ _, ht => exact absurd ht (by simp [CopyOf])
  | hcomb k cs i p n h pr ih =>
    intro t' ht0
    match t', ht0 with
    | .leaf _ _ _ _, ht => exact absurd ht (by simp [CopyOf])
    | .comb k' cs' i' p' n' h' pr', ht =>
      obtain ⟨rfl, -, -, hl, -⟩ := ht
      clear ht0
      rw [copyOfL_iff] at hl
      have hlen : cs'.length = cs.length := hl.length_eq.symm
      have hch : List.Forall₂ (DRel (IsCopy ops fmt)) (cs.map Spec.evenChances) (cs'.map Spec.evenChances) := by
        clear hlen
        induction hl with
        | nil => exact .nil
        | cons h1 _ ihl => exact .cons (ih _ (by simp) _ h1) (ihl (fun c hc => ih c (by simp [hc])))
      cases k' with
      | sequential =>
        rw [even_seq, even_seq]
        exact DRel.all hch
      | alternative =>
        rw [even_alt, even_alt, hlen]
        refine DRel.flat ?_
        rw [List.forall₂_map_left_iff, List.forall₂_map_right_iff]
        exact hch.imp fun _ _ h => h.scale _
      | parallel =>
        rw [even_par, even_par, hlen]
        refine DRel.flat ?_
        rw [List.forall₂_map_left_iff, List.forall₂_map_right_iff]
        exact (forall2_permutations hch).imp fun _ _ h => (DRel.all h).scale _

/-! ### `from_node` -/

namespace N2P

mutual
/-- The orders of the leaves of the tree of a conversion, with the positions of the leaves, when alternatives are drawn uniformly;
`k` is the position of the first leaf. -/
def nCh : N2P A → Nat → Chances (A × Nat)
  | .leaf a, k => [([(a, k)], 1)]
  | .seq cs, k => allD (nChL cs k)
  | .alt cs, k => ((nChL cs k).map (scaleD (1 / (cs.length : ℚ)))).flatten
@[inherit_doc nCh]
def nChL : List (N2P A) → Nat → List (Chances (A × Nat))
  | [], _ => []
  | c :: cs, k => nCh c k :: nChL cs (k + c.leaves.length)
end

theorem mapM_forall2_of {α β : Type} {f : α → Py β} {l : List α} : ∀ {r : List β}, l.mapM f = .ok r → List.Forall₂ (fun x y => f x = .ok y) l r := by
  induction l with
  | nil => intro r h; simp [pure, Except.pure] at h; subst h; exact .nil
  | cons x l ih =>
    intro r h
    rw [List.mapM_cons] at h
    cases hx : f x with
    | error e => simp [hx, bind, Except.bind] at h
    | ok y =>
      cases hl : l.mapM f with
      | error e => simp [hx, hl, bind, Except.bind] at h
      | ok ys =>
        simp [hx, hl, bind, Except.bind, pure, Except.pure] at h
        subst h
        exact .cons hx (ih hl)

theorem nChL_forall2 {R : A → A → Prop} {cs : List (Htm A)} {ns : List (N2P A)}
    (h : List.Forall₂ (fun c n => ∀ k, DRel (fun a (x : A × Nat) => R a x.1) (evenChances c) (nCh n k)) cs ns) :
    ∀ k, List.Forall₂ (DRel (fun a (x : A × Nat) => R a x.1)) (cs.map evenChances) (nChL ns k) := by
  induction h with
  | nil => intro k; exact .nil
  | cons h1 _ ih => intro k; exact .cons (h1 k) (ih _)

/-- The orders of the tree of a conversion, for a relation `R` between the actions of the task and those of the leaves. -/
theorem fromNode_chances (ops : ActOps A) (hcopy : CopyTotal ops) (R : A → A → Prop) (hr : ∀ a, R a a) (fuel : Nat) : ∀ (t : Htm A) (n : N2P A),
    fromNode ops fuel t = .ok n → Built t → (ParFree t ∨ ∀ a b c i, ops.copy (orderFmt i) a = .ok b → R b c → R a c) →
    ∀ k, DRel (fun a (x : A × Nat) => R a x.1) (evenChances t) (nCh n k) := by
  induction fuel with
  | zero => intro t n h; simp [fromNode] at h
  | succ fuel ih =>
    intro t n hn hb hpar k
    have hch : ∀ (cs : List (Htm A)) ns, BuiltL cs → (ParFreeL cs ∨ ∀ a b c i, ops.copy (orderFmt i) a = .ok b → R b c → R a c) →
        cs.mapM (fromNode ops fuel) = .ok ns → List.Forall₂ (fun c n => ∀ k, DRel (fun a (x : A × Nat) => R a x.1) (evenChances c) (nCh n k)) cs ns := by
      intro cs ns h1 h3 h4
      rw [builtL_iff] at h1
      rw [parFreeL_iff'] at h3
      have h5 := mapM_forall2_of h4
      clear h4
      induction h5 with
      | nil => exact .nil
      | cons h6 _ ihl =>
        refine .cons (ih _ _ h6 (h1 _ (by simp)) (h3.imp (fun h => h _ (by simp)) id)) (ihl ?_ ?_)
        · exact fun c hc => h1 c (by simp [hc])
        · exact h3.imp (fun h c hc => h c (by simp [hc])) id
    match t, hn, hb, hpar with
    | .leaf a i p h, hn, _, _ =>
      simp [fromNode] at hn
      subst hn
      exact ⟨_, .refl _, .cons ⟨rfl, .cons (hr a) .nil⟩ .nil⟩
    | .comb .sequential cs i p nm h pr, hn, hb, hpar =>
      cases hm : cs.mapM (fromNode ops fuel) with
      | error e => simp [fromNode, hm, bind, Except.bind] at hn
      | ok ns =>
        simp [fromNode, hm, bind, Except.bind, pure, Except.pure] at hn
        subst hn
        have := nChL_forall2 (hch cs ns hb.2 (hpar.imp (fun h => h.2) id) hm) k
        rw [even_seq, nCh]
        exact DRel.all this
    | .comb .alternative cs i p nm h pr, hn, hb, hpar =>
      cases hm : cs.mapM (fromNode ops fuel) with
      | error e => simp [fromNode, hm, bind, Except.bind] at hn
      | ok ns =>
        simp [fromNode, hm, bind, Except.bind, pure, Except.pure] at hn
        subst hn
        have h1 := hch cs ns hb.2 (hpar.imp (fun h => h.2) id) hm
        have := nChL_forall2 h1 k
        rw [even_alt, nCh, ← h1.length_eq]
        refine DRel.flat ?_
        rw [List.forall₂_map_left_iff, List.forall₂_map_right_iff]
        exact this.imp fun _ _ h => h.scale _
    | .comb .parallel cs i p nm h pr, hn, hb, hpar =>
      rcases hpar with hpar | hcl
      · exact absurd rfl hpar.1
      have hbl := (builtL_iff cs).1 hb.2
      obtain ⟨seqs, hlen, hok, hseqs⟩ := toAlternative_spec ops cs nm h hbl (fun i a _ => hcopy i a)
      cases hm : seqs.mapM (fromNode ops fuel) with
      | error e => simp [fromNode, hok, hm, Htm.children, bind, Except.bind] at hn
      | ok ns =>
        simp [fromNode, hok, hm, Htm.children, bind, Except.bind, pure, Except.pure] at hn
        subst hn
        have hns := mapM_forall2_of hm
        -- the orders, as lists of chances
        have hperm : ((cs.map evenChances).permutations).Perm ((orders cs.length).map fun o => o.map fun k => ((cs.map evenChances)[k]?).getD []) := by
          have h1 : (orders cs.length).Perm (List.range cs.length).permutations := by
            rw [List.perm_ext_iff_of_nodup (nodup_orders _) (List.nodup_permutations_iff.2 List.nodup_range)]
            intro o
            rw [mem_orders, List.mem_permutations]
          have h2 := h1.map fun o => o.map fun k => ((cs.map evenChances)[k]?).getD []
          rw [List.map_permutations] at h2
          have h3 : ((List.range cs.length).map fun k => ((cs.map evenChances)[k]?).getD []) = cs.map evenChances := by
            apply List.ext_getElem
            · simp
            · intro j h4 h5
              simp at h4
              simp [h4]
          rw [h3] at h2
          exact h2.symm
        rw [even_par, nCh, ← hns.length_eq, hlen]
        refine DRel.perm_left ((hperm.map _).flatten) ?_
        rw [List.map_map]
        refine DRel.flat ?_
        rw [List.forall₂_map_right_iff]
        -- one order
        have hone : List.Forall₂ (fun o s => ∀ n', fromNode ops fuel s = .ok n' → ∀ k, DRel (fun a (x : A × Nat) => R a x.1)
            (allD (o.map fun k => ((cs.map evenChances)[k]?).getD [])) (nCh n' k)) (orders cs.length) seqs := by
          have h0 : (orders cs.length) = (orders cs.length).zipIdx.map Prod.fst := by simp
          rw [h0, List.forall₂_map_left_iff]
          refine List.Forall₂.imp ?_ hseqs
          rintro ⟨o, j⟩ s ⟨picked, copies, h2, h3, h4, rfl⟩ n' hn' k'
          rw [copyOfL_iff] at h3
          have ho : o.map (fun k => ((cs.map evenChances)[k]?).getD []) = picked.map evenChances := by
            have h5 := congrArg (List.map fun (x : Option (Htm A)) => (x.map evenChances).getD []) h2
            simp only [List.map_map] at h5
            rw [show (fun k => ((cs.map evenChances)[k]?).getD []) = (fun (x : Option (Htm A)) => (x.map evenChances).getD []) ∘ (fun k => cs[k]?) by
              funext k; simp [List.getElem?_map], ← h5]
            rfl
          rw [ho]
          have hcop : List.Forall₂ (DRel (IsCopy ops (orderFmt j))) (picked.map evenChances) (copies.map evenChances) := by
            clear h2 ho hn' h4
            induction h3 with
            | nil => exact .nil
            | cons h5 _ ihl => exact .cons (CopyOf.evenChances ops _ _ _ h5) ihl
          have h6 := ih _ _ hn' ⟨by simp, (builtL_iff _).2 h4⟩ (Or.inr hcl) k'
          rw [even_seq] at h6
          exact DRel.comp (fun a b c h7 h8 => hcl a b c.1 j h7 h8) (DRel.all hcop) h6
        -- all of them
        have hall : ∀ (P : List Nat → Chances A) (os : List (List Nat)) (ss : List (Htm A)) (ns : List (N2P A)),
            List.Forall₂ (fun o s => ∀ n', fromNode ops fuel s = .ok n' → ∀ k, DRel (fun a (x : A × Nat) => R a x.1) (P o) (nCh n' k)) os ss →
            List.Forall₂ (fun x y => fromNode ops fuel x = .ok y) ss ns → ∀ (p : ℚ) k,
            List.Forall₂ (fun o d => DRel (fun a (x : A × Nat) => R a x.1) (scaleD p (P o)) (scaleD p d)) os (nChL ns k) := by
          intro P os ss ns h1
          induction h1 generalizing ns with
          | nil => intro h2 p k; cases h2; exact .nil
          | cons h1 _ ihl =>
            intro h2 p k
            cases h2 with
            | cons h2 h3 => exact .cons ((h1 _ h2 k).scale _) (ihl _ h3 p _)
        rw [List.forall₂_map_left_iff]
        exact hall _ _ _ _ hone hns _ k

/-! ### The orders of the tree are its linearisations -/

theorem nCh_words (n : N2P A) : ∀ k x, x ∈ nCh n k → Lin n k (x.1.map Prod.snd) ∧
    ∀ l : List A, (∀ i < n.leaves.length, l[k + i]? = n.leaves[i]?) → ∀ y ∈ x.1, l[y.2]? = some y.1 := by
  induction n using N2P.induct with
  | hleaf a =>
    intro k x hx
    simp only [nCh, List.mem_singleton] at hx
    subst hx
    refine ⟨rfl, fun l hl y hy => ?_⟩
    simp only [List.mem_singleton] at hy
    subst hy
    have := hl 0 (by simp [leaves])
    simpa [leaves] using this
  | hseq cs ih =>
    intro k x hx
    simp only [nCh, Lin, leaves] at *
    induction cs generalizing k x with
    | nil =>
      simp only [nChL, allD, List.mem_singleton] at hx
      subst hx
      exact ⟨rfl, fun l _ y hy => by simp at hy⟩
    | cons c cs ihl =>
      simp only [nChL, allD, thenD, List.mem_flatMap, List.mem_map] at hx
      obtain ⟨x1, h1, x2, h2, rfl⟩ := hx
      obtain ⟨a1, b1⟩ := ih c (by simp) k x1 h1
      obtain ⟨a2, b2⟩ := ihl (fun c hc => ih c (by simp [hc])) _ x2 h2
      refine ⟨⟨_, _, List.map_append, a1, a2⟩, fun l hl y hy => ?_⟩
      simp only [leavesL, List.length_append] at hl
      rcases List.mem_append.1 hy with hy | hy
      · exact b1 l (fun i hi => by rw [hl i (by omega), List.getElem?_append_left hi]) y hy
      · refine b2 l (fun i hi => ?_) y hy
        have := hl (c.leaves.length + i) (by omega)
        rw [List.getElem?_append_right (by omega), Nat.add_sub_cancel_left] at this
        rw [← this, Nat.add_assoc]
  | halt cs ih =>
    intro k x hx
    simp only [nCh, Lin, leaves] at *
    simp only [List.mem_flatten, List.mem_map] at hx
    obtain ⟨_, ⟨d, hd, rfl⟩, hx⟩ := hx
    simp only [scaleD, List.mem_map] at hx
    obtain ⟨x', hx', rfl⟩ := hx
    dsimp only
    induction cs generalizing k with
    | nil => simp [nChL] at hd
    | cons c cs ihl =>
      simp only [nChL, List.mem_cons] at hd
      simp only [leavesL, List.length_append]
      rcases hd with rfl | hd
      · obtain ⟨a1, b1⟩ := ih c (by simp) k x' hx'
        exact ⟨Or.inl a1, fun l hl => b1 l (fun i hi => by rw [hl i (by omega), List.getElem?_append_left hi])⟩
      · obtain ⟨a1, b1⟩ := ihl (fun c hc => ih c (by simp [hc])) _ hd
        refine ⟨Or.inr a1, fun l hl => b1 l (fun i hi => ?_)⟩
        have := hl (c.leaves.length + i) (by omega)
        rw [List.getElem?_append_right (by omega), Nat.add_sub_cancel_left] at this
        rw [← this, Nat.add_assoc]

theorem nCh_all (n : N2P A) : ∀ k ks, Lin n k ks → ∃ x ∈ nCh n k, x.1.map Prod.snd = ks := by
  induction n using N2P.induct with
  | hleaf a => rintro k ks rfl; exact ⟨([(a, k)], 1), by simp [nCh], rfl⟩
  | hseq cs ih =>
    intro k ks h
    simp only [nCh, Lin] at *
    induction cs generalizing k ks with
    | nil => cases h; exact ⟨([], 1), by simp [nChL, allD], rfl⟩
    | cons c cs ihl =>
      obtain ⟨v, w, rfl, h1, h2⟩ := h
      obtain ⟨x1, h3, rfl⟩ := ih c (by simp) _ _ h1
      obtain ⟨x2, h4, rfl⟩ := ihl (fun c hc => ih c (by simp [hc])) _ _ h2
      exact ⟨(x1.1 ++ x2.1, x1.2 * x2.2), by simp only [nChL, allD, thenD, List.mem_flatMap, List.mem_map]; exact ⟨x1, h3, x2, h4, rfl⟩, by simp⟩
  | halt cs ih =>
    intro k ks h
    simp only [nCh, Lin] at *
    obtain ⟨d, hd, x, hx, rfl⟩ : ∃ d ∈ nChL cs k, ∃ x ∈ d, x.1.map Prod.snd = ks := by
      induction cs generalizing k ks with
      | nil => cases h
      | cons c cs ihl =>
        rcases h with h | h
        · obtain ⟨x, h1, h2⟩ := ih c (by simp) _ _ h
          exact ⟨_, by simp [nChL], x, h1, h2⟩
        · obtain ⟨d, h1, h2⟩ := ihl (fun c hc => ih c (by simp [hc])) _ _ h
          exact ⟨d, by simp [nChL, h1], h2⟩
    refine ⟨(x.1, 1 / (cs.length : ℚ) * x.2), ?_, rfl⟩
    simp only [List.mem_flatten, List.mem_map]
    exact ⟨_, ⟨d, hd, rfl⟩, by simp only [scaleD, List.mem_map]; exact ⟨x, hx, rfl⟩⟩

theorem lin_ne_nil (n : N2P A) (hf : Full n) : ∀ k ks, Lin n k ks → ks ≠ [] := by
  induction n using N2P.induct with
  | hleaf a => rintro k ks rfl; simp
  | hseq cs ih =>
    intro k ks h
    match cs, hf, h with
    | c :: cs, hf, h =>
      obtain ⟨v, w, rfl, h1, _⟩ := h
      have := ih c (by simp) hf.2.1 k v h1
      simp [this]
    | [], hf, _ => exact absurd rfl hf.1
  | halt cs ih =>
    intro k ks h
    have hf2 := (fullL_iff cs).1 hf.2
    simp only [Lin] at h
    clear hf
    induction cs generalizing k with
    | nil => cases h
    | cons c cs ihl =>
      rcases h with h | h
      · exact ih c (by simp) (hf2 c (by simp)) k ks h
      · exact ihl (fun c hc => ih c (by simp [hc])) _ h (fun c hc => hf2 c (by simp [hc]))

/-- The positions of an outcome. -/
def posOf (x : List (A × Nat) × ℚ) : List Nat := x.1.map Prod.snd

theorem split_unique {a b c d : List Nat} (m : Nat) (h1 : ∀ x ∈ a, x < m) (h2 : ∀ x ∈ b, m ≤ x) (h3 : ∀ x ∈ c, x < m) (h4 : ∀ x ∈ d, m ≤ x)
    (h : a ++ b = c ++ d) : a = c ∧ b = d := by
  have f1 : ∀ l : List Nat, (∀ x ∈ l, x < m) → l.filter (· < m) = l := fun l hl => List.filter_eq_self.2 fun x hx => by simpa using hl x hx
  have f2 : ∀ l : List Nat, (∀ x ∈ l, m ≤ x) → l.filter (· < m) = [] := fun l hl => List.filter_eq_nil_iff.2 fun x hx => by simpa using hl x hx
  have := congrArg (List.filter (· < m)) h
  rw [List.filter_append, List.filter_append, f1 a h1, f2 b h2, f1 c h3, f2 d h4, List.append_nil, List.append_nil] at this
  subst this
  exact ⟨rfl, List.append_cancel_left h⟩

theorem nCh_range (n : N2P A) {k : Nat} {x : List (A × Nat) × ℚ} (hx : x ∈ nCh n k) : ∀ j ∈ posOf x, k ≤ j ∧ j < k + n.leaves.length :=
  (lin_range n k _ (nCh_words n k x hx).1).1

theorem nChSeq_range (cs : List (N2P A)) {k : Nat} {x : List (A × Nat) × ℚ} (hx : x ∈ allD (nChL cs k)) : ∀ j ∈ posOf x, k ≤ j ∧ j < k + (leavesL cs).length :=
  nCh_range (.seq cs) hx

theorem nChAlt_range (cs : List (N2P A)) {k : Nat} {x : List (A × Nat) × ℚ} (hx : x ∈ (nChL cs k).flatten) : ∀ j ∈ posOf x, k ≤ j ∧ j < k + (leavesL cs).length := by
  obtain ⟨d, hd, hx⟩ := List.mem_flatten.1 hx
  have : (x.1, 1 / (cs.length : ℚ) * x.2) ∈ nCh (.alt cs) k := by
    simp only [nCh, List.mem_flatten, List.mem_map]
    exact ⟨_, ⟨d, hd, rfl⟩, by simp only [scaleD, List.mem_map]; exact ⟨x, hx, rfl⟩⟩
  have h2 := nCh_range (.alt cs) this
  exact h2

theorem map_nodup_iff {α β : Type} {f : α → β} {l : List α} : (l.map f).Nodup ↔ l.Pairwise fun a b => f a ≠ f b := List.pairwise_map

theorem nCh_nodup (n : N2P A) (hf : Full n) : ∀ k, ((nCh n k).map posOf).Nodup := by
  induction n using N2P.induct with
  | hleaf a => intro k; simp [nCh]
  | hseq cs ih =>
    intro k
    have hf2 := (fullL_iff cs).1 hf.2
    simp only [nCh]
    clear hf
    induction cs generalizing k with
    | nil => simp [nChL, allD]
    | cons c cs ihl =>
      have h1 := ih c (by simp) (hf2 c (by simp)) k
      have h2 := ihl (fun c hc => ih c (by simp [hc])) (k + c.leaves.length) (fun c hc => hf2 c (by simp [hc]))
      simp only [nChL, allD, thenD]
      rw [map_nodup_iff, List.pairwise_flatMap]
      have hsplit : ∀ x1 ∈ nCh c k, ∀ x2 ∈ allD (nChL cs (k + c.leaves.length)), ∀ y1 ∈ nCh c k, ∀ y2 ∈ allD (nChL cs (k + c.leaves.length)),
          posOf (x1.1 ++ x2.1, x1.2 * x2.2) = posOf (y1.1 ++ y2.1, y1.2 * y2.2) → posOf x1 = posOf y1 ∧ posOf x2 = posOf y2 := by
        intro x1 hx1 x2 hx2 y1 hy1 y2 hy2 h
        simp only [posOf, List.map_append] at h
        refine split_unique (k + c.leaves.length) ?_ ?_ ?_ ?_ h
        · exact fun j hj => (nCh_range c hx1 j hj).2
        · exact fun j hj => (nChSeq_range cs hx2 j hj).1
        · exact fun j hj => (nCh_range c hy1 j hj).2
        · exact fun j hj => (nChSeq_range cs hy2 j hj).1
      constructor
      · intro x1 hx1
        rw [List.pairwise_map]
        refine (map_nodup_iff.1 h2).imp_of_mem ?_
        intro x2 y2 hx2 hy2 hne h
        exact hne (hsplit x1 hx1 x2 hx2 x1 hx1 y2 hy2 h).2
      · refine (map_nodup_iff.1 h1).imp_of_mem ?_
        intro x1 y1 hx1 hy1 hne a ha b hb h
        obtain ⟨x2, hx2, rfl⟩ := List.mem_map.1 ha
        obtain ⟨y2, hy2, rfl⟩ := List.mem_map.1 hb
        exact hne (hsplit x1 hx1 x2 hx2 y1 hy1 y2 hy2 h).1
  | halt cs ih =>
    intro k
    have hf2 := (fullL_iff cs).1 hf.2
    simp only [nCh]
    have e : ∀ (p : ℚ) (ds : List (Chances (A × Nat))), ((ds.map (scaleD p)).flatten).map posOf = ds.flatten.map posOf := by
      intro p ds
      induction ds with
      | nil => rfl
      | cons d ds ihd =>
        simp only [List.map_cons, List.flatten_cons, List.map_append, ihd]
        congr 1
        simp [scaleD, posOf, Function.comp_def]
    rw [e]
    clear hf
    induction cs generalizing k with
    | nil => simp [nChL]
    | cons c cs ihl =>
      have h1 := ih c (by simp) (hf2 c (by simp)) k
      have h2 := ihl (fun c hc => ih c (by simp [hc])) (k + c.leaves.length) (fun c hc => hf2 c (by simp [hc]))
      simp only [nChL, List.flatten_cons, List.map_append]
      rw [List.nodup_append']
      refine ⟨h1, h2, ?_⟩
      intro u hu hv
      obtain ⟨x, hx, rfl⟩ := List.mem_map.1 hu
      obtain ⟨y, hy, he⟩ := List.mem_map.1 hv
      have hne : posOf x ≠ [] := lin_ne_nil c (hf2 c (by simp)) k _ (nCh_words c k x hx).1
      obtain ⟨j, hj⟩ := List.exists_mem_of_ne_nil _ hne
      have a1 := nCh_range c hx j hj
      rw [← he] at hj
      have a2 := nChAlt_range cs hy j hj
      omega

/-! ### The probabilities -/

/-- The probability of the leaves, then of the state `z`. -/
def chainP (w : Nat) (q : Nat → Nat → ℚ) : List Nat → Nat → ℚ
  | [], _ => 0
  | [k], z => q k z
  | k :: j :: ks, z => q k (w * j) * chainP w q (j :: ks) z

theorem followProb_eq (w fin : Nat) (q : Nat → Nat → ℚ) (ks : List Nat) : followProb w fin q ks = chainP w q ks fin := by
  induction ks with
  | nil => rfl
  | cons k ks ih =>
    cases ks with
    | nil => rfl
    | cons j ks => simp only [followProb, chainP, ih]

theorem chainP_append (w : Nat) (q : Nat → Nat → ℚ) (k : Nat) (u : List Nat) (j : Nat) (v : List Nat) (z : Nat) :
    chainP w q (k :: u ++ j :: v) z = chainP w q (k :: u) (w * j) * chainP w q (j :: v) z := by
  induction u generalizing k with
  | nil => rfl
  | cons i u ih =>
    have := ih i
    simp only [List.cons_append] at this ⊢
    simp only [chainP, this, mul_assoc]

/-- The distribution that gives the values `vs` to the states `is`. -/
def scatter0 (is : List Nat) (vs : List ℚ) : Nat → ℚ := scatter (fun _ => 0) is vs

theorem scatter_congr (is : List Nat) : ∀ (vs : List ℚ) (f g : Nat → ℚ) (z : Nat), f z = g z → scatter f is vs z = scatter g is vs z := by
  induction is with
  | nil => intro vs f g z h; cases vs <;> exact h
  | cons i is ih =>
    intro vs f g z h
    cases vs with
    | nil => exact h
    | cons v vs => exact ih vs _ _ z (by simp only [h])

theorem scatter_append (is is' : List Nat) : ∀ (vs vs' : List ℚ) (f : Nat → ℚ), is.length = vs.length →
    scatter f (is ++ is') (vs ++ vs') = scatter (scatter f is vs) is' vs' := by
  induction is with
  | nil => intro vs vs' f h; cases vs with
    | nil => rfl
    | cons v vs => simp at h
  | cons i is ih =>
    intro vs vs' f h
    cases vs with
    | nil => simp at h
    | cons v vs => exact ih vs vs' _ (by simpa using h)

theorem scatter0_left (is is' : List Nat) (vs vs' : List ℚ) (h : is.length = vs.length) (z : Nat) (hz : z ∉ is') :
    scatter0 (is ++ is') (vs ++ vs') z = scatter0 is vs z := by
  rw [scatter0, scatter_append _ _ _ _ _ h, scatter_not_mem _ _ _ _ hz]
  rfl

theorem scatter0_right (is is' : List Nat) (vs vs' : List ℚ) (h : is.length = vs.length) (z : Nat) (hz : z ∉ is) :
    scatter0 (is ++ is') (vs ++ vs') z = scatter0 is' vs' z := by
  rw [scatter0, scatter_append _ _ _ _ _ h]
  exact scatter_congr _ _ _ _ _ (scatter_not_mem _ _ _ _ hz)

theorem scatter0_scale (w : Nat) (hw : 0 < w) (c : N2P A) (s : Nat) (p : ℚ) (z : Nat) :
    scatter0 (c.init w s) (c.start.map (· * p)) z = p * scatter0 (c.init w s) c.start z := by
  by_cases hz : z ∈ c.init w s
  · rw [scatter0, scatter_map _ _ _ _ _ (init_nodup w hw c s) (start_length w c s).symm hz, mul_comm]
    rfl
  · rw [scatter0, scatter0, scatter_not_mem _ _ _ _ hz, scatter_not_mem _ _ _ _ hz, mul_zero]

theorem initAlt_range (w : Nat) (cs : List (N2P A)) (s x : Nat) (hx : x ∈ initAlt w cs s) : ∃ k < (leavesL cs).length, x = s + w * k :=
  init_range w (.alt cs) s x hx

theorem nCh_prob {w wa : Nat} (hw : 0 < w) (q : Nat → Nat → ℚ) (n : N2P A) (hf : Full n) : ∀ k a next probas before after,
    (∀ j c, (ctxs w wa n a (w * k) next probas before after)[j]? = some c → q (k + j) = ctxDist c) →
    ∀ x ∈ nCh n k, ∃ j v, posOf x = j :: v ∧
      ∀ z, scatter0 (n.init w (w * k)) n.start (w * j) * chainP w q (j :: v) z = x.2 * scatter0 next probas z := by
  induction n using N2P.induct with
  | hleaf y =>
    intro k a next probas before after hq x hx
    simp only [nCh, List.mem_singleton] at hx
    subst hx
    refine ⟨k, [], rfl, fun z => ?_⟩
    have := hq 0 _ (by simp [ctxs]; rfl)
    rw [Nat.add_zero] at this
    simp only [chainP, this]
    simp [init, start, scatter0, scatter, ctxDist]
  | hseq cs ih =>
    intro k a next probas before after hq x hx
    have hf2 := (fullL_iff cs).1 hf.2
    have hne := hf.1
    clear hf
    simp only [ctxs, nCh, init, start] at *
    generalize ([] : List Nat) = done at hq
    induction cs generalizing k a done x with
    | nil => exact absurd rfl hne
    | cons c cs ihl =>
      simp only [nChL, allD, thenD, List.mem_flatMap, List.mem_map] at hx
      obtain ⟨x1, h1, x2, h2, rfl⟩ := hx
      simp only [ctxsSeq] at hq
      obtain ⟨j1, v1, e1, p1⟩ := ih c (by simp) (hf2 c (by simp)) k a _ _ _ _ (fun j cx hj => hq j cx (by
        have := (List.getElem?_eq_some_iff.1 hj).1
        rw [List.getElem?_append_left this]; exact hj)) x1 h1
      simp only [initSeq, startSeq]
      cases cs with
      | nil =>
        simp only [nChL, allD, List.mem_singleton] at h2
        subst h2
        refine ⟨j1, v1, by simpa [posOf] using e1, fun z => ?_⟩
        simpa [nextInit, nextProbas] using p1 z
      | cons d ds =>
        have hs : w * k + c.size w = w * (k + c.leaves.length) := by rw [size, Nat.mul_add]
        obtain ⟨j2, v2, e2, p2⟩ := ihl (fun c hc => ih c (by simp [hc])) (k + c.leaves.length) (a + c.size wa) x2 h2 (fun c hc => hf2 c (by simp [hc])) (by simp) (done ++ statesOf w (w * k) [c])
          (fun j cx hj => by
            rw [Nat.add_assoc]
            refine hq (c.leaves.length + j) cx ?_
            rw [List.getElem?_append_right (by rw [ctxs_length]; omega), ctxs_length, Nat.add_sub_cancel_left, hs]
            exact hj)
        refine ⟨j1, v1 ++ j2 :: v2, ?_, fun z => ?_⟩
        · simp only [posOf, List.map_append] at e1 e2 ⊢
          rw [e1, e2]; rfl
        · have := chainP_append w q j1 v1 j2 v2 z
          rw [List.cons_append] at this
          rw [this]
          have e3 := p1 (w * j2)
          simp only [nextInit, nextProbas, hs] at e3
          have e4 := p2 z
          simp only [initSeq, startSeq] at e4
          rw [← mul_assoc, e3, mul_assoc, e4, mul_assoc]
  | halt cs ih =>
    intro k a next probas before after hq x hx
    have hf2 := (fullL_iff cs).1 hf.2
    clear hf
    simp only [ctxs, nCh, init, start] at *
    simp only [List.mem_flatten, List.mem_map] at hx
    obtain ⟨_, ⟨d, hd, rfl⟩, hx⟩ := hx
    simp only [scaleD, List.mem_map] at hx
    obtain ⟨x', hx', rfl⟩ := hx
    generalize (1 : ℚ) / (cs.length : ℚ) = p
    show ∃ j v, posOf x' = j :: v ∧ _
    induction cs generalizing k a with
    | nil => simp [nChL] at hd
    | cons c cs ihl =>
      simp only [ctxsAlt] at hq
      simp only [initAlt, startAlt]
      have hs : w * k + c.size w = w * (k + c.leaves.length) := by rw [size, Nat.mul_add]
      have hlen : (c.init w (w * k)).length = (c.start.map (· * p)).length := by rw [List.length_map, start_length w c (w * k)]
      simp only [nChL, List.mem_cons] at hd
      rcases hd with rfl | hd
      · obtain ⟨j1, v1, e1, p1⟩ := ih c (by simp) (hf2 c (by simp)) k a _ _ _ _ (fun j cx hj => hq j cx (by
          have := (List.getElem?_eq_some_iff.1 hj).1
          rw [List.getElem?_append_left this]; exact hj)) x' hx'
        refine ⟨j1, v1, e1, fun z => ?_⟩
        have hr := nCh_range c hx' j1 (by rw [e1]; simp)
        rw [scatter0_left _ _ _ _ hlen, scatter0_scale w hw, mul_assoc, p1 z, mul_assoc]
        intro hm
        obtain ⟨i, _, hi⟩ := initAlt_range w cs _ _ hm
        rw [hs, ← Nat.mul_add] at hi
        have := Nat.eq_of_mul_eq_mul_left hw hi
        omega
      · obtain ⟨j2, v2, e2, p2⟩ := ihl (fun c hc => ih c (by simp [hc])) (k + c.leaves.length) (a + c.size wa)
          (fun j cx hj => by
            rw [Nat.add_assoc]
            refine hq (c.leaves.length + j) cx ?_
            rw [List.getElem?_append_right (by rw [ctxs_length]; omega), ctxs_length, Nat.add_sub_cancel_left, hs]
            exact hj) (fun c hc => hf2 c (by simp [hc])) hd
        refine ⟨j2, v2, e2, fun z => ?_⟩
        have hr := nChAlt_range cs (List.mem_flatten.2 ⟨d, hd, hx'⟩) j2 (by rw [e2]; simp)
        rw [scatter0_right _ _ _ _ hlen, hs, p2 z]
        intro hm
        obtain ⟨i, hi', hi⟩ := init_range w c _ _ hm
        rw [← Nat.mul_add] at hi
        have := Nat.eq_of_mul_eq_mul_left hw hi
        omega

/-! ### The root -/

/-- The distribution of the states after the leaf `k`. -/
def rootDist (w wa a : Nat) (n : N2P A) (fin k : Nat) : Nat → ℚ :=
  match (rootCtxs w wa a n fin)[k]? with
  | some c => ctxDist c
  | none => fun _ => 0

theorem rootDist_eq {w wa a fin k : Nat} {n : N2P A} {c : Ctx A} (h : (rootCtxs w wa a n fin)[k]? = some c) : rootDist w wa a n fin k = ctxDist c := by
  unfold rootDist
  rw [h]

theorem scatter0_ne_zero {is : List Nat} {vs : List ℚ} {z : Nat} (h : scatter0 is vs z ≠ 0) : z ∈ is := by
  by_contra hz
  exact h (scatter_not_mem _ _ _ _ hz)

theorem rootDist_ne_zero {w wa a fin k z : Nat} {n : N2P A} (h : rootDist w wa a n fin k z ≠ 0) : k < n.leaves.length ∧ Succ w wa a n fin (w * k) z := by
  unfold rootDist at h
  cases hc : (rootCtxs w wa a n fin)[k]? with
  | none => rw [hc] at h; exact absurd rfl h
  | some c =>
    rw [hc] at h
    exact ⟨root_lt hc, c, List.mem_of_getElem? hc, (root_get hc).2.2, scatter0_ne_zero h⟩

theorem orderProb_lin {w wa a fin : Nat} (hw : 0 < w) (n : N2P A) (hf : Full n) (hfin : n.size w ≤ fin) (ks : List Nat)
    (h : orderProb w fin (scatter0 (n.init w 0) n.start) (rootDist w wa a n fin) ks ≠ 0) : Lin n 0 ks := by
  rw [← acc_root (wa := wa) (a := a) hw hf hfin]
  cases ks with
  | nil => exact absurd rfl h
  | cons k ks =>
    simp only [orderProb] at h
    refine ⟨w * k, scatter0_ne_zero (left_ne_zero_of_mul h), ?_⟩
    have h2 := right_ne_zero_of_mul h
    clear h
    have hne : ∀ k, k < n.leaves.length → w * k ≠ fin := by
      intro k hk
      have : w * k < w * n.leaves.length := Nat.mul_lt_mul_of_pos_left hk hw
      unfold N2P.size at hfin
      omega
    induction ks generalizing k with
    | nil =>
      obtain ⟨h3, h4⟩ := rootDist_ne_zero h2
      exact Acc.step (hne k h3) h4 .fin
    | cons j ks ih =>
      simp only [followProb] at h2
      obtain ⟨h3, h4⟩ := rootDist_ne_zero (left_ne_zero_of_mul h2)
      exact Acc.step (hne k h3) h4 (ih j (right_ne_zero_of_mul h2))

theorem orderProb_nCh {w wa a fin : Nat} (hw : 0 < w) (n : N2P A) (hf : Full n) {x : List (A × Nat) × ℚ} (hx : x ∈ nCh n 0) :
    orderProb w fin (scatter0 (n.init w 0) n.start) (rootDist w wa a n fin) (posOf x) = x.2 := by
  obtain ⟨j, v, h1, h2⟩ := nCh_prob (wa := wa) hw (rootDist w wa a n fin) n hf 0 a [fin] [1] [] [fin] (fun j c hj => by
    rw [Nat.zero_add]
    exact rootDist_eq hj) x hx
  have := h2 fin
  rw [Nat.mul_zero] at this
  rw [h1, orderProb, followProb_eq, this]
  simp [scatter0, scatter]

/-- The orders of the leaves have the probabilities of the task. -/
theorem sameChances {w wa a fin : Nat} (hw : 0 < w) (n : N2P A) (hf : Full n) (hfin : n.size w ≤ fin) (R : A → A → Prop) (d : Chances A)
    (h : DRel (fun a (x : A × Nat) => R a x.1) d (nCh n 0)) :
    SameChances (fun ks u => ∃ u', Labels n ks u' ∧ List.Forall₂ R u u')
      (orderProb w fin (scatter0 (n.init w 0) n.start) (rootDist w wa a n fin)) d := by
  obtain ⟨d', h1, h2⟩ := h
  obtain ⟨z, rfl, hz, hR⟩ := forall2_pairs h2
  refine ⟨z.map fun x => (x.1.1, posOf x.2, x.1.2), ?_, ?_, ?_, ?_⟩
  · rw [List.map_map]
    exact h1.symm
  · rw [List.map_map]
    have := nCh_nodup n hf 0
    rw [hz, List.map_map] at this
    exact this
  · intro y hy
    obtain ⟨x, hx, rfl⟩ := List.mem_map.1 hy
    have hx2 : x.2 ∈ nCh n 0 := by rw [hz]; exact List.mem_map_of_mem hx
    obtain ⟨e, hF⟩ := hR x hx
    refine ⟨⟨x.2.1.map Prod.fst, ?_, ?_⟩, ?_⟩
    · have := (nCh_words n 0 x.2 hx2).2 n.leaves (by simp)
      simp only [Labels, posOf]
      rw [List.forall₂_map_left_iff, List.forall₂_map_right_iff, List.forall₂_same]
      exact this
    · rw [List.forall₂_map_right_iff]
      exact hF
    · dsimp only
      rw [orderProb_nCh hw n hf hx2, e]
  · intro ks hks
    obtain ⟨x, hx, rfl⟩ := nCh_all n 0 ks (orderProb_lin hw n hf hfin ks hks)
    rw [hz] at hx
    obtain ⟨y, hy, rfl⟩ := List.mem_map.1 hx
    rw [List.map_map]
    exact List.mem_map.2 ⟨y, hy, rfl⟩

end N2P
end Verif
