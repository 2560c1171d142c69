import Verif.Spec.SupOrders
import Verif.Proof.DagLeaves
import Verif.Proof.Orders

/-! The probabilities of the paths of the graph of a task without parallel combinations (C86). -/

set_option linter.unusedSectionVars false
set_option linter.unusedSimpArgs false

namespace Verif.SupOrd
open Verif Spec
variable {A : Type}

/-! ### The graph as a function of the task -/

/-- Number of leaves. -/
def size (t : Htm A) : Nat := (leaves t).length

mutual
/-- First leaves of a task whose leaves are numbered from `lo`. -/
def firstAt (uniq : List Nat → List Nat) : Htm A → Nat → List Nat
  | .leaf _ _ _ _, lo => [lo]
  | .comb .sequential cs _ _ _ _ _, lo => (firstAtL uniq cs lo).headD []
  | .comb _ cs _ _ _ _ _, lo => uniq (firstAtL uniq cs lo).flatten
@[inherit_doc firstAt]
def firstAtL (uniq : List Nat → List Nat) : List (Htm A) → Nat → List (List Nat)
  | [], _ => []
  | c :: cs, lo => firstAt uniq c lo :: firstAtL uniq cs (lo + size c)
end

mutual
/-- Last leaves. -/
def lastAt (uniq : List Nat → List Nat) : Htm A → Nat → List Nat
  | .leaf _ _ _ _, lo => [lo]
  | .comb .sequential cs _ _ _ _ _, lo => (lastAtL uniq cs lo).getLastD []
  | .comb _ cs _ _ _ _ _, lo => uniq (lastAtL uniq cs lo).flatten
@[inherit_doc lastAt]
def lastAtL (uniq : List Nat → List Nat) : List (Htm A) → Nat → List (List Nat)
  | [], _ => []
  | c :: cs, lo => lastAt uniq c lo :: lastAtL uniq cs (lo + size c)
end

mutual
/-- Successors of the leaves, when `next` are the successors of the last ones. -/
def succsOf (uniq : List Nat → List Nat) : Htm A → Nat → List Nat → List (List Nat)
  | .leaf _ _ _ _, _, next => [next]
  | .comb .sequential cs _ _ _ _ _, lo, next => succsSeq uniq cs lo next
  | .comb _ cs _ _ _ _ _, lo, next => succsAll uniq cs lo next
@[inherit_doc succsOf]
def succsSeq (uniq : List Nat → List Nat) : List (Htm A) → Nat → List Nat → List (List Nat)
  | [], _, _ => []
  | c :: cs, lo, next => succsOf uniq c lo ((firstAtL uniq cs (lo + size c)).headD next) ++ succsSeq uniq cs (lo + size c) next
@[inherit_doc succsOf]
def succsAll (uniq : List Nat → List Nat) : List (Htm A) → Nat → List Nat → List (List Nat)
  | [], _, _ => []
  | c :: cs, lo, next => succsOf uniq c lo next ++ succsAll uniq cs (lo + size c) next
end

theorem size_comb (k : Kind) (cs : List (Htm A)) (i p n h pr) : size (.comb k cs i p n h pr) = (cs.map size).sum := by
  simp only [size, leaves, leavesL_eq, List.length_flatMap]
  rfl

variable {uniq : List Nat → List Nat}

theorem succsSeq_length (cs : List (Htm A)) (ih : ∀ c ∈ cs, ∀ lo next, (succsOf uniq c lo next).length = size c) :
    ∀ lo next, (succsSeq uniq cs lo next).length = (cs.map size).sum := by
  induction cs with
  | nil => intro lo next; rfl
  | cons c cs ihc =>
    intro lo next
    simp only [succsSeq, List.length_append, List.map_cons, List.sum_cons]
    rw [ih c (by simp), ihc fun c hc => ih c (by simp [hc])]

theorem succsAll_length (cs : List (Htm A)) (ih : ∀ c ∈ cs, ∀ lo next, (succsOf uniq c lo next).length = size c) :
    ∀ lo next, (succsAll uniq cs lo next).length = (cs.map size).sum := by
  induction cs with
  | nil => intro lo next; rfl
  | cons c cs ihc =>
    intro lo next
    simp only [succsAll, List.length_append, List.map_cons, List.sum_cons]
    rw [ih c (by simp), ihc fun c hc => ih c (by simp [hc])]

theorem succsOf_length (t : Htm A) : ∀ lo next, (succsOf uniq t lo next).length = size t := by
  induction t using Htm.induct with
  | hleaf a i p h => intro lo next; rfl
  | hcomb k cs i p n h pr ih =>
    intro lo next
    rw [size_comb]
    cases k with
    | sequential => exact succsSeq_length cs ih lo next
    | alternative => exact succsAll_length cs ih lo next
    | parallel => exact succsAll_length cs ih lo next

/-! ### Ranges -/

theorem firstAtL_range (cs : List (Htm A)) (ih : ∀ c ∈ cs, ∀ lo, ∀ i ∈ firstAt uniq c lo, lo ≤ i ∧ i < lo + size c) :
    ∀ lo, ∀ l ∈ firstAtL uniq cs lo, ∀ i ∈ l, lo ≤ i ∧ i < lo + (cs.map size).sum := by
  induction cs with
  | nil => intro lo l hl; simp [firstAtL] at hl
  | cons c cs ihc =>
    intro lo l hl i hi
    simp only [firstAtL, List.mem_cons] at hl
    simp only [List.map_cons, List.sum_cons]
    rcases hl with rfl | hl
    · have := ih c (by simp) lo i hi; omega
    · have := ihc (fun c hc => ih c (by simp [hc])) _ l hl i hi; omega

theorem headD_mem {α : Type} {l : List (List α)} {x : α} (h : x ∈ l.headD []) : ∃ y ∈ l, x ∈ y := by
  cases l with
  | nil => simp at h
  | cons y l => exact ⟨y, by simp, by simpa using h⟩

theorem getLastD_mem {α : Type} {l : List (List α)} {x : α} (h : x ∈ l.getLastD []) : ∃ y ∈ l, x ∈ y := by
  rcases List.eq_nil_or_concat l with rfl | ⟨l', y, rfl⟩
  · simp at h
  · exact ⟨y, by simp, by simpa using h⟩

theorem firstAt_range (hu : ∀ l x, x ∈ uniq l ↔ x ∈ l) (t : Htm A) : ∀ lo, ∀ i ∈ firstAt uniq t lo, lo ≤ i ∧ i < lo + size t := by
  induction t using Htm.induct with
  | hleaf a i p h => intro lo i hi; simp only [firstAt, List.mem_singleton] at hi; subst hi; simp [size, leaves]
  | hcomb k cs i p n h pr ih =>
    intro lo j hj
    rw [size_comb]
    have := firstAtL_range cs ih lo
    cases k with
    | sequential =>
      obtain ⟨l, h1, h2⟩ := headD_mem hj
      exact this l h1 j h2
    | alternative =>
      simp only [firstAt, hu, List.mem_flatten] at hj
      obtain ⟨l, h1, h2⟩ := hj
      exact this l h1 j h2
    | parallel =>
      simp only [firstAt, hu, List.mem_flatten] at hj
      obtain ⟨l, h1, h2⟩ := hj
      exact this l h1 j h2

theorem lastAtL_range (cs : List (Htm A)) (ih : ∀ c ∈ cs, ∀ lo, ∀ i ∈ lastAt uniq c lo, lo ≤ i ∧ i < lo + size c) :
    ∀ lo, ∀ l ∈ lastAtL uniq cs lo, ∀ i ∈ l, lo ≤ i ∧ i < lo + (cs.map size).sum := by
  induction cs with
  | nil => intro lo l hl; simp [lastAtL] at hl
  | cons c cs ihc =>
    intro lo l hl i hi
    simp only [lastAtL, List.mem_cons] at hl
    simp only [List.map_cons, List.sum_cons]
    rcases hl with rfl | hl
    · have := ih c (by simp) lo i hi; omega
    · have := ihc (fun c hc => ih c (by simp [hc])) _ l hl i hi; omega

theorem lastAt_range (hu : ∀ l x, x ∈ uniq l ↔ x ∈ l) (t : Htm A) : ∀ lo, ∀ i ∈ lastAt uniq t lo, lo ≤ i ∧ i < lo + size t := by
  induction t using Htm.induct with
  | hleaf a i p h => intro lo i hi; simp only [lastAt, List.mem_singleton] at hi; subst hi; simp [size, leaves]
  | hcomb k cs i p n h pr ih =>
    intro lo j hj
    rw [size_comb]
    have := lastAtL_range cs ih lo
    cases k with
    | sequential =>
      obtain ⟨l, h1, h2⟩ := getLastD_mem hj
      exact this l h1 j h2
    | alternative =>
      simp only [lastAt, hu, List.mem_flatten] at hj
      obtain ⟨l, h1, h2⟩ := hj
      exact this l h1 j h2
    | parallel =>
      simp only [lastAt, hu, List.mem_flatten] at hj
      obtain ⟨l, h1, h2⟩ := hj
      exact this l h1 j h2

/-! ### The last leaves are those whose successors come from outside -/

theorem setAll_get (ll ff : List Nat) (ss : List (List Nat)) (i : Nat) :
    (ll.foldl (fun ss l => ss.set l ff) ss)[i]? = if i ∈ ll ∧ i < ss.length then some ff else ss[i]? := by
  induction ll generalizing ss with
  | nil => simp
  | cons l ll ih =>
    simp only [List.foldl_cons]
    rw [ih]
    simp only [List.length_set, List.mem_cons, List.getElem?_set]
    by_cases h1 : i < ss.length <;> by_cases h2 : i ∈ ll <;> by_cases h3 : i = l <;> simp [h1, h2, h3] <;>
      (try subst h3) <;> simp_all <;> (try omega)

/-- Setting the successors of the elements of `ll` to `ff` in a part of a list. -/
def SetsTo (ll : List Nat) (lo : Nat) (a b : List (List Nat)) (ff : List Nat) : Prop :=
  a.length = b.length ∧ ∀ i < a.length, b[i]? = if lo + i ∈ ll then some ff else a[i]?

theorem SetsTo.append {l1 l2 ll : List Nat} {lo : Nat} {a b a' b' : List (List Nat)} {ff : List Nat} (h1 : SetsTo l1 lo a b ff)
    (h2 : SetsTo l2 (lo + a.length) a' b' ff) (hl1 : ∀ i, lo ≤ i → i < lo + a.length → (i ∈ ll ↔ i ∈ l1))
    (hl2 : ∀ i, lo + a.length ≤ i → i < lo + a.length + a'.length → (i ∈ ll ↔ i ∈ l2)) : SetsTo ll lo (a ++ a') (b ++ b') ff := by
  refine ⟨by simp [h1.1, h2.1], ?_⟩
  intro i hi
  rw [List.length_append] at hi
  by_cases h : i < a.length
  · rw [List.getElem?_append_left (by rw [← h1.1]; exact h), List.getElem?_append_left h, h1.2 i h]
    simp only [hl1 (lo + i) (by omega) (by omega)]
  · rw [List.getElem?_append_right (by rw [← h1.1]; omega), List.getElem?_append_right (by omega), ← h1.1, h2.2 _ (by omega)]
    have : lo + a.length + (i - a.length) = lo + i := by omega
    rw [this]
    simp only [hl2 (lo + i) (by omega) (by omega)]

theorem SetsTo.same {lo : Nat} {a : List (List Nat)} (ff : List Nat) : SetsTo [] lo a a ff := ⟨rfl, fun i _ => by simp⟩

theorem lastAtL_cons_ne {c : Htm A} {cs : List (Htm A)} {lo : Nat} : lastAtL uniq (c :: cs) lo ≠ [] := by simp [lastAtL]

theorem getLastD_cons_ne {α : Type} (a : α) {l : List α} (d : α) (h : l ≠ []) : (a :: l).getLastD d = l.getLastD d := by
  rcases List.eq_nil_or_concat l with rfl | ⟨l', y, rfl⟩
  · exact absurd rfl h
  · rw [List.concat_eq_append, ← List.cons_append, List.getLastD_concat, List.getLastD_concat]

theorem succsSeq_sets (hu : ∀ l x, x ∈ uniq l ↔ x ∈ l) (cs : List (Htm A))
    (ih : ∀ c ∈ cs, ∀ lo x y, SetsTo (lastAt uniq c lo) lo (succsOf uniq c lo x) (succsOf uniq c lo y) y) :
    ∀ lo x y, SetsTo ((lastAtL uniq cs lo).getLastD []) lo (succsSeq uniq cs lo x) (succsSeq uniq cs lo y) y := by
  induction cs with
  | nil => intro lo x y; exact SetsTo.same y
  | cons c cs ihc =>
    intro lo x y
    cases cs with
    | nil =>
      simp only [succsSeq, firstAtL, List.headD_nil, List.append_nil, lastAtL]
      exact ih c (by simp) lo x y
    | cons c' cs =>
      rw [succsSeq, succsSeq, lastAtL, getLastD_cons_ne _ _ lastAtL_cons_ne]
      have hlen := succsOf_length (uniq := uniq) c lo ((firstAtL uniq (c' :: cs) (lo + size c)).headD x)
      have e : (firstAtL uniq (c' :: cs) (lo + size c)).headD x = (firstAtL uniq (c' :: cs) (lo + size c)).headD y := by simp [firstAtL]
      have hrange : ∀ i ∈ (lastAtL uniq (c' :: cs) (lo + size c)).getLastD [], lo + size c ≤ i := by
        intro i hi
        obtain ⟨l, h1, h2⟩ := getLastD_mem hi
        exact (lastAtL_range (c' :: cs) (fun c _ => lastAt_range hu c) _ l h1 i h2).1
      rw [e] at hlen ⊢
      refine (SetsTo.same y).append (l2 := (lastAtL uniq (c' :: cs) (lo + size c)).getLastD []) ?_ ?_ ?_
      · rw [hlen]
        exact ihc (fun c hc => ih c (by simp [hc])) _ x y
      · intro i h1 h2
        simp only [List.not_mem_nil, iff_false]
        intro hi
        have := hrange i hi
        omega
      · intro i _ _; exact Iff.rfl

theorem succsAll_sets (hu : ∀ l x, x ∈ uniq l ↔ x ∈ l) (cs : List (Htm A))
    (ih : ∀ c ∈ cs, ∀ lo x y, SetsTo (lastAt uniq c lo) lo (succsOf uniq c lo x) (succsOf uniq c lo y) y) :
    ∀ lo x y, SetsTo (lastAtL uniq cs lo).flatten lo (succsAll uniq cs lo x) (succsAll uniq cs lo y) y := by
  induction cs with
  | nil => intro lo x y; exact SetsTo.same y
  | cons c cs ihc =>
    intro lo x y
    rw [succsAll, succsAll, lastAtL, List.flatten_cons]
    have hlen := succsOf_length (uniq := uniq) c lo x
    refine (ih c (by simp) lo x y).append (l2 := (lastAtL uniq cs (lo + size c)).flatten) ?_ ?_ ?_
    · rw [hlen]
      exact ihc (fun c hc => ih c (by simp [hc])) _ x y
    · intro i h1 h2
      rw [List.mem_append]
      refine ⟨?_, Or.inl⟩
      rintro (h | h)
      · exact h
      · obtain ⟨l, h3, h4⟩ := List.mem_flatten.1 h
        have := (lastAtL_range cs (fun c _ => lastAt_range hu c) _ l h3 i h4).1
        omega
    · intro i h1 h2
      rw [List.mem_append]
      refine ⟨?_, Or.inr⟩
      rintro (h | h)
      · have := (lastAt_range hu c lo i h).2
        omega
      · exact h

theorem succsOf_sets (hu : ∀ l x, x ∈ uniq l ↔ x ∈ l) (t : Htm A) :
    ∀ lo x y, SetsTo (lastAt uniq t lo) lo (succsOf uniq t lo x) (succsOf uniq t lo y) y := by
  induction t using Htm.induct with
  | hleaf a i p h =>
    intro lo x y
    refine ⟨rfl, ?_⟩
    intro i hi
    simp only [succsOf, List.length_singleton, Nat.lt_one_iff] at hi
    subst hi
    simp [succsOf, lastAt]
  | hcomb k cs i p n h pr ih =>
    intro lo x y
    have hall : SetsTo (uniq (lastAtL uniq cs lo).flatten) lo (succsAll uniq cs lo x) (succsAll uniq cs lo y) y := by
      obtain ⟨h1, h2⟩ := succsAll_sets hu cs ih lo x y
      refine ⟨h1, fun i hi => ?_⟩
      rw [h2 i hi]
      simp only [hu]
    cases k with
    | sequential => exact succsSeq_sets hu cs ih lo x y
    | alternative => exact hall
    | parallel => exact hall

/-- The loop that sets the successors of the last leaves. -/
theorem setSuccs_succsOf (hu : ∀ l x, x ∈ uniq l ↔ x ∈ l) (t : Htm A) (pre post : List (List Nat)) (x y : List Nat) :
    (lastAt uniq t pre.length).foldl (fun ss l => ss.set l y) (pre ++ (succsOf uniq t pre.length x ++ post)) =
      pre ++ (succsOf uniq t pre.length y ++ post) := by
  obtain ⟨h1, h2⟩ := succsOf_sets hu t pre.length x y
  have hr := lastAt_range hu t pre.length
  have hlx := succsOf_length (uniq := uniq) t pre.length x
  have hly := succsOf_length (uniq := uniq) t pre.length y
  apply List.ext_getElem?
  intro i
  rw [setAll_get]
  by_cases hi : i < pre.length
  · rw [if_neg (fun h => by have := (hr i h.1).1; omega), List.getElem?_append_left hi, List.getElem?_append_left hi]
  · obtain ⟨j, rfl⟩ : ∃ j, i = pre.length + j := ⟨i - pre.length, by omega⟩
    have hp : ∀ l : List (List Nat), (pre ++ l)[pre.length + j]? = l[j]? := fun l => by
      rw [List.getElem?_append_right (by omega), Nat.add_sub_cancel_left]
    rw [hp, hp]
    simp only [List.length_append]
    by_cases hj : j < size t
    · rw [List.getElem?_append_left (by omega), List.getElem?_append_left (by omega), h2 j (by omega)]
      by_cases hm : pre.length + j ∈ lastAt uniq t pre.length
      · rw [if_pos ⟨hm, by omega⟩, if_pos hm]
      · rw [if_neg (fun h => hm h.1), if_neg hm]
    · rw [if_neg (fun h => by have := (hr _ h.1).2; omega), List.getElem?_append_right (by omega), List.getElem?_append_right (by omega), hlx, hly]

/-! ### The conversion computes these functions -/

/-- The part of the graph that a task adds. -/
def Adds (uniq : List Nat → List Nat) (t : Htm A) (d : Dag A) (r : (List Nat × List Nat) × Dag A) : Prop :=
  r.1 = (firstAt uniq t d.nodes.length, lastAt uniq t d.nodes.length) ∧ r.2.nodes.length = d.nodes.length + size t ∧
    r.2.succs = d.succs ++ succsOf uniq t d.nodes.length []

theorem mapAccumM_adds (f : Htm A → Dag A → Py ((List Nat × List Nat) × Dag A)) (cs : List (Htm A))
    (hf : ∀ c ∈ cs, ∀ d : Dag A, d.succs.length = d.nodes.length → ∃ r, f c d = .ok r ∧ Adds uniq c d r) :
    ∀ d : Dag A, d.succs.length = d.nodes.length → ∃ r, mapAccumM f cs d = .ok r ∧
      r.1 = (firstAtL uniq cs d.nodes.length).zip (lastAtL uniq cs d.nodes.length) ∧ r.2.nodes.length = d.nodes.length + (cs.map size).sum ∧
        r.2.succs = d.succs ++ succsAll uniq cs d.nodes.length [] := by
  induction cs with
  | nil => intro d hd; exact ⟨_, rfl, rfl, by simp, by simp [succsAll]⟩
  | cons c cs ih =>
    intro d hd
    obtain ⟨r, h1, h2, h3, h4⟩ := hf c (by simp) d hd
    obtain ⟨rs, g1, g2, g3, g4⟩ := ih (fun c hc => hf c (by simp [hc])) r.2 (by
      rw [h4, List.length_append, succsOf_length, hd, h3])
    refine ⟨(r.1 :: rs.1, rs.2), by simp [mapAccumM, h1, g1, bind, Except.bind, pure, Except.pure], ?_, ?_, ?_⟩
    · simp only [firstAtL, lastAtL, List.zip_cons_cons]
      rw [h2, g2, h3]
    · simp only [List.map_cons, List.sum_cons]
      rw [g3, h3]
      omega
    · simp only [succsAll]
      rw [g4, h4, h3, List.append_assoc]

theorem firstAtL_length (cs : List (Htm A)) : ∀ lo, (firstAtL uniq cs lo).length = cs.length := by
  induction cs with
  | nil => intro lo; rfl
  | cons c cs ih => intro lo; simp [firstAtL, ih]

theorem lastAtL_length (cs : List (Htm A)) : ∀ lo, (lastAtL uniq cs lo).length = cs.length := by
  induction cs with
  | nil => intro lo; rfl
  | cons c cs ih => intro lo; simp [lastAtL, ih]

theorem linkSeq_adds (hu : ∀ l x, x ∈ uniq l ↔ x ∈ l) (cs : List (Htm A)) : ∀ (nodes : List (Htm A)) (pre : List (List Nat)),
    (Dag.linkSeq ((firstAtL uniq cs pre.length).zip (lastAtL uniq cs pre.length)) ⟨nodes, pre ++ succsAll uniq cs pre.length []⟩ : Dag A) =
      ⟨nodes, pre ++ succsSeq uniq cs pre.length []⟩ := by
  induction cs with
  | nil => intro nodes pre; rfl
  | cons c cs ih =>
    intro nodes pre
    cases cs with
    | nil => simp [firstAtL, lastAtL, Dag.linkSeq, succsAll, succsSeq]
    | cons c' cs =>
      have hlen := succsOf_length (uniq := uniq) c pre.length (firstAt uniq c' (pre.length + size c))
      have := ih nodes (pre ++ succsOf uniq c pre.length (firstAt uniq c' (pre.length + size c)))
      rw [List.length_append, hlen, List.append_assoc, List.append_assoc] at this
      rw [firstAtL, lastAtL, succsAll, succsSeq]
      rw [firstAtL, lastAtL] at this ⊢
      simp only [List.zip_cons_cons, Dag.linkSeq, Dag.setSuccs, List.headD_cons] at this ⊢
      rw [setSuccs_succsOf hu]
      exact this

theorem getLast_zip {α β : Type} (a : List α) (b : List β) (h : a.length = b.length) (x : α × β) (l : List (α × β)) (hz : a.zip b = x :: l) (d : β) :
    ((x :: l).getLast (by simp)).2 = b.getLastD d := by
  have hb : b = (x :: l).map Prod.snd := by rw [← hz, List.map_snd_zip (by omega)]
  subst hb
  rw [List.getLastD_eq_getLast?, List.getLast?_map, List.getLast?_eq_getLast_of_ne_nil (by simp)]
  rfl

theorem getInitialFinal_adds (ops : ActOps A) (hu : ∀ l x, x ∈ uniq l ↔ x ∈ l) (fuel : Nat) :
    ∀ (t : Htm A), NonEmpty t → NoParallel t → nesting t ≤ fuel → ∀ d : Dag A, d.succs.length = d.nodes.length →
      ∃ r, getInitialFinal ops uniq fuel t d = .ok r ∧ Adds uniq t d r := by
  induction fuel with
  | zero =>
    intro t _ _ h
    cases t with
    | leaf => simp [nesting] at h
    | comb k => cases k <;> simp [nesting] at h
  | succ fuel ih =>
    intro t hne hnp hn d hd
    cases t with
    | leaf a i p h => exact ⟨_, rfl, rfl, by simp [Dag.push, size, leaves], by simp [Dag.push, succsOf]⟩
    | comb k cs i p n h pr =>
      simp only [NonEmpty, nonEmptyL_iff] at hne
      simp only [NoParallel, noParallelL_iff] at hnp
      have hcs : ∀ c ∈ cs, nesting c ≤ fuel := by
        apply (nestingL_le cs fuel).1
        cases k <;> simp only [nesting] at hn <;> omega
      obtain ⟨r, h1, h2, h3, h4⟩ := mapAccumM_adds (uniq := uniq) (getInitialFinal ops uniq fuel) cs
        (fun c hc d hd => ih c (hne.2 c hc) (hnp.2 c hc) (hcs c hc) d hd) d hd
      have hx : expandParallel ops k cs n h = .ok (k, cs) := by
        cases k with
        | parallel => exact absurd rfl hnp.1
        | sequential => rfl
        | alternative => rfl
      obtain ⟨fl, hfl⟩ : ∃ fl, r.1 = fl := ⟨_, rfl⟩
      have hne' : r.1 ≠ [] := by
        rw [h2]
        intro h0
        have := congrArg List.length h0
        rw [List.length_zip, firstAtL_length, lastAtL_length] at this
        exact hne.1 (List.length_eq_zero_iff.1 (by simpa using this))
      obtain ⟨p0, rest, hp0⟩ := List.exists_cons_of_ne_nil hne'
      simp only [getInitialFinal, hx, h1, bind, Except.bind]
      rw [hp0]
      rw [hp0] at h2
      cases k with
      | parallel => exact absurd rfl hnp.1
      | sequential =>
        refine ⟨_, rfl, ?_, ?_, ?_⟩
        · simp only [firstAt, lastAt, Prod.mk.injEq]
          refine ⟨?_, ?_⟩
          · cases cs with
            | nil => simp [firstAtL] at h2
            | cons c cs =>
              simp only [firstAtL, lastAtL, List.zip_cons_cons, List.cons.injEq] at h2
              simp [firstAtL, h2.1]
          · exact getLast_zip _ _ (by rw [firstAtL_length, lastAtL_length]) _ _ h2.symm []
        · rw [size_comb, linkSeq_nodes, h3]
        · have := linkSeq_adds hu cs r.2.nodes d.succs
          rw [hd, ← h2, ← h4] at this
          exact congrArg Dag.succs this
      | alternative =>
        refine ⟨_, rfl, ?_, ?_, ?_⟩
        · simp only [firstAt, lastAt, Prod.mk.injEq]
          rw [h2]
          constructor
          · rw [List.flatMap_def, List.map_fst_zip (by rw [firstAtL_length, lastAtL_length])]
          · rw [List.flatMap_def, List.map_snd_zip (by rw [firstAtL_length, lastAtL_length])]
        · rw [size_comb]; exact h3
        · exact h4

/-! ### First leaves -/

theorem firstsL_eq (cs : List (Htm A)) : firstsL cs = cs.map firsts := by
  induction cs with
  | nil => rfl
  | cons c cs ih => simp [firstsL, ih]

theorem firstAtL_disjoint (hu : ∀ l x, x ∈ uniq l ↔ x ∈ l) (cs : List (Htm A)) (ih : ∀ c ∈ cs, ∀ lo, (firstAt uniq c lo).Nodup) :
    ∀ lo, (firstAtL uniq cs lo).flatten.Nodup := by
  induction cs with
  | nil => intro lo; simp [firstAtL]
  | cons c cs ihc =>
    intro lo
    simp only [firstAtL, List.flatten_cons]
    rw [List.nodup_append]
    refine ⟨ih c (by simp) lo, ihc (fun c hc => ih c (by simp [hc])) _, ?_⟩
    intro i hi j hj
    obtain ⟨l, h1, h2⟩ := List.mem_flatten.1 hj
    have := (firstAtL_range cs (fun c _ => firstAt_range hu c) _ l h1 j h2).1
    have := (firstAt_range hu c lo i hi).2
    omega

theorem firstAt_nodup (hu : ∀ l x, x ∈ uniq l ↔ x ∈ l) (hn : ∀ l, (uniq l).Nodup) (t : Htm A) : ∀ lo, (firstAt uniq t lo).Nodup := by
  induction t using Htm.induct with
  | hleaf a i p h => intro lo; simp [firstAt]
  | hcomb k cs i p n h pr ih =>
    intro lo
    cases k with
    | sequential =>
      cases cs with
      | nil => simp [firstAt, firstAtL]
      | cons c cs => simpa [firstAt, firstAtL] using ih c (by simp) lo
    | alternative => exact hn _
    | parallel => exact hn _

theorem uniq_perm (hu : ∀ l x, x ∈ uniq l ↔ x ∈ l) (hn : ∀ l, (uniq l).Nodup) (l : List Nat) (hl : l.Nodup) : (uniq l).Perm l :=
  (List.perm_ext_iff_of_nodup (hn l) hl).2 (hu l)

theorem firstAtL_lengths (cs : List (Htm A)) (ih : ∀ c ∈ cs, ∀ lo, (firstAt uniq c lo).length = firsts c) :
    ∀ lo, (firstAtL uniq cs lo).map List.length = firstsL cs := by
  induction cs with
  | nil => intro lo; rfl
  | cons c cs ihc =>
    intro lo
    simp only [firstAtL, firstsL, List.map_cons]
    rw [ih c (by simp), ihc fun c hc => ih c (by simp [hc])]

theorem firstAt_length (hu : ∀ l x, x ∈ uniq l ↔ x ∈ l) (hn : ∀ l, (uniq l).Nodup) (t : Htm A) :
    ∀ lo, (firstAt uniq t lo).length = firsts t := by
  induction t using Htm.induct with
  | hleaf a i p h => intro lo; rfl
  | hcomb k cs i p n h pr ih =>
    intro lo
    have hall : (uniq (firstAtL uniq cs lo).flatten).length = (firstsL cs).sum := by
      rw [(uniq_perm hu hn _ (firstAtL_disjoint hu cs (fun c _ => firstAt_nodup hu hn c) lo)).length_eq, List.length_flatten, firstAtL_lengths cs ih]
    cases k with
    | sequential =>
      cases cs with
      | nil => rfl
      | cons c cs => simpa [firstAt, firstAtL, firsts, firstsL] using ih c (by simp) lo
    | alternative => exact hall
    | parallel => exact hall

theorem firsts_pos (t : Htm A) (hne : NonEmpty t) : 0 < firsts t := by
  induction t using Htm.induct with
  | hleaf a i p h => exact Nat.one_pos
  | hcomb k cs i p n h pr ih =>
    simp only [NonEmpty, nonEmptyL_iff] at hne
    obtain ⟨c, cs', rfl⟩ := List.exists_cons_of_ne_nil hne.1
    have := ih c (by simp) (hne.2 c (by simp))
    cases k with
    | sequential => simpa [firsts, firstsL] using this
    | alternative => simp only [firsts, firstsL, List.sum_cons]; omega
    | parallel => simp only [firsts, firstsL, List.sum_cons]; omega

/-! ### The routes of a task -/

mutual
/-- The orders of a task, with the numbers of their leaves and their probabilities. -/
def routes : Htm A → Nat → List (List A × List Nat × ℚ)
  | .leaf a _ _ _, lo => [([a], [lo], 1)]
  | .comb .sequential cs _ _ _ _ _, lo => routesSeq cs lo
  | .comb .alternative cs _ _ _ _ _, lo => routesAlt ((firstsL cs).sum : ℚ) cs lo
  | .comb .parallel _ _ _ _ _ _, _ => []
@[inherit_doc routes]
def routesSeq : List (Htm A) → Nat → List (List A × List Nat × ℚ)
  | [], _ => [([], [], 1)]
  | c :: cs, lo => (routes c lo).flatMap fun x => (routesSeq cs (lo + size c)).map fun y => (x.1 ++ y.1, x.2.1 ++ y.2.1, x.2.2 * y.2.2)
@[inherit_doc routes]
def routesAlt (tot : ℚ) : List (Htm A) → Nat → List (List A × List Nat × ℚ)
  | [], _ => []
  | c :: cs, lo => ((routes c lo).map fun x => (x.1, x.2.1, (firsts c : ℚ) / tot * x.2.2)) ++ routesAlt tot cs (lo + size c)
end

theorem routesSeq_chances (cs : List (Htm A)) (ih : ∀ c ∈ cs, ∀ lo, ((routes c lo).map fun x => (x.1, x.2.2)) = firstChances c) :
    ∀ lo, ((routesSeq cs lo).map fun x => (x.1, x.2.2)) = allD (firstChancesL cs) := by
  induction cs with
  | nil => intro lo; rfl
  | cons c cs ihc =>
    intro lo
    simp only [routesSeq, firstChancesL, allD, thenD]
    rw [← ih c (by simp) lo, ← ihc (fun c hc => ih c (by simp [hc])) (lo + size c)]
    simp only [List.flatMap_map, List.map_flatMap, List.map_map]
    rfl

theorem routesAlt_chances (tot : ℚ) (cs : List (Htm A)) (ih : ∀ c ∈ cs, ∀ lo, ((routes c lo).map fun x => (x.1, x.2.2)) = firstChances c) :
    ∀ lo, ((routesAlt tot cs lo).map fun x => (x.1, x.2.2)) =
      ((firstsL cs).zip (firstChancesL cs)).flatMap fun x => scaleD ((x.1 : ℚ) / tot) x.2 := by
  induction cs with
  | nil => intro lo; rfl
  | cons c cs ihc =>
    intro lo
    simp only [routesAlt, firstChancesL, firstsL, List.zip_cons_cons, List.flatMap_cons, List.map_append, List.map_map]
    rw [← ih c (by simp) lo, ← ihc (fun c hc => ih c (by simp [hc])) (lo + size c)]
    simp only [scaleD, List.map_map]
    rfl

theorem routes_chances (t : Htm A) : ∀ lo, ((routes t lo).map fun x => (x.1, x.2.2)) = firstChances t := by
  induction t using Htm.induct with
  | hleaf a i p h => intro lo; rfl
  | hcomb k cs i p n h pr ih =>
    intro lo
    cases k with
    | sequential => exact routesSeq_chances cs ih lo
    | alternative => exact routesAlt_chances _ cs ih lo
    | parallel => rfl

/-- The numbers of a route are those of leaves of the task. -/
def Inside (lo hi : Nat) (l : List (List A × List Nat × ℚ)) : Prop := ∀ x ∈ l, ∀ i ∈ x.2.1, lo ≤ i ∧ i < hi

theorem routesSeq_inside (cs : List (Htm A)) (ih : ∀ c ∈ cs, ∀ lo, Inside lo (lo + size c) (routes c lo)) :
    ∀ lo, Inside lo (lo + (cs.map size).sum) (routesSeq cs lo) := by
  induction cs with
  | nil => intro lo x hx i hi; simp only [routesSeq, List.mem_singleton] at hx; subst hx; simp at hi
  | cons c cs ihc =>
    intro lo x hx i hi
    simp only [routesSeq, List.mem_flatMap, List.mem_map] at hx
    obtain ⟨y, hy, z, hz, rfl⟩ := hx
    simp only [List.map_cons, List.sum_cons]
    rcases List.mem_append.1 hi with h | h
    · have := ih c (by simp) lo y hy i h; omega
    · have := ihc (fun c hc => ih c (by simp [hc])) _ z hz i h; omega

theorem routesAlt_inside (tot : ℚ) (cs : List (Htm A)) (ih : ∀ c ∈ cs, ∀ lo, Inside lo (lo + size c) (routes c lo)) :
    ∀ lo, Inside lo (lo + (cs.map size).sum) (routesAlt tot cs lo) := by
  induction cs with
  | nil => intro lo x hx; simp [routesAlt] at hx
  | cons c cs ihc =>
    intro lo x hx i hi
    simp only [routesAlt, List.mem_append, List.mem_map] at hx
    simp only [List.map_cons, List.sum_cons]
    rcases hx with ⟨y, hy, rfl⟩ | hx
    · have := ih c (by simp) lo y hy i hi; omega
    · have := ihc (fun c hc => ih c (by simp [hc])) _ x hx i hi; omega

theorem routes_inside (t : Htm A) : ∀ lo, Inside lo (lo + size t) (routes t lo) := by
  induction t using Htm.induct with
  | hleaf a i p h =>
    intro lo x hx i hi
    simp only [routes, List.mem_singleton] at hx
    subst hx
    simp only [List.mem_singleton] at hi
    subst hi
    simp [size, leaves]
  | hcomb k cs i p n h pr ih =>
    intro lo
    rw [size_comb]
    cases k with
    | sequential => exact routesSeq_inside cs ih lo
    | alternative => exact routesAlt_inside _ cs ih lo
    | parallel => intro x hx; simp [routes] at hx

/-- Routes start with a first leaf. -/
def HeadIn (first : List Nat) (ks : List Nat) : Prop := ∃ k ks', ks = k :: ks' ∧ k ∈ first

theorem firstAtL_sub {cs : List (Htm A)} {tot : ℚ} : ∀ lo, (∀ c ∈ cs, ∀ lo, ∀ x ∈ routes c lo, HeadIn (firstAt uniq c lo) x.2.1) →
    ∀ x ∈ routesAlt tot cs lo, HeadIn (firstAtL uniq cs lo).flatten x.2.1 := by
  induction cs with
  | nil => intro lo _ x hx; simp [routesAlt] at hx
  | cons c cs ihc =>
    intro lo ih x hx
    simp only [routesAlt, List.mem_append, List.mem_map] at hx
    rcases hx with ⟨y, hy, rfl⟩ | hx
    · obtain ⟨k, ks, h1, h2⟩ := ih c (by simp) lo y hy
      exact ⟨k, ks, h1, by simp [firstAtL, h2]⟩
    · obtain ⟨k, ks, h1, h2⟩ := ihc _ (fun c hc => ih c (by simp [hc])) x hx
      exact ⟨k, ks, h1, by simp only [firstAtL, List.flatten_cons, List.mem_append]; exact Or.inr h2⟩

theorem routes_head (hu : ∀ l x, x ∈ uniq l ↔ x ∈ l) (t : Htm A) (hne : NonEmpty t) :
    ∀ lo, ∀ x ∈ routes t lo, HeadIn (firstAt uniq t lo) x.2.1 := by
  induction t using Htm.induct with
  | hleaf a i p h =>
    intro lo x hx
    simp only [routes, List.mem_singleton] at hx
    subst hx
    exact ⟨lo, [], rfl, by simp [firstAt]⟩
  | hcomb k cs i p n h pr ih =>
    intro lo x hx
    simp only [NonEmpty, nonEmptyL_iff] at hne
    cases k with
    | sequential =>
      obtain ⟨c, cs', rfl⟩ := List.exists_cons_of_ne_nil hne.1
      simp only [routes, routesSeq, List.mem_flatMap, List.mem_map] at hx
      obtain ⟨y, hy, z, hz, rfl⟩ := hx
      obtain ⟨k, ks, h1, h2⟩ := ih c (by simp) (hne.2 c (by simp)) lo y hy
      exact ⟨k, ks ++ z.2.1, by simp [h1], by simpa [firstAt, firstAtL] using h2⟩
    | alternative =>
      obtain ⟨k, ks, h1, h2⟩ := firstAtL_sub lo (fun c hc => ih c hc (hne.2 c hc)) x hx
      exact ⟨k, ks, h1, by simpa [firstAt, hu] using h2⟩
    | parallel => simp [routes] at hx

/-- Lists with small numbers followed by lists with large ones. -/
theorem split_unique {b : Nat} {x x' y y' : List Nat} (hx : ∀ i ∈ x, i < b) (hx' : ∀ i ∈ x', i < b) (hy : ∀ i ∈ y, b ≤ i) (hy' : ∀ i ∈ y', b ≤ i)
    (h : x ++ y = x' ++ y') : x = x' ∧ y = y' := by
  have key : ∀ u v : List Nat, (∀ i ∈ u, i < b) → (∀ i ∈ v, b ≤ i) → (u ++ v).filter (· < b) = u := by
    intro u v hu hv
    rw [List.filter_append, List.filter_eq_self.2 (by simpa using hu), List.filter_eq_nil_iff.2 (by simpa using hv), List.append_nil]
  have h1 : x = x' := by rw [← key x y hx hy, h, key x' y' hx' hy']
  subst h1
  exact ⟨rfl, List.append_cancel_left h⟩

theorem routesSeq_nodup (cs : List (Htm A)) (ih : ∀ c ∈ cs, ∀ lo, ((routes c lo).map fun x => x.2.1).Nodup) :
    ∀ lo, ((routesSeq cs lo).map fun x => x.2.1).Nodup := by
  induction cs with
  | nil => intro lo; simp [routesSeq]
  | cons c cs ihc =>
    intro lo
    have h1 := ih c (by simp) lo
    have h2 := ihc (fun c hc => ih c (by simp [hc])) (lo + size c)
    have i1 := routes_inside c lo
    have i2 := routesSeq_inside cs (fun c _ => routes_inside c) (lo + size c)
    have e : ((routesSeq (c :: cs) lo).map fun x => x.2.1) =
        ((routes c lo).map fun x => x.2.1).flatMap fun x => ((routesSeq cs (lo + size c)).map fun x => x.2.1).map fun y => x ++ y := by
      simp only [routesSeq, List.map_flatMap, List.flatMap_map, List.map_map]
      rfl
    rw [e, List.nodup_flatMap]
    refine ⟨fun x _ => h2.map fun a b hab => List.append_cancel_left hab, ?_⟩
    refine List.Pairwise.imp_of_mem ?_ h1
    intro x x' hx hx' hne
    intro z hz hz'
    obtain ⟨y, hy, rfl⟩ := List.mem_map.1 hz
    obtain ⟨y', hy', hyy⟩ := List.mem_map.1 hz'
    obtain ⟨a, ha, rfl⟩ := List.mem_map.1 hx
    obtain ⟨a', ha', rfl⟩ := List.mem_map.1 hx'
    obtain ⟨b, hb, rfl⟩ := List.mem_map.1 hy
    obtain ⟨b', hb', rfl⟩ := List.mem_map.1 hy'
    exact hne (split_unique (fun i hi => (i1 a ha i hi).2) (fun i hi => (i1 a' ha' i hi).2) (fun i hi => (i2 b hb i hi).1)
      (fun i hi => (i2 b' hb' i hi).1) hyy.symm).1

theorem routesAlt_nodup (hu : ∀ l x, x ∈ uniq l ↔ x ∈ l) (tot : ℚ) (cs : List (Htm A)) (hne : ∀ c ∈ cs, NonEmpty c)
    (ih : ∀ c ∈ cs, ∀ lo, ((routes c lo).map fun x => x.2.1).Nodup) :
    ∀ lo, ((routesAlt tot cs lo).map fun x => x.2.1).Nodup := by
  induction cs with
  | nil => intro lo; simp [routesAlt]
  | cons c cs ihc =>
    intro lo
    have h1 := ih c (by simp) lo
    have h2 := ihc (fun c hc => hne c (by simp [hc])) (fun c hc => ih c (by simp [hc])) (lo + size c)
    have i2 := routesAlt_inside tot cs (fun c _ => routes_inside c) (lo + size c)
    have e : ((routesAlt tot (c :: cs) lo).map fun x => x.2.1) =
        ((routes c lo).map fun x => x.2.1) ++ ((routesAlt tot cs (lo + size c)).map fun x => x.2.1) := by
      simp only [routesAlt, List.map_append, List.map_map]
      rfl
    rw [e, List.nodup_append]
    refine ⟨h1, h2, ?_⟩
    intro x hx y hy hxy
    subst hxy
    obtain ⟨a, ha, rfl⟩ := List.mem_map.1 hx
    obtain ⟨b, hb, hb'⟩ := List.mem_map.1 hy
    obtain ⟨k, ks, h3, h4⟩ := routes_head hu c (hne c (by simp)) lo a ha
    have h5 := (firstAt_range hu c lo k h4).2
    have h6 := (i2 b hb k (by rw [hb', h3]; simp)).1
    omega

theorem routes_nodup (hu : ∀ l x, x ∈ uniq l ↔ x ∈ l) (t : Htm A) (hne : NonEmpty t) : ∀ lo, ((routes t lo).map fun x => x.2.1).Nodup := by
  induction t using Htm.induct with
  | hleaf a i p h => intro lo; simp [routes]
  | hcomb k cs i p n h pr ih =>
    intro lo
    simp only [NonEmpty, nonEmptyL_iff] at hne
    have ih' := fun c hc => ih c hc (hne.2 c hc)
    cases k with
    | sequential => exact routesSeq_nodup cs ih' lo
    | alternative => exact routesAlt_nodup hu _ cs hne.2 ih' lo
    | parallel => simp [routes]

/-! ### Labels -/

/-- The actions of a route are those of its leaves. -/
def Labelled (lo : Nat) (as : List A) (l : List (List A × List Nat × ℚ)) : Prop :=
  ∀ x ∈ l, List.Forall₂ (fun i a => lo ≤ i ∧ as[i - lo]? = some a) x.2.1 x.1

theorem Labelled.left {lo : Nat} {as bs : List A} {l : List (List A × List Nat × ℚ)} (h : Labelled lo as l) : Labelled lo (as ++ bs) l := by
  intro x hx
  refine (h x hx).imp fun i a ⟨h1, h2⟩ => ⟨h1, ?_⟩
  rw [List.getElem?_append_left (List.getElem?_eq_some_iff.1 h2).1]
  exact h2

theorem Labelled.right {lo : Nat} {as bs : List A} {l : List (List A × List Nat × ℚ)} (h : Labelled (lo + as.length) bs l) : Labelled lo (as ++ bs) l := by
  intro x hx
  refine (h x hx).imp fun i a ⟨h1, h2⟩ => ⟨by omega, ?_⟩
  rw [List.getElem?_append_right (by omega), show i - lo - as.length = i - (lo + as.length) by omega]
  exact h2

theorem routesSeq_labels (cs : List (Htm A)) (ih : ∀ c ∈ cs, ∀ lo, Labelled lo (leaves c) (routes c lo)) :
    ∀ lo, Labelled lo (leavesL cs) (routesSeq cs lo) := by
  induction cs with
  | nil => intro lo x hx; simp only [routesSeq, List.mem_singleton] at hx; subst hx; exact .nil
  | cons c cs ihc =>
    intro lo x hx
    simp only [routesSeq, List.mem_flatMap, List.mem_map] at hx
    obtain ⟨y, hy, z, hz, rfl⟩ := hx
    simp only [leavesL]
    exact List.rel_append ((ih c (by simp) lo).left y hy) (Labelled.right (ihc (fun c hc => ih c (by simp [hc])) (lo + size c)) z hz)

theorem routesAlt_labels (tot : ℚ) (cs : List (Htm A)) (ih : ∀ c ∈ cs, ∀ lo, Labelled lo (leaves c) (routes c lo)) :
    ∀ lo, Labelled lo (leavesL cs) (routesAlt tot cs lo) := by
  induction cs with
  | nil => intro lo x hx; simp [routesAlt] at hx
  | cons c cs ihc =>
    intro lo x hx
    simp only [routesAlt, List.mem_append, List.mem_map] at hx
    simp only [leavesL]
    rcases hx with ⟨y, hy, rfl⟩ | hx
    · exact (ih c (by simp) lo).left y hy
    · exact Labelled.right (ihc (fun c hc => ih c (by simp [hc])) (lo + size c)) x hx

theorem routes_labels (t : Htm A) : ∀ lo, Labelled lo (leaves t) (routes t lo) := by
  induction t using Htm.induct with
  | hleaf a i p h =>
    intro lo x hx
    simp only [routes, List.mem_singleton] at hx
    subst hx
    exact .cons ⟨Nat.le_refl _, by simp [leaves]⟩ .nil
  | hcomb k cs i p n h pr ih =>
    intro lo
    simp only [leaves]
    cases k with
    | sequential => exact routesSeq_labels cs ih lo
    | alternative => exact routesAlt_labels _ cs ih lo
    | parallel => intro x hx; simp [routes] at hx

/-! ### Probabilities of the routes -/

/-- An element of a list, all as likely. -/
def evenly (l : List Nat) (j : Nat) : ℚ := if j ∈ l then 1 / (l.length : ℚ) else 0

/-- The successors in the graph `S` of the leaves from `lo` are `part`. -/
def PartOf (S : Nat → List Nat) (lo : Nat) (part : List (List Nat)) : Prop := ∀ i < part.length, S (lo + i) = part.getD i []

theorem PartOf.left {S : Nat → List Nat} {lo : Nat} {a b : List (List Nat)} (h : PartOf S lo (a ++ b)) : PartOf S lo a := by
  intro i hi
  rw [h i (by simp; omega), List.getD_eq_getElem?_getD, List.getD_eq_getElem?_getD, List.getElem?_append_left hi]

theorem PartOf.right {S : Nat → List Nat} {lo : Nat} {a b : List (List Nat)} (h : PartOf S lo (a ++ b)) : PartOf S (lo + a.length) b := by
  intro i hi
  rw [Nat.add_assoc, h (a.length + i) (by simp; omega), List.getD_eq_getElem?_getD, List.getD_eq_getElem?_getD,
    List.getElem?_append_right (by omega), Nat.add_sub_cancel_left]

/-- The chance of a walk from a list of first states. -/
def enter (S : Nat → List Nat) (first : List Nat) (l : List Nat) : ℚ :=
  (l.head?.elim 0 (evenly first)) * walkProb (fun k => evenly (S k)) l

theorem enter_cons_cons (S : Nat → List Nat) (first : List Nat) (k j : Nat) (l : List Nat) :
    enter S first (k :: j :: l) = evenly first k * enter S (S k) (j :: l) := by
  simp [enter, walkProb]

theorem enter_change (S : Nat → List Nat) (first first' : List Nat) (k : Nat) (l : List Nat) (h : k ∈ first) (h' : k ∈ first') :
    enter S first (k :: l) = (first'.length : ℚ) / first.length * enter S first' (k :: l) := by
  have hp : (first.length : ℚ) ≠ 0 := by
    have := List.length_pos_of_mem h
    positivity
  have hp' : (first'.length : ℚ) ≠ 0 := by
    have := List.length_pos_of_mem h'
    positivity
  simp only [enter, List.head?_cons, Option.elim_some, evenly, if_pos h, if_pos h']
  field_simp

theorem routesSeq_prob (hu : ∀ l x, x ∈ uniq l ↔ x ∈ l) (S : Nat → List Nat) (cs : List (Htm A)) (hne : ∀ c ∈ cs, NonEmpty c)
    (ih : ∀ c ∈ cs, ∀ lo next, PartOf S lo (succsOf uniq c lo next) → ∀ x ∈ routes c lo, ∀ j l,
      enter S (firstAt uniq c lo) (x.2.1 ++ j :: l) = x.2.2 * enter S next (j :: l)) :
    ∀ lo next, PartOf S lo (succsSeq uniq cs lo next) → ∀ x ∈ routesSeq cs lo, ∀ j l,
      enter S ((firstAtL uniq cs lo).headD next) (x.2.1 ++ j :: l) = x.2.2 * enter S next (j :: l) := by
  induction cs with
  | nil =>
    intro lo next _ x hx j l
    simp only [routesSeq, List.mem_singleton] at hx
    subst hx
    simp [firstAtL]
  | cons c cs ihc =>
    intro lo next hp x hx j l
    simp only [routesSeq, List.mem_flatMap, List.mem_map] at hx
    obtain ⟨y, hy, z, hz, rfl⟩ := hx
    simp only [succsSeq] at hp
    have h1 := ih c (by simp) lo _ hp.left y hy
    have h2 := hp.right
    rw [succsOf_length] at h2
    have h3 := ihc (fun c hc => hne c (by simp [hc])) (fun c hc => ih c (by simp [hc])) _ next h2 z hz j l
    simp only [firstAtL, List.headD_cons, List.append_assoc]
    cases hzl : z.2.1 with
    | nil =>
      rw [hzl] at h3
      rw [List.nil_append] at h3 ⊢
      rw [h1, h3]
      ring
    | cons k ks =>
      rw [hzl, List.cons_append] at h3
      rw [List.cons_append, h1, h3]
      ring

theorem routesAlt_prob (hu : ∀ l x, x ∈ uniq l ↔ x ∈ l) (hn : ∀ l, (uniq l).Nodup) (S : Nat → List Nat) (first : List Nat) (cs : List (Htm A)) (hne : ∀ c ∈ cs, NonEmpty c)
    (ih : ∀ c ∈ cs, ∀ lo next, PartOf S lo (succsOf uniq c lo next) → ∀ x ∈ routes c lo, ∀ j l,
      enter S (firstAt uniq c lo) (x.2.1 ++ j :: l) = x.2.2 * enter S next (j :: l)) :
    ∀ lo next, PartOf S lo (succsAll uniq cs lo next) → (∀ i ∈ (firstAtL uniq cs lo).flatten, i ∈ first) →
      ∀ x ∈ routesAlt (first.length : ℚ) cs lo, ∀ j l,
      enter S first (x.2.1 ++ j :: l) = x.2.2 * enter S next (j :: l) := by
  induction cs with
  | nil => intro lo next _ _ x hx; simp [routesAlt] at hx
  | cons c cs ihc =>
    intro lo next hp hf x hx j l
    simp only [succsAll] at hp
    simp only [firstAtL, List.flatten_cons, List.mem_append] at hf
    simp only [routesAlt, List.mem_append, List.mem_map] at hx
    rcases hx with ⟨y, hy, rfl⟩ | hx
    · obtain ⟨k, ks, h1, h2⟩ := routes_head hu c (hne c (by simp)) lo y hy
      have h3 := ih c (by simp) lo _ hp.left y hy j l
      simp only
      rw [h1, List.cons_append] at h3 ⊢
      rw [enter_change S first (firstAt uniq c lo) k _ (hf k (Or.inl h2)) h2, h3, firstAt_length hu hn]
      ring
    · have h2 := hp.right
      rw [succsOf_length] at h2
      exact ihc (fun c hc => hne c (by simp [hc])) (fun c hc => ih c (by simp [hc])) _ next h2 (fun i hi => hf i (Or.inr hi)) x hx j l

theorem routes_prob (hu : ∀ l x, x ∈ uniq l ↔ x ∈ l) (hn : ∀ l, (uniq l).Nodup) (S : Nat → List Nat) (t : Htm A) (hne : NonEmpty t) :
    ∀ lo next, PartOf S lo (succsOf uniq t lo next) → ∀ x ∈ routes t lo, ∀ j l,
      enter S (firstAt uniq t lo) (x.2.1 ++ j :: l) = x.2.2 * enter S next (j :: l) := by
  induction t using Htm.induct with
  | hleaf a i p h =>
    intro lo next hp x hx j l
    simp only [routes, List.mem_singleton] at hx
    subst hx
    have := hp 0 (by simp [succsOf])
    simp only [Nat.add_zero, succsOf, List.getD_cons_zero] at this
    simp only [List.singleton_append]
    rw [enter_cons_cons, this]
    simp [firstAt, evenly]
  | hcomb k cs i p n h pr ih =>
    intro lo next hp x hx j l
    simp only [NonEmpty, nonEmptyL_iff] at hne
    have ih' := fun c hc => ih c hc (hne.2 c hc)
    cases k with
    | sequential =>
      have := routesSeq_prob hu S cs hne.2 ih' lo next hp x hx j l
      obtain ⟨c, cs', rfl⟩ := List.exists_cons_of_ne_nil hne.1
      simpa [firstAt, firstAtL] using this
    | alternative =>
      have hlen := firstAt_length hu hn (.comb .alternative cs i p n h pr) lo
      refine routesAlt_prob hu hn S _ cs hne.2 ih' lo next hp ?_ x ?_ j l
      · intro i hi
        simpa [firstAt, hu] using hi
      · rw [hlen]; exact hx
    | parallel => simp [routes] at hx

/-! ### All the walks are routes -/

/-- A walk that leaves the task follows one of its routes first. -/
def Follow (S : Nat → List Nat) (lo hi : Nat) (first next : List Nat) (rs : List (List A × List Nat × ℚ)) : Prop :=
  ∀ l, enter S first l ≠ 0 → (∃ k, l.getLast? = some k ∧ (k < lo ∨ hi ≤ k)) →
    ∃ x ∈ rs, ∃ j l', l = x.2.1 ++ j :: l' ∧ enter S next (j :: l') ≠ 0

theorem enter_ne_zero {S : Nat → List Nat} {first : List Nat} {l : List Nat} (h : enter S first l ≠ 0) :
    ∃ k l', l = k :: l' ∧ k ∈ first := by
  cases l with
  | nil => simp [enter] at h
  | cons k l' =>
    refine ⟨k, l', rfl, ?_⟩
    by_contra hk
    simp [enter, evenly, hk] at h

theorem enter_mono {S : Nat → List Nat} {first first' : List Nat} {k : Nat} {l : List Nat} (h : enter S first (k :: l) ≠ 0) (hk : k ∈ first') :
    enter S first' (k :: l) ≠ 0 := by
  obtain ⟨k', l', h1, h2⟩ := enter_ne_zero h
  cases h1
  rw [enter_change S first first' k l h2 hk] at h
  exact right_ne_zero_of_mul h

theorem routesSeq_follow (hu : ∀ l x, x ∈ uniq l ↔ x ∈ l) (S : Nat → List Nat) (cs : List (Htm A))
    (ih : ∀ c ∈ cs, ∀ lo next, PartOf S lo (succsOf uniq c lo next) → Follow S lo (lo + size c) (firstAt uniq c lo) next (routes c lo)) :
    ∀ lo next, PartOf S lo (succsSeq uniq cs lo next) →
      ∀ l, enter S ((firstAtL uniq cs lo).headD next) l ≠ 0 → (∃ k, l.getLast? = some k ∧ (k < lo ∨ lo + (cs.map size).sum ≤ k)) →
    ∃ x ∈ routesSeq cs lo, ∃ j l', l = x.2.1 ++ j :: l' ∧ enter S next (j :: l') ≠ 0 := by
  induction cs with
  | nil =>
    intro lo next _ l hl _
    obtain ⟨k, l', rfl, _⟩ := enter_ne_zero hl
    exact ⟨([], [], 1), by simp [routesSeq], k, l', rfl, by simpa [firstAtL] using hl⟩
  | cons c cs ihc =>
    intro lo next hp l hl hk
    simp only [List.map_cons, List.sum_cons] at hk
    obtain ⟨k, hk1, hk2⟩ := hk
    simp only [succsSeq] at hp
    have h2 := hp.right
    rw [succsOf_length] at h2
    obtain ⟨x, hx, j, l', rfl, hl'⟩ := ih c (by simp) lo _ hp.left l (by simpa [firstAtL] using hl) ⟨k, hk1, by omega⟩
    have hlast : (j :: l').getLast? = some k := by
      rw [List.getLast?_append_of_ne_nil _ (by simp)] at hk1
      exact hk1
    obtain ⟨y, hy, j', l'', h3, h4⟩ := ihc (fun c hc => ih c (by simp [hc])) _ next h2 (j :: l') hl' ⟨k, hlast, by omega⟩
    refine ⟨(x.1 ++ y.1, x.2.1 ++ y.2.1, x.2.2 * y.2.2), ?_, j', l'', by simp [h3], h4⟩
    simp only [routesSeq, List.mem_flatMap, List.mem_map]
    exact ⟨x, hx, y, hy, rfl⟩

theorem routesAlt_follow (hu : ∀ l x, x ∈ uniq l ↔ x ∈ l) (S : Nat → List Nat) (tot : ℚ) (cs : List (Htm A))
    (ih : ∀ c ∈ cs, ∀ lo next, PartOf S lo (succsOf uniq c lo next) → Follow S lo (lo + size c) (firstAt uniq c lo) next (routes c lo)) :
    ∀ lo next, PartOf S lo (succsAll uniq cs lo next) → Follow S lo (lo + (cs.map size).sum) (firstAtL uniq cs lo).flatten next (routesAlt tot cs lo) := by
  induction cs with
  | nil =>
    intro lo next _ l hl _
    obtain ⟨k, l', _, hk⟩ := enter_ne_zero hl
    simp [firstAtL] at hk
  | cons c cs ihc =>
    intro lo next hp l hl hk
    simp only [List.map_cons, List.sum_cons] at hk
    obtain ⟨k, hk1, hk2⟩ := hk
    simp only [succsAll] at hp
    have h2 := hp.right
    rw [succsOf_length] at h2
    obtain ⟨k0, l0, rfl, h0⟩ := enter_ne_zero hl
    simp only [firstAtL, List.flatten_cons, List.mem_append] at h0
    rcases h0 with h0 | h0
    · obtain ⟨x, hx, j, l', h3, h4⟩ := ih c (by simp) lo next hp.left _ (enter_mono hl h0) ⟨k, hk1, by omega⟩
      refine ⟨(x.1, x.2.1, (firsts c : ℚ) / tot * x.2.2), ?_, j, l', h3, h4⟩
      simp only [routesAlt, List.mem_append, List.mem_map]
      exact Or.inl ⟨x, hx, rfl⟩
    · obtain ⟨x, hx, j, l', h3, h4⟩ := ihc (fun c hc => ih c (by simp [hc])) _ next h2 _ (enter_mono hl h0) ⟨k, hk1, by omega⟩
      refine ⟨x, ?_, j, l', h3, h4⟩
      simp only [routesAlt, List.mem_append, List.mem_map]
      exact Or.inr hx

theorem routes_follow (hu : ∀ l x, x ∈ uniq l ↔ x ∈ l) (S : Nat → List Nat) (t : Htm A) (hne : NonEmpty t) (hnp : NoParallel t) :
    ∀ lo next, PartOf S lo (succsOf uniq t lo next) → Follow S lo (lo + size t) (firstAt uniq t lo) next (routes t lo) := by
  induction t using Htm.induct with
  | hleaf a i p h =>
    intro lo next hp l hl hk
    obtain ⟨k0, l0, rfl, h0⟩ := enter_ne_zero hl
    simp only [firstAt, List.mem_singleton] at h0
    subst h0
    have hs := hp 0 (by simp [succsOf])
    simp only [Nat.add_zero, succsOf, List.getD_cons_zero] at hs
    obtain ⟨k, hk1, hk2⟩ := hk
    cases l0 with
    | nil =>
      simp only [List.getLast?_singleton, Option.some.injEq] at hk1
      have : size (Htm.leaf a i p h) = 1 := by simp [size, leaves]
      omega
    | cons j l' =>
      refine ⟨([a], [k0], 1), by simp [routes], j, l', rfl, ?_⟩
      rw [enter_cons_cons, hs] at hl
      exact right_ne_zero_of_mul hl
  | hcomb k cs i p n h pr ih =>
    intro lo next hp l hl hk
    simp only [NonEmpty, nonEmptyL_iff] at hne
    simp only [NoParallel, noParallelL_iff] at hnp
    have ih' := fun c hc => ih c hc (hne.2 c hc) (hnp.2 c hc)
    rw [size_comb] at hk
    cases k with
    | sequential =>
      refine routesSeq_follow hu S cs ih' lo next hp l ?_ hk
      obtain ⟨c, cs', rfl⟩ := List.exists_cons_of_ne_nil hne.1
      simpa [firstAt, firstAtL] using hl
    | alternative =>
      refine routesAlt_follow hu S _ cs ih' lo next hp l ?_ hk
      obtain ⟨k0, l0, rfl, h0⟩ := enter_ne_zero hl
      exact enter_mono hl (by simpa [firstAt, hu] using h0)
    | parallel => exact absurd rfl hnp.1

/-! ### The end of the task -/

theorem succsOf_map (f : List Nat → List Nat) (hf : ∀ l, l ≠ [] → f l = l) (hu : ∀ l x, x ∈ uniq l ↔ x ∈ l) (hn : ∀ l, (uniq l).Nodup) (t : Htm A)
    (hne : NonEmpty t) : ∀ lo next, (succsOf uniq t lo next).map f = succsOf uniq t lo (f next) := by
  have hfirst : ∀ (c : Htm A) lo, NonEmpty c → f (firstAt uniq c lo) = firstAt uniq c lo := by
    intro c lo hc
    apply hf
    intro h0
    have h1 := firstAt_length hu hn c lo
    rw [h0] at h1
    have := firsts_pos c hc
    simp at h1
    omega
  induction t using Htm.induct with
  | hleaf a i p h => intro lo next; rfl
  | hcomb k cs i p n h pr ih =>
    intro lo next
    simp only [NonEmpty, nonEmptyL_iff] at hne
    have hne2 := hne.2
    clear hne
    have hseq : ∀ lo, (succsSeq uniq cs lo next).map f = succsSeq uniq cs lo (f next) := by
      induction cs with
      | nil => intro lo; rfl
      | cons c cs ihc =>
        intro lo
        simp only [succsSeq, List.map_append]
        rw [ih c (by simp) (hne2 c (by simp)), ihc (fun c hc => ih c (by simp [hc])) (fun c hc => hne2 c (by simp [hc]))]
        congr 1
        cases cs with
        | nil => rfl
        | cons c' cs => simp only [firstAtL, List.headD_cons]; rw [hfirst c' _ (hne2 c' (by simp))]
    have hall : ∀ lo, (succsAll uniq cs lo next).map f = succsAll uniq cs lo (f next) := by
      clear hseq
      induction cs with
      | nil => intro lo; rfl
      | cons c cs ihc =>
        intro lo
        simp only [succsAll, List.map_append]
        rw [ih c (by simp) (hne2 c (by simp)), ihc (fun c hc => ih c (by simp [hc])) (fun c hc => hne2 c (by simp [hc]))]
    cases k with
    | sequential => exact hseq lo
    | alternative => exact hall lo
    | parallel => exact hall lo

/-- The walks of the whole graph, up to its end, are the routes of the task. -/
theorem walks_same (hu : ∀ l x, x ∈ uniq l ↔ x ∈ l) (hn : ∀ l, (uniq l).Nodup) (t : Htm A) (hne : NonEmpty t) (hnp : NoParallel t)
    (S : Nat → List Nat) (hS : PartOf S 0 (succsOf uniq t 0 [size t])) (hend : S (size t) = []) (lab : List Nat → List A → Prop)
    (hlab : ∀ ks as, List.Forall₂ (fun i a => (leaves t)[i]? = some a) ks as → lab ks as) :
    SameChances lab (fun ks => enter S (firstAt uniq t 0) (ks ++ [size t])) (firstChances t) := by
  refine ⟨routes t 0, by rw [routes_chances], routes_nodup hu t hne 0, ?_, ?_⟩
  · intro x hx
    refine ⟨hlab _ _ ((routes_labels t 0 x hx).imp fun i a h => by simpa using h.2), ?_⟩
    have := routes_prob hu hn S t hne 0 [size t] hS x hx (size t) []
    simp only
    rw [this]
    simp [enter, evenly, walkProb]
  · intro ks hks
    obtain ⟨x, hx, j, l', h1, h2⟩ := routes_follow hu S t hne hnp 0 [size t] hS _ hks ⟨size t, by simp, Or.inr (by omega)⟩
    obtain ⟨k, l'', h3, h4⟩ := enter_ne_zero h2
    cases h3
    simp only [List.mem_singleton] at h4
    subst h4
    have hl : l' = [] := by
      cases l' with
      | nil => rfl
      | cons j l =>
        rw [enter_cons_cons, hend] at h2
        simp [enter, evenly] at h2
    subst hl
    exact List.mem_map.2 ⟨x, hx, (List.append_cancel_right h1).symm⟩

/-! ### Tasks whose alternatives start with the same number of leaves -/

theorem firstChancesL_eq (cs : List (Htm A)) : firstChancesL cs = cs.map firstChances := by
  induction cs with
  | nil => rfl
  | cons c cs ih => simp [firstChancesL, ih]

theorem balancedL_iff (cs : List (Htm A)) : BalancedL cs ↔ ∀ c ∈ cs, Balanced c := by
  induction cs with
  | nil => simp [BalancedL]
  | cons c cs ih => simp [BalancedL, ih]

theorem sum_of_eq (l : List Nat) (n : Nat) (h : ∀ m ∈ l, m = n) : l.sum = l.length * n := by
  induction l with
  | nil => simp
  | cons m l ih =>
    rw [List.sum_cons, ih fun m hm => h m (by simp [hm]), h m (by simp), List.length_cons]
    ring

theorem firstChances_even (t : Htm A) (hne : NonEmpty t) (hnp : NoParallel t) (hb : Balanced t) : firstChances t = evenChances t := by
  induction t using Htm.induct with
  | hleaf a i p h => rfl
  | hcomb k cs i p n h pr ih =>
    simp only [NonEmpty, nonEmptyL_iff] at hne
    simp only [NoParallel, noParallelL_iff] at hnp
    simp only [Balanced, balancedL_iff] at hb
    have hch : cs.map firstChances = cs.map evenChances :=
      List.map_congr_left fun c hc => ih c hc (hne.2 c hc) (hnp.2 c hc) (hb.2 c hc)
    cases k with
    | sequential => rw [even_seq]; simp only [firstChances, firstChancesL_eq, hch]
    | alternative =>
      rw [even_alt]
      simp only [firstChances, firstChancesL_eq, hch]
      obtain ⟨c, cs', rfl⟩ := List.exists_cons_of_ne_nil hne.1
      have hall : ∀ m ∈ firstsL (c :: cs'), m = firsts c := fun m hm => hb.1 rfl m hm (firsts c) (by simp [firstsL])
      have hpos := firsts_pos c (hne.2 c (by simp))
      have hsum := sum_of_eq _ _ hall
      have hlen : (firstsL (c :: cs')).length = (c :: cs').length := by rw [firstsL_eq, List.length_map]
      rw [hlen] at hsum
      have hrep : firstsL (c :: cs') = List.replicate (c :: cs').length (firsts c) := by
        rw [← hlen]
        exact List.eq_replicate_of_mem hall
      rw [hsum]
      have hq : ((firsts c : ℕ) : ℚ) / (((c :: cs').length * firsts c : ℕ) : ℚ) = 1 / ((c :: cs').length : ℚ) := by
        have : ((firsts c : ℕ) : ℚ) ≠ 0 := by positivity
        push_cast
        field_simp
      have hz := zip_replicate_map (firsts c) ((c :: cs').map evenChances) (fun x => scaleD ((x.1 : ℚ) / (((c :: cs').length * firsts c : ℕ) : ℚ)) x.2)
      rw [List.length_map, ← hrep] at hz
      rw [hz]
      simp only [hq]
    | parallel => exact absurd rfl hnp.1

end Verif.SupOrd
