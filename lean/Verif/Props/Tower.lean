import Verif.Model.Tower
import Verif.Proof.Text
import Verif.Props.BringNext
import Mathlib.Data.List.Perm.Basic
import Mathlib.Data.List.Nodup
import Mathlib.Data.List.Range
import Mathlib.Tactic.FieldSimp
import Mathlib.Tactic.Positivity

set_option linter.unusedSectionVars false
set_option linter.unusedSimpArgs false

/-!
# C67: tower tasks
-/

namespace Verif
open Spec

/-! ### Text -/

theorem pyStr_inj {i j : Nat} (h : pyStr i = pyStr j) : i = j := by
  have h1 : showNat i = showNat j := String.ofList_injective h
  have h2 := (showNat_spec i).2.2
  rw [h1, (showNat_spec j).2.2] at h2
  exact (Option.some.inj h2).symm

theorem digits_cut {a b u v : List Char} (ha : ∀ c ∈ a, IsDigit c) (hb : ∀ c ∈ b, IsDigit c)
    (h : a ++ '-' :: u = b ++ '-' :: v) : a = b ∧ u = v := by
  induction a generalizing b with
  | nil =>
      cases b with
      | nil => simpa using h
      | cons y b =>
          simp only [List.nil_append, List.cons_append, List.cons.injEq] at h
          exact absurd h.1.symm (isDigit_ne y (hb y (by simp))).1
  | cons x a ih =>
      cases b with
      | nil =>
          simp only [List.nil_append, List.cons_append, List.cons.injEq] at h
          exact absurd h.1 (isDigit_ne x (ha x (by simp))).1
      | cons y b =>
          simp only [List.cons_append, List.cons.injEq] at h
          obtain ⟨h1, h2⟩ := ih (fun c hc => ha c (by simp [hc])) (fun c hc => hb c (by simp [hc])) h.2
          exact ⟨by rw [h.1, h1], h2⟩

theorem radix_digit (c : Char) (h : IsDigit c) : (if c.toLower = ' ' then '-' else c.toLower) = c := by
  rcases isDigit_cases c h with rfl | rfl | rfl | rfl | rfl | rfl | rfl | rfl | rfl | rfl <;> decide

/-- The radix of the name of a leaf. -/
theorem nameRadix_leaf (i : Nat) (name : String) : nameRadix (pyStr i ++ ("-" ++ name)) = pyStr i ++ ("-" ++ nameRadix name) := by
  apply String.toList_injective
  simp only [nameRadix, pyStr, String.toList_append, String.toList_ofList, List.map_append]
  congr 1
  · conv => rhs; rw [← List.map_id (showNat i)]
    exact List.map_congr_left fun c hc => radix_digit c ((showNat_spec i).2.1 c hc)

theorem leafName_inj {i j : Nat} {m n : String} (h : pyStr i ++ ("-" ++ m) = pyStr j ++ ("-" ++ n)) : i = j ∧ m = n := by
  have h1 := congrArg String.toList h
  simp only [pyStr, String.toList_append, String.toList_ofList] at h1
  obtain ⟨h2, h3⟩ := digits_cut (showNat_spec i).2.1 (showNat_spec j).2.1 (show showNat i ++ '-' :: m.toList = _ from h1)
  exact ⟨pyStr_inj (by rw [pyStr, h2, pyStr]), String.toList_injective h3⟩

/-! ### Orders -/

theorem hFirst_perm (t : Tower) : t.hFirst.Perm (List.range t.nParts) := by
  have hnd : t.hFirst.Nodup := by
    unfold Tower.hFirst
    rw [List.nodup_flatMap]
    refine ⟨fun k hk => ?_, ?_⟩
    · refine List.Nodup.map_on ?_ List.nodup_range
      intro i _ j _ hij
      have hh : 0 < t.h := by have := List.mem_range.1 hk; omega
      exact Nat.eq_of_mul_eq_mul_right hh (by omega)
    · refine List.Pairwise.imp_of_mem ?_ (List.nodup_range (n := t.h))
      intro k k' hk hk' hne x hx hx'
      obtain ⟨i, -, rfl⟩ := List.mem_map.1 hx
      obtain ⟨j, -, h⟩ := List.mem_map.1 hx'
      have e1 := congrArg (· % t.h) h
      simp only [Nat.mul_add_mod', Nat.mod_eq_of_lt (List.mem_range.1 hk), Nat.mod_eq_of_lt (List.mem_range.1 hk')] at e1
      exact hne e1.symm
  rw [List.perm_ext_iff_of_nodup hnd List.nodup_range]
  intro x
  simp only [Tower.hFirst, List.mem_flatMap, List.mem_map, List.mem_range, Tower.nParts]
  constructor
  · rintro ⟨k, hk, i, hi, rfl⟩
    calc i * t.h + k < i * t.h + t.h := by omega
      _ = (i + 1) * t.h := by ring
      _ ≤ t.n * t.h := Nat.mul_le_mul_right _ hi
      _ = t.h * t.n := Nat.mul_comm _ _
  · intro hx
    have hh : 0 < t.h := Nat.pos_of_ne_zero (by rintro h; rw [h] at hx; simp at hx)
    exact ⟨x % t.h, Nat.mod_lt _ hh, x / t.h, Nat.div_lt_of_lt_mul (by rwa [Nat.mul_comm] at hx ⊢), Nat.div_add_mod' x t.h⟩

/-- **C67 (orders).**  Both orders list all the parts once. -/
theorem C67_orders (t : Tower) :
    t.vFirst.Perm (List.range (t.h * t.n)) ∧ t.hFirst.Perm (List.range (t.h * t.n)) ∧ t.vFirst.Nodup ∧ t.hFirst.Nodup :=
  ⟨List.Perm.refl _, hFirst_perm t, List.nodup_range, ((hFirst_perm t).nodup_iff).2 List.nodup_range⟩

/-- **C67 (levels).**  Part `x` is at level `x % h` of tower `x / h`.  The horizontal order places the parts level by level, and
inside a level tower by tower; the vertical one tower by tower, each from the bottom. -/
theorem C67_levels (t : Tower) :
    (t.hFirst.Pairwise fun x y => x % t.h < y % t.h ∨ (x % t.h = y % t.h ∧ x / t.h < y / t.h)) ∧
    (t.vFirst.Pairwise fun x y => x / t.h < y / t.h ∨ (x / t.h = y / t.h ∧ x % t.h < y % t.h)) := by
  constructor
  · unfold Tower.hFirst
    rw [List.pairwise_flatMap]
    constructor
    · intro k hk
      have hk' := List.mem_range.1 hk
      rw [List.pairwise_map]
      refine List.Pairwise.imp ?_ List.pairwise_lt_range
      intro i j hij
      right
      have hh : 0 < t.h := by omega
      constructor
      · rw [Nat.mul_add_mod', Nat.mul_add_mod']
      · rw [Nat.add_comm, Nat.add_mul_div_right _ _ hh, Nat.add_comm (j * t.h), Nat.add_mul_div_right _ _ hh,
          Nat.div_eq_of_lt hk']
        omega
    · refine List.Pairwise.imp_of_mem ?_ (List.pairwise_lt_range (n := t.h))
      intro k k' hk hk' hlt x hx y hy
      obtain ⟨i, -, rfl⟩ := List.mem_map.1 hx
      obtain ⟨j, -, rfl⟩ := List.mem_map.1 hy
      left
      rw [Nat.mul_add_mod', Nat.mul_add_mod', Nat.mod_eq_of_lt (List.mem_range.1 hk), Nat.mod_eq_of_lt (List.mem_range.1 hk')]
      exact hlt
  · unfold Tower.vFirst Tower.nParts
    refine List.Pairwise.imp_of_mem ?_ (List.pairwise_lt_range (n := t.h * t.n))
    intro x y hx hy hlt
    have h1 := Nat.div_add_mod x t.h
    have h2 := Nat.div_add_mod y t.h
    rcases Nat.lt_or_ge (x / t.h) (y / t.h) with h | h
    · exact .inl h
    · have he : x / t.h = y / t.h := Nat.le_antisymm (Nat.div_le_div_right hlt.le) h
      refine .inr ⟨he, ?_⟩
      rw [he] at h1
      omega

/-- **C67 (stability).**  In both orders the parts of a tower are placed from the bottom to the top. -/
theorem C67_stable (t : Tower) (order : List Nat) (ho : order = t.vFirst ∨ order = t.hFirst) :
    order.Pairwise fun x y => x / t.h = y / t.h → x % t.h < y % t.h := by
  obtain ⟨h1, h2⟩ := C67_levels t
  rcases ho with rfl | rfl
  · refine h2.imp ?_
    rintro x y (h | h) he
    · omega
    · exact h.2
  · refine h1.imp ?_
    rintro x y (h | h) he
    · exact h
    · omega

/-! ### Tasks -/

/-- The action that places part `i` in the order called `name`. -/
def placePart (name : String) (i : Nat) : BAction := ⟨pyStr i ++ ("-" ++ name), some (pyStr i)⟩

/-- A sequence of a task. -/
def towerSeqNode (on : List Nat × String) : Htm BAction :=
  .comb .sequential (on.1.map fun i => .leaf (placePart on.2 i) none none false) none none on.2 false none

theorem mapM_towerSequence (items : List (List Nat × String)) :
    (items.mapM fun on => towerSequence on.1 (some on.2)) = .ok (items.map towerSeqNode) := by
  induction items with
  | nil => rfl
  | cons x xs ih => rw [List.mapM_cons, ih]; rfl

/-- The task built from orders. -/
theorem towerTask_eq (orders : List (List Nat)) (names : Option (List String)) (items : List (List Nat × String))
    (hi : orders.zip (towerNames orders names) = items) (hne : items ≠ []) :
    towerTask orders names = .ok (.comb .alternative (items.map towerSeqNode) none none "Alt" false
      (some (List.replicate items.length (1 / (items.length : ℚ))))) := by
  unfold towerTask
  rw [hi, mapM_towerSequence]
  show mkComb .alternative (items.map towerSeqNode) none none "Alt" = _
  rw [mkComb_ok .alternative _ none none "Alt" false none (fun _ => by simpa using hne) (fun _ ps h => by cases h)]
  simp

theorem leavesL_map_leaf (f : Nat → BAction) (l : List Nat) :
    Spec.leavesL (l.map fun i => .leaf (f i) none none false) = l.map f := by
  induction l with
  | nil => rfl
  | cons x l ih => simp [Spec.leavesL, Spec.leaves, ih]

theorem leaves_towerSeqNode (on : List Nat × String) : Spec.leaves (towerSeqNode on) = on.1.map (placePart on.2) :=
  leavesL_map_leaf _ _

theorem leavesL_tower (items : List (List Nat × String)) :
    Spec.leavesL (items.map towerSeqNode) = items.flatMap fun on => on.1.map (placePart on.2) := by
  induction items with
  | nil => rfl
  | cons x xs ih => rw [List.map_cons, Spec.leavesL, ih, leaves_towerSeqNode]; rfl

theorem HLin_towerSeqNode (on : List Nat × String) (u : List BAction) :
    HLin (towerSeqNode on) u ↔ u = on.1.map (placePart on.2) := by
  obtain ⟨o, n⟩ := on
  have key : ∀ (o : List Nat) (us : List (List BAction)),
      HLinL (o.map fun i => .leaf (placePart n i) none none false) us ↔ us = o.map fun i => [placePart n i] := by
    intro o
    induction o with
    | nil => intro us; simp [HLinL]
    | cons i o ih =>
        intro us
        simp only [List.map_cons, HLinL, HLin, ih]
        constructor
        · rintro ⟨a, vs, rfl, rfl, rfl⟩; rfl
        · rintro rfl; exact ⟨_, _, rfl, rfl, rfl⟩
  have hfl : ∀ o : List Nat, (o.map fun i => [placePart n i]).flatten = o.map (placePart n) := by
    intro o
    induction o with
    | nil => rfl
    | cons i o ih => simp [ih]
  simp only [towerSeqNode, HLin, key]
  constructor
  · rintro ⟨us, rfl, rfl⟩; exact hfl o
  · rintro rfl; exact ⟨_, rfl, (hfl o).symm⟩

theorem HLinAny_tower (items : List (List Nat × String)) (u : List BAction) :
    HLinAny (items.map towerSeqNode) u ↔ ∃ on ∈ items, u = on.1.map (placePart on.2) := by
  induction items with
  | nil => simp [HLinAny]
  | cons x xs ih => simp [HLinAny, ih, HLin_towerSeqNode]

section
variable {orders : List (List Nat)} {names : Option (List String)} {t : Htm BAction}

/-- A task exists iff there is an order with a name; without one `ZeroDivisionError` is raised. -/
theorem C67_task (orders : List (List Nat)) (names : Option (List String)) :
    ((∃ t, towerTask orders names = .ok t) ↔ orders.zip (towerNames orders names) ≠ []) ∧
    (orders.zip (towerNames orders names) = [] → towerTask orders names = .error .zeroDivisionError) := by
  have h0 : orders.zip (towerNames orders names) = [] → towerTask orders names = .error .zeroDivisionError := by
    intro h
    unfold towerTask
    rw [h]
    rfl
  refine ⟨⟨fun ⟨t, ht⟩ hn => ?_, fun hn => ⟨_, towerTask_eq orders names _ rfl hn⟩⟩, h0⟩
  rw [h0 hn] at ht
  cases ht

/-- **C67 (executions).**  The task has one leaf for each part of each order, that brings this part, and it can be executed
exactly in the given orders. -/
theorem C67_executions (ht : towerTask orders names = .ok t) :
    Spec.leaves t = ((orders.zip (towerNames orders names)).flatMap fun on =>
      on.1.map fun i => ⟨pyStr i ++ ("-" ++ on.2), some (pyStr i)⟩) ∧
    ∀ u, HLin t u ↔ ∃ on ∈ orders.zip (towerNames orders names), u = on.1.map fun i =>
      ⟨pyStr i ++ ("-" ++ on.2), some (pyStr i)⟩ := by
  have hne := ((C67_task orders names).1).1 ⟨t, ht⟩
  rw [towerTask_eq orders names _ rfl hne] at ht
  cases ht
  exact ⟨leavesL_tower _, fun u => HLinAny_tower _ u⟩

theorem callDepthL_leaves (f : Nat → BAction) (l : List Nat) :
    callDepthL (l.map fun i => .leaf (f i) none none false) ≤ 1 := by
  induction l with
  | nil => simp [callDepthL]
  | cons x l ih => simp [callDepthL, callDepth, ih]

theorem callDepthL_tower (items : List (List Nat × String)) : callDepthL (items.map towerSeqNode) ≤ 2 := by
  induction items with
  | nil => simp [callDepthL]
  | cons x xs ih =>
      simp only [List.map_cons, callDepthL, towerSeqNode, callDepth]
      have := callDepthL_leaves (placePart x.2) x.1
      have h2 : callDepthL (List.map towerSeqNode xs) ≤ 2 := ih
      have h3 : callDepthL (x.1.map fun i => Htm.leaf (placePart x.2 i) none none false) + 1 ≤ 2 := by omega
      exact max_le h3 h2

theorem tower_shape (items : List (List Nat × String)) (hne : items ≠ []) (ho : ∀ on ∈ items, on.1 ≠ []) (pr : List ℚ)
    (hpr : IsDistrib pr) (nm : String) :
    let t : Htm BAction := .comb .alternative (items.map towerSeqNode) none none nm false (some pr)
    Built t ∧ HFull t ∧ callDepth t ≤ 3 ∧ ParFree t := by
  have hl1 : ∀ (f : Nat → BAction) (l : List Nat), BuiltL (l.map fun i => Htm.leaf (f i) none none false) ∧
      HFullL (l.map fun i => Htm.leaf (f i) none none false) ∧ ParFreeL (l.map fun i => Htm.leaf (f i) none none false) := by
    intro f l
    induction l with
    | nil => simp [BuiltL, HFullL, ParFreeL]
    | cons x l ih => simpa [BuiltL, HFullL, ParFreeL, Built, HFull, ParFree] using ih
  have hl2 : BuiltL (items.map towerSeqNode) ∧ HFullL (items.map towerSeqNode) ∧ ParFreeL (items.map towerSeqNode) := by
    clear hne
    induction items with
    | nil => simp [BuiltL, HFullL, ParFreeL]
    | cons x l ih =>
        obtain ⟨h1, h2, h3⟩ := ih (fun on hon => ho on (by simp [hon]))
        obtain ⟨g1, g2, g3⟩ := hl1 (placePart x.2) x.1
        refine ⟨⟨⟨by simp, g1⟩, h1⟩, ⟨⟨by simpa using ho x (by simp), g2⟩, h2⟩, ⟨⟨by simp, g3⟩, h3⟩⟩
  refine ⟨⟨fun _ => ⟨by simpa using hne, pr, rfl, hpr⟩, hl2.1⟩, ⟨by simpa using hne, hl2.2.1⟩, ?_, ⟨by simp, hl2.2.2⟩⟩
  have := callDepthL_tower items
  simp only [callDepth]
  omega

theorem isDistrib_uniform (n : Nat) (hn : n ≠ 0) : IsDistrib (List.replicate n (1 / (n : ℚ))) := by
  have hn' : (n : ℚ) ≠ 0 := by exact_mod_cast hn
  have h1 : (1 : ℚ) ≤ n := by exact_mod_cast Nat.one_le_iff_ne_zero.2 hn
  have hsum : (List.replicate n (1 / (n : ℚ))).sum = 1 := by
    rw [List.sum_replicate, nsmul_eq_mul]
    field_simp
  refine ⟨by simpa using hn, ?_, by rw [hsum]; norm_num⟩
  intro p hp
  rw [List.eq_of_mem_replicate hp]
  exact ⟨by positivity, by rw [div_le_one (by linarith)]; exact h1⟩

/-- **C67 (conversion of orders).**  A task of non-empty orders of parts of the towers is accepted by the bring-next conversion,
with the parts as objects, iff the discount is in `[0, 1]` and no part is listed twice in orders whose names have the same
radix. -/
theorem C67_accepts_orders (tw : Tower) (path : String) (p : BnParams) (hp : p.objects = tw.parts) (fuel : Nat) (hf : 3 ≤ fuel)
    (ht : towerTask orders names = .ok t)
    (ho : ∀ on ∈ orders.zip (towerNames orders names), on.1 ≠ [] ∧ ∀ i ∈ on.1, i < tw.h * tw.n) :
    (∃ q, bnToPomdp (some path) nameRadix p fuel t = .ok q) ↔
      ((orders.zip (towerNames orders names)).flatMap fun on => on.1.map fun i => (i, nameRadix on.2)).Nodup ∧
      0 ≤ p.disc ∧ p.disc ≤ 1 := by
  have hne := ((C67_task orders names).1).1 ⟨t, ht⟩
  obtain ⟨hleaves, -⟩ := C67_executions ht
  rw [towerTask_eq orders names _ rfl hne] at ht
  cases ht
  obtain ⟨hb, hfull, hd, hpf⟩ := tower_shape _ hne (fun on hon => (ho on hon).1) _
    (isDistrib_uniform (orders.zip (towerNames orders names)).length (fun h => hne (List.length_eq_zero_iff.1 h))) "Alt"
  have hobj : HasObjects (.comb .alternative ((orders.zip (towerNames orders names)).map towerSeqNode) none none "Alt" false
      (some (List.replicate (orders.zip (towerNames orders names)).length
        (1 / ((orders.zip (towerNames orders names)).length : ℚ))))) := by
    intro a ha
    rw [hleaves] at ha
    obtain ⟨on, -, ha⟩ := List.mem_flatMap.1 ha
    obtain ⟨i, -, rfl⟩ := List.mem_map.1 ha
    exact ⟨_, rfl⟩
  have hdec : Declared p.objects (.comb .alternative ((orders.zip (towerNames orders names)).map towerSeqNode) none none "Alt" false
      (some (List.replicate (orders.zip (towerNames orders names)).length
        (1 / ((orders.zip (towerNames orders names)).length : ℚ))))) := by
    intro a ha o hao
    rw [hleaves] at ha
    obtain ⟨on, hon, ha⟩ := List.mem_flatMap.1 ha
    obtain ⟨i, hi, rfl⟩ := List.mem_map.1 ha
    cases hao
    rw [hp]
    exact List.mem_map.2 ⟨i, List.mem_range.2 ((ho on hon).2 i hi), rfl⟩
  have hparts : p.objects.Nodup := by
    rw [hp]
    exact List.Nodup.map (fun i j h => pyStr_inj h) List.nodup_range
  rw [(((C35_bring_next path nameRadix p fuel _ hb hfull (by omega)).2 hpf hobj).2.1 hdec), hleaves]
  have hmap : (((orders.zip (towerNames orders names)).flatMap fun on =>
      on.1.map fun i => (⟨pyStr i ++ ("-" ++ on.2), some (pyStr i)⟩ : BAction)).map fun c => nameRadix c.name) =
      ((orders.zip (towerNames orders names)).flatMap fun on => on.1.map fun i => (i, nameRadix on.2)).map
        fun x => pyStr x.1 ++ ("-" ++ x.2) := by
    rw [List.map_flatMap, List.map_flatMap]
    congr 1
    funext on
    rw [List.map_map, List.map_map]
    congr 1
    funext i
    exact nameRadix_leaf i on.2
  rw [hmap]
  have hinj : Function.Injective fun x : Nat × String => pyStr x.1 ++ ("-" ++ x.2) := by
    rintro ⟨i, m⟩ ⟨j, n⟩ h
    obtain ⟨rfl, rfl⟩ := leafName_inj h
    rfl
  rw [List.nodup_map_iff hinj]
  exact ⟨fun h => h.2, fun h => ⟨hparts, h⟩⟩

end

/-- **C67 (vertical and horizontal).**  For towers with at least one part, the task with the vertical and the horizontal order
exists, its leaves have distinct names and place every part once per order, the executions are the two orders, and its
bring-next POMDP with the parts as objects is accepted iff the discount is in `[0, 1]`. -/
theorem C67_vertical_horizontal (tw : Tower) (hh : 0 < tw.h) (hn : 0 < tw.n) :
    ∃ t, tw.verticalHorizontal = .ok t ∧ ((Spec.leaves t).map BAction.name).Nodup ∧
      (∀ i < tw.h * tw.n, ((Spec.leaves t).filter fun a => a.obj = some (pyStr i)).length = 2) ∧
      (Spec.leaves t).length = 2 * (tw.h * tw.n) ∧
      (∀ u, HLin t u ↔ u = tw.vFirst.map (fun i => ⟨pyStr i ++ "-vertical", some (pyStr i)⟩) ∨
        u = tw.hFirst.map (fun i => ⟨pyStr i ++ "-horizontal", some (pyStr i)⟩)) ∧
      ∀ (path : String) (p : BnParams) (fuel : Nat), p.objects = tw.parts → 3 ≤ fuel →
        ((∃ q, bnToPomdp (some path) nameRadix p fuel t = .ok q) ↔ 0 ≤ p.disc ∧ p.disc ≤ 1) := by
  have hz : [tw.vFirst, tw.hFirst].zip (towerNames [tw.vFirst, tw.hFirst] (some ["vertical", "horizontal"])) =
      [(tw.vFirst, "vertical"), (tw.hFirst, "horizontal")] := rfl
  obtain ⟨t, ht⟩ := (C67_task [tw.vFirst, tw.hFirst] (some ["vertical", "horizontal"])).1.2 (by rw [hz]; simp)
  obtain ⟨hl, he⟩ := C67_executions ht
  rw [hz] at hl
  rw [hz] at he
  obtain ⟨o1, o2, o3, o4⟩ := C67_orders tw
  have hpos : 0 < tw.h * tw.n := Nat.mul_pos hh hn
  have hl' : Spec.leaves t = (tw.vFirst.map fun i => (⟨pyStr i ++ "-vertical", some (pyStr i)⟩ : BAction)) ++
      tw.hFirst.map fun i => ⟨pyStr i ++ "-horizontal", some (pyStr i)⟩ := by
    rw [hl, List.flatMap_cons, List.flatMap_cons, List.flatMap_nil, List.append_nil]
    rfl
  have hnodup : ([(tw.vFirst, "vertical"), (tw.hFirst, "horizontal")].flatMap fun on : List Nat × String =>
      on.1.map fun i => (i, on.2)).Nodup := by
    rw [List.flatMap_cons, List.flatMap_cons, List.flatMap_nil, List.append_nil, List.nodup_append]
    refine ⟨List.Nodup.map (fun i j h => by cases h; rfl) o3, List.Nodup.map (fun i j h => by cases h; rfl) o4, ?_⟩
    intro a ha b hb hab
    obtain ⟨i, -, rfl⟩ := List.mem_map.1 ha
    obtain ⟨j, -, rfl⟩ := List.mem_map.1 hb
    have h1 : "vertical" = "horizontal" := congrArg Prod.snd hab
    exact absurd h1 (by decide)
  refine ⟨t, ht, ?_, ?_, ?_, ?_, ?_⟩
  · rw [hl, List.map_flatMap]
    have hinj : Function.Injective fun x : Nat × String => pyStr x.1 ++ ("-" ++ x.2) := by
      rintro ⟨i, m⟩ ⟨j, n⟩ h
      obtain ⟨rfl, rfl⟩ := leafName_inj h
      rfl
    have := (List.nodup_map_iff hinj).2 hnodup
    rw [List.map_flatMap] at this
    simpa [List.map_map, Function.comp_def] using this
  · intro i hi
    have key : ∀ (l : List Nat) (s : String), l.Perm (List.range (tw.h * tw.n)) →
        ((l.map fun j => (⟨pyStr j ++ s, some (pyStr j)⟩ : BAction)).filter fun a => a.obj = some (pyStr i)).length = 1 := by
      intro l s hl
      rw [List.filter_map, List.length_map]
      have e : (l.filter ((fun a : BAction => decide (a.obj = some (pyStr i))) ∘ fun j =>
          (⟨pyStr j ++ s, some (pyStr j)⟩ : BAction))) = l.filter fun j => j = i := by
        apply List.filter_congr
        intro j _
        simp only [Function.comp, Option.some.injEq, decide_eq_decide]
        exact ⟨pyStr_inj, fun h => by rw [h]⟩
      rw [e, ← List.countP_eq_length_filter]
      have : l.count i = 1 := by
        rw [hl.count_eq, List.count_eq_one_of_mem List.nodup_range (List.mem_range.2 hi)]
      rw [← this, List.count]
      apply List.countP_congr
      intro x _
      simp
    rw [hl', List.filter_append, List.length_append, key _ _ o1, key _ _ o2]
  · rw [hl', List.length_append, List.length_map, List.length_map, o1.length_eq, o2.length_eq, List.length_range]
    omega
  · intro u
    rw [he]
    simp only [List.mem_cons, List.not_mem_nil, or_false, exists_eq_or_imp, exists_eq_left]
    rfl
  · intro path p fuel hp hf
    rw [C67_accepts_orders tw path p hp fuel hf ht ?_, hz]
    · constructor
      · exact fun h => h.2
      · intro h
        refine ⟨?_, h⟩
        have e1 : nameRadix "vertical" = "vertical" := by decide +kernel
        have e2 : nameRadix "horizontal" = "horizontal" := by decide +kernel
        rw [List.flatMap_cons, List.flatMap_cons, List.flatMap_nil, e1, e2]
        exact hnodup
    · rw [hz]
      intro on hon
      simp only [List.mem_cons, List.not_mem_nil, or_false] at hon
      rcases hon with rfl | rfl
      · refine ⟨fun h => ?_, fun i hi => List.mem_range.1 (o1.mem_iff.1 hi)⟩
        have h1 : tw.vFirst = [] := h
        rw [h1] at o1
        have := o1.length_eq
        simp at this
        omega
      · refine ⟨fun h => ?_, fun i hi => List.mem_range.1 (o2.mem_iff.1 hi)⟩
        have h1 : tw.hFirst = [] := h
        rw [h1] at o2
        have := o2.length_eq
        simp at this
        omega

/-- The default problem: two levels, three towers. -/
example : (⟨2, 3⟩ : Tower).vFirst = [0, 1, 2, 3, 4, 5] ∧ (⟨2, 3⟩ : Tower).hFirst = [0, 2, 4, 1, 3, 5] ∧
    (⟨2, 3⟩ : Tower).parts = ["0", "1", "2", "3", "4", "5"] := by
  refine ⟨by decide, by decide, by decide +kernel⟩

/-- The task of `samples/tower_scenario.py:14-26` is accepted. -/
example : ∃ t q, towerTask [[2, 0, 4, 3, 1, 5], [2, 4, 0, 3, 5, 1], [0, 1, 2, 3, 4, 5]] (some ["2-0-4-3-1-5", "2-4-0-3-5-1", "V"]) = .ok t ∧
    bnToPomdp (some "pomdp-solve") nameRadix ⟨2, 8, 5, (⟨2, 3⟩ : Tower).parts, 50, none, false, false⟩ 3 t = .ok q := by
  obtain ⟨t, ht⟩ := (C67_task [[2, 0, 4, 3, 1, 5], [2, 4, 0, 3, 5, 1], [0, 1, 2, 3, 4, 5]]
    (some ["2-0-4-3-1-5", "2-4-0-3-5-1", "V"])).1.2 (by decide)
  obtain ⟨q, hq⟩ := (C67_accepts_orders ⟨2, 3⟩ "pomdp-solve" ⟨2, 8, 5, (⟨2, 3⟩ : Tower).parts, 50, none, false, false⟩ rfl 3
    (le_refl _) ht (by decide)).2 ⟨by decide +kernel, by decide +kernel, by decide +kernel⟩
  exact ⟨t, q, ht, hq⟩

end Verif
