import Verif.Proof.Orders
import Verif.Props.HtmPomdp
import Verif.Props.BringNext

/-! # C83: the orders of a converted task have the probabilities given by the task -/

set_option linter.unusedSimpArgs false

namespace Verif
open Spec

/-- The number of leaves after the replacement of the parallel combinations. -/
local notation "len" n:max => List.length (N2P.leaves n)

/-- What C83 claims of the leaves completed by the robot: a leaf completed is followed by a leaf drawn from `q`, so that the orders
have the probabilities of `d`. -/
def Spec.RobotOrders (d : Chances CAction) (n : N2P CAction) (p : Pomdp) (q : Nat → Nat → ℚ) : Prop :=
  (∀ k c, n.leaves[k]? = some c → NextDist 3 n (3 * len n) k p.states.length (q k) ∧ ∀ x z, p.T.at_ x (3 * k + 2) z = robotRow c (q k) k x z) ∧
  SameChances (LabelsCopy CAction.ops n) (orderProb 3 (3 * len n) (fun s => p.start.getD s 0) q) d

/-- What C83 claims of the leaves completed by the human. -/
def Spec.HumanOrders (exp : ℚ → ℚ) (h : HtmParams) (d : Chances CAction) (n : N2P CAction) (p : Pomdp) (q : Nat → Nat → ℚ) : Prop :=
  (∀ k c, n.leaves[k]? = some c → NextDist 3 n (3 * len n) k p.states.length (q k) ∧
    ∀ x z, p.T.at_ x (3 * k + 1) z = if h.deterministic then humanRowDet (q k) k x z else humanRow exp c (actDuration h n x) (q k) k z) ∧
  SameChances (LabelsCopy CAction.ops n) (orderProb 3 (3 * len n) (fun s => p.start.getD s 0) q) d

/-- What C83 claims of a bring-next model: bringing the object of a leaf moves to a leaf drawn from `q`. -/
def Spec.BringOrders (h : BnParams) (d : Chances BAction) (n : N2P BAction) (p : Pomdp) (q : Nat → Nat → ℚ) : Prop :=
  (∀ k c, n.leaves[k]? = some c → NextDist 1 n (len n) k p.states.length (q k) ∧
    ∀ x z, p.T.at_ x k z = if h.objects[x]? = c.obj then q k z else stay k z) ∧
  SameChances (Labels n) (orderProb 1 (len n) (fun s => p.start.getD s 0) q) d

theorem copyClosed : ∀ (a b c : CAction) (i : Nat), CAction.ops.copy (orderFmt i) a = .ok b → CopyChain CAction.ops b c → CopyChain CAction.ops a c :=
  fun _ _ _ i h1 h2 => N2P.CopyChain.head CAction.ops i h1 h2

/-- **C83**, models of `HTMToPOMDP`, for every task: the orders in which the leaves are completed have in the model the probabilities
that they have in the task *when its alternatives are all as likely*; after a leaf, the same probabilities apply whether it was completed
by the robot or, without the flag `deterministic`, by the human. -/
theorem C83_htm_even_partial (path : String) (exp : ℚ → ℚ) (radix : String → String) (h : HtmParams) (fuel : Nat) (t : Htm CAction)
    (hb : Built t) (hf : HFull t) (hd : callDepth t ≤ fuel) (p : Pomdp)
    (hp : htmToPomdp (some path) exp radix h fuel t = .ok p) :
    ∃ n q, N2P.fromNode CAction.ops fuel t = .ok n ∧ RobotOrders (evenChances t) n p q ∧
      (h.deterministic = false → HumanOrders exp h (evenChances t) n p q) := by
  obtain ⟨n, h1, ⟨hfn, hlang, hleaves⟩, h3⟩ := htmToPomdp_ok (some path) exp radix h fuel t hb hf hd
  rw [h3] at hp
  obtain ⟨hs, eT, eO, eR, est, _, es, ea, eo, hg⟩ := htmConvert_ok path exp radix h n hfn p hp
  have hN : 3 * len n < htmNS h n := by unfold htmNS; split <;> omega
  have hlen : p.states.length = htmNS h n := by rw [es, htm_states_length]
  have hstart : ∀ s, p.start.getD s 0 = N2P.scatter0 (n.init 3 0) n.start s := by
    intro s
    rw [est]
    by_cases hs : s < htmNS h n
    · rw [getD_map_range _ _ _ hs]; rfl
    · rw [List.getD, List.getElem?_eq_none (by simpa using hs), N2P.scatter0, scatter_not_mem]
      · rfl
      · intro hm
        have := init_lt s hm
        omega
  have hsame : SameChances (LabelsCopy CAction.ops n)
      (orderProb 3 (3 * len n) (fun s => p.start.getD s 0) (N2P.rootDist 3 4 1 n (3 * len n))) (evenChances t) := by
    rw [show (fun s => p.start.getD s 0) = N2P.scatter0 (n.init 3 0) n.start from funext hstart]
    exact N2P.sameChances (by omega) n hfn (size3 n) (CopyChain CAction.ops) _
      (N2P.fromNode_chances CAction.ops copyTotal (CopyChain CAction.ops) CopyChain.refl fuel t n h1 hb (Or.inr copyClosed) 0)
  refine ⟨n, N2P.rootDist 3 4 1 n (3 * len n), h1, ⟨fun k c hk => ?_, hsame⟩, fun hdet => ⟨fun k c hk => ?_, hsame⟩⟩
  all_goals
    have hlt := (List.getElem?_eq_some_iff.1 hk).1
    obtain ⟨cx, hcx⟩ := N2P.root_exists (w := 3) (wa := 4) (a := 1) (fin := 3 * len n) (n := n) hlt
    have hact : cx.act = c := by
      have := (N2P.root_get hcx).1
      rw [hk] at this
      injection this with this
      exact this.symm
    rw [N2P.rootDist_eq hcx]
    refine ⟨by rw [hlen]; exact ctxDist_next (by omega) hfn (size3 n) hcx hN, fun x z => ?_⟩
    obtain ⟨m1, m2, m3⟩ := midT_leaf exp h hfn (size3 n) hcx x
    rw [eT]
    dsimp only
  · rw [htmT_mid exp h n x _ (by omega), m3, hact]
  · rw [htmT_mid exp h n x _ (by omega), m2, hact, hdet]
    rfl

/-- **C83**, models of `HTMToPOMDP`: the orders have the probabilities of the task, when its alternatives are all as likely.

Missing: alternatives with other probabilities and the flag `deterministic`, see `C83_false_probabilities` and `C83_false_deterministic`. -/
theorem C83_htm_partial (path : String) (exp : ℚ → ℚ) (radix : String → String) (h : HtmParams) (fuel : Nat) (t : Htm CAction)
    (hb : Built t) (hf : HFull t) (hd : callDepth t ≤ fuel) (hu : UniformAlts t) (p : Pomdp)
    (hp : htmToPomdp (some path) exp radix h fuel t = .ok p) :
    ∃ n q, N2P.fromNode CAction.ops fuel t = .ok n ∧ RobotOrders (chances t) n p q ∧ (h.deterministic = false → HumanOrders exp h (chances t) n p q) := by
  rw [← evenChances_uniform t hu]
  exact C83_htm_even_partial path exp radix h fuel t hb hf hd p hp

theorem demoTask_uniform : UniformAlts demoTask := by
  simp [demoTask, UniformAlts, UniformAltsL]

/-- The task of the example meets the hypotheses; its orders and their probabilities. -/
example : UniformAlts demoTask ∧ (chances demoTask).map (fun x => (x.1.map CAction.name, x.2)) =
    [(["Get legs", "Get seat"], 1 / 2), (["Get legs", "Mount", "Check"], 1 / 4), (["Get legs", "Check", "Mount"], 1 / 4)] :=
  ⟨demoTask_uniform, by
    simp [demoTask, chances, chancesBy, chancesByL, allD, thenD, scaleD, List.permutations, List.permutationsAux2, List.permutationsAux_cons]
    norm_num⟩

/-! ### The distributions are determined by the model -/

/-- Two claims on the same probabilities of orders. -/
theorem sameChances_two {A : Type} {lab : List Nat → List A → Prop} {prob prob' : List Nat → ℚ} {d d' : Chances A} (h : SameChances lab prob d)
    (h' : SameChances lab prob' d') (he : ∀ ks u, lab ks u → prob ks = prob' ks) : ∀ x ∈ d, x.2 ≠ 0 → ∃ y ∈ d', y.2 = x.2 := by
  obtain ⟨l, h1, -, h3, -⟩ := h
  obtain ⟨l', h4, -, h5, h6⟩ := h'
  intro x hx hne
  obtain ⟨y, hy, rfl⟩ := List.mem_map.1 (h1.mem_iff.2 hx)
  obtain ⟨h7, h8⟩ := h3 y hy
  obtain ⟨z, hz, e⟩ := List.mem_map.1 (h6 y.2.1 (by rw [← he _ _ h7, h8]; exact hne))
  refine ⟨_, h4.mem_iff.1 (List.mem_map_of_mem hz), ?_⟩
  dsimp only
  rw [← (h5 z hz).2, e, ← he _ _ h7, h8]

theorem orderProb_congr (w fin : Nat) (start : Nat → ℚ) (q q' : Nat → Nat → ℚ) (m : Nat) (h : ∀ k < m, q k = q' k) (ks : List Nat) (hk : ∀ k ∈ ks, k < m) :
    orderProb w fin start q ks = orderProb w fin start q' ks := by
  have hF : ∀ ks : List Nat, (∀ k ∈ ks, k < m) → followProb w fin q ks = followProb w fin q' ks := by
    intro ks
    induction ks with
    | nil => intro _; rfl
    | cons k ks ih =>
      intro hk
      cases ks with
      | nil => simp only [followProb, h k (hk k (by simp))]
      | cons j ks => simp only [followProb, h k (hk k (by simp)), ih (fun k' h' => hk k' (by simp [h']))]
  cases ks with
  | nil => rfl
  | cons k ks => simp only [orderProb, hF _ hk]

theorem labelsCopy_lt {n : N2P CAction} {ks : List Nat} {u : List CAction} (h : LabelsCopy CAction.ops n ks u) : ∀ k ∈ ks, k < len n := by
  obtain ⟨u', h1, -⟩ := h
  intro k hk
  obtain ⟨i, hi, rfl⟩ := List.getElem_of_mem hk
  have := (List.forall₂_iff_get.1 h1).2 i hi ((List.Forall₂.length_eq h1) ▸ hi)
  exact (List.getElem?_eq_some_iff.1 this).1

theorem robotOrders_two {d d' : Chances CAction} {n : N2P CAction} {p : Pomdp} {q q' : Nat → Nat → ℚ} (hfail : ∀ c ∈ n.leaves, c.failProba ≠ 1)
    (h : RobotOrders d n p q) (h' : RobotOrders d' n p q') : ∀ x ∈ d, x.2 ≠ 0 → ∃ y ∈ d', y.2 = x.2 := by
  refine sameChances_two h.2 h'.2 fun ks u hl => orderProb_congr _ _ _ _ _ (len n) (fun k hk => ?_) _ (labelsCopy_lt hl)
  funext z
  have hc : n.leaves[k]? = some n.leaves[k] := List.getElem?_eq_getElem hk
  have h1 := (h.1 k _ hc).2 (4 * k + 1) z
  rw [(h'.1 k _ hc).2 (4 * k + 1) z] at h1
  simp only [robotRow, if_true] at h1
  have hne : (1 : ℚ) - n.leaves[k].failProba ≠ 0 := sub_ne_zero.2 (hfail _ (List.getElem_mem hk)).symm
  exact (mul_left_cancel₀ hne (add_left_cancel h1)).symm

theorem humanOrders_two {exp : ℚ → ℚ} {h : HtmParams} {d d' : Chances CAction} {n : N2P CAction} {p : Pomdp} {q q' : Nat → Nat → ℚ}
    (hdet : h.deterministic = false) (hexp : ∀ x, exp x ≠ 1) (h1 : HumanOrders exp h d n p q) (h1' : HumanOrders exp h d' n p q') :
    ∀ x ∈ d, x.2 ≠ 0 → ∃ y ∈ d', y.2 = x.2 := by
  refine sameChances_two h1.2 h1'.2 fun ks u hl => orderProb_congr _ _ _ _ _ (len n) (fun k hk => ?_) _ (labelsCopy_lt hl)
  funext z
  have hc : n.leaves[k]? = some n.leaves[k] := List.getElem?_eq_getElem hk
  have h2 := (h1.1 k _ hc).2 0 z
  rw [(h1'.1 k _ hc).2 0 z] at h2
  simp only [hdet, Bool.false_eq_true, if_false, humanRow] at h2
  exact (mul_left_cancel₀ (sub_ne_zero.2 (hexp _).symm) (add_left_cancel h2)).symm

/-! ### Other probabilities -/

/-- Two alternatives, one twice as likely as the other. -/
def unevenTask : Htm CAction :=
  let a (s : String) : Htm CAction := .leaf ⟨s, 1, 2, 3, 1 / 10, 1 / 20⟩ none none false
  .comb .alternative [a "Walk", a "Drive"] none none "go" false (some [1 / 3, 2 / 3])

theorem unevenTask_built : Built unevenTask := by
  have hd : IsDistrib [(1 : ℚ) / 3, 2 / 3] := ⟨List.cons_ne_nil _ _, by norm_num, by norm_num⟩
  simp [unevenTask, Built, BuiltL]
  simpa using hd

/-- **C83** is false when the alternatives of a task have different probabilities: the probabilities of the task are not used
(`task_to_pomdp.py:363-369`), neither for the robot nor for the human. -/
theorem C83_false_probabilities : Built unevenTask ∧ HFull unevenTask ∧
    ∃ p, htmToPomdp (some "pomdp-solve") (fun _ => 1 / 2) id demoParams 5 unevenTask = .ok p ∧
      ∀ n, N2P.fromNode CAction.ops 5 unevenTask = .ok n → ¬ (∃ q, RobotOrders (chances unevenTask) n p q) ∧
        ¬ ∃ q, HumanOrders (fun _ => 1 / 2) demoParams (chances unevenTask) n p q := by
  have hf : HFull unevenTask := by simp [unevenTask, HFull, HFullL]
  obtain ⟨n, h1, h2⟩ := C31_well_formed_partial "pomdp-solve" (fun _ => 1 / 2) id demoParams 5 unevenTask unevenTask_built hf (by decide) rfl (by decide)
  have hn : N2P.fromNode CAction.ops 5 unevenTask = .ok (.alt [.leaf ⟨"Walk", 1, 2, 3, 1 / 10, 1 / 20⟩, .leaf ⟨"Drive", 1, 2, 3, 1 / 10, 1 / 20⟩]) := by rfl
  have hconv : ∃ p, htmToPomdp (some "pomdp-solve") (fun _ => 1 / 2) id demoParams 5 unevenTask = .ok p := by
    refine (h2 (by intro h; cases h)).1.2 ?_
    rw [hn] at h1
    injection h1 with h1
    subst h1
    decide
  obtain ⟨p, hp⟩ := hconv
  refine ⟨unevenTask_built, hf, p, hp, fun n' hn' => ?_⟩
  obtain ⟨n'', q', hn'', hr, hh⟩ := C83_htm_even_partial "pomdp-solve" _ id demoParams 5 unevenTask unevenTask_built hf (by decide) p hp
  rw [hn'] at hn''
  injection hn'' with hn''
  subst hn''
  have hc : chances unevenTask = [([⟨"Walk", 1, 2, 3, 1 / 10, 1 / 20⟩], 1 / 3), ([⟨"Drive", 1, 2, 3, 1 / 10, 1 / 20⟩], 2 / 3)] := by
    simp [unevenTask, chances, chancesBy, chancesByL, scaleD]
  have he : evenChances unevenTask = [([⟨"Walk", 1, 2, 3, 1 / 10, 1 / 20⟩], 1 / 2), ([⟨"Drive", 1, 2, 3, 1 / 10, 1 / 20⟩], 1 / 2)] := by
    simp [unevenTask, evenChances, chancesBy, chancesByL, scaleD, List.replicate]
  have key : ¬ ∀ x ∈ chances unevenTask, x.2 ≠ 0 → ∃ y ∈ evenChances unevenTask, y.2 = x.2 := by
    intro hall
    obtain ⟨y, hy, e⟩ := hall ([⟨"Walk", 1, 2, 3, 1 / 10, 1 / 20⟩], 1 / 3) (by rw [hc]; simp) (by norm_num)
    rw [he] at hy
    simp only [List.mem_cons, List.not_mem_nil, or_false] at hy
    rcases hy with rfl | rfl <;> norm_num at e
  constructor
  · rintro ⟨q, hq⟩
    refine key (robotOrders_two ?_ hq hr)
    rw [hn] at hn'
    injection hn' with hn'
    subst hn'
    intro c hc
    simp only [N2P.leaves, N2P.leavesL, List.cons_append, List.nil_append, List.mem_cons, List.not_mem_nil, or_false] at hc
    rcases hc with rfl | rfl <;> norm_num
  · rintro ⟨q, hq⟩
    exact key (humanOrders_two rfl (by norm_num) hq (hh rfl))

/-! ### The flag `deterministic` -/

/-- A first action, then an alternative whose second branch is an alternative. -/
def nestedTask : Htm CAction :=
  let a (s : String) : Htm CAction := .leaf ⟨s, 1, 2, 3, 1 / 10, 1 / 20⟩ none none false
  .comb .sequential [a "Prepare", .comb .alternative [a "Walk", .comb .alternative [a "Drive", a "Fly"] none none "travel" false (some [1 / 2, 1 / 2])]
    none none "go" false (some [1 / 2, 1 / 2])] none none "trip" false none

/-- Its conversion. -/
def nestedTree : N2P CAction :=
  let a (s : String) : N2P CAction := .leaf ⟨s, 1, 2, 3, 1 / 10, 1 / 20⟩
  .seq [a "Prepare", .alt [a "Walk", .alt [a "Drive", a "Fly"]]]

theorem nestedTask_built : Built nestedTask ∧ HFull nestedTask ∧ UniformAlts nestedTask := by
  have hd : IsDistrib [(1 : ℚ) / 2, 1 / 2] := ⟨List.cons_ne_nil _ _, by norm_num, by norm_num⟩
  refine ⟨?_, by simp [nestedTask, HFull, HFullL], by simp [nestedTask, UniformAlts, UniformAltsL]⟩
  simp [nestedTask, Built, BuiltL]
  simpa using hd

theorem nestedTree_eq : N2P.fromNode CAction.ops 5 nestedTask = .ok nestedTree := by rfl

/-- **C83** is false with the flag `deterministic`: the human who completed a leaf goes to all next states with the same probability
(`task_to_pomdp.py:201-210`), although the alternatives of the task are all as likely. -/
theorem C83_false_deterministic : Built nestedTask ∧ HFull nestedTask ∧ UniformAlts nestedTask ∧
    ∃ p, htmToPomdp (some "pomdp-solve") (fun _ => 1 / 2) id { demoParams with deterministic := true } 5 nestedTask = .ok p ∧
      ∀ n, N2P.fromNode CAction.ops 5 nestedTask = .ok n →
        ¬ ∃ q, HumanOrders (fun _ => 1 / 2) { demoParams with deterministic := true } (chances nestedTask) n p q := by
  obtain ⟨hb, hf, hu⟩ := nestedTask_built
  obtain ⟨n, h1, h2⟩ := C31_well_formed_partial "pomdp-solve" (fun _ => 1 / 2) id { demoParams with deterministic := true } 5 nestedTask hb hf (by decide) rfl
    (by decide)
  rw [nestedTree_eq] at h1
  injection h1 with h1
  subst h1
  have hconv : ∃ p, htmToPomdp (some "pomdp-solve") (fun _ => 1 / 2) id { demoParams with deterministic := true } 5 nestedTask = .ok p := by
    refine (h2 (by intro h; cases h)).1.2 ?_
    decide
  obtain ⟨p, hp⟩ := hconv
  refine ⟨hb, hf, hu, p, hp, fun n' hn' => ?_⟩
  rw [nestedTree_eq] at hn'
  injection hn' with hn'
  subst hn'
  rintro ⟨q, hq, l, h3, -, h4, -⟩
  obtain ⟨n, h5, ⟨hfn, -, -⟩, h6⟩ := htmToPomdp_ok (some "pomdp-solve") (fun _ => 1 / 2) id { demoParams with deterministic := true } 5 nestedTask hb hf (by decide)
  rw [nestedTree_eq] at h5
  injection h5 with h5
  subst h5
  rw [h6] at hp
  obtain ⟨-, eT, -, -, est, -⟩ := htmConvert_ok "pomdp-solve" _ id _ nestedTree hfn p hp
  have hq' : ∀ k c, nestedTree.leaves[k]? = some c → ∀ z, q k z = htmTArr (fun _ => 1 / 2) { demoParams with deterministic := true } nestedTree (4 * k + 4) (3 * k + 1) z := by
    intro k c hk z
    have := (hq k c hk).2 (4 * k + 4) z
    rw [eT] at this
    simp only [humanRowDet, if_true] at this
    exact this.symm
  have hc : ([⟨"Prepare", 1, 2, 3, 1 / 10, 1 / 20⟩, ⟨"Walk", 1, 2, 3, 1 / 10, 1 / 20⟩], 1 / 2) ∈ chances nestedTask := by
    simp [nestedTask, chances, chancesBy, chancesByL, scaleD, allD, thenD]
  obtain ⟨y, hy, e⟩ := List.mem_map.1 (h3.mem_iff.2 hc)
  obtain ⟨⟨u', h7, h8⟩, h9⟩ := h4 y hy
  obtain ⟨y1, ks, v⟩ := y
  injection e with e1 e2
  dsimp only at e1 e2 h7 h8 h9
  subst e1 e2
  obtain ⟨a, b, rfl⟩ : ∃ a b, u' = [a, b] := by
    have := h8.length_eq
    match u', this with
    | [a, b], _ => exact ⟨a, b, rfl⟩
  obtain ⟨i, j, rfl⟩ : ∃ i j, ks = [i, j] := by
    have := List.Forall₂.length_eq h7
    match ks, this with
    | [i, j], _ => exact ⟨i, j, rfl⟩
  simp only [Labels, List.forall₂_cons] at h7
  have hi := (List.getElem?_eq_some_iff.1 h7.1).1
  have hj := (List.getElem?_eq_some_iff.1 h7.2.1).1
  simp only [orderProb, followProb] at h9
  rw [hq' i _ h7.1, hq' j _ h7.2.1, est, getD_map_range _ _ _ (by unfold htmNS; split <;> omega)] at h9
  have key : ∀ i < 4, ∀ j < 4, scatter (fun _ => 0) (nestedTree.init 3 0) nestedTree.start (3 * i) *
      (htmTArr (fun _ => 1 / 2) { demoParams with deterministic := true } nestedTree (4 * i + 4) (3 * i + 1) (3 * j) *
        htmTArr (fun _ => 1 / 2) { demoParams with deterministic := true } nestedTree (4 * j + 4) (3 * j + 1) 12) ≠ 1 / 2 := by
    decide +kernel
  exact key i hi j hj h9

/-! ### The bring-next models -/

theorem bnFromNode_eq (fuel : Nat) : ∀ t n, bnFromNode fuel t = .ok n → N2P.fromNode BAction.ops fuel t = .ok n := by
  induction fuel with
  | zero => intro t n h; cases h
  | succ fuel ih =>
    have hm : ∀ (cs : List (Htm BAction)) ns, cs.mapM (bnFromNode fuel) = .ok ns → cs.mapM (N2P.fromNode BAction.ops fuel) = .ok ns := by
      intro cs
      induction cs with
      | nil => intro ns h; exact h
      | cons c cs ihc =>
        intro ns h
        simp only [List.mapM_cons, bind, Except.bind, pure, Except.pure] at h ⊢
        cases h1 : bnFromNode fuel c with
        | error e => rw [h1] at h; cases h
        | ok m =>
          rw [h1] at h
          rw [ih _ _ h1]
          dsimp only at h ⊢
          cases h2 : cs.mapM (bnFromNode fuel) with
          | error e => rw [h2] at h; cases h
          | ok ms =>
            rw [h2] at h
            rw [ihc _ h2]
            exact h
    intro t n h
    match t with
    | .leaf a _ _ _ =>
      simp only [bnFromNode, bnLeaf] at h
      split at h
      · cases h
      · exact h
    | .comb .sequential cs _ _ _ _ _ =>
      simp only [bnFromNode, bind, Except.bind, pure, Except.pure] at h
      simp only [N2P.fromNode, bind, Except.bind, pure, Except.pure]
      cases h2 : cs.mapM (bnFromNode fuel) with
      | error e => rw [h2] at h; cases h
      | ok ms => rw [h2] at h; rw [hm _ _ h2]; exact h
    | .comb .alternative cs _ _ _ _ _ =>
      simp only [bnFromNode, bind, Except.bind, pure, Except.pure] at h
      simp only [N2P.fromNode, bind, Except.bind, pure, Except.pure]
      cases h2 : cs.mapM (bnFromNode fuel) with
      | error e => rw [h2] at h; cases h
      | ok ms => rw [h2] at h; rw [hm _ _ h2]; exact h
    | .comb .parallel cs _ _ nm hid _ =>
      simp only [bnFromNode, bind, Except.bind, pure, Except.pure] at h
      simp only [N2P.fromNode, bind, Except.bind, pure, Except.pure]
      cases h1 : toAlternative BAction.ops cs nm hid with
      | error e => rw [h1] at h; cases h
      | ok t =>
        rw [h1] at h
        dsimp only at h ⊢
        cases h2 : t.children.mapM (bnFromNode fuel) with
        | error e => rw [h2] at h; cases h
        | ok ms => rw [h2] at h; rw [hm _ _ h2]; exact h

/-- **C83**, bring-next models, for every task: the orders have the probabilities of the task when its alternatives are all as likely. -/
theorem C83_bring_next_even_partial (path : String) (radix : String → String) (h : BnParams) (fuel : Nat) (t : Htm BAction) (hb : Built t) (hf : HFull t)
    (hd : callDepth t ≤ fuel) (p : Pomdp) (hp : bnToPomdp (some path) radix h fuel t = .ok p) :
    ∃ n q, bnFromNode fuel t = .ok n ∧ BringOrders h (evenChances t) n p q := by
  obtain ⟨g1, g2⟩ := bnFromNode_spec fuel t hb hf hd
  have hg : BnGood t := by
    by_contra hg
    simp [bnToPomdp, g2 hg, bind, Except.bind] at hp
  obtain ⟨n, h1, hfn, hl, hlang⟩ := g1 hg
  have h3 : bnToPomdp (some path) radix h fuel t = bnConvert (some path) radix h n := by simp [bnToPomdp, h1, bind, Except.bind]
  rw [h3] at hp
  have hde : BnDecl h n := by
    by_contra hde
    rw [bnConvert_error h _ _ hfn hde] at hp
    cases hp
  obtain ⟨eT, eO, eR, est, _, es, ea, eo, hgd, hon⟩ := bn_ok_fields path radix h n hfn hde p hp
  have hlen : p.states.length = len n + 1 := by rw [es, bn_states_length]
  have hstart : ∀ s, p.start.getD s 0 = N2P.scatter0 (n.init 1 0) n.start s := by
    intro s
    rw [est]
    by_cases hs : s < len n + 1
    · rw [getD_map_range _ _ _ hs]; rfl
    · rw [List.getD, List.getElem?_eq_none (by simpa using hs), N2P.scatter0, scatter_not_mem]
      · rfl
      · intro hm
        have := initW_lt s hm
        omega
  have size1 : n.size 1 ≤ len n := by simp [N2P.size]
  refine ⟨n, N2P.rootDist 1 0 0 n (len n), h1, fun k c hk => ?_, ?_⟩
  · have hlt := (List.getElem?_eq_some_iff.1 hk).1
    obtain ⟨cx, hcx⟩ := N2P.root_exists (w := 1) (wa := 0) (a := 0) (fin := len n) (n := n) hlt
    have hact : cx.act = c := by
      have := (N2P.root_get hcx).1
      rw [hk] at this
      injection this with this
      exact this.symm
    rw [N2P.rootDist_eq hcx]
    refine ⟨by rw [hlen]; exact ctxDist_next (by omega) hfn size1 hcx (by omega), fun x z => ?_⟩
    rw [eT]
    dsimp only
    rw [bnT_leaf h hfn hcx x, hact]
    have hmem : c ∈ n.leaves := List.mem_of_getElem? hk
    obtain ⟨o, ho⟩ := hg.2 c (by rw [← hl]; exact hmem)
    have hob : c.objName = o := by rw [BAction.objName, ho]; rfl
    obtain ⟨i, hi⟩ := List.getElem?_of_mem (hde c hmem)
    have hgi := (getIdx_eq h hon hi).1
    have : x = getIdx h c ↔ h.objects[x]? = c.obj := by
      rw [hgi, ho, ← hob]
      constructor
      · rintro rfl; exact hi
      · intro hx
        obtain ⟨hx1, hx2⟩ := List.getElem?_eq_some_iff.1 hx
        obtain ⟨hi1, hi2⟩ := List.getElem?_eq_some_iff.1 hi
        exact (List.Nodup.getElem_inj_iff hon).1 (hx2.trans hi2.symm)
    by_cases hx : x = getIdx h c
    · rw [if_pos hx, if_pos (this.1 hx)]
    · rw [if_neg hx, if_neg (fun h' => hx (this.2 h'))]
  · rw [show (fun s => p.start.getD s 0) = N2P.scatter0 (n.init 1 0) n.start from funext hstart]
    have := N2P.sameChances (wa := 0) (a := 0) (by omega) n hfn size1 Eq _
      (N2P.fromNode_chances BAction.ops bnCopyTotal Eq (fun _ => rfl) fuel t n (bnFromNode_eq fuel t n h1) hb (Or.inl hg.1) 0)
    obtain ⟨l, h4, h5, h6, h7⟩ := this
    refine ⟨l, h4, h5, fun x hx => ⟨?_, (h6 x hx).2⟩, h7⟩
    obtain ⟨u', h8, h9⟩ := (h6 x hx).1
    rw [List.forall₂_eq_eq_eq] at h9
    subst h9
    exact h8

/-- **C83**, bring-next models, when the alternatives of the task are all as likely.

Missing: alternatives with other probabilities (as for `HTMToPOMDP`), and the later repetitions of the task with the flag `loop`, see
`C83_false_loop`. -/
theorem C83_bring_next_partial (path : String) (radix : String → String) (h : BnParams) (fuel : Nat) (t : Htm BAction) (hb : Built t) (hf : HFull t)
    (hd : callDepth t ≤ fuel) (hu : UniformAlts t) (p : Pomdp) (hp : bnToPomdp (some path) radix h fuel t = .ok p) :
    ∃ n q, bnFromNode fuel t = .ok n ∧ BringOrders h (chances t) n p q := by
  rw [← evenChances_uniform t hu]
  exact C83_bring_next_even_partial path radix h fuel t hb hf hd p hp

/-- The task of the example meets the hypotheses; its orders and their probabilities. -/
example : UniformAlts bringTask ∧ (chances bringTask).map (fun x => (x.1.map BAction.name, x.2)) =
    [(["Leg 1", "Seat", "Leg 2"], 1 / 2), (["Leg 1", "Back", "Leg 2"], 1 / 2)] := by
  refine ⟨by simp [bringTask, UniformAlts, UniformAltsL], ?_⟩
  simp [bringTask, chances, chancesBy, chancesByL, allD, thenD, scaleD]

/-- The alternative of the example above, with objects. -/
def nestedBring : Htm BAction :=
  let a (s : String) : Htm BAction := .leaf ⟨s, some s⟩ none none false
  .comb .alternative [a "leg", .comb .alternative [a "seat", a "back"] none none "top" false (some [1 / 2, 1 / 2])] none none "part" false (some [1 / 2, 1 / 2])

theorem nestedBring_built : Built nestedBring ∧ HFull nestedBring ∧ UniformAlts nestedBring := by
  have hd : IsDistrib [(1 : ℚ) / 2, 1 / 2] := ⟨List.cons_ne_nil _ _, by norm_num, by norm_num⟩
  refine ⟨?_, by simp [nestedBring, HFull, HFullL], by simp [nestedBring, UniformAlts, UniformAltsL]⟩
  simp [nestedBring, Built, BuiltL]
  simpa using hd

/-- **C83** is false of the later repetitions of a task: with the flag `loop`, the first leaf of the next repetition is not drawn with the
probabilities of the first (`bring_next_to_pomdp.py:206-211`), although the alternatives of the task are all as likely. -/
theorem C83_false_loop : Built nestedBring ∧ HFull nestedBring ∧ UniformAlts nestedBring ∧
    ∃ p, bnToPomdp (some "pomdp-solve") id (bringParams true) 5 nestedBring = .ok p ∧ p.states.length = 4 ∧
      p.start = [1 / 2, 1 / 4, 1 / 4, 0] ∧ ∀ x, (List.range 4).map (p.T.at_ x 3) = [1 / 3, 1 / 3, 1 / 3, 0] := by
  obtain ⟨hb, hf, hu⟩ := nestedBring_built
  refine ⟨hb, hf, hu, ?_⟩
  have hok : ParFree nestedBring ∧ HasObjects nestedBring ∧ Declared ["leg", "seat", "back"] nestedBring := by
    simp [nestedBring, ParFree, ParFreeL, HasObjects, Declared, Spec.leaves, Spec.leavesL]
  obtain ⟨p, hp⟩ := (((C35_bring_next "pomdp-solve" id (bringParams true) 5 nestedBring hb hf (by decide)).2 hok.1 hok.2.1).2.1 hok.2.2).2
    ⟨(by decide : ["leg", "seat", "back"].Nodup), by decide, by norm_num [BnParams.disc, bringParams], by norm_num [BnParams.disc, bringParams]⟩
  obtain ⟨n, h1, hfn, hl, -⟩ := (bnFromNode_spec 5 nestedBring hb hf (by decide)).1 ⟨hok.1, hok.2.1⟩
  have h3 : bnToPomdp (some "pomdp-solve") id (bringParams true) 5 nestedBring = bnConvert (some "pomdp-solve") id (bringParams true) n := by
    simp [bnToPomdp, h1, bind, Except.bind]
  have hde := (bn_decl_iff (bringParams true) hl hok.2.1).2 hok.2.2
  refine ⟨p, hp, ?_⟩
  rw [h3] at hp
  obtain ⟨eT, _, _, est, _, es, _⟩ := bn_ok_fields _ _ _ n hfn hde p hp
  have hn : bnFromNode 5 nestedBring = .ok (.alt [.leaf ⟨"leg", some "leg"⟩, .alt [.leaf ⟨"seat", some "seat"⟩, .leaf ⟨"back", some "back"⟩]]) := by rfl
  rw [hn] at h1
  injection h1 with h1
  subst h1
  refine ⟨by rw [es]; rfl, by rw [est]; decide +kernel, fun x => ?_⟩
  rw [eT]
  dsimp only
  have := bnT_end (bringParams true) (n := .alt [.leaf ⟨"leg", some "leg"⟩, .alt [.leaf ⟨"seat", some "seat"⟩, .leaf ⟨"back", some "back"⟩]]) x
  rw [show (3 : Nat) = len (N2P.alt [.leaf (⟨"leg", some "leg"⟩ : BAction), .alt [.leaf ⟨"seat", some "seat"⟩, .leaf ⟨"back", some "back"⟩]]) from rfl, this]
  decide +kernel

end Verif
