import Verif.Props.HtmPomdp

/-! Property C31 (the exact condition of the conversion). -/

namespace Verif
open Spec

/-- A task has a first leaf. -/
theorem exists_isFirst (n : N2P CAction) (h : Full n) : ∃ k, IsFirst n k := by
  obtain ⟨x, hx⟩ := List.exists_mem_of_ne_nil _ (N2P.init_ne_nil 1 n h 0)
  exact ⟨x, (N2P.root_init (w := 1) (by omega) h x).1 (by rwa [one_mul])⟩

/-- **C31 (exact condition).**  The conversion of a well-built task without empty combinations, with any flags, succeeds exactly
without `structured`, with at most one first leaf and no `reward_state` if there is a `loop`, and with distinct names; otherwise
it raises `AttributeError` with `structured` and `ValueError` without. -/
theorem C31_accepted (path : String) (exp : ℚ → ℚ) (radix : String → String) (h : HtmParams) (fuel : Nat) (t : Htm CAction)
    (hb : Built t) (hf : HFull t) (hd : callDepth t ≤ fuel) :
    ∃ n, N2P.fromNode CAction.ops fuel t = .ok n ∧
      ((∃ p, htmToPomdp (some path) exp radix h fuel t = .ok p) ↔
        h.structured = false ∧ (h.loop = true → h.rewardState = false ∧ ∀ i j, IsFirst n i → IsFirst n j → i = j) ∧
          (n.leaves.map fun c => radix c.name).Nodup) ∧
      ((∃ p, htmToPomdp (some path) exp radix h fuel t = .ok p) ∨
        htmToPomdp (some path) exp radix h fuel t = .error (if h.structured then .attributeError else .valueError)) := by
  obtain ⟨n, h1, ⟨hfn, -, -⟩, h3⟩ := htmToPomdp_ok (some path) exp radix h fuel t hb hf hd
  refine ⟨n, h1, ⟨?_, ?_⟩, ?_⟩
  · rintro ⟨p, hp⟩
    have hs : h.structured = false := by
      cases hs : h.structured with
      | false => rfl
      | true => rw [C31_false_structured (some path) exp radix h fuel t hb hf hd hs] at hp; cases hp
    have hl : h.loop = true → h.rewardState = false ∧ ∀ i j, IsFirst n i → IsFirst n j → i = j := by
      intro hl
      cases hr : h.rewardState with
      | true => rw [C31_false_loop_reward path exp radix h fuel t hb hf hd hs hl hr] at hp; cases hp
      | false =>
        refine ⟨rfl, fun i j hi hj => ?_⟩
        by_contra hij
        rw [C31_false_loop path exp radix h fuel t hb hf hd hs hl hr n h1 i j hi hj hij] at hp
        cases hp
    obtain ⟨n', h1', hw⟩ := C31_well_formed_partial path exp radix h fuel t hb hf hd hs (fun e => (hl e).1)
    rw [h1] at h1'
    cases h1'
    refine ⟨hs, hl, (hw fun e => ?_).1.1 ⟨p, hp⟩⟩
    obtain ⟨k, hk⟩ := exists_isFirst n hfn
    exact ⟨k, fun j => ⟨fun hj => (hl e).2 j k hj hk, fun e' => e' ▸ hk⟩⟩
  · rintro ⟨hs, hl, hnames⟩
    obtain ⟨n', h1', hw⟩ := C31_well_formed_partial path exp radix h fuel t hb hf hd hs (fun e => (hl e).1)
    rw [h1] at h1'
    cases h1'
    refine (hw fun e => ?_).1.2 hnames
    obtain ⟨k, hk⟩ := exists_isFirst n hfn
    exact ⟨k, fun j => ⟨fun hj => (hl e).2 j k hj hk, fun e' => e' ▸ hk⟩⟩
  · cases hs : h.structured with
    | true => exact Or.inr (C31_false_structured (some path) exp radix h fuel t hb hf hd hs)
    | false =>
      rw [h3, htmConvert_eq _ _ _ _ _ (full_noEmpty n hfn) hs]
      exact mk'_cost ..

/-- Non-vacuity: a task that is accepted, also with a loop. -/
example : Built demoTask ∧ HFull demoTask ∧ callDepth demoTask ≤ 5 ∧
    (∃ p, htmToPomdp (some "pomdp-solve") (fun _ => 1 / 2) id { demoParams with loop := true } 5 demoTask = .ok p) := by
  refine ⟨demoTask_built, demoTask_full, by decide, ?_⟩
  have : (htmToPomdp (some "pomdp-solve") (fun _ => 1 / 2) id { demoParams with loop := true } 5 demoTask).toOption.isSome = true := by
    decide +kernel
  cases hx : htmToPomdp (some "pomdp-solve") (fun _ => 1 / 2) id { demoParams with loop := true } 5 demoTask with
  | error e => rw [hx] at this; simp [Except.toOption] at this
  | ok p => exact ⟨p, rfl⟩

end Verif
