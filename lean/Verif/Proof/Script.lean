import Verif.Spec.Script
import Verif.Props.Solve
import Verif.Props.Names
import Verif.Props.StartTrees
import Verif.Props.VisitRun

/-! Lemmas for the scripts (C116). -/

set_option linter.unusedSectionVars false
set_option linter.unusedSimpArgs false

namespace Verif
open Verif.Spec

theorem goodTask_pomdp (path : String) (exp : ℚ → ℚ) (h : HtmParams) (fuel : Nat) (t : Htm CAction) (ht : GoodTask h t)
    (hexp : ∀ x ≤ 0, 0 ≤ exp x ∧ exp x ≤ 1) (hd : callDepth t ≤ fuel) :
    ∃ p nS nA nO, htmToPomdp (some path) exp nameRadix h fuel t = .ok p ∧ Stochastic p nS nA nO ∧ NamesDistinct p ∧ IsDist nS p.start ∧ nO ≤ 5 ∧
      ∀ fmt strNum, ∃ text, p.dump fmt strNum = .ok text := by
  obtain ⟨hb, hf, hn, hl, hs, hlo, w1, w2, w3⟩ := ht
  obtain ⟨p, hp, hnd, -⟩ := (C99_accepted path exp h fuel t hb hf hd hs hlo).1 hn
  obtain ⟨n, h1, h2⟩ := C31_well_formed_partial path exp nameRadix h fuel t hb hf hd hs (by simp [hlo])
  obtain ⟨nS, nA, nO, e1, e2, e3, e4, e5, e6, e7⟩ := (h2 (by simp [hlo])).2 p hp
  obtain ⟨n', h1', ⟨hfn, -, hlv⟩, h4⟩ := htmToPomdp_ok (some path) exp nameRadix h fuel t hb hf hd
  rw [h1] at h1'
  cases h1'
  rw [h4] at hp
  obtain ⟨_, _, _, _, _, _, _, _, ho, _⟩ := htmConvert_ok path exp nameRadix h n hfn p hp
  refine ⟨p, nS, nA, nO, h4 ▸ hp, ⟨e1, e7 (fun c hc => (hl c hc).1) ?_, e5⟩, hnd, e6, ?_, ?_⟩
  · intro _ c hc x hx
    refine hexp _ (div_nonpos_of_nonpos_of_nonneg (neg_nonpos.2 ?_) (hl c hc).2.1.le)
    unfold actDuration
    match x with
    | 0 => exact w1
    | x + 1 =>
      dsimp only
      cases hx' : n.leaves[x / 4]? with
      | none => exact le_refl _
      | some c' =>
        obtain ⟨a, ha, hch⟩ := hlv c' (List.mem_of_getElem? hx')
        obtain ⟨f1, f2, f3, _⟩ := copyChain_fields hch
        have herr : 0 ≤ c'.tErr := by
          have := (hl a ha).2.2
          first | rwa [f1] | rwa [f2] | rwa [f3]
        have : x % 4 < 4 := Nat.mod_lt _ (by omega)
        interval_cases x % 4 <;> simp [herr, w2, w3]
  · have := e1.2.2.1
    rw [← this, ho]
    unfold htmObservations
    split <;> simp
  · intro fmt strNum
    rw [htmConvert_eq _ _ _ _ _ (full_noEmpty n hfn) hs] at hp
    exact C41_defined _ _ _ _ _ _ _ _ _ _ p hp fmt strNum

theorem solve_ok (mach : Machine) (p : Pomdp) (timeout nIterations : Option Int) (method : String) (gridType : Option String) (seed : Option Int)
    (verbose : Bool) (w : World) (d : List String) (hd : mach.mkdtemp = .ok d) (text : String) (h : p.dump mach.fmt mach.strNum = .ok text)
    (nodes : List (Int × List (Option Int))) (vectors : List (List ℚ)) (ha : WritesPolicy mach p d nodes vectors) :
    ∃ g, (p.solve mach timeout nIterations method gridType seed verbose w).1 = .ok g ∧
      List.Forall₂ (fun x n => p.actions[x.1.toNat]? = some n) nodes g.actions ∧ g.observations = p.observations ∧
      g.transitions = nodes.map Prod.snd ∧ g.values = vectors ∧ (∃ n : Nat, g.init = n ∧ BestNode g.values p.start n) ∧
      Fits g p p.start.length ∧ GraphPolicy.fromDict g.toDict = .ok g := by
  obtain ⟨pairs, alpha, pg, alphaLines, pgLines, a1, a2, a3, a4, a5, rfl, a7, a8, a9, a10, a11, a12⟩ := ha
  have hlen : ∀ x ∈ pairs, (mach.fromstring x.2).length = p.start.length := fun x hx => a7 _ (List.mem_map.2 ⟨x, hx, rfl⟩)
  have hne : nodes ≠ [] := by
    rintro rfl
    obtain ⟨x, hx, _⟩ := a12
    simp at hx
  obtain ⟨g, g1, g2, g3, g4, g5, g6⟩ := C96_policy_partial mach p timeout nIterations method gridType seed verbose w d hd text h nodes pairs alpha pg
    alphaLines pgLines a1 a2 a3 a4 a5 hlen a8 a9 a10 a11 a12
  have hal : g.actions.length = nodes.length := g2.length_eq.symm
  have hpl : pairs.length = nodes.length := by simpa using a5.length_eq
  refine ⟨g, g1, g2, g3, g4, g5, g6, ⟨?_, ?_, ?_, ?_⟩, ?_⟩
  · rw [g5]
    intro he
    have : pairs.length = 0 := by simpa using congrArg List.length he
    exact hne (List.eq_nil_of_length_eq_zero (hpl ▸ this))
  · rw [g5, List.length_map, hpl, hal]
  · rw [g5]
    exact a7
  · intro a ha
    obtain ⟨x, _, hx⟩ := N2P.forall2_mem_right g2 a ha
    exact List.mem_of_getElem? hx
  · obtain ⟨l1, l2, l3⟩ := solve_loads mach p timeout nIterations method gridType seed verbose w d hd text h nodes pairs alpha pg alphaLines pgLines a1
      a2 a3 a4 a5 hlen a8 hne
    rw [g1] at l1
    obtain ⟨as, ts, vs, k1, k2, k3⟩ := loadPolicy_ok mach.fromstring p alphaLines pgLines g l1.symm
    have hvs : vs = pairs.map fun x => mach.fromstring x.2 := by
      rw [l2] at k2
      injection k2 with k2
      injection k2 with _ k2
      exact k2.symm
    obtain ⟨g', r1, r2, _⟩ := C44_roundtrip _ _ _ _ _ _ g k3 (.inr (by rw [hvs, List.length_map, hpl, hal]))
    rw [r2] at r1
    exact r1

theorem saveAsJson_ok (j : Json GraphDict) (hj : ∀ i x, j.loads (j.dumps i x) = .ok x) (g : GraphPolicy) (hg : GraphPolicy.fromDict g.toDict = .ok g)
    (f : FilePath) (indent : Option Nat) (w : World) (hdir : w.disk.dirs f.dir = true) :
    ∃ w' text, g.saveAsJson j f indent w = (.ok (), w') ∧ w'.disk.files f = some text ∧ w'.disk.dirs = w.disk.dirs ∧
      (∀ e, e ≠ f → w'.disk.files e = w.disk.files e) ∧ w'.calls = w.calls ∧
      ∀ w2 : World, w2.disk.files f = some text → GraphPolicy.loadFromJson j f w2 = (.ok g, w2) := by
  refine ⟨⟨(w.disk.write f []).write f (j.dumps indent g.toDict), w.calls⟩, j.dumps indent g.toDict, ?_, write_same _ _ _, rfl, ?_, rfl, ?_⟩
  · unfold GraphPolicy.saveAsJson saveJson
    have : openWrite f w = (.ok (), { w with disk := w.disk.write f [] }) := by
      unfold openWrite
      rw [if_pos hdir]
    rw [M.bind_of_ok this]
    rfl
  · intro e he
    simp [Disk.write, he]
  · intro w2 h2
    unfold GraphPolicy.loadFromJson
    rw [M.bind_of_ok (readText_some h2), M.bind_run]
    simp only [M.lift, hj, hg]

theorem saveTrajectories_ok (j : Json (List TTree)) (g : GraphPolicy) (p : Pomdp) (horizon : Nat) (f : FilePath) (indent : Option Nat) (r r' : BRunner)
    (trees : List TTree) (h : treesFromStarts g p horizon r = (.ok trees, r')) (w : World) (hdir : w.disk.dirs f.dir = true) :
    ∃ w', saveTrajectories j g p horizon f indent r w = (.ok r', w') ∧ w'.disk.files f = some (j.dumps indent trees) ∧ w'.disk.dirs = w.disk.dirs ∧
      (∀ e, e ≠ f → w'.disk.files e = w.disk.files e) ∧ w'.calls = w.calls := by
  refine ⟨⟨(w.disk.write f []).write f (j.dumps indent trees), w.calls⟩, ?_, write_same _ _ _, rfl, ?_, rfl⟩
  · unfold saveTrajectories
    have : openWrite f w = (.ok (), { w with disk := w.disk.write f [] }) := by
      unfold openWrite
      rw [if_pos hdir]
    rw [M.bind_of_ok this, h]
    rfl
  · intro e he
    simp [Disk.write, he]

theorem visit_fromDict {g : GraphPolicy} {p : Pomdp} {maxStates fuel : Nat} {q : GraphPolicy} {y : Aux} (h : visit g p maxStates fuel = .ok (some (q, y))) :
    GraphPolicy.fromDict q.toDict = .ok q := by
  have key : ∃ as ts vs, mkGraphPolicy as p.observations ts vs none (some 0) = .ok q := by
    unfold visit at h
    cases h1 : auxIndex g p ⟨[], [], [], []⟩ p.start with
    | error e => rw [h1] at h; cases h
    | ok x =>
      rw [h1] at h
      have h : (visitLoop g p maxStates fuel x.2 >>= _) = _ := h
      cases h2 : visitLoop g p maxStates fuel x.2 with
      | error e => rw [h2] at h; cases h
      | ok r =>
        rw [h2] at h
        cases r with
        | none => cases h
        | some y' =>
          have h : (vstack y'.nodes >>= fun v => mkGraphPolicy y'.actions p.observations y'.trans v none (some 0) >>= fun q => pure (some (q, y'))) = _ := h
          cases h3 : vstack y'.nodes with
          | error e => rw [h3] at h; cases h
          | ok v =>
            rw [h3] at h
            have h : (mkGraphPolicy y'.actions p.observations y'.trans v none (some 0) >>= fun q => pure (some (q, y'))) = _ := h
            cases h4 : mkGraphPolicy y'.actions p.observations y'.trans v none (some 0) with
            | error e => rw [h4] at h; cases h
            | ok q' =>
              rw [h4] at h
              cases h
              exact ⟨_, _, _, h4⟩
  obtain ⟨as, ts, vs, hk⟩ := key
  obtain ⟨g', r1, r2, _⟩ := C44_roundtrip _ _ _ _ _ _ q hk (.inl (by simp))
  rw [r2] at r1
  exact r1

/-- A model that is accepted is refused without the program. -/
theorem mk'_none {T O : Arr3} {R : Arr4} {start : List ℚ} {discount : ℚ} {S A Ob : Option (List Name)} {values : String} {p : Pomdp}
    (h : Pomdp.mk' (some "") T O R start discount S A Ob values = .ok p) :
    Pomdp.mk' none T O R start discount S A Ob values = .error .importError := by
  obtain ⟨r, path, h1, h2, ⟨g1, g2, g3, g4, g5⟩, rfl⟩ := (mk'_ok_iff ..).1 h
  cases h2
  unfold Pomdp.mk'
  rw [h1]
  simp only [bind, Except.bind, Option.getD_none]
  rw [if_neg (by simp [g1]), if_neg (by simp [g2]), if_neg (by simp [g3]), if_neg (by simp only [not_or, not_lt]; exact ⟨g5, g4⟩), if_pos (by simp)]

end Verif
