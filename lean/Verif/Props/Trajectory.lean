import Verif.Proof.Trajectory
import Verif.Props.Experiment
import Verif.Props.Belief

/-! The logs of trajectories (C89). -/

set_option linter.unusedSectionVars false
set_option linter.unusedSimpArgs false

namespace Verif
open Spec
variable {σ : Type}

/-! ### The texts -/

/-- **C89 (numbers).**  A number written with `d` decimals reads as a number at a distance of at most half a unit of the last digit. -/
theorem C89_number (d : Nat) (hd : 1 ≤ d) (x : ℚ) : ∃ y, readDecimal (fixedText d x) = some y ∧ |y - x| ≤ 1 / (2 * 10 ^ d) := by
  obtain ⟨y, h1, _, h2⟩ := fixedText_read hd x
  exact ⟨y, h1, h2⟩

/-- **C89 (beliefs).**  The text of an array of probabilities, cut at its spaces, has one word of two characters for each entry,
which reads as a number at a distance of at most 0.05 of the entry. -/
theorem C89_array (b : List ℚ) (hne : b ≠ []) (hb : ∀ x ∈ b, 0 ≤ x ∧ x ≤ 1) :
    List.Forall₂ (fun x w => w.length = 2 ∧ ∃ y, readDecimal w = some y ∧ |y - x| ≤ 1 / 20) b (splitOn ' ' (formatBeliefArray b)) := by
  unfold formatBeliefArray
  rw [splitOn_joinWith _ _ (by simpa using hne) (by
    intro w hw
    obtain ⟨x, _, rfl⟩ := List.mem_map.1 hw
    exact formatP_no_space x)]
  rw [List.forall₂_map_right_iff, List.forall₂_same]
  intro x hx
  exact formatP_spec (hb x hx).1 (hb x hx).2

/-- **C89 (states).**  The text of a state has its number, its HTM value and its features: one digit for each preference, each body
feature and each object, in this order. -/
theorem C89_state (x : SupState) : ∃ w, pyInt w = .ok (x.s : Int) ∧
    x.text = ['<'] ++ w ++ [':', ' '] ++ showNat x.htm ++ [' '] ++
      ((List.range x.nPref).map fun i => if x.hasPref i = 1 then '1' else '0') ++ [' '] ++
      ((List.range x.nBody).map fun i => if x.hasBody i = 1 then '1' else '0') ++ [' '] ++
      ((List.range x.nObjects).map fun i => if x.getBit i = 1 then '1' else '0') ++ ['>'] := by
  refine ⟨padLeft (showNat (x.nStates - 1)).length (showNat x.s), padLeft_pyInt _ _, ?_⟩
  unfold SupState.text
  rw [joinRange_bits _ x.hasPref (fun i => getBit_lt x _), joinRange_bits _ x.hasBody (fun i => getBit_lt x _),
    joinRange_bits _ x.getBit (fun i => getBit_lt x _)]
  rfl

/-- **C89 (names).**  Different states have different names. -/
theorem C89_names (m : SupPomdp) : m.stateNames.length = m.nStates ∧ m.stateNames.Nodup := by
  refine ⟨by simp [SupPomdp.stateNames], ?_⟩
  unfold SupPomdp.stateNames
  rw [List.nodup_map_iff_inj_on List.nodup_range]
  intro i _ j _ hij
  have hnum : ∀ k, ∃ r, (m.toState k).text = '<' :: (padLeft (showNat ((m.toState k).nStates - 1)).length (showNat k) ++ ':' :: r) := by
    intro k
    exact ⟨_, by unfold SupState.text; simp only [List.append_assoc, List.singleton_append, List.cons_append, List.nil_append]; rfl⟩
  have hno : ∀ w n, ∀ c ∈ padLeft w (showNat n), c ≠ ':' := by
    intro w n c hc
    rcases List.mem_append.1 hc with hc | hc
    · rw [(List.mem_replicate.1 hc).2]; decide
    · exact (isDigit_ne c ((showNat_spec n).2.1 c hc)).2.2.1
  obtain ⟨r1, e1⟩ := hnum i
  obtain ⟨r2, e2⟩ := hnum j
  rw [e1, e2, List.cons.injEq] at hij
  have h3 := congrArg (splitOn ':') hij.2
  rw [splitOn_append _ _ _ (hno _ _), splitOn_append _ _ _ (hno _ _), List.cons.injEq] at h3
  have h4 := congrArg pyInt h3.1
  rw [padLeft_pyInt, padLeft_pyInt] at h4
  have h5 : (i : Int) = j := by injection h4
  exact_mod_cast h5

/-! ### The log -/

theorem unlogged_eq {α : Type} (x : M σ α) (g : σ) (log : List LogLine) : unlogged x (g, log) = ((x g).1, ((x g).2, log)) := rfl

theorem unlogged_ok {α : Type} {x : M σ α} {g g' : σ} {a : α} (log : List LogLine) (h : x g = (.ok a, g')) :
    unlogged x (g, log) = (.ok a, (g', log)) := by rw [unlogged_eq, h]

theorem of_unlogged_ok {α : Type} {x : M σ α} {g : σ} {log : List LogLine} {a : α} {st : σ × List LogLine}
    (h : unlogged x (g, log) = (.ok a, st)) : ∃ g', x g = (.ok a, g') ∧ st = (g', log) := by
  rw [unlogged_eq] at h
  simp only [Prod.mk.injEq] at h
  exact ⟨(x g).2, Prod.ext h.1 rfl, h.2.symm⟩

theorem liftOk_bind {S α β : Type} (a : α) (f : α → M S β) (s : S) : (M.lift (.ok a) >>= f) s = f a s := rfl

theorem logLine_bind {α : Type} (l : LogLine) (f : Unit → M (σ × List LogLine) α) (g : σ) (log : List LogLine) :
    (logLine l >>= f) (g, log) = f () (g, log ++ [l]) := rfl

theorem toState_nStates (m : SupPomdp) (s : Nat) : (m.toState s).nStates = m.nStates := by
  show m.nHtmStates * 2 ^ (m.objects.length + 1 + m.par.nPreferences) = m.nHtmStates * 2 ^ (m.par.nPreferences + 1 + m.objects.length)
  rw [show m.objects.length + 1 + m.par.nPreferences = m.par.nPreferences + 1 + m.objects.length by omega]

/-- The text of the belief, as it is in `linesOf`. -/
def beliefText (m : SupPomdp) (b : List ℚ) : LogLine :=
  .belief (formatBeliefArray ((List.range m.nHtmStates).map fun h => mass (m.toState 0) b fun y => y.htm = h))
    (fixedText 2 (mass (m.toState 0) b fun y => y.hasPref (m.par.nPreferences - 1) = 1))

theorem beliefLine_ok (m : SupPomdp) (b : List ℚ) (hl : b.length = m.nStates) (hp : 0 < m.par.nPreferences) :
    beliefLine (m.toState 0) b = .ok (beliefText m b) := by
  have hl' : b.length = (m.toState 0).nStates := by rw [toState_nStates]; exact hl
  obtain ⟨q, h1, h2, h3, _⟩ := (C29_quotient (m.toState 0) b).2 hl'
  obtain ⟨p, p1, p2, p3⟩ := (C30_reversed_partial m.nHtmStates m.par.nPreferences 1 m.objects.length b).2 hl'
  have p1' : beliefPreferences (m.toState 0) b = .ok p := p1
  have hq : q = (List.range m.nHtmStates).map fun h => mass (m.toState 0) b fun y => y.htm = h := by
    apply List.ext_getElem?
    intro i
    by_cases hi : i < m.nHtmStates
    · rw [h3 i hi]
      simp [hi]
    · rw [List.getElem?_eq_none (by rw [h2]; exact not_lt.1 hi), List.getElem?_eq_none (by simpa using hi)]
  have h0 := p3 0 hp
  cases p with
  | nil => simp only [List.length_nil] at p2; omega
  | cons v p =>
      simp only [List.getElem?_cons_zero, Option.some.injEq] at h0
      unfold beliefLine beliefText
      rw [h1, p1']
      subst hq
      subst h0
      rfl

theorem beliefLine_error (m : SupPomdp) (b : List ℚ) :
    (b.length ≠ m.nStates → beliefLine (m.toState 0) b = .error .assertionError) ∧
    (b.length = m.nStates → m.par.nPreferences = 0 → beliefLine (m.toState 0) b = .error .indexError) := by
  constructor
  · intro h
    unfold beliefLine
    rw [(C29_quotient (m.toState 0) b).1 (by rw [toState_nStates]; exact h)]
    rfl
  · intro hl hp
    have hl' : b.length = (m.toState 0).nStates := by rw [toState_nStates]; exact hl
    obtain ⟨q, h1, _⟩ := (C29_quotient (m.toState 0) b).2 hl'
    obtain ⟨p, p1, p2, _⟩ := (C30_reversed_partial m.nHtmStates m.par.nPreferences 1 m.objects.length b).2 hl'
    have p1' : beliefPreferences (m.toState 0) b = .ok p := p1
    rw [hp] at p2
    rw [List.length_eq_zero_iff.1 p2] at p1'
    unfold beliefLine
    rw [h1, p1']
    rfl

theorem beliefLine_iff (m : SupPomdp) (b : List ℚ) (l : LogLine) :
    beliefLine (m.toState 0) b = .ok l ↔ b.length = m.nStates ∧ 0 < m.par.nPreferences ∧ l = beliefText m b := by
  constructor
  · intro h
    have hl : b.length = m.nStates := by
      by_contra hc
      rw [(beliefLine_error m b).1 hc] at h
      cases h
    have hp : 0 < m.par.nPreferences := by
      by_contra hc
      rw [(beliefLine_error m b).2 hl (by omega)] at h
      cases h
    rw [beliefLine_ok m b hl hp] at h
    cases h
    exact ⟨hl, hp, rfl⟩
  · rintro ⟨hl, hp, rfl⟩
    exact beliefLine_ok m b hl hp

section
variable (m : SupPomdp) (mo : EvalModel σ) (pol : EvalPolicy σ) (array : σ → Py (List ℚ))

theorem trajectoryStep_iff (s : Nat) (g : σ) (log : List LogLine) (y : Nat × ℚ) (st : σ × List LogLine) :
    trajectoryStep m mo pol array s (g, log) = (.ok y, st) ↔
    ∃ (name o : Name) (e : Ev) (b : List ℚ) (g1 g2 g3 : σ), pol.getAction g = (.ok name, g1) ∧ name ∈ mo.actions ∧
      e.action = mo.actions.idxOf name ∧ e.state = s ∧ mo.sampleTransition e.action s g1 = (.ok (e.next, e.obs, e.reward), g2) ∧
      mo.observations[e.obs]? = some o ∧ pol.step o g2 = (.ok (), g3) ∧ array g3 = .ok b ∧ b.length = m.nStates ∧
      0 < m.par.nPreferences ∧ y = (e.next, e.reward) ∧ st = (g3, log ++ linesOf m mo (e, b)) := by
  have hlines : ∀ (name o : Name) (e : Ev) (b : List ℚ), name ∈ mo.actions → e.action = mo.actions.idxOf name →
      mo.observations[e.obs]? = some o → linesOf m mo (e, b) =
        [.moved (m.toState e.state).text name (m.toState e.next).text o e.reward, beliefText m b] := by
    intro name o e b hm ha ho
    unfold linesOf beliefText
    simp only [ha, List.getD_eq_getElem?_getD, ho, Option.getD_some]
    have : mo.actions[mo.actions.idxOf name]? = some name := by
      rw [List.getElem?_eq_getElem (List.idxOf_lt_length_iff.2 hm), List.getElem_idxOf]
    rw [this]
    rfl
  constructor
  · intro h
    unfold trajectoryStep at h
    obtain ⟨name, st1, h1, h⟩ := M.bind_ok h
    obtain ⟨g1, k1, rfl⟩ := of_unlogged_ok h1
    obtain ⟨i, st2, h2, h⟩ := M.bind_ok h
    obtain ⟨k2, rfl⟩ := lift_ok h2
    obtain ⟨x, st3, h3, h⟩ := M.bind_ok h
    obtain ⟨g2, k3, rfl⟩ := of_unlogged_ok h3
    obtain ⟨o, st4, h4, h⟩ := M.bind_ok h
    obtain ⟨k4, rfl⟩ := lift_ok h4
    obtain ⟨_, st5, h5, h⟩ := M.bind_ok h
    obtain ⟨g3, k5, rfl⟩ := of_unlogged_ok h5
    obtain ⟨_, st6, h6, h⟩ := M.bind_ok h
    cases h6
    obtain ⟨b, st7, h7, h⟩ := M.bind_ok h
    obtain ⟨g4, k7, rfl⟩ := of_unlogged_ok h7
    have e4 : g3 = g4 := congrArg Prod.snd k7
    have h7' : array g3 = .ok b := congrArg Prod.fst k7
    subst e4
    obtain ⟨l, st8, h8, h⟩ := M.bind_ok h
    obtain ⟨k8, rfl⟩ := lift_ok h8
    obtain ⟨_, st9, h9, h⟩ := M.bind_ok h
    cases h9
    cases h
    obtain ⟨j1, j2, rfl⟩ := (beliefLine_iff m b l).1 k8
    have hmem : name ∈ mo.actions ∧ i = mo.actions.idxOf name := by
      unfold indexOfName at k2
      split at k2
      · cases k2; exact ⟨by assumption, rfl⟩
      · cases k2
    have hobs : mo.observations[x.2.1]? = some o := by
      unfold nameAt at k4
      split at k4
      · cases k4; assumption
      · cases k4
    refine ⟨name, o, ⟨i, s, x.1, x.2.1, x.2.2⟩, b, g1, g2, g3, k1, hmem.1, hmem.2, rfl, k3, hobs, k5, h7', j1, j2, rfl, ?_⟩
    rw [hlines name o ⟨i, s, x.1, x.2.1, x.2.2⟩ b hmem.1 hmem.2 hobs]
    simp
  · rintro ⟨name, o, e, b, g1, g2, g3, h1, h2, h3, h4, h5, h6, h7, h8, h9, h10, rfl, rfl⟩
    unfold trajectoryStep
    rw [M.bind_of_ok (unlogged_ok log h1)]
    have hi : indexOfName mo.actions name = .ok e.action := by unfold indexOfName; rw [if_pos h2, h3]
    rw [hi, liftOk_bind, M.bind_of_ok (unlogged_ok log h5)]
    have ho : nameAt mo.observations e.obs = .ok o := by unfold nameAt; rw [h6]
    rw [show nameAt mo.observations (e.next, e.obs, e.reward).2.1 = .ok o from ho, liftOk_bind, M.bind_of_ok (unlogged_ok log h7),
      logLine_bind, M.bind_of_ok (unlogged_ok (x := fun g => (array g, g)) (a := b) (g' := g3) _ (by rw [h8])),
      beliefLine_ok m b h9 h10, liftOk_bind, logLine_bind]
    rw [hlines name o e b h2 h3 h6, h4]
    show (Except.ok (e.next, e.reward), (g3, log ++ [_] ++ [_])) = _
    simp

theorem trajectoryLoop_iff : ∀ (bound s : Nat) (total : ℚ) (g : σ) (log : List LogLine) (r : ℚ) (st : σ × List LogLine),
    trajectoryLoop m mo pol array bound s total (g, log) = (.ok r, st) ↔
    ∃ (l : List (Ev × List ℚ)) (g' : σ), Plays mo pol array s g l g' ∧ l.length ≤ bound ∧
      (∀ x ∈ l, x.2.length = m.nStates ∧ 0 < m.par.nPreferences) ∧
      r = total + (l.map fun x => x.1.reward).sum ∧ st = (g', log ++ l.flatMap (linesOf m mo)) := by
  intro bound
  induction bound with
  | zero =>
      intro s total g log r st
      unfold trajectoryLoop
      by_cases hf : mo.isFinal s = true
      · rw [if_pos hf]
        constructor
        · intro h
          cases h
          exact ⟨[], g, .final hf, by simp, by simp, by simp, by simp⟩
        · rintro ⟨l, g', h1, h2, h3, h4, h5⟩
          cases h1 with
          | final _ => simp only [List.map_nil, List.sum_nil, add_zero, List.flatMap_nil, List.append_nil] at h4 h5; rw [h4, h5]; rfl
          | step => simp at h2
      · rw [if_neg hf]
        constructor
        · intro h; cases h
        · rintro ⟨l, g', h1, h2, _⟩
          cases h1 with
          | final h => exact absurd h hf
          | step => simp at h2
  | succ k ih =>
      intro s total g log r st
      unfold trajectoryLoop
      by_cases hf : mo.isFinal s = true
      · rw [if_pos hf]
        constructor
        · intro h
          cases h
          exact ⟨[], g, .final hf, by simp, by simp, by simp, by simp⟩
        · rintro ⟨l, g', h1, h2, h3, h4, h5⟩
          cases h1 with
          | final _ => simp only [List.map_nil, List.sum_nil, add_zero, List.flatMap_nil, List.append_nil] at h4 h5; rw [h4, h5]; rfl
          | step h => rw [hf] at h; cases h
      · rw [if_neg hf]
        show (trajectoryStep m mo pol array s >>= fun y => trajectoryLoop m mo pol array k y.1 (total + y.2)) (g, log) = _ ↔ _
        constructor
        · intro h
          obtain ⟨y, st1, h1, h⟩ := M.bind_ok h
          obtain ⟨name, o, e, b, g1, g2, g3, a1, a2, a3, a4, a5, a6, a7, a8, a9, a10, rfl, rfl⟩ :=
            (trajectoryStep_iff m mo pol array s g log y st1).1 h1
          obtain ⟨l, g', i1, i2, i3, i4, i5⟩ := (ih _ _ _ _ _ _).1 h
          refine ⟨(e, b) :: l, g', .step (by simpa using hf) a1 a2 a3 a4 a5 a6 a7 a8 i1, by simpa using i2, ?_, ?_, ?_⟩
          · intro x hx
            rcases List.mem_cons.1 hx with rfl | hx
            · exact ⟨a9, a10⟩
            · exact i3 x hx
          · rw [i4, List.map_cons, List.sum_cons]; ring
          · rw [i5, List.flatMap_cons, List.append_assoc]
        · rintro ⟨l, g', h1, h2, h3, h4, h5⟩
          cases h1 with
          | final h => exact absurd h hf
          | @step _ _ g1 g2 g3 _ name o e b l _ a1 a2 a3 a4 a5 a6 a7 a8 rest =>
              have := h3 (e, b) (by simp)
              rw [M.bind_of_ok ((trajectoryStep_iff m mo pol array s g log _ _).2
                ⟨name, o, e, b, g1, g2, g3, a1, a2, a3, a4, a5, a6, a7, a8, this.1, this.2, rfl, rfl⟩)]
              refine (ih _ _ _ _ _ _).2 ⟨l, g', rest, by simpa using h2, fun x hx => h3 x (by simp [hx]), ?_, ?_⟩
              · rw [h4, List.map_cons, List.sum_cons]; ring
              · rw [h5, List.flatMap_cons, List.append_assoc]

/-- **C89 (log).**  `run_trajectory` returns iff the runner can be reset, a start state sampled and transitions made until a final
state is reached (within `bound` of them), and the model has a preference if there is a transition; then the log consists of a first
line, two lines for each transition, which describe it and the belief of the runner afterwards, and the sum of the rewards. -/
theorem C89_log (bound : Nat) (g : σ) (log : List LogLine) (st : σ × List LogLine) :
    runTrajectory m mo pol array bound (g, log) = (.ok (), st) ↔
    ∃ (g1 g2 : σ) (s : Nat) (l : List (Ev × List ℚ)) (g' : σ), pol.reset g = (.ok (), g1) ∧ mo.sampleStart g1 = (.ok s, g2) ∧
      Plays mo pol array s g2 l g' ∧ l.length ≤ bound ∧ (∀ x ∈ l, x.2.length = m.nStates ∧ 0 < m.par.nPreferences) ∧
      st = (g', log ++ [.started] ++ l.flatMap (linesOf m mo) ++ [.total (fixedText 6 (l.map fun x => x.1.reward).sum)]) := by
  unfold runTrajectory
  rw [logLine_bind]
  constructor
  · intro h
    obtain ⟨_, st1, h1, h⟩ := M.bind_ok h
    obtain ⟨g1, k1, rfl⟩ := of_unlogged_ok h1
    obtain ⟨s, st2, h2, h⟩ := M.bind_ok h
    obtain ⟨g2, k2, rfl⟩ := of_unlogged_ok h2
    obtain ⟨r, st3, h3, h⟩ := M.bind_ok h
    obtain ⟨l, g', i1, i2, i3, i4, i5⟩ := (trajectoryLoop_iff m mo pol array _ _ _ _ _ _ _).1 h3
    cases h
    refine ⟨g1, g2, s, l, g', k1, k2, i1, i2, i3, ?_⟩
    rw [i5, i4, zero_add]
  · rintro ⟨g1, g2, s, l, g', h1, h2, h3, h4, h5, rfl⟩
    rw [M.bind_of_ok (unlogged_ok _ h1), M.bind_of_ok (unlogged_ok _ h2),
      M.bind_of_ok ((trajectoryLoop_iff m mo pol array bound s 0 g2 _ _ _).2 ⟨l, g', h3, h4, h5, rfl, rfl⟩), zero_add]
    rfl

end

/-- The transitions of a trajectory follow each other from the start state; all states are not final, except the last one. -/
theorem C89_trajectory {mo : EvalModel σ} {pol : EvalPolicy σ} {array : σ → Py (List ℚ)} {s : Nat} {g g' : σ} {l : List (Ev × List ℚ)}
    (h : Plays mo pol array s g l g') : Chained s (l.map Prod.fst) ∧ (∀ x ∈ l, mo.isFinal x.1.state = false) ∧
      mo.isFinal ((l.map fun x => x.1.next).getLast?.getD s) = true := by
  induction h with
  | final h => exact ⟨trivial, by simp, h⟩
  | @step s g g1 g2 g3 g' name o e b l h1 h2 h3 h4 h5 h6 h7 h8 h9 rest ih =>
      obtain ⟨i1, i2, i3⟩ := ih
      refine ⟨⟨h5, i1⟩, ?_, ?_⟩
      · intro x hx
        rcases List.mem_cons.1 hx with rfl | hx
        · show mo.isFinal e.state = false; rw [h5]; exact h1
        · exact i2 x hx
      · cases l with
        | nil => simpa using i3
        | cons y l =>
            rw [List.map_cons, List.map_cons, List.getLast?_cons_cons]
            rw [List.map_cons] at i3
            cases hl : (y.1.next :: l.map fun x => x.1.next).getLast? with
            | none => simp at hl
            | some v => rw [hl] at i3; exact i3

/-! ### Searches on the supportive model -/

theorem unlogged_error {α : Type} {x : M σ α} {g g' : σ} {e : PyErr} (log : List LogLine) (h : x g = (.error e, g')) :
    unlogged x (g, log) = (.error e, (g', log)) := by rw [unlogged_eq, h]

section
variable (m : SupPomdp) (mo : EvalModel σ) (pol : EvalPolicy σ) (array : σ → Py (List ℚ))

theorem trajectoryStep_ok {s : Nat} {g g' : σ} {y : Nat × Nat × Nat × ℚ} {b : List ℚ} (log : List LogLine)
    (h : evalStep mo pol s g = (.ok y, g')) (hb : array g' = .ok b) (hl : b.length = m.nStates) (hp : 0 < m.par.nPreferences) :
    ∃ l, trajectoryStep m mo pol array s (g, log) = (.ok (y.2.1, y.2.2.2), (g', log ++ l)) ∧ l.length = 2 := by
  unfold evalStep at h
  obtain ⟨name, g1, h1, j1⟩ := M.bind_ok h
  obtain ⟨i, g2, h2, j2⟩ := M.bind_ok j1
  obtain ⟨k2, rfl⟩ := lift_ok h2
  obtain ⟨x, g3, h3, j3⟩ := M.bind_ok j2
  obtain ⟨o, g4, h4, j4⟩ := M.bind_ok j3
  obtain ⟨k4, rfl⟩ := lift_ok h4
  obtain ⟨_, g5, h5, j5⟩ := M.bind_ok j4
  cases j5
  have hmem : name ∈ mo.actions ∧ i = mo.actions.idxOf name := by
    unfold indexOfName at k2
    split at k2
    · cases k2; exact ⟨by assumption, rfl⟩
    · cases k2
  have hobs : mo.observations[x.2.1]? = some o := by
    unfold nameAt at k4
    split at k4
    · cases k4; assumption
    · cases k4
  exact ⟨linesOf m mo (⟨i, s, x.1, x.2.1, x.2.2⟩, b), (trajectoryStep_iff m mo pol array s g log _ _).2
    ⟨name, o, ⟨i, s, x.1, x.2.1, x.2.2⟩, b, _, _, _, h1, hmem.1, hmem.2, rfl, h3, hobs, h5, hb, hl, hp, rfl, rfl⟩, rfl⟩

theorem trajectoryStep_error {s : Nat} {g g' : σ} {e : PyErr} (log : List LogLine) (h : evalStep mo pol s g = (.error e, g')) :
    trajectoryStep m mo pol array s (g, log) = (.error e, (g', log)) := by
  unfold evalStep at h
  unfold trajectoryStep
  rcases M.bind_error h with f1 | ⟨name, g1, h1, j1⟩
  · rw [M.bind_of_error (unlogged_error log f1)]
  rw [M.bind_of_ok (unlogged_ok log h1)]
  rcases M.bind_error j1 with f2 | ⟨i, g2, h2, j2⟩
  · cases hi : indexOfName mo.actions name with
    | ok i => rw [hi] at f2; cases f2
    | error e' => rw [hi] at f2; cases f2; rfl
  obtain ⟨k2, rfl⟩ := lift_ok h2
  rw [k2, liftOk_bind]
  rcases M.bind_error j2 with f3 | ⟨x, g3, h3, j3⟩
  · rw [M.bind_of_error (unlogged_error log f3)]
  rw [M.bind_of_ok (unlogged_ok log h3)]
  rcases M.bind_error j3 with f4 | ⟨o, g4, h4, j4⟩
  · cases hi : nameAt mo.observations x.2.1 with
    | ok i => rw [hi] at f4; cases f4
    | error e' => rw [hi] at f4; cases f4; rfl
  obtain ⟨k4, rfl⟩ := lift_ok h4
  rw [k4, liftOk_bind]
  rcases M.bind_error j4 with f5 | ⟨_, g5, h5, j5⟩
  · rw [M.bind_of_error (unlogged_error log f5)]
  · cases j5

end

/-- **C89 (search).**  For every task accepted by the constructor of the supportive model, with at least one preference, a trajectory
of a POMCP policy with particle beliefs, after any calls of this policy, is logged until it ends or `MaxSamplesReached` is raised,
whatever the random outcomes: nothing else is raised, and only a trajectory of `bound` transitions is cut off. -/
theorem C89_search {η : Type} {t : Htm SupAction} {m : SupPomdp} (ht : Constructed t m)
    (hp : m.par.pPreferences.length ≤ m.par.nPreferences) (hpref : 0 < m.par.nPreferences)
    (gamma : ℚ) (n : Nat) (hn : 0 < n) (d : Nat → Nat → SupPomdp.Draws) (c : Nat → Nat → Nat)
    (S : Search Nat (List Nat) η) (hS : S.sim = supSim m gamma n d c) {size : η → Nat} (hor : BoundedHor S.hor size)
    (hit : 0 < S.rolloutIt) (hf : size S.horizon < S.fuel) (hb : size S.horizon ≤ S.bound)
    (b : List Nat) (hbl : b.length = n) (hbs : ∀ s ∈ b, s < m.nStates) (rng : Nat) (ops : List RunnerOp) (iterations : Nat)
    (calls : SearchRunner Nat (List Nat) → Int) (sd : Nat → Nat × (Nat → ℚ) × (Nat → ℚ)) (bound : Nat) (log : List LogLine) :
    let r := runTrajectory m
      (searchModel S.sim m.isFinal calls fun g => (m.sampleStart (sd g).1 (sd g).2.1 (sd g).2.2, g + 1))
      (searchPolicy S iterations) (runnerArray m.nStates) bound ((runRunnerOps S (S.runner b rng) ⟨none, []⟩ ops).1, log)
    r.1 = .ok () ∨ r.1 = .error .maxSamplesReached ∨ (r.1 = .error .unfinished ∧ r.2.2.length = log.length + 1 + 2 * bound) := by
  have hlen : m.actions.length = m.nActions := (C27_names ht).1
  have hsafe : SafeSim S.sim (ParticlesOk m.nStates n) (fun _ s => s < m.nStates) (fun s => s < m.nStates) := by
    rw [hS]
    refine particlesOver_safe (by simp [SupPomdp.actions]) hn ?_ ?_
    · intro k j a s ha hs
      obtain ⟨s', o, r, h1, h2, _⟩ := C25_transition ht (d k j) a s true hs (by rw [← hlen]; simpa using ha)
      exact ⟨_, h1, h2⟩
    · intro k j a s x hx
      by_contra hc
      rw [C25_unknownAction ht (d k j) a s true (by rw [← hlen]; simpa using hc)] at hx
      cases hx
  have hnA : S.sim.nActions = m.nActions := by rw [hS, ← hlen]; exact List.length_map ..
  have h0 : ParticlesOk m.nStates n b := ⟨hbl, hbs⟩
  have hinv := runRunnerOps_inv S ops (S.runner b rng) ⟨none, []⟩ (runner_inv S b rng)
  generalize hmo : searchModel S.sim m.isFinal calls (fun g => (m.sampleStart (sd g).1 (sd g).2.1 (sd g).2.2, g + 1)) = mo
  have hfine : ∀ a s g x g', a < S.sim.nActions → s < m.nStates → S.sim.sampleTransition a s g = (.ok x, g') →
      x.2.1 < S.sim.observations.length ∧ Fine S.sim (ParticlesOk m.nStates n) (a, x.2.1) := by
    intro a s g x g' ha hs hx
    have ha' : a < m.nActions := by rw [← hnA]; exact ha
    rw [hS] at hx
    obtain ⟨s', o, r, h1, h2, h3⟩ := C25_transition ht (d g 0) a s true hs ha'
    have hx' : m.sampleTransition (d g 0) a s = .ok x := congrArg Prod.fst hx
    rw [h1] at hx'
    cases hx'
    refine ⟨by rw [hS]; exact h3, ha, fun b hb g2 e g3 he => ?_⟩
    rw [← hS] at hx
    exact hsafe.noRaise b s a _ g g' hb hs ha hx g2 e g3 he
  have hstep : ∀ (s : Nat) (rs : SearchRunner Nat (List Nat)) (k : Known), s < m.nStates → RInv S b rs k →
      (∀ ao ∈ rs.history, Fine S.sim (ParticlesOk m.nStates n) ao) →
      M.Post (evalStep mo (searchPolicy S iterations) s) rs
        (fun y rs' => y.2.1 < m.nStates ∧ (∃ k', RInv S b rs' k') ∧ ∀ ao ∈ rs'.history, Fine S.sim (ParticlesOk m.nStates n) ao)
        (fun e _ => e = .maxSamplesReached) := by
    intro s rs k hs hr hh
    rw [← hmo]
    exact evalStep_safe hsafe hor hit h0 hf hb (by rw [hS]; exact (C27_names ht).2.map (fun a b h => by cases h; rfl))
      (by rw [hS]; show supObservations.Nodup; decide) hfine m.isFinal calls _ iterations s rs k hs hr hh
  have hloop : ∀ (bound s : Nat) (total : ℚ) (rs : SearchRunner Nat (List Nat)) (k : Known) (log : List LogLine), s < m.nStates →
      RInv S b rs k → (∀ ao ∈ rs.history, Fine S.sim (ParticlesOk m.nStates n) ao) →
      M.Post (trajectoryLoop m mo (searchPolicy S iterations) (runnerArray m.nStates) bound s total) (rs, log)
        (fun _ _ => True) (fun e st => e = .maxSamplesReached ∨ (e = .unfinished ∧ st.2.length = log.length + 2 * bound)) := by
    intro bound
    induction bound with
    | zero =>
        intro s total rs k log hs hr hh
        unfold trajectoryLoop
        exact M.post_ite (fun _ => M.post_pure.2 trivial) (fun _ => M.post_raise.2 (.inr ⟨rfl, rfl⟩))
    | succ j ih =>
        intro s total rs k log hs hr hh
        unfold trajectoryLoop
        refine M.post_ite (fun _ => M.post_pure.2 trivial) (fun _ => ?_)
        have hpost := M.post_iff.1 (hstep s rs k hs hr hh)
        rcases he : evalStep mo (searchPolicy S iterations) s rs with ⟨r, rs1⟩
        cases r with
        | error e =>
            refine M.post_bind (Q1 := fun _ _ => False) (E1 := fun e _ => e = .maxSamplesReached) ?_ (fun _ _ h => .inl h) ?_
            · exact (M.post_of_error (trajectoryStep_error m mo _ _ log he)).2 (hpost.2 e rs1 he)
            · intro _ _ _ h; exact h.elim
        | ok y =>
            obtain ⟨q1, ⟨k', q2⟩, q3⟩ := hpost.1 y rs1 he
            have hbel : ParticlesOk m.nStates n (rs1.search.tree.nodes rs1.node).belief := (q2.tree.reach _ q2.node).holds hsafe h0
            obtain ⟨arr, a1, a2, _⟩ := (C50_array m.nStates (rs1.search.tree.nodes rs1.node).belief).2.1 hbel.2
              (by intro e; have := hbel.1; rw [e] at this; simp at this; omega)
            obtain ⟨l, l1, l2⟩ := trajectoryStep_ok m mo (searchPolicy S iterations) (runnerArray m.nStates) log he a1 a2 hpref
            refine M.post_ok_bind l1 ?_
            refine M.post_mono (ih y.2.1 (total + y.2.2.2) rs1 k' (log ++ l) q1 q2 q3) (fun _ _ h => h) ?_
            rintro e st (h | ⟨h1, h2⟩)
            · exact .inl h
            · refine .inr ⟨h1, ?_⟩
              rw [h2, List.length_append, l2]
              ring
  intro r
  have hpost : M.Post (runTrajectory m mo (searchPolicy S iterations) (runnerArray m.nStates) bound)
      ((runRunnerOps S (S.runner b rng) ⟨none, []⟩ ops).1, log) (fun _ _ => True)
      (fun e st => e = .maxSamplesReached ∨ (e = .unfinished ∧ st.2.length = log.length + 1 + 2 * bound)) := by
    generalize (runRunnerOps S (S.runner b rng) ⟨none, []⟩ ops).1 = rs at hinv
    unfold runTrajectory
    refine M.post_ok_bind (a := ()) (s1 := (rs, log ++ [.started])) rfl ?_
    refine M.post_ok_bind (a := ()) (s1 := (⟨rs.search, [], 0, none⟩, log ++ [.started])) rfl ?_
    obtain ⟨s, s1, s2, _⟩ := C25_start ht hp (sd rs.search.rng).1 (sd rs.search.rng).2.1 (sd rs.search.rng).2.2
    refine M.post_ok_bind (a := s) (s1 := (⟨⟨rs.search.tree, rs.search.rng + 1⟩, [], 0, none⟩, log ++ [.started])) ?_ ?_
    · subst hmo
      show (_, _) = _
      unfold searchModel onSearch onRng
      simp only [s1]
    have hinv2 : RInv S b ⟨⟨rs.search.tree, rs.search.rng + 1⟩, [], 0, none⟩ ⟨none, []⟩ :=
      ⟨hinv.tree, hinv.tree.pos, rfl, rfl, fun a ha => (by cases ha), rfl⟩
    refine M.post_bind (hloop bound s 0 _ _ (log ++ [.started]) s2 hinv2 (by simp)) ?_ ?_
    · rintro e st (h | ⟨h1, h2⟩)
      · exact .inl h
      · refine .inr ⟨h1, ?_⟩
        rw [h2]
        simp
    · intro total st _ _
      exact trivial
  unfold M.Post at hpost
  split at hpost
  · rename_i u st he
    left; show r.1 = _; exact congrArg Prod.fst he
  · rename_i e st he
    have h1 : r.1 = .error e := congrArg Prod.fst he
    have h2 : r.2 = st := congrArg Prod.snd he
    rcases hpost with rfl | ⟨rfl, h3⟩
    · exact .inr (.inl h1)
    · exact .inr (.inr ⟨h1, by rw [h2]; exact h3⟩)

/-- Without preferences, `IndexError` is raised after the first transition: the trajectory is not logged to its end unless it starts
in a final state. -/
theorem C89_noPreference (m : SupPomdp) (mo : EvalModel σ) (pol : EvalPolicy σ) (array : σ → Py (List ℚ)) (hp : m.par.nPreferences = 0)
    (bound : Nat) (g g1 g2 : σ) (s : Nat) (log : List LogLine) (st : σ × List LogLine) (h1 : pol.reset g = (.ok (), g1))
    (h2 : mo.sampleStart g1 = (.ok s, g2)) (hf : mo.isFinal s = false) : runTrajectory m mo pol array bound (g, log) ≠ (.ok (), st) := by
  intro h
  obtain ⟨k1, k2, s', l, g', i1, i2, i3, _, i5, _⟩ := (C89_log m mo pol array bound g log st).1 h
  rw [h1] at i1
  cases i1
  rw [h2] at i2
  cases i2
  cases i3 with
  | final h => rw [hf] at h; cases h
  | step _ _ _ _ _ _ _ _ _ _ => have := (i5 _ List.mem_cons_self).2; omega

/-! ### Witnesses -/

/-- A trajectory of two transitions, with a belief that is the same after both. -/
example : (mkSupPomdp {} (fun l => l) 3 exSup).toOption.map (fun m => (runTrajectory m
      { countModel with isFinal := fun s => decide (s = 33), sampleStart := pure 31 } countPolicy
      (fun _ => .ok ((List.range m.nStates).map fun i => if i = 0 then 1 / 4 else if i = 48 then 3 / 4 else 0)) 5 (0, [])).2.2) =
    some [.started,
      .moved "< 31: 0 1 1 111>".toList (.str "a") "< 32: 1 0 0 000>".toList (.str "o") 31, .belief ".2 .8 .0 .0 .0".toList "0.75".toList,
      .moved "< 32: 1 0 0 000>".toList (.str "a") "< 33: 1 0 0 100>".toList (.str "o") 32, .belief ".2 .8 .0 .0 .0".toList "0.75".toList,
      .total "63.000000".toList] := by decide +kernel

/-- Non-vacuity of the theorems on texts. -/
example : fixedText 2 (-1 / 3) = "-0.33".toList ∧ readDecimal "-0.33".toList = some (-33 / 100) ∧ formatP (19 / 20) = "1.".toList ∧
    readDecimal "1.".toList = some 1 ∧ readDecimal ".2".toList = some (1 / 5) := by decide +kernel

/-- Non-vacuity of `C89_search`: a search with 5 particles on the model of `exSup`. -/
example : ∃ m, Constructed exSup m ∧ ∀ d c calls (sd : Nat → Nat × (Nat → ℚ) × (Nat → ℚ)) bound, ∃ S : Search Nat (List Nat) Int,
    S.sim = supSim m (9 / 10) 5 d c ∧
    let r := runTrajectory m
      (searchModel S.sim m.isFinal calls fun g => (m.sampleStart (sd g).1 (sd g).2.1 (sd g).2.2, g + 1))
      (searchPolicy S 100) (runnerArray m.nStates) bound ((runRunnerOps S (S.runner [0, 0, 0, 0, 0] 0) ⟨none, []⟩ [.getAction 1000]).1, [])
    r.1 = .ok () ∨ r.1 = .error .maxSamplesReached ∨ (r.1 = .error .unfinished ∧ r.2.2.length = 0 + 1 + 2 * bound) := by
  obtain ⟨h1, h2, h3, h4, h5⟩ := exSup_ok
  obtain ⟨m, hm, _⟩ := (C70_accepts exSup h1 h2 {} (fun l => l) (fun _ _ => Iff.rfl) 3 h5).1 ⟨h3, h4⟩
  have ht : Constructed exSup m := ⟨h1, h2, {}, fun l => l, 3, fun _ _ => Iff.rfl, h5, hm⟩
  have hk : (mkSupPomdp {} (fun l => l) 3 exSup).toOption.map
      (fun m => decide (m.par.pPreferences.length ≤ m.par.nPreferences ∧ 0 < m.nStates ∧ 0 < m.par.nPreferences)) = some true := by decide +kernel
  rw [hm] at hk
  simp only [Except.toOption, Option.map_some, Option.some.injEq, decide_eq_true_eq] at hk
  refine ⟨m, ht, fun d c calls sd bound => ⟨⟨supSim m (9 / 10) 5 d c, nTransitions, 20, 1, false, 10, 0, fun _ _ => 0, false, 25, 25⟩, rfl, ?_⟩⟩
  exact C89_search ht hk.1 hk.2.2 (9 / 10) 5 (by decide) d c _ rfl nTransitions_bounded (by norm_num) (by norm_num) (by norm_num)
    [0, 0, 0, 0, 0] rfl (by simpa using hk.2.1) 0 _ 100 calls sd bound []

end Verif
