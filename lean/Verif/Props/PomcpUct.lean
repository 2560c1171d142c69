import Verif.Props.Pomcp

/-! The actions chosen by the search: C77. -/

set_option linter.unusedSectionVars false
set_option linter.unusedSimpArgs false

namespace Verif
open Spec
variable {σ β η : Type} [DecidableEq β]

/-- In a simulation from an existing node, every action is chosen by UCT according to the counts and values before the simulation,
except the first one if it is given: an action that has not been tried if there is one, and otherwise the first of those with the
largest value plus bonus.  See `Spec.UctChoice`; `path` is the list of the nodes and the actions, `evs` are the transitions. -/
theorem C77_uct (S : Search σ β η) (hq : QuietSim S.sim) (b : β) (rng : σ) (ops : List TreeOp) (i : Nat) (act : Option Nat)
    (log : List Ev) (st : SearchState σ β) (st' : SearchState (σ × List Ev) β) (hst : st = runTreeOps S (S.start b rng) ops)
    (hi : i < st.tree.size) (h : simulateFromNode (loggedSearch S) i act ⟨st.tree, (st.rng, log)⟩ = (.ok (), st')) :
    ∃ s x, ∃ path : List (Nat × Nat), ∃ evs : List Ev, ∃ rolls : List (List Ev), ∃ ending,
      Trace (loggedSearch S) ⟨st.tree, (st.rng, log)⟩ st' i s S.horizon x path evs rolls ending ∧
      path.map Prod.snd = evs.map Ev.action ∧
      (act = none → ∀ y ∈ path, UctChoice S st.tree y.1 y.2) ∧
      (∀ a, act = some a → ∀ y p, path = y :: p → y = (i, a) ∧ ∀ z ∈ p, UctChoice S st.tree z.1 z.2) := by
  have h0 : TInv S b (S.start b rng).tree := TInv.init b
  obtain ⟨ht, _⟩ := runTreeOps_inv ops _ h0
  rw [← hst] at ht
  obtain ⟨s, x, path, evs, rolls, ending, h1, tr, hch⟩ := simulateFromNode_trace hq (st := ⟨st.tree, (st.rng, log)⟩) ht hi h
  have hnil : S.hor.isReached S.horizon = true → path = [] := by
    intro hr
    have hw := tr.within
    have hlk := tr.linked
    cases evs with
    | cons e evs =>
        have hf : S.hor.isReached S.horizon = false := hw.1
        rw [hr] at hf; cases hf
    | nil =>
        cases path with
        | nil => rfl
        | cons y path => obtain ⟨y1, y2⟩ := y; cases hlk
  have hacts : ∀ (path : List (Nat × Nat)) (evs : List Ev) (i : Nat) (last : Option Nat), LinkedRun st'.tree i path evs last →
      path.map Prod.snd = evs.map Ev.action := by
    intro path
    induction path with
    | nil =>
        intro evs i last h
        cases evs with
        | nil => rfl
        | cons e evs => cases h
    | cons y path ih =>
        intro evs i last h
        obtain ⟨y1, y2⟩ := y
        cases evs with
        | nil => cases h
        | cons e evs =>
            obtain ⟨_, h0, h⟩ := h
            rcases h with ⟨_, rfl, rfl, _⟩ | ⟨k, _, h⟩
            · simp [h0]
            · simp [h0, ih evs k last h]
  refine ⟨s, x, path, evs, rolls, ending, tr, hacts _ _ _ _ tr.linked, ?_, ?_⟩
  · intro ha y hy
    rcases hr : S.hor.isReached S.horizon with _ | _
    · obtain ⟨a, p, rfl, k1, _, k2⟩ := hch hr
      rcases List.mem_cons.1 hy with rfl | hy
      · exact k1 ha
      · exact k2 y hy
    · rw [hnil hr] at hy; cases hy
  · intro a ha y p hp
    rcases hr : S.hor.isReached S.horizon with _ | _
    · obtain ⟨a', p', hp', _, k1, k2⟩ := hch hr
      rw [hp] at hp'
      obtain ⟨rfl, rfl⟩ := List.cons.inj hp'
      exact ⟨by rw [k1 a ha], k2⟩
    · rw [hnil hr] at hp; cases hp

/-- Among actions with the same value, one with fewer visits is preferred, if the bonus decreases with the visits of the action and
the weight is positive. -/
theorem C77_fewer_visits (S : Search σ β η) (t : Tree β) (i a b : Nat) (h : UctChoice S t i a) (hu : unexplored t i = [])
    (hb : b < (t.nodes i).children.length) (hdec : ∀ n m m', 0 < m → m < m' → S.bonus n m' < S.bonus n m)
    (hpos : ∀ c, IsWeight S t i c → 0 < c) (hv : actionValue t i a ≤ actionValue t i b) : actionVisits t i a ≤ actionVisits t i b := by
  obtain ⟨_, _, h3⟩ := h
  obtain ⟨c, hw, hbest, _⟩ := h3 hu
  by_contra hlt
  have hlt := not_le.1 hlt
  have h0 : 0 < actionVisits t i b := by
    apply Nat.pos_of_ne_zero
    intro h0
    have : b ∈ unexplored t i := List.mem_filter.2 ⟨List.mem_range.2 hb, by simpa using h0⟩
    rw [hu] at this
    cases this
  have h1 := hbest b hb
  unfold uctScore at h1
  have h2 := mul_lt_mul_of_pos_left (hdec (nodeVisits t i) _ _ h0 hlt) (hpos c hw)
  linarith

/-- A model with one state and two actions, of rewards 1 and 0. -/
def twoArms : Pomdp where
  sNames := .list [.str "s"]
  aNames := .list [.str "good", .str "bad"]
  oNames := .list [.str "o"]
  T := ⟨2, 1, 1, fun _ _ _ => 1⟩
  O := ⟨2, 1, 1, fun _ _ _ => 1⟩
  R := ⟨2, 1, 1, 1, fun a _ _ _ => if a = 0 then 1 else 0⟩
  start := [1]
  discount := 1 / 2
  solverPath := "pomdp-solve"

/-- A search in this model with a bonus that grows with the visits of the node and decreases with those of the action. -/
def armSearch (exploration : ℚ) (relative : Bool) : Search Nat (List ℚ) Int :=
  { loopSearch false 1 with
    sim := exactSim twoArms (fun _ => 0) (fun _ => 0)
    exploration := exploration
    relative := relative
    bonus := fun n m => n / (m * m) }

/-- The visits of the two actions after some simulations. -/
def armVisits (exploration : ℚ) (relative : Bool) (n : Nat) : Nat × Nat :=
  let t := (runTreeOps (armSearch exploration relative) ((armSearch exploration relative).start [1] 0)
    (List.replicate n (.simulate 0 none))).tree
  (actionVisits t 0 0, actionVisits t 0 1)

example : QuietSim (armSearch 1 true).sim := exactSim_quiet _ _ _

example : armVisits 0 false 6 = (5, 1) ∧ armVisits 1 false 6 = (4, 2) ∧ armVisits (1 / 4) true 6 = (4, 2) := by
  decide +kernel

example : IsWeight (armSearch (1 / 4) true) (runTreeOps (armSearch (1 / 4) true) ((armSearch (1 / 4) true).start [1] 0)
    (List.replicate 6 (.simulate 0 none))).tree 0 (1 / 4) := by
  unfold IsWeight
  rw [if_pos ⟨rfl, by show (0 : ℚ) < 1 / 4; norm_num⟩]
  refine ⟨1, ⟨0, ?_, 1, ?_, ?_, ?_⟩, ?_⟩ <;> decide +kernel

end Verif
