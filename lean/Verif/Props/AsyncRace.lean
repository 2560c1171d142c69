import Verif.Proof.AsyncRace
import Verif.Props.AsyncStop

/-! What `step` of the asynchronous runner guarantees although it uses the tree without the lock, and what it does not. -/

set_option linter.unusedSectionVars false
set_option linter.unusedSimpArgs false

namespace Verif
open Spec
variable {σ β η : Type} [DecidableEq β]

theorem race_run {S : Search σ β η} {it : Nat} {b0 : β} : ∀ (cs : List Choice) (m : Mach σ β) (k : Known),
    LockInv m → RaceInv S it b0 m k → RaceInv S it b0 (runMach S it cs m).1 (asyncKnown k (runMach S it cs m).2) := by
  intro cs
  induction cs with
  | nil => intro m k _ h; exact h
  | cons c cs ih =>
      intro m k hl h
      show RaceInv S it b0 (runMach S it cs (m.step S it c).1).1 (asyncKnown k (_ ++ _))
      rw [asyncKnown_append]
      rcases step_move S it m c with ⟨h1, h2⟩ | h1
      · rw [h2, h1]
        exact ih m k hl h
      · exact ih _ _ (hl.move h1) (RaceInv.move hl h h1)

theorem race_init (S : Search σ β η) (it : Nat) (b : β) (rng : σ) : RaceInv S it b (S.async b rng) ⟨none, []⟩ := by
  have hr := (runner_inv S b rng).tree.weak
  refine ⟨⟨hr, hr.pos, hr.pos, hr.root⟩, loop_safe S it _ _, ⟨rfl, fun a ha => (by cases ha), rfl⟩⟩

/-- **C59.**  For every interleaving, whenever no method is in execution, the history of the runner is that of the calls and results
seen by the caller, its node exists, and the belief of this node results from successive updates of the initial belief along this
history. -/
theorem C59_history (S : Search σ β η) (it : Nat) (b : β) (rng : σ) (cs : List Choice) (m : Mach σ β) (k : Known)
    (hm : m = (runMach S it cs (S.async b rng)).1) (hk : k = asyncKnown ⟨none, []⟩ (runMach S it cs (S.async b rng)).2) (ho : m.op = none) :
    namesOf S.sim m.sh.runner.history = k.history.map (fun x => (some x.1, some x.2)) ∧
    k.last = m.sh.runner.last.bind (fun a => S.sim.actions[a]?) ∧ m.sh.runner.node < m.sh.runner.search.tree.size ∧
    Along S.sim b m.sh.runner.history (m.sh.runner.search.tree.nodes m.sh.runner.node).belief := by
  have h := race_run (S := S) (it := it) cs (S.async b rng) ⟨none, []⟩ (LockInv.init S b rng) (race_init S it b rng)
  rw [← hm, ← hk] at h
  have h1 := h.caller
  rw [ho] at h1
  exact ⟨h1.names, h1.known, h.glob.node, h.glob.belief⟩

theorem along_updates {p : Pomdp} {u : Nat → ℚ} {c : Nat → Nat} : ∀ (h : List (Nat × Nat)) (b b' : List ℚ),
    Along (exactSim p u c) b h b' → updates p b h = .ok b' := by
  intro h
  induction h with
  | nil => intro b b' hb; cases hb; rfl
  | cons ao h ih =>
      intro b b' hb
      obtain ⟨a, o⟩ := ao
      obtain ⟨b1, h1, h2⟩ := hb
      exact updates_append b b1 b' [(a, o)] h (by simp [updates, exact_succ h1, Except.bind, bind]) (ih b1 b' h2)

/-- **C59.**  For every interleaving, with exact beliefs, the belief of the node of the runner is at any moment the posterior of its
history, also while `step` and explorations change the tree at the same time. -/
theorem C59_belief {p : Pomdp} {nS nA nO : Nat} {u : Nat → ℚ} {c : Nat → Nat} (hp : Stochastic p nS nA nO) (S : Search Nat (List ℚ) η)
    (hS : S.sim = exactSim p u c) (b : List ℚ) (hb : IsDist nS b) (rng : Nat) (it : Nat) (cs : List Choice) (rs : SearchRunner Nat (List ℚ))
    (h : rs = (runMach S it cs (S.async b rng)).1.sh.runner) :
    updates p b rs.history = .ok (rs.search.tree.nodes rs.node).belief ∧ 0 < histProb p nS b rs.history ∧
    ∀ s < nS, (rs.search.tree.nodes rs.node).belief.getD s 0 = endProb p nS b rs.history s / histProb p nS b rs.history := by
  have hr := (race_run (S := S) (it := it) cs (S.async b rng) ⟨none, []⟩ (LockInv.init S b rng) (race_init S it b rng)).glob.belief
  rw [← h, hS] at hr
  have hu := along_updates _ _ _ hr
  obtain ⟨h1, h2⟩ := C38_posterior p nS nA nO hp rs.history (updates_range hp.1 rs.history _ _ hu) b hb
  have hne : histProb p nS b rs.history ≠ 0 := fun h0 => by rw [h1 h0] at hu; cases hu
  obtain ⟨h3, b', h4, h5, h6⟩ := h2 hne
  rw [hu] at h4
  cases h4
  exact ⟨hu, h3, h6⟩

/-- The hypotheses of `C59_history` and `C59_belief` hold in the case in which `step` and an exploration create the same node. -/
example : Stochastic coinPomdp 1 1 2 ∧ IsDist 1 ([1] : List ℚ) ∧ (coinRun coinRace).1.op = none ∧
    (asyncKnown ⟨none, []⟩ (coinRun coinRace).2).history = [(.str "a", .str "tails")] := by
  refine ⟨?_, ?_, by decide +kernel, by decide +kernel⟩
  · refine ⟨by simp [Shaped, coinPomdp, Pomdp.states, Pomdp.actions, Pomdp.observations, Names.asList], ?_, ?_⟩ <;>
      (intro i _ j _; exact ⟨fun _ _ => by norm_num [coinPomdp], by norm_num [coinPomdp, sumRange, List.range_succ]⟩)
  · exact ⟨rfl, by intro i hi; interval_cases i; norm_num, by simp [sumRange, List.range_succ]⟩

/-- **C59, false for `step`.**  `step` uses the tree without the lock: when an exploration creates the same node, the runner ends on
a node which is not the one that the tree has for its history.  (In the sequential runner it is, `C57_history`.) -/
theorem C59_false_step : ∃ (S : Search Nat (List ℚ) Int) (it : Nat) (b : List ℚ) (rng : Nat) (cs : List Choice) (m : Mach Nat (List ℚ)),
    m = (runMach S it cs (S.async b rng)).1 ∧ m.op = none ∧
    ∃ j, follow m.sh.runner.search.tree 0 m.sh.runner.history = some j ∧ j ≠ m.sh.runner.node :=
  ⟨coinSearch, 1, [1], 0, coinRace, _, rfl, by decide +kernel, 3, by decide +kernel, by decide +kernel⟩

/-- Without the overlap the runner is on that node. -/
example : follow (coinRun coinAlone).1.sh.runner.search.tree 0 (coinRun coinAlone).1.sh.runner.history =
    some (coinRun coinAlone).1.sh.runner.node := by decide +kernel

end Verif
