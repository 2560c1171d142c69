import Verif.Proof.PomcpPath
import Verif.Proof.PomcpBounds

/-! Properties of the search tree: C52, C53, C55 and C58. -/

set_option linter.unusedSectionVars false
set_option linter.unusedSimpArgs false

namespace Verif
open Spec
variable {σ β η : Type}

/-! ### C52: averages -/

/-- The number of updates is counted. -/
theorem C52_count (alpha : ℚ) (xs : List ℚ) : (xs.foldl (Avg.update alpha) .new).n = xs.length := by
  have h : ∀ (xs : List ℚ) (v : Avg), (xs.foldl (Avg.update alpha) v).n = v.n + xs.length := by
    intro xs
    induction xs with
    | nil => intro v; rfl
    | cons x xs ih => intro v; rw [List.foldl_cons, ih]; simp [Avg.update]; omega
  rw [h]; simp [Avg.new]

/-- With `alpha = 0` the value is the mean. -/
theorem C52_mean (xs : List ℚ) (hne : xs ≠ []) : (xs.foldl (Avg.update 0) .new).value = xs.sum / xs.length := by
  have h : ∀ (xs : List ℚ) (v : Avg), (xs.foldl (Avg.update 0) v).total = v.total + xs.sum := by
    intro xs
    induction xs with
    | nil => intro v; simp
    | cons x xs ih => intro v; rw [List.foldl_cons, ih, List.sum_cons]; simp [Avg.update]; ring
  have hn := C52_count 0 xs
  unfold Avg.value
  rw [hn, h, if_neg (by simpa using hne)]
  simp [Avg.new]

/-- The value is between any bounds on the returns, in particular between the smallest and the largest return. -/
theorem C52_between (alpha : ℚ) (h0 : 0 ≤ alpha) (h1 : alpha ≤ 1) (xs : List ℚ) (hne : xs ≠ []) (lo hi : ℚ)
    (hx : ∀ x ∈ xs, lo ≤ x ∧ x ≤ hi) :
    lo ≤ (xs.foldl (Avg.update alpha) .new).value ∧ (xs.foldl (Avg.update alpha) .new).value ≤ hi := by
  have h : ∀ (xs : List ℚ) (v : Avg), AvgOk lo hi v → (∀ x ∈ xs, lo ≤ x ∧ x ≤ hi) → AvgOk lo hi (xs.foldl (Avg.update alpha) v) := by
    intro xs
    induction xs with
    | nil => intro v h _; exact h
    | cons x xs ih =>
        intro v h hx
        have := hx x (by simp)
        exact ih _ (h.update h0 h1 this.1 this.2) (fun y hy => hx y (by simp [hy]))
  obtain ⟨a, b⟩ := h xs _ (.new lo hi) hx
  have hn := C52_count alpha xs
  have hpos : (0 : ℚ) < (xs.foldl (Avg.update alpha) .new).n := by
    rw [hn]; exact_mod_cast List.length_pos_of_ne_nil hne
  unfold Avg.value
  rw [if_neg (by intro h; rw [h] at hpos; simp at hpos)]
  constructor
  · rw [le_div_iff₀ hpos]; linarith
  · rw [div_le_iff₀ hpos]; linarith

/-- The new value is a mixture of the mean of the old values with the new one, and of the new one. -/
theorem C52_mixture (alpha : ℚ) (v : Avg) (h : v.n = 0 → v.total = 0) (x : ℚ) :
    (v.update alpha x).value = (1 - alpha) * ((v.n * v.value + x) / (v.n + 1)) + alpha * x := by
  have hn : (v.n : ℚ) + 1 ≠ 0 := by positivity
  unfold Avg.value Avg.update
  simp only [Nat.add_eq_zero_iff, one_ne_zero, and_false, if_false]
  push_cast
  by_cases h0 : v.n = 0
  · simp only [h0, if_true, Nat.cast_zero, h h0]; ring
  · have : (v.n : ℚ) ≠ 0 := by exact_mod_cast h0
    rw [if_neg h0]
    field_simp

example : (([1, 2, 4] : List ℚ).foldl (Avg.update (1 / 2)) .new).value = 13 / 4 := by decide +kernel

/-! ### C53: visit counts -/

section
variable [DecidableEq β]

/-- After any calls there are paths, one for each successful simulation at most, such that the visits of each action are the
passages of the paths, and the visits of each node are those of its actions plus the rollouts made from it (`extras`).  If nodes
are not shared, a path visits a node once at most, there is at most one rollout visit for each node and none for the root. -/
theorem C53_counts (S : Search σ β η) (hq : QuietSim S.sim) (b : β) (rng : σ) (ops : List TreeOp) :
    ∃ paths : List (List (Nat × Nat)), ∃ extras : List Nat, paths.length ≤ ops.length ∧ extras.length ≤ paths.length ∧
      (∀ path ∈ paths, IsTreePath (runTreeOps S (S.start b rng) ops).tree path) ∧
      (∀ i a, actionVisits (runTreeOps S (S.start b rng) ops).tree i a = (paths.map fun p => p.count (i, a)).sum) ∧
      (∀ i, nodeVisits (runTreeOps S (S.start b rng) ops).tree i = actionSum (runTreeOps S (S.start b rng) ops).tree i +
        extras.count i) ∧
      (S.shared = false → (∀ path ∈ paths, (path.map Prod.fst).Nodup) ∧ extras.Nodup ∧ 0 ∉ extras) := by
  have h0 : TInv S b (S.start b rng).tree := TInv.init b
  obtain ⟨ht, _⟩ := runTreeOps_inv ops _ h0
  obtain ⟨paths, extras, k1, k2, k3, k4, k5⟩ := runTreeOps_counts hq ops _ h0
  have hav : ∀ i a, actionVisits (S.start b rng).tree i a = 0 ∧ nodeVisits (S.start b rng).tree i = 0 := by
    have hn : (S.start b rng).tree.nodes = fun _ => ONode.new b S.sim.nActions := by
      show (Tree.init _ _ _).nodes = _
      unfold Tree.init Tree.nodeFor
      split
      · simp only [dget]; funext j; simp [Tree.alloc]
      · funext j; simp [Tree.alloc]
    intro i a
    constructor
    · unfold actionVisits
      rw [Tree.new_anode (b := b) (n := S.sim.nActions) (by rw [hn])]
      rfl
    · unfold nodeVisits; rw [hn]; rfl
  have hacts : ∀ i a, actionVisits (runTreeOps S (S.start b rng) ops).tree i a = (paths.map fun p => p.count (i, a)).sum := by
    intro i a; rw [k5, (hav i a).1, Nat.zero_add]
  have hsum : ∀ i, nodeVisits (runTreeOps S (S.start b rng) ops).tree i = actionSum (runTreeOps S (S.start b rng) ops).tree i +
        extras.count i := by
    intro i
    rw [k4, (hav i 0).2, Nat.zero_add]
    congr 1
    rw [actionSum_eq ht, List.map_congr_left (fun a _ => hacts i a)]
    have hgen : ∀ ps : List (List (Nat × Nat)), (∀ p ∈ ps, ∀ x ∈ p, x.2 < S.sim.nActions) →
        (ps.map fun p => (p.map Prod.fst).count i).sum = ((List.range S.sim.nActions).map fun a => (ps.map fun p => p.count (i, a)).sum).sum := by
      intro ps
      induction ps with
      | nil => intro _; simp
      | cons p ps ih =>
          intro h
          simp only [List.map_cons, List.sum_cons]
          rw [sum_map_add_nat, ih (fun q hq => h q (by simp [hq])), count_sum _ _ p (h p (by simp))]
    exact hgen paths (fun p hp x hx => ((k3 p hp).2 x hx).2)
  refine ⟨paths, extras, k1, k2, fun p hp => (k3 p hp).1, hacts, hsum, fun hs => ⟨fun p hp => ?_, ?_, ?_⟩⟩
  · exact (isPath_increasing ht hs (k3 p hp).1).imp (fun h => Nat.ne_of_lt h)
  · rw [List.nodup_iff_count_le_one]
    intro i
    have := ht.plain hs i
    rw [hsum i] at this
    omega
  · intro hm
    have := ht.plainRoot hs
    rw [hsum 0] at this
    have := List.count_pos_iff.2 hm
    omega

/-- One simulation from an existing node: if it succeeds and the horizon is positive, it visits exactly one action of the start
node, one that has not been tried if there is any, and if nodes are not shared the start node and this action get exactly one
more visit and the other actions of the start node none.  If it raises, no count has changed. -/
theorem C53_simulation (S : Search σ β η) (hq : QuietSim S.sim) (b : β) (rng : σ) (ops : List TreeOp) (i : Nat) (act : Option Nat)
    (st st' : SearchState σ β) (hst : st = runTreeOps S (S.start b rng) ops) (hi : i < st.tree.size) :
    (∀ e, simulateFromNode S i act st = (.error e, st') →
      (∀ j, nodeVisits st'.tree j = nodeVisits st.tree j) ∧ ∀ j a, actionVisits st'.tree j a = actionVisits st.tree j a) ∧
    (simulateFromNode S i act st = (.ok (), st') → S.hor.isReached S.horizon = true →
      (∀ j, nodeVisits st'.tree j = nodeVisits st.tree j) ∧ ∀ j a, actionVisits st'.tree j a = actionVisits st.tree j a) ∧
    (simulateFromNode S i act st = (.ok (), st') → S.hor.isReached S.horizon = false →
      ∃ a, (act = none → unexplored st.tree i ≠ [] → a ∈ unexplored st.tree i) ∧ (∀ a', act = some a' → a = a') ∧
        nodeVisits st.tree i + 1 ≤ nodeVisits st'.tree i ∧ actionVisits st.tree i a + 1 ≤ actionVisits st'.tree i a ∧
        (S.shared = false → nodeVisits st'.tree i = nodeVisits st.tree i + 1 ∧
          ∀ a', actionVisits st'.tree i a' = actionVisits st.tree i a' + if a' = a then 1 else 0)) := by
  have h0 : TInv S b (S.start b rng).tree := TInv.init b
  obtain ⟨ht, _⟩ := runTreeOps_inv ops _ h0
  rw [← hst] at ht
  refine ⟨fun e hr => ?_, fun hr hh => ?_, fun hr hh => ?_⟩
  · exact ((M.post_iff.1 (simulateFromNode_post i act st ht hi)).2 _ _ hr).2.2
  · obtain ⟨path, extra, _, _, _, p4, p5, p6, _⟩ := simulateFromNode_counts hq ht hi hr
    obtain ⟨rfl, rfl⟩ := p6 hh
    exact ⟨fun j => by rw [p4]; simp, fun j a => by rw [p5]; simp⟩
  · obtain ⟨path, extra, p1, _, p3, p4, p5, _, p7⟩ := simulateFromNode_counts hq ht hi hr
    obtain ⟨a, p, rfl, q1, q2⟩ := p7 hh
    obtain ⟨ht', _⟩ := (M.post_iff.1 (simulateFromNode_post i act st ht hi)).1 _ _ hr
    refine ⟨a, q1, q2, ?_, ?_, fun hs => ?_⟩
    · rw [p4]; simp; omega
    · rw [p5]; simp
    · have hinc := isPath_increasing ht' hs p1
      rw [List.map_cons, List.pairwise_cons] at hinc
      have hni : i ∉ p.map Prod.fst := fun hm => by have := hinc.1 i hm; omega
      constructor
      · rw [p4, if_neg, List.map_cons, List.count_cons, List.count_eq_zero_of_not_mem hni]
        · simp
        · intro he
          exact (p3 i he).2 hs (by simp)
      · intro a'
        rw [p5, List.count_cons, List.count_eq_zero_of_not_mem]
        · by_cases e : a' = a
          · simp [e]
          · simp [e, Ne.symm e]
        · intro hm
          exact hni (List.mem_map.2 ⟨_, hm, rfl⟩)

theorem choice_quiet (n : Nat) (p : List ℚ) (u : ℚ) : Pomdp.choice n p u ≠ .error .maxSamplesReached := by
  unfold Pomdp.choice
  split_ifs <;> simp

theorem sampleTransition_quiet (p : Pomdp) (u v : ℚ) (a s : Nat) : p.sampleTransition u v a s ≠ .error .maxSamplesReached := by
  intro h
  unfold Pomdp.sampleTransition at h
  split at h
  · cases h
  · rcases h1 : Pomdp.choice p.nStates ((List.range p.T.n2).map (p.T.at_ a s)) u with e | s'
    · rw [h1] at h
      cases h
      exact choice_quiet _ _ _ h1
    · rw [h1] at h
      simp only [bind, Except.bind] at h
      rcases h2 : Pomdp.choice p.nObservations ((List.range p.O.n2).map (p.O.at_ a s')) v with e | o
      · rw [h2] at h
        cases h
        exact choice_quiet _ _ _ h2
      · rw [h2] at h
        cases h

/-- With exact beliefs the exception `MaxSamplesReached` never occurs. -/
theorem exactSim_quiet (p : Pomdp) (u : Nat → ℚ) (c : Nat → Nat) : QuietSim (exactSim p u c) :=
  ⟨fun _ _ _ => sampleTransition_quiet _ _ _ _ _, fun _ _ => choice_quiet _ _ _, fun _ => by simp [exactSim]⟩

/-- A model with one state, used as an example. -/
def loopPomdp : Pomdp where
  sNames := .list [.str "s"]
  aNames := .list [.str "a"]
  oNames := .list [.str "o"]
  T := ⟨1, 1, 1, fun _ _ _ => 1⟩
  O := ⟨1, 1, 1, fun _ _ _ => 1⟩
  R := ⟨1, 1, 1, 1, fun _ _ _ _ => 1⟩
  start := [1]
  discount := 1 / 2
  solverPath := "pomdp-solve"

/-- A search in this model, with shared nodes or not. -/
def loopSearch (shared : Bool) (n : Int) : Search Nat (List ℚ) Int where
  sim := exactSim loopPomdp (fun _ => 0) (fun _ => 0)
  hor := nTransitions
  horizon := n
  exploration := 1
  relative := false
  rolloutIt := 1
  alpha := 0
  bonus := fun _ _ => 0
  shared := shared
  fuel := 100
  bound := 100

example : QuietSim (loopSearch false 3).sim := exactSim_quiet _ _ _

example : nodeVisits (runTreeOps (loopSearch false 3) ((loopSearch false 3).start [1] 0) [.simulate 0 none, .simulate 0 none]).tree 0 = 2 ∧
    nodeVisits (runTreeOps (loopSearch false 3) ((loopSearch false 3).start [1] 0) [.simulate 0 none, .simulate 0 none]).tree 1 = 2 ∧
    actionVisits (runTreeOps (loopSearch false 3) ((loopSearch false 3).start [1] 0) [.simulate 0 none, .simulate 0 none]).tree 1 0 = 1 := by
  decide +kernel

/-- If nodes are shared by histories with the same belief, one simulation can visit its start node twice. -/
theorem C53_false_shared : ∃ st st' : SearchState Nat (List ℚ), st = runTreeOps (loopSearch true 2) ((loopSearch true 2).start [1] 0) [] ∧
    simulateFromNode (loopSearch true 2) 0 none st = (.ok (), st') ∧ nodeVisits st'.tree 0 = nodeVisits st.tree 0 + 2 := by
  refine ⟨_, _, rfl, Prod.ext ?_ rfl, ?_⟩
  · have : ∀ r : Py Unit, (match r with | .ok _ => true | .error _ => false) = true → r = .ok () := by
      intro r h; cases r with
      | ok u => rfl
      | error e => cases h
    apply this
    decide +kernel
  · decide +kernel

/-! ### C55: bounds on the values -/

/-- All the values remain in the range of the discounted returns. -/
theorem C55_bounds (S : Search σ β η) (lo hi : ℚ) (hlo : lo ≤ 0) (hhi : 0 ≤ hi) (hr : RewardsIn S.sim lo hi)
    (hd0 : 0 ≤ S.sim.discount) (hd1 : S.sim.discount < 1) (ha0 : 0 ≤ S.alpha) (ha1 : S.alpha ≤ 1) (b : β) (rng : σ) (ops : List TreeOp) :
    (∀ i, lo / (1 - S.sim.discount) ≤ ((runTreeOps S (S.start b rng) ops).tree.nodes i).avg.value ∧
      ((runTreeOps S (S.start b rng) ops).tree.nodes i).avg.value ≤ hi / (1 - S.sim.discount)) ∧
    ∀ i a, lo / (1 - S.sim.discount) ≤ actionValue (runTreeOps S (S.start b rng) ops).tree i a ∧
      actionValue (runTreeOps S (S.start b rng) ops).tree i a ≤ hi / (1 - S.sim.discount) := by
  have hp : 0 < 1 - S.sim.discount := by linarith
  have hL0 : lo / (1 - S.sim.discount) ≤ 0 := div_nonpos_of_nonpos_of_nonneg hlo hp.le
  have hH0 : 0 ≤ hi / (1 - S.sim.discount) := div_nonneg hhi hp.le
  have key : ∀ x : ℚ, x / (1 - S.sim.discount) = x + S.sim.discount * (x / (1 - S.sim.discount)) := by
    intro x
    have := hp.ne'
    field_simp
    ring
  have hb := runTreeOps_bounds hr hL0 hH0 hd0 (key lo).le (key hi).ge ha0 ha1 ops (S.start b rng) (TInv.init b) (BInv.init b)
  refine ⟨fun i => (hb.1 i).value hL0 hH0, fun i a => ?_⟩
  unfold actionValue
  rcases h : (runTreeOps S (S.start b rng) ops).tree.anode i a with _ | c
  · exact ⟨hL0, hH0⟩
  · exact (hb.2 i a c h).value hL0 hH0

example : RewardsIn (loopSearch false 3).sim 0 1 ∧
    ((runTreeOps (loopSearch false 3) ((loopSearch false 3).start [1] 0) [.simulate 0 none, .simulate 0 none]).tree.nodes 0).avg.value = 7 / 4 ∧
    actionValue (runTreeOps (loopSearch false 3) ((loopSearch false 3).start [1] 0) [.simulate 0 none, .simulate 0 none]).tree 0 0 = 7 / 4 := by
  refine ⟨?_, by decide +kernel, by decide +kernel⟩
  intro a s g x g' h
  have hx : ∀ y, loopPomdp.sampleTransition 0 0 a s = .ok y → y.2.2 = 1 := by
    intro y hy
    unfold Pomdp.sampleTransition at hy
    simp only [bind, Except.bind] at hy
    split at hy
    · cases hy
    · split at hy
      · cases hy
      · split at hy
        · cases hy
        · cases hy; rfl
  have := hx x (congrArg Prod.fst h)
  rw [this]
  norm_num

/-! ### C58: rollouts and simulations -/

theorem within_nTransitions : ∀ (evs : List Ev) (n : Int), Within nTransitions n evs → evs.length ≤ n.toNat ∧
    horizonAfter nTransitions n evs = n - evs.length := by
  intro evs
  induction evs with
  | nil => intro n _; simp [horizonAfter]
  | cons e evs ih =>
      intro n h
      obtain ⟨h1, h2⟩ := h
      simp only [nTransitions, decide_eq_false_iff_not] at h1
      obtain ⟨h3, h4⟩ := ih _ h2
      change evs.length ≤ (n - 1).toNat at h3
      change horizonAfter nTransitions n (e :: evs) = n - 1 - evs.length at h4
      constructor
      · simp; omega
      · rw [h4]; simp; omega

theorem isRollout_nTransitions {n : Int} {evs : List Ev} (h : IsRollout nTransitions n evs) : evs.length = n.toNat := by
  obtain ⟨_, h1, h2⟩ := h
  obtain ⟨h3, h4⟩ := within_nTransitions evs _ h1
  rw [h4] at h2
  simp only [nTransitions, decide_eq_true_eq] at h2 h3
  omega

/-- A rollout under an `n`-transition horizon performs exactly `n` transitions, each from the state reached by the preceding one,
and returns the discounted sum of their rewards. -/
theorem C58_rollout (sim : Sim σ β) (bound s : Nat) (n : Int) (g g' : σ × List Ev) (x : ℚ)
    (h : rolloutLoop (logged sim) nTransitions bound s n 1 0 g = (.ok x, g')) :
    ∃ evs : List Ev, g'.2 = g.2 ++ evs ∧ Chained s evs ∧ evs.length = n.toNat ∧ x = discountedSum sim.discount evs := by
  obtain ⟨evs, h1, h2, h3, h4, h5⟩ := (M.post_iff.1 (rolloutLoop_post sim nTransitions bound s n 1 0 g)).1 _ _ h
  obtain ⟨k3, k4⟩ := within_nTransitions evs _ h3
  rw [k4] at h4
  simp only [nTransitions, decide_eq_true_eq] at h4
  exact ⟨evs, h1, h2, by omega, by rw [h5]; ring⟩

/-- A simulation from an existing node: the record grows by the transitions in the tree, that start in a state sampled from the
belief of the node and follow each other and the links of the tree, and by those of the rollouts; the value returned is the
discounted sum of the former, followed by the mean of the discounted sums of the latter, or the value of the last node.  See
`Spec.Trace`. -/
theorem C58_simulation (S : Search σ β η) (hq : QuietSim S.sim) (b : β) (rng : σ) (ops : List TreeOp) (i : Nat) (act : Option Nat)
    (log : List Ev) (st : SearchState σ β) (st' : SearchState (σ × List Ev) β) (hst : st = runTreeOps S (S.start b rng) ops)
    (hi : i < st.tree.size) (h : simulateFromNode (loggedSearch S) i act ⟨st.tree, (st.rng, log)⟩ = (.ok (), st')) :
    ∃ s x, ∃ path : List (Nat × Nat), ∃ evs : List Ev, ∃ rolls : List (List Ev), ∃ ending,
      (∃ g, S.sim.sampleBelief (st.tree.nodes i).belief st.rng = (.ok s, g)) ∧
      Trace (loggedSearch S) ⟨st.tree, (st.rng, log)⟩ st' i s S.horizon x path evs rolls ending := by
  have h0 : TInv S b (S.start b rng).tree := TInv.init b
  obtain ⟨ht, _⟩ := runTreeOps_inv ops _ h0
  rw [← hst] at ht
  obtain ⟨s, x, path, evs, rolls, ending, h1, h2, _⟩ := simulateFromNode_trace hq (st := ⟨st.tree, (st.rng, log)⟩) ht hi h
  exact ⟨s, x, path, evs, rolls, ending, h1, h2⟩

/-- With an `n`-transition horizon there are at most `n` transitions in the tree, and each of the rollouts has the remaining
number of transitions. -/
theorem C58_lengths (S : Search (σ × List Ev) β Int) (hh : S.hor = nTransitions) (st st' : SearchState (σ × List Ev) β) (i s : Nat) (n : Int)
    (x : ℚ) (path : List (Nat × Nat)) (evs : List Ev) (rolls : List (List Ev)) (ending : Ending)
    (h : Trace S st st' i s n x path evs rolls ending) :
    evs.length ≤ n.toNat ∧ path.length = evs.length ∧ (rolls = [] ∨ rolls.length = S.rolloutIt) ∧
      ∀ r ∈ rolls, r.length = n.toNat - evs.length := by
  have hw := h.within
  rw [hh] at hw
  obtain ⟨h1, h2⟩ := within_nTransitions evs n hw
  have hlen : ∀ (path : List (Nat × Nat)) (evs : List Ev) (i : Nat) (last : Option Nat), LinkedRun st'.tree i path evs last →
      path.length = evs.length := by
    intro path
    induction path with
    | nil =>
        intro evs i last h
        cases evs with
        | nil => rfl
        | cons e evs => cases h
    | cons y path ih =>
        intro evs i last h
        obtain ⟨y1, y2⟩ := y
        cases evs with
        | nil => cases h
        | cons e evs =>
            obtain ⟨_, _, h⟩ := h
            rcases h with ⟨_, rfl, rfl, _⟩ | ⟨k, _, h⟩
            · rfl
            · simp [ih evs k last h]
  have hr := h.rollsOk
  rw [hh, h2] at hr
  refine ⟨h1, hlen _ _ _ _ h.linked, ?_⟩
  cases ending with
  | known j => obtain ⟨hr, _⟩ := hr; subst hr; exact ⟨.inl rfl, by simp⟩
  | skipped => change rolls = [] at hr; subst hr; exact ⟨.inl rfl, by simp⟩
  | created j =>
      unfold RollsOk at hr
      simp only at hr
      split at hr
      · subst hr; exact ⟨.inl rfl, by simp⟩
      · obtain ⟨hr1, hr2⟩ := hr
        refine ⟨.inr hr1, fun r hr => ?_⟩
        rw [isRollout_nTransitions (hr2 r hr)]
        omega

/-- The record of the transitions does not change the search. -/
theorem C58_record_harmless (S : Search σ β η) (i : Nat) (act : Option Nat) (st : SearchState (σ × List Ev) β) :
    simulateFromNode S i act ⟨st.tree, st.rng.1⟩ =
      ((simulateFromNode (loggedSearch S) i act st).1,
        ⟨(simulateFromNode (loggedSearch S) i act st).2.tree, (simulateFromNode (loggedSearch S) i act st).2.rng.1⟩) :=
  simulateFromNode_proj S i act st

example : ((simulateFromNode (loggedSearch (loopSearch false 3)) 0 none ⟨((loopSearch false 3).start [1] 0).tree, (0, [])⟩).2.rng.2.map
    fun e => (e.action, e.state, e.next, e.obs, e.reward)) = [(0, 0, 0, 0, 1), (0, 0, 0, 0, 1), (0, 0, 0, 0, 1)] := by
  decide +kernel

end
end Verif
