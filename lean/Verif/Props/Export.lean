import Verif.Proof.ExportQuot
import Verif.Props.PomcpUct

/-! The export of a search tree: C78 and C79. -/

set_option linter.unusedSectionVars false
set_option linter.unusedSimpArgs false

namespace Verif
open Spec
variable {σ β η : Type} [DecidableEq β]

/-! ### C78: the export of the policy -/

/-- If the export of a search tree as a policy returns, the result describes the policy of the tree: see `Spec.PolicyOf`.
The counts, values and nodes of the tree are those it had, apart from new action nodes without visits. -/
theorem C78_policy (X : Exporter σ β) (shared : Bool) (fuel : Nat) (st st' : SearchState σ β) (d : PolicyDict)
    (h : treePolicy X shared fuel st = (.ok d, st')) :
    PolicyOf X st.tree 0 none d ∧ SamePlusUntried st.tree st'.tree := by
  unfold treePolicy at h
  obtain ⟨h1, h2⟩ := Prod.mk.inj h
  have := (M.post_iff.1 (policyDict_post X (t := st.tree) fuel 0 none ⟨st, startVisited β shared⟩ (Padded.refl _))).1 d _ (Prod.ext h1 rfl)
  rw [← h2]
  exact ⟨this.policy, this.padded⟩

/-- The same for the tree if the export raises. -/
theorem C78_unchanged (X : Exporter σ β) (shared : Bool) (fuel : Nat) (st : SearchState σ β) :
    SamePlusUntried st.tree (treePolicy X shared fuel st).2.tree := by
  have := M.post_iff.1 (policyDict_post X (t := st.tree) fuel 0 none ⟨st, startVisited β shared⟩ (Padded.refl _))
  show SamePlusUntried st.tree (policyDict X fuel 0 none ⟨st, startVisited β shared⟩).2.search.tree
  rcases h : policyDict X fuel 0 none ⟨st, startVisited β shared⟩ with ⟨r, s⟩
  cases r with
  | ok d => exact (this.1 d s h).padded
  | error e => exact this.2 e s h

/-- The actions that simulations can choose are the same before and after the export. -/
theorem C78_same_choices (S : Search σ β η) (X : Exporter σ β) (shared : Bool) (fuel : Nat) (st : SearchState σ β) (i a : Nat) :
    UctChoice S (treePolicy X shared fuel st).2.tree i a ↔ UctChoice S st.tree i a :=
  Padded.uct (C78_unchanged X shared fuel st) i a

/-- Without shared nodes, the observations of every node of the result are present. -/
theorem C78_all_opened (X : Exporter σ β) (fuel : Nat) (st st' : SearchState σ β) (d : PolicyDict)
    (h : treePolicy X false fuel st = (.ok d, st')) : openedIn d = beliefsIn d := by
  unfold treePolicy at h
  obtain ⟨h1, h2⟩ := Prod.mk.inj h
  have := (M.post_iff.1 (policyDict_post X (t := st.tree) fuel 0 none ⟨st, startVisited β false⟩ (Padded.refl _))).1 d _ (Prod.ext h1 rfl)
  exact this.visited.2

/-- With shared nodes, the observations of the nodes with a given belief are present exactly once. -/
theorem C78_opened_once (X : Exporter σ β) (hinj : Function.Injective X.toList) (fuel : Nat) (st st' : SearchState σ β) (d : PolicyDict)
    (h : treePolicy X true fuel st = (.ok d, st')) : (openedIn d).Nodup ∧ ∀ b ∈ beliefsIn d, b ∈ openedIn d := by
  unfold treePolicy at h
  obtain ⟨h1, h2⟩ := Prod.mk.inj h
  have := (M.post_iff.1 (policyDict_post X (t := st.tree) fuel 0 none ⟨st, startVisited β true⟩ (Padded.refl _))).1 d _ (Prod.ext h1 rfl)
  obtain ⟨new, _, k2, k3, k4⟩ := this.visited
  rw [List.append_nil] at k2 k4
  constructor
  · rw [k3]
    exact ((List.nodup_reverse.2 (k2 List.nodup_nil)).map hinj)
  · intro b hb
    have := k4 b hb
    rw [k3, List.map_reverse, List.mem_reverse]
    exact this

/-- What the invariants of a search give. -/
theorem exportable_of {X : Exporter σ β} {S : Search σ β η} (hsim : X.sim = S.sim) (hrand : ∀ g, ∃ c g', S.sim.rand g = (.ok c, g'))
    (hpos : 0 < S.sim.nActions) (hobs : ∀ b a o g b' g', S.sim.successor b a o g = (.ok b', g') → o < S.sim.observations.length)
    {b : β} {t : Tree β} (ht : TInv S b t) :
    Exportable X t ∧ (S.shared = false → ∀ i a x, x ∈ successors t i a → i < x.2) := by
  have hnext : ∀ i a x, x ∈ successors t i a → t.next i a x.1 = some x.2 := by
    intro i a x hx
    unfold successors at hx
    rcases hc : t.anode i a with _ | c
    · rw [hc] at hx; simp at hx
    · rw [hc] at hx
      unfold Tree.next
      rw [hc]
      exact dget_of_mem (ht.keys i a c hc) hx
  refine ⟨⟨?_, ?_, ?_, ht.sum, ?_⟩, fun hs i a x hx => (ht.range i a _ _ (hnext i a x hx)).2 hs⟩
  · rw [hsim]; exact hrand
  · rw [hsim]; exact hpos
  · intro i; rw [hsim]; exact ht.len i
  · intro i a x hx
    have h1 := hnext i a x hx
    obtain ⟨g, g', h2⟩ := ht.succ i a _ _ h1
    rw [hsim]
    exact ⟨(ht.range i a _ _ h1).1, hobs _ _ _ _ _ _ h2⟩

/-- The export of a tree built by a search returns if the recursion limit is larger than the number of nodes: with shared nodes
too, where the tree can have cycles. -/
theorem C78_returns (S : Search σ β η) (X : Exporter σ β) (hsim : X.sim = S.sim) (hrand : ∀ g, ∃ c g', S.sim.rand g = (.ok c, g'))
    (hpos : 0 < S.sim.nActions) (hobs : ∀ b a o g b' g', S.sim.successor b a o g = (.ok b', g') → o < S.sim.observations.length)
    (b : β) (rng : σ) (ops : List TreeOp) (st : SearchState σ β) (hst : st = runTreeOps S (S.start b rng) ops)
    (fuel : Nat) (hfuel : st.tree.size < fuel) : ∃ d st', treePolicy X S.shared fuel st = (.ok d, st') := by
  have h0 : TInv S b (S.start b rng).tree := TInv.init b
  obtain ⟨ht, _⟩ := runTreeOps_inv ops _ h0
  rw [← hst] at ht
  obtain ⟨hx, hinc⟩ := exportable_of hsim hrand hpos hobs ht
  have hcalls : callsLeft st.tree (startVisited β S.shared) 0 ≤ st.tree.size := by
    unfold startVisited
    split
    · exact (List.countP_le_length).trans (by simp)
    · exact Nat.sub_le _ _
  obtain ⟨d, s, h⟩ := policyDict_total hx (startVisited β S.shared) (by
      intro hv
      apply hinc
      unfold startVisited at hv
      by_contra hs
      rw [if_pos (by simpa using hs)] at hv
      cases hv) fuel 0 none ⟨st, startVisited β S.shared⟩ id (Padded.refl _) ht.pos (by simp only; omega)
  exact ⟨d, s.search, by unfold treePolicy; rw [h]⟩

/-- The viewer of the graphs finds the observation that leads to each child. -/
theorem C78_viewed (X : Exporter σ β) (t : Tree β) (i : Nat) (observed : Option Nat) (info : PolicyInfo) (names : List Name)
    (cs : List PolicyDict) (h : PolicyOf X t i observed (.mk info (some names) cs)) :
    viewedPolicyLabels (.mk info (some names) cs) = names.map some := by
  cases h with
  | opened ha hinfo hnames hlen hcs =>
      rename_i a
      have hl : names.length = cs.length := by
        have := congrArg List.length hnames
        simpa [hlen] using this
      apply List.ext_getElem?
      intro k
      unfold viewedPolicyLabels
      rw [List.getElem?_map, List.getElem?_map]
      rcases hk : cs[k]? with _ | c
      · have : names[k]? = none := List.getElem?_eq_none (by rw [hl]; exact List.getElem?_eq_none_iff.1 hk)
        rw [this]
        rfl
      · have hlt := (List.getElem?_eq_some_iff.1 hk).1
        have hs : (successors t i a)[k]? = some ((successors t i a)[k]'(by omega)) := List.getElem?_eq_getElem _
        have hc := hcs k _ _ c hs hk
        have hn : names[k]? = some (names[k]'(by omega)) := List.getElem?_eq_getElem _
        rw [hn]
        obtain ⟨ci, co, cc⟩ := c
        have : ci.observed = some k := by
          cases hc with
          | closed _ h => exact h.observed
          | opened _ h _ _ _ => exact h.observed
        simp [this, hn]

/-- The exports of the examples. -/
def exporterOf (S : Search Nat (List ℚ) Int) : Exporter Nat (List ℚ) := ⟨S.sim, S.bonus, id⟩

/-- Some entries of a dictionary and of its first children, to the depth `n`: the action, the visits and the observations. -/
def policySummary : Nat → PolicyDict → List (Name × Nat × Option (List Name))
  | 0, _ => []
  | n + 1, .mk info obs cs => (info.action, info.visits, obs) :: ((cs.head?.map (policySummary n)).getD [])

/-- The summary of the result of an export. -/
def summaryOf (r : Py PolicyDict × SearchState Nat (List ℚ)) : Option (List (Name × Nat × Option (List Name))) :=
  match r.1 with
  | .ok d => some (policySummary 10 d)
  | .error _ => none

/-- The summary of the policy found by a search. -/
def exported (S : Search Nat (List ℚ) Int) (n : Nat) : Option (List (Name × Nat × Option (List Name))) :=
  summaryOf (treePolicy (exporterOf S) S.shared 10 (runTreeOps S (S.start [1] 0) (List.replicate n (.simulate 0 none))))

example : exported (loopSearch false 3) 2 = some [(.str "a", 2, some [.str "o"]), (.str "a", 2, some [.str "o"]), (.str "a", 1, some [])] ∧
    exported (loopSearch true 3) 2 = some [(.str "a", 5, some [.str "o"]), (.str "a", 5, none)] ∧
    exported (armSearch 1 false) 6 = some [(.str "good", 6, some [.str "o"]), (.str "good", 0, some [])] := by
  refine ⟨?_, ?_, ?_⟩ <;> decide +kernel

/-- With exact beliefs the observations are in range. -/
theorem exactSim_observed (p : Pomdp) (u : Nat → ℚ) (c : Nat → Nat) (hp : p.O.n2 = p.observations.length) :
    ∀ b a o g b' g', (exactSim p u c).successor b a o g = (.ok b', g') → o < (exactSim p u c).observations.length := by
  intro b a o g b' g' h
  show o < p.observations.length
  rw [← hp]
  have h1 : (do let b' ← p.beliefUpdate a o b; arrayBelief b' : Py (List ℚ)) = .ok b' := (Prod.mk.inj h).1
  by_contra hlt
  have h2 : ∃ e, p.beliefUpdate a o b = .error e := by
    unfold Pomdp.beliefUpdate
    split
    · exact ⟨_, rfl⟩
    · split
      · exact ⟨_, rfl⟩
      · rw [if_pos (.inr (by omega))]
        exact ⟨_, rfl⟩
  obtain ⟨e, h2⟩ := h2
  rw [h2] at h1
  cases h1

example (shared : Bool) (ops : List TreeOp) : ∃ d st', treePolicy (exporterOf (loopSearch shared 3)) shared
    ((runTreeOps (loopSearch shared 3) ((loopSearch shared 3).start [1] 0) ops).tree.size + 1)
    (runTreeOps (loopSearch shared 3) ((loopSearch shared 3).start [1] 0) ops) = (.ok d, st') :=
  C78_returns (loopSearch shared 3) (exporterOf (loopSearch shared 3)) rfl (fun _ => ⟨_, _, rfl⟩) (Nat.zero_lt_one)
    (exactSim_observed _ _ _ (by decide)) [1] 0 ops _ rfl _ (Nat.lt_succ_self _)

example : Function.Injective (exporterOf (loopSearch true 3)).toList := fun _ _ h => h

/-! ### C79: the export with a quotient of the beliefs -/

/-- If the export with a quotient returns, for a model with distinct names, the result describes the policy of the tree: see
`Spec.QuotOf`.  The counts, values and nodes of the tree are those it had, apart from new action nodes without visits. -/
theorem C79_policy_partial (X : Exporter σ β) (quot : List ℚ → List ℚ) (ha : X.sim.actions.Nodup) (ho : X.sim.observations.Nodup)
    (fuel : Nat) (st st' : SearchState σ β) (d : QuotDict) (h : quotientExport X quot fuel st = (.ok d, st')) :
    QuotOf X quot st.tree 0 none d ∧ SamePlusUntried st.tree st'.tree := by
  obtain ⟨h1, h2⟩ := (M.post_iff.1 (quotMap_post X quot ha ho fuel (.obs 0) st (Padded.refl _))).1 d st' h
  exact ⟨h2, h1⟩

/-- Without shared nodes, the export of a tree built by a search returns if the recursion limit is large enough. -/
theorem C79_returns_partial (S : Search σ β η) (X : Exporter σ β) (quot : List ℚ → List ℚ) (hsim : X.sim = S.sim)
    (hrand : ∀ g, ∃ c g', S.sim.rand g = (.ok c, g')) (hpos : 0 < S.sim.nActions)
    (hobs : ∀ b a o g b' g', S.sim.successor b a o g = (.ok b', g') → o < S.sim.observations.length) (ha : X.sim.actions.Nodup)
    (ho : X.sim.observations.Nodup) (hs : S.shared = false) (b : β) (rng : σ) (ops : List TreeOp) (st : SearchState σ β)
    (hst : st = runTreeOps S (S.start b rng) ops) (fuel : Nat) (hfuel : 2 * st.tree.size < fuel) :
    ∃ d st', quotientExport X quot fuel st = (.ok d, st') := by
  have h0 : TInv S b (S.start b rng).tree := TInv.init b
  obtain ⟨ht, _⟩ := runTreeOps_inv ops _ h0
  rw [← hst] at ht
  obtain ⟨hx, hinc⟩ := exportable_of hsim hrand hpos hobs ht
  exact quotMap_total quot ha ho hx (hinc hs) fuel (.obs 0) st (Padded.refl _) ht.pos hfuel

/-- The labels found by the viewer are the observations if they were first seen in the order of the model, none missing. -/
theorem C79_viewed_partial (X : Exporter σ β) (quot : List ℚ → List ℚ) (t : Tree β) (i : Nat) (observed : Option Nat) (info : PolicyInfo)
    (names : List Name) (cs : List QuotDict) (h : QuotOf X quot t i observed (.mk (some info) false none (some names) (some cs)))
    (horder : ∀ a, X.sim.actions[a]? = some info.action → ∀ (k : Nat) (x : Nat × Nat), (successors t i a)[k]? = some x → x.1 = k) :
    viewedLabels (.mk (some info) false none (some names) (some cs)) = names.map some := by
  cases h with
  | node ha hinfo hnames hlen hcs =>
      rename_i a
      have hl : names.length = cs.length := by
        have := congrArg List.length hnames
        simpa [hlen] using this
      apply List.ext_getElem?
      intro k
      unfold viewedLabels
      rw [List.getElem?_map, List.getElem?_map]
      rcases hk : cs[k]? with _ | c
      · have : names[k]? = none := List.getElem?_eq_none (by rw [hl]; exact List.getElem?_eq_none_iff.1 hk)
        rw [this]
        rfl
      · have hlt := (List.getElem?_eq_some_iff.1 hk).1
        have hs : (successors t i a)[k]? = some ((successors t i a)[k]'(by omega)) := List.getElem?_eq_getElem _
        have hc := hcs k _ _ c hs hk
        have hn : names[k]? = some (names[k]'(by omega)) := List.getElem?_eq_getElem _
        rw [hn]
        have ho : ((successors t i a).get ⟨k, by omega⟩).1 = k := horder a hinfo.action k _ hs
        rw [ho] at hc
        cases hc with
        | node _ hi _ _ _ => simp [hi.observed, hn]

/-- A model with one state and two observations, of which only the second occurs. -/
def latePomdp : Pomdp where
  sNames := .list [.str "s"]
  aNames := .list [.str "a"]
  oNames := .list [.str "never", .str "always"]
  T := ⟨1, 1, 1, fun _ _ _ => 1⟩
  O := ⟨1, 1, 2, fun _ _ o => if o = 1 then 1 else 0⟩
  R := ⟨1, 1, 1, 2, fun _ _ _ _ => 1⟩
  start := [1]
  discount := 1 / 2
  solverPath := "pomdp-solve"

/-- A search in this model. -/
def lateSearch : Search Nat (List ℚ) Int := { loopSearch false 3 with sim := exactSim latePomdp (fun _ => 0) (fun _ => 0) }

/-- The search after two simulations. -/
def lateTree : SearchState Nat (List ℚ) := runTreeOps lateSearch (lateSearch.start [1] 0) [.simulate 0 none, .simulate 0 none]

/-- The observations and the labels found by the viewer at the root of an export. -/
def rootLabels : Py QuotDict × SearchState Nat (List ℚ) → Option (Option (List Name) × List (Option Name))
  | (.ok (.mk a b c names d), _) => some (names, viewedLabels (.mk a b c names d))
  | (.error _, _) => none

/-- The viewer does not find the observation of a child: the export gives its number in the model, and the viewer uses it as a
position among the observations of the node. -/
theorem C79_false_viewed : lateTree = runTreeOps lateSearch (lateSearch.start [1] 0) [.simulate 0 none, .simulate 0 none] ∧
    rootLabels (quotientExport (exporterOf lateSearch) id 20 lateTree) = some (some [.str "always"], [none]) := by
  refine ⟨rfl, ?_⟩
  decide +kernel

example : (exporterOf lateSearch).sim.actions.Nodup ∧ (exporterOf lateSearch).sim.observations.Nodup ∧ lateTree.tree.size = 3 := by
  decide +kernel

/-- With shared nodes, a search tree after one simulation. -/
def sharedTree : SearchState Nat (List ℚ) := runTreeOps (loopSearch true 2) ((loopSearch true 2).start [1] 0) [.simulate 0 none]

/-- With shared nodes the export can fail whatever the recursion limit: the tree can have cycles, and `map` follows them. -/
theorem C79_false_shared : sharedTree = runTreeOps (loopSearch true 2) ((loopSearch true 2).start [1] 0) [.simulate 0 none] ∧
    ∀ fuel, (quotientExport (exporterOf (loopSearch true 2)) id fuel sharedTree).1 = .error .runtimeError := by
  refine ⟨rfl, ?_⟩
  have hbest : getBestAction (loopSearch true 2).sim (loopSearch true 2).bonus 0 false 0 sharedTree = (.ok 0, sharedTree) := by
    unfold getBestAction
    rw [M.bind_run]
    simp only [M.read]
    rw [if_pos (by decide +kernel)]
    unfold M.lift
    rw [show greedyAction (loopSearch true 2).bonus 0 false (sharedTree.tree.nodes 0) = .ok 0 by decide +kernel]
  have hsafe : safeGetChild 0 0 sharedTree = (.ok (), sharedTree) := by
    have h : ((sharedTree.tree.nodes 0).children[0]?.bind id).isSome = true := by decide +kernel
    unfold safeGetChild
    split
    · rename_i h'; rw [h'] at h; cases h
    · rename_i h'; rw [h'] at h; cases h
    · rfl
  have hobs : ∃ x, quotFn (exporterOf (loopSearch true 2)) id (.obs 0) sharedTree = (.ok x, sharedTree) := by
    refine ⟨.mk (some (policyInfo (exporterOf (loopSearch true 2)) (sharedTree.tree.nodes 0) (.str "a") none)) false (some 0) none none, ?_⟩
    show quotObs _ _ _ _ = _
    unfold quotObs policyHead
    rw [M.bind_run, M.bind_run]
    rw [show getBestAction (exporterOf (loopSearch true 2)).sim (exporterOf (loopSearch true 2)).bonus 0 false 0 sharedTree =
      (.ok 0, sharedTree) from hbest]
    simp only
    rw [M.bind_of_ok hsafe]
    rfl
  have hact : ∃ x, quotFn (exporterOf (loopSearch true 2)) id (.act 0 0) sharedTree = (.ok x, sharedTree) := by
    refine ⟨.mk none true none (some [.str "o"]) none, ?_⟩
    show (M.lift (namesAt (exporterOf (loopSearch true 2)).sim.observations ((grandChildren sharedTree.tree 0 0).map Prod.fst)) >>= _)
      sharedTree = _
    rw [show (grandChildren sharedTree.tree 0 0) = [(0, 0)] by decide +kernel]
    rfl
  have hc1 : nodeChildren sharedTree.tree (.obs 0) = [.act 0 0] := by decide +kernel
  have hc2 : nodeChildren sharedTree.tree (.act 0 0) = [.obs 0] := by decide +kernel
  have step : ∀ fuel (r r' : NodeRef), (∃ x, quotFn (exporterOf (loopSearch true 2)) id r sharedTree = (.ok x, sharedTree)) →
      nodeChildren sharedTree.tree r = [r'] →
      (mapNode (quotFn (exporterOf (loopSearch true 2)) id) (joinQuot (exporterOf (loopSearch true 2)).sim.observations) fuel r' sharedTree).1 =
        .error .runtimeError →
      (mapNode (quotFn (exporterOf (loopSearch true 2)) id) (joinQuot (exporterOf (loopSearch true 2)).sim.observations) (fuel + 1) r
        sharedTree).1 = .error .runtimeError := by
    rintro fuel r r' ⟨x, hx⟩ hc h
    rw [mapNode, M.bind_of_ok hx, M.bind_run]
    simp only [M.read]
    rw [hc, exportList, M.bind_run, M.bind_run]
    rcases hm : mapNode (quotFn (exporterOf (loopSearch true 2)) id) (joinQuot (exporterOf (loopSearch true 2)).sim.observations) fuel r'
      sharedTree with ⟨y, s⟩
    rw [hm] at h
    simp only at h
    subst h
    rfl
  intro fuel
  unfold quotientExport
  have key : ∀ fuel, (mapNode (quotFn (exporterOf (loopSearch true 2)) id) (joinQuot (exporterOf (loopSearch true 2)).sim.observations)
        fuel (.obs 0) sharedTree).1 = .error .runtimeError ∧
      (mapNode (quotFn (exporterOf (loopSearch true 2)) id) (joinQuot (exporterOf (loopSearch true 2)).sim.observations)
        fuel (.act 0 0) sharedTree).1 = .error .runtimeError := by
    intro fuel
    induction fuel with
    | zero => exact ⟨rfl, rfl⟩
    | succ fuel ih => exact ⟨step fuel _ _ hobs hc1 ih.2, step fuel _ _ hact hc2 ih.1⟩
  exact (key fuel).1

end Verif
