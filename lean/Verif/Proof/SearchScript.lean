import Verif.Spec.SearchScript
import Verif.Props.Experiment
import Verif.Props.Export
import Verif.Proof.TreeShape
import Verif.Proof.Term
import Verif.Proof.Script

/-! Lemmas for the script of the search (C117). -/

set_option linter.unusedSectionVars false
set_option linter.unusedSimpArgs false

namespace Verif
open Spec
variable {σ β η : Type} [DecidableEq β] {S : Search σ β η} {b0 : β}

/-! ### The number of nodes -/

theorem dset_missing_length {κ ν : Type} [DecidableEq κ] (k : κ) (v : ν) : ∀ d : List (κ × ν), dget d k = none → (dset d k v).length = d.length + 1
  | [], _ => rfl
  | (k', v') :: d, h => by
      unfold dget at h
      unfold dset
      split
      · rename_i he
        simp [he] at h
      · rename_i he
        rw [if_neg he] at h
        simp [dset_missing_length k v d h]

/-- `_obs_nodes` has as many elements as there are nodes. -/
def Counted (S : Search σ β η) (t : Tree β) : Prop := S.shared = true → t.lookup.length = t.size

theorem counted_stable : Stable S b0 (Counted S) where
  ensure t i a _ hp _ h := hp
  bump t i x hp := hp
  bumpA t i a x hp := hp
  child t i a o b j t1 ht hp hi ha hn hsucc hnf := by
    intro hs
    show t1.lookup.length = t1.size
    unfold Tree.nodeFor at hnf
    rw [if_pos hs] at hnf
    rcases hd : dget t.lookup b with _ | m
    · rw [hd] at hnf
      simp only [Prod.mk.injEq] at hnf
      obtain ⟨rfl, rfl⟩ := hnf
      show (dset t.lookup b t.size).length = t.size + 1
      rw [dset_missing_length _ _ _ hd, hp hs]
    · rw [hd] at hnf
      simp only [Prod.mk.injEq] at hnf
      obtain ⟨rfl, rfl⟩ := hnf
      exact hp hs

theorem counted_init (b : β) : Counted S (Tree.init S.shared S.sim.nActions b) := by
  intro hs
  unfold Tree.init Tree.nodeFor
  rw [if_pos hs]
  rfl

theorem init_size (sh : Bool) (k : Nat) (b : β) : (Tree.init sh k b).size = 1 := by
  unfold Tree.init Tree.nodeFor
  cases sh <;> simp [dget, Tree.alloc]

theorem simulateMany_stable {P : Tree β → Prop} (hP : Stable S b0 P) (i : Nat) : ∀ (k : Nat) (st : SearchState σ β), TInv S b0 st.tree →
    i < st.tree.size → P st.tree → M.Post (simulateMany S i k) st (fun _ st' => P st'.tree) (fun _ st' => P st'.tree) := by
  intro k
  induction k with
  | zero => intro st _ _ hp; exact M.post_pure.2 hp
  | succ k ih =>
      intro st ht hi hp
      unfold simulateMany
      have p1 := M.post_iff.1 (simulateFromNode_post (S := S) i none st ht hi)
      have p2 := M.post_iff.1 (simulateFromNode_stable hP i none st ht hi hp)
      refine M.post_bind (Q1 := fun _ s1 => TInv S b0 s1.tree ∧ i < s1.tree.size ∧ P s1.tree) (E1 := fun _ s1 => P s1.tree) ?_ (fun _ _ h => h) ?_
      · rw [M.post_iff]
        refine ⟨fun u s1 h1 => ?_, fun e s1 h1 => p2.2 e s1 h1⟩
        obtain ⟨q1, q2, _⟩ := p1.1 u s1 h1
        exact ⟨q1, lt_of_lt_of_le hi q2, p2.1 u s1 h1⟩
      · rintro _ s1 _ ⟨h1, h2, h3⟩
        exact ih s1 h1 h2 h3

theorem createChild_size {i a o : Nat} {st : SearchState σ β} :
    M.Post (createChild S i a o) st (fun _ st' => st'.tree.size ≤ st.tree.size + 1) (fun _ st' => st'.tree.size ≤ st.tree.size + 1) := by
  unfold createChild
  apply M.post_read_bind
  generalize st = s1 at *
  refine M.post_bind (Q1 := fun b' s2 => s2.tree = s1.tree) (E1 := fun e s2 => s2.tree = s1.tree)
    (onRng_tree _ _ (fun b' g h => rfl) (fun e g h => rfl)) (fun _ _ h => by rw [h]; omega) ?_
  rintro b' s2 _ htr
  rcases hnf : Tree.nodeFor S.shared S.sim.nActions b' s1.tree with ⟨j, t1⟩
  have hrun : onTree (σ := σ) (Tree.nodeFor S.shared S.sim.nActions b') s2 = (.ok j, ⟨t1, s2.rng⟩) := by
    unfold onTree; rw [htr, hnf]
  refine M.post_ok_bind hrun ?_
  refine M.post_ok_bind (show linkNode i a o j ⟨t1, s2.rng⟩ = (.ok (), ⟨t1.link i a o j, s2.rng⟩) from rfl) ?_
  rw [M.post_pure]
  show t1.size ≤ s1.tree.size + 1
  unfold Tree.nodeFor at hnf
  split at hnf
  · split at hnf <;>
    · simp only [Prod.mk.injEq] at hnf
      obtain ⟨rfl, rfl⟩ := hnf
      simp [Tree.alloc]
  · simp only [Prod.mk.injEq] at hnf
    obtain ⟨rfl, rfl⟩ := hnf
    simp [Tree.alloc]

theorem expand_size {i a o : Nat} {h : η} {st : SearchState σ β} :
    M.Post (expand S i a o h) st (fun _ st' => st'.tree.size ≤ st.tree.size + 1) (fun _ st' => st'.tree.size ≤ st.tree.size + 1) := by
  unfold expand
  refine M.post_try (Q1 := fun _ st' => st'.tree.size ≤ st.tree.size + 1) (E1 := fun _ st' => st'.tree.size ≤ st.tree.size + 1) ?_
    (fun _ _ _ h => h) (fun _ _ _ h => h) ?_
  · refine M.post_bind createChild_size (fun _ _ h => h) ?_
    intro j s1 _ h1
    refine M.post_mono (rolloutFromNode_post (S := S) j h s1) ?_ ?_
    · rintro y s2 (⟨_, _, rfl⟩ | ⟨_, _, x, _, _, hb⟩)
      · exact h1
      · rw [hb]; exact h1
    · rintro e s2 ⟨htr, _⟩
      rw [htr]; exact h1
  · intro s1 _ h1
    exact M.post_pure.2 h1

theorem simulate_size : ∀ (fuel i s : Nat) (h : η) (act : Option Nat) (st : SearchState σ β), TInv S b0 st.tree → i < st.tree.size →
    M.Post (simulate S fuel i s h act) st (fun _ st' => st'.tree.size ≤ st.tree.size + 1) (fun _ st' => st'.tree.size ≤ st.tree.size + 1) := by
  intro fuel
  induction fuel with
  | zero => intro i s h act st ht hi; exact M.post_raise.2 (Nat.le_succ _)
  | succ fuel ih =>
      intro i s h act st ht hi
      unfold simulate
      apply M.post_ite
      · intro _
        rw [M.post_read]
        exact Nat.le_succ _
      · intro _
        refine M.post_bind chooseAction_post (fun e s1 h1 => by rw [h1]; omega) ?_
        intro a s1 _ h1
        have ht1 : TInv S b0 s1.tree := by rw [h1]; exact ht
        have hi1 : i < s1.tree.size := by rw [h1]; exact hi
        have p1 := M.post_iff.1 (safeGetChild_post (σ := σ) (a := a) ht1 hi1)
        refine M.post_bind (Q1 := fun _ s2 => TInv S b0 s2.tree ∧ s2.tree.size = st.tree.size) (E1 := fun _ s2 => s2.tree.size = st.tree.size) ?_
          (fun e s2 h2 => by rw [h2]; omega) ?_
        · rw [M.post_iff]
          refine ⟨fun u s2 h2 => ?_, fun e s2 h2 => ?_⟩
          · obtain ⟨_, ht2, _, _, ha2, _, _, hs2, _⟩ := p1.1 u s2 h2
            exact ⟨ht2, by rw [hs2, h1]⟩
          · have := (p1.2 e s2 h2).1
            rw [this, h1]
        rintro u s2 _ ⟨ht2, hs2⟩
        refine M.post_bind (Q1 := fun _ s3 => s3.tree = s2.tree) (E1 := fun _ s3 => s3.tree = s2.tree)
          (onRng_tree _ _ (fun _ _ _ => rfl) (fun _ _ _ => rfl)) (fun e s3 h3 => by rw [h3, hs2]; omega) ?_
        intro x s3 _ h3
        apply M.post_read_bind
        generalize s3 = s4 at *
        have ht3 : TInv S b0 s4.tree := by rw [h3]; exact ht2
        have hs4 : s4.tree.size = st.tree.size := by rw [h3, hs2]
        refine M.post_bind (Q1 := fun _ s5 => s5.tree.size ≤ st.tree.size + 1) (E1 := fun _ s5 => s5.tree.size ≤ st.tree.size + 1) ?_ (fun _ _ h => h) ?_
        · rw [← hs4]
          rcases hj : s4.tree.next i a x.2.1 with _ | j
          · exact expand_size
          · exact ih j _ _ _ _ ht3 (ht3.range i a _ j hj).1
        · intro y s5 _ hp5
          rw [M.post_of_ok (updateBoth_run ..)]
          exact hp5

theorem simulateFromNode_size (i : Nat) (act : Option Nat) (st : SearchState σ β) (ht : TInv S b0 st.tree) (hi : i < st.tree.size) :
    M.Post (simulateFromNode S i act) st (fun _ st' => st'.tree.size ≤ st.tree.size + 1) (fun _ st' => st'.tree.size ≤ st.tree.size + 1) := by
  unfold simulateFromNode
  apply M.post_read_bind
  generalize st = s1 at *
  refine M.post_bind (Q1 := fun _ s3 => s3.tree = s1.tree) (E1 := fun _ s3 => s3.tree = s1.tree)
    (onRng_tree _ _ (fun _ _ _ => rfl) (fun _ _ _ => rfl)) (fun e s3 h3 => by rw [h3]; omega) ?_
  intro s s2 _ h2
  have := simulate_size (S := S) (b0 := b0) S.fuel i s S.horizon act s2 (by rw [h2]; exact ht) (by rw [h2]; exact hi)
  rw [h2] at this
  refine M.post_bind this (fun e s3 h3 => h3) ?_
  intro x s3 _ h3
  exact M.post_pure.2 h3

/-- The simulations of a turn: the number of new nodes, and the visits of the node. -/
theorem simulateMany_counts (hq : QuietSim S.sim) (hh : S.hor.isReached S.horizon = false) (i : Nat) : ∀ (k : Nat) (st st' : SearchState σ β),
    TInv S b0 st.tree → i < st.tree.size → simulateMany S i k st = (.ok (), st') →
    st'.tree.size ≤ st.tree.size + k ∧ nodeVisits st.tree i + k ≤ nodeVisits st'.tree i := by
  intro k
  induction k with
  | zero => intro st st' _ _ h; cases h; simp
  | succ k ih =>
      intro st st' ht hi h
      obtain ⟨_, s1, h1, h2⟩ := M.bind_ok h
      obtain ⟨q1, q2, _⟩ := (M.post_iff.1 (simulateFromNode_post (S := S) i none st ht hi)).1 _ _ h1
      have q3 := (M.post_iff.1 (simulateFromNode_size i none st ht hi)).1 _ _ h1
      obtain ⟨path, extra, _, _, _, c1, _, _, c2⟩ := simulateFromNode_counts hq ht hi h1
      obtain ⟨a, p, rfl, _⟩ := c2 hh
      have c := c1 i
      simp only [List.map_cons, List.count_cons_self] at c
      obtain ⟨e1, e2⟩ := ih s1 st' q1 (lt_of_lt_of_le hi q2) h2
      constructor <;> omega

/-- The parts of `get_action`. -/
theorem getAction_split {k : Nat} {r r' : SearchRunner σ β} {nm : Name} (h : searchGetAction S k r = (.ok nm, r')) :
    ∃ st1, simulateMany S r.node k r.search = (.ok (), st1) ∧ r'.search.tree = st1.tree ∧ r'.node = r.node := by
  unfold searchGetAction at h
  obtain ⟨i, s1, h1, h'⟩ := M.bind_ok h
  obtain ⟨_, s2, h2, h''⟩ := M.bind_ok h'
  obtain ⟨a, s3, h3, h4⟩ := M.bind_ok h''
  obtain ⟨_, s4, h5, h6⟩ := M.bind_ok h4
  cases h1
  cases h5
  have e6 : r' = { s3 with last := some a } := by
    have := congrArg Prod.snd h6
    exact this.symm
  have e2 : simulateMany S r.node k r.search = (.ok (), s2.search) ∧ s2.node = r.node := by
    unfold onSearch at h2
    rcases hm : simulateMany S r.node k r.search with ⟨x, s⟩
    rw [hm] at h2
    cases h2
    exact ⟨rfl, rfl⟩
  have e3 : getBestAction S.sim S.bonus 0 false r.node s2.search = (.ok a, s3.search) ∧ s3.node = s2.node := by
    unfold onSearch at h3
    rcases hm : getBestAction S.sim S.bonus 0 false r.node s2.search with ⟨x, s⟩
    rw [hm] at h3
    cases h3
    exact ⟨rfl, rfl⟩
  refine ⟨s2.search, e2.1, ?_, ?_⟩
  · rw [e6]
    exact ((M.post_iff.1 (getBest_post S.sim S.bonus 0 false r.node s2.search)).1 _ _ e3.1).1
  · rw [e6]
    exact e3.2.trans e2.2

/-! ### The runner after some turns -/

theorem searchAfter_succ (b : β) (rng : σ) (it i : Nat) : searchAfter S b rng it (i + 1) = (searchGetAction S it (searchAfter S b rng it i)).2 := by
  unfold searchAfter
  rw [List.replicate_succ', runRunnerOps, List.foldl_append]
  rfl

/-- What is known of the runner after `i` turns of `it` iterations. -/
structure TurnInv (S : Search σ β η) (b : β) (it i : Nat) (r : SearchRunner σ β) : Prop where
  inv : ∃ k, RInv S b r k
  node : r.node = 0
  shape : Shape S r.search.tree
  counted : Counted S r.search.tree
  size : r.search.tree.size ≤ 1 + i * it
  visits : i * it ≤ nodeVisits r.search.tree 0
  last : (i = 0 → r.last = none) ∧ (0 < i → ∃ a < S.sim.nActions, ∃ name, r.last = some a ∧ S.sim.actions[a]? = some name ∧
    (∀ x < S.sim.nActions, 0 < actionVisits r.search.tree 0 x ∧ actionValue r.search.tree 0 x ≤ actionValue r.search.tree 0 a) ∧
    ∀ x < a, actionValue r.search.tree 0 x < actionValue r.search.tree 0 a)

section
variable {ok : β → Prop} {inside : β → Nat → Prop} {state : Nat → Prop}

/-- The turns do not raise. -/
theorem turnInv_all (hs : SafeSim S.sim ok inside state) {m : η → Nat} (hm : BoundedHor S.hor m) (hit : 0 < S.rolloutIt) (h0 : ok b0)
    (hf : m S.horizon < S.fuel) (hb : m S.horizon ≤ S.bound) (hq : QuietSim S.sim) (hh : S.hor.isReached S.horizon = false) (rng : σ) {it : Nat}
    (hk : S.sim.nActions ≤ it) : ∀ i, TurnInv S b0 it i (searchAfter S b0 rng it i) ∧ ∃ name,
      searchGetAction S it (searchAfter S b0 rng it i) = (.ok name, searchAfter S b0 rng it (i + 1)) ∧
      (searchAfter S b0 rng it (i + 1)).last.bind (fun a => S.sim.actions[a]?) = some name := by
  have hstep : ∀ i, TurnInv S b0 it i (searchAfter S b0 rng it i) → ∃ name,
      searchGetAction S it (searchAfter S b0 rng it i) = (.ok name, searchAfter S b0 rng it (i + 1)) ∧
      (searchAfter S b0 rng it (i + 1)).last.bind (fun a => S.sim.actions[a]?) = some name ∧
      TurnInv S b0 it (i + 1) (searchAfter S b0 rng it (i + 1)) := by
    intro i h
    obtain ⟨k, hinv⟩ := h.inv
    have hp := M.post_iff.1 (searchGetAction_safe hs hm hit h0 hf hb it _ k hinv)
    rcases hr : searchGetAction S it (searchAfter S b0 rng it i) with ⟨x, r'⟩
    have hr' : searchAfter S b0 rng it (i + 1) = r' := by rw [searchAfter_succ, hr]
    cases x with
    | error e => exact (hp.2 e r' hr).elim
    | ok name =>
      rw [hr']
      obtain ⟨a, i1, i2, i3, i4, i5⟩ := hp.1 name r' hr
      refine ⟨name, rfl, by rw [i3]; exact i5, ?_⟩
      obtain ⟨a', g1, g2, g3, g4, g5⟩ := C56_greedy S hq hh b0 rng (List.replicate i (.getAction it)) _ r' rfl it hk name hr
      rw [i3] at g2
      cases g2
      obtain ⟨st1, s1, s2, s3⟩ := getAction_split hr
      have hnode : (runRunnerOps S (S.runner b0 rng) ⟨none, []⟩ (List.replicate i (.getAction it))).1.node = 0 := h.node
      rw [hnode] at g4 g5
      rw [h.node] at s1
      have hpos : 0 < (searchAfter S b0 rng it i).search.tree.size := hinv.tree.pos
      obtain ⟨c1, c2⟩ := simulateMany_counts hq hh 0 it _ st1 hinv.tree hpos s1
      have hsz := h.size
      have hv := h.visits
      refine ⟨⟨_, i1⟩, s3.trans h.node, ?_, ?_, ?_, ?_, fun hc => by omega, fun _ => ⟨a, i4, name, i3, i5, g4, g5⟩⟩
      · rw [s2]
        exact (M.post_iff.1 (simulateMany_stable shape_stable 0 it _ hinv.tree hpos h.shape)).1 _ _ s1
      · rw [s2]
        exact (M.post_iff.1 (simulateMany_stable counted_stable 0 it _ hinv.tree hpos h.counted)).1 _ _ s1
      · rw [s2, Nat.add_mul, Nat.one_mul]
        omega
      · rw [s2, Nat.add_mul, Nat.one_mul]
        omega
  have hall : ∀ i, TurnInv S b0 it i (searchAfter S b0 rng it i) := by
    intro i
    induction i with
    | zero =>
        refine ⟨⟨_, runner_inv S b0 rng⟩, rfl, Shape.init b0, counted_init b0, ?_, ?_, fun _ => rfl, fun hc => by omega⟩
        · show (Tree.init S.shared S.sim.nActions b0).size ≤ _
          rw [init_size]
          omega
        · simp
    | succ i ih => exact (hstep i ih).choose_spec.2.2
  intro i
  obtain ⟨name, h1, h2, _⟩ := hstep i (hall i)
  exact ⟨hall i, name, h1, h2⟩

end

/-! ### The turns of the script -/

/-- The name of the last action. -/
def lastName (S : Search σ β η) (r : SearchRunner σ β) : Option Name := r.last.bind fun a => S.sim.actions[a]?

/-- The value that is shown. -/
def lastShown (r : SearchRunner σ β) : ℚ := match r.last with
  | none => 0
  | some a => actionValue r.search.tree 0 a

theorem lastValue_ok {it i : Nat} {st : ExploreState σ β} (h : TurnInv S b0 it i st.runner) : lastValue st = (.ok (lastShown st.runner), st) := by
  unfold lastValue lastShown
  rcases Nat.eq_zero_or_pos i with hi | hi
  · rw [h.last.1 hi]
  · obtain ⟨a, ha, name, h1, h2, h3, _⟩ := h.last.2 hi
    rw [h1]
    have hv := (h3 a ha).1
    obtain ⟨k, hinv⟩ := h.inv
    have hlt : a < (st.runner.search.tree.nodes 0).children.length := by rw [hinv.tree.len]; exact ha
    unfold actionVisits Tree.anode at hv
    unfold actionValue Tree.anode
    dsimp only
    rw [List.getElem?_eq_getElem hlt] at hv ⊢
    rcases hc : (st.runner.search.tree.nodes 0).children[a] with _ | c
    · rw [hc] at hv
      exact absurd hv (by simp [visitsOf])
    · simp

theorem statusOf_line (fmt : StatusFormat) {it i n : Nat} {r : SearchRunner σ β} (h : TurnInv S b0 it i r) :
    StatusOf fmt S.sim.actions r i n (statusLine fmt i n (lastName S r) (lastShown r)) := by
  unfold lastName lastShown
  rcases Nat.eq_zero_or_pos i with hi | hi
  · rw [h.last.1 hi]
    have := StatusOf.first (fmt := fmt) (actions := S.sim.actions) (i := i) (n := n) (h.last.1 hi)
    have e : statusLine fmt i n none 0 = "Exploring... [".toList ++ fmt.percent (i * 100 / n) ++ "%] (current best: None [".toList ++ fmt.value 0 ++ "])".toList := by
      unfold statusLine bestText
      rw [show "%] (current best: None [".toList = "%] (current best: ".toList ++ "None".toList ++ " [".toList by decide]
      simp only [List.append_assoc]
    rw [← e] at this
    exact this
  · obtain ⟨a, ha, name, h1, h2, h3, _⟩ := h.last.2 hi
    rw [h1]
    simp only [Option.bind_some, h2]
    exact StatusOf.next h1 h2 (h3 a ha).1 (fun x hx => (h3 x hx).2)

theorem plain_statusOf {fmt : StatusFormat} {actions : List Name} (hp : PlainTexts fmt actions) {r : SearchRunner σ β} {i n : Nat} {s : List Char}
    (h : StatusOf fmt actions r i n s) : Plain s := by
  obtain ⟨p1, p2, p3⟩ := hp
  cases h with
  | first _ =>
      refine plain_append (plain_append (plain_append (plain_append ?_ (p1 _)) ?_) (p2 _)) ?_ <;> (unfold Plain; decide)
  | next _ hname _ _ =>
      refine plain_append (plain_append (plain_append (plain_append (plain_append (plain_append ?_ (p1 _)) ?_)
        (p3 _ (List.mem_of_getElem? hname))) ?_) (p2 _)) ?_ <;> (unfold Plain; decide)

/-- What a status replaces. -/
theorem puts_status (above : List (List Char)) (line s : List Char) (maxl : Nat) (hs : Plain s) (hl : line.length ≤ maxl) (hsl : s.length ≤ maxl) :
    Screen.puts ⟨above, line, 0⟩ (statusPrint maxl s) = ⟨above, s ++ List.replicate (maxl - s.length) ' ', 0⟩ := by
  unfold statusPrint
  rw [puts_append, puts_line _ _ _ (plain_replicate _ (by decide)), puts_line _ _ _ hs]
  rw [List.length_replicate, List.drop_eq_nil_of_le hl, List.append_nil, List.drop_replicate]

theorem exploreTurn_run (fmt : StatusFormat) {it n i : Nat} {x : Option Name × Nat} {st : ExploreState σ β} {v : ℚ} {name : Name} {r' : SearchRunner σ β}
    (h1 : lastValue st = (.ok v, st)) (h2 : searchGetAction S it st.runner = (.ok name, r')) :
    exploreTurn fmt S it n i x st = (.ok (some name, max x.2 (statusLine fmt i n x.1 v).length),
      ⟨r', st.printed ++ statusPrint (max x.2 (statusLine fmt i n x.1 v).length) (statusLine fmt i n x.1 v), st.world⟩) := by
  unfold exploreTurn
  rw [M.bind_of_ok h1]
  refine (M.bind_of_ok (show sayText (statusPrint (max x.2 (statusLine fmt i n x.1 v).length) (statusLine fmt i n x.1 v)) st =
    (.ok (), ⟨st.runner, st.printed ++ statusPrint (max x.2 (statusLine fmt i n x.1 v).length) (statusLine fmt i n x.1 v), st.world⟩) from rfl)).trans ?_
  have : onPol (searchGetAction S it) (⟨st.runner, st.printed ++ statusPrint (max x.2 (statusLine fmt i n x.1 v).length) (statusLine fmt i n x.1 v), st.world⟩ :
      ExploreState σ β) =
      (.ok name, ⟨r', st.printed ++ statusPrint (max x.2 (statusLine fmt i n x.1 v).length) (statusLine fmt i n x.1 v), st.world⟩) := by
    unfold onPol
    rw [h2]
  exact (M.bind_of_ok this).trans rfl

/-- The turns: what is printed, and what is seen. -/
theorem exploreTurns_run (fmt : StatusFormat) (hp : PlainTexts fmt S.sim.actions) {it : Nat} (rng : σ) (n : Nat)
    (hall : ∀ i, TurnInv S b0 it i (searchAfter S b0 rng it i) ∧ ∃ name,
      searchGetAction S it (searchAfter S b0 rng it i) = (.ok name, searchAfter S b0 rng it (i + 1)) ∧
      (searchAfter S b0 rng it (i + 1)).last.bind (fun a => S.sim.actions[a]?) = some name) :
    ∀ (k i maxl : Nat) (printed : List Char) (w : World), ∃ (y : Option Name × Nat) (outs statuses : List (List Char)),
      exploreTurns fmt S it n k i (lastName S (searchAfter S b0 rng it i), maxl) ⟨searchAfter S b0 rng it i, printed, w⟩ =
        (.ok y, ⟨searchAfter S b0 rng it (i + k), printed ++ outs.flatten, w⟩) ∧
      outs.length = k ∧ statuses.length = k ∧
      (∀ (j : Nat) (s : List Char), statuses[j]? = some s → StatusOf fmt S.sim.actions (searchAfter S b0 rng it (i + j)) (i + j) n s) ∧
      ∀ (above : List (List Char)) (line : List Char), line.length ≤ maxl → ∀ (j : Nat) (s : List Char), statuses[j]? = some s →
        ∃ m, Screen.puts ⟨above, line, 0⟩ (outs.take (j + 1)).flatten = ⟨above, s ++ List.replicate m ' ', 0⟩ := by
  intro k
  induction k with
  | zero =>
      intro i maxl printed w
      exact ⟨_, [], [], by simp [exploreTurns]; rfl, rfl, rfl, by simp, by simp⟩
  | succ k ih =>
      intro i maxl printed w
      obtain ⟨hinv, name, h1, h2⟩ := hall i
      have hv : lastValue ⟨searchAfter S b0 rng it i, printed, w⟩ = (.ok (lastShown (searchAfter S b0 rng it i)), _) := lastValue_ok hinv
      have hst := statusOf_line (n := n) fmt hinv
      have hpl := plain_statusOf hp hst
      have hturn := exploreTurn_run (S := S) fmt (n := n) (i := i) (x := (lastName S (searchAfter S b0 rng it i), maxl)) hv h1
      simp only at hturn
      generalize statusLine fmt i n (lastName S (searchAfter S b0 rng it i)) (lastShown (searchAfter S b0 rng it i)) = s0 at *
      obtain ⟨y, outs, statuses, e1, e2, e3, e4, e5⟩ := ih (i + 1) (max maxl s0.length) (printed ++ statusPrint (max maxl s0.length) s0) w
      refine ⟨y, statusPrint (max maxl s0.length) s0 :: outs, s0 :: statuses, ?_, by simp [e2], by simp [e3], ?_, ?_⟩
      · unfold exploreTurns
        rw [M.bind_of_ok hturn]
        have hn : some name = lastName S (searchAfter S b0 rng it (i + 1)) := h2.symm
        rw [hn, e1]
        simp only [List.flatten_cons, List.append_assoc]
        rw [show i + 1 + k = i + (k + 1) by omega]
      · intro j s hj
        cases j with
        | zero =>
            cases hj
            exact hst
        | succ j =>
            have := e4 j s hj
            rwa [show i + 1 + j = i + (j + 1) by omega] at this
      · intro above line hl j s hj
        have hput := puts_status above line s0 (max maxl s0.length) hpl (le_trans hl (le_max_left _ _)) (le_max_right _ _)
        cases j with
        | zero =>
            cases hj
            refine ⟨max maxl s0.length - s0.length, ?_⟩
            simp only [List.take_succ_cons, List.take_zero, List.flatten_cons, List.flatten_nil, List.append_nil]
            exact hput
        | succ j =>
            simp only [List.take_succ_cons, List.flatten_cons]
            rw [puts_append, hput]
            refine e5 above _ ?_ j s hj
            simp

end Verif
