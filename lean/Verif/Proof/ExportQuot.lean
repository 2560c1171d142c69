import Verif.Proof.Export

/-! The export of a search tree with a quotient of the beliefs. -/

set_option linter.unusedSectionVars false
set_option linter.unusedSimpArgs false

namespace Verif
open Spec
variable {σ β η : Type}

/-- The action of number `a` is in the position given by the number of the actions before it. -/
theorem initChildren_pos {l : List (Option ANode)} {a : Nat} {c : ANode} (h : l[a]? = some (some c)) :
    (initChildren l)[(l.take a).countP (·.isSome)]? = some (a, c) := by
  have key : ∀ (l : List (Option ANode)) (a k : Nat), l[a]? = some (some c) →
      ((l.zipIdx k).filterMap fun x => x.1.map fun c => (x.2, c))[(l.take a).countP (·.isSome)]? = some (k + a, c) := by
    intro l
    induction l with
    | nil => intro a k h; simp at h
    | cons x l ih =>
        intro a k h
        cases a with
        | zero =>
            simp only [List.getElem?_cons_zero, Option.some.injEq] at h
            subst h
            simp [List.zipIdx_cons]
        | succ a =>
            rw [List.getElem?_cons_succ] at h
            have := ih a (k + 1) h
            rw [List.zipIdx_cons, List.take_succ_cons, List.countP_cons]
            rcases x with _ | x
            · rw [List.filterMap_cons_none (by rfl)]
              simp only [Option.isSome_none, Bool.false_eq_true, if_false, Nat.add_zero]
              rw [this, show k + 1 + a = k + (a + 1) by omega]
            · rw [List.filterMap_cons_some (b := (k, x)) (by rfl)]
              simp only [Option.isSome_some, if_true]
              rw [List.getElem?_cons_succ, this, show k + 1 + a = k + (a + 1) by omega]
  have := key l a 0 h
  rwa [Nat.zero_add] at this

theorem initChildren_mem {l : List (Option ANode)} {x : Nat × ANode} (h : x ∈ initChildren l) : l[x.1]? = some (some x.2) := by
  unfold initChildren at h
  obtain ⟨⟨c, k⟩, hy, h⟩ := List.mem_filterMap.1 h
  obtain ⟨d, rfl, rfl⟩ := Option.map_eq_some_iff.1 h
  obtain ⟨_, _, h3⟩ := List.mem_zipIdx hy
  rename_i h1 h2
  simp only [Nat.sub_zero] at h3
  simp only
  rw [List.getElem?_eq_some_iff]
  exact ⟨by omega, h3.symm⟩

theorem exportList_post {S ρ γ : Type} {f : γ → M S ρ} {I : S → Prop} {P : γ → ρ → Prop}
    (hf : ∀ x s, I s → M.Post (f x) s (fun y s' => I s' ∧ P x y) (fun _ s' => I s')) :
    ∀ (l : List γ) (s : S), I s → M.Post (exportList f l) s
      (fun ys s' => I s' ∧ ys.length = l.length ∧ ∀ (k : Nat) (x : γ) (y : ρ), l[k]? = some x → ys[k]? = some y → P x y) (fun _ s' => I s') := by
  intro l
  induction l with
  | nil =>
      intro s hs
      unfold exportList
      rw [M.post_pure]
      exact ⟨hs, rfl, fun k x y h => by simp at h⟩
  | cons x l ih =>
      intro s hs
      unfold exportList
      refine M.post_bind (hf x s hs) (fun _ _ h => h) ?_
      rintro y s1 _ ⟨h1, h2⟩
      refine M.post_bind (ih s1 h1) (fun _ _ h => h) ?_
      rintro ys s2 _ ⟨h3, h4, h5⟩
      rw [M.post_pure]
      refine ⟨h3, by simp [h4], ?_⟩
      intro k x' y' k1 k2
      cases k with
      | zero =>
          simp only [List.getElem?_cons_zero, Option.some.injEq] at k1 k2
          subst k1; subst k2
          exact h2
      | succ k =>
          rw [List.getElem?_cons_succ] at k1 k2
          exact h5 k x' y' k1 k2

theorem nameIndex_of {names : List Name} (hn : names.Nodup) {k : Nat} {x : Name} (h : names[k]? = some x) :
    nameIndex names x = .ok k := by
  obtain ⟨hk, rfl⟩ := List.getElem?_eq_some_iff.1 h
  unfold nameIndex
  rw [if_pos (List.getElem_mem hk), List.Nodup.idxOf_getElem hn]

theorem setObserved_of {X : Exporter σ β} {quot : List ℚ → List ℚ} {t : Tree β} {i : Nat} {d : QuotDict} {obs : Option Nat}
    (h : QuotOf X quot t i obs d) (k : Nat) : QuotOf X quot t i (some k) (d.setObserved k) := by
  obtain ⟨ha, hinfo, h1, h2, h3⟩ := h
  exact .node ha ⟨hinfo.value, hinfo.visits, hinfo.belief, hinfo.action, rfl, hinfo.values, hinfo.exploration, hinfo.childVisits⟩ h1 h2 h3

theorem setAllObserved_ok {names : List Name} (hn : names.Nodup) : ∀ {cs : List QuotDict} {os : List Name} {ks : List Nat},
    os.map some = ks.map (fun k => names[k]?) → cs.length = ks.length →
    setAllObserved names cs os = .ok (List.zipWith (fun c k => c.setObserved k) cs ks)
  | [], os, ks, h, hl => by
      have : ks = [] := List.length_eq_zero_iff.1 (by simpa using hl.symm)
      subst this
      rfl
  | c :: cs, os, [], h, hl => by simp at hl
  | c :: cs, [], k :: ks, h, hl => by simp at h
  | c :: cs, o :: os, k :: ks, h, hl => by
      simp only [List.map_cons, List.cons.injEq] at h
      have ih := setAllObserved_ok hn h.2 (cs := cs) (by simpa using hl)
      unfold setAllObserved
      rw [nameIndex_of hn h.1.symm, ih]
      rfl

/-- The result for an action node. -/
def ActionPart (X : Exporter σ β) (quot : List ℚ → List ℚ) (t : Tree β) (i a : Nat) (d : QuotDict) : Prop :=
  ∃ names cs, d = .mk none false none (some names) (some cs) ∧
    names.map some = ((successors t i a).map fun x => X.sim.observations[x.1]?) ∧ cs.length = (successors t i a).length ∧
    ∀ (k o j : Nat) (c : QuotDict), (successors t i a)[k]? = some (o, j) → cs[k]? = some c → QuotOf X quot t j none c

/-- The result for a node. -/
def QuotPart (X : Exporter σ β) (quot : List ℚ → List ℚ) (t : Tree β) : NodeRef → QuotDict → Prop
  | .obs i, d => QuotOf X quot t i none d
  | .act i a, d => ActionPart X quot t i a d

theorem actionPart_take {X : Exporter σ β} {quot : List ℚ → List ℚ} {t : Tree β} {i a : Nat} {ys : List QuotDict} {k : Nat} {d : QuotDict}
    (hd : ys[k]? = some d) (h : ActionPart X quot t i a d) (hn : X.sim.observations.Nodup) {info : PolicyInfo} (ha : Recommended t i a)
    (hinfo : InfoOf X t i a (quot (X.toList (t.nodes i).belief)) none info) :
    ∃ r, joinObs X.sim.observations (some info) ys (some k) = .ok r ∧ QuotOf X quot t i none r := by
  obtain ⟨names, cs, rfl, h1, h2, h3⟩ := h
  have h4 := setAllObserved_ok hn (cs := cs) (os := names) (ks := (successors t i a).map Prod.fst) (by
    rw [h1, List.map_map]; rfl) (by rw [h2, List.length_map])
  have h5 : takeChild ys k = .ok (names, cs) := by
    unfold takeChild
    rw [hd]
  unfold joinObs
  simp only
  rw [h5]
  simp only [bind, Except.bind]
  rw [h4]
  refine ⟨_, rfl, .node ha hinfo h1 (by simp [h2]) ?_⟩
  intro k o j c k1 k2
  rw [List.getElem?_zipWith, List.getElem?_map, k1] at k2
  rcases hc : cs[k]? with _ | c'
  · rw [hc] at k2; simp at k2
  · rw [hc] at k2
    simp only [Option.map_some, Option.some.injEq] at k2
    rw [← k2]
    exact setObserved_of (h3 k o j c' k1 hc) o

theorem nodeChildren_act (t : Tree β) (i a : Nat) : nodeChildren t (.act i a) = (grandChildren t i a).map fun x => .obs x.2 := rfl

theorem quotFn_post (X : Exporter σ β) (quot : List ℚ → List ℚ) (ha : X.sim.actions.Nodup) {t : Tree β} (r : NodeRef)
    (st : SearchState σ β) (hp : SamePlusUntried t st.tree) :
    M.Post (quotFn X quot r) st
      (fun d st' => SamePlusUntried t st'.tree ∧ match r with
        | .obs i => ∃ a info c, Recommended t i a ∧ InfoOf X t i a (quot (X.toList (t.nodes i).belief)) none info ∧
            (st'.tree.nodes i).children[a]? = some (some c) ∧
            d = .mk (some info) false (some (((st'.tree.nodes i).children.take a).countP (·.isSome))) none none
        | .act i a => ∃ names, d = .mk none true none (some names) none ∧
            names.map some = ((successors t i a).map fun x => X.sim.observations[x.1]?))
      (fun _ st' => SamePlusUntried t st'.tree) := by
  cases r with
  | obs i =>
      unfold quotFn quotObs
      refine M.post_bind (policyHead_post X i none st hp) (fun _ _ h => h) ?_
      rintro ⟨a, info⟩ s1 _ ⟨h1, h2, h3, h4⟩
      apply M.post_read_bind
      have hidx : nameIndex X.sim.actions info.action = .ok a := nameIndex_of ha h4.action
      simp only
      rw [hidx]
      refine M.post_bind (Q1 := fun b s => b = a ∧ s = s1) (E1 := fun _ _ => False) ?_ (fun _ _ h => h.elim) ?_
      · rw [M.post_lift]
        exact ⟨fun b hb => ⟨(Except.ok.inj hb).symm, rfl⟩, fun _ h => by cases h⟩
      · rintro b s _ ⟨rfl, rfl⟩
        rw [M.post_pure]
        obtain ⟨c, hc⟩ := Option.ne_none_iff_exists'.1 h2
        refine ⟨h1, b, { info with belief := quot info.belief }, c, h3, ?_, ?_, rfl⟩
        · exact ⟨h4.value, h4.visits, by show quot info.belief = _; rw [h4.belief], h4.action, h4.observed, h4.values, h4.exploration, h4.childVisits⟩
        · exact Tree.anode_some hc
  | act i a =>
      unfold quotFn
      apply M.post_read_bind
      rw [grandChildren_eq, Padded.successors hp]
      refine M.post_bind (Q1 := fun names s => s = st ∧
          names.map some = (successors t i a).map fun x => X.sim.observations[x.1]?) (E1 := fun _ s => s = st) ?_
        (fun _ _ h => by rw [h]; exact hp) ?_
      · rw [M.post_lift]
        refine ⟨fun r hr => ⟨rfl, ?_⟩, fun _ _ => rfl⟩
        rw [namesAt_ok hr, List.map_map]
        rfl
      · rintro names s _ ⟨rfl, hn⟩
        rw [M.post_pure]
        exact ⟨hp, names, rfl, hn⟩

/-- What the export does. -/
theorem quotMap_post (X : Exporter σ β) (quot : List ℚ → List ℚ) (ha : X.sim.actions.Nodup) (ho : X.sim.observations.Nodup) {t : Tree β} :
    ∀ (fuel : Nat) (r : NodeRef) (st : SearchState σ β), SamePlusUntried t st.tree →
      M.Post (mapNode (quotFn X quot) (joinQuot X.sim.observations) fuel r) st
        (fun d st' => SamePlusUntried t st'.tree ∧ QuotPart X quot t r d) (fun _ st' => SamePlusUntried t st'.tree) := by
  intro fuel
  induction fuel with
  | zero => intro r st hp; exact M.post_raise.2 hp
  | succ fuel ih =>
      intro r st hp
      unfold mapNode
      refine M.post_bind (quotFn_post X quot ha r st hp) (fun _ _ h => h) ?_
      rintro x s1 _ ⟨h1, h2⟩
      apply M.post_read_bind
      refine M.post_bind (exportList_post (I := fun s => SamePlusUntried t s.tree) (P := QuotPart X quot t)
        (fun r s hs => ih r s hs) (nodeChildren s1.tree r) s1 h1) (fun _ _ h => h) ?_
      rintro ys s2 _ ⟨k1, k2, k3⟩
      rw [M.post_lift]
      cases r with
      | obs i =>
          obtain ⟨a, info, c, g1, g2, g3, rfl⟩ := h2
          have hpos := initChildren_pos g3
          have hr : (nodeChildren s1.tree (.obs i))[((s1.tree.nodes i).children.take a).countP (·.isSome)]? = some (.act i a) := by
            unfold nodeChildren
            rw [List.getElem?_map, hpos]
            rfl
          have hlt : ((s1.tree.nodes i).children.take a).countP (·.isSome) < ys.length := by
            rw [k2]; exact (List.getElem?_eq_some_iff.1 hr).1
          have hd := k3 _ _ _ hr (List.getElem?_eq_getElem hlt)
          obtain ⟨res, e1, e2⟩ := actionPart_take (List.getElem?_eq_getElem hlt) hd ho g1 g2
          have e3 : joinQuot X.sim.observations (.mk (some info) false
              (some (((s1.tree.nodes i).children.take a).countP (·.isSome))) none none) ys = .ok res := e1
          rw [e3]
          refine ⟨fun d hd => ?_, fun _ h => by cases h⟩
          rw [← Except.ok.inj hd]
          exact ⟨k1, e2⟩
      | act i a =>
          obtain ⟨names, rfl, g⟩ := h2
          refine ⟨fun d hd => ?_, fun _ h => by cases h⟩
          rw [← Except.ok.inj hd]
          refine ⟨k1, names, ys, rfl, g, ?_, ?_⟩
          · rw [k2]
            unfold nodeChildren
            rw [List.length_map, grandChildren_eq, Padded.successors h1]
          · intro k o j c e1 e2
            exact k3 k (.obs j) c (by
              rw [nodeChildren_act, grandChildren_eq, Padded.successors h1, List.getElem?_map, e1]
              rfl) e2

/-! ### Exports that return -/

theorem exportList_total {S ρ γ : Type} {f : γ → M S ρ} {I : S → Prop} {D : γ → Prop}
    (hf : ∀ x s, D x → I s → ∃ y s', f x s = (.ok y, s') ∧ I s') :
    ∀ (l : List γ) (s : S), (∀ x ∈ l, D x) → I s → ∃ ys s', exportList f l s = (.ok ys, s') ∧ I s'
  | [], s, _, hs => ⟨[], s, rfl, hs⟩
  | x :: l, s, hd, hs => by
      obtain ⟨y, s1, h1, h2⟩ := hf x s (hd x (by simp)) hs
      obtain ⟨ys, s2, h3, h4⟩ := exportList_total hf l s1 (fun z hz => hd z (List.mem_cons_of_mem _ hz)) h2
      refine ⟨y :: ys, s2, ?_, h4⟩
      unfold exportList
      rw [M.bind_of_ok h1, M.bind_of_ok h3]
      rfl

/-- The number of calls needed for a node. -/
def mapCalls (t : Tree β) : NodeRef → Nat
  | .obs i => 2 * (t.size - i)
  | .act i _ => 2 * (t.size - i) - 1

/-- The nodes that exist. -/
def refIn (t : Tree β) : NodeRef → Prop
  | .obs i => i < t.size
  | .act i _ => i < t.size

theorem quotMap_total {X : Exporter σ β} (quot : List ℚ → List ℚ) (ha : X.sim.actions.Nodup) (ho : X.sim.observations.Nodup) {t : Tree β}
    (hx : Exportable X t) (hinc : ∀ i a x, x ∈ successors t i a → i < x.2) :
    ∀ (fuel : Nat) (r : NodeRef) (st : SearchState σ β), SamePlusUntried t st.tree → refIn t r → mapCalls t r < fuel →
      ∃ d st', mapNode (quotFn X quot) (joinQuot X.sim.observations) fuel r st = (.ok d, st') := by
  intro fuel
  induction fuel with
  | zero => intro r st _ _ h; omega
  | succ fuel ih =>
      intro r st hp hr hfuel
      have hfn : ∃ x s1, quotFn X quot r st = (.ok x, s1) := by
        cases r with
        | obs i =>
            obtain ⟨x, s1, h1⟩ := policyHead_total hx i none st hp
            obtain ⟨_, _, _, h4⟩ := (M.post_iff.1 (policyHead_post X i none st hp)).1 _ _ h1
            refine ⟨.mk (some { x.2 with belief := quot x.2.belief }) false
              (some (((s1.tree.nodes i).children.take x.1).countP (·.isSome))) none none, s1, ?_⟩
            · show quotObs X quot i st = _
              unfold quotObs
              rw [M.bind_of_ok h1]
              show (M.lift (nameIndex X.sim.actions x.2.action) >>= _) s1 = _
              rw [nameIndex_of ha h4.action]
              rfl
        | act i a =>
            obtain ⟨names, hnames⟩ := namesAt_total (names := X.sim.observations) (l := (successors t i a).map Prod.fst) (by
              intro o ho
              obtain ⟨y, hy, rfl⟩ := List.mem_map.1 ho
              exact (hx.range i a y hy).2)
            refine ⟨.mk none true none (some names) none, st, ?_⟩
            unfold quotFn
            show (M.lift (namesAt X.sim.observations ((grandChildren st.tree i a).map Prod.fst)) >>= _) st = _
            rw [grandChildren_eq, Padded.successors hp, hnames]
            rfl
      obtain ⟨x, s1, h1⟩ := hfn
      obtain ⟨hp1, hd1⟩ := (M.post_iff.1 (quotFn_post X quot ha r st hp)).1 _ _ h1
      have hch : ∀ y ∈ nodeChildren s1.tree r, refIn t y ∧ mapCalls t y < fuel := by
        intro y hy
        cases r with
        | obs i =>
            unfold nodeChildren at hy
            obtain ⟨z, _, rfl⟩ := List.mem_map.1 hy
            simp only [refIn, mapCalls] at *
            omega
        | act i a =>
            rw [nodeChildren_act, grandChildren_eq, Padded.successors hp1] at hy
            obtain ⟨z, hz, rfl⟩ := List.mem_map.1 hy
            have h3 := hinc i a z hz
            have h4 := (hx.range i a z hz).1
            simp only [refIn, mapCalls] at *
            omega
      obtain ⟨ys, s2, h2, _⟩ := exportList_total (I := fun s => SamePlusUntried t s.tree) (D := fun y => refIn t y ∧ mapCalls t y < fuel)
        (f := mapNode (quotFn X quot) (joinQuot X.sim.observations) fuel) (by
          intro y s hy hs
          obtain ⟨d, s', h⟩ := ih y s hs hy.1 hy.2
          exact ⟨d, s', h, ((M.post_iff.1 (quotMap_post X quot ha ho fuel y s hs)).1 _ _ h).1⟩)
        (nodeChildren s1.tree r) s1 hch hp1
      obtain ⟨k1, k2, k3⟩ := (M.post_iff.1 (exportList_post (I := fun s => SamePlusUntried t s.tree) (P := QuotPart X quot t)
        (fun r s hs => quotMap_post X quot ha ho fuel r s hs) (nodeChildren s1.tree r) s1 hp1)).1 _ _ h2
      have hj : ∃ d, joinQuot X.sim.observations x ys = .ok d := by
        cases r with
        | obs i =>
            obtain ⟨a, info, c, g1, g2, g3, rfl⟩ := hd1
            have hpos := initChildren_pos g3
            have hr : (nodeChildren s1.tree (.obs i))[((s1.tree.nodes i).children.take a).countP (·.isSome)]? = some (.act i a) := by
              unfold nodeChildren
              rw [List.getElem?_map, hpos]
              rfl
            have hlt : ((s1.tree.nodes i).children.take a).countP (·.isSome) < ys.length := by
              rw [k2]; exact (List.getElem?_eq_some_iff.1 hr).1
            have hd := k3 _ _ _ hr (List.getElem?_eq_getElem hlt)
            obtain ⟨res, e1, _⟩ := actionPart_take (List.getElem?_eq_getElem hlt) hd ho g1 g2
            exact ⟨res, e1⟩
        | act i a =>
            obtain ⟨names, rfl, g⟩ := hd1
            exact ⟨_, rfl⟩
      obtain ⟨d, hd⟩ := hj
      refine ⟨d, s2, ?_⟩
      unfold mapNode
      rw [M.bind_of_ok h1]
      show (exportList _ (nodeChildren s1.tree r) >>= _) s1 = _
      rw [M.bind_of_ok h2]
      unfold M.lift
      rw [hd]

end Verif
