import Verif.Spec.Export
import Verif.Proof.PomcpUct

/-! The export of a search tree as a policy. -/

set_option linter.unusedSectionVars false
set_option linter.unusedSimpArgs false

namespace Verif
open Spec
variable {σ β η : Type}

/-! ### Trees that differ by untried actions -/

namespace Padded

theorem refl (t : Tree β) : SamePlusUntried t t := ⟨rfl, rfl, fun _ => rfl, fun _ => rfl, fun _ => rfl, fun _ _ => .inl rfl⟩

theorem trans {t1 t2 t3 : Tree β} (h : SamePlusUntried t1 t2) (h' : SamePlusUntried t2 t3) : SamePlusUntried t1 t3 where
  size := by rw [h'.size, h.size]
  lookup := by rw [h'.lookup, h.lookup]
  belief i := by rw [h'.belief, h.belief]
  avg i := by rw [h'.avg, h.avg]
  length i := by rw [h'.length, h.length]
  acts i a := by
    rcases h'.acts i a with h1 | ⟨h1, h2⟩
    · rw [h1]; exact h.acts i a
    · rcases h.acts i a with h3 | ⟨_, h4⟩
      · rw [h1] at h3; exact .inr ⟨h3.symm, h2⟩
      · rw [h1] at h4; cases h4

theorem ensure {t : Tree β} {i a : Nat} (h : (t.nodes i).children[a]? = some none) : SamePlusUntried t (t.ensure i a) where
  size := rfl
  lookup := rfl
  belief j := Tree.ensure_belief t i a j
  avg j := Tree.ensure_avg t i a j
  length j := Tree.ensure_length t i a j
  acts j b := by
    rw [Tree.ensure_anode h]
    split
    · rename_i e
      obtain ⟨rfl, rfl⟩ := e
      right
      refine ⟨?_, rfl⟩
      unfold Tree.anode
      rw [h]; rfl
    · exact .inl rfl

variable {t t' : Tree β} (h : SamePlusUntried t t')
include h

theorem visits (i : Nat) : nodeVisits t' i = nodeVisits t i := by unfold nodeVisits; rw [h.avg]

theorem avisits (i a : Nat) : actionVisits t' i a = actionVisits t i a := by
  unfold actionVisits
  rcases h.acts i a with h1 | ⟨h1, h2⟩
  · rw [h1]
  · rw [h1, h2]; rfl

theorem counts : SameCounts t t' := ⟨visits h, avisits h⟩

theorem value (i a : Nat) : actionValue t' i a = actionValue t i a := by
  unfold actionValue
  rcases h.acts i a with h1 | ⟨h1, h2⟩
  · rw [h1]
  · rw [h1, h2]; rfl

theorem unexplored (i : Nat) : Spec.unexplored t' i = Spec.unexplored t i := by
  unfold Spec.unexplored
  simp [h.length, avisits h]

theorem successors (i a : Nat) : Spec.successors t' i a = Spec.successors t i a := by
  unfold Spec.successors
  rcases h.acts i a with h1 | ⟨h1, h2⟩
  · rw [h1]
  · rw [h1, h2]; rfl

theorem recommended {i a : Nat} (hr : Recommended t' i a) : Recommended t i a := by
  unfold Recommended at *
  simpa only [h.length, unexplored h, value h] using hr

theorem uct {S : Search σ β η} (i a : Nat) : UctChoice S t' i a ↔ UctChoice S t i a :=
  ⟨fun hu => UctChoice.congr hu (h.length i) (counts h) (value h i),
    fun hu => UctChoice.congr hu (h.length i).symm ⟨fun i => (visits h i).symm, fun i a => (avisits h i a).symm⟩
      fun b => (value h i b).symm⟩

end Padded

/-! ### The entries of a node -/

theorem children_eq (t : Tree β) (i : Nat) :
    (t.nodes i).children = (List.range (t.nodes i).children.length).map (t.anode i) := by
  apply List.ext_getElem
  · simp
  · intro k h1 h2
    rw [List.getElem_map, List.getElem_range]
    unfold Tree.anode
    rw [List.getElem?_eq_getElem h1, Option.join_some]

theorem map_children {γ : Type} (t : Tree β) (i : Nat) (f : Option ANode → γ) :
    (t.nodes i).children.map f = (List.range (t.nodes i).children.length).map fun b => f (t.anode i b) := by
  conv_lhs => rw [children_eq, List.map_map]
  rfl

theorem exportValues_eq (t : Tree β) (i : Nat) : exportValues (t.nodes i) = (List.range (t.nodes i).children.length).map fun b =>
    if nodeVisits t i = 0 ∨ actionVisits t i b = 0 then none else some (actionValue t i b) := by
  unfold exportValues
  rw [map_children]
  apply List.map_congr_left
  intro b _
  unfold actionVisits actionValue
  rcases t.anode i b with _ | c
  · simp [visitsOf]
  · rfl

theorem exportTerms_eq (bonus : Nat → Nat → ℚ) (t : Tree β) (i : Nat) :
    exportTerms bonus (t.nodes i) = (List.range (t.nodes i).children.length).map fun b =>
      if actionVisits t i b = 0 then none else some (bonus (nodeVisits t i) (actionVisits t i b)) := by
  unfold exportTerms
  rw [map_children]
  apply List.map_congr_left
  intro b _
  unfold actionVisits
  rcases t.anode i b with _ | c
  · simp [visitsOf]
  · show (if c.avg.n > 0 then _ else _) = if c.avg.n = 0 then _ else _
    by_cases h : c.avg.n = 0
    · simp [h]
    · rw [if_neg h, if_pos (Nat.pos_of_ne_zero h)]
      rfl

theorem exportVisits_eq (t : Tree β) (i : Nat) :
    exportVisits (t.nodes i) = (List.range (t.nodes i).children.length).map (actionVisits t i) := by
  unfold exportVisits
  rw [map_children]
  apply List.map_congr_left
  intro b _
  unfold actionVisits
  rcases t.anode i b with _ | c <;> rfl

theorem policyInfo_of (X : Exporter σ β) {t t' : Tree β} (h : SamePlusUntried t t') {i a : Nat} {name : Name} (observed : Option Nat)
    (hn : X.sim.actions[a]? = some name) :
    InfoOf X t i a (X.toList (t.nodes i).belief) observed (policyInfo X (t'.nodes i) name observed) where
  value := by unfold policyInfo; simp only; rw [h.avg]
  visits := by unfold policyInfo nodeVisits; simp only; rw [h.avg]
  belief := by unfold policyInfo; simp only; rw [h.belief]
  action := hn
  observed := rfl
  values := by
    show exportValues _ = _
    rw [exportValues_eq, h.length]
    simp only [Padded.visits h, Padded.avisits h, Padded.value h]
  exploration := by
    show exportTerms _ _ = _
    rw [exportTerms_eq, h.length]
    simp only [Padded.visits h, Padded.avisits h]
  childVisits := by
    show exportVisits _ = _
    rw [exportVisits_eq, h.length]
    apply List.map_congr_left
    intro b _
    exact Padded.avisits h i b

theorem safeGetChild_padded (i a : Nat) (st : SearchState σ β) :
    M.Post (safeGetChild i a) st (fun _ st' => SamePlusUntried st.tree st'.tree ∧ st'.tree.anode i a ≠ none)
      (fun _ st' => st' = st ∧ (st.tree.nodes i).children.length ≤ a) := by
  have hrun : safeGetChild i a st = match (st.tree.nodes i).children[a]? with
      | none => (.error .indexError, st)
      | some none => (.ok (), { st with tree := st.tree.ensure i a })
      | some (some _) => (.ok (), st) := rfl
  rcases h : (st.tree.nodes i).children[a]? with _ | _ | c
  · rw [M.post_of_error (e := .indexError) (s' := st) (by rw [hrun, h])]
    exact ⟨rfl, List.getElem?_eq_none_iff.1 h⟩
  · rw [M.post_of_ok (a := ()) (s' := { st with tree := st.tree.ensure i a }) (by rw [hrun, h])]
    refine ⟨Padded.ensure h, ?_⟩
    show (st.tree.ensure i a).anode i a ≠ none
    rw [Tree.ensure_anode h]; simp
  · rw [M.post_of_ok (a := ()) (s' := st) (by rw [hrun, h])]
    refine ⟨Padded.refl _, ?_⟩
    unfold Tree.anode
    simp [h]

/-- A search without exploration. -/
def plainSearch (X : Exporter σ β) : Search σ β Unit where
  sim := X.sim
  hor := ⟨fun _ => true, fun _ _ _ _ h => h, fun h => h⟩
  horizon := ()
  exploration := 0
  relative := false
  rolloutIt := 0
  alpha := 0
  bonus := X.bonus
  shared := false
  fuel := 0
  bound := 0

theorem getBest_recommended (X : Exporter σ β) (i : Nat) (st : SearchState σ β) :
    M.Post (getBestAction X.sim X.bonus 0 false i) st (fun a st' => st'.tree = st.tree ∧ Recommended st.tree i a)
      (fun _ st' => st'.tree = st.tree) := by
  have h1 := getBest_post X.sim X.bonus 0 false i st
  have h2 := getBest_uct (plainSearch X) i st
  change M.Post (getBestAction X.sim X.bonus 0 false i) st _ _ at h2
  rw [M.post_iff] at h1 h2 ⊢
  refine ⟨fun a s' h => ⟨(h1.1 a s' h).1, ?_⟩, fun e s' h => h1.2 e s' h⟩
  obtain ⟨k1, k2, k3⟩ := h2.1 a s' h
  refine ⟨k1, k2, fun he => ?_⟩
  obtain ⟨c, hw, k4, k5⟩ := k3 he
  have hc : c = 0 := by simpa [IsWeight, plainSearch] using hw
  subst hc
  simpa [uctScore] using And.intro k4 k5

/-- What `policyHead` does. -/
theorem policyHead_post (X : Exporter σ β) (i : Nat) (observed : Option Nat) {t : Tree β} (st : SearchState σ β)
    (hp : SamePlusUntried t st.tree) :
    M.Post (policyHead X i observed) st
      (fun x st' => SamePlusUntried t st'.tree ∧ st'.tree.anode i x.1 ≠ none ∧ Recommended t i x.1 ∧
        InfoOf X t i x.1 (X.toList (t.nodes i).belief) observed x.2)
      (fun _ st' => SamePlusUntried t st'.tree) := by
  unfold policyHead
  refine M.post_bind (getBest_recommended X i st) (fun e s h => by rw [h]; exact hp) ?_
  rintro a s1 _ ⟨e1, hr⟩
  refine M.post_bind (safeGetChild_padded i a s1) (fun e s h => by rw [h.1, e1]; exact hp) ?_
  rintro _ s2 _ ⟨hs, ha⟩
  rw [e1] at hs
  have hp2 := Padded.trans hp hs
  refine M.post_bind (Q1 := fun n s => s = s2 ∧ X.sim.actions[a]? = some n) (E1 := fun _ s => s = s2) ?_
    (fun e s h => by rw [h]; exact hp2) ?_
  · rw [M.post_lift]
    unfold labelAt
    rcases h : X.sim.actions[a]? with _ | n
    · exact ⟨fun _ h => by simp at h, fun _ _ => rfl⟩
    · refine ⟨fun m hm => ⟨rfl, ?_⟩, fun _ h => by simp at h⟩
      rw [Except.ok.inj hm]
  · rintro n s _ ⟨rfl, hn⟩
    apply M.post_read_bind
    rw [M.post_pure]
    exact ⟨hp2, ha, Padded.recommended hp hr, policyInfo_of X hp2 observed hn⟩

theorem inSearch_post {α : Type} (m : M (SearchState σ β) α) (st : ExportState σ β) {Q : α → ExportState σ β → Prop}
    {E : PyErr → ExportState σ β → Prop}
    (h : M.Post m st.search (fun a s => Q a ⟨s, st.visited⟩) (fun e s => E e ⟨s, st.visited⟩)) : M.Post (inSearch m) st Q E := by
  unfold M.Post inSearch at *
  rcases hm : m st.search with ⟨r, g⟩
  rw [hm] at h
  cases r <;> exact h

theorem grandChildren_eq (t : Tree β) (i a : Nat) : grandChildren t i a = successors t i a := by
  unfold grandChildren successors
  rcases t.anode i a with _ | c <;> rfl

theorem namesAt_ok {names : List Name} : ∀ {l : List Nat} {r : List Name}, namesAt names l = .ok r →
    r.map some = l.map fun o => names[o]?
  | [], r, h => by cases h; rfl
  | o :: l, r, h => by
      unfold namesAt at h
      rcases h1 : names[o]? with _ | x
      · simp [labelAt, h1, bind, Except.bind] at h
      · rcases h2 : namesAt names l with e | xs
        · simp [labelAt, h1, h2, bind, Except.bind] at h
        · simp only [labelAt, h1, h2, bind, Except.bind, Except.ok.injEq] at h
          subst h
          simp [h1, namesAt_ok h2]

/-! ### The beliefs visited -/

/-- What one export does to the set of the beliefs visited: `bs` are the beliefs in the result and `os` those of the nodes whose
children are exported. -/
def VisOk (X : Exporter σ β) : Option (List β) → Option (List β) → List (List ℚ) → List (List ℚ) → Prop
  | none, v', bs, os => v' = none ∧ os = bs
  | some l, v', bs, os => ∃ new, v' = some (new ++ l) ∧ (l.Nodup → (new ++ l).Nodup) ∧ os = new.reverse.map X.toList ∧
      ∀ x ∈ bs, x ∈ (new ++ l).map X.toList

theorem VisOk.nil (X : Exporter σ β) (v : Option (List β)) : VisOk X v v [] [] := by
  cases v with
  | none => exact ⟨rfl, rfl⟩
  | some l => exact ⟨[], rfl, id, rfl, by simp⟩

theorem VisOk.append {X : Exporter σ β} {v v1 v2 : Option (List β)} {bs1 bs2 os1 os2 : List (List ℚ)} (h1 : VisOk X v v1 bs1 os1)
    (h2 : VisOk X v1 v2 bs2 os2) : VisOk X v v2 (bs1 ++ bs2) (os1 ++ os2) := by
  cases v with
  | none =>
      obtain ⟨rfl, rfl⟩ := h1
      obtain ⟨rfl, rfl⟩ := h2
      exact ⟨rfl, rfl⟩
  | some l =>
      obtain ⟨n1, rfl, a1, a2, a3⟩ := h1
      obtain ⟨n2, rfl, b1, b2, b3⟩ := h2
      refine ⟨n2 ++ n1, by simp, fun h => by rw [List.append_assoc]; exact b1 (a1 h), by rw [a2, b2]; simp, ?_⟩
      intro x hx
      rw [List.append_assoc]
      rcases List.mem_append.1 hx with hx | hx
      · rw [List.map_append]
        exact List.mem_append.2 (.inr (a3 x hx))
      · exact b3 x hx

variable [DecidableEq β]

theorem markVisited_post (X : Exporter σ β) (i : Nat) {t : Tree β} (st : ExportState σ β) (hp : SamePlusUntried t st.search.tree) :
    M.Post (markVisited i) st
      (fun first st' => st'.search = st.search ∧
        VisOk X st.visited st'.visited [X.toList (t.nodes i).belief] (if first then [X.toList (t.nodes i).belief] else []))
      (fun _ _ => False) := by
  unfold M.Post markVisited
  rw [hp.belief]
  rcases hv : st.visited with _ | l
  · simp only
    exact ⟨trivial, by rw [hv]; exact ⟨rfl, rfl⟩⟩
  · simp only
    by_cases hb : (t.nodes i).belief ∈ l
    · rw [if_pos hb]
      simp only
      refine ⟨trivial, [], by simp [hv], id, rfl, ?_⟩
      intro x hx
      simp only [List.mem_singleton] at hx
      subst hx
      exact List.mem_map.2 ⟨_, hb, rfl⟩
    · rw [if_neg hb]
      simp only
      refine ⟨trivial, [(t.nodes i).belief], rfl, fun h => List.nodup_cons.2 ⟨hb, h⟩, rfl, ?_⟩
      intro x hx
      simp only [List.mem_singleton] at hx
      subst hx
      simp

/-- What an export of the node `i` does. -/
structure Exported (X : Exporter σ β) (t : Tree β) (i : Nat) (observed : Option Nat) (v : Option (List β)) (d : PolicyDict)
    (st' : ExportState σ β) : Prop where
  padded : SamePlusUntried t st'.search.tree
  policy : PolicyOf X t i observed d
  visited : VisOk X v st'.visited (beliefsIn d) (openedIn d)

theorem exportEach_post (X : Exporter σ β) {t : Tree β} (f : Nat → Nat → M (ExportState σ β) PolicyDict)
    (hf : ∀ k j st, SamePlusUntried t st.search.tree →
      M.Post (f k j) st (fun d st' => Exported X t j (some k) st.visited d st') (fun _ st' => SamePlusUntried t st'.search.tree)) :
    ∀ (l : List (Nat × Nat)) (k : Nat) (st : ExportState σ β), SamePlusUntried t st.search.tree →
      M.Post (exportEach f k l) st
        (fun cs st' => SamePlusUntried t st'.search.tree ∧ cs.length = l.length ∧
          VisOk X st.visited st'.visited (beliefsInAll cs) (openedInAll cs) ∧
          ∀ m o j c, l[m]? = some (o, j) → cs[m]? = some c → PolicyOf X t j (some (k + m)) c)
        (fun _ st' => SamePlusUntried t st'.search.tree) := by
  intro l
  induction l with
  | nil =>
      intro k st hp
      unfold exportEach
      rw [M.post_pure]
      exact ⟨hp, rfl, VisOk.nil X _, fun m o j c h => by simp at h⟩
  | cons x l ih =>
      intro k st hp
      obtain ⟨o, j⟩ := x
      unfold exportEach
      refine M.post_bind (hf k j st hp) (fun _ _ h => h) ?_
      rintro d s1 _ ⟨p1, p2, p3⟩
      refine M.post_bind (ih (k + 1) s1 p1) (fun _ _ h => h) ?_
      rintro cs s2 _ ⟨q1, q2, q3, q4⟩
      rw [M.post_pure]
      refine ⟨q1, by simp [q2], ?_, ?_⟩
      · unfold beliefsInAll openedInAll
        exact p3.append q3
      · intro m o' j' c h1 h2
        cases m with
        | zero =>
            simp only [List.getElem?_cons_zero, Option.some.injEq, Prod.mk.injEq] at h1 h2
            obtain ⟨_, rfl⟩ := h1
            subst h2
            exact p2
        | succ m =>
            rw [List.getElem?_cons_succ] at h1 h2
            have := q4 m o' j' c h1 h2
            rwa [show k + (m + 1) = k + 1 + m by omega]

/-- What `to_dict` does on an observation node. -/
theorem policyDict_post (X : Exporter σ β) {t : Tree β} : ∀ (fuel i : Nat) (observed : Option Nat) (st : ExportState σ β),
    SamePlusUntried t st.search.tree →
    M.Post (policyDict X fuel i observed) st (fun d st' => Exported X t i observed st.visited d st')
      (fun _ st' => SamePlusUntried t st'.search.tree) := by
  intro fuel
  induction fuel with
  | zero => intro i observed st hp; exact M.post_raise.2 hp
  | succ fuel ih =>
      intro i observed st hp
      unfold policyDict
      refine M.post_bind (markVisited_post X i st hp) (fun _ _ h => h.elim) ?_
      rintro first s1 _ ⟨e1, hv1⟩
      rw [← e1] at hp
      refine M.post_bind (inSearch_post _ s1 (Q := fun x s2 => SamePlusUntried t s2.search.tree ∧ s2.search.tree.anode i x.1 ≠ none ∧
          Recommended t i x.1 ∧ InfoOf X t i x.1 (X.toList (t.nodes i).belief) observed x.2 ∧ s2.visited = s1.visited)
        (E := fun _ s2 => SamePlusUntried t s2.search.tree) ?_) (fun _ _ h => h) ?_
      · refine M.post_mono (policyHead_post X i observed s1.search hp) ?_ (fun _ _ h => h)
        rintro x s ⟨h1, h2, h3, h4⟩
        exact ⟨h1, h2, h3, h4, rfl⟩
      · rintro ⟨a, info⟩ s2 _ ⟨h1, h2, h3, h4, h5⟩
        cases first with
        | false =>
            unfold policyEnd
            rw [M.post_pure]
            refine ⟨h1, .closed h3 h4, ?_⟩
            rw [h5]
            unfold beliefsIn openedIn beliefsInAll openedInAll
            rw [h4.belief]
            exact hv1
        | true =>
            unfold policyEnd policySub
            refine M.post_bind (Q1 := fun r s3 => SamePlusUntried t s3.search.tree ∧
                r.1.map some = ((successors t i a).map fun x => X.sim.observations[x.1]?) ∧
                r.2.length = (successors t i a).length ∧
                VisOk X s2.visited s3.visited (beliefsInAll r.2) (openedInAll r.2) ∧
                ∀ m o j c, (successors t i a)[m]? = some (o, j) → r.2[m]? = some c → PolicyOf X t j (some m) c)
              (E1 := fun _ s3 => SamePlusUntried t s3.search.tree) ?_ (fun _ _ h => h) ?_
            · apply M.post_read_bind
              rw [grandChildren_eq, Padded.successors h1]
              refine M.post_bind (Q1 := fun names s => s = s2 ∧
                  names.map some = (successors t i a).map fun x => X.sim.observations[x.1]?) (E1 := fun _ s => s = s2) ?_
                (fun _ _ h => by rw [h]; exact h1) ?_
              · rw [M.post_lift]
                refine ⟨fun r hr => ⟨rfl, ?_⟩, fun _ _ => rfl⟩
                rw [namesAt_ok hr, List.map_map]
                rfl
              · rintro names s _ ⟨rfl, hn⟩
                refine M.post_bind (exportEach_post X _ (fun k j st hst => ih j (some k) st hst) (successors t i a) 0 s h1)
                  (fun _ _ h => h) ?_
                rintro cs s3 _ ⟨q1, q2, q3, q4⟩
                rw [M.post_pure]
                refine ⟨q1, hn, q2, q3, fun m o j c k1 k2 => ?_⟩
                have := q4 m o j c k1 k2
                rwa [Nat.zero_add] at this
            · rintro ⟨names, cs⟩ s3 _ ⟨k1, k2, k3, k4, k5⟩
              rw [M.post_pure]
              refine ⟨k1, .opened h3 h4 k2 k3 k5, ?_⟩
              unfold beliefsIn openedIn
              rw [h4.belief]
              rw [h5] at k4
              exact hv1.append k4

/-! ### Exports that return -/

theorem namesAt_total {names : List Name} : ∀ {l : List Nat}, (∀ o ∈ l, o < names.length) → ∃ r, namesAt names l = .ok r
  | [], _ => ⟨[], rfl⟩
  | o :: l, h => by
      obtain ⟨xs, hx⟩ := namesAt_total (l := l) fun o ho => h o (List.mem_cons_of_mem _ ho)
      have ho := h o (by simp)
      exact ⟨names[o] :: xs, by simp [namesAt, labelAt, List.getElem?_eq_getElem ho, hx, bind, Except.bind]⟩

/-- What is needed for the exports to return. -/
structure Exportable (X : Exporter σ β) (t : Tree β) : Prop where
  rand : ∀ g, ∃ c g', X.sim.rand g = (.ok c, g')
  pos : 0 < X.sim.actions.length
  len : ∀ i, (t.nodes i).children.length = X.sim.actions.length
  sum : ∀ i, actionSum t i ≤ nodeVisits t i
  range : ∀ i a x, x ∈ successors t i a → x.2 < t.size ∧ x.1 < X.sim.observations.length

omit [DecidableEq β] in
theorem getBest_total {X : Exporter σ β} {t : Tree β} (hx : Exportable X t) (i : Nat) (st : SearchState σ β)
    (hp : SamePlusUntried t st.tree) : ∃ a st', getBestAction X.sim X.bonus 0 false i st = (.ok a, st') := by
  have hlen : (st.tree.nodes i).children.length = X.sim.actions.length := by rw [hp.length, hx.len]
  unfold getBestAction
  rw [M.bind_run]
  simp only [M.read]
  by_cases h0 : (notInit (st.tree.nodes i).children).length = 0
  · rw [if_pos h0]
    have hu : unexplored t i = [] := by
      rw [← Padded.unexplored hp, unexplored_eq]; exact List.length_eq_zero_iff.1 h0
    have hv : 0 < nodeVisits t i := by
      refine lt_of_lt_of_le ?_ (hx.sum i)
      unfold actionSum
      by_contra hc
      have hz : ((t.nodes i).children.map visitsOf).sum = 0 := by omega
      have hpos : 0 < (t.nodes i).children.length := by rw [hx.len]; exact hx.pos
      have hm := List.sum_eq_zero_iff.1 hz _ (List.mem_map_of_mem (List.getElem_mem hpos))
      have : (0 : Nat) ∈ unexplored t i := by
        refine List.mem_filter.2 ⟨List.mem_range.2 hpos, ?_⟩
        simp only [decide_eq_true_eq]
        unfold actionVisits Tree.anode
        rw [List.getElem?_eq_getElem hpos, Option.join_some]
        exact hm
      rw [hu] at this
      cases this
    have hn : (st.tree.nodes i).avg.n > 0 := by rw [hp.avg]; exact hv
    unfold greedyAction
    rw [if_pos hn]
    obtain ⟨r, v, h1, _⟩ := argmax_spec ((augmentedValues X.bonus 0 false (st.tree.nodes i)).map (·.getD 0)) (by
      intro he
      have := congrArg List.length he
      simp [augmentedValues, hlen] at this
      have := hx.pos
      simp_all)
    exact ⟨r, st, by unfold M.lift; rw [h1]⟩
  · rw [if_neg h0]
    obtain ⟨c, g, hg⟩ := hx.rand st.rng
    have hl : c % (notInit (st.tree.nodes i).children).length < (notInit (st.tree.nodes i).children).length :=
      Nat.mod_lt _ (Nat.pos_of_ne_zero h0)
    refine ⟨(notInit (st.tree.nodes i).children)[c % (notInit (st.tree.nodes i).children).length], ⟨st.tree, g⟩, ?_⟩
    unfold onRng pickFrom
    rw [M.bind_run, hg]
    simp only [M.lift]
    rw [List.getElem?_eq_getElem hl]

omit [DecidableEq β] in
theorem policyHead_total {X : Exporter σ β} {t : Tree β} (hx : Exportable X t) (i : Nat) (observed : Option Nat) (st : SearchState σ β)
    (hp : SamePlusUntried t st.tree) : ∃ x st', policyHead X i observed st = (.ok x, st') := by
  obtain ⟨a, s1, h1⟩ := getBest_total hx i st hp
  obtain ⟨e1, hr⟩ := (M.post_iff.1 (getBest_recommended X i st)).1 _ _ h1
  have ha : a < X.sim.actions.length := by rw [← hx.len i, ← hp.length]; exact hr.1
  have hsafe : ∃ s2, safeGetChild i a s1 = (.ok (), s2) := by
    rcases h : safeGetChild i a s1 with ⟨r, s2⟩
    cases r with
    | ok u => exact ⟨s2, rfl⟩
    | error e =>
        have := (M.post_iff.1 (safeGetChild_padded i a s1)).2 _ _ h
        have h2 := this.2
        rw [e1, hp.length, hx.len] at h2
        omega
  obtain ⟨s2, h2⟩ := hsafe
  refine ⟨(a, policyInfo X (s2.tree.nodes i) X.sim.actions[a] observed), s2, ?_⟩
  unfold policyHead
  rw [M.bind_of_ok h1, M.bind_of_ok h2]
  unfold labelAt
  rw [List.getElem?_eq_getElem ha]
  rfl

/-- The number of calls needed for the node `i`. -/
def callsLeft (t : Tree β) : Option (List β) → Nat → Nat
  | none, i => t.size - i
  | some l, _ => (List.range t.size).countP fun j => decide ((t.nodes j).belief ∉ l)

theorem callsLeft_mono (t : Tree β) (l new : List β) (i j : Nat) : callsLeft t (some (new ++ l)) i ≤ callsLeft t (some l) j := by
  unfold callsLeft
  apply List.countP_mono_left
  intro k _ h
  simp only [decide_eq_true_eq, List.mem_append, not_or] at *
  exact h.2

theorem callsLeft_lt {t : Tree β} {l : List β} {i : Nat} (hi : i < t.size) (hb : (t.nodes i).belief ∉ l) (new : List β) (j k : Nat)
    (hn : (t.nodes i).belief ∈ new) : callsLeft t (some (new ++ l)) j < callsLeft t (some l) k := by
  unfold callsLeft
  have h1 : ∀ (r : List Nat), i ∈ r → r.countP (fun j => decide ((t.nodes j).belief ∉ new ++ l)) <
      r.countP (fun j => decide ((t.nodes j).belief ∉ l)) := by
    intro r
    induction r with
    | nil => intro h; cases h
    | cons x r ih =>
        intro h
        have hle : r.countP (fun j => decide ((t.nodes j).belief ∉ new ++ l)) ≤ r.countP (fun j => decide ((t.nodes j).belief ∉ l)) := by
          apply List.countP_mono_left
          intro k _ h
          simp only [decide_eq_true_eq, List.mem_append, not_or] at *
          exact h.2
        rw [List.countP_cons, List.countP_cons]
        by_cases hx : i = x
        · subst hx
          rw [if_neg (by simp [hn]), if_pos (by simpa using hb)]
          omega
        · have := ih ((List.mem_cons.1 h).resolve_left hx)
          have h2 : (if decide ((t.nodes x).belief ∉ new ++ l) = true then 1 else 0) ≤
              if decide ((t.nodes x).belief ∉ l) = true then 1 else 0 := by
            by_cases h3 : (t.nodes x).belief ∈ l
            · simp [h3]
            · simp [h3]; split <;> omega
          omega
  exact h1 _ (List.mem_range.2 hi)

/-- The export returns if there is enough room for the recursion. -/
theorem policyDict_total {X : Exporter σ β} {t : Tree β} (hx : Exportable X t) (v0 : Option (List β))
    (hv0 : v0 = none → ∀ i a x, x ∈ successors t i a → i < x.2) :
    ∀ (fuel i : Nat) (observed : Option Nat) (st : ExportState σ β), (st.visited = none → v0 = none) →
      SamePlusUntried t st.search.tree → i < t.size → callsLeft t st.visited i < fuel →
      ∃ d st', policyDict X fuel i observed st = (.ok d, st') := by
  intro fuel
  induction fuel with
  | zero => intro i observed st _ _ _ h; omega
  | succ fuel ih =>
      intro i observed st hvis hp hi hfuel
      unfold policyDict
      obtain ⟨first, s1, h1⟩ : ∃ first s1, markVisited i st = (.ok first, s1) := by
        unfold markVisited
        rcases st.visited with _ | l
        · exact ⟨_, _, rfl⟩
        · simp only
          split
          · exact ⟨_, _, rfl⟩
          · exact ⟨_, _, rfl⟩
      obtain ⟨e1, hv1⟩ := (M.post_iff.1 (markVisited_post X i st hp)).1 _ _ h1
      have hp1 : SamePlusUntried t s1.search.tree := by rw [e1]; exact hp
      obtain ⟨x, s2, h2⟩ := policyHead_total hx i observed s1.search hp1
      obtain ⟨hp2, _, _, _⟩ := (M.post_iff.1 (policyHead_post X i observed s1.search hp1)).1 _ _ h2
      have h2' : inSearch (policyHead X i observed) s1 = (.ok x, ⟨s2, s1.visited⟩) := by unfold inSearch; rw [h2]
      rw [M.bind_of_ok h1, M.bind_of_ok h2']
      cases first with
      | false => exact ⟨_, _, rfl⟩
      | true =>
          have hfst : s1.visited = none → st.visited = none := by
            intro hn
            rcases hs : st.visited with _ | l
            · rfl
            · rw [hs] at hv1
              obtain ⟨new, h, _⟩ := hv1
              rw [hn] at h; cases h
          -- the room left for the children
          have hroom : ∀ y ∈ successors t i x.1, ∀ v : Option (List β), (s1.visited = none → v = none) →
              (∀ l, s1.visited = some l → ∃ new, v = some (new ++ l)) → callsLeft t v y.2 < fuel := by
            intro y hy v hn hsome
            rcases hs : st.visited with _ | l
            · have h3 : s1.visited = none := by
                rw [hs] at hv1; exact hv1.1
              rw [hn h3]
              have h4 := hv0 (hvis hs) i x.1 y hy
              have h5 := (hx.range i x.1 y hy).1
              rw [hs] at hfuel
              simp only [callsLeft] at *
              omega
            · have hm : (t.nodes i).belief ∉ l ∧ s1.visited = some ((t.nodes i).belief :: l) := by
                unfold markVisited at h1
                rw [hs, hp.belief] at h1
                simp only at h1
                split at h1
                · cases h1
                · rename_i hb
                  cases h1
                  exact ⟨hb, rfl⟩
              obtain ⟨new, rfl⟩ := hsome _ hm.2
              rw [hs] at hfuel
              have := callsLeft_lt (t := t) hi hm.1 (new ++ [(t.nodes i).belief]) y.2 i (by simp)
              rw [List.append_assoc, List.singleton_append] at this
              omega
          have heach : ∀ (l : List (Nat × Nat)) (k : Nat) (st3 : ExportState σ β), (∀ y ∈ l, y ∈ successors t i x.1) →
              SamePlusUntried t st3.search.tree → (s1.visited = none → st3.visited = none) →
              (∀ l, s1.visited = some l → ∃ new, st3.visited = some (new ++ l)) →
              ∃ cs st4, exportEach (fun k j => policyDict X fuel j (some k)) k l st3 = (.ok cs, st4) := by
            intro l
            induction l with
            | nil => intro k st3 _ _ _ _; exact ⟨[], st3, rfl⟩
            | cons y l ihl =>
                intro k st3 hl hp3 hn3 hs3
                have hy := hl y (by simp)
                obtain ⟨d, st4, h4⟩ := ih y.2 (some k) st3 (fun hn => by
                    apply hvis; apply hfst
                    rcases hs : s1.visited with _ | l'
                    · rfl
                    · obtain ⟨new, h5⟩ := hs3 _ hs
                      rw [hn] at h5; cases h5) hp3 (hx.range i x.1 y hy).1 (hroom y hy _ hn3 hs3)
                obtain ⟨q1, q2, q3⟩ := (M.post_iff.1 (policyDict_post X fuel y.2 (some k) st3 hp3)).1 _ _ h4
                obtain ⟨cs, st5, h5⟩ := ihl (k + 1) st4 (fun z hz => hl z (List.mem_cons_of_mem _ hz)) q1
                  (fun hn => by rw [hn3 hn] at q3; exact q3.1)
                  (fun l' hl' => by
                    obtain ⟨new, hnew⟩ := hs3 l' hl'
                    rw [hnew] at q3
                    obtain ⟨new', h6, _⟩ := q3
                    exact ⟨new' ++ new, by rw [h6, List.append_assoc]⟩)
                refine ⟨d :: cs, st5, ?_⟩
                obtain ⟨o, j⟩ := y
                unfold exportEach
                rw [M.bind_of_ok h4, M.bind_of_ok h5]
                rfl
          obtain ⟨names, hnames⟩ := namesAt_total (names := X.sim.observations) (l := (successors t i x.1).map Prod.fst) (by
            intro o ho
            obtain ⟨y, hy, rfl⟩ := List.mem_map.1 ho
            exact (hx.range i x.1 y hy).2)
          obtain ⟨cs, st4, h4⟩ := heach (successors t i x.1) 0 ⟨s2, s1.visited⟩ (fun _ h => h) hp2 (fun h => h)
            (fun l hl => ⟨[], hl⟩)
          refine ⟨.mk x.2 (some names) cs, st4, ?_⟩
          have h5 : (M.read fun st : ExportState σ β => grandChildren st.search.tree i x.1) ⟨s2, s1.visited⟩ =
              (.ok (successors t i x.1), ⟨s2, s1.visited⟩) := by
            show (Except.ok (grandChildren s2.tree i x.1), _) = _
            rw [grandChildren_eq, Padded.successors hp2]
          have h6 : (M.lift (namesAt X.sim.observations ((successors t i x.1).map Prod.fst)) : M (ExportState σ β) _) ⟨s2, s1.visited⟩ =
              (.ok names, ⟨s2, s1.visited⟩) := by unfold M.lift; rw [hnames]
          have h7 : policySub X (fun k j => policyDict X fuel j (some k)) i x.1 ⟨s2, s1.visited⟩ = (.ok (names, cs), st4) := by
            unfold policySub
            rw [M.bind_of_ok h5, M.bind_of_ok h6, M.bind_of_ok h4]
            rfl
          show (policySub X (fun k j => policyDict X fuel j (some k)) i x.1 >>= fun s => pure (PolicyDict.mk x.2 (some s.1) s.2)) _ = _
          rw [M.bind_of_ok h7]
          rfl

end Verif
