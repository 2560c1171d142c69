import Verif.Spec.ExportFull
import Verif.Proof.Export
import Verif.Proof.TreeShape
import Mathlib.Logic.Relation

/-! Proofs about the export of a whole search tree. -/

set_option linter.unusedSectionVars false
set_option linter.unusedSimpArgs false

namespace Verif
open Spec
variable {σ β η : Type}

/-! ### The children -/

theorem initChildren_keys (l : List (Option ANode)) :
    (initChildren l).map Prod.fst = (List.range l.length).filter fun a => decide ((l[a]?).join ≠ none) := by
  induction l using List.reverseRecOn with
  | nil => rfl
  | append_singleton l x ih =>
      have h1 : initChildren (l ++ [x]) = initChildren l ++ (x.map fun c => (l.length, c)).toList := by
        unfold initChildren
        rw [List.zipIdx_append, List.filterMap_append]
        congr 1
        cases x <;> simp
      have h2 : (List.range l.length).filter (fun a => decide (((l ++ [x])[a]?).join ≠ none)) =
          (List.range l.length).filter fun a => decide ((l[a]?).join ≠ none) := by
        apply List.filter_congr
        intro a ha
        rw [List.getElem?_append_left (List.mem_range.1 ha)]
      rw [h1, List.map_append, ih, List.length_append, List.length_singleton, List.range_succ, List.filter_append, h2]
      congr 1
      cases x <;> simp

theorem madeActions_eq (t : Tree β) (i : Nat) : madeActions t i = triedActions t i := initChildren_keys _

theorem children_obs (t : Tree β) (i : Nat) : nodeChildren t (.obs i) = (triedActions t i).map (NodeRef.act i) := by
  rw [← madeActions_eq]
  unfold nodeChildren madeActions
  rw [List.map_map]
  rfl

theorem children_act (t : Tree β) (i a : Nat) : nodeChildren t (.act i a) = (successors t i a).map fun x => NodeRef.obs x.2 := by
  rw [← grandChildren_eq]
  rfl

theorem mem_tried {t : Tree β} {i a : Nat} : a ∈ triedActions t i ↔ t.anode i a ≠ none := by
  unfold triedActions
  rw [List.mem_filter, List.mem_range, decide_eq_true_eq]
  refine ⟨fun h => h.2, fun h => ⟨?_, h⟩⟩
  by_contra hc
  apply h
  unfold Tree.anode
  rw [List.getElem?_eq_none (by omega)]
  rfl

theorem tried_of_successor {t : Tree β} {i a : Nat} {x : Nat × Nat} (h : x ∈ successors t i a) : a ∈ triedActions t i := by
  rw [mem_tried]
  intro hn
  unfold successors at h
  rw [hn] at h
  cases h

/-! ### The nodes visited -/

/-- The node `j` is a successor of the node `i`. -/
def Linked (t : Tree β) (i j : Nat) : Prop := ∃ a x, x ∈ successors t i a ∧ x.2 = j

/-- The observation nodes that the export of a node starts with. -/
def needOf (t : Tree β) : NodeRef → List Nat
  | .obs i => [i]
  | .act i a => (successors t i a).map Prod.snd

/-- What an export does to the set of the beliefs visited: `ws` are the beliefs of the nodes with actions in the result and `need`
the nodes it starts with. -/
def RunOk (X : Exporter σ β) (t : Tree β) : Option (List β) → Option (List β) → List (List ℚ) → List Nat → Prop
  | none, v', _, _ => v' = none
  | some l, v', ws, need => ∃ op : List Nat, v' = some ((op.map fun i => (t.nodes i).belief).reverse ++ l) ∧
      (op.map fun i => (t.nodes i).belief).Nodup ∧ (∀ i ∈ op, (t.nodes i).belief ∉ l) ∧
      ws = (op.filter fun i => decide (triedActions t i ≠ [])).map (fun i => X.toList (t.nodes i).belief) ∧
      (∀ i ∈ op, ∀ j, Linked t i j → (t.nodes j).belief ∈ (op.map fun i => (t.nodes i).belief).reverse ++ l) ∧
      (∀ j ∈ need, (t.nodes j).belief ∈ (op.map fun i => (t.nodes i).belief).reverse ++ l) ∧
      ∀ i ∈ op, ∃ n ∈ need, Relation.ReflTransGen (Linked t) n i

theorem RunOk.isNone {X : Exporter σ β} {t : Tree β} {v v' : Option (List β)} {ws : List (List ℚ)} {need : List Nat}
    (h : RunOk X t v v' ws need) : v'.isNone = v.isNone := by
  cases v with
  | none => rw [show v' = none from h]
  | some l => obtain ⟨op, rfl, _⟩ := h; rfl

theorem RunOk.nil (X : Exporter σ β) (t : Tree β) (v : Option (List β)) : RunOk X t v v [] [] := by
  cases v with
  | none => rfl
  | some l => exact ⟨[], by simp, by simp, by simp, by simp, by simp, by simp, by simp⟩

theorem RunOk.append {X : Exporter σ β} {t : Tree β} {v v1 v2 : Option (List β)} {ws ws' : List (List ℚ)} {need need' : List Nat}
    (h : RunOk X t v v1 ws need) (h' : RunOk X t v1 v2 ws' need') : RunOk X t v v2 (ws ++ ws') (need ++ need') := by
  cases v with
  | none =>
      rw [show v1 = none from h] at h'
      exact h'
  | some l =>
      obtain ⟨op, rfl, a1, a2, a3, a4, a5, a6⟩ := h
      obtain ⟨op', rfl, b1, b2, b3, b4, b5, b6⟩ := h'
      have he : ((op ++ op').map fun i => (t.nodes i).belief).reverse ++ l =
          (op'.map fun i => (t.nodes i).belief).reverse ++ ((op.map fun i => (t.nodes i).belief).reverse ++ l) := by
        simp
      refine ⟨op ++ op', by rw [he], ?_, ?_, ?_, ?_, ?_, ?_⟩
      · rw [List.map_append, List.nodup_append]
        refine ⟨a1, b1, ?_⟩
        intro x hx y hy hxy
        subst hxy
        obtain ⟨i, hi, rfl⟩ := List.mem_map.1 hy
        exact b2 i hi (List.mem_append_left _ (List.mem_reverse.2 hx))
      · intro i hi
        rcases List.mem_append.1 hi with hi | hi
        · exact a2 i hi
        · exact fun hl => b2 i hi (List.mem_append_right _ hl)
      · rw [a3, b3, List.filter_append, List.map_append]
      · intro i hi j hj
        rw [he]
        rcases List.mem_append.1 hi with hi | hi
        · exact List.mem_append_right _ (a4 i hi j hj)
        · exact b4 i hi j hj
      · intro j hj
        rw [he]
        rcases List.mem_append.1 hj with hj | hj
        · exact List.mem_append_right _ (a5 j hj)
        · exact b5 j hj
      · intro i hi
        rcases List.mem_append.1 hi with hi | hi
        · obtain ⟨n, hn, h⟩ := a6 i hi
          exact ⟨n, List.mem_append_left _ hn, h⟩
        · obtain ⟨n, hn, h⟩ := b6 i hi
          exact ⟨n, List.mem_append_right _ hn, h⟩

/-- The export of a node that has been visited. -/
theorem RunOk.visited {X : Exporter σ β} {t : Tree β} {l : List β} {i : Nat} (h : (t.nodes i).belief ∈ l) :
    RunOk X t (some l) (some l) [] [i] :=
  ⟨[], by simp, by simp, by simp, by simp, by simp, by simpa using h, by simp⟩

/-- The export of a node that has not been visited and of its successors. -/
theorem RunOk.visit {X : Exporter σ β} {t : Tree β} {l : List β} {i : Nat} {v : Option (List β)} {ws : List (List ℚ)} {need : List Nat}
    (hi : (t.nodes i).belief ∉ l) (h : RunOk X t (some ((t.nodes i).belief :: l)) v ws need) (hneed : ∀ j, j ∈ need ↔ Linked t i j) :
    RunOk X t (some l) v ((if triedActions t i = [] then [] else [X.toList (t.nodes i).belief]) ++ ws) [i] := by
  obtain ⟨op, rfl, a1, a2, a3, a4, a5, a6⟩ := h
  have he : ((i :: op).map fun i => (t.nodes i).belief).reverse ++ l =
      (op.map fun i => (t.nodes i).belief).reverse ++ ((t.nodes i).belief :: l) := by simp
  refine ⟨i :: op, by rw [he], ?_, ?_, ?_, ?_, ?_, ?_⟩
  · rw [List.map_cons, List.nodup_cons]
    refine ⟨?_, a1⟩
    intro hm
    obtain ⟨j, hj, hb⟩ := List.mem_map.1 hm
    exact a2 j hj (by rw [hb]; simp)
  · intro j hj
    rcases List.mem_cons.1 hj with rfl | hj
    · exact hi
    · exact fun hl => a2 j hj (List.mem_cons_of_mem _ hl)
  · rw [a3, List.filter_cons]
    by_cases ht : triedActions t i = []
    · simp [ht]
    · simp [ht]
  · intro j hj k hk
    rw [he]
    rcases List.mem_cons.1 hj with rfl | hj
    · exact a5 k ((hneed k).2 hk)
    · exact a4 j hj k hk
  · intro j hj
    rw [List.mem_singleton.1 hj, he]
    simp
  · intro j hj
    refine ⟨i, by simp, ?_⟩
    rcases List.mem_cons.1 hj with rfl | hj
    · exact .refl
    · obtain ⟨n, hn, h⟩ := a6 j hj
      exact .head ((hneed n).1 hn) h

theorem withActionsAll_eq (cs : List FullDict) : withActionsAll cs = cs.flatMap withActions := by
  induction cs with
  | nil => simp [withActionsAll]
  | cons c cs ih => simp [withActionsAll, ih]

/-! ### What is exported -/

/-- What the export of the node `r` returns. -/
def FullPost (X : Exporter σ β) (t : Tree β) (r : NodeRef) (v : Option (List β)) (d : FullDict) (v' : Option (List β)) : Prop :=
  FullOf X t v.isNone r d ∧ RunOk X t v v' (withActions d) (needOf t r)

theorem exportList_full {X : Exporter σ β} {t : Tree β} {recur : NodeRef → M (Option (List β)) FullDict}
    (h : ∀ r v, M.Post (recur r) v (FullPost X t r v) fun _ _ => True) : ∀ (rs : List NodeRef) (v : Option (List β)),
    M.Post (exportList recur rs) v (fun cs v' => cs.length = rs.length ∧
      (∀ (k : Nat) r c, rs[k]? = some r → cs[k]? = some c → FullOf X t v.isNone r c) ∧
      RunOk X t v v' (withActionsAll cs) (rs.flatMap (needOf t))) fun _ _ => True := by
  intro rs
  induction rs with
  | nil =>
      intro v
      refine M.post_pure.2 ⟨rfl, by simp, ?_⟩
      simpa [withActionsAll] using RunOk.nil X t v
  | cons r rs ih =>
      intro v
      unfold exportList
      refine M.post_bind (h r v) (fun _ _ h => h) ?_
      rintro c v1 _ ⟨h1, h2⟩
      refine M.post_bind (ih v1) (fun _ _ h => h) ?_
      rintro cs v2 _ ⟨h3, h4, h5⟩
      rw [M.post_pure]
      refine ⟨by simp [h3], ?_, ?_⟩
      · rintro (_ | k) r' c' hr hc
        · simp only [List.getElem?_cons_zero, Option.some.injEq] at hr hc
          subst hr; subst hc
          exact h1
        · simp only [List.getElem?_cons_succ] at hr hc
          rw [← h2.isNone]
          exact h4 k r' c' hr hc
      · simp only [withActionsAll, List.flatMap_cons]
        exact h2.append h5

theorem fullSub_post {X : Exporter σ β} {t : Tree β} {recur : NodeRef → M (Option (List β)) FullDict}
    (h : ∀ r v, M.Post (recur r) v (FullPost X t r v) fun _ _ => True) (labels : List Name) (keys : List Nat) (rs : List NodeRef)
    (v : Option (List β)) :
    M.Post (fullSub recur labels keys rs) v (fun s v' => s.1.map some = keys.map (fun k => labels[k]?) ∧ s.2.length = rs.length ∧
      (∀ (k : Nat) r c, rs[k]? = some r → s.2[k]? = some c → FullOf X t v.isNone r c) ∧
      RunOk X t v v' (withActionsAll s.2) (rs.flatMap (needOf t))) fun _ _ => True := by
  unfold fullSub
  refine M.post_bind (Q1 := fun names v1 => v1 = v ∧ names.map some = keys.map (fun k => labels[k]?)) (E1 := fun _ _ => True) ?_
    (fun _ _ h => h) ?_
  · rw [M.post_lift]
    exact ⟨fun names hn => ⟨rfl, namesAt_ok hn⟩, fun _ _ => trivial⟩
  · rintro names v1 _ ⟨rfl, hn⟩
    refine M.post_bind (exportList_full h rs v1) (fun _ _ h => h) ?_
    rintro cs v2 _ h2
    exact M.post_pure.2 ⟨hn, h2⟩

theorem FullOf.names_nil {names : List Name} {l : List Nat} {ns : List Name} (h : names.map some = l.map fun k => ns[k]?) :
    names = [] ↔ l = [] := by
  have := congrArg List.length h
  simp only [List.length_map] at this
  rw [← List.length_eq_zero_iff, ← List.length_eq_zero_iff, this]

variable [DecidableEq β]

theorem fullDict_post (X : Exporter σ β) (t : Tree β) : ∀ (fuel : Nat) (r : NodeRef) (v : Option (List β)),
    M.Post (fullDict X t fuel r) v (FullPost X t r v) fun _ _ => True := by
  intro fuel
  induction fuel with
  | zero => intro r v; exact M.post_raise.2 trivial
  | succ fuel ih =>
      intro r v
      cases r with
      | act i a =>
          rw [fullDict]
          rcases hc : t.anode i a with _ | c
          · exact M.post_raise.2 trivial
          · simp only [fullAct]
            refine M.post_bind (fullSub_post ih X.sim.observations (c.children.map Prod.fst) (nodeChildren t (.act i a)) v)
              (fun _ _ h => h) ?_
            rintro s v' _ ⟨h1, h2, h3, h4⟩
            rw [M.post_pure]
            have hsucc : c.children = successors t i a := by unfold successors; rw [hc]; rfl
            rw [hsucc] at h1
            rw [children_act] at h2 h3 h4
            refine ⟨?_, ?_⟩
            · have hv : c.avg.value = actionValue t i a := by unfold actionValue; rw [hc]; rfl
              have hn : c.avg.n = actionVisits t i a := by unfold actionVisits; rw [hc]; rfl
              rw [hv, hn]
              refine .action ?_ (by simpa using h2) ?_
              · rw [h1, List.map_map]; rfl
              · intro k o j d hk hd
                exact h3 k (.obs j) d (by rw [List.getElem?_map, hk]; rfl) hd
            · rw [withActions]
              rw [List.flatMap_map] at h4
              unfold needOf
              rwa [show List.flatMap (fun x => needOf t (NodeRef.obs x.2)) (successors t i a) = (successors t i a).map Prod.snd by
                simp only [needOf]; rw [← List.map_eq_flatMap]] at h4
      | obs i =>
          rw [fullDict]
          have hsub : ∀ v1 : Option (List β), v1.isNone = v.isNone → M.Post (fullObs X t (fullDict X t fuel) i true) v1
              (fun d v' => FullOf X t v.isNone (.obs i) d ∧ ∃ need ws, RunOk X t v1 v' ws need ∧ (∀ j, j ∈ need ↔ Linked t i j) ∧
                withActions d = (if triedActions t i = [] then [] else [X.toList (t.nodes i).belief]) ++ ws) fun _ _ => True := by
            intro v1 hv1
            unfold fullObs
            refine M.post_bind (fullSub_post ih X.sim.actions (madeActions t i) (nodeChildren t (.obs i)) v1) (fun _ _ h => h) ?_
            rintro s v' _ ⟨h1, h2, h3, h4⟩
            rw [M.post_pure]
            rw [madeActions_eq] at h1
            rw [children_obs] at h2 h3 h4
            refine ⟨.opened h1 (by simpa using h2) ?_, _, _, h4, ?_, ?_⟩
            · intro k a c hk hc
              rw [← hv1]
              exact h3 k (.act i a) c (by rw [List.getElem?_map, hk]; rfl) hc
            · intro j
              rw [List.mem_flatMap]
              constructor
              · rintro ⟨r, hr, hj⟩
                obtain ⟨a, _, rfl⟩ := List.mem_map.1 hr
                obtain ⟨x, hx, rfl⟩ := List.mem_map.1 hj
                exact ⟨a, x, hx, rfl⟩
              · rintro ⟨a, x, hx, rfl⟩
                exact ⟨.act i a, List.mem_map_of_mem (tried_of_successor hx), List.mem_map_of_mem hx⟩
            · rw [withActions]
              congr 1
              by_cases hs : s.1 = []
              · rw [if_pos hs, if_pos ((FullOf.names_nil h1).1 hs)]
              · rw [if_neg hs, if_neg fun h => hs ((FullOf.names_nil h1).2 h)]
          cases v with
          | none =>
              refine M.post_ok_bind (show markBelief (t.nodes i).belief (none : Option (List β)) = (.ok true, none) from rfl) ?_
              refine M.post_mono (hsub none rfl) ?_ (fun _ _ h => h)
              rintro d v' ⟨h1, need, ws, h2, _⟩
              exact ⟨h1, h2⟩
          | some l =>
              by_cases hb : (t.nodes i).belief ∈ l
              · refine M.post_ok_bind (show markBelief (t.nodes i).belief (some l) = (.ok false, some l) by
                  unfold markBelief; simp [hb]) ?_
                refine M.post_pure.2 ⟨.closed rfl, ?_⟩
                have hw : withActions (.obs (t.nodes i).avg.value (t.nodes i).avg.n (X.toList (t.nodes i).belief) [] []) = [] := by
                  simp [withActions, withActionsAll]
                rw [hw]
                exact RunOk.visited hb
              · refine M.post_ok_bind (show markBelief (t.nodes i).belief (some l) = (.ok true, some ((t.nodes i).belief :: l)) by
                  unfold markBelief; simp [hb]) ?_
                refine M.post_mono (hsub (some ((t.nodes i).belief :: l)) rfl) ?_ (fun _ _ h => h)
                rintro d v' ⟨h1, need, ws, h2, h3, h4⟩
                refine ⟨h1, ?_⟩
                rw [h4]
                exact RunOk.visit hb h2 h3

/-! ### Exports that return -/

/-- The room needed for the export of a node. -/
def Room (t : Tree β) (v : Option (List β)) (fuel : Nat) : NodeRef → Prop
  | .obs i => i < t.size ∧ 2 * callsLeft t v i < fuel
  | .act i a => t.anode i a ≠ none ∧ 0 < fuel ∧ ∀ x ∈ successors t i a, x.2 < t.size ∧ 2 * callsLeft t v x.2 + 1 < fuel

/-- The beliefs visited later. -/
def Later (v0 v : Option (List β)) : Prop := (v0 = none → v = none) ∧ ∀ l, v0 = some l → ∃ new, v = some (new ++ l)

omit [DecidableEq β] in
theorem Later.refl (v : Option (List β)) : Later v v := ⟨id, fun l h => ⟨[], h⟩⟩

omit [DecidableEq β] in
theorem RunOk.later {X : Exporter σ β} {t : Tree β} {v0 v v' : Option (List β)} {ws : List (List ℚ)} {need : List Nat}
    (h : RunOk X t v v' ws need) (h0 : Later v0 v) : Later v0 v' := by
  refine ⟨fun hn => ?_, fun l hl => ?_⟩
  · rw [h0.1 hn] at h
    exact h
  · obtain ⟨new, rfl⟩ := h0.2 l hl
    obtain ⟨op, rfl, _⟩ := h
    exact ⟨_ ++ new, by rw [List.append_assoc]⟩

theorem callsLeft_later {t : Tree β} {v0 v : Option (List β)} (h : Later v0 v) (i : Nat) : callsLeft t v i ≤ callsLeft t v0 i := by
  cases v0 with
  | none => rw [h.1 rfl]
  | some l =>
      obtain ⟨new, rfl⟩ := h.2 l rfl
      exact callsLeft_mono t l new i i

theorem Room.later {t : Tree β} {v0 v : Option (List β)} (h : Later v0 v) {fuel : Nat} {r : NodeRef} (hr : Room t v0 fuel r) :
    Room t v fuel r := by
  cases r with
  | obs i => exact ⟨hr.1, lt_of_le_of_lt (Nat.mul_le_mul_left 2 (callsLeft_later h i)) hr.2⟩
  | act i a =>
      refine ⟨hr.1, hr.2.1, fun x hx => ⟨(hr.2.2 x hx).1, ?_⟩⟩
      have := (hr.2.2 x hx).2
      have := callsLeft_later (t := t) h x.2
      omega

theorem fullSub_total {X : Exporter σ β} {t : Tree β} {fuel : Nat} {inc : Prop}
    (h : ∀ r v, (v = none → inc) → Room t v fuel r → ∃ d v', fullDict X t fuel r v = (.ok d, v')) {labels : List Name} {keys : List Nat}
    (hk : ∀ k ∈ keys, k < labels.length) {rs : List NodeRef} {v : Option (List β)} (hv : v = none → inc)
    (hr : ∀ r ∈ rs, Room t v fuel r) : ∃ s v', fullSub (fullDict X t fuel) labels keys rs v = (.ok s, v') := by
  obtain ⟨names, hn⟩ := namesAt_total hk
  have hlist : ∀ (rs : List NodeRef) (v1 : Option (List β)), (∀ r ∈ rs, Room t v fuel r) → Later v v1 →
      ∃ cs v', exportList (fullDict X t fuel) rs v1 = (.ok cs, v') := by
    intro rs
    induction rs with
    | nil => intro v1 _ _; exact ⟨[], v1, rfl⟩
    | cons r rs ih =>
        intro v1 hr1 hl
        have hnone : v1 = none → inc := by
          intro hn
          apply hv
          rcases v with _ | l
          · rfl
          · obtain ⟨new, h1⟩ := hl.2 l rfl
            rw [hn] at h1; cases h1
        obtain ⟨d, v2, h2⟩ := h r v1 hnone ((hr1 r (by simp)).later hl)
        have hp := (M.post_of_ok h2).1 (fullDict_post X t fuel r v1)
        obtain ⟨cs, v3, h3⟩ := ih v2 (fun r hr => hr1 r (List.mem_cons_of_mem _ hr)) (hp.2.later hl)
        exact ⟨d :: cs, v3, by unfold exportList; rw [M.bind_of_ok h2, M.bind_of_ok h3]; rfl⟩
  obtain ⟨cs, v', hc⟩ := hlist rs v hr (Later.refl v)
  refine ⟨(names, cs), v', ?_⟩
  unfold fullSub
  rw [M.bind_of_ok (show M.lift (namesAt labels keys) v = (.ok names, v) by unfold M.lift; rw [hn]), M.bind_of_ok hc]
  rfl

/-- The export returns if there is enough room for the recursion. -/
theorem fullDict_total {X : Exporter σ β} {t : Tree β} (hlen : ∀ i, (t.nodes i).children.length ≤ X.sim.actions.length)
    (hrange : ∀ i a x, x ∈ successors t i a → x.2 < t.size ∧ x.1 < X.sim.observations.length) :
    ∀ (fuel : Nat) (r : NodeRef) (v : Option (List β)), (v = none → ∀ i a x, x ∈ successors t i a → i < x.2) → Room t v fuel r →
      ∃ d v', fullDict X t fuel r v = (.ok d, v') := by
  intro fuel
  induction fuel with
  | zero =>
      intro r v _ hr
      cases r with
      | obs i => exact absurd hr.2 (Nat.not_lt_zero _)
      | act i a => exact absurd hr.2.1 (Nat.not_lt_zero _)
  | succ fuel ih =>
      intro r v hv hr
      cases r with
      | act i a =>
          rcases hc : t.anode i a with _ | c
          · exact absurd hc hr.1
          · have hsucc : c.children = successors t i a := by unfold successors; rw [hc]; rfl
            obtain ⟨s, v', h⟩ := fullSub_total (labels := X.sim.observations) (keys := c.children.map Prod.fst)
              (rs := nodeChildren t (.act i a)) ih (by
                intro k hk
                obtain ⟨x, hx, rfl⟩ := List.mem_map.1 hk
                rw [hsucc] at hx
                exact (hrange i a x hx).2) hv (by
                intro r hr'
                rw [children_act] at hr'
                obtain ⟨x, hx, rfl⟩ := List.mem_map.1 hr'
                exact ⟨(hr.2.2 x hx).1, by have := (hr.2.2 x hx).2; omega⟩)
            refine ⟨.act c.avg.value c.avg.n s.1 s.2, v', ?_⟩
            rw [fullDict, hc]
            simp only [fullAct]
            rw [M.bind_of_ok h]
            rfl
      | obs i =>
          obtain ⟨hi, hcalls⟩ := hr
          have hopen : ∀ v1 : Option (List β), (v1 = none → v = none) →
              (∀ a x, x ∈ successors t i a → callsLeft t v1 x.2 < callsLeft t v i) → 0 < callsLeft t v i →
              ∃ d v', fullObs X t (fullDict X t fuel) i true v1 = (.ok d, v') := by
            intro v1 hv1 hlt hpos
            obtain ⟨s, v', h⟩ := fullSub_total (labels := X.sim.actions) (keys := madeActions t i) (rs := nodeChildren t (.obs i)) ih (by
                intro k hk
                rw [madeActions_eq] at hk
                exact lt_of_lt_of_le (List.mem_range.1 (List.mem_filter.1 hk).1) (hlen i)) (fun h => hv (hv1 h)) (by
                intro r hr'
                rw [children_obs] at hr'
                obtain ⟨a, ha, rfl⟩ := List.mem_map.1 hr'
                refine ⟨mem_tried.1 ha, by omega, fun x hx => ⟨(hrange i a x hx).1, ?_⟩⟩
                have := hlt a x hx
                omega)
            refine ⟨.obs (t.nodes i).avg.value (t.nodes i).avg.n (X.toList (t.nodes i).belief) s.1 s.2, v', ?_⟩
            simp only [fullObs]
            rw [M.bind_of_ok h]
            rfl
          rw [fullDict]
          cases v with
          | none =>
              rw [M.bind_of_ok (show markBelief (t.nodes i).belief (none : Option (List β)) = (.ok true, none) from rfl)]
              refine hopen none id ?_ ?_
              · intro a x hx
                have h1 := hv rfl i a x hx
                have h2 := (hrange i a x hx).1
                simp only [callsLeft]
                omega
              · simp only [callsLeft]; omega
          | some l =>
              by_cases hb : (t.nodes i).belief ∈ l
              · rw [M.bind_of_ok (show markBelief (t.nodes i).belief (some l) = (.ok false, some l) by unfold markBelief; simp [hb])]
                exact ⟨_, _, rfl⟩
              · rw [M.bind_of_ok (show markBelief (t.nodes i).belief (some l) = (.ok true, some ((t.nodes i).belief :: l)) by
                  unfold markBelief; simp [hb])]
                have hlt : ∀ j, callsLeft t (some ((t.nodes i).belief :: l)) j < callsLeft t (some l) i := fun j => by
                  have := callsLeft_lt (t := t) hi hb [(t.nodes i).belief] j i (by simp)
                  simpa using this
                exact hopen _ (by simp) (fun _ _ _ => hlt _) (lt_of_le_of_lt (Nat.zero_le _) (hlt i))

end Verif
