import Verif.Proof.Visit

/-! Properties C43 to C49 and C68: parsers, graph policies, belief runners. -/

set_option linter.unusedSectionVars false
set_option linter.unusedSimpArgs false

namespace Verif
open Spec

/-! ### C43 -/

theorem isspace_iff (l : List Char) : isspace l = true ↔ l ≠ [] ∧ Blank l := by
  unfold isspace Blank
  cases l with
  | nil => simp
  | cons c l => simp

theorem withBlanks_iff (ls file : List (List Char)) : WithBlanks ls file ↔ file.filter (fun l => !isspace l) = ls := by
  constructor
  · intro h
    induction h with
    | nil => rfl
    | blank h1 h2 _ ih =>
      rw [List.filter_cons_of_neg (by simp [(isspace_iff _).2 ⟨h1, h2⟩])]
      exact ih
    | line h1 _ ih =>
      rw [List.filter_cons_of_pos (by
        rw [Bool.not_eq_true', Bool.eq_false_iff]
        exact fun h => h1 ((isspace_iff _).1 h)), ih]
  · rintro rfl
    induction file with
    | nil => exact .nil
    | cons l file ih =>
      by_cases h : isspace l = true
      · rw [List.filter_cons_of_neg (by simp [h])]
        exact .blank ((isspace_iff _).1 h).1 ((isspace_iff _).1 h).2 ih
      · rw [List.filter_cons_of_pos (by simp [h])]
        exact .line (fun h' => h ((isspace_iff _).2 h')) ih

theorem intLine_pyInt (l : List Char) (n : Int) (h : IntLine l n) : pyInt l = .ok n := by
  obtain ⟨w1, w2, h1, h2, rfl⟩ := h
  exact pyInt_showInt w1 w2 n h1 h2

theorem forall₂_intLine (pairs : List (List Char × List Char)) (ns : List Int)
    (h : List.Forall₂ (fun x n => IntLine x.1 n) pairs ns) : List.Forall₂ (fun x n => pyInt x.1 = .ok n) pairs ns :=
  h.imp fun _ _ h => intLine_pyInt _ _ h

/-- A file of action lines and vector lines, with any blank lines, is read exactly. -/
theorem C43_vf_ok (f : List Char → List ℚ) (pairs : List (List Char × List Char)) (ns : List Int) (k : Nat)
    (file : List (List Char)) (hfile : WithBlanks (pairLines pairs) file) (hne : pairs ≠ [])
    (hint : List.Forall₂ (fun x n => IntLine x.1 n) pairs ns) (hk : ∀ x ∈ pairs, (f x.2).length = k) :
    parseValueFunction f file = .ok (ns, pairs.map fun x => f x.2) := by
  unfold parseValueFunction
  have h := readPairs_ok f pairs ns (forall₂_intLine _ _ hint) [] [] []
  rw [List.append_nil] at h
  rw [parseVf_eq, (withBlanks_iff _ _).1 hfile]
  unfold pairLines
  rw [h]
  simp only [readPairs, List.nil_append, bind, Except.bind, Bool.false_eq_true, if_false]
  rw [vstack_ok _ (by simpa using hne) k (by
    intro v hv
    obtain ⟨x, hx, rfl⟩ := List.mem_map.1 hv
    exact hk x hx)]
  rfl

/-- `ValueFunctionParseError` is raised exactly when a last action has no vector. -/
theorem C43_vf_trailing (f : List Char → List ℚ) (file : List (List Char)) :
    parseValueFunction f file = .error .valueFunctionParseError ↔
    ∃ (pairs : List (List Char × List Char)) (a : List Char), WithBlanks (pairLines pairs ++ [a]) file ∧
      (∀ x ∈ pairs, ∃ n, pyInt x.1 = .ok n) ∧ ∃ n, pyInt a = .ok n := by
  have hvs : ∀ (vs : List (List ℚ)) (e : PyErr), vstack vs = .error e → e = .valueError := by
    intro vs e h
    unfold vstack at h
    split at h
    · cases h; rfl
    · split at h
      · cases h
      · cases h; rfl
  have hcase := readPairs_cases f _ (file.filter fun l => !isspace l) (le_refl _) [] []
  unfold parseValueFunction
  rw [parseVf_eq]
  constructor
  · intro h
    rcases hcase with ⟨pairs, ns, h1, h2, h3⟩ | ⟨pairs, ns, a, k, h1, h2, h3, r, h4⟩ | ⟨pairs, ns, a, rest, h1, h2, h3, h4⟩
    · rw [h3] at h
      simp only [bind, Except.bind, Bool.false_eq_true, if_false] at h
      cases hv : vstack ([] ++ List.map (fun x => f x.2) pairs) with
      | error e =>
        rw [hv] at h
        have he := hvs _ _ hv
        subst he
        cases h
      | ok v => rw [hv] at h; cases h
    · refine ⟨pairs, a, (withBlanks_iff _ _).2 h1, ?_, k, h3⟩
      intro x hx
      obtain ⟨i, hi, rfl⟩ := List.getElem_of_mem hx
      have hl := h2.length_eq
      exact ⟨ns[i], h2.get hi (by omega)⟩
    · rw [h4] at h; cases h
  · rintro ⟨pairs, a, h1, h2, n, h3⟩
    have hns : ∃ ns, List.Forall₂ (fun (x : List Char × List Char) k => pyInt x.1 = .ok k) pairs ns := by
      clear h1
      induction pairs with
      | nil => exact ⟨[], .nil⟩
      | cons x pairs ih =>
        obtain ⟨k, hk⟩ := h2 x (by simp)
        obtain ⟨ns, hns⟩ := ih (fun y hy => h2 y (by simp [hy]))
        exact ⟨k :: ns, .cons hk hns⟩
    obtain ⟨ns, hns⟩ := hns
    have h := readPairs_ok f pairs ns hns [] [] [a]
    rw [(withBlanks_iff _ _).1 h1]
    unfold pairLines
    rw [h]
    simp only [readPairs, h3, bind, Except.bind, if_true]

theorem pgFile_loop (nodes : List (Int × List (Option Int))) : ∀ (file : List (List Char)), PgFile nodes file →
    parsePgLoop file 0 = .ok nodes := by
  induction nodes using List.reverseRecOn with
  | nil =>
    intro file h
    have := List.eq_nil_of_length_eq_zero h.1
    subst this
    rfl
  | append_singleton nodes x ih =>
    intro file h
    obtain ⟨hl, h⟩ := h
    obtain ⟨a, ts⟩ := x
    obtain ⟨w, hw, hlast⟩ := h nodes.length a ts (by simp)
    have hlen : file.length = nodes.length + 1 := by simpa using hl
    have hfile : file = file.take nodes.length ++ [pgLine nodes.length a ts ++ w] := by
      conv_lhs => rw [← List.take_append_drop nodes.length file]
      congr 1
      rw [List.drop_eq_getElem_cons (by omega), List.drop_of_length_le (by omega)]
      rw [List.getElem?_eq_getElem (by omega)] at hlast
      rw [Option.some.inj hlast]
    have hpre : parsePgLoop (file.take nodes.length) 0 = .ok nodes := by
      apply ih
      refine ⟨by simp; omega, ?_⟩
      intro i b us hi
      have hil := (List.getElem?_eq_some_iff.1 hi).1
      obtain ⟨v, hv, hv'⟩ := h i b us (by rw [List.getElem?_append_left hil]; exact hi)
      exact ⟨v, hv, by rw [List.getElem?_take, if_pos hil]; exact hv'⟩
    rw [hfile, parsePgLoop_append _ _ 0 nodes hpre]
    have htl : (file.take nodes.length).length = nodes.length := by simp; omega
    rw [htl, Nat.zero_add]
    obtain ⟨k1, k2⟩ := pgLine_words nodes.length a ts w hw
    simp only [parsePgLoop, k1, Bool.false_eq_true, if_false, k2, bind, Except.bind, pure, Except.pure, Except.map]

/-- A file of node lines is read exactly. -/
theorem C43_pg_ok (nodes : List (Int × List (Option Int))) (file : List (List Char)) (h : PgFile nodes file) :
    parsePolicyGraph file = .ok (nodes.map Prod.fst, nodes.map Prod.snd) := by
  unfold parsePolicyGraph
  rw [pgFile_loop nodes file h]
  rfl

/-- A node number out of sequence is an error. -/
theorem C43_pg_sequence (nodes : List (Int × List (Option Int))) (file rest : List (List Char)) (h : PgFile nodes file)
    (j : Nat) (a : Int) (ts : List (Option Int)) (w : List Char) (hw : Blank w) (hj : j ≠ nodes.length) :
    parsePolicyGraph (file ++ (pgLine j a ts ++ w) :: rest) = .error .assertionError := by
  have hbad : ∀ (l : List (List Char)) (x : Int × List (Option Int)) (i : Nat), j ≠ i → parsePgWords j l = .ok x →
      parsePgWords i l = .error .assertionError := by
    intro l x i hji hx
    unfold parsePgWords at *
    simp only [bind, Except.bind] at *
    split at hx
    · cases hx
    · split at hx
      · cases hx
      · rename_i n hn
        split at hx
        · cases hx
        · rename_i hnj
          rw [if_pos]
          omega
  unfold parsePolicyGraph
  rw [parsePgLoop_append _ _ 0 nodes (pgFile_loop nodes file h), Nat.zero_add, h.1]
  obtain ⟨k1, k2⟩ := pgLine_words j a ts w hw
  simp only [parsePgLoop, k1, Bool.false_eq_true, if_false, hbad _ _ _ hj k2, bind, Except.bind, Except.map]

/-- A blank line is an error. -/
theorem C43_pg_blank (nodes : List (Int × List (Option Int))) (file rest : List (List Char)) (h : PgFile nodes file)
    (w : List Char) (hw : Blank w) : parsePolicyGraph (file ++ w :: rest) = .error .valueError := by
  unfold parsePolicyGraph
  rw [parsePgLoop_append _ _ 0 nodes (pgFile_loop nodes file h), Nat.zero_add]
  have := rstrip_line [] w hw (by simp)
  rw [List.nil_append] at this
  simp only [parsePgLoop, this]
  have : isspace [] = false := rfl
  simp only [this, Bool.false_eq_true, if_false, splitOn, parsePgWords, listGet, bind, Except.bind, Except.map]
  rfl

/-- Non-vacuity of C43. -/
example : WithBlanks (pairLines [("2\n".toList, "1 1\n".toList)]) ["\n".toList, "2\n".toList, " \n".toList, "1 1\n".toList] ∧
    IntLine "2\n".toList 2 ∧ PgFile [(2, [some 0, none])] ["0 2  0 -\n".toList] := by
  refine ⟨(withBlanks_iff _ _).2 (by decide), ⟨[], ['\n'], by simp [Blank], ?_, by decide⟩, rfl, ?_⟩
  · intro c hc; simp at hc; subst hc; decide
  · intro i a ts h
    match i, h with
    | 0, h =>
      cases h
      exact ⟨['\n'], by intro c hc; simp at hc; subst hc; decide, by decide⟩

/-! ### C44 -/

theorem mkGraphPolicy_ok (as os : List Name) (ts : List (List (Option Int))) (vs : List (List ℚ)) (start : Option (List ℚ))
    (init : Option Int) (g : GraphPolicy) (h : mkGraphPolicy as os ts vs start init = .ok g) :
    (ts.length = as.length ∧ ts ≠ [] ∧ ∀ r ∈ ts, r.length = os.length) ∧ g.actions = as ∧ g.observations = os ∧
      g.transitions = ts ∧ g.values = vs ∧ initNode as.length vs start init = .ok g.init := by
  unfold mkGraphPolicy at h
  split at h
  · rename_i hc
    cases hi : initNode as.length vs start init with
    | error e => rw [hi] at h; cases h
    | ok i =>
      rw [hi] at h
      cases h
      exact ⟨hc, rfl, rfl, rfl, rfl, rfl⟩
  · cases h

/-- A policy built with one value vector per node, or with a given initial node, is recovered from its dictionary and runs
the same. -/
theorem C44_roundtrip (as os : List Name) (ts : List (List (Option Int))) (vs : List (List ℚ)) (start : Option (List ℚ))
    (init : Option Int) (g : GraphPolicy) (h : mkGraphPolicy as os ts vs start init = .ok g)
    (hinit : init ≠ none ∨ vs.length ≤ as.length) :
    ∃ g', GraphPolicy.fromDict g.toDict = .ok g' ∧ g' = g ∧
      ∀ obs, runPolicy g' g'.init obs = runPolicy g g.init obs := by
  obtain ⟨hc, h1, h2, h3, h4, h5⟩ := mkGraphPolicy_ok as os ts vs start init g h
  have hlt : g.init < g.actions.length := by
    rw [h1]
    unfold initNode at h5
    split at h5
    · split at h5
      · rename_i hi; cases h5; exact hi
      · cases h5
    · rename_i b
      have hl : vs.length ≤ as.length := by
        rcases hinit with h | h
        · exact absurd rfl h
        · exact h
      cases hn : nodeFromBelief vs b with
      | error e => rw [hn] at h5; cases h5
      | ok n =>
        rw [hn] at h5
        have h5 : (n : Int) = g.init := by injection h5
        have : n < vs.length := by
          unfold nodeFromBelief at hn
          split at hn
          · by_cases hvs : vs = []
            · subst hvs; cases hn
            · obtain ⟨r, v, e1, e2, _⟩ := argmax_spec (vs.map fun v => dot v b) (by simpa using hvs)
              rw [hn] at e1
              cases e1
              simpa using (List.getElem?_eq_some_iff.1 e2).1
          · cases hn
        omega
    · cases h5
  refine ⟨g, ?_, rfl, fun _ => rfl⟩
  unfold GraphPolicy.fromDict GraphPolicy.toDict
  have hp := pyInt_showInt [] [] g.init (by simp) (by simp)
  rw [List.nil_append, List.append_nil] at hp
  simp only [hp, bind, Except.bind]
  unfold mkGraphPolicy
  rw [if_pos (by rw [h1, h2, h3]; exact hc)]
  simp only [initNode, if_pos hlt, Except.map]

/-- The node of a belief is the first one of maximal expected value. -/
theorem C44_best (values : List (List ℚ)) (b : List ℚ) (hne : values ≠ []) (hl : ∀ v ∈ values, v.length = b.length) :
    ∃ n, nodeFromBelief values b = .ok n ∧ BestNode values b n ∧ ∀ m, BestNode values b m → m = n := by
  obtain ⟨n, h1, h2⟩ := nodeFromBelief_spec values b hne hl
  exact ⟨n, h1, h2, fun m hm => bestNode_unique _ _ _ _ hm h2⟩

theorem pyIndex_at (n : Nat) (c : Int) (k : Nat) (h : NodeAt n c k) : pyIndex n c = .ok k := by
  obtain ⟨hk, rfl | rfl⟩ := h
  · exact pyIndex_nat n k hk
  · unfold pyIndex
    rw [if_neg (show ¬ (0 ≤ (k : Int) - n ∧ (k : Int) - n < n) by omega), if_pos (show (k : Int) - n < 0 ∧ 0 ≤ (k : Int) - n + n by omega)]
    congr 1
    omega

theorem pyIndex_outside (n : Nat) (c : Int) (h : ∀ k, ¬ NodeAt n c k) : pyIndex n c = .error .indexError := by
  unfold pyIndex
  rw [if_neg, if_neg]
  · rintro ⟨h1, h2⟩
    exact h (c + n).toNat ⟨by omega, .inr (by omega)⟩
  · rintro ⟨h1, h2⟩
    exact h c.toNat ⟨by omega, .inl (by omega)⟩

theorem indexOf_first (l : List Name) (o : Name) (j : Nat) (h : FirstAt l o j) : indexOf l o = .ok j := by
  have : l.findIdx? (fun y => decide (y = o)) = some j := by
    obtain ⟨hj, he⟩ := List.getElem?_eq_some_iff.1 h.1
    rw [List.findIdx?_eq_some_iff_getElem]
    refine ⟨hj, by simpa using he, ?_⟩
    intro i hi
    have := h.2 i hi
    rw [List.getElem?_eq_getElem (show i < l.length by omega)] at this
    simpa using this
  unfold indexOf
  rw [this]

theorem indexOf_unknown (l : List Name) (o : Name) (h : o ∉ l) : indexOf l o = .error .valueError := by
  unfold indexOf
  have : l.findIdx? (fun y => decide (y = o)) = none := by
    rw [List.findIdx?_eq_none_iff]
    intro x hx
    simp only [decide_eq_false_iff_not]
    rintro rfl
    exact h hx
  rw [this]

theorem getAction_at (g : GraphPolicy) (c : Int) (k : Nat) (a : Name) (h : NodeAt g.actions.length c k) (ha : g.actions[k]? = some a) :
    g.getAction c = .ok a := by
  unfold GraphPolicy.getAction
  rw [pyIndex_at _ _ _ h]
  exact listGet_ok _ _ _ ha

theorem next_at (g : GraphPolicy) (hl : g.transitions.length = g.actions.length) (c : Int) (k j : Nat) (o : Name) (row : List (Option Int)) (t : Option Int)
    (h : NodeAt g.actions.length c k) (ho : FirstAt g.observations o j) (hr : g.transitions[k]? = some row) (ht : row[j]? = some t) :
    g.next c o = .ok t := by
  unfold GraphPolicy.next
  rw [indexOf_first _ _ _ ho, hl, pyIndex_at _ _ _ h]
  show (listGet g.transitions k >>= fun row => listGet row j) = _
  rw [listGet_ok _ _ _ hr]
  exact listGet_ok _ _ _ ht

theorem executes_run (g : GraphPolicy) (hl : g.transitions.length = g.actions.length) {c : Int} {w as : List Name} {e : Option PyErr}
    (h : Executes g.actions g.observations g.transitions c w as e) : runPolicy g c w = (as, e) := by
  induction h with
  | last hk ha => rw [runPolicy, getAction_at g _ _ _ hk ha]
  | step hk ha ho hr ht _ ih =>
    rw [runPolicy, getAction_at g _ _ _ hk ha]
    simp only [runnerStep, next_at g hl _ _ _ _ _ _ hk ho hr ht, ih]
  | impossible hk ha ho hr ht =>
    rw [runPolicy, getAction_at g _ _ _ hk ha]
    simp only [runnerStep, next_at g hl _ _ _ _ _ _ hk ho hr ht]
  | @unknown c k a o w hk ha ho =>
    rw [runPolicy, getAction_at g _ _ _ hk ha]
    have : g.next c o = .error .valueError := by
      unfold GraphPolicy.next
      rw [indexOf_unknown _ _ ho]
      rfl
    simp only [runnerStep, this]
  | @outside c w hk =>
    have : g.getAction c = .error .indexError := by
      unfold GraphPolicy.getAction
      rw [pyIndex_outside _ _ hk]
      rfl
    rw [runPolicy, this]

theorem firstAt_exists (l : List Name) (o : Name) (h : o ∈ l) : ∃ j, j < l.length ∧ FirstAt l o j := by
  have hex : ∃ j, l[j]? = some o := List.mem_iff_getElem?.1 h
  refine ⟨Nat.find hex, ?_, Nat.find_spec hex, fun i hi => Nat.find_min hex hi⟩
  exact (List.getElem?_eq_some_iff.1 (Nat.find_spec hex)).1

theorem executes_total (acts obs : List Name) (tr : List (List (Option Int))) (hl : tr.length = acts.length) (hr : ∀ r ∈ tr, r.length = obs.length)
    (w : List Name) : ∀ c : Int, ∃ as e, Executes acts obs tr c w as e := by
  induction w with
  | nil =>
    intro c
    by_cases h : ∃ k, NodeAt acts.length c k
    · obtain ⟨k, hk⟩ := h
      exact ⟨_, _, .last hk (List.getElem?_eq_getElem hk.1)⟩
    · exact ⟨_, _, .outside (by simpa using h)⟩
  | cons o w ih =>
    intro c
    by_cases h : ∃ k, NodeAt acts.length c k
    · obtain ⟨k, hk⟩ := h
      by_cases ho : o ∈ obs
      · obtain ⟨j, hj, hf⟩ := firstAt_exists obs o ho
        have hk' : k < tr.length := by have := hk.1; omega
        have hlen := hr _ (List.getElem_mem hk')
        have hj' : j < tr[k].length := by omega
        cases ht : tr[k][j] with
        | none => exact ⟨_, _, .impossible hk (List.getElem?_eq_getElem hk.1) hf (List.getElem?_eq_getElem hk') (by rw [List.getElem?_eq_getElem hj', ht])⟩
        | some c' =>
          obtain ⟨as, e, hx⟩ := ih c'
          exact ⟨_, _, .step hk (List.getElem?_eq_getElem hk.1) hf (List.getElem?_eq_getElem hk') (by rw [List.getElem?_eq_getElem hj', ht]) hx⟩
      · exact ⟨_, _, .unknown hk (List.getElem?_eq_getElem hk.1) ho⟩
    · exact ⟨_, _, .outside (by simpa using h)⟩

/-- The runs of a policy are its executions: the actions of the nodes along the transitions of the table, until an observation without a transition
raises `Impossible`, an unknown one raises `ValueError`, or a transition to no node raises `IndexError`. -/
theorem C44_execution (as os : List Name) (ts : List (List (Option Int))) (vs : List (List ℚ)) (start : Option (List ℚ))
    (init : Option Int) (g : GraphPolicy) (h : mkGraphPolicy as os ts vs start init = .ok g) (c : Int) (w acts : List Name) (e : Option PyErr) :
    runPolicy g c w = (acts, e) ↔ Executes as os ts c w acts e := by
  obtain ⟨hc, h1, h2, h3, h4, h5⟩ := mkGraphPolicy_ok as os ts vs start init g h
  subst h1 h2 h3
  constructor
  · intro hrun
    obtain ⟨as', e', hx⟩ := executes_total g.actions g.observations g.transitions hc.1 hc.2.2 w c
    rw [executes_run g hc.1 hx] at hrun
    cases hrun
    exact hx
  · exact executes_run g hc.1

/-- An observation that raises `Impossible` leaves the runner without a current node; the other exceptions leave it where it was. -/
theorem C44_stopped (g : GraphPolicy) (c : Int) (o : Name) (s : RunnerState) (e : PyErr) (h : runnerStep g c o = (s, .error e)) :
    if e = .impossible then s = none else s = some c := by
  have hne : ∀ e', g.next c o = .error e' → e' ≠ .impossible := by
    rintro e' he rfl
    unfold GraphPolicy.next at he
    cases h1 : indexOf g.observations o with
    | error e1 =>
      rw [h1] at he
      have he : (Except.error e1 : Py (Option Int)) = _ := he
      cases he
      unfold indexOf at h1
      split at h1 <;> cases h1
    | ok i =>
      rw [h1] at he
      have he : (pyIndex g.transitions.length c >>= fun i' => listGet g.transitions i' >>= fun row => listGet row i) = _ := he
      cases h2 : pyIndex g.transitions.length c with
      | error e2 =>
        rw [h2] at he
        have he : (Except.error e2 : Py (Option Int)) = _ := he
        cases he
        unfold pyIndex at h2
        split at h2
        · cases h2
        · split at h2 <;> cases h2
      | ok k =>
        rw [h2] at he
        have he : (listGet g.transitions k >>= fun row => listGet row i) = _ := he
        have hg : ∀ {α : Type} (l : List α) (i : Nat), listGet l i ≠ .error .impossible := by
          intro α l i hi
          unfold listGet at hi
          split at hi <;> cases hi
        cases h3 : listGet g.transitions k with
        | error e3 =>
          rw [h3] at he
          have he : (Except.error e3 : Py (Option Int)) = _ := he
          cases he
          exact hg _ _ h3
        | ok row =>
          rw [h3] at he
          exact hg row i he
  unfold runnerStep at h
  split at h
  · rename_i e' he
    cases h
    rw [if_neg (hne _ he)]
  · cases h
    rfl
  · cases h

/-- A policy for the tiger problem: listen, then open. -/
def tigerPolicy : GraphPolicy :=
  ⟨[.str "listen", .str "open-right", .str "open-left"], [.int 0, .int 1], [[some 1, some 2], [some 0, some 0], [some 0, some 0]],
    [[0, 0], [10, -100], [-100, 10]], 0⟩

theorem tigerPolicy_fits : Fits tigerPolicy tiger 2 := by
  refine ⟨by simp [tigerPolicy], rfl, ?_, ?_⟩
  · decide
  · decide

theorem tiger_start : IsDist 2 tiger.start := by
  refine ⟨rfl, ?_, ?_⟩
  · intro i hi
    interval_cases i <;> norm_num [tiger]
  · norm_num [tiger, sumRange, List.range_succ]

/-- Non-vacuity of C44. -/
example : mkGraphPolicy tigerPolicy.actions tigerPolicy.observations tigerPolicy.transitions tigerPolicy.values (some [1 / 2, 1 / 2]) none =
    .ok tigerPolicy ∧ tigerPolicy.values.length ≤ tigerPolicy.actions.length ∧
    runPolicy tigerPolicy 0 [.int 1, .int 1, .int 0] = ([.str "listen", .str "open-left", .str "listen", .str "open-right"], none) := by
  refine ⟨by decide +kernel, by decide, ?_⟩
  simp [runPolicy, tigerPolicy, GraphPolicy.getAction, GraphPolicy.next, runnerStep, pyIndex, listGet, indexOf, bind, Except.bind,
    List.findIdx?_cons]

/-! ### C45 -/

theorem loadPolicy_ok (f : List Char → List ℚ) (p : Pomdp) (alpha pg : List (List Char)) (g : GraphPolicy)
    (h : p.loadPolicy f alpha pg = .ok g) :
    ∃ as ts vs, parsePolicyGraph pg = .ok (as, ts) ∧ parseValueFunction f alpha = .ok (as, vs) ∧
      mkGraphPolicy g.actions p.observations ts vs (some p.start) none = .ok g := by
  unfold Pomdp.loadPolicy at h
  simp only [bind, Except.bind] at h
  split at h
  · cases h
  · rename_i vf hvf
    split at h
    · cases h
    · rename_i pgr hpg
      split at h
      · cases h
      · rename_i heq
        have heq : vf.1 = pgr.1 := not_not.1 heq
        split at h
        · cases h
        · split at h
          · cases h
          · split at h
            · cases h
            · split at h
              · cases h
              · split at h
                · cases h
                · rename_i names hn
                  obtain ⟨_, k1, _⟩ := mkGraphPolicy_ok _ _ _ _ _ _ _ h
                  refine ⟨pgr.1, pgr.2, vf.2, hpg, ?_, ?_⟩
                  · rw [hvf, ← heq]
                  · rw [k1]; exact h

theorem vf_lengths (f : List Char → List ℚ) (alpha : List (List Char)) (as : List Int) (vs : List (List ℚ))
    (h : parseValueFunction f alpha = .ok (as, vs)) : as.length = vs.length := by
  unfold parseValueFunction at h
  rw [parseVf_eq] at h
  simp only [bind, Except.bind] at h
  split at h
  · cases h
  · rename_i r hr
    split at h
    · cases h
    · rename_i hb
      split at h
      · cases h
      · rename_i v hv
        have h1 := readPairs_lengths f _ _ (le_refl _) [] [] r rfl hr (by simpa using hb)
        cases h
        rw [h1, (vstack_eq _ _ hv).1]

theorem pg_lengths (pg : List (List Char)) (as : List Int) (ts : List (List (Option Int))) (h : parsePolicyGraph pg = .ok (as, ts)) :
    as.length = ts.length := by
  unfold parsePolicyGraph at h
  simp only [bind, Except.bind] at h
  split at h
  · cases h
  · cases h; simp

/-- A run of a policy whose transitions all lead to nodes. -/
theorem closed_run (g : GraphPolicy) (hl : g.transitions.length = g.actions.length)
    (hr : ∀ r ∈ g.transitions, r.length = g.observations.length)
    (ht : ∀ r ∈ g.transitions, ∀ t, some t ∈ r → 0 ≤ t ∧ t < g.actions.length) :
    (∀ (w : List Name) (c c' : Int), 0 ≤ c → c < g.actions.length → Reaches g c w c' → 0 ≤ c' ∧ c' < g.actions.length) ∧
    (∀ (obs : List Name), (∀ o ∈ obs, o ∈ g.observations) → ∀ c : Int, 0 ≤ c → c < g.actions.length →
      ((runPolicy g c obs).2 = none ∧ (runPolicy g c obs).1.length = obs.length + 1) ∨ (runPolicy g c obs).2 = some .impossible) := by
  have hnext : ∀ (c : Int) (o : Name), 0 ≤ c → c < g.actions.length → o ∈ g.observations →
      ∃ x, g.next c o = .ok x ∧ ∀ t, x = some t → 0 ≤ t ∧ t < g.actions.length := by
    intro c o h0 h1 ho
    obtain ⟨n, rfl⟩ : ∃ n : Nat, c = n := ⟨c.toNat, by omega⟩
    obtain ⟨j, hj1, hj2⟩ := indexOf_spec _ _ ho
    have hn : n < g.transitions.length := by omega
    have hjl := (List.getElem?_eq_some_iff.1 hj2).1
    have hrow : g.transitions[n] ∈ g.transitions := List.getElem_mem hn
    have hjr : j < g.transitions[n].length := by rw [hr _ hrow]; exact hjl
    refine ⟨g.transitions[n][j], ?_, ?_⟩
    · unfold GraphPolicy.next
      simp only [hj1, pyIndex_nat _ _ hn, bind, Except.bind, listGet_ok _ _ _ (List.getElem?_eq_getElem hn)]
      exact listGet_ok _ _ _ (List.getElem?_eq_getElem hjr)
    · intro t htt
      exact ht _ hrow t (by rw [← htt]; exact List.getElem_mem hjr)
  have hobs : ∀ (c : Int) (o : Name) (x : Option Int), g.next c o = .ok x → o ∈ g.observations := by
    intro c o x h
    unfold GraphPolicy.next at h
    cases hi : indexOf g.observations o with
    | error e => rw [hi] at h; cases h
    | ok i =>
      unfold indexOf at hi
      split at hi
      · cases hi
      · rename_i k hk
        rw [List.findIdx?_eq_some_iff_getElem] at hk
        obtain ⟨hlt, hk, _⟩ := hk
        have : g.observations[k] = o := by simpa using hk
        rw [← this]; exact List.getElem_mem hlt
  constructor
  · intro w
    induction w with
    | nil => intro c c' h0 h1 h; cases h; exact ⟨h0, h1⟩
    | cons o w ih =>
      intro c c' h0 h1 h
      cases h with
      | cons hn hrest =>
        obtain ⟨x, hx, hxt⟩ := hnext c o h0 h1 (hobs c o _ hn)
        rw [hn] at hx
        cases hx
        obtain ⟨k0, k1⟩ := hxt _ rfl
        exact ih _ _ k0 k1 hrest
  · intro obs
    induction obs with
    | nil =>
      intro _ c h0 h1
      obtain ⟨n, rfl⟩ : ∃ n : Nat, c = n := ⟨c.toNat, by omega⟩
      left
      rw [runPolicy, getAction_nat g n _ (List.getElem?_eq_getElem (by omega : n < g.actions.length))]
      exact ⟨rfl, rfl⟩
    | cons o obs ih =>
      intro ho c h0 h1
      obtain ⟨x, hx, hxt⟩ := hnext c o h0 h1 (ho o (by simp))
      obtain ⟨n, rfl⟩ : ∃ n : Nat, c = n := ⟨c.toNat, by omega⟩
      rw [runPolicy, getAction_nat g n _ (List.getElem?_eq_getElem (by omega : n < g.actions.length))]
      cases x with
      | none => right; simp only [runnerStep, hx]
      | some t =>
        obtain ⟨k0, k1⟩ := hxt t rfl
        simp only [runnerStep, hx]
        rcases ih (fun o' ho' => ho o' (by simp [ho'])) t k0 k1 with ⟨e1, e2⟩ | e
        · left; exact ⟨e1, by simp [e2]⟩
        · right; exact e

/-- Missing: files with a transition to the node after the last one, or a negative one.  For the others, only nodes of the
policy are visited, and a run is only stopped by an unexpected observation. -/
theorem C45_partial (f : List Char → List ℚ) (p : Pomdp) (alpha pg : List (List Char)) (g : GraphPolicy)
    (h : p.loadPolicy f alpha pg = .ok g)
    (ht : ∀ r ∈ g.transitions, ∀ t, some t ∈ r → 0 ≤ t ∧ t < g.actions.length) :
    (∀ w c, Reaches g g.init w c → 0 ≤ c ∧ c < g.actions.length) ∧
    ∀ obs, (∀ o ∈ obs, o ∈ p.observations) →
      ((runPolicy g g.init obs).2 = none ∧ (runPolicy g g.init obs).1.length = obs.length + 1) ∨
        (runPolicy g g.init obs).2 = some .impossible := by
  obtain ⟨as, ts, vs, h1, h2, h3⟩ := loadPolicy_ok f p alpha pg g h
  obtain ⟨⟨c1, _, c3⟩, k1, k2, k3, k4, k5⟩ := mkGraphPolicy_ok _ _ _ _ _ _ _ h3
  have hl1 := vf_lengths f alpha as vs h2
  have hl2 := pg_lengths pg as ts h1
  have hinit : 0 ≤ g.init ∧ g.init < g.actions.length := by
    unfold initNode at k5
    cases hn : nodeFromBelief vs p.start with
    | error e => simp only [hn] at k5; cases k5
    | ok n =>
      simp only [hn] at k5
      have k5 : (n : Int) = g.init := by injection k5
      have : n < vs.length := by
        unfold nodeFromBelief at hn
        split at hn
        · by_cases hvs : vs = []
          · subst hvs; cases hn
          · obtain ⟨r, v, e1, e2, _⟩ := argmax_spec (vs.map fun v => dot v p.start) (by simpa using hvs)
            rw [hn] at e1
            cases e1
            simpa using (List.getElem?_eq_some_iff.1 e2).1
        · cases hn
      omega
  obtain ⟨r1, r2⟩ := closed_run g (by rw [k3]; exact c1) (by rw [k3, k2]; exact c3) ht
  exact ⟨fun w c hc => r1 w _ c hinit.1 hinit.2 hc, fun obs ho => r2 obs (by rw [k2]; exact ho) _ hinit.1 hinit.2⟩

/-- A file accepted by `load_policy_from` whose first transition leads to a node that does not exist: `IndexError`. -/
theorem C45_false_bound : ∃ g, tiger.loadPolicy (fun _ => [1, 1]) ["0\n".toList, "1 1\n".toList] ["0 0  1 -\n".toList] = .ok g ∧
    Reaches g g.init [.int 0] 1 ∧ g.actions.length = 1 ∧ runPolicy g g.init [.int 0] = ([.str "listen"], some .indexError) := by
  have h : tiger.loadPolicy (fun _ => [1, 1]) ["0\n".toList, "1 1\n".toList] ["0 0  1 -\n".toList] =
      .ok ⟨[.str "listen"], [.int 0, .int 1], [[some 1, none]], [[1, 1]], 0⟩ := by decide +kernel
  refine ⟨_, h, .cons (by decide +kernel) (.nil _), rfl, ?_⟩
  simp [runPolicy, GraphPolicy.getAction, GraphPolicy.next, runnerStep, pyIndex, listGet, indexOf, bind, Except.bind, List.findIdx?_cons]

/-- Non-vacuity of C45. -/
example : ∃ g, tiger.loadPolicy (fun l => if l = "0 0\n".toList then [0, 0] else [10, -100])
    ["0\n".toList, "0 0\n".toList, "\n".toList, "2\n".toList, "10 -100\n".toList] ["0 0  1 0\n".toList, "1 2  0 0\n".toList] = .ok g ∧
    (∀ r ∈ g.transitions, ∀ t, some t ∈ r → 0 ≤ t ∧ t < g.actions.length) := by
  refine ⟨⟨[.str "listen", .str "open-right"], [.int 0, .int 1], [[some 1, some 0], [some 0, some 0]], [[0, 0], [10, -100]], 0⟩,
    by decide +kernel, ?_⟩
  intro r hr t ht
  simp at hr
  rcases hr with rfl | rfl <;> simp at ht <;> rcases ht with rfl | rfl <;> decide

/-! ### C46 -/

/-- A step gives the posterior and its best node, or raises `Impossible` and changes nothing. -/
theorem C46_step (g : GraphPolicy) (p : Pomdp) (nS nA nO : Nat) (hp : Stochastic p nS nA nO) (hf : Fits g p nS) (hd : NamesDistinct p)
    (r : BRunner) (hr : BRunner.Valid g nS r) (o : Nat) (on : Name) (ho : p.observations[o]? = some on) :
    ((∃ b', PolicyPosterior g p nS r.belief o b') → ∃ r1, bStep g p on r = (.ok (), r1) ∧ BRunner.Valid g nS r1 ∧
      PolicyPosterior g p nS r.belief o r1.belief) ∧
    ((¬ ∃ b', PolicyPosterior g p nS r.belief o b') → bStep g p on r = (.error .impossible, r)) := by
  obtain ⟨act, a, o', h1, h2, h3, h4, h5, hc⟩ := bStep_cases g p nS nA nO hp hf r hr on (List.mem_of_getElem? ho)
  have e := nodup_index _ hd.2 _ _ _ ho h3
  subst e
  rcases hc with ⟨k1, k2⟩ | ⟨r1, k1, k2, k3, k4⟩
  · refine ⟨?_, fun _ => k2⟩
    rintro ⟨b', act', a', q1, q2, q3⟩
    have e1 := policyAction_unique g _ _ _ h1 q1
    subst e1
    have e2 := nodup_index _ hd.1 _ _ _ h2 q2
    subst e2
    exact absurd k1 q3.1
  · exact ⟨fun _ => ⟨r1, k4, k2, act, a, h1, h2, k1⟩, fun h => absurd ⟨r1.belief, act, a, h1, h2, k1⟩ h⟩

/-- After any observations, some of them impossible, the belief is the iterated update of the start by the actions of the
policy and the observations that were accepted; the current node is the best one. -/
theorem C46_run (g : GraphPolicy) (p : Pomdp) (nS nA nO : Nat) (hp : Stochastic p nS nA nO) (hf : Fits g p nS)
    (obs : List Name) (hobs : ∀ o ∈ obs, o ∈ p.observations) : ∀ r, BRunner.Valid g nS r →
    ∃ hist, Follows g p nS r.belief hist (stepAll g p obs r).1 (stepAll g p obs r).2.belief ∧
      updates p r.belief hist = .ok (stepAll g p obs r).2.belief ∧ BRunner.Valid g nS (stepAll g p obs r).2 := by
  induction obs with
  | nil => intro r hr; exact ⟨[], .nil _, rfl, hr⟩
  | cons on obs ih =>
    intro r hr
    obtain ⟨act, a, o, h1, h2, h3, h4, h5, hc⟩ := bStep_cases g p nS nA nO hp hf r hr on (hobs on (by simp))
    rcases hc with ⟨_, k2⟩ | ⟨r1, k1, k2, k3, k4⟩
    · simp only [stepAll, k2]
      exact ih (fun x hx => hobs x (by simp [hx])) r hr
    · obtain ⟨hist, q1, q2, q3⟩ := ih (fun x hx => hobs x (by simp [hx])) r1 k2
      refine ⟨(a, o) :: hist, ?_, ?_, ?_⟩
      · simp only [stepAll, k4]
        exact .cons h1 h2 h3 k1 q1
      · simp only [stepAll, k4, updates, k3, bind, Except.bind]
        exact q2
      · simp only [stepAll, k4]
        exact q3

/-- A runner just constructed is valid. -/
theorem C46_start (g : GraphPolicy) (p : Pomdp) (nS : Nat) (hf : Fits g p nS) (hs : IsDist nS p.start) (r0 : BRunner) :
    ∃ r, bReset g p.start r0 = (.ok (), r) ∧ r.belief = p.start ∧ BRunner.Valid g nS r := by
  obtain ⟨n, h1, m, h2, h3⟩ := bReset_ok g p nS hf p.start hs.1 r0
  exact ⟨_, h1, rfl, hs, m, h2, h3⟩

/-- Non-vacuity of C46 to C49. -/
example : Stochastic tiger 2 3 2 ∧ Fits tigerPolicy tiger 2 ∧ NamesDistinct tiger ∧ IsDist 2 tiger.start ∧
    BRunner.Valid tigerPolicy 2 ⟨[1 / 2, 1 / 2], 0⟩ ∧
    (stepAll tigerPolicy tiger [.int 0, .int 0] ⟨[1 / 2, 1 / 2], 0⟩).2 = ⟨[289 / 298, 9 / 298], 1⟩ := by
  refine ⟨tiger_stochastic, tigerPolicy_fits, ⟨by decide, by decide⟩, tiger_start, ?_, by decide +kernel⟩
  obtain ⟨r, h1, h2, h3⟩ := C46_start tigerPolicy tiger 2 tigerPolicy_fits tiger_start ⟨[], 0⟩
  have : bReset tigerPolicy tiger.start ⟨[], 0⟩ = (.ok (), ⟨[1 / 2, 1 / 2], 0⟩) := by decide +kernel
  rw [this] at h1
  cases h1
  exact h3

/-! ### C47 -/

/-- `trajectory_tree` succeeds, lists exactly the possible futures, and leaves the runner as it was. -/
theorem C47_tree (g : GraphPolicy) (p : Pomdp) (nS nA nO : Nat) (hp : Stochastic p nS nA nO) (hf : Fits g p nS)
    (hd : NamesDistinct p) (h : Nat) (r : BRunner) (hr : BRunner.Valid g nS r) :
    ∃ t, trajectoryTree g p h r = (.ok t, r) ∧ TreeOf g p nS h r.belief t :=
  trajectoryTree_spec g p nS nA nO hp hf hd h r hr

/-- An action of the policy that the model does not have is not taken for an impossible observation: `trajectory_tree` raises `ValueError`, with the
runner as it was. -/
theorem C47_unknown_action (g : GraphPolicy) (p : Pomdp) (h : Nat) (r : BRunner) (a : Name) (ha : g.getAction r.current = .ok a) (hm : a ∉ p.actions)
    (ho : p.observations ≠ []) : trajectoryTree g p (h + 1) r = (.error .valueError, r) := by
  obtain ⟨o, os, hos⟩ := List.exists_cons_of_ne_nil ho
  have hi := indexOf_unknown _ _ hm
  have hs : bStep g p o r = (.error .valueError, r) := by
    have : bPosterior g p r o = .error .valueError := by
      unfold bPosterior
      rw [ha]
      show (indexOf p.actions a >>= _) = _
      rw [hi]
      rfl
    unfold bStep
    rw [this]
  have ht : recTree g p (trajectoryTree g p h) o r = (.error .valueError, r) := by
    unfold recTree
    rw [hs]
    rfl
  unfold trajectoryTree
  rw [hos]
  unfold treeLoop
  rw [ht]
  rfl

/-- Such a policy and model: the tiger with another name for "listen". -/
example : tigerPolicy.getAction 0 = .ok (.str "listen") ∧
    (.str "listen") ∉ { tiger with aNames := .list [.str "wait", .str "open-left", .str "open-right"] }.actions ∧ tiger.observations ≠ [] :=
  ⟨by decide +kernel, by decide +kernel, by decide +kernel⟩

/-! ### C48 -/

theorem startIndicator_unique (nS : Nat) (start : List ℚ) (hl : start.length = nS) (s : Nat) (hs : s < nS)
    (h : ∀ i < nS, start.getD i 0 ≠ 0 ↔ i = s) :
    (startIndicator start).length = nS ∧ ∀ i < nS, (startIndicator start).getD i 0 = if i = s then 1 else 0 := by
  refine ⟨by simp [startIndicator, hl], ?_⟩
  intro i hi
  have hil : i < start.length := by omega
  have hx := h i hi
  unfold startIndicator
  rw [List.getD_eq_getElem?_getD, List.getElem?_eq_getElem hil] at hx
  rw [List.getD_eq_getElem?_getD, List.getElem?_map, List.getElem?_eq_getElem hil]
  simp only [Option.map_some, Option.getD_some] at hx ⊢
  by_cases hc : i = s
  · rw [if_pos hc, if_neg (hx.2 hc)]
  · rw [if_neg hc, if_pos (by by_contra h'; exact hc (hx.1 h'))]

/-- Missing: several start states.  With only one, there is one tree, from the belief certain of that state. -/
theorem C48_partial (g : GraphPolicy) (p : Pomdp) (nS nA nO : Nat) (hp : Stochastic p nS nA nO) (hf : Fits g p nS) (hd : NamesDistinct p)
    (s : Nat) (hs : s < nS) (hu : ∀ i < nS, p.start.getD i 0 ≠ 0 ↔ i = s) (horizon : Nat) (r : BRunner) :
    ∃ t r', treesFromStarts g p horizon r = (.ok [t], r') ∧ TreeOf g p nS horizon r'.belief t ∧ BRunner.Valid g nS r' ∧
      ∀ i < nS, r'.belief.getD i 0 = if i = s then 1 else 0 := by
  obtain ⟨_, _, _, hl, _⟩ := hp.1
  obtain ⟨e1, e2⟩ := startIndicator_unique nS p.start hl s hs hu
  have hdist : IsDist nS (startIndicator p.start) := by
    refine ⟨e1, ?_, ?_⟩
    · intro i hi; rw [e2 i hi]; split <;> norm_num
    · rw [sumRange_congr _ _ _ e2]
      unfold sumRange
      rw [List.sum_map_ite_eq]
      simp [List.count_eq_one_of_mem List.nodup_range (List.mem_range.2 hs)]
  obtain ⟨n, h1, m, h2, h3⟩ := bReset_ok g p nS hf (startIndicator p.start) e1 r
  have hv : BRunner.Valid g nS ⟨startIndicator p.start, n⟩ := ⟨hdist, m, h2, h3⟩
  obtain ⟨t, k1, k2⟩ := trajectoryTree_spec g p nS nA nO hp hf hd horizon _ hv
  refine ⟨t, ⟨startIndicator p.start, n⟩, ?_, k2, hv, e2⟩
  unfold treesFromStarts
  rw [h1]
  simp only [k1]

/-- With two start states there is still one tree, and its belief is not even a distribution. -/
theorem C48_false : Stochastic tiger 2 3 2 ∧ Fits tigerPolicy tiger 2 ∧ (∀ i < 2, 0 < tiger.start.getD i 0) ∧
    ∃ t r, treesFromStarts tigerPolicy tiger 0 ⟨[], 0⟩ = (.ok [t], r) ∧ TTree.beliefOf t = [1, 1] ∧ ¬ IsDist 2 (TTree.beliefOf t) := by
  refine ⟨tiger_stochastic, tigerPolicy_fits, ?_, .node [1, 1] (.str "listen") 0 [] [], ⟨[1, 1], 0⟩, ?_, rfl, ?_⟩
  · intro i hi
    interval_cases i <;> norm_num [tiger]
  · have h1 : bReset tigerPolicy (startIndicator tiger.start) ⟨[], 0⟩ = (.ok (), ⟨[1, 1], 0⟩) := by decide +kernel
    unfold treesFromStarts
    rw [h1]
    rfl
  · rintro ⟨_, _, h⟩
    norm_num [TTree.beliefOf, sumRange, List.range_succ] at h

/-! ### C49 -/

/-- `visit` ends, with a bounded and closed policy graph. -/
theorem C49_visit (g : GraphPolicy) (p : Pomdp) (nS nA nO : Nat) (hp : Stochastic p nS nA nO) (hf : Fits g p nS) (hd : NamesDistinct p)
    (hs : IsDist nS p.start) (maxStates : Nat) :
    ∃ q y, (∀ fuel, maxStates + nO + 1 ≤ fuel → visit g p maxStates fuel = .ok (some (q, y))) ∧
      -- the policy
      q.observations = p.observations ∧ q.init = 0 ∧ q.values[0]? = some p.start ∧ q.transitions.length = q.values.length ∧
      (∀ row ∈ q.transitions, row.length = nO) ∧
      -- its size
      q.values.length ≤ max 1 (maxStates + nO) ∧
      -- its nodes
      (∀ b ∈ q.values, IsDist nS b) ∧
      (∀ (i j : Nat) (b c : List ℚ), i ≠ j → q.values[i]? = some b → q.values[j]? = some c → (1 / 100) ^ 2 ≤ distSq nS b c) ∧
      (∀ (i : Nat) (b : List ℚ), q.values[i]? = some b → ∃ act, q.actions[i]? = some act ∧ PolicyAction g b act) ∧
      -- its transitions
      (∀ (i io : Nat) (b : List ℚ) (j : Int), q.values[i]? = some b → entry q.transitions i io = some j →
        ∃ (n : Nat) (c b' : List ℚ), j = n ∧ q.values[n]? = some c ∧ PolicyPosterior g p nS b io b' ∧ distSq nS c b' < (1 / 100) ^ 2) ∧
      -- the nodes that have been explored: all of them unless the limit was reached
      ∃ k ≤ q.values.length, (k = q.values.length ∨ maxStates < q.values.length) ∧
        (∀ (i io : Nat) (b : List ℚ), i < k → io < nO → q.values[i]? = some b →
          (entry q.transitions i io = none ↔ ¬ ∃ b', PolicyPosterior g p nS b io b')) ∧
        ∀ i io : Nat, k ≤ i → entry q.transitions i io = none := by
  have h0 : VInv g p nS nO ⟨[], [], [], []⟩ 0 (fun i jo => i < 0 ∧ jo < nO) := by
    constructor <;> simp [entry]
  obtain ⟨j, x, h1, h2, _, _, ⟨suf, h5, h6⟩, _⟩ := auxIndex_spec g p nS nA nO hp hf _ 0 _ h0 p.start hs
  have hx : x.nodes = [p.start] := by
    have ha := auxAdd_spec g p nS nA nO hp hf _ 0 _ h0 p.start hs (by simp)
    obtain ⟨y, e1, _, e3, _⟩ := ha
    have : auxIndex g p ⟨[], [], [], []⟩ p.start = auxAdd g p ⟨[], [], [], []⟩ p.start := rfl
    rw [this, e1] at h1
    cases h1
    exact e3
  obtain ⟨y, k, l1, l2, l3, l4, suf', l5⟩ := visitLoop_spec g p nS nA nO hp hf hd maxStates (maxStates + nO + 1) x 0 h2
    (by rw [hx]; simp) (by omega)
  have hne : y.nodes ≠ [] := by rw [l5, hx]; simp
  have hlen : 0 < y.nodes.length := List.length_pos_iff.2 hne
  have hO : p.observations.length = nO := hp.1.2.2.1
  have hvs := vstack_ok y.nodes hne nS (fun b hb => (l2.dist b hb).1)
  have hmk : mkGraphPolicy y.actions p.observations y.trans y.nodes none (some 0) =
      .ok ⟨y.actions, p.observations, y.trans, y.nodes, 0⟩ := by
    unfold mkGraphPolicy
    rw [if_pos ⟨by rw [l2.ltrans, l2.lacts], by
      intro h
      have := l2.ltrans
      rw [h] at this
      simp at this
      omega, fun r hr => by rw [l2.rows r hr, hO]⟩]
    simp only [initNode]
    rw [if_pos (by rw [l2.lacts]; omega)]
    rfl
  have hgetD : ∀ (i : Nat) (b : List ℚ), y.nodes[i]? = some b → y.nodes.getD i [] = b ∧ i < y.nodes.length := by
    intro i b h
    exact ⟨by rw [List.getD_eq_getElem?_getD, h]; rfl, (List.getElem?_eq_some_iff.1 h).1⟩
  have hget : ∀ i, i < y.nodes.length → y.nodes[i]? = some (y.nodes.getD i []) := by
    intro i h
    rw [List.getD_eq_getElem?_getD, List.getElem?_eq_getElem h]; rfl
  have hlenD : ∀ i, i < y.nodes.length → (y.nodes.getD i []).length = nS := fun i hi => (l2.dist _ (getD_mem y.nodes i [] hi)).1
  have htol : tolSq = (1 / 100) ^ 2 := by norm_num [tolSq]
  have hpost : ∀ b io b', PolicyPosterior g p nS b io b' → b'.length = nS := by
    rintro b io b' ⟨_, _, _, _, h⟩; exact h.2.1
  refine ⟨⟨y.actions, p.observations, y.trans, y.nodes, 0⟩, y, ?_, rfl, rfl, ?_, l2.ltrans, l2.rows, l3, l2.dist, ?_, ?_, ?_, k, l2.le, l4, ?_, ?_⟩
  · intro fuel hfuel
    unfold visit
    simp only [h1, bind, Except.bind, visitLoop_mono g p maxStates _ _ _ l1 fuel hfuel, hvs, hmk, pure, Except.pure]
  · rw [l5, hx]; rfl
  · intro i j b c hij hi hj
    obtain ⟨rfl, hi'⟩ := hgetD i b hi
    obtain ⟨rfl, hj'⟩ := hgetD j c hj
    rw [← sqDist_eq nS _ _ (hlenD i hi') (hlenD j hj'), ← htol]
    rcases Nat.lt_or_gt_of_ne hij with h | h
    · exact l2.apart i j h hj'
    · rw [sqDist_symm]; exact l2.apart j i h hi'
  · intro i b hi
    obtain ⟨rfl, hi'⟩ := hgetD i b hi
    exact l2.acts i hi'
  · intro i io b j hi hj
    obtain ⟨rfl, hi'⟩ := hgetD i b hi
    obtain ⟨n, e1, e2, b', e3, e4⟩ := l2.closed i hi' io j hj
    refine ⟨n, _, b', e1, hget n e2, e3, ?_⟩
    rw [← sqDist_eq nS _ _ (hlenD n e2) (hpost _ _ _ e3), ← htol]
    exact e4
  · intro i io b hik hio hi
    obtain ⟨rfl, hi'⟩ := hgetD i b hi
    exact l2.complete i io ⟨hik, hio⟩
  · intro i io hik
    exact l2.todo i io (fun h => by omega)

/-! ### C68 -/

theorem digitsVal_fold (s : List Char) (h : ∀ c ∈ s, IsDigit c) : ∀ acc, digitsVal s acc =
    some (s.foldl (fun acc c => acc * 10 + (c.toNat - 48)) acc) := by
  induction s with
  | nil => intro acc; rfl
  | cons c s ih =>
    intro acc
    simp only [digitsVal, digitVal_some c (h c (by simp)), List.foldl_cons]
    exact ih (fun x hx => h x (by simp [hx])) _

theorem digits_parse (s : List Char) (n : Nat) (h : Digits s n) : (∀ c ∈ s, IsDigit c) ∧ s ≠ [] ∧ parseNat s = some n ∧ pyInt s = .ok (n : Int) := by
  obtain ⟨h1, h2, h3⟩ := h
  have hp : parseNat s = some n := by
    unfold parseNat
    rw [if_neg h1, digitsVal_fold s h2, h3]
  refine ⟨h2, h1, hp, ?_⟩
  have := pyInt_digits [] s [] (by simp) (by simp) h2 h1 n hp
  simpa using this

theorem digits_map (s : List Char) (n : Nat) (h : Digits s n) : s.map dashToColon = s := by
  conv_rhs => rw [← List.map_id s]
  apply List.map_congr_left
  intro c hc
  unfold dashToColon
  rw [if_neg (isDigit_ne c (h.2.1 c hc)).1]
  rfl

theorem digits_noColon (s : List Char) (n : Nat) (h : Digits s n) : ∀ c ∈ s, c ≠ ':' := fun c hc => (isDigit_ne c (h.2.1 c hc)).2.2.1

/-- Stripping a text that starts and ends with digits. -/
theorem strip_fields (w1 w2 a m b : List Char) (na nb : Nat) (h1 : Blank w1) (h2 : Blank w2) (ha : Digits a na) (hb : Digits b nb) :
    strip (w1 ++ (a ++ m ++ b) ++ w2) = a ++ m ++ b := by
  apply strip_pad w1 _ w2 h1 h2
  · intro c hc
    rw [List.append_assoc, List.head?_append_of_ne_nil _ ha.1] at hc
    exact isDigit_not_space c (ha.2.1 c (List.mem_of_mem_head? hc))
  · intro c hc
    rw [getLast?_append_ne _ _ hb.1] at hc
    exact isDigit_not_space c (hb.2.1 c (List.mem_of_mem_getLast? hc))
  · simp [ha.1]

theorem pyInt_zero : pyInt ['0'] = .ok 0 := by decide

/-- `mm:ss`. -/
theorem C68_minutes (w1 w2 mm ss : List Char) (m s : Nat) (h1 : Blank w1) (h2 : Blank w2) (hm : Digits mm m) (hs : Digits ss s) :
    elapsedSeconds (w1 ++ (mm ++ [':'] ++ ss) ++ w2) = .ok (m * 60 + s) := by
  unfold elapsedSeconds
  rw [strip_fields w1 w2 mm [':'] ss m s h1 h2 hm hs]
  have e : (mm ++ [':'] ++ ss).map dashToColon = mm ++ ':' :: ss := by
    rw [List.map_append, List.map_append, digits_map mm m hm, digits_map ss s hs]
    simp [dashToColon]
  rw [e, splitOn_append ':' mm _ (digits_noColon mm m hm), splitOn_word ':' ss (digits_noColon ss s hs)]
  obtain ⟨_, _, _, k1⟩ := digits_parse mm m hm
  obtain ⟨_, _, _, k2⟩ := digits_parse ss s hs
  simp [k1, k2, pyInt_zero, List.replicate, bind, Except.bind, pure, Except.pure, totalSeconds]
  ring

/-- `hh:mm:ss`. -/
theorem C68_hours (w1 w2 hh mm ss : List Char) (h m s : Nat) (h1 : Blank w1) (h2 : Blank w2) (hhh : Digits hh h) (hm : Digits mm m)
    (hs : Digits ss s) :
    elapsedSeconds (w1 ++ (hh ++ ([':'] ++ mm ++ [':']) ++ ss) ++ w2) = .ok (h * 3600 + m * 60 + s) := by
  unfold elapsedSeconds
  rw [strip_fields w1 w2 hh _ ss h s h1 h2 hhh hs]
  have e : (hh ++ ([':'] ++ mm ++ [':']) ++ ss).map dashToColon = hh ++ ':' :: (mm ++ ':' :: ss) := by
    simp only [List.map_append, digits_map mm m hm, digits_map ss s hs, digits_map hh h hhh]
    simp [dashToColon]
  rw [e, splitOn_append ':' hh _ (digits_noColon hh h hhh), splitOn_append ':' mm _ (digits_noColon mm m hm),
    splitOn_word ':' ss (digits_noColon ss s hs)]
  obtain ⟨_, _, _, k0⟩ := digits_parse hh h hhh
  obtain ⟨_, _, _, k1⟩ := digits_parse mm m hm
  obtain ⟨_, _, _, k2⟩ := digits_parse ss s hs
  simp [k0, k1, k2, pyInt_zero, List.replicate, bind, Except.bind, pure, Except.pure, totalSeconds]
  ring

/-- `dd-hh:mm:ss`. -/
theorem C68_days (w1 w2 dd hh mm ss : List Char) (d h m s : Nat) (h1 : Blank w1) (h2 : Blank w2) (hdd : Digits dd d) (hhh : Digits hh h)
    (hm : Digits mm m) (hs : Digits ss s) :
    elapsedSeconds (w1 ++ (dd ++ (['-'] ++ hh ++ [':'] ++ mm ++ [':']) ++ ss) ++ w2) = .ok (d * 86400 + h * 3600 + m * 60 + s) := by
  unfold elapsedSeconds
  rw [strip_fields w1 w2 dd _ ss d s h1 h2 hdd hs]
  have e : (dd ++ (['-'] ++ hh ++ [':'] ++ mm ++ [':']) ++ ss).map dashToColon = dd ++ ':' :: (hh ++ ':' :: (mm ++ ':' :: ss)) := by
    simp only [List.map_append, digits_map mm m hm, digits_map ss s hs, digits_map hh h hhh, digits_map dd d hdd]
    simp [dashToColon]
  rw [e, splitOn_append ':' dd _ (digits_noColon dd d hdd), splitOn_append ':' hh _ (digits_noColon hh h hhh),
    splitOn_append ':' mm _ (digits_noColon mm m hm), splitOn_word ':' ss (digits_noColon ss s hs)]
  obtain ⟨_, _, _, k00⟩ := digits_parse dd d hdd
  obtain ⟨_, _, _, k0⟩ := digits_parse hh h hhh
  obtain ⟨_, _, _, k1⟩ := digits_parse mm m hm
  obtain ⟨_, _, _, k2⟩ := digits_parse ss s hs
  simp [k00, k0, k1, k2, pyInt_zero, List.replicate, bind, Except.bind, pure, Except.pure, totalSeconds]
  ring

/-- Non-vacuity of C68. -/
example : Digits "12".toList 12 ∧ Digits "03".toList 3 ∧ Blank "  ".toList ∧
    elapsedSeconds "  12-03:03:12\n".toList = .ok 1047792 := by
  refine ⟨⟨by decide, by decide, by decide⟩, ⟨by decide, by decide, by decide⟩, by unfold Blank; decide, by decide⟩

end Verif
