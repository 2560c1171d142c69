import Verif.Props.GraphPolicy

/-! Property C45: exactly when a policy that has been loaded leads to `IndexError`. -/

set_option linter.unusedSectionVars false
set_option linter.unusedSimpArgs false

namespace Verif
open Verif.Spec

/-- `c` designates no node. -/
def Outside (n : Nat) (c : Int) : Prop := (n : Int) ≤ c ∨ c < -(n : Int)

theorem outside_iff (n : Nat) (c : Int) : Outside n c ↔ ∀ k, ¬ NodeAt n c k := by
  constructor
  · rintro h k ⟨h1, h2⟩
    unfold Outside at h
    omega
  · intro h
    by_contra hc
    unfold Outside at hc
    by_cases h0 : 0 ≤ c
    · exact h c.toNat ⟨by omega, .inl (by omega)⟩
    · exact h (c + n).toNat ⟨by omega, .inr (by omega)⟩

/-- A run in a policy with a table of the right size, from any integer: `IndexError` iff it gets to an integer that designates no node; otherwise it ends
or meets an unexpected observation. -/
theorem run_index (g : GraphPolicy) (hl : g.transitions.length = g.actions.length) (hr : ∀ r ∈ g.transitions, r.length = g.observations.length) :
    ∀ (obs : List Name) (c : Int), (∀ o ∈ obs, o ∈ g.observations) →
      ((runPolicy g c obs).2 = some .indexError ↔ ∃ w c', w <+: obs ∧ Reaches g c w c' ∧ Outside g.actions.length c') ∧
      ((runPolicy g c obs).2 = none ∨ (runPolicy g c obs).2 = some .impossible ∨ (runPolicy g c obs).2 = some .indexError) := by
  intro obs
  induction obs with
  | nil =>
      intro c _
      by_cases hc : Outside g.actions.length c
      · have : g.getAction c = .error .indexError := by
          unfold GraphPolicy.getAction
          rw [pyIndex_outside _ _ ((outside_iff _ _).1 hc)]
          rfl
        rw [runPolicy, this]
        exact ⟨⟨fun _ => ⟨[], c, List.nil_prefix, .nil c, hc⟩, fun _ => rfl⟩, .inr (.inr rfl)⟩
      · obtain ⟨k, hk⟩ : ∃ k, NodeAt g.actions.length c k := by
          by_contra h
          push Not at h
          exact hc ((outside_iff _ _).2 h)
        have : g.getAction c = .ok (g.actions[k]'hk.1) := by
          unfold GraphPolicy.getAction
          rw [pyIndex_at _ _ _ hk]
          exact listGet_ok _ _ _ (List.getElem?_eq_getElem hk.1)
        rw [runPolicy, this]
        refine ⟨⟨fun h => by simp at h, ?_⟩, .inl rfl⟩
        rintro ⟨w, c', hw, hreach, ho⟩
        have : w = [] := List.prefix_nil.1 hw
        subst this
        cases hreach
        exact absurd ho hc
  | cons o obs ih =>
      intro c ho
      by_cases hc : Outside g.actions.length c
      · have : g.getAction c = .error .indexError := by
          unfold GraphPolicy.getAction
          rw [pyIndex_outside _ _ ((outside_iff _ _).1 hc)]
          rfl
        rw [runPolicy, this]
        exact ⟨⟨fun _ => ⟨[], c, List.nil_prefix, .nil c, hc⟩, fun _ => rfl⟩, .inr (.inr rfl)⟩
      · obtain ⟨k, hk⟩ : ∃ k, NodeAt g.actions.length c k := by
          by_contra h
          push Not at h
          exact hc ((outside_iff _ _).2 h)
        have hga : g.getAction c = .ok (g.actions[k]'hk.1) := by
          unfold GraphPolicy.getAction
          rw [pyIndex_at _ _ _ hk]
          exact listGet_ok _ _ _ (List.getElem?_eq_getElem hk.1)
        obtain ⟨j, hj1, hj2⟩ := indexOf_spec _ _ (ho o (by simp))
        have hkt : k < g.transitions.length := by rw [hl]; exact hk.1
        have hrow : g.transitions[k] ∈ g.transitions := List.getElem_mem hkt
        have hjr : j < g.transitions[k].length := by rw [hr _ hrow]; exact (List.getElem?_eq_some_iff.1 hj2).1
        have hnext : g.next c o = .ok g.transitions[k][j] := by
          unfold GraphPolicy.next
          have hk' : NodeAt g.transitions.length c k := by rw [hl]; exact hk
          simp only [hj1, pyIndex_at _ _ _ hk', bind, Except.bind, listGet_ok _ _ _ (List.getElem?_eq_getElem hkt)]
          exact listGet_ok _ _ _ (List.getElem?_eq_getElem hjr)
        generalize g.transitions[k][j] = x at hnext
        rw [runPolicy, hga]
        cases x with
        | none =>
            simp only [runnerStep, hnext]
            refine ⟨⟨fun h => by simp at h, ?_⟩, by simp⟩
            rintro ⟨w, c', hw, hreach, hout⟩
            cases hreach with
            | nil => exact absurd hout hc
            | cons hn _ =>
                obtain ⟨t, ht⟩ := hw
                injection ht with e1 _
                subst e1
                rw [hnext] at hn
                cases hn
        | some t =>
            simp only [runnerStep, hnext]
            obtain ⟨i1, i2⟩ := ih t (fun o' ho' => ho o' (by simp [ho']))
            refine ⟨i1.trans ⟨?_, ?_⟩, i2⟩
            · rintro ⟨w, c', hw, hreach, hout⟩
              exact ⟨o :: w, c', List.cons_prefix_cons.2 ⟨rfl, hw⟩, .cons hnext hreach, hout⟩
            · rintro ⟨w, c', hw, hreach, hout⟩
              cases hreach with
              | nil => exact absurd hout hc
              | cons hn hrest =>
                  obtain ⟨e1, hw'⟩ := List.cons_prefix_cons.1 hw
                  subst e1
                  rw [hnext] at hn
                  cases hn
                  exact ⟨_, c', hw', hrest, hout⟩

theorem foldl_max_ge : ∀ (xs : List Int) (x : Int), x ≤ xs.foldl max x ∧ ∀ y ∈ xs, y ≤ xs.foldl max x := by
  intro xs
  induction xs with
  | nil => intro x; exact ⟨le_refl _, by simp⟩
  | cons a xs ih =>
      intro x
      obtain ⟨i1, i2⟩ := ih (max x a)
      refine ⟨le_trans (le_max_left x a) i1, ?_⟩
      intro y hy
      rcases List.mem_cons.1 hy with rfl | hy
      · exact le_trans (le_max_right x y) i1
      · exact i2 y hy

theorem pyMax_ge (l : List Int) (m : Int) (h : pyMax l = .ok m) : ∀ y ∈ l, y ≤ m := by
  cases l with
  | nil => cases h
  | cons x xs =>
      simp only [pyMax, Except.ok.injEq] at h
      subst h
      intro y hy
      obtain ⟨i1, i2⟩ := foldl_max_ge xs x
      rcases List.mem_cons.1 hy with rfl | hy
      · exact i1
      · exact i2 y hy

/-- What `load_policy_from` checks: no transition leads beyond the number of nodes. -/
theorem loaded_le (f : List Char → List ℚ) (p : Pomdp) (alpha pg : List (List Char)) (g : GraphPolicy) (h : p.loadPolicy f alpha pg = .ok g) :
    ∀ r ∈ g.transitions, ∀ t, some t ∈ r → t ≤ g.actions.length := by
  unfold Pomdp.loadPolicy at h
  simp only [bind, Except.bind] at h
  split at h
  · cases h
  · split at h
    · cases h
    · rename_i pgr hpg
      split at h
      · cases h
      · split at h
        · cases h
        · split at h
          · cases h
          · split at h
            · cases h
            · rename_i t ht
              split at h
              · cases h
              · rename_i hle
                split at h
                · cases h
                · obtain ⟨⟨k0, _, _⟩, k1, _, k3, _⟩ := mkGraphPolicy_ok _ _ _ _ _ _ _ h
                  intro r hr x hx
                  rw [k3] at hr
                  have hle' : t ≤ pgr.2.length := not_not.1 hle
                  have := pyMax_ge _ _ ht x (by simp only [List.mem_filterMap, List.mem_flatten, id]; exact ⟨some x, ⟨r, hr, hx⟩, rfl⟩)
                  rw [k1, ← k0]
                  exact le_trans this hle'

theorem next_mem (g : GraphPolicy) (c : Int) (o : Name) (x : Option Int) (h : g.next c o = .ok x) : ∃ r ∈ g.transitions, x ∈ r := by
  unfold GraphPolicy.next at h
  have hg : ∀ {α : Type} (l : List α) (i : Nat) (a : α), listGet l i = .ok a → a ∈ l := by
    intro α l i a hi
    unfold listGet at hi
    split at hi
    · cases hi
    · rename_i b hb
      cases hi
      exact List.mem_of_getElem? hb
  simp only [bind, Except.bind] at h
  split at h
  · cases h
  · split at h
    · cases h
    · split at h
      · cases h
      · rename_i row hrow
        exact ⟨row, hg _ _ _ hrow, hg _ _ _ h⟩

theorem reaches_le (g : GraphPolicy) (n : Int) (ht : ∀ r ∈ g.transitions, ∀ t, some t ∈ r → t ≤ n) {w : List Name} {c c' : Int}
    (h : Reaches g c w c') : c ≤ n → c' ≤ n := by
  induction h with
  | nil c => exact id
  | cons hn _ ih =>
      intro _
      obtain ⟨r, hr, hx⟩ := next_mem _ _ _ _ hn
      exact ih (ht r hr _ hx)

/-- The first node of a policy that has been loaded. -/
theorem loaded_init (f : List Char → List ℚ) (p : Pomdp) (alpha pg : List (List Char)) (g : GraphPolicy) (h : p.loadPolicy f alpha pg = .ok g) :
    g.init ≤ g.actions.length := by
  obtain ⟨as, ts, vs, h1, h2, h3⟩ := loadPolicy_ok f p alpha pg g h
  obtain ⟨⟨c1, _, c3⟩, k1, k2, k3, k4, k5⟩ := mkGraphPolicy_ok _ _ _ _ _ _ _ h3
  have hl1 := vf_lengths f alpha as vs h2
  have hl2 := pg_lengths pg as ts h1
  unfold initNode at k5
  cases hn : nodeFromBelief vs p.start with
  | error e => simp only [hn] at k5; cases k5
  | ok n =>
      simp only [hn] at k5
      have k5 : (n : Int) = g.init := by injection k5
      have : n < vs.length := by
        unfold nodeFromBelief at hn
        split at hn
        · by_cases hvs : vs = []
          · subst hvs; cases hn
          · obtain ⟨r, v, e1, e2, _⟩ := argmax_spec (vs.map fun v => dot v p.start) (by simpa using hvs)
            rw [hn] at e1
            cases e1
            simpa using (List.getElem?_eq_some_iff.1 e2).1
        · cases hn
      omega

/-- For every file that is accepted, with no condition on its transitions: a run over known observations raises `IndexError` exactly if it gets to
the integer after the last node, or to one below minus the number of nodes; apart from that it only stops at an unexpected observation. -/
theorem C45_exact (f : List Char → List ℚ) (p : Pomdp) (alpha pg : List (List Char)) (g : GraphPolicy) (h : p.loadPolicy f alpha pg = .ok g)
    (obs : List Name) (ho : ∀ o ∈ obs, o ∈ p.observations) :
    ((runPolicy g g.init obs).2 = some .indexError ↔ ∃ w c, w <+: obs ∧ Reaches g g.init w c ∧
      (c = g.actions.length ∨ c < -(g.actions.length : Int))) ∧
    ((runPolicy g g.init obs).2 = none ∨ (runPolicy g g.init obs).2 = some .impossible ∨ (runPolicy g g.init obs).2 = some .indexError) := by
  obtain ⟨as, ts, vs, h1, h2, h3⟩ := loadPolicy_ok f p alpha pg g h
  obtain ⟨⟨c1, _, c3⟩, k1, k2, k3, k4, k5⟩ := mkGraphPolicy_ok _ _ _ _ _ _ _ h3
  obtain ⟨r1, r2⟩ := run_index g (by rw [k3]; exact c1) (by rw [k3, k2]; exact c3) obs g.init (by rw [k2]; exact ho)
  refine ⟨r1.trans ⟨?_, ?_⟩, r2⟩
  · rintro ⟨w, c, hw, hr, hout⟩
    have := reaches_le g _ (loaded_le f p alpha pg g h) hr (loaded_init f p alpha pg g h)
    refine ⟨w, c, hw, hr, ?_⟩
    rcases hout with hout | hout
    · exact .inl (by omega)
    · exact .inr hout
  · rintro ⟨w, c, hw, hr, hout⟩
    refine ⟨w, c, hw, hr, ?_⟩
    rcases hout with hout | hout
    · exact .inl (by omega)
    · exact .inr hout

/-- Non-vacuity: an accepted file for which both happen, according to the observations; the negative transition is one of a node. -/
example : ∃ g, tiger.loadPolicy (fun _ => [1, 1]) ["0\n".toList, "1 1\n".toList] ["0 0  1 -1\n".toList] = .ok g ∧
    (runPolicy g g.init [.int 0]).2 = some .indexError ∧ (runPolicy g g.init [.int 1, .int 1]).2 = none := by
  refine ⟨⟨[.str "listen"], [.int 0, .int 1], [[some 1, some (-1)]], [[1, 1]], 0⟩, by decide +kernel, ?_, ?_⟩ <;>
    simp [runPolicy, GraphPolicy.getAction, GraphPolicy.next, runnerStep, pyIndex, listGet, indexOf, bind, Except.bind, List.findIdx?_cons]

end Verif
