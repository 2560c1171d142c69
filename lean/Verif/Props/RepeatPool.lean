import Verif.Proof.RepeatPool
import Mathlib.Order.WellFounded

/-! Repeating a function in processes (C61). -/

set_option linter.unusedSectionVars false
set_option linter.unusedSimpArgs false

namespace Verif
variable {R : Type}

/-- **C61.**  For every order of events, never more than `n` runs are started, and never more processes are alive than there are
processors. -/
theorem C61_processes (target : Nat → R) (seed : Nat → Nat) (cpus n : Nat) (es : List PoolEvent) (p : Pool R)
    (hp : p = (poolStart cpus n).run target seed es) :
    p.procs.length ≤ n ∧ p.procs.countP WorkerState.alive ≤ cpus := by
  have h := pool_inv target seed cpus n es
  rw [← hp] at h
  have := h.started
  exact ⟨by omega, h.alive_le⟩

theorem putBy_all {procs : List WorkerState} (h : procs.length ≤ (putBy procs).length) : putBy procs = List.range procs.length := by
  unfold putBy at h ⊢
  rw [List.filter_eq_self]
  have h1 : ((List.range procs.length).filter fun w => (procs[w]?.map WorkerState.hasPut).getD false).length = (List.range procs.length).length :=
    le_antisymm (List.length_filter_le _ _) (by simpa using h)
  exact List.length_filter_eq_length_iff.1 h1

/-- **C61.**  When `run` returns, exactly `n` runs have been started and have ended, each has put its result, none has failed, and the
list returned consists of exactly these results. -/
theorem C61_returns (target : Nat → R) (seed : Nat → Nat) (cpus n : Nat) (es : List PoolEvent) (p : Pool R)
    (hp : p = (poolStart cpus n).run target seed es) (rs : List R) (hd : p.pc = .done (.ok rs)) :
    rs.Perm ((List.range n).map fun w => target (seed w)) ∧ p.procs.length = n ∧
    ∀ w < n, ∃ code, p.procs[w]? = some (.exited code true) ∧ code ≤ 0 := by
  have h := pool_inv target seed cpus n es
  rw [← hp] at h
  have hpc := h.pc
  rw [hd] at hpc
  obtain ⟨h1, h2, rfl, h3⟩ := hpc
  obtain ⟨h4, h5⟩ := h.all_gone h1 h2
  have h6 := h.res_le
  have hq : p.queue = [] := List.length_eq_zero_iff.1 (by omega)
  have h7 := h.res
  rw [hq, List.append_nil] at h7
  have h8 : putBy p.procs = List.range p.procs.length := by
    apply putBy_all
    have := h7.length_eq
    rw [List.length_map] at this
    omega
  rw [h8, h4] at h7
  refine ⟨h7, h4, fun w hw => ?_⟩
  obtain ⟨code, put, h9, h10⟩ := h5 w hw
  have h11 : w ∈ putBy p.procs := by rw [h8, h4]; exact List.mem_range.2 hw
  have h12 : put = true := by
    simp [putBy, h9, WorkerState.hasPut] at h11
    exact h11.2
  subst h12
  exact ⟨code, h9, h10⟩

/-- **C61.**  `run` raises `RuntimeError` only if a run has failed, and `Empty` only if all runs have ended, none has failed, and one
has been killed by a signal before its result was available; it raises nothing else. -/
theorem C61_raises (target : Nat → R) (seed : Nat → Nat) (cpus n : Nat) (es : List PoolEvent) (p : Pool R)
    (hp : p = (poolStart cpus n).run target seed es) (e : PyErr) (hd : p.pc = .done (.error e)) :
    (e = .runtimeError ∧ ∃ (w : Nat) (code : Int) (put : Bool), p.procs[w]? = some (.exited code put) ∧ 0 < code) ∨
    (e = .empty ∧ p.procs.length = n ∧ (∀ w < n, ∃ code put, p.procs[w]? = some (.exited code put) ∧ code ≤ 0) ∧
      ∃ (w : Nat) (code : Int), p.procs[w]? = some (.exited code false) ∧ code < 0) := by
  have h := pool_inv target seed cpus n es
  rw [← hp] at h
  have hpc := h.pc
  rw [hd] at hpc
  rcases hpc with hpc | ⟨h1, h2, h3, h4, h5⟩
  · exact .inl hpc
  · obtain ⟨h6, h7⟩ := h.all_gone h2 h3
    refine .inr ⟨h1, h6, h7, ?_⟩
    by_contra hc
    push Not at hc
    have h8 : putBy p.procs = List.range p.procs.length := by
      unfold putBy
      rw [List.filter_eq_self]
      intro w hw
      obtain ⟨code, put, h9, h10⟩ := h7 w (by rw [← h6]; exact List.mem_range.1 hw)
      cases put with
      | true => simp [h9, WorkerState.hasPut]
      | false =>
          have h11 := hc w code h9
          have : code = 0 := by omega
          subst this
          exact absurd h9 (h.code w)
    have h12 := h.res.length_eq
    rw [h4, h8] at h12
    simp at h12
    omega

theorem exited_step {target : Nat → R} {seed : Nat → Nat} {p : Pool R} {w : Nat} {code : Int} {put : Bool}
    (h : p.procs[w]? = some (.exited code put)) (e : PoolEvent) : (p.step target seed e).procs[w]? = some (.exited code put) := by
  have hset : ∀ (v : Nat) (s s' : WorkerState), p.procs[v]? = some s → s.alive = true → (p.procs.set v s')[w]? = some (.exited code put) := by
    intro v s s' hv ha
    rw [List.getElem?_set, if_neg]
    · exact h
    · rintro rfl
      rw [h] at hv
      cases hv
      cases ha
  cases e with
  | parent =>
      show p.parent.procs[w]? = _
      unfold Pool.parent
      split
      · split <;> exact h
      · unfold Pool.cleanSlot
        split
        · exact h
        · exact h
        · split
          · split <;> exact h
          · exact h
      · unfold Pool.fillSlot
        split
        · exact h
        · exact h
        · split
          · show (p.procs ++ [WorkerState.running])[w]? = _
            rw [List.getElem?_append_left (lt_of_some h)]
            exact h
          · exact h
      · unfold Pool.getOne
        split <;> exact h
      · next k _ =>
          cases k with
          | zero => exact h
          | succ k =>
              unfold Pool.collectOne
              simp only
              split <;> exact h
      · exact h
  | put v =>
      show (Pool.step target seed p (.put v)).procs[w]? = _
      unfold Pool.step
      simp only
      split
      · next hv => exact hset v _ _ hv rfl
      · exact h
  | exit v =>
      unfold Pool.step
      simp only
      split
      · next hv => exact hset v _ _ hv rfl
      · exact h
  | fail v code =>
      unfold Pool.step
      simp only
      split
      · next hv => exact hset v _ _ hv rfl
      · exact h
  | kill v signal =>
      unfold Pool.step
      simp only
      split
      · next hv => exact hset v _ _ hv rfl
      · next hv => exact hset v _ _ hv rfl
      · exact h

theorem exited_run {target : Nat → R} {seed : Nat → Nat} {w : Nat} {code : Int} {put : Bool} : ∀ (es : List PoolEvent) {p : Pool R},
    p.procs[w]? = some (.exited code put) → (p.run target seed es).procs[w]? = some (.exited code put) := by
  intro es
  induction es with
  | nil => intro p h; exact h
  | cons e es ih => intro p h; exact ih (exited_step h e)

theorem pool_run_append (target : Nat → R) (seed : Nat → Nat) (p : Pool R) (es es' : List PoolEvent) :
    p.run target seed (es ++ es') = (p.run target seed es).run target seed es' := by
  unfold Pool.run
  rw [List.foldl_append]

/-- **C61.**  Once a run has failed (while `run` has not ended), `run` can only raise `RuntimeError`; it never returns. -/
theorem C61_failed (target : Nat → R) (seed : Nat → Nat) (cpus n : Nat) (es es' : List PoolEvent) (w : Nat) (code : Int) (put : Bool)
    (hw : ((poolStart cpus n).run target seed es).procs[w]? = some (.exited code put)) (hc : 0 < code) (r : Py (List R))
    (hd : ((poolStart cpus n).run target seed (es ++ es')).pc = .done r) : r = .error .runtimeError := by
  have h1 := exited_run (target := target) (seed := seed) es' hw
  rw [← pool_run_append] at h1
  cases r with
  | ok rs =>
      obtain ⟨_, h2, h3⟩ := C61_returns target seed cpus n _ _ rfl rs hd
      obtain ⟨code', h4, h5⟩ := h3 w (by rw [← h2]; exact lt_of_some h1)
      rw [h1] at h4
      cases h4
      omega
  | error e =>
      rcases C61_raises target seed cpus n _ _ rfl e hd with ⟨h2, _⟩ | ⟨_, h2, h3, _⟩
      · rw [h2]
      · obtain ⟨code', put', h4, h5⟩ := h3 w (by rw [← h2]; exact lt_of_some h1)
        rw [h1] at h4
        cases h4
        omega

/-- **C61.**  If a run is killed by a signal before its result is available, `run` never returns; it raises `Empty`, or `RuntimeError`
if another one fails. -/
theorem C61_killed (target : Nat → R) (seed : Nat → Nat) (cpus n : Nat) (es es' : List PoolEvent) (w : Nat) (code : Int)
    (hw : ((poolStart cpus n).run target seed es).procs[w]? = some (.exited code false)) (r : Py (List R))
    (hd : ((poolStart cpus n).run target seed (es ++ es')).pc = .done r) :
    r = .error .runtimeError ∨ r = .error .empty := by
  have h1 := exited_run (target := target) (seed := seed) es' hw
  rw [← pool_run_append] at h1
  cases r with
  | ok rs =>
      obtain ⟨_, h2, h3⟩ := C61_returns target seed cpus n _ _ rfl rs hd
      obtain ⟨code', h4, _⟩ := h3 w (by rw [← h2]; exact lt_of_some h1)
      rw [h1] at h4
      cases h4
  | error e =>
      rcases C61_raises target seed cpus n _ _ rfl e hd with ⟨h2, _⟩ | ⟨h2, _⟩
      · rw [h2]; exact .inl rfl
      · rw [h2]; exact .inr rfl

/-- An event that is not a failure. -/
def PoolEvent.Good : PoolEvent → Prop
  | .fail _ _ => False
  | .kill _ _ => False
  | _ => True

theorem good_step {target : Nat → R} {seed : Nat → Nat} {p : Pool R} (e : PoolEvent) (he : e.Good)
    (h : ∀ (w : Nat) code put, p.procs[w]? = some (.exited code put) → code = 0 ∧ put = true) :
    ∀ (w : Nat) code put, (p.step target seed e).procs[w]? = some (.exited code put) → code = 0 ∧ put = true := by
  intro w code put hw
  cases e with
  | fail v c => cases he
  | kill v s => cases he
  | put v =>
      unfold Pool.step at hw
      simp only at hw
      split at hw
      · simp only [List.getElem?_set] at hw
        split at hw
        · split at hw <;> cases hw
        · exact h w code put hw
      · exact h w code put hw
  | exit v =>
      unfold Pool.step at hw
      simp only at hw
      split at hw
      · simp only [List.getElem?_set] at hw
        split at hw
        · split at hw <;> cases hw
          exact ⟨rfl, rfl⟩
        · exact h w code put hw
      · exact h w code put hw
  | parent =>
      by_cases hlt : w < p.procs.length
      · have hs : p.procs[w]? = some p.procs[w] := List.getElem?_eq_getElem hlt
        have hsame : (p.step target seed .parent).procs[w]? = p.procs[w]? := by
          show p.parent.procs[w]? = _
          unfold Pool.parent
          split
          · split <;> rfl
          · unfold Pool.cleanSlot
            split
            · rfl
            · rfl
            · split
              · split <;> rfl
              · rfl
          · unfold Pool.fillSlot
            split
            · rfl
            · rfl
            · split
              · exact List.getElem?_append_left hlt
              · rfl
          · unfold Pool.getOne
            split <;> rfl
          · next k _ =>
              cases k with
              | zero => rfl
              | succ k =>
                  unfold Pool.collectOne
                  simp only
                  split <;> rfl
          · rfl
        rw [hsame] at hw
        exact h w code put hw
      · exfalso
        have hl : p.procs[w]? = none := List.getElem?_eq_none (by omega)
        have : (p.step target seed .parent).procs = p.procs ∨ (p.step target seed .parent).procs = p.procs ++ [.running] := by
          show p.parent.procs = _ ∨ p.parent.procs = _
          unfold Pool.parent
          split
          · split <;> exact .inl rfl
          · unfold Pool.cleanSlot
            split
            · exact .inl rfl
            · exact .inl rfl
            · split
              · split <;> exact .inl rfl
              · exact .inl rfl
          · unfold Pool.fillSlot
            split
            · exact .inl rfl
            · exact .inl rfl
            · split
              · exact .inr rfl
              · exact .inl rfl
          · unfold Pool.getOne
            split <;> exact .inl rfl
          · next k _ =>
              cases k with
              | zero => exact .inl rfl
              | succ k =>
                  unfold Pool.collectOne
                  simp only
                  split <;> exact .inl rfl
          · exact .inl rfl
        rcases this with h1 | h1
        · rw [h1, hl] at hw; cases hw
        · rw [h1, List.getElem?_append_right (by omega)] at hw
          rcases hx : w - p.procs.length with _ | k <;> rw [hx] at hw <;> simp at hw

/-- **C61.**  If no run fails and none is killed, `run` can only return the `n` results; it raises nothing. -/
theorem C61_no_failure (target : Nat → R) (seed : Nat → Nat) (cpus n : Nat) (es : List PoolEvent) (hg : ∀ e ∈ es, e.Good) (r : Py (List R))
    (hd : ((poolStart cpus n).run target seed es).pc = .done r) :
    ∃ rs, r = .ok rs ∧ rs.Perm ((List.range n).map fun w => target (seed w)) := by
  have hgood : ∀ (es : List PoolEvent) (p : Pool R), (∀ e ∈ es, e.Good) →
      (∀ (w : Nat) code put, p.procs[w]? = some (.exited code put) → code = 0 ∧ put = true) →
      ∀ (w : Nat) code put, (p.run target seed es).procs[w]? = some (.exited code put) → code = 0 ∧ put = true := by
    intro es
    induction es with
    | nil => intro p _ h; exact h
    | cons e es ih =>
        intro p he h
        exact ih _ (fun e' he' => he e' (List.mem_cons_of_mem _ he')) (good_step e (he e List.mem_cons_self) h)
  have h0 := hgood es (poolStart cpus n) hg (fun w code put h => by simp [poolStart] at h)
  cases r with
  | ok rs => exact ⟨rs, rfl, (C61_returns target seed cpus n es _ rfl rs hd).1⟩
  | error e =>
      rcases C61_raises target seed cpus n es _ rfl e hd with ⟨_, w, code, put, h1, h2⟩ | ⟨_, _, _, w, code, h1, h2⟩
      · have := (h0 w code put h1).1; omega
      · have := (h0 w code false h1).1; omega

/-! ### Termination -/

/-- The states of an infinite execution. -/
def poolStates (target : Nat → R) (seed : Nat → Nat) (cpus n : Nat) (ev : Nat → PoolEvent) : Nat → Pool R
  | 0 => poolStart cpus n
  | t + 1 => (poolStates target seed cpus n ev t).step target seed (ev t)

theorem poolStates_run (target : Nat → R) (seed : Nat → Nat) (cpus n : Nat) (ev : Nat → PoolEvent) (t : Nat) :
    poolStates target seed cpus n ev t = (poolStart cpus n).run target seed ((List.range t).map ev) := by
  induction t with
  | zero => rfl
  | succ t ih =>
      rw [List.range_succ, List.map_append, pool_run_append, ← ih]
      rfl

/-- The occupied slots. -/
def occupied (l : List (Option Nat)) : Nat := l.countP Option.isSome

/-- What is left to do. -/
def Pool.work (p : Pool R) : Nat := 2 * p.toGo + occupied p.slots

theorem occupied_clear {l : List (Option Nat)} {i w : Nat} (h : l[i]? = some (some w)) : occupied (l.set i none) + 1 = occupied l := by
  unfold occupied
  induction l generalizing i with
  | nil => simp at h
  | cons a l ih =>
      cases i with
      | zero => simp at h; subst h; simp
      | succ i =>
          simp only [List.getElem?_cons_succ] at h
          have := ih h
          simp only [List.set_cons_succ, List.countP_cons]
          omega

theorem occupied_occupy {l : List (Option Nat)} {i w : Nat} (h : l[i]? = some none) : occupied (l.set i (some w)) = occupied l + 1 := by
  unfold occupied
  induction l generalizing i with
  | nil => simp at h
  | cons a l ih =>
      cases i with
      | zero => simp at h; subst h; simp
      | succ i =>
          simp only [List.getElem?_cons_succ] at h
          have := ih h
          simp only [List.set_cons_succ, List.countP_cons]
          omega

/-- A step keeps the slots and the number of runs to go, or reduces what is left to do. -/
theorem work_step (target : Nat → R) (seed : Nat → Nat) (p : Pool R) (e : PoolEvent) :
    ((p.step target seed e).slots = p.slots ∧ (p.step target seed e).toGo = p.toGo) ∨ (p.step target seed e).work < p.work := by
  cases e with
  | parent =>
      show (p.parent.slots = p.slots ∧ p.parent.toGo = p.toGo) ∨ p.parent.work < p.work
      unfold Pool.parent
      split
      · split <;> exact .inl ⟨rfl, rfl⟩
      · unfold Pool.cleanSlot
        split
        · exact .inl ⟨rfl, rfl⟩
        · exact .inl ⟨rfl, rfl⟩
        · next w hw =>
            split
            · split
              · exact .inl ⟨rfl, rfl⟩
              · right
                have := occupied_clear hw
                simp only [Pool.work]
                omega
            · exact .inl ⟨rfl, rfl⟩
      · unfold Pool.fillSlot
        split
        · exact .inl ⟨rfl, rfl⟩
        · exact .inl ⟨rfl, rfl⟩
        · next hw =>
            split
            · right
              have := occupied_occupy (w := p.procs.length) hw
              simp only [Pool.work]
              omega
            · exact .inl ⟨rfl, rfl⟩
      · unfold Pool.getOne
        split <;> exact .inl ⟨rfl, rfl⟩
      · next k _ =>
          cases k with
          | zero => exact .inl ⟨rfl, rfl⟩
          | succ k =>
              unfold Pool.collectOne
              simp only
              split <;> exact .inl ⟨rfl, rfl⟩
      · exact .inl ⟨rfl, rfl⟩
  | put v => unfold Pool.step; simp only; split <;> exact .inl ⟨rfl, rfl⟩
  | exit v => unfold Pool.step; simp only; split <;> exact .inl ⟨rfl, rfl⟩
  | fail v c => unfold Pool.step; simp only; split <;> exact .inl ⟨rfl, rfl⟩
  | kill v s => unfold Pool.step; simp only; split <;> exact .inl ⟨rfl, rfl⟩

/-- The events of workers do not change the place of the parent. -/
theorem env_step (target : Nat → R) (seed : Nat → Nat) (p : Pool R) (e : PoolEvent) (he : e ≠ .parent) :
    (p.step target seed e).pc = p.pc := by
  cases e with
  | parent => exact absurd rfl he
  | put v => unfold Pool.step; simp only; split <;> rfl
  | exit v => unfold Pool.step; simp only; split <;> rfl
  | fail v c => unfold Pool.step; simp only; split <;> rfl
  | kill v s => unfold Pool.step; simp only; split <;> rfl

section
variable {target : Nat → R} {seed : Nat → Nat} {cpus n : Nat} {ev : Nat → PoolEvent}

/-- The next step of the parent. -/
theorem next_parent (hf : ∀ t, ∃ t' ≥ t, ev t' = .parent) (t : Nat) :
    ∃ t' ≥ t, (poolStates target seed cpus n ev t').pc = (poolStates target seed cpus n ev t).pc ∧
      poolStates target seed cpus n ev (t' + 1) = (poolStates target seed cpus n ev t').parent := by
  have key : ∀ k t, ev (t + k) = .parent → ∃ t' ≥ t, (poolStates target seed cpus n ev t').pc = (poolStates target seed cpus n ev t).pc ∧
      poolStates target seed cpus n ev (t' + 1) = (poolStates target seed cpus n ev t').parent := by
    intro k
    induction k with
    | zero =>
        intro t ht
        refine ⟨t, le_rfl, rfl, ?_⟩
        show Pool.step target seed _ (ev t) = _
        rw [show ev t = .parent from ht]
        rfl
    | succ k ih =>
        intro t ht
        by_cases hp : ev t = .parent
        · refine ⟨t, le_rfl, rfl, ?_⟩
          show Pool.step target seed _ (ev t) = _
          rw [hp]
          rfl
        · obtain ⟨t', h1, h2, h3⟩ := ih (t + 1) (by rw [← ht]; congr 1; omega)
          refine ⟨t', by omega, h2.trans ?_, h3⟩
          exact env_step target seed _ _ hp
  obtain ⟨t1, h1, h2⟩ := hf t
  obtain ⟨k, rfl⟩ := Nat.exists_eq_add_of_le h1
  exact key k t h2

/-- **C61.**  In every fair execution, in which every process that has been started exits, `run` ends. -/
theorem C61_terminates (hc : 0 < cpus) (hf : ∀ t, ∃ t' ≥ t, ev t' = .parent)
    (hw : ∀ t w, w < (poolStates target seed cpus n ev t).procs.length →
      ∃ t' code put, (poolStates target seed cpus n ev t').procs[w]? = some (.exited code put)) :
    ∃ t r, (poolStates target seed cpus n ev t).pc = .done r := by
  by_contra hnd
  push Not at hnd
  have inv : ∀ t, PoolInv target seed cpus n (poolStates target seed cpus n ev t) := fun t => by
    rw [poolStates_run]; exact pool_inv target seed cpus n _
  -- the final readings are never reached
  have hnc : ∀ k t, (poolStates target seed cpus n ev t).pc ≠ .collect k := by
    intro k
    induction k with
    | zero =>
        intro t ht
        obtain ⟨t', h1, h2, h3⟩ := next_parent (target := target) (seed := seed) (cpus := cpus) (n := n) hf t
        refine hnd (t' + 1) (.ok (poolStates target seed cpus n ev t').results) ?_
        rw [h3]
        unfold Pool.parent
        rw [h2, ht]
        rfl
    | succ k ih =>
        intro t ht
        obtain ⟨t', h1, h2, h3⟩ := next_parent (target := target) (seed := seed) (cpus := cpus) (n := n) hf t
        have h4 : poolStates target seed cpus n ev (t' + 1) = (poolStates target seed cpus n ev t').collectOne (k + 1) := by
          rw [h3]
          unfold Pool.parent
          rw [h2, ht]
        rcases hq : (poolStates target seed cpus n ev t').queue with _ | ⟨x, q⟩
        · refine hnd (t' + 1) (.error .empty) ?_
          rw [h4]; unfold Pool.collectOne; simp only [hq]
        · refine ih (t' + 1) ?_
          rw [h4]; unfold Pool.collectOne; simp only [hq]
  -- what is left to do does not change from some time on
  obtain ⟨T, hT⟩ : ∃ T, ∀ t ≥ T, (poolStates target seed cpus n ev T).work ≤ (poolStates target seed cpus n ev t).work := by
    obtain ⟨T, hT⟩ := WellFounded.has_min (r := fun a b : Nat => a < b) wellFounded_lt
      (Set.range fun t => (poolStates target seed cpus n ev t).work) ⟨_, 0, rfl⟩
    obtain ⟨⟨T, rfl⟩, hT⟩ := hT
    exact ⟨T, fun t _ => not_lt.1 (hT _ ⟨t, rfl⟩)⟩
  have mono : ∀ t, (poolStates target seed cpus n ev (t + 1)).work ≤ (poolStates target seed cpus n ev t).work := by
    intro t
    rcases work_step target seed (poolStates target seed cpus n ev t) (ev t) with ⟨h1, h2⟩ | h1
    · show (Pool.step target seed _ (ev t)).work ≤ _
      unfold Pool.work
      rw [h1, h2]
    · exact le_of_lt h1
  have const : ∀ k, (poolStates target seed cpus n ev (T + k)).slots = (poolStates target seed cpus n ev T).slots ∧
      (poolStates target seed cpus n ev (T + k)).toGo = (poolStates target seed cpus n ev T).toGo := by
    have le : ∀ k, (poolStates target seed cpus n ev (T + k)).work ≤ (poolStates target seed cpus n ev T).work := by
      intro k
      induction k with
      | zero => exact le_rfl
      | succ k ih => exact le_trans (mono (T + k)) ih
    intro k
    induction k with
    | zero => exact ⟨rfl, rfl⟩
    | succ k ih =>
        rcases work_step target seed (poolStates target seed cpus n ev (T + k)) (ev (T + k)) with ⟨h1, h2⟩ | h1
        · exact ⟨h1.trans ih.1, h2.trans ih.2⟩
        · have h2 := hT (T + (k + 1)) (by omega)
          have h3 := le k
          have h4 : (poolStates target seed cpus n ev (T + (k + 1))).work < (poolStates target seed cpus n ev (T + k)).work := h1
          omega
  have const' : ∀ t ≥ T, (poolStates target seed cpus n ev t).slots = (poolStates target seed cpus n ev T).slots ∧
      (poolStates target seed cpus n ev t).toGo = (poolStates target seed cpus n ev T).toGo := by
    intro t ht
    obtain ⟨k, rfl⟩ := Nat.exists_eq_add_of_le ht
    exact const k
  generalize hsl : (poolStates target seed cpus n ev T).slots = sl at const'
  generalize htg : (poolStates target seed cpus n ev T).toGo = tg at const'
  have hlen : sl.length = cpus := by rw [← hsl]; exact (inv T).len
  -- the places of the parent follow each other
  have fromClean : ∀ i t, t ≥ T → (poolStates target seed cpus n ev t).pc = .clean i → i < cpus →
      ∃ t' > t, (poolStates target seed cpus n ev t').pc = .clean (i + 1) := by
    intro i t ht hpc hi
    obtain ⟨t', h1, h2, h3⟩ := next_parent (target := target) (seed := seed) (cpus := cpus) (n := n) hf t
    refine ⟨t' + 1, by omega, ?_⟩
    have hnd' := hnd (t' + 1) (.error .runtimeError)
    rw [h3] at hnd' ⊢
    unfold Pool.parent at hnd' ⊢
    rw [h2, hpc] at hnd' ⊢
    simp only at hnd' ⊢
    unfold Pool.cleanSlot at hnd' ⊢
    have hs : (poolStates target seed cpus n ev t').slots = sl := (const' t' (by omega)).1
    rw [hs] at hnd' ⊢
    split
    · next hx => rw [List.getElem?_eq_none_iff] at hx; omega
    · rfl
    · next w hx =>
        simp only [hx] at hnd'
        split
        · next code put hx2 =>
            simp only [hx2] at hnd'
            split
            · next hc' => rw [if_pos hc'] at hnd'; exact absurd rfl hnd'
            · rfl
        · rfl
  have toClean : ∀ i t, t ≥ T → (poolStates target seed cpus n ev t).pc = .clean 0 → i ≤ cpus →
      ∃ t' ≥ t, (poolStates target seed cpus n ev t').pc = .clean i := by
    intro i
    induction i with
    | zero => intro t ht h _; exact ⟨t, le_rfl, h⟩
    | succ i ih =>
        intro t ht h hi
        obtain ⟨t1, h1, h2⟩ := ih t ht h (by omega)
        obtain ⟨t2, h3, h4⟩ := fromClean i t1 (by omega) h2 (by omega)
        exact ⟨t2, by omega, h4⟩
  have fillOf : ∀ i t, t ≥ T → cpus ≤ i → (poolStates target seed cpus n ev t).pc = .clean i →
      ∃ t' > t, (poolStates target seed cpus n ev t').pc = .fill 0 := by
    intro i t ht hi hpc
    obtain ⟨t', h1, h2, h3⟩ := next_parent (target := target) (seed := seed) (cpus := cpus) (n := n) hf t
    refine ⟨t' + 1, by omega, ?_⟩
    rw [h3]
    unfold Pool.parent
    rw [h2, hpc]
    simp only
    unfold Pool.cleanSlot
    have hs : (poolStates target seed cpus n ev t').slots = sl := (const' t' (by omega)).1
    rw [hs, List.getElem?_eq_none (by omega)]
  have fromFill : ∀ j i t, t ≥ T → cpus ≤ i + j → (poolStates target seed cpus n ev t).pc = .fill i →
      ∃ t' > t, (poolStates target seed cpus n ev t').pc = .get := by
    intro j
    have last : ∀ i t, t ≥ T → cpus ≤ i → (poolStates target seed cpus n ev t).pc = .fill i →
        ∃ t' > t, (poolStates target seed cpus n ev t').pc = .get := by
        intro i t ht hij hpc
        obtain ⟨t', h1, h2, h3⟩ := next_parent (target := target) (seed := seed) (cpus := cpus) (n := n) hf t
        refine ⟨t' + 1, by omega, ?_⟩
        rw [h3]
        unfold Pool.parent
        rw [h2, hpc]
        simp only
        unfold Pool.fillSlot
        have hs : (poolStates target seed cpus n ev t').slots = sl := (const' t' (by omega)).1
        rw [hs, List.getElem?_eq_none (by omega)]
    induction j with
    | zero => intro i t ht hij hpc; exact last i t ht (by omega) hpc
    | succ j ih =>
        intro i t ht hij hpc
        by_cases hi : cpus ≤ i
        · exact last i t ht hi hpc
        obtain ⟨t', h1, h2, h3⟩ := next_parent (target := target) (seed := seed) (cpus := cpus) (n := n) hf t
        have h4 : (poolStates target seed cpus n ev (t' + 1)).pc = .fill (i + 1) := by
          rw [h3]
          unfold Pool.parent
          rw [h2, hpc]
          simp only
          unfold Pool.fillSlot
          have hs : (poolStates target seed cpus n ev t').slots = sl := (const' t' (by omega)).1
          rw [hs]
          split
          · next hx => rw [List.getElem?_eq_none_iff] at hx; omega
          · rfl
          · split <;> rfl
        obtain ⟨t2, h5, h6⟩ := ih (i + 1) (t' + 1) (by omega) (by omega) h4
        exact ⟨t2, by omega, h6⟩
  have testOf : ∀ t, (poolStates target seed cpus n ev t).pc = .get → ∃ t' > t, (poolStates target seed cpus n ev t').pc = .test := by
    intro t hpc
    obtain ⟨t', h1, h2, h3⟩ := next_parent (target := target) (seed := seed) (cpus := cpus) (n := n) hf t
    refine ⟨t' + 1, by omega, ?_⟩
    rw [h3]
    unfold Pool.parent
    rw [h2, hpc]
    simp only
    unfold Pool.getOne
    split <;> rfl
  have cleanOf : ∀ t, t ≥ T → (poolStates target seed cpus n ev t).pc = .test →
      ∃ t' > t, (poolStates target seed cpus n ev t').pc = .clean 0 ∧ (0 < tg ∨ sl.any Option.isSome = true) := by
    intro t ht hpc
    obtain ⟨t', h1, h2, h3⟩ := next_parent (target := target) (seed := seed) (cpus := cpus) (n := n) hf t
    have hs := const' t' (by omega)
    have hnc' := hnc ((poolStates target seed cpus n ev t').n - (poolStates target seed cpus n ev t').results.length) (t' + 1)
    rw [h3] at hnc'
    unfold Pool.parent at hnc'
    rw [h2, hpc] at hnc'
    simp only at hnc'
    by_cases hsw : (poolStates target seed cpus n ev t').stillWorking = true
    · refine ⟨t' + 1, by omega, ?_, ?_⟩
      · rw [h3]
        unfold Pool.parent
        rw [h2, hpc]
        simp only [hsw, if_true]
      · simpa [Pool.stillWorking, hs.1, hs.2] using hsw
    · rw [if_neg hsw] at hnc'
      exact absurd rfl hnc'
  have again : ∀ t, t ≥ T → ∃ t' ≥ t, (poolStates target seed cpus n ev t').pc = .clean 0 ∧ (0 < tg ∨ sl.any Option.isSome = true) := by
    have fromTest : ∀ t, t ≥ T → (∃ t' ≥ t, (poolStates target seed cpus n ev t').pc = .test) →
        ∃ t' ≥ t, (poolStates target seed cpus n ev t').pc = .clean 0 ∧ (0 < tg ∨ sl.any Option.isSome = true) := by
      rintro t ht ⟨t', h1, h2⟩
      obtain ⟨t2, h3, h4⟩ := cleanOf t' (by omega) h2
      exact ⟨t2, by omega, h4⟩
    have fromGet : ∀ t, t ≥ T → (∃ t' ≥ t, (poolStates target seed cpus n ev t').pc = .get) →
        ∃ t' ≥ t, (poolStates target seed cpus n ev t').pc = .test := by
      rintro t ht ⟨t', h1, h2⟩
      obtain ⟨t2, h3, h4⟩ := testOf t' h2
      exact ⟨t2, by omega, h4⟩
    intro t ht
    rcases hpc : (poolStates target seed cpus n ev t).pc with _ | i | i | _ | k | r
    · exact fromTest t ht ⟨t, le_rfl, hpc⟩
    · have up : ∀ j i t, t ≥ T → cpus ≤ i + j → (poolStates target seed cpus n ev t).pc = .clean i →
          ∃ t' ≥ t, (poolStates target seed cpus n ev t').pc = .fill 0 := by
        intro j
        induction j with
        | zero =>
            intro i t ht hi hpc
            obtain ⟨t', h1, h2⟩ := fillOf i t ht (by omega) hpc
            exact ⟨t', by omega, h2⟩
        | succ j ih =>
            intro i t ht hi hpc
            by_cases hlt : i < cpus
            · obtain ⟨t', h1, h2⟩ := fromClean i t ht hpc hlt
              obtain ⟨t2, h3, h4⟩ := ih (i + 1) t' (by omega) (by omega) h2
              exact ⟨t2, by omega, h4⟩
            · obtain ⟨t', h1, h2⟩ := fillOf i t ht (by omega) hpc
              exact ⟨t', by omega, h2⟩
      obtain ⟨t1, h1, h2⟩ := up cpus i t ht (by omega) hpc
      obtain ⟨t2, h3, h4⟩ := fromFill cpus 0 t1 (by omega) (by omega) h2
      exact fromTest t ht (fromGet t ht ⟨t2, by omega, h4⟩)
    · obtain ⟨t2, h3, h4⟩ := fromFill cpus i t ht (by omega) hpc
      exact fromTest t ht (fromGet t ht ⟨t2, by omega, h4⟩)
    · exact fromTest t ht (fromGet t ht ⟨t, le_rfl, hpc⟩)
    · exact absurd hpc (hnc k t)
    · exact absurd hpc (hnd t r)
  obtain ⟨t0, ht0, hpc0, hsome⟩ := again T le_rfl
  by_cases hany : sl.any Option.isSome = true
  · obtain ⟨o, ho, hs⟩ := List.any_eq_true.1 hany
    obtain ⟨w, rfl⟩ := Option.isSome_iff_exists.1 hs
    obtain ⟨i, hi⟩ := List.mem_iff_getElem?.1 ho
    have hw1 := (inv T).inSlot i w (by rw [hsl]; exact hi)
    obtain ⟨t1, code, put, hex⟩ := hw T w hw1
    have stay : ∀ k, (poolStates target seed cpus n ev (t1 + k)).procs[w]? = some (.exited code put) := by
      intro k
      induction k with
      | zero => exact hex
      | succ k ih => exact exited_step ih _
    obtain ⟨t2, h2, h3, _⟩ := again (max T t1) (le_max_left _ _)
    have hil := lt_of_some hi
    obtain ⟨t3, h4, h5⟩ := toClean i t2 (le_trans (le_max_left _ _) h2) h3 (by omega)
    obtain ⟨t4, h6, h7, h8⟩ := next_parent (target := target) (seed := seed) (cpus := cpus) (n := n) hf t3
    have hTt : T ≤ t2 ∧ t1 ≤ t2 := ⟨le_trans (le_max_left _ _) h2, le_trans (le_max_right _ _) h2⟩
    have hx : (poolStates target seed cpus n ev t4).procs[w]? = some (.exited code put) := by
      have := stay (t4 - t1)
      rwa [show t1 + (t4 - t1) = t4 by omega] at this
    have hs4 := (const' t4 (by omega)).1
    have hs5 := (const' (t4 + 1) (by omega)).1
    have hnd' := hnd (t4 + 1) (.error .runtimeError)
    rw [h8] at hs5 hnd'
    unfold Pool.parent at hs5 hnd'
    rw [h7, h5] at hs5 hnd'
    simp only at hs5 hnd'
    unfold Pool.cleanSlot at hs5 hnd'
    rw [hs4, hi] at hs5 hnd'
    simp only [hx] at hs5 hnd'
    split at hs5
    · next hc' => rw [if_pos hc'] at hnd'; exact absurd rfl hnd'
    · have h9 : (sl.set i none)[i]? = sl[i]? := congrArg (fun l => l[i]?) hs5
      rw [hi] at h9
      simp [hil] at h9
  · have h0 : 0 < tg := by
      rcases hsome with h | h
      · exact h
      · exact absurd h hany
    obtain ⟨t1, h1, h2⟩ := toClean cpus t0 ht0 hpc0 le_rfl
    obtain ⟨t2, h3, h4⟩ := fillOf cpus t1 (by omega) le_rfl h2
    obtain ⟨t3, h5, h6, h7⟩ := next_parent (target := target) (seed := seed) (cpus := cpus) (n := n) hf t2
    have hs3 := const' t3 (by omega)
    have hs4 := (const' (t3 + 1) (by omega)).2
    rw [h7] at hs4
    unfold Pool.parent at hs4
    rw [h6, h4] at hs4
    simp only at hs4
    unfold Pool.fillSlot at hs4
    have hnone : sl[0]? = some none := by
      rcases hx : sl[0]? with _ | _ | w
      · rw [List.getElem?_eq_none_iff] at hx; omega
      · rfl
      · exact absurd (List.any_eq_true.2 ⟨_, List.mem_of_getElem? hx, rfl⟩) hany
    rw [hs3.1, hnone, hs3.2] at hs4
    simp only [if_pos h0] at hs4
    omega

end

/-! ### Examples -/

/-- Three runs on two processors: the second run ends before the first one. -/
def poolDemo : List PoolEvent :=
  List.replicate 7 .parent ++ [.put 1, .exit 1] ++ List.replicate 8 .parent ++ [.put 2, .put 0, .exit 0, .exit 2] ++ List.replicate 20 .parent

/-- The first run fails. -/
def poolDemoFail : List PoolEvent := List.replicate 7 .parent ++ [.put 1, .fail 0 0] ++ List.replicate 20 .parent

/-- The first run is killed. -/
def poolDemoKill : List PoolEvent :=
  List.replicate 7 .parent ++ [.put 1, .kill 0 8] ++ List.replicate 20 .parent ++ [.exit 1, .put 2, .exit 2] ++ List.replicate 20 .parent

/-- The result of the parent, if it has ended. -/
def PoolPc.result {R : Type} : PoolPc R → Option (Py (List R))
  | .done r => some r
  | _ => none

/-- The hypotheses of `C61_returns` and `C61_no_failure` hold. -/
example : ((poolStart 2 3).run (fun s => s + 10) (fun w => w) poolDemo).pc.result = some (.ok [11, 12, 10]) ∧
    ((poolStart 2 3).run (fun s => s + 10) (fun w => w) (poolDemo.take 7)).procs = [.running, .running] := by decide +kernel

example : ∀ e ∈ poolDemo, e.Good := by
  intro e he
  simp only [poolDemo, List.mem_append, List.mem_replicate, List.mem_cons, List.not_mem_nil, or_false] at he
  rcases he with (((h | h) | h) | h) | h
  · rw [h.2]; trivial
  · rcases h with rfl | rfl <;> trivial
  · rw [h.2]; trivial
  · rcases h with rfl | rfl | rfl | rfl <;> trivial
  · rw [h.2]; trivial

/-- The hypotheses of `C61_raises`, `C61_failed` and `C61_killed` hold. -/
example : ((poolStart 2 3).run (fun s => s + 10) (fun w => w) poolDemoFail).pc.result = some (.error .runtimeError) ∧
    ((poolStart 2 3).run (fun s => s + 10) (fun w => w) poolDemoFail).procs[0]? = some (.exited 1 false) ∧
    ((poolStart 2 3).run (fun s => s + 10) (fun w => w) poolDemoKill).pc.result = some (.error .empty) ∧
    ((poolStart 2 3).run (fun s => s + 10) (fun w => w) poolDemoKill).procs[0]? = some (.exited (-9) false) := by decide +kernel

/-- An infinite execution with one run. -/
def poolDemoEvents (t : Nat) : PoolEvent := if t = 4 then .put 0 else if t = 5 then .exit 0 else .parent

/-- The hypotheses of `C61_terminates` hold. -/
example : ∃ t r, (poolStates (fun s => s + 10) (fun w => w) 1 1 poolDemoEvents t).pc = .done r := by
  refine C61_terminates (by omega) (fun t => ⟨t + 6, by omega, by simp [poolDemoEvents]⟩) fun t w hw => ?_
  rw [poolStates_run] at hw
  have := (C61_processes (fun s => s + 10) (fun w => w) 1 1 _ _ rfl).1.trans' hw
  have h0 : w = 0 := by omega
  subst h0
  exact ⟨6, 0, true, by decide +kernel⟩

end Verif
