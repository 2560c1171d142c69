import Verif.Model.RepeatPool
import Mathlib.Data.List.Perm.Subperm
import Mathlib.Data.List.Range
import Mathlib.Data.List.Nodup
import Mathlib.Tactic.Push
import Mathlib.Tactic.Ring
import Mathlib.Order.Basic

/-! The invariant of the pool of processes. -/

set_option linter.unusedSectionVars false
set_option linter.unusedSimpArgs false

namespace Verif
variable {R : Type} {target : Nat → R} {seed : Nat → Nat}

/-- The worker has put its result. -/
def WorkerState.hasPut : WorkerState → Bool
  | .running => false
  | .pushed => true
  | .exited _ b => b

/-- The workers that have put their results. -/
def putBy (procs : List WorkerState) : List Nat := (List.range procs.length).filter fun w => (procs[w]?.map WorkerState.hasPut).getD false

theorem putBy_set {procs : List WorkerState} {w : Nat} {s s' : WorkerState} (h : procs[w]? = some s) (hs : s'.hasPut = s.hasPut) :
    putBy (procs.set w s') = putBy procs := by
  unfold putBy
  rw [List.length_set]
  apply List.filter_congr
  intro v _
  rw [List.getElem?_set]
  split
  · next hv =>
      subst hv
      have : w < procs.length := by
        by_contra hc
        rw [List.getElem?_eq_none (by omega)] at h
        cases h
      rw [if_pos this, h]
      simp [hs]
  · rfl

theorem putBy_append (procs : List WorkerState) : putBy (procs ++ [.running]) = putBy procs := by
  unfold putBy
  rw [List.length_append, List.length_singleton, List.range_succ, List.filter_append]
  have h1 : List.filter (fun w => ((procs ++ [WorkerState.running])[w]?.map WorkerState.hasPut).getD false) [procs.length] = [] := by
    simp [WorkerState.hasPut]
  rw [h1, List.append_nil]
  apply List.filter_congr
  intro v hv
  rw [List.getElem?_append_left (List.mem_range.1 hv)]

theorem putBy_put {procs : List WorkerState} {w : Nat} {s s' : WorkerState} (h : procs[w]? = some s) (hs : s.hasPut = false) (hs' : s'.hasPut = true) :
    (putBy (procs.set w s')).Perm (putBy procs ++ [w]) := by
  have hw : w < procs.length := by
    by_contra hc
    rw [List.getElem?_eq_none (by omega)] at h
    cases h
  have hn : w ∉ putBy procs := by
    simp [putBy, h, hs]
  refine (List.perm_ext_iff_of_nodup ?_ ?_).2 fun v => ?_
  · exact List.nodup_range.filter _
  · exact List.Nodup.append (List.nodup_range.filter _) (List.nodup_singleton w) (by simpa using hn)
  · simp only [putBy, List.mem_filter, List.mem_range, List.length_set, List.getElem?_set, List.mem_append, List.mem_singleton]
    by_cases hv : w = v
    · subst hv
      simp [hw, hs']
    · have hv' : ¬ v = w := fun h => hv h.symm
      simp [hv, hv']

/-- The invariant of the pool. -/
structure PoolInv (target : Nat → R) (seed : Nat → Nat) (cpus n : Nat) (p : Pool R) : Prop where
  n_eq : p.n = n
  len : p.slots.length = cpus
  started : p.procs.length + p.toGo = n
  inSlot : ∀ i w : Nat, p.slots[i]? = some (some w) → w < p.procs.length
  inj : ∀ i j w : Nat, p.slots[i]? = some (some w) → p.slots[j]? = some (some w) → i = j
  gone : ∀ w < p.procs.length, (∀ i : Nat, p.slots[i]? ≠ some (some w)) → ∃ code put, p.procs[w]? = some (.exited code put) ∧ code ≤ 0
  code : ∀ w : Nat, p.procs[w]? ≠ some (.exited 0 false)
  res : (p.results ++ p.queue).Perm ((putBy p.procs).map fun w => target (seed w))
  pc : match p.pc with
    | .collect k => p.toGo = 0 ∧ (∀ i w : Nat, p.slots[i]? ≠ some (some w)) ∧ p.results.length + k = n
    | .done (.ok rs) => p.toGo = 0 ∧ (∀ i w : Nat, p.slots[i]? ≠ some (some w)) ∧ rs = p.results ∧ p.results.length = n
    | .done (.error e) =>
        e = .runtimeError ∧ (∃ (w : Nat) (code : Int) (put : Bool), p.procs[w]? = some (.exited code put) ∧ 0 < code) ∨
        e = .empty ∧ p.toGo = 0 ∧ (∀ i w : Nat, p.slots[i]? ≠ some (some w)) ∧ p.queue = [] ∧ p.results.length < n
    | _ => True

theorem PoolInv.init (target : Nat → R) (seed : Nat → Nat) (cpus n : Nat) : PoolInv target seed cpus n (poolStart cpus n) := by
  refine ⟨rfl, by simp [poolStart], by simp [poolStart], ?_, ?_, ?_, ?_, ?_, trivial⟩
  · intro i w h
    simp only [poolStart, List.getElem?_replicate] at h
    split at h <;> simp at h
  · intro i j w h
    simp only [poolStart, List.getElem?_replicate] at h
    split at h <;> simp at h
  · intro w hw; simp [poolStart] at hw
  · intro w; simp [poolStart]
  · simp [poolStart, putBy]

theorem lt_of_some {α : Type} {l : List α} {i : Nat} {a : α} (h : l[i]? = some a) : i < l.length := by
  by_contra hc
  rw [List.getElem?_eq_none (by omega)] at h
  cases h

/-- A change of the state of a worker that is alive. -/
theorem PoolInv.env {cpus n : Nat} {p : Pool R} (h : PoolInv target seed cpus n p) {w : Nat} {s s' : WorkerState} {q : List R}
    (hw : p.procs[w]? = some s) (ha : s.alive = true) (hc : s' ≠ .exited 0 false)
    (hq : (p.results ++ q).Perm ((putBy (p.procs.set w s')).map fun w => target (seed w))) :
    PoolInv target seed cpus n { p with procs := p.procs.set w s', queue := q } := by
  have hlt := lt_of_some hw
  have hget : ∀ v : Nat, (p.procs.set w s')[v]? = if v = w then some s' else p.procs[v]? := by
    intro v
    rw [List.getElem?_set]
    by_cases hv : v = w
    · subst hv; simp [hlt]
    · have : ¬ w = v := fun h => hv h.symm
      simp [hv, this]
  have hslot : ∃ i : Nat, p.slots[i]? = some (some w) := by
    by_contra hne
    push Not at hne
    obtain ⟨code, put, h1, _⟩ := h.gone w hlt hne
    rw [hw] at h1
    cases h1
    cases ha
  refine ⟨h.n_eq, h.len, by simpa using h.started, fun i v hv => by simpa using h.inSlot i v hv, h.inj, fun v hv hn => ?_, fun v hv => ?_, hq, ?_⟩
  · have hvw : v ≠ w := by
      rintro rfl
      obtain ⟨i, hi⟩ := hslot
      exact hn i hi
    simp only [hget, if_neg hvw]
    exact h.gone v (by simpa using hv) hn
  · simp only [hget] at hv
    split at hv
    · cases hv; exact hc rfl
    · exact h.code v hv
  · have hpc := h.pc
    obtain ⟨i, hi⟩ := hslot
    show match p.pc with
      | .collect k => _
      | .done (.ok rs) => _
      | .done (.error e) => _
      | _ => True
    split
    · next k hk => rw [hk] at hpc; exact hpc
    · next rs hk => rw [hk] at hpc; exact hpc
    · next e hk =>
        rw [hk] at hpc
        rcases hpc with ⟨h1, v, code, put, h2, h3⟩ | ⟨h1, h2, h3, h4⟩
        · refine .inl ⟨h1, v, code, put, ?_, h3⟩
          have hvw : v ≠ w := by
            rintro rfl
            rw [hw] at h2
            cases h2
            cases ha
          simp only [hget, if_neg hvw]
          exact h2
        · exact absurd hi (h3 i w)
    · trivial

/-- A worker that is alive exits. -/
theorem PoolInv.exits {cpus n : Nat} {p : Pool R} (h : PoolInv target seed cpus n p) {w : Nat} {s s' : WorkerState}
    (hw : p.procs[w]? = some s) (ha : s.alive = true) (hc : s' ≠ .exited 0 false) (hs : s'.hasPut = s.hasPut) :
    PoolInv target seed cpus n { p with procs := p.procs.set w s' } :=
  h.env hw ha hc (by rw [putBy_set hw hs]; exact h.res)

/-- A change of the place of the parent. -/
theorem PoolInv.goto {cpus n : Nat} {p : Pool R} (h : PoolInv target seed cpus n p) {pc : PoolPc R} (hpc : ∀ k, pc ≠ .collect k) (hd : ∀ r, pc ≠ .done r) :
    PoolInv target seed cpus n { p with pc := pc } := by
  refine ⟨h.n_eq, h.len, h.started, h.inSlot, h.inj, h.gone, h.code, h.res, ?_⟩
  cases pc with
  | collect k => exact absurd rfl (hpc k)
  | done r => exact absurd rfl (hd r)
  | _ => trivial

theorem PoolInv.clean {cpus n : Nat} {p : Pool R} (h : PoolInv target seed cpus n p) (i : Nat) : PoolInv target seed cpus n (p.cleanSlot i) := by
  unfold Pool.cleanSlot
  split
  · exact h.goto (by simp) (by simp)
  · exact h.goto (by simp) (by simp)
  · next w hw =>
      split
      · next code put hp =>
          split
          · next hc =>
              refine ⟨h.n_eq, h.len, h.started, h.inSlot, h.inj, h.gone, h.code, h.res, ?_⟩
              exact .inl ⟨rfl, w, code, put, hp, hc⟩
          · next hc =>
              have hi := lt_of_some hw
              have hget : ∀ j : Nat, ∀ v, (p.slots.set i none)[j]? = some (some v) → j ≠ i ∧ p.slots[j]? = some (some v) := by
                intro j v hj
                rw [List.getElem?_set] at hj
                split at hj
                · next hij => subst hij; simp [hi] at hj
                · next hij => exact ⟨fun h => hij h.symm, hj⟩
              refine ⟨h.n_eq, by simpa using h.len, h.started, fun j v hj => h.inSlot j v (hget j v hj).2,
                fun j k v hj hk => h.inj j k v (hget j v hj).2 (hget k v hk).2, fun v hv hn => ?_, h.code, h.res, trivial⟩
              by_cases hvw : v = w
              · subst hvw
                exact ⟨code, put, hp, by omega⟩
              · refine h.gone v hv fun j hj => ?_
                have hji : j ≠ i := by
                  rintro rfl
                  rw [hw] at hj
                  cases hj
                  exact hvw rfl
                refine hn j ?_
                show (p.slots.set i none)[j]? = _
                rw [List.getElem?_set, if_neg (fun h => hji h.symm)]
                exact hj
      · exact h.goto (by simp) (by simp)

theorem PoolInv.fill {cpus n : Nat} {p : Pool R} (h : PoolInv target seed cpus n p) (i : Nat) : PoolInv target seed cpus n (p.fillSlot i) := by
  unfold Pool.fillSlot
  split
  · exact h.goto (by simp) (by simp)
  · exact h.goto (by simp) (by simp)
  · next hs =>
      split
      · next ht =>
          have hi := lt_of_some hs
          have hget : ∀ j : Nat, ∀ v, (p.slots.set i (some p.procs.length))[j]? = some (some v) →
              (j = i ∧ v = p.procs.length) ∨ p.slots[j]? = some (some v) := by
            intro j v hj
            rw [List.getElem?_set] at hj
            split at hj
            · next hij => subst hij; simp [hi] at hj; exact .inl ⟨rfl, hj.symm⟩
            · exact .inr hj
          have hst := h.started
          refine ⟨h.n_eq, by simpa using h.len, by simp; omega, fun j v hj => ?_, fun j k v hj hk => ?_, fun v hv hn => ?_, fun v hv => ?_, ?_, trivial⟩
          · rcases hget j v hj with ⟨_, rfl⟩ | hj
            · simp
            · have := h.inSlot j v hj; simp; omega
          · rcases hget j v hj with ⟨h1, h2⟩ | hj' <;> rcases hget k v hk with ⟨h3, h4⟩ | hk'
            · omega
            · have := h.inSlot k v hk'; omega
            · have := h.inSlot j v hj'; omega
            · exact h.inj j k v hj' hk'
          · simp only [List.length_append, List.length_singleton] at hv
            rcases Nat.lt_succ_iff_lt_or_eq.1 hv with hv | hv
            · rw [List.getElem?_append_left hv]
              refine h.gone v hv fun j hj => ?_
              refine hn j ?_
              show (p.slots.set i _)[j]? = _
              have hij : ¬ i = j := by
                rintro rfl
                rw [hs] at hj
                cases hj
              rw [List.getElem?_set, if_neg hij]
              exact hj
            · refine absurd ?_ (hn i)
              show (p.slots.set i _)[i]? = _
              rw [hv]
              simp [hi]
          · rcases Nat.lt_or_ge v p.procs.length with hv' | hv'
            · rw [List.getElem?_append_left hv'] at hv
              exact h.code v hv
            · rw [List.getElem?_append_right hv'] at hv
              rcases hx : v - p.procs.length with _ | y <;> rw [hx] at hv <;> simp at hv
          · show (p.results ++ p.queue).Perm ((putBy (p.procs ++ [.running])).map _)
            rw [putBy_append]
            exact h.res
      · exact h.goto (by simp) (by simp)

theorem putBy_length_le (procs : List WorkerState) : (putBy procs).length ≤ procs.length := by
  unfold putBy
  refine le_trans (List.length_filter_le _ _) ?_
  simp

theorem PoolInv.res_le {cpus n : Nat} {p : Pool R} (h : PoolInv target seed cpus n p) : p.results.length + p.queue.length ≤ n := by
  have h1 := h.res.length_eq
  rw [List.length_append, List.length_map] at h1
  have h2 := putBy_length_le p.procs
  have h3 := h.started
  omega

theorem PoolInv.parent {cpus n : Nat} {p : Pool R} (h : PoolInv target seed cpus n p) : PoolInv target seed cpus n p.parent := by
  have hle := h.res_le
  unfold Pool.parent
  split
  · split
    · exact h.goto (by simp) (by simp)
    · next hs =>
        refine ⟨h.n_eq, h.len, h.started, h.inSlot, h.inj, h.gone, h.code, h.res, ?_⟩
        simp only [Pool.stillWorking, Bool.or_eq_true, decide_eq_true_eq, List.any_eq_true, not_or, not_exists, not_and] at hs
        refine ⟨Nat.eq_zero_of_not_pos hs.1, fun i w hw => ?_, ?_⟩
        swap
        · show p.results.length + (p.n - p.results.length) = n
          rw [h.n_eq]; omega
        exact hs.2 _ (List.mem_of_getElem? hw) rfl
  · exact h.clean _
  · exact h.fill _
  · unfold Pool.getOne
    split
    · exact h.goto (by simp) (by simp)
    · next x q hq =>
        refine ⟨h.n_eq, h.len, h.started, h.inSlot, h.inj, h.gone, h.code, ?_, trivial⟩
        have := h.res
        rw [hq] at this
        simpa using this
  · next k hk =>
      have hpc := h.pc
      rw [hk] at hpc
      obtain ⟨h1, h2, h3⟩ := hpc
      cases k with
      | zero => exact ⟨h.n_eq, h.len, h.started, h.inSlot, h.inj, h.gone, h.code, h.res, h1, h2, rfl, h3⟩
      | succ k =>
          unfold Pool.collectOne
          simp only
          split
          · next hq => exact ⟨h.n_eq, h.len, h.started, h.inSlot, h.inj, h.gone, h.code, h.res, .inr ⟨rfl, h1, h2, hq, by show p.results.length < n; omega⟩⟩
          · next x q hq =>
              refine ⟨h.n_eq, h.len, h.started, h.inSlot, h.inj, h.gone, h.code, ?_, h1, h2, ?_⟩
              · have := h.res
                rw [hq] at this
                simpa using this
              · simp; omega
  · exact h

theorem PoolInv.step {cpus n : Nat} {p : Pool R} (h : PoolInv target seed cpus n p) (e : PoolEvent) :
    PoolInv target seed cpus n (p.step target seed e) := by
  cases e with
  | parent => exact h.parent
  | put w =>
      unfold Pool.step
      simp only
      split
      · next hw =>
          refine h.env hw rfl (by simp) ?_
          rw [← List.append_assoc]
          refine (h.res.append_right _).trans ?_
          refine List.Perm.trans ?_ ((putBy_put hw rfl rfl).map _).symm
          rw [List.map_append]
          exact List.Perm.refl _
      · exact h
  | exit w =>
      unfold Pool.step
      simp only
      split
      · next hw => exact h.exits hw rfl (by simp) rfl
      · exact h
  | fail w code =>
      unfold Pool.step
      simp only
      split
      · next hw => exact h.exits hw rfl (by simp; omega) rfl
      · exact h
  | kill w signal =>
      unfold Pool.step
      simp only
      split
      · next hw => exact h.exits hw rfl (by simp; omega) rfl
      · next hw => exact h.exits hw rfl (by simp) rfl
      · exact h

theorem pool_inv (target : Nat → R) (seed : Nat → Nat) (cpus n : Nat) (es : List PoolEvent) :
    PoolInv target seed cpus n ((poolStart cpus n).run target seed es) := by
  have : ∀ p : Pool R, PoolInv target seed cpus n p → PoolInv target seed cpus n (p.run target seed es) := by
    induction es with
    | nil => intro p h; exact h
    | cons e es ih => intro p h; exact ih _ (h.step e)
  exact this _ (.init target seed cpus n)

/-- All workers have exited when no slot is occupied. -/
theorem PoolInv.all_gone {cpus n : Nat} {p : Pool R} (h : PoolInv target seed cpus n p) (h0 : p.toGo = 0) (hs : ∀ i w : Nat, p.slots[i]? ≠ some (some w)) :
    p.procs.length = n ∧ ∀ w < n, ∃ code put, p.procs[w]? = some (.exited code put) ∧ code ≤ 0 := by
  have := h.started
  have hn : p.procs.length = n := by omega
  exact ⟨hn, fun w hw => h.gone w (by omega) fun i => hs i w⟩

/-- At most as many workers as slots are alive. -/
theorem PoolInv.alive_le {cpus n : Nat} {p : Pool R} (h : PoolInv target seed cpus n p) : p.procs.countP WorkerState.alive ≤ cpus := by
  have e1 : p.procs.countP WorkerState.alive = ((List.range p.procs.length).filter fun w => (p.procs[w]?.map WorkerState.alive).getD false).length := by
    generalize p.procs = l
    induction l using List.reverseRecOn with
    | nil => rfl
    | append_singleton l a ih =>
        rw [List.countP_append, ih, List.length_append, List.length_singleton, List.range_succ, List.filter_append, List.length_append]
        congr 1
        · congr 1
          apply List.filter_congr
          intro v hv
          rw [List.getElem?_append_left (List.mem_range.1 hv)]
        · cases ha : a.alive <;> simp [ha]
  rw [e1, ← h.len]
  refine le_trans ?_ (List.length_filterMap_le id p.slots)
  refine (List.Nodup.subperm (List.nodup_range.filter _) fun w hw => ?_).length_le
  simp only [List.mem_filter, List.mem_range] at hw
  by_contra hc
  have hne : ∀ i : Nat, p.slots[i]? ≠ some (some w) := by
    intro i hi
    exact hc (List.mem_filterMap.2 ⟨_, List.mem_of_getElem? hi, rfl⟩)
  obtain ⟨code, put, h1, _⟩ := h.gone w hw.1 hne
  rw [h1] at hw
  simp [WorkerState.alive] at hw

end Verif
