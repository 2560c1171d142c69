import Verif.Spec.Solve
import Verif.Props.GraphPolicy

/-! Proofs about the external solver and the files (C96). -/

set_option linter.unusedSectionVars false
set_option linter.unusedSimpArgs false

namespace Verif
open Spec

/-! ### Lines -/

theorem fileLines_line : ∀ (u t : List Char), '\n' ∉ u → fileLines (u ++ '\n' :: t) = (u ++ ['\n']) :: fileLines t
  | [], t, _ => by simp [fileLines]
  | c :: u, t, h => by
      simp only [List.mem_cons, not_or] at h
      have ih := fileLines_line u t h.2
      rw [List.cons_append, fileLines, if_neg (fun e => h.1 e.symm), ih]
      rfl

theorem fileLines_last : ∀ u : List Char, '\n' ∉ u → u ≠ [] → fileLines u = [u]
  | [], _, h => absurd rfl h
  | [c], h, _ => by
      simp only [List.mem_cons, not_or] at h
      rw [fileLines, if_neg (fun e => h.1 e.symm)]
      rfl
  | c :: d :: u, h, _ => by
      have ih := fileLines_last (d :: u) (fun e => h (List.mem_cons_of_mem _ e)) (by simp)
      simp only [List.mem_cons, not_or] at h
      rw [fileLines, if_neg (fun e => h.1 e.symm), ih]

theorem fileLines_eq : ∀ (ls : List (List Char)) (t : List Char), Lines t ls → fileLines t = ls := by
  intro ls
  induction ls with
  | nil =>
      rintro t ⟨h, _⟩
      rw [h]
      rfl
  | cons l ls ih =>
      rintro t ⟨h1, h2⟩
      obtain ⟨u, hu, h3⟩ := h2 0 l rfl
      have hrest : Lines ls.flatten ls := by
        refine ⟨rfl, fun i k hk => ?_⟩
        obtain ⟨v, hv, h4⟩ := h2 (i + 1) k hk
        refine ⟨v, hv, h4.imp_right fun h => ⟨by simpa using h.1, h.2⟩⟩
      rcases h3 with rfl | ⟨h3, h4, rfl⟩
      · rw [h1, List.flatten_cons, List.append_assoc, List.singleton_append, fileLines_line u _ hu, ih _ hrest]
      · have : ls = [] := List.eq_nil_of_length_eq_zero (by simpa using h3.symm)
        rw [h1, this]
        simp only [List.flatten_cons, List.flatten_nil, List.append_nil]
        exact fileLines_last l hu h4

/-! ### Directories -/

theorem below_iff (d e : List String) : d.isPrefixOf e = true ↔ Below d e := by
  rw [List.isPrefixOf_iff_prefix]
  exact ⟨fun ⟨l, h⟩ => ⟨l, h.symm⟩, fun ⟨l, h⟩ => ⟨l, h.symm⟩⟩

theorem below_self (d : List String) : Below d d := ⟨[], by simp⟩

theorem rmtree_eq (x y : Disk) (d : List String) (hn : NoSuchDir x d) (h1 : ∀ e, ¬ Below d e → y.dirs e = x.dirs e)
    (h2 : ∀ f, ¬ Below d f.dir → y.files f = x.files f) : y.rmtree d = x := by
  obtain ⟨xd, xf⟩ := x
  unfold Disk.rmtree
  congr 1
  · funext e
    by_cases he : Below d e
    · rw [if_pos ((below_iff d e).2 he)]
      exact (hn.1 e he).symm
    · rw [if_neg (fun h => he ((below_iff d e).1 h))]
      exact h1 e he
  · funext f
    by_cases he : Below d f.dir
    · rw [if_pos ((below_iff d f.dir).2 he)]
      exact (hn.2 f he).symm
    · rw [if_neg (fun h => he ((below_iff d f.dir).1 h))]
      exact h2 f he

/-- Outside of `d` the disks are the same. -/
def SameOutside (d : List String) (x y : Disk) : Prop := (∀ e, ¬ Below d e → y.dirs e = x.dirs e) ∧ ∀ f, ¬ Below d f.dir → y.files f = x.files f

theorem sameOutside_trans {d : List String} {x y z : Disk} (h1 : SameOutside d x y) (h2 : SameOutside d y z) : SameOutside d x z :=
  ⟨fun e he => (h2.1 e he).trans (h1.1 e he), fun f hf => (h2.2 f hf).trans (h1.2 f hf)⟩

theorem sameOutside_mkdir (d : List String) (x : Disk) : SameOutside d x (x.mkdir d) := by
  refine ⟨fun e he => ?_, fun f _ => rfl⟩
  exact if_neg (fun h => he (by rw [h]; exact below_self d))

theorem sameOutside_write (d : List String) (x : Disk) (n : String) (t : List Char) : SameOutside d x (x.write ⟨d, n⟩ t) := by
  refine ⟨fun e _ => rfl, fun f hf => ?_⟩
  exact if_neg (fun h => hf (by rw [h]; exact below_self d))

/-! ### The steps -/

theorem readText_run (f : FilePath) (w : World) : (readText f w).2 = w := by
  unfold readText
  cases w.disk.files f <;> rfl

theorem readText_some {f : FilePath} {w : World} {t : List Char} (h : w.disk.files f = some t) : readText f w = (.ok t, w) := by
  unfold readText
  rw [h]

theorem readText_none {f : FilePath} {w : World} (h : w.disk.files f = none) : readText f w = (.error .osError, w) := by
  unfold readText
  rw [h]

theorem loadFrom_run (mach : Machine) (p : Pomdp) (d : List String) (name : String) (w : World) : (p.loadFrom mach d name w).2 = w := by
  unfold Pomdp.loadFrom
  rw [M.bind_run]
  have h1 := readText_run ⟨d, name ++ ".alpha"⟩ w
  rcases h : readText ⟨d, name ++ ".alpha"⟩ w with ⟨r, w1⟩
  rw [h] at h1
  obtain rfl : w1 = w := h1
  cases r with
  | error e => rfl
  | ok alpha =>
      simp only [M.bind_run, M.lift]
      cases parseValueFunction mach.fromstring (fileLines alpha) with
      | error e => rfl
      | ok vf =>
          have h2 := readText_run ⟨d, name ++ ".pg"⟩ w1
          rcases h : readText ⟨d, name ++ ".pg"⟩ w1 with ⟨r, w2⟩
          rw [h] at h2
          obtain rfl : w2 = w1 := h2
          simp only [h]
          cases r <;> rfl

/-- The disk when the solver is called. -/
def solverDisk (x : Disk) (d : List String) (t : List Char) : Disk := ((x.mkdir d).write ⟨d, "tosolve.pomdp"⟩ []).write ⟨d, "tosolve.pomdp"⟩ t

/-- The call of the solver. -/
def solverCall (mach : Machine) (p : Pomdp) (timeout nIterations : Option Int) (method : String) (gridType : Option String) (seed : Option Int)
    (verbose : Bool) (d : List String) : Call :=
  ⟨p.solverPath, solveArgs mach.randint timeout nIterations method gridType seed ++
    ["-o", "tosolve", "-pomdp", (⟨d, "tosolve.pomdp"⟩ : FilePath).text], d, !verbose⟩

theorem dumpTo_ok (mach : Machine) (p : Pomdp) (d : List String) (x : Disk) (cs : List (Call × Disk)) (t : String)
    (h : p.dump mach.fmt mach.strNum = .ok t) :
    p.dumpTo mach d "tosolve" ⟨x.mkdir d, cs⟩ = (.ok ⟨d, "tosolve.pomdp"⟩, ⟨solverDisk x d t.toList, cs⟩) := by
  unfold Pomdp.dumpTo
  have ho : openWrite ⟨d, "tosolve" ++ ".pomdp"⟩ ⟨x.mkdir d, cs⟩ = (.ok (), ⟨(x.mkdir d).write ⟨d, "tosolve.pomdp"⟩ [], cs⟩) := by
    unfold openWrite Disk.mkdir
    simp
  refine (M.bind_of_ok ho).trans ?_
  rw [M.bind_run]
  simp only [M.lift, h]
  rfl

theorem dumpTo_error (mach : Machine) (p : Pomdp) (d : List String) (x : Disk) (cs : List (Call × Disk)) (e : PyErr)
    (h : p.dump mach.fmt mach.strNum = .error e) :
    p.dumpTo mach d "tosolve" ⟨x.mkdir d, cs⟩ = (.error e, ⟨(x.mkdir d).write ⟨d, "tosolve.pomdp"⟩ [], cs⟩) := by
  unfold Pomdp.dumpTo
  have ho : openWrite ⟨d, "tosolve" ++ ".pomdp"⟩ ⟨x.mkdir d, cs⟩ = (.ok (), ⟨(x.mkdir d).write ⟨d, "tosolve.pomdp"⟩ [], cs⟩) := by
    unfold openWrite Disk.mkdir
    simp
  refine (M.bind_of_ok ho).trans ?_
  rw [M.bind_run]
  simp only [M.lift, h]

theorem solve_dump_error (mach : Machine) (p : Pomdp) (timeout nIterations : Option Int) (method : String) (gridType : Option String)
    (seed : Option Int) (verbose : Bool) (w : World) (d : List String) (e : PyErr) (hd : mach.mkdtemp = .ok d)
    (h : p.dump mach.fmt mach.strNum = .error e) :
    p.solve mach timeout nIterations method gridType seed verbose w =
      (.error e, ⟨((w.disk.mkdir d).write ⟨d, "tosolve.pomdp"⟩ []).rmtree d, w.calls⟩) := by
  unfold Pomdp.solve withTemp
  simp only [hd]
  rw [M.bind_of_error (dumpTo_error mach p d w.disk w.calls e h)]

/-- What is done after the model has been written. -/
theorem solve_run (mach : Machine) (p : Pomdp) (timeout nIterations : Option Int) (method : String) (gridType : Option String)
    (seed : Option Int) (verbose : Bool) (w : World) (d : List String) (t : String) (hd : mach.mkdtemp = .ok d)
    (h : p.dump mach.fmt mach.strNum = .ok t) :
    let c := solverCall mach p timeout nIterations method gridType seed verbose d
    let x := solverDisk w.disk d t.toList
    let y := (mach.solver c x).2
    (p.solve mach timeout nIterations method gridType seed verbose w).2 = ⟨y.rmtree d, w.calls ++ [(c, x)]⟩ ∧
    (∀ e, (mach.solver c x).1 = .error e → (p.solve mach timeout nIterations method gridType seed verbose w).1 = .error e) ∧
    (∀ code, code ≠ 0 → (mach.solver c x).1 = .ok code →
      (p.solve mach timeout nIterations method gridType seed verbose w).1 = .error .calledProcessError) ∧
    ((mach.solver c x).1 = .ok 0 → (p.solve mach timeout nIterations method gridType seed verbose w).1 =
      (p.loadFrom mach d "tosolve" ⟨y, w.calls ++ [(c, x)]⟩).1) := by
  intro c x y
  have hrun : p.solve mach timeout nIterations method gridType seed verbose w =
      (let r := (checkCall mach.solver c >>= fun _ => p.loadFrom mach d "tosolve") ⟨x, w.calls⟩
       (r.1, { r.2 with disk := r.2.disk.rmtree d })) := by
    unfold Pomdp.solve withTemp
    simp only [hd]
    rw [M.bind_of_ok (dumpTo_ok mach p d w.disk w.calls t h)]
    rfl
  rw [hrun]
  rcases hs : mach.solver c x with ⟨r, y'⟩
  have hy : y' = y := by show y' = (mach.solver c x).2; rw [hs]
  subst hy
  cases r with
  | error e =>
      have hc : checkCall mach.solver c ⟨x, w.calls⟩ = (.error e, ⟨y, w.calls ++ [(c, x)]⟩) := by
        unfold checkCall
        rw [hs]
      rw [M.bind_of_error hc]
      refine ⟨rfl, ?_, ?_, ?_⟩
      · intro e' he; injection he with he; rw [he]
      · intro code _ he; cases he
      · intro he; cases he
  | ok code =>
      by_cases hz : code = 0
      · have hc : checkCall mach.solver c ⟨x, w.calls⟩ = (.ok (), ⟨y, w.calls ++ [(c, x)]⟩) := by
          unfold checkCall
          rw [hs]
          simp [hz]
        rw [M.bind_of_ok hc]
        refine ⟨?_, ?_, ?_, ?_⟩
        · simp only [loadFrom_run]
        · intro e' he; cases he
        · intro code' hne he; injection he with he; exact absurd (he.symm.trans hz) hne
        · intro _; rfl
      · have hc : checkCall mach.solver c ⟨x, w.calls⟩ = (.error .calledProcessError, ⟨y, w.calls ++ [(c, x)]⟩) := by
          unfold checkCall
          rw [hs]
          simp [hz]
        rw [M.bind_of_error hc]
        refine ⟨rfl, ?_, ?_, ?_⟩
        · intro e' he; cases he
        · intro code' _ _; rfl
        · intro he; injection he with he; exact absurd he hz

theorem solverDisk_outside (x : Disk) (d : List String) (t : List Char) : SameOutside d x (solverDisk x d t) :=
  sameOutside_trans (sameOutside_trans (sameOutside_mkdir d x) (sameOutside_write d _ _ _)) (sameOutside_write d _ _ _)

/-! ### Options -/

theorem optionIn_append (a b : List String) (key : String) (ha : a.length % 2 = 0) :
    optionIn (a ++ b) key = (optionIn a key).or (optionIn b key) := by
  induction a using List.twoStepInduction with
  | nil => simp [optionIn]
  | singleton x => simp at ha
  | cons_cons x y a ih _ =>
      rw [List.cons_append, List.cons_append, optionIn, optionIn]
      by_cases h : x = key
      · rw [if_pos h, if_pos h]; rfl
      · rw [if_neg h, if_neg h]
        exact ih (by simp at ha ⊢; omega)

/-! ### The policy -/

theorem pyMax_lt : ∀ (l : List Int) (b : Int), l ≠ [] → (∀ a ∈ l, a < b) → ∃ m, pyMax l = .ok m ∧ m < b := by
  intro l b hne h
  cases l with
  | nil => exact absurd rfl hne
  | cons x xs =>
      refine ⟨xs.foldl max x, rfl, ?_⟩
      have key : ∀ (ys : List Int) (y : Int), y < b → (∀ a ∈ ys, a < b) → ys.foldl max y < b := by
        intro ys
        induction ys with
        | nil => intro y hy _; exact hy
        | cons z ys ih =>
            intro y hy hz
            exact ih (max y z) (max_lt hy (hz z (by simp))) fun a ha => hz a (by simp [ha])
      exact key xs x (h x (by simp)) fun a ha => h a (by simp [ha])

theorem names_ok (p : Pomdp) : ∀ as : List Int, (∀ a ∈ as, 0 ≤ a ∧ a < p.actions.length) →
    ∃ names, (as.mapM fun a => (do
      let i ← pyIndex p.actions.length a
      listGet p.actions i : Py Name)) = .ok names ∧ List.Forall₂ (fun a n => p.actions[a.toNat]? = some n) as names := by
  intro as
  induction as with
  | nil => intro _; exact ⟨[], rfl, .nil⟩
  | cons a as ih =>
      intro h
      obtain ⟨names, h1, h2⟩ := ih fun b hb => h b (by simp [hb])
      obtain ⟨h0, hlt⟩ := h a (by simp)
      have hn : a.toNat < p.actions.length := by omega
      refine ⟨p.actions[a.toNat] :: names, ?_, .cons (List.getElem?_eq_getElem hn) h2⟩
      rw [List.mapM_cons, h1]
      simp only [pyIndex, h0, hlt, and_self, if_true, bind, Except.bind, listGet, List.getElem?_eq_getElem hn, pure, Except.pure]

end Verif
