import Verif.Props.Async
import Verif.Proof.AsyncWp

/-! The node and the action that the exploration thread uses. -/

set_option linter.unusedSectionVars false
set_option linter.unusedSimpArgs false

namespace Verif
open Spec
variable {σ β η : Type} [DecidableEq β]

/-- What only the caller changes. -/
structure CallerView where
  tnode : Nat
  taction : Option Nat
  node : Nat
  last : Option Nat
  history : List (Nat × Nat)

/-- The part of the state that only the caller changes. -/
def callerView (s : AsyncState σ β) : CallerView := ⟨s.tnode, s.taction, s.runner.node, s.runner.last, s.runner.history⟩

theorem callerView_search (s : AsyncState σ β) (t : SearchState σ β) :
    callerView { s with runner := { s.runner with search := t } } = callerView s := rfl

/-- What holds when a method returns. -/
def Aimed (S : Search σ β η) (op : AsyncOp) (r : Py Out) (v : CallerView) : Prop :=
  v.tnode = v.node ∧
  match op, r with
  | .step _, .ok _ => v.taction = none
  | .reset _, .ok _ => v.taction = none
  | .getAction _, .ok r => ∃ a n, r = .name n ∧ v.last = some a ∧ v.taction = some a ∧ S.sim.actions[a]? = some n
  | _, _ => True

theorem Aimed.error {S : Search σ β η} {op : AsyncOp} {e : PyErr} {v : CallerView} (h : v.tnode = v.node) : Aimed S op (.error e) v :=
  ⟨h, by cases op <;> trivial⟩

theorem setNode_wp (S : Search σ β η) (it : Nat) (v : CallerView) (Q : Py Out → CallerView → Prop)
    (h : Q (.ok .unit) { v with tnode := v.node, taction := none }) :
    WpRes callerView (Body.setNode.prog S it) v Q := by
  apply WpRes.bind
  intro s hs
  subst hs
  exact h

theorem setAction_wp (S : Search σ β η) (it : Nat) (v : CallerView) (Q : Py Out → CallerView → Prop)
    (h : Q (.ok .unit) { v with taction := v.last }) : WpRes callerView (Body.setAction.prog S it) v Q := by
  apply WpRes.bind
  intro s hs
  subst hs
  exact h

theorem getAction_wp (S : Search σ β η) (it : Nat) (v : CallerView) (Q : Py Out → CallerView → Prop)
    (he : ∀ e l, Q (.error e) { v with last := l })
    (h : ∀ a n, S.sim.actions[a]? = some n → Q (.ok (.name n)) { v with last := some a }) :
    WpRes callerView (getActionR S it) v Q := by
  unfold getActionR
  apply WpRes.bind
  refine WpRes.read fun s hs => ?_
  apply WpRes.bind
  refine WpRes.tree callerView_search _ fun r => ?_
  cases r with
  | error e => exact he e v.last
  | ok _ =>
      apply WpRes.bind
      refine WpRes.tree callerView_search _ fun r => ?_
      cases r with
      | error e => exact he e v.last
      | ok a =>
          apply WpRes.bind
          intro s' hs'
          have : callerView (M.modify (fun st : AsyncState σ β => { st with runner := { st.runner with last := some a } }) s').2 =
              { v with last := some a } := by rw [← hs']; rfl
          rw [this]
          show WpRes callerView _ _ Q
          apply WpRes.bind
          refine WpRes.lift ?_
          rcases hn : S.sim.actions[a]? with _ | n
          · exact he _ _
          · exact h a n hn

theorem step_wp (S : Search σ β η) (o : Name) (v : CallerView) (Q : Py Out → CallerView → Prop)
    (he : ∀ e, Q (.error e) v) (h : ∀ i hist, Q (.ok .unit) { v with node := i, history := hist }) :
    WpRes callerView (stepR S o) v Q := by
  unfold stepR
  apply WpRes.bind
  refine WpRes.read fun s hs => ?_
  apply WpRes.bind
  refine WpRes.lift ?_
  rcases s.runner.last with _ | a
  · exact he _
  · show WpRes callerView _ _ Q
    apply WpRes.bind
    refine WpRes.lift ?_
    rcases S.sim.obsIndex o with e | oi
    · exact he _
    · show WpRes callerView _ _ Q
      apply WpRes.bind
      refine WpRes.read fun s' hs' => ?_
      apply WpRes.bind
      refine WpRes.tree callerView_search _ fun r => ?_
      cases r with
      | error e => exact he e
      | ok i =>
          apply WpRes.bind
          intro s'' hs''
          have : callerView (M.modify (fun st : AsyncState σ β => { st with runner := { st.runner with
              node := i, history := s'.runner.history ++ [(a, oi)] } }) s'').2 =
              { v with node := i, history := s'.runner.history ++ [(a, oi)] } := by rw [← hs'']; rfl
          rw [this]
          exact h i _

theorem reset_wp (S : Search σ β η) (it : Nat) (given : Bool) (v : CallerView) (Q : Py Out → CallerView → Prop)
    (he : ∀ e, Q (.error e) v) (h : Q (.ok .unit) { v with node := 0, history := [], last := none }) :
    WpRes callerView ((Body.reset given).prog S it) v Q := by
  apply WpRes.bind
  intro s hs
  subst hs
  cases given with
  | true => exact he _
  | false => exact h

theorem script_wp (S : Search σ β η) (it : Nat) (op : AsyncOp) (v : CallerView) (hv : v.tnode = v.node) :
    WpCmds S it callerView op.script v (.ok .unit) (Aimed S op) := by
  cases op with
  | getAction k =>
      refine getAction_wp S it v _ (fun e l => Aimed.error hv) fun a n hn => ?_
      refine setAction_wp S it _ _ ⟨hv, a, n, rfl, rfl, rfl, hn⟩
  | step o =>
      refine step_wp S o v _ (fun e => Aimed.error hv) fun i hist => ?_
      exact setNode_wp S it _ _ ⟨rfl, rfl⟩
  | reset given =>
      refine reset_wp S it given v _ (fun e => Aimed.error hv) ?_
      exact setNode_wp S it _ _ ⟨rfl, rfl⟩
  | stop =>
      refine WpRes.bind ?_
      intro s hs
      have : callerView (M.modify (fun st : AsyncState σ β => { st with done := true }) s).2 = v := by rw [← hs]; rfl
      rw [this]
      exact ⟨hv, trivial⟩

/-- The invariant of the caller; `l` is the last return. -/
def AimInv (S : Search σ β η) (it : Nat) (m : Mach σ β) (l : Option (AsyncOp × Py Out)) : Prop :=
  match m.op with
  | none => m.sh.tnode = m.sh.runner.node ∧ ∀ op r, l = some (op, r) → Aimed S op r (callerView m.sh)
  | some op => WpStrand S it callerView m.caller (callerView m.sh) (Aimed S op)

theorem AimInv.move {S : Search σ β η} {it : Nat} {m m' : Mach σ β} {w : Who} {es : List Happening} {l : Option (AsyncOp × Py Out)}
    (he : ExpInv S it m) (hl : LockInv m) (h : AimInv S it m l) (hm : Move S it m w m' es) :
    AimInv S it m' (lastReturn l (es.map fun e => (w, e, m'.sh))) := by
  cases w with
  | explorer =>
      obtain ⟨⟨t, h1⟩, h2, h3⟩ := explorer_move he hm
      have hes : lastReturn l (es.map fun e => (Who.explorer, e, m'.sh)) = l := by cases hm <;> rfl
      rw [hes]
      unfold AimInv at h ⊢
      rw [h3, h2, h1]
      exact h
  | caller =>
      rcases ho : m.op with _ | op
      · have hq := hl.quiet ho
        have hna : ¬ m.active .caller := fun hx => hx ho
        cases hm with
        | act w b x k ha hc => exact absurd ha hna
        | finish w b r ha hc => exact absurd ha hna
        | acquire w rest ha hc ht hl => exact absurd ha hna
        | release w rest ha hc ht => exact absurd ha hna
        | join w rest ha hc ht he => exact absurd ha hna
        | start w b rest ha hc ht => exact absurd ha hna
        | returns op ho' hc ht => rw [ho] at ho'; cases ho'
        | call op ho' =>
            unfold AimInv at h
            rw [ho] at h
            exact script_wp S it op _ h.1
      · have hw : WpStrand S it callerView m.caller (callerView m.sh) (Aimed S op) := by
          unfold AimInv at h
          rw [ho] at h
          exact h
        have keep : m'.op = m.op → (∀ op', es ≠ [.called op']) → AimInv S it m' (lastReturn l (es.map fun e => (Who.caller, e, m'.sh))) := by
          intro h1 h2
          unfold AimInv
          rw [h1, ho]
          exact WpStrand.move hm hw (fun _ => h2) (fun hx => by cases hx)
        cases hm with
        | act w b x k ha hc => exact keep rfl (fun _ h => by cases h)
        | finish w b r ha hc => exact keep rfl (fun _ h => by cases h)
        | acquire w rest ha hc ht hl => exact keep rfl (fun _ h => by cases h)
        | release w rest ha hc ht => exact keep rfl (fun _ h => by cases h)
        | join w rest ha hc ht he => exact keep rfl (fun _ h => by cases h)
        | start w b rest ha hc ht => exact keep rfl (fun _ h => by cases h)
        | returns op' ho' hc ht =>
            rw [ho] at ho'
            cases ho'
            have := hw.ends hc ht
            refine ⟨this.1, fun op r hr => ?_⟩
            cases hr
            exact this
        | call op ho' => rw [ho] at ho'; cases ho'

theorem lastReturn_append : ∀ (t u : AsyncTrace σ β) (l : Option (AsyncOp × Py Out)), lastReturn l (t ++ u) = lastReturn (lastReturn l t) u := by
  intro t
  induction t with
  | nil => intro u l; rfl
  | cons x t ih =>
      intro u l
      obtain ⟨w, e, s⟩ := x
      cases e <;> exact ih u _

theorem aim_run {S : Search σ β η} {it : Nat} : ∀ (cs : List Choice) (m : Mach σ β) (l : Option (AsyncOp × Py Out)),
    ExpInv S it m → LockInv m → AimInv S it m l → AimInv S it (runMach S it cs m).1 (lastReturn l (runMach S it cs m).2) := by
  intro cs
  induction cs with
  | nil => intro m l _ _ h; exact h
  | cons c cs ih =>
      intro m l he hl h
      show AimInv S it (runMach S it cs (m.step S it c).1).1 (lastReturn l (_ ++ _))
      rw [lastReturn_append]
      rcases step_move S it m c with ⟨h1, h2⟩ | h1
      · rw [h2, h1]
        exact ih m l he hl h
      · exact ih _ _ (he.move h1) (hl.move h1) (AimInv.move he hl h h1)

/-- **C59**: whenever no method is in execution, the node of the thread is that of the runner, and its action is none after `step` or
`reset`, and the action returned after `get_action`. -/
theorem C59_node (S : Search σ β η) (it : Nat) (b : β) (rng : σ) (cs : List Choice)
    (ho : (runMach S it cs (S.async b rng)).1.op = none) :
    (runMach S it cs (S.async b rng)).1.sh.tnode = (runMach S it cs (S.async b rng)).1.sh.runner.node ∧
    Directed S (runMach S it cs (S.async b rng)).1.sh (lastReturn none (runMach S it cs (S.async b rng)).2) := by
  have h := aim_run (S := S) (it := it) cs (S.async b rng) none (ExpInv.init S it b rng) (LockInv.init S b rng)
    ⟨rfl, fun _ _ h => by cases h⟩
  unfold AimInv at h
  rw [ho] at h
  refine ⟨h.1, ?_⟩
  rcases hl : lastReturn none (runMach S it cs (S.async b rng)).2 with _ | ⟨op, r⟩
  · trivial
  · have := (h.2 op r hl).2
    cases op <;> cases r <;> first | trivial | exact this

/-! ### What an exploration uses -/

/-- The program does not change a part of the state. -/
def Keeps {S α V : Type} (f : S → V) : Res S α → Prop
  | .done _ => True
  | .act m k => (∀ s, f (m s).2 = f s) ∧ ∀ r, Keeps f (k r)

theorem Keeps.bind {S α γ V : Type} {f : S → V} {p : Res S α} {g : α → Res S γ} (hp : Keeps f p) (hg : ∀ a, Keeps f (g a)) :
    Keeps f (p >>= g) := by
  show Keeps f (p.andThen g)
  induction p with
  | done r =>
      cases r with
      | ok a => exact hg a
      | error e => trivial
  | act m k ih => exact ⟨hp.1, fun r => ih r (hp.2 r)⟩

theorem Keeps.tree {V α : Type} {f : AsyncState σ β → V} (hf : ∀ s t, f { s with runner := { s.runner with search := t } } = f s)
    (p : Res (SearchState σ β) α) : Keeps f (treeR p) := by
  induction p with
  | done r => trivial
  | act m k ih => exact ⟨fun s => hf s _, fun r => ih r⟩

theorem Keeps.atom {S α V : Type} {f : S → V} {x : M S α} (h : ∀ s, f (x s).2 = f s) : Keeps f (Res.atom x) := ⟨h, fun _ => trivial⟩

/-- The node and the action of the thread. -/
def aim (s : AsyncState σ β) : Nat × Option Nat := (s.tnode, s.taction)

theorem free_keeps (S : Search σ β η) (it : Nat) (b : Body) (hb : ¬ Body.Locked b) : Keeps aim (b.prog S it) := by
  cases b with
  | step o =>
      refine Keeps.bind (Keeps.atom fun s => rfl) fun l => Keeps.bind (Keeps.atom fun s => rfl) fun a => Keeps.bind (Keeps.atom fun s => rfl)
        fun oi => Keeps.bind (Keeps.atom fun s => rfl) fun h => Keeps.bind (Keeps.tree (fun s t => rfl) _) fun i =>
        Keeps.bind (Keeps.atom fun s => rfl) fun _ => trivial
  | reset given => exact Keeps.bind (Keeps.atom fun s => rfl) fun _ => trivial
  | _ => exact absurd trivial hb

/-- The caller is in a body that does not take the lock. -/
def FreeInv (m : Mach σ β) : Prop := ∀ b p, m.caller.cur = some (b, p) → ¬ Body.Locked b → Keeps aim p

theorem FreeInv.move {S : Search σ β η} {it : Nat} {m m' : Mach σ β} {w : Who} {es : List Happening} (h : FreeInv m)
    (hm : Move S it m w m' es) : FreeInv m' := by
  have keep : ∀ (w : Who) (th : Strand σ β) (l : Option Who) (sh : AsyncState σ β),
      (w = .caller → ∀ b p, th.cur = some (b, p) → ¬ Body.Locked b → Keeps aim p) → FreeInv (m.put w th l sh) := by
    intro w th l sh h1
    cases w with
    | explorer => exact h
    | caller => exact h1 rfl
  cases hm with
  | act w b x k ha hc =>
      refine keep w _ _ _ fun hw b' p hp hb => ?_
      subst hw
      cases hp
      exact (h b _ hc hb).2 _
  | finish w b r ha hc => exact keep w _ _ _ fun hw b' p hp => by cases hp
  | acquire w rest ha hc ht hl => exact keep w _ _ _ fun hw b' p hp => by rw [show _ = none from hc] at hp; cases hp
  | release w rest ha hc ht => exact keep w _ _ _ fun hw b' p hp => by rw [show _ = none from hc] at hp; cases hp
  | join w rest ha hc ht he => exact keep w _ _ _ fun hw b' p hp => by rw [show _ = none from hc] at hp; cases hp
  | start w b rest ha hc ht =>
      refine keep w _ _ _ fun hw b' p hp hb => ?_
      cases hp
      exact free_keeps S it b hb
  | restart ha hc ht ho => exact h
  | stops ha hc ht ho => exact h
  | returns op ho hc ht => exact h
  | call op ho => intro b p hp; cases hp

/-- The exploration in execution uses the node and the action of its beginning. -/
def UseInv (m : Mach σ β) (l : Option (Nat × Option Nat)) : Prop := ∀ p, m.exp.cur = some (.explore, p) → l = some (aim m.sh)

theorem lastAim_append : ∀ (t u : AsyncTrace σ β) (l : Option (Nat × Option Nat)), lastAim l (t ++ u) = lastAim (lastAim l t) u := by
  intro t
  induction t with
  | nil => intro u l; rfl
  | cons x t ih =>
      intro u l
      obtain ⟨w, e, s⟩ := x
      cases e with
      | started b => cases b <;> exact ih u _
      | _ => exact ih u _

/-- Only the exploration thread starts explorations. -/
def CallerCmds (m : Mach σ β) : Prop := Cmd.body .explore ∉ m.caller.todo

theorem CallerCmds.move {S : Search σ β η} {it : Nat} {m m' : Mach σ β} {w : Who} {es : List Happening} (h : CallerCmds m)
    (hm : Move S it m w m' es) : CallerCmds m' := by
  have keep : ∀ (w : Who) (th : Strand σ β) (l : Option Who) (sh : AsyncState σ β),
      (w = .caller → Cmd.body .explore ∉ th.todo) → CallerCmds (m.put w th l sh) := by
    intro w th l sh h1
    cases w with
    | explorer => exact h
    | caller => exact h1 rfl
  have tl : ∀ {c : Cmd} {rest : List Cmd}, m.caller.todo = c :: rest → Cmd.body .explore ∉ rest := by
    intro c rest ht hx
    exact h (by rw [ht]; exact List.mem_cons_of_mem _ hx)
  cases hm with
  | act w b x k ha hc => exact keep w _ _ _ fun hw => by subst hw; exact h
  | finish w b r ha hc =>
      refine keep w _ _ _ fun hw => ?_
      subst hw
      cases r with
      | ok a => exact h
      | error e => simp only [afterBody]; split <;> simp
  | acquire w rest ha hc ht hl => exact keep w _ _ _ fun hw => by subst hw; exact tl ht
  | release w rest ha hc ht => exact keep w _ _ _ fun hw => by subst hw; exact tl ht
  | join w rest ha hc ht he => exact keep w _ _ _ fun hw => by subst hw; exact tl ht
  | start w b rest ha hc ht => exact keep w _ _ _ fun hw => by subst hw; exact tl ht
  | restart ha hc ht ho => exact h
  | stops ha hc ht ho => exact h
  | returns op ho hc ht => exact h
  | call op ho => show Cmd.body .explore ∉ op.script; cases op <;> simp [AsyncOp.script]

theorem UseInv.move {S : Search σ β η} {it : Nat} {m m' : Mach σ β} {w : Who} {es : List Happening} {l : Option (Nat × Option Nat)}
    (hl : LockInv m) (he : ExpInv S it m) (hf : FreeInv m) (hcc : CallerCmds m) (h : UseInv m l) (hm : Move S it m w m' es) :
    UseInv m' (lastAim l (es.map fun e => (w, e, m'.sh))) := by
  cases w with
  | explorer =>
      obtain ⟨⟨t, h1⟩, _⟩ := explorer_move he hm
      have ha : aim m'.sh = aim m.sh := by rw [h1]; rfl
      intro p hp
      rw [ha]
      cases hm with
      | act w b x k ha' hc =>
          cases hp
          exact h _ hc
      | finish w b r ha' hc => cases hp
      | acquire w rest ha hc ht hl => exact absurd (hp.symm.trans hc) (by simp)
      | release w rest ha hc ht => exact absurd (hp.symm.trans hc) (by simp)
      | join w rest ha hc ht he => exact absurd (hp.symm.trans hc) (by simp)
      | start w b rest ha hc ht => cases hp; rfl
      | restart ha hc ht ho => exact absurd (hp.symm.trans hc) (by simp)
      | stops ha hc ht ho => exact absurd (hp.symm.trans hc) (by simp)
  | caller =>
      have hexp : m'.exp = m.exp := by cases hm <;> rfl
      have hes : lastAim l (es.map fun e => (Who.caller, e, m'.sh)) = l := by
        cases hm with
        | start w b rest ha hc ht =>
            cases b with
            | explore => exact absurd (by rw [show m.caller.todo = _ from ht]; simp) hcc
            | _ => rfl
        | _ => rfl
      rw [hes]
      intro p hp
      rw [hexp] at hp
      have hlock : m.lock = some .explorer := (hl.cur .explorer .explore p hp).1 trivial
      have : aim m'.sh = aim m.sh := by
        cases hm with
        | act w b x k ha hc =>
            have hb : ¬ Body.Locked b := by
              intro hb
              have := (hl.cur .caller b _ hc).1 hb
              rw [hlock] at this
              cases this
            exact (hf b _ hc hb).1 _
        | _ => rfl
      rw [this]
      exact h p hp

theorem use_run {S : Search σ β η} {it : Nat} : ∀ (cs : List Choice) (m : Mach σ β) (l : Option (Nat × Option Nat)),
    LockInv m → ExpInv S it m → FreeInv m → CallerCmds m → UseInv m l → UseInv (runMach S it cs m).1 (lastAim l (runMach S it cs m).2) := by
  intro cs
  induction cs with
  | nil => intro m l _ _ _ _ h; exact h
  | cons c cs ih =>
      intro m l hl he hf hcc h
      show UseInv (runMach S it cs (m.step S it c).1).1 (lastAim l (_ ++ _))
      rw [lastAim_append]
      rcases step_move S it m c with ⟨h1, h2⟩ | h1
      · rw [h2, h1]
        exact ih m l hl he hf hcc h
      · exact ih _ _ (hl.move h1) (he.move h1) (hf.move h1) (hcc.move h1) (UseInv.move hl he hf hcc h h1)

/-- **C59**: the node and the action of the thread do not change during an exploration: they are those of its beginning. -/
theorem C59_use (S : Search σ β η) (it : Nat) (b : β) (rng : σ) (cs : List Choice) (p : Res (AsyncState σ β) Out)
    (hp : (runMach S it cs (S.async b rng)).1.exp.cur = some (.explore, p)) :
    lastAim none (runMach S it cs (S.async b rng)).2 =
      some ((runMach S it cs (S.async b rng)).1.sh.tnode, (runMach S it cs (S.async b rng)).1.sh.taction) :=
  use_run cs (S.async b rng) none (LockInv.init S b rng) (ExpInv.init S it b rng) (fun _ _ h => by cases h) (by simp [CallerCmds, Search.async])
    (fun _ h => by cases h) p hp

/-- `get_action` and `step` have returned, and an exploration has begun since. -/
example : (coinRun coinRace).1.op = none ∧ (coinRun coinRace).1.sh.tnode = 2 ∧
    lastReturn none (coinRun coinRace).2 = some (.step (.str "tails"), .ok .unit) ∧
    (coinRun coinAction).1.op = none ∧ (coinRun coinAction).1.sh.taction = some 0 := by decide +kernel

/-- An exploration is in execution while `step` is called. -/
example : ((coinRun (coinRace ++ List.replicate 9 .explorer)).1.exp.cur.map Prod.fst) = some .explore ∧
    lastAim none (coinRun (coinRace ++ List.replicate 9 .explorer)).2 = some (2, none) := by decide +kernel

end Verif
