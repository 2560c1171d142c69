import Verif.Proof.AsyncMove

/-! What holds at the end of the programs of a thread, whatever the other one does to the rest of the state. -/

set_option linter.unusedSectionVars false
set_option linter.unusedSimpArgs false

namespace Verif
open Spec
variable {σ β η : Type}

section
variable {S α γ V : Type} {f : S → V}

/-- The program ends with `Q`, for a part `f` of the state that only this program changes. -/
def WpRes (f : S → V) : Res S α → V → (Py α → V → Prop) → Prop
  | .done r, v, Q => Q r v
  | .act m k, v, Q => ∀ s, f s = v → WpRes f (k (m s).1) (f (m s).2) Q

theorem WpRes.mono {p : Res S α} : ∀ {v : V} {Q Q' : Py α → V → Prop}, WpRes f p v Q → (∀ r v, Q r v → Q' r v) → WpRes f p v Q' := by
  induction p with
  | done r => intro v Q Q' h hq; exact hq _ _ h
  | act m k ih => intro v Q Q' h hq s hs; exact ih _ (h s hs) hq

theorem WpRes.bind {p : Res S α} {g : α → Res S γ} : ∀ {v : V} {Q : Py γ → V → Prop},
    WpRes f p v (fun r v => match r with | .ok a => WpRes f (g a) v Q | .error e => Q (.error e) v) → WpRes f (p >>= g) v Q := by
  show ∀ {v : V} {Q : Py γ → V → Prop}, _ → WpRes f (p.andThen g) v Q
  induction p with
  | done r =>
      intro v Q h
      cases r with
      | ok a => exact h
      | error e => exact h
  | act m k ih => intro v Q h s hs; exact ih _ (h s hs)

theorem WpRes.read {g : S → α} {v : V} {Q : Py α → V → Prop} (h : ∀ s, f s = v → Q (.ok (g s)) v) : WpRes f (Res.atom (M.read g)) v Q := by
  intro s hs
  show Q (.ok (g s)) (f s)
  rw [hs]
  exact h s hs

theorem WpRes.lift {x : Py α} {v : V} {Q : Py α → V → Prop} (h : Q x v) : WpRes f (Res.atom (M.lift x)) v Q := by
  intro s hs
  show Q x (f s)
  rw [hs]
  exact h

end

/-- The accesses of a program to the search tree do not change the rest of the state. -/
theorem WpRes.tree {V α : Type} {f : AsyncState σ β → V}
    (hf : ∀ s t, f { s with runner := { s.runner with search := t } } = f s) (p : Res (SearchState σ β) α) :
    ∀ {v : V} {Q : Py α → V → Prop}, (∀ r, Q r v) → WpRes f (treeR p) v Q := by
  induction p with
  | done r => intro v Q h; exact h r
  | act m k ih =>
      intro v Q h s hs
      have : f (onRunner (onSearch m) s).2 = v := by rw [← hs]; exact hf s _
      rw [this]
      exact ih _ h

variable [DecidableEq β] {V : Type} {f : AsyncState σ β → V}

/-- The commands end with `Q`. -/
def WpCmds (S : Search σ β η) (it : Nat) (f : AsyncState σ β → V) : List Cmd → V → Py Out → (Py Out → V → Prop) → Prop
  | [], v, out, Q => Q out v
  | .body b :: rest, v, out, Q => WpRes f (b.prog S it) v fun r v' =>
      match r with
      | .ok _ => WpCmds S it f rest v' (Out.after r out) Q
      | .error _ => Q (Out.after r out) v'
  | _ :: rest, v, out, Q => WpCmds S it f rest v out Q

/-- The thread ends with `Q`. -/
def WpStrand (S : Search σ β η) (it : Nat) (f : AsyncState σ β → V) (th : Strand σ β) (v : V) (Q : Py Out → V → Prop) : Prop :=
  match th.cur with
  | none => WpCmds S it f th.todo v th.out Q
  | some (_, p) => WpRes f p v fun r v' =>
      match r with
      | .ok _ => WpCmds S it f th.todo v' (Out.after r th.out) Q
      | .error _ => Q (Out.after r th.out) v'

/-- A body is executed. -/
theorem WpStrand.act {S : Search σ β η} {it : Nat} {th : Strand σ β} {sh : AsyncState σ β} {Q : Py Out → V → Prop} {b : Body} {X : Type}
    {x : M (AsyncState σ β) X} {k : Py X → Res (AsyncState σ β) Out} (hc : th.cur = some (b, .act x k))
    (h : WpStrand S it f th (f sh) Q) : WpStrand S it f { th with cur := some (b, k (x sh).1) } (f (x sh).2) Q := by
  unfold WpStrand at h ⊢
  rw [hc] at h
  exact h sh rfl

theorem WpStrand.finish {S : Search σ β η} {it : Nat} {th : Strand σ β} {v : V} {Q : Py Out → V → Prop} {b : Body} {r : Py Out} (holding : Bool)
    (hc : th.cur = some (b, .done r)) (h : WpStrand S it f th v Q) :
    WpStrand S it f ⟨none, afterBody holding r th.todo, Out.after r th.out⟩ v Q := by
  unfold WpStrand at h ⊢
  rw [hc] at h
  cases r with
  | ok a => exact h
  | error e => cases holding <;> exact h

theorem WpStrand.start {S : Search σ β η} {it : Nat} {th : Strand σ β} {v : V} {Q : Py Out → V → Prop} {b : Body} {rest : List Cmd}
    (hc : th.cur = none) (ht : th.todo = .body b :: rest) (h : WpStrand S it f th v Q) :
    WpStrand S it f ⟨some (b, b.prog S it), rest, th.out⟩ v Q := by
  unfold WpStrand at h ⊢
  rw [hc] at h
  simp only [ht] at h
  exact h

theorem WpStrand.skip {S : Search σ β η} {it : Nat} {th : Strand σ β} {v : V} {Q : Py Out → V → Prop} {c : Cmd} {rest : List Cmd}
    (hc : th.cur = none) (ht : th.todo = c :: rest) (hb : ∀ b, c ≠ .body b) (h : WpStrand S it f th v Q) :
    WpStrand S it f { th with todo := rest } v Q := by
  unfold WpStrand at h ⊢
  simp only [hc] at h ⊢
  rw [ht] at h
  cases c with
  | body b => exact absurd rfl (hb b)
  | _ => exact h

theorem WpStrand.ends {S : Search σ β η} {it : Nat} {th : Strand σ β} {v : V} {Q : Py Out → V → Prop} (hc : th.cur = none) (ht : th.todo = [])
    (h : WpStrand S it f th v Q) : Q th.out v := by
  unfold WpStrand at h
  rw [hc] at h
  simp only [ht] at h
  exact h

/-- A move of a thread preserves what holds at its end, if it is not at its end. -/
theorem WpStrand.move {S : Search σ β η} {it : Nat} {m m' : Mach σ β} {w : Who} {es : List Happening} {Q : Py Out → V → Prop}
    (hm : Move S it m w m' es) (h : WpStrand S it f (m.strand w) (f m.sh) Q)
    (hcall : w = .caller → ∀ op, es ≠ [.called op]) (hrestart : w = .explorer → m.exp.todo = [] → m.exp.cur = none → es = [] → False) :
    WpStrand S it f (m'.strand w) (f m'.sh) Q := by
  cases hm with
  | act w b x k ha hc => rw [put_strand, if_pos rfl, put_sh]; exact h.act hc
  | finish w b r ha hc => rw [put_strand, if_pos rfl, put_sh]; exact h.finish _ hc
  | acquire w rest ha hc ht hl => rw [put_strand, if_pos rfl, put_sh]; exact h.skip hc ht (fun _ h => by cases h)
  | release w rest ha hc ht => rw [put_strand, if_pos rfl, put_sh]; exact h.skip hc ht (fun _ h => by cases h)
  | join w rest ha hc ht he => rw [put_strand, if_pos rfl, put_sh]; exact h.skip hc ht (fun _ h => by cases h)
  | start w b rest ha hc ht => rw [put_strand, if_pos rfl, put_sh]; exact h.start hc ht
  | restart ha hc ht ho => exact (hrestart rfl ht hc rfl).elim
  | stops ha hc ht ho => exact h
  | returns op ho hc ht => exact h
  | call op ho => exact absurd rfl (hcall rfl op)

/-- The programs of the thread that changes only the search tree. -/
def TreeOnly : Res (AsyncState σ β) Out → Prop
  | .done _ => True
  | .act m k => (∀ s, ∃ t, (m s).2 = { s with runner := { s.runner with search := t } }) ∧ ∀ r, TreeOnly (k r)

theorem TreeOnly.bind_tree {α : Type} (p : Res (SearchState σ β) α) (g : α → Res (AsyncState σ β) Out) (hg : ∀ a, TreeOnly (g a)) :
    TreeOnly (treeR p >>= g) := by
  show TreeOnly ((treeR p).andThen g)
  induction p with
  | done r =>
      cases r with
      | ok a => exact hg a
      | error e => trivial
  | act m k ih => exact ⟨fun s => ⟨_, rfl⟩, fun r => ih r⟩

theorem explore_treeOnly (S : Search σ β η) (it : Nat) : TreeOnly (Body.explore.prog S it) := by
  refine ⟨fun s => ⟨_, rfl⟩, fun r => ?_⟩
  cases r with
  | error e => trivial
  | ok i =>
      refine ⟨fun s => ⟨_, rfl⟩, fun r => ?_⟩
      cases r with
      | error e => trivial
      | ok a => exact TreeOnly.bind_tree _ _ fun _ => trivial

theorem readDone_treeOnly (S : Search σ β η) (it : Nat) : TreeOnly (Body.readDone.prog S it) := by
  refine ⟨fun s => ⟨_, rfl⟩, fun r => ?_⟩
  cases r <;> trivial

/-- The exploration thread is in its loop. -/
structure ExpInv (S : Search σ β η) (it : Nat) (m : Mach σ β) : Prop where
  todo : m.exp.todo ∈ [loopScript, loopScript.drop 1, loopScript.drop 2, loopScript.drop 3, []]
  cur : ∀ b p, m.exp.cur = some (b, p) → TreeOnly p ∧
    (b = .explore ∧ m.exp.todo = [.body .readDone, .release] ∨ b = .readDone ∧ m.exp.todo = [.release])

theorem ExpInv.move {S : Search σ β η} {it : Nat} {m m' : Mach σ β} {w : Who} {es : List Happening} (h : ExpInv S it m)
    (hm : Move S it m w m' es) : ExpInv S it m' := by
  have keep : ∀ (w : Who) (th : Strand σ β) (l : Option Who) (sh : AsyncState σ β),
      (w = .explorer → th.todo ∈ [loopScript, loopScript.drop 1, loopScript.drop 2, loopScript.drop 3, []] ∧
        ∀ b p, th.cur = some (b, p) → TreeOnly p ∧
          (b = .explore ∧ th.todo = [.body .readDone, .release] ∨ b = .readDone ∧ th.todo = [.release])) → ExpInv S it (m.put w th l sh) := by
    intro w th l sh h1
    cases w with
    | explorer => exact ⟨(h1 rfl).1, (h1 rfl).2⟩
    | caller => exact ⟨h.todo, h.cur⟩
  have tl : ∀ {c : Cmd} {rest : List Cmd}, m.exp.todo = c :: rest →
      rest ∈ [loopScript, loopScript.drop 1, loopScript.drop 2, loopScript.drop 3, []] ∧
      ∀ b, c = .body b → (b = .explore ∧ rest = [.body .readDone, .release] ∨ b = .readDone ∧ rest = [.release]) := by
    intro c rest ht
    have := h.todo
    rw [ht] at this
    simp only [loopScript, List.drop, List.mem_cons, List.cons.injEq, List.not_mem_nil, or_false, reduceCtorEq, List.cons_ne_nil] at this ⊢
    rcases this with ⟨rfl, rfl⟩ | ⟨rfl, rfl⟩ | ⟨rfl, rfl⟩ | ⟨rfl, rfl⟩ <;> simp
  cases hm with
  | act w b x k ha hc =>
      refine keep w _ _ _ fun hw => ?_
      subst hw
      refine ⟨h.todo, fun b' p hp => ?_⟩
      cases hp
      obtain ⟨h1, h2⟩ := h.cur b _ hc
      exact ⟨h1.2 _, h2⟩
  | finish w b r ha hc =>
      refine keep w _ _ _ fun hw => ?_
      subst hw
      refine ⟨?_, fun b' p hp => by cases hp⟩
      cases r with
      | ok a => exact h.todo
      | error e =>
          simp only [afterBody]
          split <;> simp [loopScript]
  | acquire w rest ha hc ht hl =>
      refine keep w _ _ _ fun hw => ?_
      subst hw
      exact ⟨(tl ht).1, fun b' p hp => by rw [show _ = none from hc] at hp; cases hp⟩
  | release w rest ha hc ht =>
      refine keep w _ _ _ fun hw => ?_
      subst hw
      exact ⟨(tl ht).1, fun b' p hp => by rw [show _ = none from hc] at hp; cases hp⟩
  | join w rest ha hc ht he =>
      refine keep w _ _ _ fun hw => ?_
      subst hw
      exact ⟨(tl ht).1, fun b' p hp => by rw [show _ = none from hc] at hp; cases hp⟩
  | start w b rest ha hc ht =>
      refine keep w _ _ _ fun hw => ?_
      subst hw
      refine ⟨(tl ht).1, fun b' p hp => ?_⟩
      cases hp
      have := (tl ht).2 b rfl
      refine ⟨?_, this⟩
      rcases this with ⟨rfl, _⟩ | ⟨rfl, _⟩
      · exact explore_treeOnly S it
      · exact readDone_treeOnly S it
  | restart ha hc ht ho => exact ⟨by simp [loopScript], fun b p hp => by rw [show _ = none from hc] at hp; cases hp⟩
  | stops ha hc ht ho => exact ⟨h.todo, h.cur⟩
  | returns op ho hc ht => exact ⟨h.todo, h.cur⟩
  | call op ho => exact ⟨h.todo, h.cur⟩

theorem ExpInv.init (S : Search σ β η) (it : Nat) (b : β) (rng : σ) : ExpInv S it (S.async b rng) :=
  ⟨by simp [Search.async], fun b p hp => by cases hp⟩

/-- The exploration thread changes only the search tree, and not what the caller does. -/
theorem explorer_move {S : Search σ β η} {it : Nat} {m m' : Mach σ β} {es : List Happening} (h : ExpInv S it m)
    (hm : Move S it m .explorer m' es) : (∃ t, m'.sh = { m.sh with runner := { m.sh.runner with search := t } }) ∧ m'.caller = m.caller ∧
      m'.op = m.op := by
  have refl : ∃ t, m.sh = { m.sh with runner := { m.sh.runner with search := t } } := ⟨m.sh.runner.search, rfl⟩
  cases hm with
  | act w b x k ha hc =>
      obtain ⟨h1, _⟩ := h.cur b _ hc
      exact ⟨h1.1 m.sh, rfl, rfl⟩
  | finish w b r ha hc => exact ⟨refl, rfl, rfl⟩
  | acquire w rest ha hc ht hl => exact ⟨refl, rfl, rfl⟩
  | release w rest ha hc ht => exact ⟨refl, rfl, rfl⟩
  | join w rest ha hc ht he => exact ⟨refl, rfl, rfl⟩
  | start w b rest ha hc ht => exact ⟨refl, rfl, rfl⟩
  | restart ha hc ht ho => exact ⟨refl, rfl, rfl⟩
  | stops ha hc ht ho => exact ⟨refl, rfl, rfl⟩

end Verif
