import Verif.Py

/-!
# Computations with a state and exceptions

`M S α` is a computation that reads and changes a state of type `S` and returns a value or raises; the changes made before an
exception is raised remain.  `M.Post` states what holds after such a computation.
-/

namespace Verif

/-- A computation with a state. -/
def M (S α : Type) : Type := S → Py α × S

namespace M
variable {S α β : Type}

/-- Return a value. -/
def ret (a : α) : M S α := fun s => (.ok a, s)

/-- One computation after the other. -/
def andThen (x : M S α) (f : α → M S β) : M S β := fun s =>
  match x s with
  | (.ok a, s') => f a s'
  | (.error e, s') => (.error e, s')

instance : Monad (M S) where
  pure := ret
  bind := andThen

/-- `raise e`. -/
def raise (e : PyErr) : M S α := fun s => (.error e, s)

/-- Read the state. -/
def read (f : S → α) : M S α := fun s => (.ok (f s), s)

/-- Change the state. -/
def modify (f : S → S) : M S Unit := fun s => (.ok (), f s)

/-- A value or an exception. -/
def lift (x : Py α) : M S α := fun s => (x, s)

/-- `try: x except e: y`. -/
def tryExcept (x : M S α) (e : PyErr) (y : M S α) : M S α := fun s =>
  match x s with
  | (.error e', s') => if e' = e then y s' else (.error e', s')
  | r => r

/-- Started in `s`, the computation returns a value and a state that satisfy `Q`, or raises with a state that satisfies `E`. -/
def Post (m : M S α) (s : S) (Q : α → S → Prop) (E : PyErr → S → Prop) : Prop :=
  match m s with
  | (.ok a, s') => Q a s'
  | (.error e, s') => E e s'

theorem bind_run (x : M S α) (f : α → M S β) (s : S) :
    (x >>= f) s = match x s with | (.ok a, s') => f a s' | (.error e, s') => (.error e, s') := rfl

theorem pure_run (a : α) (s : S) : (pure a : M S α) s = (.ok a, s) := rfl

theorem bind_of_ok {x : M S α} {f : α → M S β} {s s1 : S} {a : α} (h : x s = (.ok a, s1)) : (x >>= f) s = f a s1 := by
  rw [bind_run, h]

theorem bind_of_error {x : M S α} {f : α → M S β} {s s1 : S} {e : PyErr} (h : x s = (.error e, s1)) :
    (x >>= f) s = (.error e, s1) := by
  rw [bind_run, h]

theorem bind_ok {x : M S α} {f : α → M S β} {s : S} {b : β} {s' : S} (h : (x >>= f) s = (.ok b, s')) :
    ∃ a s1, x s = (.ok a, s1) ∧ f a s1 = (.ok b, s') := by
  rw [bind_run] at h
  rcases hx : x s with ⟨r, s1⟩
  rw [hx] at h
  cases r with
  | ok a => exact ⟨a, s1, rfl, h⟩
  | error e => simp at h

theorem bind_error {x : M S α} {f : α → M S β} {s : S} {e : PyErr} {s' : S} (h : (x >>= f) s = (.error e, s')) :
    x s = (.error e, s') ∨ ∃ a s1, x s = (.ok a, s1) ∧ f a s1 = (.error e, s') := by
  rw [bind_run] at h
  rcases hx : x s with ⟨r, s1⟩
  rw [hx] at h
  cases r with
  | ok a => exact .inr ⟨a, s1, rfl, h⟩
  | error e' => left; simpa using h

theorem post_iff {m : M S α} {s : S} {Q : α → S → Prop} {E : PyErr → S → Prop} :
    Post m s Q E ↔ (∀ a s', m s = (.ok a, s') → Q a s') ∧ (∀ e s', m s = (.error e, s') → E e s') := by
  unfold Post
  rcases h : m s with ⟨r, s1⟩
  cases r with
  | ok a =>
      simp only [Prod.mk.injEq, Except.ok.injEq, reduceCtorEq, false_and, false_implies, implies_true, and_true]
      exact ⟨fun h a' s' e => by obtain ⟨rfl, rfl⟩ := e; exact h, fun h => h a s1 ⟨rfl, rfl⟩⟩
  | error e =>
      simp only [Prod.mk.injEq, Except.error.injEq, reduceCtorEq, false_and, false_implies, implies_true, true_and]
      exact ⟨fun h a' s' e => by obtain ⟨rfl, rfl⟩ := e; exact h, fun h => h e s1 ⟨rfl, rfl⟩⟩

theorem post_of_ok {m : M S α} {s s' : S} {a : α} {Q : α → S → Prop} {E : PyErr → S → Prop} (h : m s = (.ok a, s')) :
    Post m s Q E ↔ Q a s' := by unfold Post; rw [h]

theorem post_of_error {m : M S α} {s s' : S} {e : PyErr} {Q : α → S → Prop} {E : PyErr → S → Prop}
    (h : m s = (.error e, s')) : Post m s Q E ↔ E e s' := by unfold Post; rw [h]

theorem post_mono {m : M S α} {s : S} {Q Q' : α → S → Prop} {E E' : PyErr → S → Prop} (h : Post m s Q E)
    (hq : ∀ a s', Q a s' → Q' a s') (he : ∀ e s', E e s' → E' e s') : Post m s Q' E' := by
  unfold Post at *
  rcases h1 : m s with ⟨r, s1⟩
  rw [h1] at h
  cases r with
  | ok a => exact hq _ _ h
  | error e => exact he _ _ h

theorem post_bind {x : M S α} {f : α → M S β} {s : S} {Q1 : α → S → Prop} {E1 E : PyErr → S → Prop} {Q : β → S → Prop}
    (hx : Post x s Q1 E1) (he : ∀ e s1, E1 e s1 → E e s1) (hf : ∀ a s1, x s = (.ok a, s1) → Q1 a s1 → Post (f a) s1 Q E) :
    Post (x >>= f) s Q E := by
  rcases h1 : x s with ⟨r, s1⟩
  cases r with
  | ok a =>
      have := hf a s1 h1 ((post_of_ok h1).1 hx)
      unfold Post at *
      rwa [bind_of_ok h1]
  | error e =>
      rw [post_of_error (bind_of_error h1)]
      exact he _ _ ((post_of_error h1).1 hx)

theorem post_read_bind {g : S → α} {f : α → M S β} {s : S} {Q : β → S → Prop} {E : PyErr → S → Prop}
    (h : Post (f (g s)) s Q E) : Post (read g >>= f) s Q E := h

theorem post_ok_bind {x : M S α} {f : α → M S β} {s s1 : S} {a : α} {Q : β → S → Prop} {E : PyErr → S → Prop}
    (hx : x s = (.ok a, s1)) (h : Post (f a) s1 Q E) : Post (x >>= f) s Q E := by
  unfold Post at *
  rwa [bind_of_ok hx]

theorem post_pure {a : α} {s : S} {Q : α → S → Prop} {E : PyErr → S → Prop} : Post (pure a : M S α) s Q E ↔ Q a s := Iff.rfl

theorem post_raise {e : PyErr} {s : S} {Q : α → S → Prop} {E : PyErr → S → Prop} : Post (raise e : M S α) s Q E ↔ E e s :=
  Iff.rfl

theorem post_read {f : S → α} {s : S} {Q : α → S → Prop} {E : PyErr → S → Prop} : Post (read f) s Q E ↔ Q (f s) s := Iff.rfl

theorem post_modify {f : S → S} {s : S} {Q : Unit → S → Prop} {E : PyErr → S → Prop} :
    Post (modify f) s Q E ↔ Q () (f s) := Iff.rfl

theorem post_lift {x : Py α} {s : S} {Q : α → S → Prop} {E : PyErr → S → Prop} :
    Post (lift x) s Q E ↔ (∀ a, x = .ok a → Q a s) ∧ (∀ e, x = .error e → E e s) := by
  cases x with
  | ok a => simp [Post, lift]
  | error e => simp [Post, lift]

theorem post_ite {c : Prop} [Decidable c] {x y : M S α} {s : S} {Q : α → S → Prop} {E : PyErr → S → Prop}
    (hx : c → Post x s Q E) (hy : ¬ c → Post y s Q E) : Post (if c then x else y) s Q E := by
  by_cases h : c
  · rw [if_pos h]; exact hx h
  · rw [if_neg h]; exact hy h

theorem post_try {x y : M S α} {e : PyErr} {s : S} {Q Q1 : α → S → Prop} {E E1 : PyErr → S → Prop} (hx : Post x s Q1 E1)
    (hq : ∀ a s1, x s = (.ok a, s1) → Q1 a s1 → Q a s1)
    (he : ∀ e' s1, e' ≠ e → E1 e' s1 → E e' s1) (hy : ∀ s1, x s = (.error e, s1) → E1 e s1 → Post y s1 Q E) :
    Post (tryExcept x e y) s Q E := by
  rcases hr : x s with ⟨r, s1⟩
  cases r with
  | ok a =>
      have e1 : tryExcept x e y s = (.ok a, s1) := by unfold tryExcept; rw [hr]
      rw [post_of_ok e1]
      exact hq _ _ hr ((post_of_ok hr).1 hx)
  | error e' =>
      have h1 := (post_of_error hr).1 hx
      by_cases h : e' = e
      · subst h
        have e1 : tryExcept x e' y s = y s1 := by unfold tryExcept; rw [hr]; simp
        have := hy s1 hr h1
        unfold Post at *
        rwa [e1]
      · have e1 : tryExcept x e y s = (.error e', s1) := by unfold tryExcept; rw [hr]; simp [h]
        rw [post_of_error e1]
        exact he _ _ h h1

end M
end Verif
