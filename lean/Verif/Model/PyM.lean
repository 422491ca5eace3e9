import Verif.Model.Registry

/-!
# Python methods as functions on a state

A method that reads and changes the state `σ` and may raise: the state changes made before an exception stay.
-/

namespace Verif

/-- A python computation on a state. -/
abbrev PyM (σ α : Type) : Type := σ → Except Exn α × σ

namespace PyM

variable {σ τ α β : Type}

def bind (m : PyM σ α) (f : α → PyM σ β) : PyM σ β := fun s =>
  match m s with
  | (.ok a, s') => f a s'
  | (.error e, s') => (.error e, s')

instance : Monad (PyM σ) where
  pure a := fun s => (.ok a, s)
  bind := bind

/-- `raise`. -/
def raise (e : Exn) : PyM σ α := fun s => (.error e, s)

/-- Reading an attribute. -/
def get : PyM σ σ := fun s => (.ok s, s)

/-- Assigning attributes. -/
def modify (f : σ → σ) : PyM σ Unit := fun s => (.ok (), f s)

/-- `try: m finally: f`: an exception of `f` replaces the one of `m`. -/
def tryFinally (m : PyM σ α) (f : PyM σ Unit) : PyM σ α := fun s =>
  match m s with
  | (r, s') =>
    match f s' with
    | (.ok _, s'') => (r, s'')
    | (.error e, s'') => (.error e, s'')

/-- `if not b: raise e`. -/
def guardElse (b : Bool) (e : Exn) : PyM σ Unit := fun s => if b then (.ok (), s) else (.error e, s)

/-- `if b: m`. -/
def when (b : Bool) (m : PyM σ α) : PyM σ Unit := fun s =>
  if b then
    match m s with
    | (.ok _, s') => (.ok (), s')
    | (.error e, s') => (.error e, s')
  else (.ok (), s)

@[simp] theorem pure_apply (a : α) (s : σ) : (pure a : PyM σ α) s = (.ok a, s) := rfl

@[simp] theorem raise_apply (e : Exn) (s : σ) : (raise e : PyM σ α) s = (.error e, s) := rfl

@[simp] theorem get_apply (s : σ) : (get : PyM σ σ) s = (.ok s, s) := rfl

@[simp] theorem modify_apply (f : σ → σ) (s : σ) : modify f s = (.ok (), f s) := rfl

@[simp] theorem guardElse_apply (b : Bool) (e : Exn) (s : σ) :
    (guardElse b e : PyM σ Unit) s = if b then (.ok (), s) else (.error e, s) := rfl

theorem bind_apply (m : PyM σ α) (f : α → PyM σ β) (s : σ) :
    (m >>= f) s = match m s with
      | (.ok a, s') => f a s'
      | (.error e, s') => (.error e, s') := rfl

theorem bind_ok {m : PyM σ α} {f : α → PyM σ β} {s s' : σ} {a : α} (h : m s = (.ok a, s')) : (m >>= f) s = f a s' := by
  rw [bind_apply, h]

theorem bind_error {m : PyM σ α} {f : α → PyM σ β} {s s' : σ} {e : Exn} (h : m s = (.error e, s')) :
    (m >>= f) s = (.error e, s') := by
  rw [bind_apply, h]

theorem tryFinally_apply (m : PyM σ α) (f : PyM σ Unit) (s : σ) :
    tryFinally m f s = match m s with
      | (r, s') =>
        match f s' with
        | (.ok _, s'') => (r, s'')
        | (.error e, s'') => (.error e, s'') := rfl

@[simp] theorem ite_apply (c : Prop) [Decidable c] (m m' : PyM σ α) (s : σ) :
    (if c then m else m') s = if c then m s else m' s := by
  split <;> rfl

end PyM

end Verif
