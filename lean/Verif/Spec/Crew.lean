import Verif.Model.Crew

/-!
# Specification: programs of threads that lock files, and that all their calls can end
-/

set_option autoImplicit false

namespace Verif.Crew

/-- A thread takes a lock when it has none, and removes locks that it has. -/
def OneLock (w : Crew) (t s : Nat) : Order → Bool → Prop
  | .lock _ _ _ _, _ => ∀ h ∈ w.locks, h.owner ≠ t
  | .unlock a n, _ => ∃ h ∈ w.locks, h.owner = t ∧ h.lock.handle = s ∧ h.lock.start = a ∧ h.lock.stop = (if n = 0 then none else some ((a : Int) + n))
  | .use, _ => True

/-- Besides, a thread that has a lock calls through the wrapper only methods of the stream that it has locked with. -/
def Faithful (w : Crew) (t s : Nat) (c : Order) (p : Bool) : Prop :=
  OneLock w t s c p ∧ (p = true → ∀ h ∈ w.locks, h.owner = t → h.lock.handle = s)

/-- Besides, all locks include byte `k`. -/
def Central (k : Nat) (w : Crew) (t s : Nat) (c : Order) (p : Bool) : Prop :=
  Faithful w t s c p ∧ ∀ sh a n pt, c = .lock sh a n pt → a ≤ k ∧ (n = 0 ∨ k < a + n)

/-- Only one thread uses a stream. -/
def Private (user : Nat → Nat) (w : Crew) (t s : Nat) (c : Order) (p : Bool) : Prop :=
  OneLock w t s c p ∧ user s = t

/-- Nobody uses wrappers. -/
def Unwrapped (w : Crew) (t s : Nat) (c : Order) (p : Bool) : Prop := OneLock w t s c p ∧ p = false

/-- Every `lock_file` has a timeout. -/
def Timed (w : Crew) (t s : Nat) (c : Order) (p : Bool) : Prop :=
  OneLock w t s c p ∧ ∀ sh a n pt, c = .lock sh a n pt → pt = false

/-- From the state `w` all calls can end and all locks can be removed, while the only new calls are removals of locks that the
threads have; `way t` says whether thread `t` calls `unlock_file` of the wrapper, or leaves a `with` block. -/
def Finishes (file : Nat → Nat) (may : Crew → Nat → Nat → Order → Bool → Prop) (way : Nat → Bool) (w : Crew) : Prop :=
  ∃ w', Steps file (fun v t s c p => may v t s c p ∧ (∃ a n, c = .unlock a n) ∧ p = way t) w w' ∧
    (∀ t, w'.thread t = .idle) ∧ w'.locks = []

/-- The call of thread `t` never ends, whatever all threads do. -/
def Hangs (file : Nat → Nat) (may : Crew → Nat → Nat → Order → Bool → Prop) (t : Nat) (w : Crew) : Prop :=
  ∀ w', Steps file may w w' → w'.thread t = w.thread t ∧ w'.thread t ≠ .idle

end Verif.Crew
