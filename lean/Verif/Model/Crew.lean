import Verif.Model.Registry

/-!
# Threads that share thread-safe streams and lock files

Calls through `RSThreadSafeWrapper` (`rsfile_streams.py:150-203`) hold the mutex of the wrapper until they return,
`lock_file` included, which waits inside (`rsfileio_abstract.py:597-605`, `rsfile_registries.py:173-194`).  The threads belong
to one process; the locks are those of its registry, and what other processes lock is not modelled (`System` has them).  A
call is `lock_file`, `unlock_file` or any other one, which needs nothing else.  A call may also go to the stream itself,
without the mutex: the first use of an attribute of the wrapper (`rsfile_streams.py:174-186`), and the end of a `with` block
of `lock_file` (`rsfileio_abstract.py:526-532`), do.
-/

set_option autoImplicit false

namespace Verif

/-- A call of a method.  The length 0 means up to infinity, `rsfile_registries.py:112`; the last argument of `lock` says
whether the call has no timeout and the option `enforced_locking_timeout_value` is not set, `rsfileio_abstract.py:563-565`. -/
inductive Order where
  | lock (shared : Bool) (start length : Nat) (patient : Bool)
  | unlock (start length : Nat)
  | use

/-- What a thread does. -/
inductive Duty where
  | idle
  /-- at `with self.mutex`, `rsfile_streams.py:171` -/
  | asking (stream : Nat) (c : Order)
  /-- in the method; the flag says whether it holds the mutex -/
  | inside (stream : Nat) (c : Order) (locked : Bool)

/-- A lock and the thread that has obtained it (which the program does not record). -/
structure Holding where
  owner : Nat
  lock : LockRec

structure Crew where
  thread : Nat → Duty
  /-- the owner of the mutex of the wrapper of a stream -/
  mutex : Nat → Option Nat
  /-- the registry, in the order of registration -/
  locks : List Holding

namespace Crew

/-- The list of locks of a file; `file` says which file a stream is on. -/
def entry (file : Nat → Nat) (w : Crew) (f : Nat) : List LockRec :=
  (w.locks.filter fun h => file h.lock.handle = f).map Holding.lock

/-- `_try_locking_range`, `rsfile_registries.py:107-141`. -/
def verdict (file : Nat → Nat) (w : Crew) (s : Nat) (shared : Bool) (start length : Nat) : Except Exn Bool :=
  scanLocks s shared start (newEnd start (some (length : Int))) (w.entry file (file s))

/-- The state of one thread is replaced. -/
def set (w : Crew) (t : Nat) (d : Duty) : Crew := { w with thread := fun u => if u = t then d else w.thread u }

/-- The call of thread `t` on stream `s` ends, `rsfile_streams.py:170-172`. -/
def leave (w : Crew) (t s : Nat) (locked : Bool) : Crew :=
  { w with
    thread := fun u => if u = t then .idle else w.thread u
    mutex := fun r => if locked ∧ r = s then none else w.mutex r }

/-- The test of `rsfile_registries.py:161`. -/
def matching (s start length : Nat) (h : Holding) : Bool := h.lock.matchesRange s start (newEnd start (some (length : Int)))

/-- One step of thread `t`; a new call is allowed by `may w t s c p`, where `p` says that it goes through the wrapper. -/
inductive Step (file : Nat → Nat) (may : Crew → Nat → Nat → Order → Bool → Prop) (t : Nat) : Crew → Crew → Prop
  | call (w : Crew) (s : Nat) (c : Order) (hi : w.thread t = .idle) (hm : may w t s c true) : Step file may t w (w.set t (.asking s c))
  | direct (w : Crew) (s : Nat) (c : Order) (hi : w.thread t = .idle) (hm : may w t s c false) :
      Step file may t w (w.set t (.inside s c false))
  | enter (w : Crew) (s : Nat) (c : Order) (hi : w.thread t = .asking s c) (hm : w.mutex s = none) :
      Step file may t w (({ w with mutex := fun r => if r = s then some t else w.mutex r } : Crew).set t (.inside s c true))
  /-- the lock is granted -/
  | grant (w : Crew) (s : Nat) (shared : Bool) (start length : Nat) (patient l : Bool)
      (hi : w.thread t = .inside s (.lock shared start length patient) l) (hv : w.verdict file s shared start length = .ok true) :
      Step file may t w
        (({ w with locks := w.locks ++ [⟨t, ⟨s, shared, start, newEnd start (some (length : Int))⟩⟩] } : Crew).leave t s l)
  /-- `RuntimeError`: the stream has locked these bytes itself -/
  | refuse (w : Crew) (s : Nat) (shared : Bool) (start length : Nat) (patient l : Bool) (e : Exn)
      (hi : w.thread t = .inside s (.lock shared start length patient) l) (hv : w.verdict file s shared start length = .error e) :
      Step file may t w (w.leave t s l)
  /-- the timeout has passed -/
  | expire (w : Crew) (s : Nat) (shared : Bool) (start length : Nat) (l : Bool)
      (hi : w.thread t = .inside s (.lock shared start length false) l) : Step file may t w (w.leave t s l)
  | unlock (w : Crew) (s start length : Nat) (l : Bool) (hi : w.thread t = .inside s (.unlock start length) l) :
      Step file may t w (({ w with locks := w.locks.eraseP (matching s start length) } : Crew).leave t s l)
  | use (w : Crew) (s : Nat) (l : Bool) (hi : w.thread t = .inside s .use l) : Step file may t w (w.leave t s l)

/-- Nobody has done anything. -/
def new : Crew := ⟨fun _ => .idle, fun _ => none, []⟩

/-- Any number of steps. -/
inductive Steps (file : Nat → Nat) (may : Crew → Nat → Nat → Order → Bool → Prop) : Crew → Crew → Prop
  | refl (w : Crew) : Steps file may w w
  | step {w w' w'' : Crew} (t : Nat) (h : Steps file may w w') (hs : Step file may t w' w'') : Steps file may w w''

end Crew

end Verif
