import Verif.Model.Registry

/-!
# Model of POSIX record locks (`fcntl(F_SETLK)`, used through `lockf` in `rsfileio_unix.py:274-303`)

Locks belong to a pair (process, file).  Setting or clearing a range first removes that range from the locks of the
same process on the same file (whatever descriptor they were taken through); closing any descriptor of the file
removes all of them.  Not modelled: deadlock detection (its `EDEADLK` is a `kernErr` step of `System`), the
kernel's merging of adjacent ranges (not observable).
-/

namespace Verif

/-- A record lock in the kernel. -/
structure KLock where
  pid : Nat
  uid : Uid
  shared : Bool
  start : Int
  stop : Option Int
  deriving DecidableEq, Repr

/-- The lock with a smaller end. -/
def KLock.before (k : KLock) (s : Int) : KLock :=
  { k with stop := some (match k.stop with | none => s | some e => min e s) }

/-- The lock with a greater start. -/
def KLock.after (k : KLock) (e : Int) : KLock := { k with start := max k.start e }

/-- The parts of a lock outside of the range `[s, e)`. -/
def KLock.cut (k : KLock) (s : Int) (e : Option Int) : List KLock :=
  match e with
  | none => [k.before s]
  | some x => [k.before s, k.after x]

/-- Does the range of the lock share a byte with `[s, e)`? -/
def KLock.overlaps (k : KLock) (s : Int) (e : Option Int) : Bool :=
  areasOverlap ⟨0, k.shared, k.start, k.stop⟩ s e

/-- Kernel lock table. -/
abbrev KTable := List KLock

/-- `F_SETLK` with `F_UNLCK` on `[s, e)`. -/
def kUnlock (t : KTable) (pid : Nat) (uid : Uid) (s : Int) (e : Option Int) : KTable :=
  t.flatMap (fun k => if k.pid = pid ∧ k.uid = uid then k.cut s e else [k])

/-- Is there a lock of another process that forbids this one? -/
def kConflict (t : KTable) (pid : Nat) (uid : Uid) (sh : Bool) (s : Int) (e : Option Int) : Bool :=
  t.any (fun k => decide (k.pid ≠ pid) && decide (k.uid = uid) && k.overlaps s e && !(k.shared && sh))

/-- `F_SETLK` with `F_RDLCK`/`F_WRLCK` on `[s, e)`, when granted. -/
def kLock (t : KTable) (pid : Nat) (uid : Uid) (sh : Bool) (s : Int) (e : Option Int) : KTable :=
  kUnlock t pid uid s e ++ [⟨pid, uid, sh, s, e⟩]

/-- `close(fd)` on a descriptor of `uid`: all locks of the process on the file go away. -/
def kDrop (t : KTable) (pid : Nat) (uid : Uid) : KTable :=
  t.filter (fun k => ¬ (k.pid = pid ∧ k.uid = uid))

/-- End of a process. -/
def kDropPid (t : KTable) (pid : Nat) : KTable := t.filter (fun k => ¬ k.pid = pid)

end Verif
