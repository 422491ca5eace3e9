import Verif.Model.Kernel
import Verif.Spec.Trace

/-!
# Processes, threads, streams, registry and kernel together (unix)

A labelled transition system.  A label names the next atomic action; `step` returns `none` when the action is not
possible.  Every system call (`lockf`, `close`) and every registry method is an atomic action of its own.  The registry
mutex is represented by `crit`: the list of what the thread that owns the mutex has still to do before releasing it.
Actions that need the mutex are possible only when `crit` is empty; others (kernel locking calls, other processes)
interleave freely.

Assumptions (see DESIGN.md):
* a stream is used by one thread at a time (`busy`): this is what the default thread-safe wrapper provides;
* a child created by `fork` gets a process id that was never used before;
* descriptors are not closed behind rsfile's back.
-/

namespace Verif

open Spec

/-- A `lock_file` call in progress: `rsfileio_abstract.py:534,562-565,597-605`.  `llb` is `low_level_blocking`
(line 565); a call may expire iff `llb` is false (a timeout or an enforced timeout exists).  `length` is non-negative
by the check of line 541; `start` is `abs_offset`. -/
structure Req where
  sid : Nat
  fd : Nat
  uid : Uid
  length : Option Nat
  start : Int
  shared : Bool
  llb : Bool
  deriving DecidableEq, Repr

/-- The `length` argument as a python integer. -/
def Req.len (q : Req) : Option Int := q.length.map Int.ofNat
/-- `new_end`, `rsfile_registries.py:112`. -/
def Req.stop (q : Req) : Option Int := newEnd q.start q.len
/-- The record appended by `rsfile_registries.py:140`. -/
def Req.record (q : Req) : LockRec := ⟨q.fd, q.shared, q.start, q.stop⟩

/-- Where a thread is inside `lock_file`. -/
inductive PC where
  | idle
  /-- about to call `register_file_lock` (`rsfileio_abstract.py:597`) -/
  | atReg (q : Req)
  /-- inside `cond.wait` of `register_file_lock` (`rsfile_registries.py:189`); the flag tells whether it was notified -/
  | waiting (q : Req) (notified : Bool)
  /-- in `check_timeout` after a refused registration (`rsfileio_abstract.py:608`) -/
  | checkReg (q : Req)
  /-- registered, about to call `_inner_file_lock` (`rsfileio_abstract.py:622`) -/
  | atKern (q : Req)
  /-- in `check_timeout` after a failed kernel call (`rsfileio_abstract.py:629`) -/
  | checkKern (q : Req)
  /-- an exception goes through the `finally` of `rsfileio_abstract.py:631`, before the mutex is obtained -/
  | unwinding (q : Req)
  deriving DecidableEq, Repr

/-- An `RSFileIO` object: `_lock_registry_descriptor`, `_lock_registry_inode`, `_closefd`
(`rsfileio_unix.py:140-142`, `rsfileio_abstract.py:118`).  `busy` is the thread currently inside `lock_file`. -/
structure Stream where
  fd : Nat
  uid : Uid
  closefd : Bool
  isOpen : Bool
  busy : Option Nat
  deriving DecidableEq, Repr

/-- What remains to be done by the thread that owns the registry mutex. -/
inductive Micro where
  /-- `unix.lockf(fd, LOCK_UN, length, start)`, `rsfileio_unix.py:301` -/
  | kunlock (fd : Nat) (uid : Uid) (start : Int) (length : Option Int)
  /-- `_purge_pending_related_file_descriptors`, `rsfileio_unix.py:47-60` -/
  | purge (uid : Uid)
  /-- `unix.close(fd)`, `rsfileio_unix.py:58` -/
  | nclose (fd : Nat)
  /-- `add_unique_id_data`, `rsfileio_unix.py:150` -/
  | addData (uid : Uid) (fd : Nat)
  /-- `try_deleting_unique_id_entry`, `rsfileio_unix.py:153` -/
  | delEntry (uid : Uid)
  deriving DecidableEq, Repr

structure Proc where
  alive : Bool
  reg : Registry
  /-- open descriptors and the file they refer to -/
  fds : Nat → Option Uid
  streams : Nat → Option Stream
  threads : Nat → PC
  crit : List Micro

structure World where
  procs : Nat → Option Proc
  kern : KTable

def World.init : World := ⟨fun _ => none, []⟩

/-- A process that has just started: `IntraProcessLockRegistry` is created at import
(`rsfile_registries.py:286`). -/
def Proc.fresh (pid : Nat) : Proc :=
  ⟨true, Registry.init pid, fun _ => none, fun _ => none, fun _ => .idle, []⟩

/-- Result of an action of a process. -/
abbrev Act := Proc × KTable × List Event

/-- One action of the owner of the mutex.  A system call on an unknown descriptor would raise `EBADF`; the model
records `badFd` and goes on (proved not to happen).  For descriptor 0 `add_unique_id_data` raises
`AssertionError`, so that nothing else is done. -/
def doMicro (pid : Nat) (p : Proc) (k : KTable) : Micro → List Micro → Act
  | .kunlock fd uid s len, rest =>
    match p.fds fd with
    | some _ => ({ p with crit := rest }, kUnlock k pid uid s (newEnd s len), [])
    | none => ({ p with crit := rest }, k, [.badFd pid fd])
  | .purge uid, rest =>
    if (p.reg.hasLocks pid uid).1 then ({ p with reg := (p.reg.hasLocks pid uid).2, crit := rest }, k, [])
    else
      let r := (p.reg.hasLocks pid uid).2
      ({ p with reg := (r.removeData pid uid).2, crit := (r.removeData pid uid).1.map .nclose ++ rest }, k, [])
  | .nclose fd, rest =>
    match p.fds fd with
    | some u => ({ p with fds := updMap p.fds fd none, crit := rest }, kDrop k pid u, [.nclose pid fd u])
    | none => ({ p with crit := rest }, k, [.badFd pid fd])
  | .addData uid fd, rest =>
    match p.reg.addData pid uid fd with
    | (.error _, r) => ({ p with reg := r, crit := [] }, k, [])
    | (.ok _, r) => ({ p with reg := r, crit := rest }, k, [])
  | .delEntry uid, rest =>
    ({ p with reg := (p.reg.tryDeleteEntry pid uid).2, crit := rest }, k, [])

/-- The calls of `_inner_file_unlock`, `rsfileio_unix.py:294-303`. -/
def unlockMicros (fd : Nat) (uid : Uid) (s : Int) (len : Option Int) : List Micro :=
  [.kunlock fd uid s len, .purge uid]

/-- The calls of `_inner_close_streams`, `rsfileio_unix.py:144-153`. -/
def closeMicros (st : Stream) : List Micro :=
  if st.closefd then [.addData st.uid st.fd, .purge st.uid, .delEntry st.uid] else []

/-- `close`, `rsfileio_abstract.py:207-227`, on an open stream: the stream is marked closed, the mutex is taken,
`remove_file_locks` is called; the loop of lines 219-224 and line 227 remain to be done. -/
def closeStream (pid : Nat) (p : Proc) (k : KTable) (sid : Nat) (st : Stream) : Act :=
  let rm := p.reg.removeFileLocks pid st.uid st.fd
  ({ p with
      streams := updMap p.streams sid (some { st with isOpen := false })
      reg := rm.2
      crit := rm.1.flatMap (fun x => unlockMicros st.fd st.uid x.start (x.stop.map (fun t => t - x.start)))
        ++ closeMicros st }, k, [.closed pid sid st.uid])

/-- `notify_all` on the condition of `uid` (`rsfile_registries.py:164`). -/
def notifyAll (uid : Uid) (threads : Nat → PC) : Nat → PC := fun t =>
  match threads t with
  | .waiting q b => if q.uid = uid then .waiting q true else .waiting q b
  | pc => pc

/-- `unregister_file_lock` with its notification (`rsfile_registries.py:143-171,197-203`): the waiters are notified
iff a record was deleted. -/
def unregisterN (pid : Nat) (p : Proc) (uid : Uid) (fd : Nat) (len : Option Int) (s : Int) :
    Except Exn Bool × Proc :=
  match p.reg.unregister pid uid fd len s with
  | (.ok b, r) =>
    (.ok b, { p with reg := r,
                     threads := if ((p.reg.checkForking pid).entries uid).isSome then notifyAll uid p.threads
                       else p.threads })
  | (.error x, r) => (.error x, { p with reg := r })

/-- `unlock_file` after argument checking, `rsfileio_abstract.py:656-662`. -/
def unlockStream (pid : Nat) (p : Proc) (k : KTable) (sid : Nat) (st : Stream) (len : Option Nat)
    (s : Int) : Act :=
  let l := len.map Int.ofNat
  match unregisterN pid p st.uid st.fd l s with
  | (.error _, p') => (p', k, [.unlockFailed pid sid st.uid s (newEnd s l)])
  | (.ok _, p') =>
    ({ p' with crit := unlockMicros st.fd st.uid s l }, k, [.unlocked pid sid st.uid s (newEnd s l)])

def Proc.setPC (p : Proc) (tid : Nat) (pc : PC) : Proc := { p with threads := updMap p.threads tid pc }

/-- The thread leaves the method: the stream is no longer busy. -/
def Proc.release (p : Proc) (sid : Nat) : Proc :=
  match p.streams sid with
  | some st => { p with streams := updMap p.streams sid (some { st with busy := none }) }
  | none => p

/-- `lock_file` raises: the call is over. -/
def failLock (pid : Nat) (p : Proc) (k : KTable) (tid : Nat) (q : Req) : Act :=
  ((p.setPC tid .idle).release q.sid, k, [.lockFailed pid q.sid q.uid q.shared q.start q.stop])

/-- One attempt of the loop of `register_file_lock` (`rsfile_registries.py:182-191`) by thread `tid`, under the
mutex.  When the answer is `False`: a low-level-blocking call starts waiting, another returns to
`rsfileio_abstract.py:608`. -/
def attemptReg (pid : Nat) (p : Proc) (k : KTable) (tid : Nat) (q : Req) : Act :=
  match p.reg.register pid q.uid q.fd q.len q.start q.shared with
  | (.error _, r) => failLock pid { p with reg := r } k tid q
  | (.ok true, r) => (({ p with reg := r }).setPC tid (.atKern q), k, [])
  | (.ok false, r) =>
    if q.llb then
      match r.incWaiting q.uid with
      | .ok r => (({ p with reg := r }).setPC tid (.waiting q false), k, [])
      | .error _ =>
        ((failLock pid { p with reg := r } k tid q).1, k,
          .keyErr pid :: (failLock pid { p with reg := r } k tid q).2.2)
    else (({ p with reg := r }).setPC tid (.checkReg q), k, [])

/-- The kernel grants the lock: `lock_file` returns (`rsfileio_abstract.py:622-638`). -/
def grant (pid : Nat) (p : Proc) (k : KTable) (tid : Nat) (q : Req) : Act :=
  ((p.setPC tid .idle).release q.sid, kLock k pid q.uid q.shared q.start q.stop,
    [.locked pid q.sid q.uid q.shared q.start q.stop])

/-- Actions of one process. -/
inductive PLabel where
  /-- some other code opens a descriptor -/
  | osOpen (fd : Nat) (uid : Uid)
  /-- a stream is created by opening a path (`rsfileio_unix.py:90-142`); the kernel gives a free descriptor -/
  | openS (sid fd : Nat) (uid : Uid)
  /-- a stream is created around an existing descriptor (`rsfileio_unix.py:82-88,140-142`) -/
  | wrapS (sid fd : Nat) (closefd : Bool)
  | lockCall (tid sid : Nat) (length : Option Nat) (start : Int) (shared llb : Bool)
  | reg (tid : Nat)
  | wake (tid : Nat)
  /-- the kernel answers the locking call -/
  | kern (tid : Nat)
  /-- the kernel call fails with some `EnvironmentError` (`rsfileio_abstract.py:628`) -/
  | kernErr (tid : Nat)
  /-- the kernel call raises something else, e.g. `OverflowError`; no lock was taken -/
  | kernExc (tid : Nat)
  /-- an asynchronous exception (`KeyboardInterrupt`) arrives after the kernel granted the lock and before
  `rsfileio_abstract.py:626` -/
  | kernIntr (tid : Nat)
  /-- the `finally` of `rsfileio_abstract.py:631-636`, then the exception leaves `lock_file` -/
  | unwind (tid : Nat)
  /-- `check_timeout` sleeps and returns (`rsfileio_abstract.py:590`) -/
  | retry (tid : Nat)
  /-- `check_timeout` raises (`rsfileio_abstract.py:577-588`) -/
  | expire (tid : Nat)
  | unlock (sid : Nat) (length : Option Nat) (start : Int)
  | close (sid : Nat)
  /-- the owner of the mutex goes on -/
  | micro
  deriving DecidableEq, Repr

/-- Is the descriptor waiting to be closed by rsfile (queued in the registry or in the loop of
`rsfileio_unix.py:56-58`)? -/
def Proc.isPending (pid : Nat) (p : Proc) (fd : Nat) (uid : Uid) : Bool :=
  (decide (p.reg.originalPid = pid) &&
    match p.reg.entries uid with
    | some e => e.data.contains fd
    | none => false) ||
  p.crit.contains (.nclose fd) || p.crit.contains (.addData uid fd)

def stepProc (pid : Nat) (p : Proc) (k : KTable) : PLabel → Option Act
  | .osOpen fd uid =>
    if p.fds fd = none then some ({ p with fds := updMap p.fds fd (some uid) }, k, []) else none
  | .openS sid fd uid =>
    if p.fds fd = none ∧ p.streams sid = none then
      some ({ p with fds := updMap p.fds fd (some uid),
                     streams := updMap p.streams sid (some ⟨fd, uid, true, true, none⟩) }, k,
        [.opened pid sid fd uid true])
    else none
  | .wrapS sid fd closefd =>
    match p.fds fd with
    | none => none
    | some uid =>
      if p.streams sid = none ∧ p.isPending pid fd uid = false then
        some ({ p with streams := updMap p.streams sid (some ⟨fd, uid, closefd, true, none⟩) }, k,
          [.opened pid sid fd uid closefd])
      else none
  | .lockCall tid sid len start shared llb =>
    match p.threads tid, p.streams sid with
    | .idle, some st =>
      if st.isOpen = true ∧ st.busy = none then
        let q : Req := ⟨sid, st.fd, st.uid, len, start, shared, llb⟩
        some ({ p with threads := updMap p.threads tid (.atReg q),
                       streams := updMap p.streams sid (some { st with busy := some tid }) }, k,
          [.lockReq pid sid st.uid shared start q.stop])
      else none
    | _, _ => none
  | .reg tid =>
    match p.threads tid, p.crit with
    | .atReg q, [] => some (attemptReg pid p k tid q)
    | _, _ => none
  | .wake tid =>
    match p.threads tid, p.crit with
    | .waiting q true, [] =>
      match p.reg.decWaiting q.uid with
      | .ok r => some (attemptReg pid { p with reg := r } k tid q)
      | .error _ =>
        some ((failLock pid p k tid q).1, k, .keyErr pid :: (failLock pid p k tid q).2.2)
    | _, _ => none
  | .kern tid =>
    match p.threads tid with
    | .atKern q =>
      if p.fds q.fd = none then some (p.setPC tid (.checkKern q), k, [.badFd pid q.fd])
      else if q.start < 0 then some (p.setPC tid (.checkKern q), k, [])
      else if kConflict k pid q.uid q.shared q.start q.stop then
        if q.llb then none else some (p.setPC tid (.checkKern q), k, [])
      else some (grant pid p k tid q)
    | _ => none
  | .kernErr tid =>
    match p.threads tid with
    | .atKern q => some (p.setPC tid (.checkKern q), k, [])
    | _ => none
  | .kernExc tid =>
    match p.threads tid with
    | .atKern q => some (p.setPC tid (.unwinding q), k, [])
    | _ => none
  | .kernIntr tid =>
    match p.threads tid with
    | .atKern q =>
      if p.fds q.fd = none ∨ q.start < 0 ∨ kConflict k pid q.uid q.shared q.start q.stop = true then none
      else some (p.setPC tid (.unwinding q), kLock k pid q.uid q.shared q.start q.stop, [])
    | _ => none
  | .unwind tid =>
    match p.threads tid, p.crit with
    | .unwinding q, [] => some (failLock pid (unregisterN pid p q.uid q.fd q.len q.start).2 k tid q)
    | _, _ => none
  | .retry tid =>
    match p.threads tid with
    | .checkReg q => some (p.setPC tid (.atReg q), k, [])
    | .checkKern q => some (p.setPC tid (.atKern q), k, [])
    | _ => none
  | .expire tid =>
    match p.threads tid with
    | .checkReg q => if q.llb then none else some (failLock pid p k tid q)
    | .checkKern q => if q.llb then none else some (p.setPC tid (.unwinding q), k, [])
    | _ => none
  | .unlock sid len start =>
    match p.streams sid, p.crit with
    | some st, [] =>
      if st.isOpen = true ∧ st.busy = none then some (unlockStream pid p k sid st len start) else none
    | _, _ => none
  | .close sid =>
    match p.streams sid, p.crit with
    | some st, [] =>
      if st.busy ≠ none then none
      else if st.isOpen then some (closeStream pid p k sid st)
      else some (p, k, [])
    | _, _ => none
  | .micro =>
    match p.crit with
    | m :: rest => some (doMicro pid p k m rest)
    | [] => none

/-- Actions of the system. -/
inductive Label where
  | newProc (pid : Nat)
  | act (pid : Nat) (l : PLabel)
  | fork (parent child : Nat)
  | exit (pid : Nat)
  deriving DecidableEq, Repr

/-- What `fork` copies: memory (registry, streams) and descriptors, not the other threads.  (If another thread of the
parent owns a mutex at that moment, the real child is stuck when it wants that mutex; the model lets it go on, which
adds behaviours.) -/
def Proc.forked (p : Proc) : Proc :=
  { p with threads := fun _ => .idle, crit := [],
           streams := fun s => (p.streams s).map (fun st => { st with busy := none }) }

def step (w : World) : Label → Option (World × List Event)
  | .newProc pid =>
    match w.procs pid with
    | none => some ({ w with procs := updMap w.procs pid (some (Proc.fresh pid)) }, [])
    | some _ => none
  | .act pid l =>
    match w.procs pid with
    | none => none
    | some p =>
      if p.alive then
        match stepProc pid p w.kern l with
        | some (p', k, e) => some (⟨updMap w.procs pid (some p'), k⟩, e)
        | none => none
      else none
  | .fork parent child =>
    match w.procs parent, w.procs child with
    | some p, none =>
      if p.alive then
        some ({ w with procs := updMap w.procs child (some p.forked) }, [.forked parent child])
      else none
    | _, _ => none
  | .exit pid =>
    match w.procs pid with
    | none => none
    | some p =>
      if p.alive then
        some (⟨updMap w.procs pid (some { p with alive := false }), kDropPid w.kern pid⟩, [.exited pid])
      else none

/-- Execution of a list of labels; the events are accumulated. -/
def runFrom (w : World) (tr : List Event) : List Label → Option (World × List Event)
  | [] => some (w, tr)
  | l :: ls =>
    match step w l with
    | some (w', e) => runFrom w' (tr ++ e) ls
    | none => none

def run (ls : List Label) : Option (World × List Event) := runFrom World.init [] ls

/-- Assumption on the user: a descriptor is wrapped in a new stream only if no open stream of the process uses it. -/
def WellWrapped (w : World) : Label → Prop
  | .act pid (.wrapS _ fd _) =>
    ∀ p, w.procs pid = some p → ∀ sid st, p.streams sid = some st → st.isOpen = true → st.fd ≠ fd
  | _ => True

/-- Reachable states with their history of labels and events. -/
inductive Reach : List Label → World → List Event → Prop where
  | init : Reach [] World.init []
  | step {ls w tr l w' e} : Reach ls w tr → WellWrapped w l → step w l = some (w', e) →
      Reach (ls ++ [l]) w' (tr ++ e)

end Verif
