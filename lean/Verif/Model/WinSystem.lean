import Verif.Model.Dwords
import Verif.Spec.Trace

/-!
# Processes, threads, streams, registry and kernel together (windows)

The counterpart of `System` for `rsfileio_windows.py`.  The code of `lock_file`, `unlock_file` and `close` is that of
`rsfileio_abstract.py`; the registry is that of `Registry`.  On windows both keys of the registry are the native handle
(`rsfileio_windows.py:188-189`), descriptors are never kept back, and registry entries are never deleted.

The operating system (there is no source for it in `/repo`; this is what the documentation of `LockFileEx`,
`UnlockFileEx`, `CloseHandle` and `DuplicateHandle` says):
* `CreateFile` makes a new file object and a handle to it; `DuplicateHandle`, and inheritance by a child process, make
  another handle to the same file object.
* A byte range lock belongs to a file object and a process.  An exclusive request conflicts with every lock on a common
  byte, those of the same owner included; a shared request conflicts with the exclusive locks of other owners.
* A range may reach beyond the last possible byte of a file.  (Systems that refuse such ranges are covered: a `LockFileEx`
  call may fail at any time, `kernErr`.)
* `UnlockFileEx` releases one lock of the owner with exactly this offset and this length (an exclusive one first), and
  fails if there is none.
* When a process closes its last handle to a file object, or ends, its locks through this file object are released.

Assumptions as in `System`: a stream is used by one thread at a time; handles are not closed behind rsfile's back.
There is no `fork` on windows.
-/

set_option autoImplicit false

namespace Verif.Win

open Verif Spec

/-! ## The kernel -/

/-- A byte range lock in the kernel: the `len` bytes from `off` on. -/
structure KLock where
  pid : Nat
  obj : Nat
  file : Uid
  shared : Bool
  off : Nat
  len : Nat
  deriving DecidableEq, Repr

abbrev KTable := List KLock

/-- Does the lock have a byte in common with the `len` bytes from `off` on? -/
def KLock.meets (k : KLock) (off len : Nat) : Bool :=
  decide (max k.off off < min (k.off + k.len) (off + len))

/-- Is there a lock that forbids this one? -/
def kConflict (t : KTable) (pid obj : Nat) (file : Uid) (shared : Bool) (off len : Nat) : Bool :=
  t.any (fun k => decide (k.file = file) && k.meets off len &&
    !(shared && (k.shared || (decide (k.pid = pid) && decide (k.obj = obj)))))

/-- Is it a lock of this owner, on exactly this range? -/
def KLock.isAt (pid obj off len : Nat) (k : KLock) : Bool :=
  decide (k.pid = pid ∧ k.obj = obj ∧ k.off = off ∧ k.len = len)

/-- `UnlockFileEx`; `none` is `ERROR_NOT_LOCKED`. -/
def kUnlock (t : KTable) (pid obj off len : Nat) : Option KTable :=
  if t.any (fun k => k.isAt pid obj off len && !k.shared) then
    some (t.eraseP (fun k => k.isAt pid obj off len && !k.shared))
  else if t.any (KLock.isAt pid obj off len) then some (t.eraseP (KLock.isAt pid obj off len))
  else none

/-- The last handle of the process to a file object is closed. -/
def kDrop (t : KTable) (pid obj : Nat) : KTable := t.filter (fun k => ¬ (k.pid = pid ∧ k.obj = obj))

/-- End of a process. -/
def kDropPid (t : KTable) (pid : Nat) : KTable := t.filter (fun k => ¬ k.pid = pid)

/-! ## Processes -/

/-- What a handle refers to. -/
structure Handle where
  obj : Nat
  file : Uid
  deriving DecidableEq, Repr

/-- The key of the registry, `rsfileio_windows.py:188`. -/
def key (h : Nat) : Uid := (0, h)

/-- A `lock_file` call in progress, `rsfileio_abstract.py:534,562-565,597-605`; see `Verif.Req`. -/
structure Req where
  sid : Nat
  handle : Nat
  file : Uid
  length : Option Nat
  start : Int
  shared : Bool
  llb : Bool
  deriving DecidableEq, Repr

/-- The `length` argument as a python integer. -/
def Req.len (q : Req) : Option Int := q.length.map Int.ofNat
/-- `new_end`, `rsfile_registries.py:112`. -/
def Req.stop (q : Req) : Option Int := newEnd q.start q.len
/-- The record appended by `rsfile_registries.py:140`. -/
def Req.record (q : Req) : LockRec := ⟨q.handle, q.shared, q.start, q.stop⟩

/-- Where a thread is inside `lock_file`.  A refused registration leads to `checkReg` whether or not the call is a
blocking one (a blocking one waits for a notification and then tries again, `rsfile_registries.py:186-191`); in tidy
executions no registration is ever refused on windows (`C81_own_locks_partial`). -/
inductive PC where
  | idle
  /-- about to call `register_file_lock` (`rsfileio_abstract.py:597`) -/
  | atReg (q : Req)
  /-- after a refused registration (`rsfileio_abstract.py:608`) -/
  | checkReg (q : Req)
  /-- registered, about to call `_inner_file_lock` (`rsfileio_abstract.py:622`) -/
  | atKern (q : Req)
  /-- in `check_timeout` after a failed kernel call (`rsfileio_abstract.py:629`) -/
  | checkKern (q : Req)
  /-- an exception goes through the `finally` of `rsfileio_abstract.py:631`, before the mutex is obtained -/
  | unwinding (q : Req)
  deriving DecidableEq, Repr

/-- An `RSFileIO` object: `_handle` (which is also `_lock_registry_inode` and `_lock_registry_descriptor`,
`rsfileio_windows.py:188-189`), `_closefd`.  `obj` and `file` are what the handle referred to when the stream was made:
the code does not know them. -/
structure Stream where
  handle : Nat
  obj : Nat
  file : Uid
  closefd : Bool
  isOpen : Bool
  busy : Option Nat
  deriving DecidableEq, Repr

/-- What remains to be done by the thread that owns the registry mutex. -/
inductive Micro where
  /-- `_inner_file_unlock` of `unlock_file`, `rsfileio_abstract.py:662` -/
  | unlock (sid handle : Nat) (file : Uid) (start : Int) (length : Option Int)
  /-- `_inner_file_unlock` of `close`, `rsfileio_abstract.py:224` -/
  | cunlock (handle : Nat) (start : Int) (length : Option Int)
  /-- `_inner_close_streams`, `rsfileio_windows.py:192-213`: `os.close` of the C descriptor if there is one, otherwise
  `CloseHandle`; both close the handle -/
  | cclose (handle : Nat)
  deriving DecidableEq, Repr

structure Proc where
  alive : Bool
  reg : Registry
  /-- the handles of the process and what they refer to -/
  handles : List (Nat × Handle)
  streams : Nat → Option Stream
  threads : Nat → PC
  crit : List Micro

structure World where
  procs : Nat → Option Proc
  kern : KTable
  /-- the number of the next file object -/
  next : Nat

def World.init : World := ⟨fun _ => none, [], 0⟩

/-- A process that has just started. -/
def Proc.fresh (pid : Nat) : Proc :=
  ⟨true, Registry.init pid, [], fun _ => none, fun _ => .idle, []⟩

/-- The length and the offset that the system receives: `_win32_convert_file_range_arguments` and the call of the backend
(`rsfileio_windows.py:425-441`, `rsbackend/windows_ctypes.py:252-274`).  `none` is the `ValueError` for negative numbers.
The pywin32 backend hands over the same numbers (`C58_finite`, `C58_infinite`). -/
def osRange (length : Option Int) (start : Int) : Option (Nat × Nat) :=
  (convertFileRange length (some start)).map osRangeCtypes

/-- Result of an action of a process. -/
abbrev Act := Proc × KTable × List Event

/-- What the handle refers to. -/
def Proc.target (p : Proc) (h : Nat) : Option Handle := p.handles.lookup h

/-- `CloseHandle` on a handle to the file object `obj`: the locks go away if no other handle of the process refers to
it. -/
def closeHandle (pid : Nat) (p : Proc) (k : KTable) (h obj : Nat) : Proc × KTable :=
  let hs := p.handles.filter (fun x => ¬ x.1 = h)
  ({ p with handles := hs }, if hs.any (fun x => x.2.obj = obj) then k else kDrop k pid obj)

/-- One action of the owner of the mutex.  An exception of a system call ends the method (`unlock_file` or `close`):
nothing else of it is done. -/
def doMicro (pid : Nat) (p : Proc) (k : KTable) : Micro → List Micro → Act
  | .unlock sid h f s len, rest =>
    match osRange len s with
    | none => ({ p with crit := [] }, k, [.unlockFailed pid sid f s (newEnd s len)])
    | some (l, o) =>
      match p.target h with
      | none => ({ p with crit := [] }, k, [.badFd pid h, .unlockFailed pid sid f s (newEnd s len)])
      | some hd =>
        match kUnlock k pid hd.obj o l with
        | none => ({ p with crit := [] }, k, [.unlockFailed pid sid f s (newEnd s len)])
        | some k' => ({ p with crit := rest }, k', [.unlocked pid sid f s (newEnd s len)])
  | .cunlock h s len, rest =>
    match osRange len s with
    | none => ({ p with crit := [] }, k, [])
    | some (l, o) =>
      match p.target h with
      | none => ({ p with crit := [] }, k, [.badFd pid h])
      | some hd =>
        match kUnlock k pid hd.obj o l with
        | none => ({ p with crit := [] }, k, [])
        | some k' => ({ p with crit := rest }, k', [])
  | .cclose h, rest =>
    match p.target h with
    | none => ({ p with crit := [] }, k, [.badFd pid h])
    | some hd =>
      ({ (closeHandle pid p k h hd.obj).1 with crit := rest }, (closeHandle pid p k h hd.obj).2,
        [.nclose pid h hd.file])

/-- The system call fails for another reason (an error of the device or of the network). -/
def failMicro (pid : Nat) (p : Proc) (k : KTable) : Micro → Act
  | .unlock sid _ f s len => ({ p with crit := [] }, k, [.unlockFailed pid sid f s (newEnd s len)])
  | _ => ({ p with crit := [] }, k, [])

/-- `close`, `rsfileio_abstract.py:207-227`, on an open stream: the stream is marked closed, the mutex is taken,
`remove_file_locks` is called; the loop of lines 219-224 and line 227 remain to be done. -/
def closeStream (pid : Nat) (p : Proc) (k : KTable) (sid : Nat) (st : Stream) : Act :=
  let rm := p.reg.removeFileLocks pid (key st.handle) st.handle
  ({ p with
      streams := updMap p.streams sid (some { st with isOpen := false })
      reg := rm.2
      crit := rm.1.map (fun x => .cunlock st.handle x.start (x.stop.map (fun t => t - x.start)))
        ++ (if st.closefd then [.cclose st.handle] else []) }, k, [.closed pid sid st.file])

/-- `unlock_file` after argument checking, `rsfileio_abstract.py:656-662`.  (`unregister_file_lock` would notify waiting
threads: there are none on windows.) -/
def unlockStream (pid : Nat) (p : Proc) (k : KTable) (sid : Nat) (st : Stream) (len : Option Nat)
    (s : Int) : Act :=
  let l := len.map Int.ofNat
  match p.reg.unregister pid (key st.handle) st.handle l s with
  | (.error _, r) => ({ p with reg := r }, k, [.unlockFailed pid sid st.file s (newEnd s l)])
  | (.ok _, r) => ({ p with reg := r, crit := [.unlock sid st.handle st.file s l] }, k, [])

def Proc.setPC (p : Proc) (tid : Nat) (pc : PC) : Proc := { p with threads := updMap p.threads tid pc }

/-- The thread leaves the method: the stream is no longer busy. -/
def Proc.release (p : Proc) (sid : Nat) : Proc :=
  match p.streams sid with
  | some st => { p with streams := updMap p.streams sid (some { st with busy := none }) }
  | none => p

/-- `lock_file` raises: the call is over. -/
def failLock (pid : Nat) (p : Proc) (k : KTable) (tid : Nat) (q : Req) : Act :=
  ((p.setPC tid .idle).release q.sid, k, [.lockFailed pid q.sid q.file q.shared q.start q.stop])

/-- One attempt of the loop of `register_file_lock` (`rsfile_registries.py:182-191`) by thread `tid`, under the
mutex. -/
def attemptReg (pid : Nat) (p : Proc) (k : KTable) (tid : Nat) (q : Req) : Act :=
  match p.reg.register pid (key q.handle) q.handle q.len q.start q.shared with
  | (.error _, r) => failLock pid { p with reg := r } k tid q
  | (.ok true, r) => (({ p with reg := r }).setPC tid (.atKern q), k, [])
  | (.ok false, r) => (({ p with reg := r }).setPC tid (.checkReg q), k, [])

/-- The kernel table when the lock is granted. -/
def kGrant (pid : Nat) (k : KTable) (hd : Handle) (shared : Bool) (off len : Nat) : KTable :=
  k ++ [⟨pid, hd.obj, hd.file, shared, off, len⟩]

/-- Actions of one process. -/
inductive PLabel where
  /-- some other code opens a handle -/
  | osOpen (h : Nat) (file : Uid)
  /-- some other code closes a handle -/
  | osClose (h : Nat)
  /-- a stream is created by opening a path (`rsfileio_windows.py:109-174`); the kernel gives a free handle -/
  | openS (sid h : Nat) (file : Uid)
  /-- a stream is created around an existing handle (`rsfileio_windows.py:98-107`) -/
  | wrapS (sid h : Nat) (closefd : Bool)
  | lockCall (tid sid : Nat) (length : Option Nat) (start : Int) (shared llb : Bool)
  | reg (tid : Nat)
  /-- the kernel answers `LockFileEx` -/
  | kern (tid : Nat)
  /-- `LockFileEx` fails for another reason -/
  | kernErr (tid : Nat)
  /-- an exception that is no `EnvironmentError` before the lock is taken -/
  | kernExc (tid : Nat)
  /-- an asynchronous exception (`KeyboardInterrupt`) arrives after the kernel granted the lock and before
  `rsfileio_abstract.py:626` -/
  | kernIntr (tid : Nat)
  /-- the `finally` of `rsfileio_abstract.py:631-636`, then the exception leaves `lock_file` -/
  | unwind (tid : Nat)
  /-- `check_timeout` sleeps and returns (`rsfileio_abstract.py:590`) -/
  | retry (tid : Nat)
  /-- `check_timeout` raises (`rsfileio_abstract.py:577-588`) -/
  | expire (tid : Nat)
  | unlock (sid : Nat) (length : Option Nat) (start : Int)
  | close (sid : Nat)
  /-- the owner of the mutex goes on -/
  | micro
  /-- the next system call of the owner of the mutex fails -/
  | microErr
  deriving DecidableEq, Repr

/-- The actions of a process; `obj` is the number of a new file object. -/
def stepProc (pid obj : Nat) (p : Proc) (k : KTable) : PLabel → Option Act
  | .osOpen h file =>
    if p.target h = none then some ({ p with handles := p.handles ++ [(h, ⟨obj, file⟩)] }, k, []) else none
  | .osClose h =>
    match p.target h with
    | some hd => some ((closeHandle pid p k h hd.obj).1, (closeHandle pid p k h hd.obj).2, [.nclose pid h hd.file])
    | none => none
  | .openS sid h file =>
    if p.target h = none ∧ p.streams sid = none then
      some ({ p with handles := p.handles ++ [(h, ⟨obj, file⟩)],
                     streams := updMap p.streams sid (some ⟨h, obj, file, true, true, none⟩) }, k,
        [.opened pid sid h file true])
    else none
  | .wrapS sid h closefd =>
    match p.target h with
    | none => none
    | some hd =>
      if p.streams sid = none then
        some ({ p with streams := updMap p.streams sid (some ⟨h, hd.obj, hd.file, closefd, true, none⟩) }, k,
          [.opened pid sid h hd.file closefd])
      else none
  | .lockCall tid sid len start shared llb =>
    match p.threads tid, p.streams sid with
    | .idle, some st =>
      if st.isOpen = true ∧ st.busy = none then
        let q : Req := ⟨sid, st.handle, st.file, len, start, shared, llb⟩
        some ({ p with threads := updMap p.threads tid (.atReg q),
                       streams := updMap p.streams sid (some { st with busy := some tid }) }, k,
          [.lockReq pid sid st.file shared start q.stop])
      else none
    | _, _ => none
  | .reg tid =>
    match p.threads tid, p.crit with
    | .atReg q, [] => some (attemptReg pid p k tid q)
    | _, _ => none
  | .kern tid =>
    match p.threads tid with
    | .atKern q =>
      match osRange q.len q.start with
      | none => some (p.setPC tid (.unwinding q), k, [])
      | some (l, o) =>
        match p.target q.handle with
        | none => some (p.setPC tid (.checkKern q), k, [.badFd pid q.handle])
        | some hd =>
          if kConflict k pid hd.obj hd.file q.shared o l then
            if q.llb then none else some (p.setPC tid (.checkKern q), k, [])
          else
            some ((p.setPC tid .idle).release q.sid, kGrant pid k hd q.shared o l,
              [.locked pid q.sid q.file q.shared q.start q.stop])
    | _ => none
  | .kernErr tid =>
    match p.threads tid with
    | .atKern q => some (p.setPC tid (.checkKern q), k, [])
    | _ => none
  | .kernExc tid =>
    match p.threads tid with
    | .atKern q => some (p.setPC tid (.unwinding q), k, [])
    | _ => none
  | .kernIntr tid =>
    match p.threads tid with
    | .atKern q =>
      match osRange q.len q.start, p.target q.handle with
      | some (l, o), some hd =>
        if kConflict k pid hd.obj hd.file q.shared o l then none
        else some (p.setPC tid (.unwinding q), kGrant pid k hd q.shared o l, [])
      | _, _ => none
    | _ => none
  | .unwind tid =>
    match p.threads tid, p.crit with
    | .unwinding q, [] =>
      some (failLock pid { p with reg := (p.reg.unregister pid (key q.handle) q.handle q.len q.start).2 } k tid q)
    | _, _ => none
  | .retry tid =>
    match p.threads tid with
    | .checkReg q => some (p.setPC tid (.atReg q), k, [])
    | .checkKern q => some (p.setPC tid (.atKern q), k, [])
    | _ => none
  | .expire tid =>
    match p.threads tid with
    | .checkReg q => if q.llb then none else some (failLock pid p k tid q)
    | .checkKern q => if q.llb then none else some (p.setPC tid (.unwinding q), k, [])
    | _ => none
  | .unlock sid len start =>
    match p.streams sid, p.crit with
    | some st, [] =>
      if st.isOpen = true ∧ st.busy = none then some (unlockStream pid p k sid st len start) else none
    | _, _ => none
  | .close sid =>
    match p.streams sid, p.crit with
    | some st, [] =>
      if st.busy ≠ none then none
      else if st.isOpen then some (closeStream pid p k sid st)
      else some (p, k, [])
    | _, _ => none
  | .micro =>
    match p.crit with
    | m :: rest => some (doMicro pid p k m rest)
    | [] => none
  | .microErr =>
    match p.crit with
    | m :: _ => some (failMicro pid p k m)
    | [] => none

/-- Actions of the system. -/
inductive Label where
  | newProc (pid : Nat)
  | act (pid : Nat) (l : PLabel)
  /-- `DuplicateHandle`, or the inheritance of a handle by a child process -/
  | dup (src h dst h' : Nat)
  | exit (pid : Nat)
  deriving DecidableEq, Repr

def step (w : World) : Label → Option (World × List Event)
  | .newProc pid =>
    match w.procs pid with
    | none => some ({ w with procs := updMap w.procs pid (some (Proc.fresh pid)) }, [])
    | some _ => none
  | .act pid l =>
    match w.procs pid with
    | none => none
    | some p =>
      if p.alive then
        match stepProc pid w.next p w.kern l with
        | some (p', k, e) => some (⟨updMap w.procs pid (some p'), k, w.next + 1⟩, e)
        | none => none
      else none
  | .dup src h dst h' =>
    match w.procs src, w.procs dst with
    | some p, some p' =>
      if p.alive = true ∧ p'.alive = true ∧ p'.target h' = none then
        match p.target h with
        | some hd =>
          some ({ w with procs := updMap w.procs dst (some { p' with handles := p'.handles ++ [(h', hd)] }) }, [])
        | none => none
      else none
    | _, _ => none
  | .exit pid =>
    match w.procs pid with
    | none => none
    | some p =>
      if p.alive then
        some (⟨updMap w.procs pid (some { p with alive := false }), kDropPid w.kern pid, w.next⟩, [.exited pid])
      else none

/-- Execution of a list of labels; the events are accumulated. -/
def runFrom (w : World) (tr : List Event) : List Label → Option (World × List Event)
  | [] => some (w, tr)
  | l :: ls =>
    match step w l with
    | some (w', e) => runFrom w' (tr ++ e) ls
    | none => none

def run (ls : List Label) : Option (World × List Event) := runFrom World.init [] ls

/-- The handle of the next system call. -/
def Micro.handle : Micro → Nat
  | .unlock _ h _ _ _ => h
  | .cunlock h _ _ => h
  | .cclose h => h

/-- No open stream of the process uses the handle, and no `close` call on it is in progress. -/
def Unused (p : Proc) (h : Nat) : Prop :=
  (∀ sid st, p.streams sid = some st → st.isOpen = true → st.handle ≠ h) ∧ ∀ m ∈ p.crit, m.handle ≠ h

/-- Assumption on the user: a handle is wrapped in a new stream, or closed by other code, only if no open stream of the
process uses it. -/
def WellWrapped (w : World) : Label → Prop
  | .act pid (.wrapS _ h _) => ∀ p, w.procs pid = some p → Unused p h
  | .act pid (.osClose h) => ∀ p, w.procs pid = some p → Unused p h
  | _ => True

/-- Assumption on the user: no process has two handles to one file object (`DuplicateHandle`, `os.dup`). -/
def SingleHandles (w : World) : Label → Prop
  | .dup src h dst _ => ∀ p p' hd, w.procs src = some p → w.procs dst = some p' → p.target h = some hd →
      ∀ x ∈ p'.handles, x.2.obj ≠ hd.obj
  | _ => True

/-- The range of a call can be expressed by the system: numbers below `2 ^ 64` (the greatest length stands for "until the
end of times"). -/
def FitsIn (length : Option Nat) (start : Int) : Prop :=
  start < 2 ^ 64 ∧ ∀ n, length = some n → n < 2 ^ 64 - 1

/-- Assumption on the user: all ranges fit. -/
def Fits : Label → Prop
  | .act _ (.lockCall _ _ len start _ _) => FitsIn len start
  | .act _ (.unlock _ len start) => FitsIn len start
  | _ => True

/-- The assumptions together. -/
def Sane (w : World) (l : Label) : Prop := WellWrapped w l ∧ SingleHandles w l ∧ Fits l

/-- Reachable states, under an assumption on the labels, with their history of labels and events. -/
inductive Reach (A : World → Label → Prop) : List Label → World → List Event → Prop where
  | init : Reach A [] World.init []
  | step {ls w tr l w' e} : Reach A ls w tr → A w l → step w l = some (w', e) →
      Reach A (ls ++ [l]) w' (tr ++ e)

end Verif.Win
