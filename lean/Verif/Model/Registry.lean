/-!
# Model of the intra-process lock registry (`/repo/src/rsfile/rsfile_registries.py`)

One function per python method.  A python exception is a value of `Exn`; a method that may raise returns
`Except Exn α × State` (or `Except Exn α` when the state is untouched by the raising branch).
-/

namespace Verif

/-- The python exceptions that the modelled code raises by itself or lets through. -/
inductive Exn where
  | runtimeError
  | badValueType
  | valueError
  | typeError
  | assertionError
  | keyError
  | overflowError
  | unsupported
  | attributeError
  | blockingIO (written : Nat)
  | lockingException (errno : Nat)
  | ioError (errno : Nat)
  | other (n : Nat)
  deriving DecidableEq, Repr

deriving instance DecidableEq for Except

/-- `(device, inode)` pair, `rsfileio_unix.py:211`. -/
abbrev Uid := Nat × Nat

/-- A tuple `(handle, shared, start, end)` of the lock table, `rsfile_registries.py:74-75,140`;
`stop = none` is the python `None`, "infinity". -/
structure LockRec where
  handle : Nat
  shared : Bool
  start : Int
  stop : Option Int
  deriving DecidableEq, Repr

/-- The list `[condition, locks, data, number of threads waiting]`, `rsfile_registries.py:99-104`.
The condition variable itself is represented by the waiting threads of the `System` model. -/
structure Entry where
  locks : List LockRec
  data : List Nat
  waiting : Nat
  deriving DecidableEq, Repr

/-- `rsfile_registries.py:99-104`: the value of a new entry. -/
def Entry.empty : Entry := ⟨[], [], 0⟩

/-- `IntraProcessLockRegistryClass.__init__`, `rsfile_registries.py:69-78`.  The dictionary is a partial
function; the mutex is represented in `System` (methods are executed atomically). -/
structure Registry where
  originalPid : Nat
  entries : Uid → Option Entry

/-- Dictionary assignment / deletion. -/
def updMap {α β : Type} [DecidableEq α] (f : α → β) (a : α) (b : β) : α → β :=
  fun x => if x = a then b else f x

/-- `__init__`, `rsfile_registries.py:69-78`. -/
def Registry.init (pid : Nat) : Registry := ⟨pid, fun _ => none⟩

/-- `_check_forking`, `rsfile_registries.py:80-88`; `pid` is the value of `os.getpid()`. -/
def Registry.checkForking (pid : Nat) (r : Registry) : Registry :=
  if pid ≠ r.originalPid then ⟨pid, fun _ => none⟩ else r

/-- `self._lock_registry[uid] = e`. -/
def Registry.set (r : Registry) (uid : Uid) (e : Entry) : Registry :=
  { r with entries := updMap r.entries uid (some e) }

/-- `del self._lock_registry[uid]`. -/
def Registry.del (r : Registry) (uid : Uid) : Registry :=
  { r with entries := updMap r.entries uid none }

/-- `_ensure_entry_exists(uid, create=True)`, `rsfile_registries.py:90-105`: the entry after the call. -/
def Registry.getOrCreate (r : Registry) (uid : Uid) : Entry :=
  match r.entries uid with
  | some e => e
  | none => Entry.empty

/-- `new_end = (new_start + new_length) if new_length else None`, `rsfile_registries.py:112,154`. -/
def newEnd (start : Int) (length : Option Int) : Option Int :=
  match length with
  | none => none
  | some l => if l = 0 then none else some (start + l)

/-- `rsfile_registries.py:126-128`: `min_end = end; if min_end is None or (new_end is not None and
new_end < min_end): min_end = new_end`. -/
def minEnd (stop newStop : Option Int) : Option Int :=
  match stop with
  | none => newStop
  | some e =>
    match newStop with
    | none => some e
    | some n => if n < e then some n else some e

/-- `rsfile_registries.py:124-130`: the test "areas are overlapping". -/
def areasOverlap (r : LockRec) (start : Int) (stop : Option Int) : Bool :=
  match minEnd r.stop stop with
  | none => true
  | some m => decide (max r.start start < m)

/-- The `for` loop of `_try_locking_range`, `rsfile_registries.py:119-135`. -/
def scanLocks (handle : Nat) (shared : Bool) (start : Int) (stop : Option Int) :
    List LockRec → Except Exn Bool
  | [] => .ok true
  | r :: rs =>
    if r.handle ≠ handle ∧ r.shared = true ∧ shared = true then
      scanLocks handle shared start stop rs
    else if areasOverlap r start stop then
      if r.handle = handle then .error .runtimeError else .ok false
    else scanLocks handle shared start stop rs

/-- `_try_locking_range`, `rsfile_registries.py:107-141`.  The entry is created even when the attempt
fails (`create=True`, line 117). -/
def Registry.tryLockingRange (r : Registry) (uid : Uid) (handle : Nat) (length : Option Int)
    (start : Int) (shared : Bool) : Except Exn Bool × Registry :=
  let stop := newEnd start length
  let e := r.getOrCreate uid
  match scanLocks handle shared start stop e.locks with
  | .error x => (.error x, r.set uid e)
  | .ok false => (.ok false, r.set uid e)
  | .ok true => (.ok true, r.set uid { e with locks := e.locks ++ [⟨handle, shared, start, stop⟩] })

/-- The test of `rsfile_registries.py:161`. -/
def LockRec.matchesRange (handle : Nat) (start : Int) (stop : Option Int) (r : LockRec) : Bool :=
  decide (r.handle = handle ∧ r.start = start ∧ r.stop = stop)

/-- `_try_unlocking_range`, `rsfile_registries.py:143-171`.  The `notify_all` of line 164 is performed by
the `System` model exactly when the result is `.ok` and an entry existed. -/
def Registry.tryUnlockingRange (r : Registry) (uid : Uid) (handle : Nat) (length : Option Int)
    (start : Int) : Except Exn Bool × Registry :=
  match r.entries uid with
  | none => (.ok true, r)
  | some e =>
    let stop := newEnd start length
    if e.locks.any (LockRec.matchesRange handle start stop) then
      let locks := e.locks.eraseP (LockRec.matchesRange handle start stop)
      (.ok locks.isEmpty, r.set uid { e with locks := locks })
    else (.error .runtimeError, r)

/-- One attempt of the loop of `register_file_lock`, `rsfile_registries.py:173-184`
(the waiting part, lines 186-191, is in `System`). -/
def Registry.register (pid : Nat) (r : Registry) (uid : Uid) (handle : Nat) (length : Option Int)
    (start : Int) (shared : Bool) : Except Exn Bool × Registry :=
  (r.checkForking pid).tryLockingRange uid handle length start shared

/-- `unregister_file_lock`, `rsfile_registries.py:197-203`. -/
def Registry.unregister (pid : Nat) (r : Registry) (uid : Uid) (handle : Nat) (length : Option Int)
    (start : Int) : Except Exn Bool × Registry :=
  (r.checkForking pid).tryUnlockingRange uid handle length start

/-- `remove_file_locks`, `rsfile_registries.py:205-225`: the removed records and the new registry.  No waiter
is notified. -/
def Registry.removeFileLocks (pid : Nat) (r : Registry) (uid : Uid) (handle : Nat) :
    List LockRec × Registry :=
  let r := r.checkForking pid
  match r.entries uid with
  | none => ([], r)
  | some e =>
    (e.locks.filter (fun x => x.handle = handle),
     r.set uid { e with locks := e.locks.filter (fun x => ¬ x.handle = handle) })

/-- `try_deleting_unique_id_entry`, `rsfile_registries.py:227-246`. -/
def Registry.tryDeleteEntry (pid : Nat) (r : Registry) (uid : Uid) : Bool × Registry :=
  let r := r.checkForking pid
  match r.entries uid with
  | none => (false, r)
  | some e =>
    if e.locks ≠ [] ∨ e.data ≠ [] ∨ e.waiting ≠ 0 then (false, r)
    else (true, r.del uid)

/-- `add_unique_id_data`, `rsfile_registries.py:248-255`; `assert data` (line 250) fails for descriptor 0. -/
def Registry.addData (pid : Nat) (r : Registry) (uid : Uid) (fd : Nat) : Except Exn Unit × Registry :=
  if fd = 0 then (.error .assertionError, r)
  else
    let r := r.checkForking pid
    let e := r.getOrCreate uid
    (.ok (), r.set uid { e with data := e.data ++ [fd] })

/-- `remove_unique_id_data`, `rsfile_registries.py:257-271`. -/
def Registry.removeData (pid : Nat) (r : Registry) (uid : Uid) : List Nat × Registry :=
  let r := r.checkForking pid
  match r.entries uid with
  | none => ([], r)
  | some e => (e.data, r.set uid { e with data := [] })

/-- `unique_id_has_locks`, `rsfile_registries.py:273-282`. -/
def Registry.hasLocks (pid : Nat) (r : Registry) (uid : Uid) : Bool × Registry :=
  let r := r.checkForking pid
  match r.entries uid with
  | none => (false, r)
  | some e => (!e.locks.isEmpty, r)

/-- `rsfile_registries.py:188`: `self._lock_registry[uid][3] += 1` (a `KeyError` if the entry is missing). -/
def Registry.incWaiting (r : Registry) (uid : Uid) : Except Exn Registry :=
  match r.entries uid with
  | none => .error .keyError
  | some e => .ok (r.set uid { e with waiting := e.waiting + 1 })

/-- `rsfile_registries.py:190`: `self._lock_registry[uid][3] -= 1` (a `KeyError` if the entry is missing). -/
def Registry.decWaiting (r : Registry) (uid : Uid) : Except Exn Registry :=
  match r.entries uid with
  | none => .error .keyError
  | some e => .ok (r.set uid { e with waiting := e.waiting - 1 })

end Verif
