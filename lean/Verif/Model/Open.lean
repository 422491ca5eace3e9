import Verif.Model.Modes
import Verif.Model.Buffered

/-!
# `rsopen` on unix

`rsopen` (`rsfile_factories.py:11-341`), the constructor of the raw stream (`rsfileio_abstract.py:70-196`,
`rsfileio_unix.py:63-142`) and its `close` (`rsfileio_abstract.py:207-227`, `rsfileio_unix.py:46-60,144-153`), over a
small file system with a table of descriptors.

Which system calls and lock requests fail, and how, is decided by an arbitrary schedule.  Simplifications: a half-built
stream is finalised at once (`IOBase.__del__`, `_pyio:405-420`, reference counting; exceptions are ignored); `close(2)` and the native unlocking
do not fail; the value of `permissions` is not used; the python exceptions of a text layer with bad arguments
(unknown encoding, bad newline) come from the schedule; symbolic links are not modelled.
-/

namespace Verif

inductive NodeKind where
  | regular
  | directory
  /-- pipes, terminals, devices -/
  | special
  deriving DecidableEq

/-- An inode. -/
structure Node where
  kind : NodeKind
  data : Bytes
  tty : Bool
  blksize : Nat
  deriving DecidableEq

/-- A file descriptor of the process. -/
structure Desc where
  ino : Nat
  read : Bool
  write : Bool
  append : Bool
  sync : Bool
  inheritable : Bool
  deriving DecidableEq

/-- What happened, in order. -/
inductive OpenEv where
  | created (p : Bytes) (ino : Nat)
  | opened (fd ino : Nat)
  | locked (ino fd : Nat)
  | truncated (ino : Nat)
  | closed (fd : Nat)
  /-- closing was postponed because the process has locks on the file -/
  | postponed (fd : Nat)
  deriving DecidableEq

/-- The part of the world that `rsopen` can see or change. -/
structure Host where
  /-- the inode with number `n` is the element `n` -/
  nodes : List Node
  names : List (Bytes × Nat)
  fds : List (Nat × Desc)
  /-- the files and descriptors of the streams that hold locks: the lock registry -/
  held : List (Nat × Nat)
  /-- the files and descriptors waiting to be closed: the data of the lock registry -/
  pending : List (Nat × Nat)
  /-- the system calls and lock requests to come: `some e` fails; an exhausted schedule succeeds -/
  sched : List (Option Exn)
  log : List OpenEv
  deriving DecidableEq

namespace Host

/-- A call to the outside that may fail. -/
def outside : PyM Host Unit := fun w =>
  match w.sched with
  | [] => (.ok (), w)
  | none :: rest => (.ok (), { w with sched := rest })
  | some e :: rest => (.error e, { w with sched := rest })

/-- The lowest free descriptor (POSIX `open`). -/
def freeFd (w : Host) : Nat :=
  ((List.range (w.fds.length + 1)).find? fun n => (w.fds.lookup n).isNone).getD w.fds.length

/-- The flags of `open(2)`. -/
structure Flags where
  read : Bool
  write : Bool
  append : Bool
  sync : Bool
  creat : Bool
  excl : Bool
  deriving DecidableEq

/-- A new descriptor for the inode.  (It is inheritable until told otherwise, as before PEP 446.) -/
def newFd (ino : Nat) (fl : Flags) (w : Host) : Nat × Host :=
  let fd := w.freeFd
  (fd, { w with
    fds := (fd, ⟨ino, fl.read, fl.write, fl.append, fl.sync, true⟩) :: w.fds
    log := w.log ++ [.opened fd ino] })

/-- A new empty file. -/
def newFile (p : Bytes) (w : Host) : Host :=
  { w with
    nodes := w.nodes ++ [⟨.regular, [], false, 4096⟩]
    names := (p, w.nodes.length) :: w.names
    log := w.log ++ [.created p w.nodes.length] }

/-- `open(2)`.  Errors: 2 `ENOENT`, 17 `EEXIST`, 21 `EISDIR`, 24 `EMFILE` (descriptors are C integers). -/
def sysOpen (p : Bytes) (fl : Flags) : PyM Host Nat := do
  outside
  let w ← PyM.get
  match w.names.lookup p with
  | some ino =>
    if 2 ^ 31 ≤ w.freeFd then PyM.raise (.ioError 24)
    else if fl.creat && fl.excl then PyM.raise (.ioError 17)
    else if (w.nodes[ino]?.map Node.kind) = some .directory && (fl.write || fl.creat) then PyM.raise (.ioError 21)
    else fun w => (.ok (w.newFd ino fl).1, (w.newFd ino fl).2)
  | none =>
    if 2 ^ 31 ≤ w.freeFd then PyM.raise (.ioError 24)
    else if fl.creat then fun w => (.ok ((w.newFile p).newFd w.nodes.length fl).1, ((w.newFile p).newFd w.nodes.length fl).2)
    else PyM.raise (.ioError 2)

/-- `fstat(2)`: the number of the inode and the inode.  Descriptors that do not fit into a C `int` raise
`OverflowError`; 9 is `EBADF`. -/
def sysFstat (fd : Int) : PyM Host (Nat × Node) :=
  if 2 ^ 31 ≤ fd then PyM.raise .overflowError
  else do
    outside
    let w ← PyM.get
    match w.fds.lookup fd.toNat with
    | some d =>
      match w.nodes[d.ino]? with
      | some n => if fd < 0 then PyM.raise (.ioError 9) else pure (d.ino, n)
      | none => PyM.raise (.ioError 9)
    | none => PyM.raise (.ioError 9)

/-- `os.set_inheritable`, `rsfileio_unix.py:131-132`. -/
def sysSetInheritable (fd : Nat) (b : Bool) : PyM Host Unit := do
  outside
  PyM.modify fun w => { w with fds := w.fds.map fun e => if e.1 = fd then (e.1, { e.2 with inheritable := b }) else e }

/-- `ftruncate(2)` to zero of the file of a descriptor. -/
def sysTruncate (ino : Nat) : PyM Host Unit := do
  outside
  PyM.modify fun w => { w with
    nodes := w.nodes.modify ino fun n => { n with data := [] }
    log := w.log ++ [.truncated ino] }

/-- The postponed descriptors of a file are closed if no lock on it is left, `rsfileio_unix.py:46-60`. -/
def purge (ino : Nat) (w : Host) : Host :=
  if w.held.any fun e => e.1 = ino then w
  else
    let gone := (w.pending.filter fun e => e.1 = ino).map Prod.snd
    { w with
      pending := w.pending.filter fun e => e.1 ≠ ino
      fds := w.fds.filter fun e => e.1 ∉ gone
      log := w.log ++ gone.map .closed }

/-- Whether `close` fails: `add_unique_id_data` asserts that its datum, the descriptor, is not 0,
`rsfileio_unix.py:145-150`, `rsfile_registries.py:248-250`. -/
def closeFails (closefd : Bool) (fd : Nat) : Bool := closefd && fd = 0

/-- `close` of a raw stream: the locks of the stream are removed, with the postponed descriptors if they were the last
ones, `rsfileio_abstract.py:213-224`, `rsfileio_unix.py:294-303`; if it owns its descriptor, this is closed together
with the postponed ones, or postponed if other streams have locks on the file, `rsfileio_unix.py:46-60,144-153`, unless
it is 0: then it stays open, and `close` raises `AssertionError`. -/
def closeRaw (closefd : Bool) (ino fd : Nat) (w : Host) : Host :=
  let w1 := { w with held := w.held.filter fun e => e ≠ (ino, fd) }
  let w2 := if (ino, fd) ∈ w.held then w1.purge ino else w1
  if closefd && fd ≠ 0 then
    { w2 with
      pending := (ino, fd) :: w2.pending
      log := w2.log ++ if w2.held.any fun e => e.1 = ino then [.postponed fd] else [] : Host }.purge ino
  else w2

/-- What a block ends with when it was to end with `r` but closed the stream: an exception of `close` replaces it. -/
def closing {α : Type} (closefd : Bool) (fd : Nat) (r : Except Exn α) : Except Exn α :=
  if closeFails closefd fd then .error .assertionError else r

end Host

/-- A raw stream. -/
structure RawObj where
  fd : Nat
  ino : Nat
  closefd : Bool
  readable : Bool
  writable : Bool
  append : Bool
  mustCreate : Bool
  mustNotCreate : Bool
  synchronized : Bool
  inheritable : Bool
  seekable : Bool
  deriving DecidableEq

/-- `bool(path)`. -/
def NameArg.truthy : NameArg → Bool
  | .path p => p ≠ []
  | .none => false
  | .int z => z ≠ 0
  | .bool b => b
  | .other => true

/-- `isinstance(path, (bytes, str))`. -/
def NameArg.isString : NameArg → Bool
  | .path _ => true
  | _ => false

/-- `isinstance(name, bool)`. -/
def NameArg.isBool : NameArg → Bool
  | .bool _ => true
  | _ => false

/-- `"\0" in path`. -/
def NameArg.hasNul : NameArg → Bool
  | .path p => p.contains 0
  | _ => false

namespace RawObj

open Host

/-- The checks of the constructor, `rsfileio_abstract.py:100-163`. -/
def check (kw : RawKw) : Except Exn Unit :=
  let write := kw.write || kw.append
  if kw.path ≠ .none && !kw.path.isString then .error .badValueType
  else if kw.path.truthy.toNat + kw.fileno.isSome.toNat + kw.handle.isSome.toNat ≠ 1 then .error .badValueType
  else if !kw.read && !write then .error .badValueType
  else if kw.mustCreate && kw.mustNotCreate then .error .badValueType
  else if !kw.closefd && !(kw.fileno.isSome || kw.handle.isSome) then .error .badValueType
  else if kw.path = .none && kw.fileno.any (· < 0) then .error .badValueType
  else if kw.path = .none && kw.fileno = none && kw.handle.any (· < 0) then .error .badValueType
  else if kw.path.hasNul then .error .badValueType
  else .ok ()

/-- The flags of `open(2)`, `rsfileio_unix.py:97-120`. -/
def flags (kw : RawKw) : Flags :=
  { read := kw.read, write := kw.write || kw.append, append := kw.append, sync := kw.synchronized,
    creat := !kw.mustNotCreate, excl := !kw.mustNotCreate && kw.mustCreate }

/-- Opening a path, `rsfileio_unix.py:122-138`.  An exception after `open` leaves the descriptor open: the stream has no
`_lock_registry_inode` yet, so that `close` does nothing (`rsfileio_unix.py:147`). -/
def openPath (p : Bytes) (kw : RawKw) : PyM Host Int := do
  let fd ← sysOpen p (flags kw)
  let st ← sysFstat fd
  if st.2.kind = .directory then PyM.raise (.ioError 21)
  else do
    sysSetInheritable fd kw.inheritable
    pure (fd : Int)

/-- `_inner_create_streams`, `rsfileio_unix.py:63-142`: the descriptor and the inode. -/
def createStreams (kw : RawKw) : PyM Host (Int × Nat) := do
  let fd ← (match kw.handle, kw.fileno with
    | some h, _ => pure h
    | none, some f => pure f
    | none, none => openPath (match kw.path with
      | .path p => p
      | _ => []) kw)
  let st ← sysFstat fd
  pure (fd, st.1)

/-- `except OverflowError: raise BadValueTypeError`, `rsfileio_abstract.py:187-188`. -/
def noOverflow {α : Type} (m : PyM Host α) : PyM Host α := fun w =>
  match m w with
  | (.error .overflowError, w') => (.error .badValueType, w')
  | r => r

/-- The end of the constructor, `rsfileio_abstract.py:168-196`, with the finaliser if it fails: whether the stream is
seekable.  29 is `ESPIPE`. -/
def inspect (kw : RawKw) (fd : Int) (ino : Nat) : PyM Host Bool := fun w =>
  match noOverflow (sysFstat fd) w with
  | (.error e, w) => (.error e, closeRaw kw.closefd ino fd.toNat w)
  | (.ok st, w) =>
    if st.2.kind = .directory then
      if kw.fileno.any (· ≠ 0) || kw.handle.any (· ≠ 0) then (.error (.ioError 21), closeRaw false ino fd.toNat w)
      else (.error .assertionError, closeRaw kw.closefd ino fd.toNat w)
    else if kw.append then
      -- seeking to the end
      match outside w with
      | (.ok _, w) => (.ok (st.2.kind = .regular), w)
      | (.error e, w) =>
        if e = .ioError 29 then (.ok (st.2.kind = .regular), w) else (.error e, closeRaw kw.closefd ino fd.toNat w)
    else (.ok (st.2.kind = .regular), w)

/-- `RSFileIOAbstract.__init__`, `rsfileio_abstract.py:70-196`. -/
def create (kw : RawKw) : PyM Host RawObj := do
  (fun w => (check kw, w) : PyM Host Unit)
  let r ← noOverflow (createStreams kw)
  let seekable ← inspect kw r.1 r.2
  pure { fd := r.1.toNat, ino := r.2, closefd := kw.closefd, readable := kw.read, writable := kw.write || kw.append,
         append := kw.append, mustCreate := kw.mustCreate, mustNotCreate := kw.mustNotCreate,
         synchronized := kw.synchronized, inheritable := kw.inheritable, seekable := seekable }

end RawObj

/-- An argument that may be absent or of a wrong type. -/
inductive Arg (α : Type) where
  | absent
  | given (a : α)
  | wrongType

/-- The arguments of `rsopen`.  The `opener` is any computation that returns an integer; `newline` is absent or not. -/
structure OpenArgs where
  name : NameArg
  mode : Arg (List Char)
  buffering : Arg Int
  encoding : Arg Unit
  errors : Arg Unit
  newline : Bool
  fileno : Option Int
  handle : Option Int
  closefd : Bool
  opener : Option (PyM Host Int)
  locking : Bool
  threadSafe : Bool
  /-- a mutex was given -/
  mutex : Bool

/-- The mutex of the thread safe wrapper, `rsfile_streams.py:158-168`. -/
inductive MutexKind where
  | given
  | interprocess
  | threading
  deriving DecidableEq

/-- The chain of streams that `rsopen` returns. -/
structure Opened where
  raw : RawObj
  buffer : Option (BufKind × Nat)
  /-- line buffering -/
  text : Option Bool
  wrapper : Option MutexKind
  deriving DecidableEq

namespace OpenArgs

open Host

def isWrong {α : Type} : Arg α → Bool
  | .wrongType => true
  | _ => false

def isGiven {α : Type} : Arg α → Bool
  | .given _ => true
  | _ => false

/-- The mode string. -/
def modeString (a : OpenArgs) : List Char :=
  match a.mode with
  | .given m => m
  | _ => ['r']

/-- The value of `buffering`, `None` being replaced, `rsfile_factories.py:290-291`. -/
def bufferingValue (a : OpenArgs) : Int :=
  match a.buffering with
  | .given b => b
  | _ => -1

/-- The first part of `rsopen`: types and mode, `rsfile_factories.py:207-234`.  `os.fspath` raises `TypeError`. -/
def parse (py : Python) (a : OpenArgs) : Except Exn (RawKw × ExtKw) :=
  if a.name = .other then .error .typeError
  else if a.name.isBool then .error .badValueType
  else if isWrong a.mode || isWrong a.buffering || isWrong a.encoding || isWrong a.errors then .error .badValueType
  else if !a.threadSafe && a.mutex then .error .badValueType
  else parseMode py a.name a.modeString a.fileno a.handle a.closefd

/-- The opener, `rsfile_factories.py:240-248`. -/
def callOpener (a : OpenArgs) (kw : RawKw) : PyM Host RawKw :=
  match a.opener with
  | none => pure kw
  | some m =>
    if kw.fileno.any (· ≠ 0) then PyM.raise .badValueType
    else do
      let fd ← m
      if fd < 0 then PyM.raise .badValueType else pure { kw with path := .none, fileno := some fd }

/-- The checks before the opening, `rsfile_factories.py:250-272`: whether to truncate. -/
def checkExt (a : OpenArgs) (kw : RawKw) (ext : ExtKw) : Except Exn Bool :=
  if ext.truncate && !(kw.write || kw.append) then .error .badValueType
  else if ext.binary && ext.text then .error .badValueType
  else if ext.binary && (isGiven a.encoding || isGiven a.errors || a.newline) then .error .badValueType
  else .ok (ext.truncate && !(kw.fileno.any (· ≠ 0) || kw.handle.any (· ≠ 0)))

/-- Locking and truncation, `rsfile_factories.py:280-288`. -/
def prepare (a : OpenArgs) (truncate : Bool) (raw : RawObj) : PyM Host Unit :=
  PyM.when raw.seekable (do
    PyM.when a.locking (do
      outside
      PyM.modify fun w => { w with held := (raw.ino, raw.fd) :: w.held, log := w.log ++ [.locked raw.ino raw.fd] })
    PyM.when truncate (sysTruncate raw.ino))

/-- `raw.isatty()`, `rsfileio_abstract.py:247-250`, `rsfileio_unix.py:190-192`: `_inner_fileno` asserts that the descriptor
is not 0. -/
def isatty (raw : RawObj) : PyM Host Bool := fun w =>
  if raw.fd = 0 then (.error .assertionError, w)
  else (.ok ((w.nodes[raw.ino]?.map Node.tty).getD false), w)

/-- The size of the buffer and whether lines are flushed, `rsfile_factories.py:293-310`. -/
def chooseBuffering (a : OpenArgs) (raw : RawObj) : PyM Host (Int × Bool) := do
  let b := a.bufferingValue
  let line ← (if b = 1 then pure true else if b < 0 then isatty raw else pure false)
  let b := if line then -1 else b
  if b < 0 then fun w =>
    -- `os.fstat(raw._fileno).st_blksize`, unless the descriptor is 0; errors are ignored
    match (if raw.fd = 0 then (.ok (), w) else outside w : Except Exn Unit × Host) with
    | (.error (.ioError _), w) => (.ok (8192, line), w)
    | (.error e, w) => (.error e, w)
    | (.ok _, w) =>
      let bs := if raw.fd = 0 then 0 else (w.nodes[raw.ino]?.map Node.blksize).getD 0
      (.ok (if 1 < bs then (bs : Int) else 8192, line), w)
  else pure (b, line)

/-- The thread safe wrapper, `rsfile_factories.py:237-238,314,327,336`. -/
def wrapper (py : Python) (a : OpenArgs) (kw : RawKw) : Option MutexKind :=
  if a.threadSafe then
    some (if a.mutex then .given else if kw.inheritable && py.canFork then .interprocess else .threading)
  else none

/-- The layers, `rsfile_factories.py:311-338`. -/
def layer (py : Python) (a : OpenArgs) (kw : RawKw) (ext : ExtKw) (raw : RawObj) (buffering : Int) (line : Bool) :
    PyM Host Opened :=
  if buffering = 0 then
    if ext.binary then pure ⟨raw, none, none, wrapper py a kw⟩ else PyM.raise .badValueType
  else
    let stream := fun (k : BufKind) =>
      (if ext.binary then pure ⟨raw, some (k, buffering.toNat), none, wrapper py a kw⟩
       else do
        outside
        pure ⟨raw, some (k, buffering.toNat), some line, wrapper py a kw⟩ : PyM Host Opened)
    if raw.readable && raw.writable then
      if raw.seekable then stream .random else PyM.raise .unsupported
    else if raw.writable then stream .writer
    else if raw.readable then stream .reader
    else PyM.raise .badValueType

/-- The protected part of `rsopen`, `rsfile_factories.py:278-341`: on an exception the stream is closed (the buffers
are empty); if this fails too, its exception is raised. -/
def finish (py : Python) (a : OpenArgs) (kw : RawKw) (ext : ExtKw) (truncate : Bool) (raw : RawObj) : PyM Host Opened :=
  fun w =>
    match (do
      prepare a truncate raw
      let b ← chooseBuffering a raw
      layer py a kw ext raw b.1 b.2 : PyM Host Opened) w with
    | (.ok s, w) => (.ok s, w)
    | (.error e, w) => (closing raw.closefd raw.fd (.error e), closeRaw raw.closefd raw.ino raw.fd w)

/-- `rsopen`, `rsfile_factories.py:11-341`. -/
def rsopen (py : Python) (a : OpenArgs) : PyM Host Opened := do
  let r ← (fun w => (parse py a, w) : PyM Host (RawKw × ExtKw))
  let kw ← callOpener a r.1
  let truncate ← (fun w => (checkExt a kw r.2, w) : PyM Host Bool)
  let raw ← RawObj.create kw
  finish py a kw r.2 truncate raw

end OpenArgs

/-- `RSFileIOWrapper.__init__`, `rsfile_utilities.py:31-38`, with the finaliser if it fails. -/
def fileIOWrapper (py : Python) (name : NameArg) (mode : List Char) (closefd : Bool) : PyM Host RawObj := fun w =>
  match parseStandard py name mode none none closefd with
  | .error e => (.error e, w)
  | .ok (kw, ext) =>
    if ext.text then (.error .badValueType, w)
    else
      match RawObj.create kw w with
      | (.error e, w) => (.error e, w)
      | (.ok raw, w) =>
        match PyM.when (raw.seekable && ext.truncate) (Host.sysTruncate raw.ino) w with
        | (.ok _, w) => (.ok raw, w)
        | (.error e, w) => (.error e, Host.closeRaw raw.closefd raw.ino raw.fd w)

end Verif
