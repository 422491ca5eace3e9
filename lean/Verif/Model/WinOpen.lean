import Verif.Model.Open

/-!
# `rsopen` on windows

`rsopen` (`rsfile_factories.py:11-341`), the constructor of the raw stream (`rsfileio_abstract.py:70-196`,
`rsfileio_windows.py:81-189`) and its `close` (`rsfileio_abstract.py:207-227`, `rsfileio_windows.py:192-213`), over a
small file system, the table of native handles of the process, and the table of descriptors of the C library.

Which calls to the system fail, and how, is decided by an arbitrary schedule.  Simplifications: a half-built stream is
finalised at once (`IOBase.__del__`); native unlocking does not fail; the value of `permissions` is not used; handles
given as arguments are natural numbers of any size; there is no `opener` (what it returns is treated as `fileno`);
device names as `NUL` are not modelled: a name names a file, a directory or a pipe.  The kernel gives out the lowest
free handle, although nothing is known about this.
-/

set_option autoImplicit false

namespace Verif.WinOpen

open Verif

/-- The python installation. -/
structure WinPython where
  py : Python
  /-- `BLOCKING_MODES_ENABLED`, `rsfileio_windows.py:28`: python 3.12 and later -/
  blockingModes : Bool

/-- A file. -/
structure Node where
  kind : NodeKind
  data : Bytes
  tty : Bool
  /-- a pipe in the mode `PIPE_NOWAIT` -/
  nonblocking : Bool
  deriving DecidableEq

/-- A native handle. -/
structure Handle where
  ino : Nat
  read : Bool
  write : Bool
  writeThrough : Bool
  inheritable : Bool
  deriving DecidableEq

/-- What happened, in order. -/
inductive Ev where
  | created (p : Bytes) (ino : Nat)
  | opened (h ino : Nat)
  | locked (h : Nat)
  | truncated (h : Nat)
  | closed (h : Nat)
  deriving DecidableEq

/-- The part of the world that `rsopen` can see or change. -/
structure Host where
  /-- the file with number `n` is the element `n` -/
  nodes : List Node
  names : List (Bytes × Nat)
  handles : List (Nat × Handle)
  /-- the descriptors of the C library, and their handles -/
  cfds : List (Nat × Nat)
  /-- the handles of the streams that hold locks: the lock registry, whose keys are handles,
  `rsfileio_windows.py:188-189` -/
  held : List Nat
  /-- the calls to come: `some e` fails; an exhausted schedule succeeds -/
  sched : List (Option Exn)
  log : List Ev
  deriving DecidableEq

/-- A raw stream, complete or not. -/
structure Raw where
  /-- `_handle` -/
  handle : Option Nat
  /-- `_fileno` -/
  fileno : Option Nat
  /-- the keys of the lock registry are set -/
  keyed : Bool
  closefd : Bool
  readable : Bool
  writable : Bool
  append : Bool
  seekable : Bool
  deriving DecidableEq

/-- The world and the stream. -/
structure St where
  host : Host
  raw : Raw
  deriving DecidableEq

/-- How many descriptors the C library has: `_NHANDLE_`, 8192, of the Universal C Runtime. -/
def cLimit : Nat := 8192

namespace Host

/-- The lowest free handle; handles are multiples of 4. -/
def freeHandle (w : Host) : Nat :=
  ((List.range (w.handles.length + 1)).find? fun n => (w.handles.lookup (4 * (n + 1))).isNone).elim 0 fun n => 4 * (n + 1)

/-- The lowest free descriptor of the C library. -/
def freeC (w : Host) : Nat :=
  ((List.range (w.cfds.length + 1)).find? fun n => (w.cfds.lookup n).isNone).getD w.cfds.length

/-- A new empty file. -/
def newFile (p : Bytes) (w : Host) : Host :=
  { w with
    nodes := w.nodes ++ [⟨.regular, [], false, false⟩]
    names := (p, w.nodes.length) :: w.names
    log := w.log ++ [.created p w.nodes.length] }

/-- A new handle for the file. -/
def newHandle (ino : Nat) (kw : RawKw) (w : Host) : Host :=
  { w with
    handles := (w.freeHandle, ⟨ino, kw.read, kw.write || kw.append, kw.synchronized, kw.inheritable⟩) :: w.handles
    log := w.log ++ [.opened w.freeHandle ino] }

/-- The file of a handle. -/
def nodeOf (w : Host) (h : Nat) : Option Node :=
  match w.handles.lookup h with
  | some d => w.nodes[d.ino]?
  | none => none

end Host

/-- A call to the outside that may fail. -/
def outside : PyM St Unit := fun s =>
  match s.host.sched with
  | [] => (.ok (), s)
  | none :: rest => (.ok (), { s with host := { s.host with sched := rest } })
  | some e :: rest => (.error e, { s with host := { s.host with sched := rest } })

/-- `CreateFile`, with the arguments of `rsfileio_windows.py:103-167`.  `OPEN_EXISTING` if the file must not be created,
`CREATE_NEW` if it must be created, else `OPEN_ALWAYS`.  Errors: 2 `ENOENT`, 17 `EEXIST`, 13 `EACCES` for directories. -/
def createFile (p : Bytes) (kw : RawKw) : PyM St Nat := do
  outside
  fun s =>
    match s.host.names.lookup p with
    | some ino =>
      if !kw.mustNotCreate && kw.mustCreate then (.error (.ioError 17), s)
      else if (s.host.nodes[ino]?.map Node.kind) = some .directory then (.error (.ioError 13), s)
      else (.ok s.host.freeHandle, { s with host := s.host.newHandle ino kw })
    | none =>
      if kw.mustNotCreate then (.error (.ioError 2), s)
      else (.ok s.host.freeHandle, { s with host := (s.host.newFile p).newHandle s.host.nodes.length kw })

/-- `_open_osfhandle`: a new descriptor of the C library for a handle.  Errors: 9 `EBADF`, 24 `EMFILE`. -/
def openOsfhandle (h : Nat) : PyM St Nat := do
  outside
  fun s =>
    if (s.host.handles.lookup h).isNone then (.error (.ioError 9), s)
    else if cLimit ≤ s.host.freeC then (.error (.ioError 24), s)
    else (.ok s.host.freeC, { s with host := { s.host with cfds := (s.host.freeC, h) :: s.host.cfds } })

/-- `_get_osfhandle`: the handle of a descriptor of the C library. -/
def getOsfhandle (f : Int) : PyM St Nat := fun s =>
  if 2 ^ 31 ≤ f then (.error .overflowError, s)
  else if f < 0 then (.error (.ioError 9), s)
  else
    match s.host.cfds.lookup f.toNat with
    | some h => (.ok h, s)
    | none => (.error (.ioError 9), s)

/-- Setting `_handle`. -/
def setHandle (h : Nat) : PyM St Unit := fun s => (.ok (), { s with raw := { s.raw with handle := some h } })

/-- Setting `_fileno`. -/
def setFileno (f : Nat) : PyM St Unit := fun s => (.ok (), { s with raw := { s.raw with fileno := some f } })

/-- Finding the handle, `rsfileio_windows.py:96-175`. -/
def findHandle (kw : RawKw) : PyM St Nat := do
  let h ← (match kw.handle, kw.fileno with
    | some h, _ => pure h.toNat
    | none, some f => do
      setFileno f.toNat
      getOsfhandle f
    | none, none => createFile (match kw.path with
      | .path p => p
      | _ => []) kw)
  setHandle h
  pure h

/-- Looking for a pipe that does not block, `rsfileio_windows.py:177-186`: the new descriptor is kept for such a pipe
only.  (`os.get_blocking` fails for what is not a pipe.) -/
def probe (py : WinPython) (kw : RawKw) (h : Nat) : PyM St Unit :=
  PyM.when ((kw.write || kw.append) && py.blockingModes) (do
    let f ← openOsfhandle h
    fun s => if (s.host.nodeOf h).any Node.nonblocking then setFileno f s else (.ok (), s))

/-- `_inner_create_streams`, `rsfileio_windows.py:81-189`. -/
def createStreams (py : WinPython) (kw : RawKw) : PyM St Unit := do
  let h ← findHandle kw
  probe py kw h
  fun s => (.ok (), { s with raw := { s.raw with keyed := true } })

/-- `fstat` of a descriptor of the C library: the kind of the file. -/
def fstat (f : Nat) : PyM St NodeKind := do
  outside
  fun s =>
    match (s.host.cfds.lookup f).bind s.host.nodeOf with
    | some n => (.ok n.kind, s)
    | none => (.error (.ioError 9), s)

/-- The inspection of the descriptor, `rsfileio_abstract.py:170-181`: without one the stream is taken for seekable. -/
def inspect (kw : RawKw) : PyM St Unit := fun s =>
  match s.raw.fileno with
  | none => (.ok (), { s with raw := { s.raw with seekable := true } })
  | some f =>
    match fstat f s with
    | (.error e, s) => (.error e, s)
    | (.ok k, s) =>
      if k = .directory then
        if kw.fileno.any (· ≠ 0) || kw.handle.any (· ≠ 0) then
          (.error (.ioError 21), { s with raw := { s.raw with closefd := false } })
        else (.error .assertionError, s)
      else (.ok (), { s with raw := { s.raw with seekable := decide (k = .regular) } })

/-- `except OverflowError: raise BadValueTypeError`, `rsfileio_abstract.py:187-188`. -/
def noOverflow (m : PyM St Unit) : PyM St Unit := fun s =>
  match m s with
  | (.error .overflowError, s') => (.error .badValueType, s')
  | r => r

/-- Seeking to the end, `rsfileio_abstract.py:190-196`.  29 is `ESPIPE`. -/
def seekEnd (kw : RawKw) : PyM St Unit := fun s =>
  if kw.append then
    match outside s with
    | (.error (.ioError 29), s) => (.ok (), s)
    | r => r
  else (.ok (), s)

/-- `CloseHandle`. -/
def closeHandle (h : Nat) (w : Host) : Except Exn Unit × Host :=
  if (w.handles.lookup h).isNone then (.error (.ioError 9), w)
  else (.ok (), { w with handles := w.handles.filter fun e => e.1 ≠ h, log := w.log ++ [.closed h] })

/-- `os.close` of a descriptor of the C library: it closes the handle too. -/
def closeC (f : Nat) (w : Host) : Except Exn Unit × Host :=
  match w.cfds.lookup f with
  | none => (.error (.ioError 9), w)
  | some h => closeHandle h { w with cfds := w.cfds.filter fun e => e.1 ≠ f }

/-- `close` of a raw stream, `rsfileio_abstract.py:207-227`, `rsfileio_windows.py:192-213`. -/
def closeRaw (r : Raw) (w : Host) : Except Exn Unit × Host :=
  let w := if r.keyed then { w with held := w.held.filter fun h => some h ≠ r.handle } else w
  if r.closefd then
    match r.fileno, r.handle with
    | some f, _ => closeC f w
    | none, some h => closeHandle h w
    | none, none => (.ok (), w)
  else (.ok (), w)

/-- The stream before the constructor has opened anything. -/
def blank (kw : RawKw) : Raw :=
  { handle := none, fileno := none, keyed := false, closefd := kw.closefd, readable := kw.read,
    writable := kw.write || kw.append, append := kw.append, seekable := false }

/-- The constructor after its checks, `rsfileio_abstract.py:165-196`. -/
def construct (py : WinPython) (kw : RawKw) : PyM St Unit := do
  noOverflow (do
    createStreams py kw
    inspect kw)
  seekEnd kw

/-- Locking and truncation, `rsfile_factories.py:280-288`. -/
def prepare (a : OpenArgs) (truncate : Bool) : PyM St Unit := fun s =>
  PyM.when s.raw.seekable (do
    PyM.when a.locking (do
      outside
      PyM.modify fun s => { s with host := { s.host with
        held := s.raw.handle.toList ++ s.host.held
        log := s.host.log ++ s.raw.handle.toList.map .locked } })
    PyM.when truncate (do
      outside
      PyM.modify fun s => { s with host := { s.host with
        nodes := match s.raw.handle.bind fun h => s.host.handles.lookup h with
          | some d => s.host.nodes.modify d.ino fun n => { n with data := [] }
          | none => s.host.nodes
        log := s.host.log ++ s.raw.handle.toList.map .truncated } })) s

/-- `_inner_fileno`, `rsfileio_windows.py:280-303`: the stream gets a descriptor of the C library. -/
def getFileno : PyM St Nat := fun s =>
  match s.raw.fileno with
  | some f => if f = 0 then (.error .assertionError, s) else (.ok f, s)
  | none =>
    match openOsfhandle (s.raw.handle.getD 0) s with
    | (.error e, s) => (.error e, s)
    | (.ok f, s) =>
      let s := { s with raw := { s.raw with fileno := some f } }
      if f = 0 then (.error .assertionError, s) else (.ok f, s)

/-- `isatty`, `rsfileio_abstract.py:247-250`. -/
def isatty : PyM St Bool := do
  let f ← getFileno
  fun s => (.ok (((s.host.cfds.lookup f).bind s.host.nodeOf).any Node.tty), s)

/-- The size of the buffer and whether lines are flushed, `rsfile_factories.py:290-310`.  There is no `st_blksize`. -/
def chooseBuffering (a : OpenArgs) : PyM St (Int × Bool) := do
  let b := a.bufferingValue
  let line ← (if b = 1 then pure true else if b < 0 then isatty else pure false)
  let b := if line then -1 else b
  if b < 0 then fun s =>
    match (if s.raw.fileno.any (· ≠ 0) then outside s else (.ok (), s) : Except Exn Unit × St) with
    | (.error (.ioError _), s) => (.ok (8192, line), s)
    | (.error e, s) => (.error e, s)
    | (.ok _, s) => (.ok (8192, line), s)
  else pure (b, line)

/-- The layers over the raw stream. -/
structure Layers where
  buffer : Option (BufKind × Nat)
  /-- line buffering -/
  text : Option Bool
  wrapper : Option MutexKind
  deriving DecidableEq

/-- The layers, `rsfile_factories.py:311-338`. -/
def layer (py : WinPython) (a : OpenArgs) (kw : RawKw) (ext : ExtKw) (buffering : Int) (line : Bool) : PyM St Layers :=
  let wrap := OpenArgs.wrapper py.py a kw
  fun s =>
    if buffering = 0 then
      if ext.binary then (.ok ⟨none, none, wrap⟩, s) else (.error .badValueType, s)
    else
      let stream := fun (k : BufKind) =>
        (if ext.binary then pure ⟨some (k, buffering.toNat), none, wrap⟩
         else do
          outside
          pure ⟨some (k, buffering.toNat), some line, wrap⟩ : PyM St Layers)
      if s.raw.readable && s.raw.writable then
        if s.raw.seekable then stream .random s else (.error .unsupported, s)
      else if s.raw.writable then stream .writer s
      else if s.raw.readable then stream .reader s
      else (.error .badValueType, s)

/-- The part after the constructor, `rsfile_factories.py:278-338`. -/
def build (py : WinPython) (a : OpenArgs) (kw : RawKw) (ext : ExtKw) (truncate : Bool) : PyM St Layers := do
  prepare a truncate
  let b ← chooseBuffering a
  layer py a kw ext b.1 b.2

/-- `rsopen`, `rsfile_factories.py:11-341`.  On an exception the stream is closed, by the finaliser or by
`result.close()`, line 340 (an exception of this one replaces the first). -/
def rsopen (py : WinPython) (a : OpenArgs) (w : Host) : Except Exn (Raw × Layers) × Host :=
  match OpenArgs.parse py.py a with
  | .error e => (.error e, w)
  | .ok (kw, ext) =>
    match OpenArgs.checkExt a kw ext with
    | .error e => (.error e, w)
    | .ok truncate =>
      match RawObj.check kw with
      | .error e => (.error e, w)
      | .ok _ =>
        match construct py kw ⟨w, blank kw⟩ with
        | (.error e, s) => (.error e, (closeRaw s.raw s.host).2)
        | (.ok _, s) =>
          match build py a kw ext truncate s with
          | (.ok l, s) => (.ok (s.raw, l), s.host)
          | (.error e, s) =>
            match closeRaw s.raw s.host with
            | (.ok _, w) => (.error e, w)
            | (.error e', w) => (.error e', w)

end Verif.WinOpen
