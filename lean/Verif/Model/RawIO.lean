import Verif.Model.PyM

/-!
# Raw file I/O

The I/O methods of `RSFileIOAbstract` (`rsfileio_abstract.py:244-511`) over the two backends
(`rsfileio_unix.py:155-272`, `rsfileio_windows.py:216-423`) and the system calls they use.

The file is a list of bytes, the open file description has an offset.  How many bytes a system call transfers, and
whether it fails, is decided by an arbitrary schedule of answers.  Arguments have the right types (offsets and sizes are
integers, `whence` is one of the three standard values, buffers are byte strings).  Numbers are unbounded.
-/

namespace Verif

abbrev Byte := UInt8

abbrev Bytes := List Byte

inductive Platform where
  | unix
  | windows
  deriving DecidableEq

/-- What a system call does. -/
inductive OsAns where
  /-- transfers this many bytes, if that many were asked for (and available) -/
  | count (k : Nat)
  /-- `EAGAIN` (windows: `ERROR_NO_DATA`, or 0 bytes written): would block -/
  | again
  /-- `EPIPE` (windows: `ERROR_BROKEN_PIPE`) -/
  | pipe
  /-- another error -/
  | fail (errno : Nat)
  deriving DecidableEq

/-- `SEEK_SET`, `SEEK_CUR`, `SEEK_END`. -/
inductive Whence where
  | set
  | cur
  | fin
  deriving DecidableEq

/-- What the others can notice: what the file contained when the native locking functions were called or the
descriptor was closed. -/
inductive RawEv where
  | lock (content : Bytes)
  | unlock (content : Bytes)
  | close (content : Bytes)
  deriving DecidableEq

/-- What a system call stores on the device. -/
inductive FlushKind where
  /-- `fdatasync` -/
  | data
  /-- `fsync` -/
  | metadata
  /-- `F_FULLFSYNC`, `FlushFileBuffers` -/
  | full
  deriving DecidableEq

/-- What happens to the file on its way to the device. -/
inductive DiskEv where
  /-- this is the new content of the file, as seen by everybody; it is not yet on the device -/
  | content (c : Bytes)
  /-- the content was stored on the device -/
  | flushed (k : FlushKind)
  /-- storing it failed; the system has reported that and will not try again -/
  | writeError
  deriving DecidableEq

/-- A raw stream, its file and the schedule of the system calls to come (an exhausted schedule transfers everything). -/
structure Raw where
  platform : Platform
  /-- content of bytes that were never written, on windows (MSDN: "uninitialized") -/
  junk : Nat → Byte
  closed : Bool
  readable : Bool
  writable : Bool
  seekable : Bool
  append : Bool
  data : Bytes
  pos : Nat
  sched : List OsAns
  events : List RawEv
  disk : List DiskEv

namespace Raw

/-- The bytes of a region that is skipped when the file is extended: zeros on unix (POSIX `write`, `ftruncate`). -/
def fill (s : Raw) (i : Nat) : Byte :=
  match s.platform with
  | .unix => 0
  | .windows => s.junk i

end Raw

/-- The file `data`, extended to at least `n` bytes. -/
def extendTo (fill : Nat → Byte) (data : Bytes) (n : Nat) : Bytes :=
  data ++ (List.range (n - data.length)).map (fun i => fill (data.length + i))

/-- The effect of storing `buf` at offset `off`.  An empty `buf` changes nothing. -/
def writeAt (fill : Nat → Byte) (data : Bytes) (off : Nat) (buf : Bytes) : Bytes :=
  if buf = [] then data
  else (extendTo fill data off).take off ++ buf ++ data.drop (off + buf.length)

namespace Raw

/-- The next answer of the operating system, for a transfer of `n` bytes. -/
def nextAns (s : Raw) (n : Nat) : OsAns × Raw :=
  match s.sched with
  | [] => (.count n, s)
  | a :: rest => (a, { s with sched := rest })

/-- `read(2)` / `ReadFile` of at most `n` bytes, as seen by `_inner_read`, `rsfileio_unix.py:245-255`,
`rsfileio_windows.py:355-368` (with `_broken_pipe_ignorer`, `rsfileio_windows.py:68-78`): `None` is would-block. -/
def innerRead (n : Nat) : PyM Raw (Option Bytes) := fun s =>
  match s.nextAns n with
  | (.count k, s) =>
    let got := ((s.data.drop s.pos).take n).take k
    (.ok (some got), { s with pos := s.pos + got.length })
  | (.again, s) => (.ok none, s)
  | (.pipe, s) => (.ok (some []), s)
  | (.fail e, s) => (.error (.ioError e), s)

/-- `write(2)` / `WriteFile`: the number of bytes stored.  `atEnd` is the effect of `O_APPEND`: the kernel stores the
bytes at the end of the file, atomically.  The offset moves only if bytes were stored. -/
def osWrite (atEnd : Bool) (buf : Bytes) : PyM Raw (Option Nat) := fun s =>
  match s.nextAns buf.length with
  | (.count k, s) =>
    let acc := buf.take k
    let off := if atEnd then s.data.length else s.pos
    (.ok (some acc.length),
      { s with
        data := writeAt s.fill s.data off acc
        pos := if acc = [] then s.pos else off + acc.length
        disk := s.disk ++ [.content (writeAt s.fill s.data off acc)] })
  | (.again, s) => (.ok none, s)
  | (.pipe, s) => (.error (.ioError 32), s)
  | (.fail e, s) => (.error (.ioError e), s)

/-- `_inner_size`, `rsfileio_unix.py:230-232`, `rsfileio_windows.py:329-332`. -/
def innerSize : PyM Raw Nat := fun s => (.ok s.data.length, s)

/-- `_inner_tell`, `rsfileio_unix.py:234-236`, `rsfileio_windows.py:334-337`.  Errno 29 is `ESPIPE`. -/
def innerTell : PyM Raw Nat := fun s => if s.seekable then (.ok s.pos, s) else (.error (.ioError 29), s)

/-- `_inner_seek`, `rsfileio_unix.py:238-243`, `rsfileio_windows.py:339-353`: `lseek` / `SetFilePointer`.
Errno 22 is `EINVAL` (windows: `ERROR_NEGATIVE_SEEK`, mapped to `EINVAL`). -/
def innerSeek (offset : Int) (whence : Whence) : PyM Raw Nat := fun s =>
  if s.seekable then
    let target : Int :=
      match whence with
      | .set => offset
      | .cur => s.pos + offset
      | .fin => s.data.length + offset
    if 0 ≤ target then (.ok target.toNat, { s with pos := target.toNat }) else (.error (.ioError 22), s)
  else (.error (.ioError 29), s)

/-- `ftruncate(2)` / `SetEndOfFile` at offset `n`. -/
def osTruncate (n : Nat) : PyM Raw Unit := fun s =>
  match s.nextAns 1 with
  | (.fail e, s) => (.error (.ioError e), s)
  | (_, s) =>
    (.ok (), { s with
      data := (extendTo s.fill s.data n).take n
      disk := s.disk ++ [.content ((extendTo s.fill s.data n).take n)] })

/-- `_inner_write`, `rsfileio_unix.py:263-272`, `rsfileio_windows.py:388-423`.  On windows moving to the end is a
separate call, and lines 398-401 (`_inner_extend(..., zero_fill=True)`, which does nothing) have no effect.  The pipe
hack of lines 403-411 is not modelled: on windows only files are. -/
def innerWrite (buf : Bytes) : PyM Raw (Option Nat) := fun s =>
  match s.platform with
  | .unix => osWrite s.append buf s
  | .windows =>
    (do
      PyM.when s.append (innerSeek 0 .fin)
      let _ ← innerTell
      let r ← osWrite false buf
      pure (match r with
        | some 0 => none
        | r => r)) s

/-- `_checkClosed`, `_pyio:473-478`. -/
def checkClosed : PyM Raw Unit := fun s => if s.closed then (.error .valueError, s) else (.ok (), s)

/-- `_checkReadable`, `_pyio:444-449`, over `readable()`, `rsfileio_abstract.py:256-258`. -/
def checkReadable : PyM Raw Unit := fun s =>
  if s.closed then (.error .valueError, s) else if s.readable then (.ok (), s) else (.error .unsupported, s)

/-- `_checkWritable`, `_pyio:458-463`, over `writable()`, `rsfileio_abstract.py:260-262`. -/
def checkWritable : PyM Raw Unit := fun s =>
  if s.closed then (.error .valueError, s) else if s.writable then (.ok (), s) else (.error .unsupported, s)

/-- `_checkSeekable`, `_pyio:430-435`, over `seekable()`, `rsfileio_abstract.py:252-254`. -/
def checkSeekable : PyM Raw Unit := fun s =>
  if s.closed then (.error .valueError, s) else if s.seekable then (.ok (), s) else (.error .unsupported, s)

/-- `size`, `rsfileio_abstract.py:333-335`. -/
def size : PyM Raw Nat := do
  checkClosed
  innerSize

/-- `tell`, `rsfileio_abstract.py:337-340`. -/
def tell : PyM Raw Nat := do
  checkClosed
  innerTell

/-- `seek`, `rsfileio_abstract.py:342-351`. -/
def seek (offset : Int) (whence : Whence) : PyM Raw Nat := do
  checkClosed
  innerSeek offset whence

/-- `DEFAULT_BUFFER_SIZE`, `rsfile_definitions.py`. -/
def chunkSize : Nat := 8192

/-- `read(n)` with `n >= 0`, `rsfileio_abstract.py:372-386`. -/
def readN (n : Nat) : PyM Raw (Option Bytes) := do
  checkClosed
  checkReadable
  innerRead n

/-- The loop of `readall`, `rsfileio_abstract.py:354-370`: `chunks` has been read so far.  Every round but the last one
reads at least one byte, so that as many rounds as there are bytes to read, plus one, suffice (`fuel`). -/
def readallLoop : Nat → Bytes → PyM Raw (Option Bytes)
  | 0, _ => PyM.raise .overflowError
  | fuel + 1, chunks => do
    let d ← readN chunkSize
    match d with
    | some (b :: bs) => readallLoop fuel (chunks ++ (b :: bs))
    | d => pure (if chunks = [] then d else some chunks)

/-- `readall()`, `rsfileio_abstract.py:354-370`. -/
def readall : PyM Raw (Option Bytes) := fun s => readallLoop (s.data.length - s.pos + 1) [] s

/-- `read(n)`, `rsfileio_abstract.py:372-386`; `none` is the python `None`. -/
def read (n : Option Int) : PyM Raw (Option Bytes) := do
  checkClosed
  checkReadable
  match n with
  | none => readall
  | some n => if n < 0 then readall else innerRead n.toNat

/-- `readinto(buffer)`, `rsfileio_abstract.py:388-413`: the count and the new content of the buffer.  `len(None)`
raises `TypeError`. -/
def readinto (buffer : Bytes) : PyM Raw (Nat × Bytes) := do
  checkClosed
  checkReadable
  let r ← innerRead buffer.length
  match r with
  | none => PyM.raise .typeError
  | some got => pure (got.length, got ++ buffer.drop got.length)

/-- `write(buffer)`, `rsfileio_abstract.py:415-454`. -/
def write (buf : Bytes) : PyM Raw (Option Nat) := do
  checkClosed
  checkWritable
  let res ← innerWrite buf
  if buf ≠ [] ∧ res = some 0 then PyM.raise .assertionError
  else
    match res with
    | some n => if buf.length < n then PyM.raise .runtimeError else pure (some n)
    | none => pure none

/-- `_inner_reduce`, `rsfileio_unix.py:155-158`, `rsfileio_windows.py:216-223`. -/
def innerReduce (n : Nat) : PyM Raw Unit := fun s =>
  match s.platform with
  | .unix => osTruncate n s
  | .windows =>
    (do
      let oldPos ← innerTell
      let _ ← seek n .set
      osTruncate n
      let _ ← innerSeek oldPos .set
      pure ()) s

/-- `_inner_extend`, `rsfileio_unix.py:160-165`, `rsfileio_windows.py:225-235`. -/
def innerExtend (n : Nat) (zeroFill : Bool) : PyM Raw Unit := fun s =>
  match s.platform with
  | .unix => osTruncate n s
  | .windows =>
    (if zeroFill then pure ()
     else do
      let oldPos ← innerTell
      let _ ← seek n .set
      osTruncate n
      let _ ← innerSeek oldPos .set
      pure ()) s

/-- `for _ in range(q): self._inner_write(padding)`, `rsfileio_abstract.py:489-491`. -/
def padLoop : Nat → PyM Raw Unit
  | 0 => pure ()
  | q + 1 => do
    let _ ← innerWrite (List.replicate chunkSize 0)
    padLoop q

/-- The call `self._inner_seek(old_pos)` of `rsfileio_abstract.py:494`: the unix `_inner_seek` has a mandatory second
argument. -/
def seekBack (oldPos : Nat) : PyM Raw Unit := fun s =>
  match s.platform with
  | .unix => (.error .typeError, s)
  | .windows =>
    (do
      let _ ← innerSeek oldPos .set
      pure ()) s

/-- Lines 480-494 of `truncate`: zeros are written by hand. -/
def fillZeros (n : Nat) : PyM Raw Unit := do
  let cur ← size
  if cur = n then pure ()
  else if n < cur then PyM.raise .assertionError
  else do
    let oldPos ← innerTell
    let _ ← innerSeek cur .set
    padLoop ((n - cur) / chunkSize)
    let count ← innerWrite (List.replicate ((n - cur) % chunkSize) 0)
    if count = some ((n - cur) % chunkSize) then seekBack oldPos else PyM.raise .assertionError

/-- The size asked for, lines 464-470 of `truncate`. -/
def truncateTarget : Option Int → PyM Raw Nat
  | none => tell
  | some z => if z < 0 then PyM.raise (.ioError 22) else pure z.toNat

/-- Lines 472-494 of `truncate`. -/
def resize (n : Nat) (zeroFill : Bool) : PyM Raw Unit := do
  let cur ← size
  if n = cur then pure ()
  else if n < cur then innerReduce n
  else do
    innerExtend n zeroFill
    fillZeros n

/-- `truncate(size, zero_fill)`, `rsfileio_abstract.py:456-495`; `none` is the python `None`. -/
def truncate (arg : Option Int) (zeroFill : Bool) : PyM Raw Nat := do
  checkSeekable
  checkWritable
  let n ← truncateTarget arg
  resize n zeroFill
  size

/-- `flush`, `rsfileio_abstract.py:497-504`. -/
def flush : PyM Raw Unit := checkClosed

/-- `EIO`, `ENOSPC`, `EDQUOT`: writing to the device failed. -/
def isWriteError (e : Nat) : Bool := e == 5 || e == 28 || e == 122

/-- `fdatasync`, `fsync`, `fcntl(F_FULLFSYNC)`, `FlushFileBuffers`.  Errors other than `isWriteError` say that the call is
not possible (`EINVAL`, `ENOTTY`, `ENOSYS`, ...). -/
def osFlush (k : FlushKind) : PyM Raw Unit := fun s =>
  match s.nextAns 0 with
  | (.count _, s) => (.ok (), { s with disk := s.disk ++ [.flushed k] })
  | (.again, s) => (.error (.ioError 11), s)
  | (.pipe, s) => (.error (.ioError 32), s)
  | (.fail e, s) =>
    (.error (.ioError e), if isWriteError e then { s with disk := s.disk ++ [.writeError] } else s)

/-- `try: m; return` / `except unix.error: pass`, followed by `m'`. -/
def orElse (m m' : PyM Raw Unit) : PyM Raw Unit := fun s =>
  match m s with
  | (.error (.ioError _), s) => m' s
  | r => r

/-- `_inner_sync`, `rsfileio_unix.py:167-188`, `rsfileio_windows.py:237-240`; `fdatasync` says whether the system has that
function.  A system without `F_FULLFSYNC` answers with an error. -/
def innerSync (fdatasync metadata fullFlush : Bool) : PyM Raw Unit := fun s =>
  match s.platform with
  | .windows => osFlush .full s
  | .unix =>
    let last := osFlush .metadata
    let second := if !metadata && fdatasync then orElse (osFlush .data) last else last
    (if fullFlush then orElse (osFlush .full) second else second) s

/-- `sync(metadata, full_flush)`, `rsfileio_abstract.py:506-511`. -/
def sync (fdatasync metadata fullFlush : Bool) : PyM Raw Unit := do
  checkClosed
  innerSync fdatasync metadata fullFlush

/-- The effect of `lock_file` on I/O (locks themselves are modelled in `System`).  While the call waits, other
processes may change the file to `others`.  The lock is granted in the end. -/
def lockFile (others : Bytes) : PyM Raw Unit := do
  checkSeekable
  PyM.modify (fun s => { s with
    data := others
    events := s.events ++ [.lock others]
    disk := s.disk ++ [.content others] })

/-- The effect of `unlock_file` on I/O. -/
def unlockFile : PyM Raw Unit := do
  checkSeekable
  PyM.modify (fun s => { s with events := s.events ++ [.unlock s.data] })

/-- `close`, `rsfileio_abstract.py:207-227`: locks are released and the descriptor is closed (or its closing is
postponed), here the event `close`. -/
def close : PyM Raw Unit := fun s =>
  if s.closed then (.ok (), s) else (.ok (), { s with closed := true, events := s.events ++ [.close s.data] })

end Raw

/-- Several streams on one file, in any processes: one content, an own offset for each (the field `data` of the streams
is not used). -/
structure Shared where
  data : Bytes
  streams : Nat → Raw

/-- Stream `i` and the file. -/
def Shared.view (w : Shared) (i : Nat) : Raw := { w.streams i with data := w.data }

/-- A method call on stream `i`. -/
def Shared.call {α : Type} (w : Shared) (i : Nat) (m : PyM Raw α) : Except Exn α × Shared :=
  match m (w.view i) with
  | (r, s) => (r, ⟨s.data, updMap w.streams i s⟩)

/-- Calls that do not cut the file. -/
inductive SharedOp where
  | write (i : Nat) (buf : Bytes)
  | read (i : Nat) (n : Option Int)
  | seek (i : Nat) (offset : Int) (whence : Whence)
  | tell (i : Nat)
  | size (i : Nat)

/-- One call; the second component is what was written: the prefix of the buffer that the result announces. -/
def Shared.step (w : Shared) : SharedOp → Shared × Bytes
  | .write i buf =>
    match w.call i (Raw.write buf) with
    | (.ok (some k), w') => (w', buf.take k)
    | (_, w') => (w', [])
  | .read i n => ((w.call i (Raw.read n)).2, [])
  | .seek i o wh => ((w.call i (Raw.seek o wh)).2, [])
  | .tell i => ((w.call i Raw.tell).2, [])
  | .size i => ((w.call i Raw.size).2, [])

/-- A history of calls: the final state and the pieces that were announced as written, in order. -/
def Shared.run (w : Shared) : List SharedOp → Shared × List Bytes
  | [] => (w, [])
  | op :: ops =>
    let r := w.step op
    let r' := r.1.run ops
    (r'.1, r.2 :: r'.2)

end Verif
