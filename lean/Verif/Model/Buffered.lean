import Verif.Model.RawIO

/-!
# Buffered streams

`RSBufferedReader`, `RSBufferedWriter` and `RSBufferedRandom` (`rsfile_streams.py:33-143`) inherit from the classes of
`_pyio`, transcribed here from the copy `rstest/stdlib/_pyio_py313_backup.py` (cited as `_pyio`).

The mutexes `_read_lock` and `_write_lock` are not represented: one call is one step (threads: see `Wrapper`).
`fileno`, `isatty`, pickling and `repr` are not modelled.  A loop is bounded by a number of rounds that it
cannot exceed, as each round transfers at least one byte.
-/

namespace Verif

/-- The three classes. -/
inductive BufKind where
  | reader
  | writer
  | random
  deriving DecidableEq

/-- A buffered stream.  A reader does not use `writeBuf`, a writer does not use `readBuf`. -/
structure Buf where
  kind : BufKind
  bufferSize : Nat
  raw : Raw
  readBuf : Bytes
  readPos : Nat
  writeBuf : Bytes

namespace Buf

variable {α : Type}

/-- A call of a method of `self.raw`. -/
def onRaw (m : PyM Raw α) : PyM Buf α := fun b =>
  match m b.raw with
  | (r, s) => (r, { b with raw := s })

/-- The constructors, `_pyio:1025-1036`, `_pyio:1223-1232`, `_pyio:1401-1404`. -/
def create (kind : BufKind) (bufferSize : Int) (raw : Raw) : Except Exn Buf :=
  if kind = .random ∧ raw.closed = true then .error .valueError
  else if kind = .random ∧ raw.seekable = false then .error .unsupported
  else if kind ≠ .writer ∧ raw.closed = true then .error .valueError
  else if kind ≠ .writer ∧ raw.readable = false then .error (.ioError 0)
  else if kind ≠ .writer ∧ bufferSize ≤ 0 then .error .valueError
  else if kind ≠ .reader ∧ raw.closed = true then .error .valueError
  else if kind ≠ .reader ∧ raw.writable = false then .error (.ioError 0)
  else if bufferSize ≤ 0 then .error .valueError
  else .ok ⟨kind, bufferSize.toNat, raw, [], 0, []⟩

/-- `_checkClosed`, `_pyio:473-478`, over `closed`, `_pyio:838-840`. -/
def checkClosed : PyM Buf Unit := fun b => if b.raw.closed then (.error .valueError, b) else (.ok (), b)

/-- `_reset_read_buf`, `_pyio:1041-1043`. -/
def resetReadBuf : PyM Buf Unit := PyM.modify (fun b => { b with readBuf := [], readPos := 0 })

/-! ## Writing -/

/-- The last lines of the loop of `_flush_unlocked`, `_pyio:1285-1291`. -/
def dropWritten : Option Nat → PyM Buf Unit
  | none => PyM.raise (.blockingIO 0)
  | some n => fun b =>
    if b.writeBuf.length < n then (.error (.ioError 0), b)
    else (.ok (), { b with writeBuf := b.writeBuf.drop n })

/-- The loop of `_flush_unlocked`, `_pyio:1279-1291`. -/
def flushLoop : Nat → PyM Buf Unit
  | 0 => pure ()
  | fuel + 1 => fun b =>
    if b.writeBuf = [] then (.ok (), b)
    else
      (do
        let n ← onRaw (Raw.write b.writeBuf)
        dropWritten n
        flushLoop fuel) b

/-- `_flush_unlocked`, `_pyio:1276-1291`. -/
def flushUnlocked : PyM Buf Unit := do
  checkClosed
  let b ← PyM.get
  flushLoop b.writeBuf.length

/-- `flush`: `_BufferedIOMixin.flush`, `_pyio:807-810`, for a reader; `BufferedWriter.flush`, `_pyio:1272-1274`. -/
def flush : PyM Buf Unit := fun b =>
  match b.kind with
  | .reader => (do checkClosed; onRaw Raw.flush) b
  | _ => flushUnlocked b

/-- The end of `BufferedWriter.write`, `_pyio:1252-1263`: `written` bytes have been put into the buffer. -/
def overflowFlush (written : Nat) : PyM Buf Nat := fun b =>
  if b.bufferSize < b.writeBuf.length then
    match flushUnlocked b with
    | (.ok _, b) => (.ok written, b)
    | (.error (.blockingIO _), b) =>
      if b.bufferSize < b.writeBuf.length then
        (.error (.blockingIO (written - (b.writeBuf.length - b.bufferSize))),
          { b with writeBuf := b.writeBuf.take b.bufferSize })
      else (.ok written, b)
    | (.error e, b) => (.error e, b)
  else (.ok written, b)

/-- "We're full, so let's pre-flush the buffer", `_pyio:1245-1248`. -/
def preFlush : PyM Buf Unit := fun b =>
  if b.bufferSize < b.writeBuf.length then flushUnlocked b else (.ok (), b)

/-- `BufferedWriter.write`, `_pyio:1237-1263`. -/
def writerWrite (data : Bytes) : PyM Buf Nat := do
  checkClosed
  preFlush
  PyM.modify (fun b => { b with writeBuf := b.writeBuf ++ data })
  overflowFlush data.length

/-- "Undo readahead", `_pyio:1458-1462`. -/
def undoReadAhead : PyM Buf Unit := fun b =>
  if b.readBuf = [] then (.ok (), b)
  else
    (do
      let _ ← onRaw (Raw.seek ((b.readPos : Int) - b.readBuf.length) .cur)
      resetReadBuf) b

/-- `write`: `BufferedIOBase.write`, `_pyio:741-750`, for a reader; `BufferedWriter.write`; `BufferedRandom.write`,
`_pyio:1457-1463`. -/
def write (data : Bytes) : PyM Buf Nat := fun b =>
  match b.kind with
  | .reader => (.error .unsupported, b)
  | .writer => writerWrite data b
  | .random => (do undoReadAhead; writerWrite data) b

/-! ## Reading -/

/-- `_read_unlocked` without a size, `_pyio:1064-1082`. -/
def readRest : PyM Buf (Option Bytes) := fun b =>
  (do
    resetReadBuf
    let chunk ← onRaw Raw.readall
    pure (match chunk with
      | none => if b.readBuf.drop b.readPos = [] then none else some (b.readBuf.drop b.readPos)
      | some c => some (b.readBuf.drop b.readPos ++ c))) b

/-- The loop of `_read_unlocked`, `_pyio:1094-1101`: all chunks so far, and `nodata_val`. -/
def fillLoop (wanted n : Nat) : Nat → Bytes → PyM Buf (Bytes × Option Bytes)
  | 0, out => pure (out, some [])
  | fuel + 1, out =>
    if out.length < n then do
      let chunk ← onRaw (Raw.read (some (wanted : Int)))
      match chunk with
      | none => pure (out, none)
      | some [] => pure (out, some [])
      | some (c :: cs) => fillLoop wanted n fuel (out ++ (c :: cs))
    else pure (out, some [])

/-- The end of `_read_unlocked`, `_pyio:1102-1108`. -/
def keepExtra (n : Nat) (r : Bytes × Option Bytes) : PyM Buf (Option Bytes) := do
  PyM.modify (fun b => { b with readBuf := r.1.drop (min n r.1.length), readPos := 0 })
  pure (if r.1 = [] then r.2 else some (r.1.take (min n r.1.length)))

/-- `_read_unlocked(n)` with a size, `_pyio:1084-1108`. -/
def readSome (n : Nat) : PyM Buf (Option Bytes) := fun b =>
  if n ≤ b.readBuf.length - b.readPos then
    (.ok (some ((b.readBuf.drop b.readPos).take n)), { b with readPos := b.readPos + n })
  else
    (do
      let r ← fillLoop (max b.bufferSize n) n n (b.readBuf.drop b.readPos)
      keepExtra n r) b

/-- `BufferedReader.read`, `_pyio:1045-1056`. -/
def readerRead : Option Int → PyM Buf (Option Bytes)
  | none => readRest
  | some n => if n < -1 then PyM.raise .valueError else if n = -1 then readRest else readSome n.toNat

/-- `read`: `BufferedIOBase.read`, `_pyio:675-694`, for a writer; `BufferedReader.read`; `BufferedRandom.read`,
`_pyio:1435-1439`. -/
def read (n : Option Int) : PyM Buf (Option Bytes) := fun b =>
  match b.kind with
  | .writer => (.error .unsupported, b)
  | .reader => readerRead n b
  | .random => (do flush; readerRead (some (n.getD (-1)))) b

/-- The raw read of `_peek_unlocked`, `_pyio:1125-1129`. -/
def refill (toRead : Int) : PyM Buf Unit := do
  let current ← onRaw (Raw.read (some toRead))
  match current with
  | some (c :: cs) => PyM.modify (fun b => { b with readBuf := b.readBuf.drop b.readPos ++ (c :: cs), readPos := 0 })
  | _ => pure ()

/-- `_peek_unlocked`, `_pyio:1121-1130`. -/
def peekUnlocked (n : Int) : PyM Buf Bytes := fun b =>
  let have_ : Int := (b.readBuf.length : Int) - b.readPos
  (do
    PyM.when (decide (have_ < min n b.bufferSize ∨ have_ ≤ 0)) (refill (b.bufferSize - have_))
    let b ← PyM.get
    pure (b.readBuf.drop b.readPos)) b

/-- `peek`: `BufferedReader.peek`, `_pyio:1110-1119`; `BufferedRandom.peek`, `_pyio:1445-1447`.  A writer has none, and
`_buffer_forwarder_mixin.__getattr__` (`rsfile_streams.py:69-74`) looks it up in vain on the raw stream. -/
def peek (n : Int) : PyM Buf Bytes := fun b =>
  match b.kind with
  | .writer => (.error .attributeError, b)
  | .reader => (do checkClosed; peekUnlocked n) b
  | .random => (do flush; checkClosed; peekUnlocked n) b

/-- The last lines of `read1`, `_pyio:1141-1144`. -/
def read1Unlocked (size : Int) : PyM Buf (Option Bytes) := do
  let _ ← peekUnlocked 1
  let b ← PyM.get
  readSome (min size ((b.readBuf.length : Int) - b.readPos)).toNat

/-- `BufferedReader.read1`, `_pyio:1132-1144`. -/
def readerRead1 (size : Int) : PyM Buf (Option Bytes) := fun b =>
  (do
    checkClosed
    if size = 0 then pure (some [])
    else read1Unlocked (if size < 0 then b.bufferSize else size)) b

/-- `read1`: `BufferedIOBase.read1`, `_pyio:695-699`, for a writer; `BufferedReader.read1`; `BufferedRandom.read1`,
`_pyio:1449-1451`. -/
def read1 (size : Int) : PyM Buf (Option Bytes) := fun b =>
  match b.kind with
  | .writer => (.error .unsupported, b)
  | .reader => readerRead1 size b
  | .random => (do flush; readerRead1 size) b

/-- First part of the loop of `_readinto`, `_pyio:1169-1177`: copy from the internal buffer.  The state of the loop is
the caller's buffer and the number of bytes stored so far.  Assigning to a slice of a `memoryview` of another length
raises `ValueError`. -/
def copyOut (dst : Bytes) (written : Nat) : PyM Buf (Bytes × Nat) := fun b =>
  let avail := min (b.readBuf.length - b.readPos) dst.length
  if avail = 0 then (.ok (dst, written), b)
  else if dst.length < written + avail then (.error .valueError, b)
  else
    (.ok (dst.take written ++ (b.readBuf.drop b.readPos).take avail ++ dst.drop (written + avail), written + avail),
      { b with readPos := b.readPos + avail })

/-- The read of the loop of `_readinto`, `_pyio:1179-1191`: the new buffer and count, and whether to leave the loop. -/
def readMore (read1 : Bool) (dst : Bytes) (written : Nat) : PyM Buf (Bytes × Nat × Bool) := fun b =>
  if b.bufferSize < dst.length - written then
    (do
      let r ← onRaw (Raw.readinto (dst.drop written))
      pure (if r.1 = 0 then (dst, written, true) else (dst.take written ++ r.2, written + r.1, false))) b
  else if read1 = true ∧ written ≠ 0 then (.ok (dst, written, false), b)
  else
    (do
      let p ← peekUnlocked 1
      pure (dst, written, decide (p = []))) b

/-- The loop of `_readinto`, `_pyio:1166-1195`. -/
def readintoLoop (read1 : Bool) : Nat → Bytes → Nat → PyM Buf (Nat × Bytes)
  | 0, dst, written => pure (written, dst)
  | fuel + 1, dst, written =>
    if written < dst.length then do
      let r ← copyOut dst written
      if r.2 = r.1.length then pure (r.2, r.1)
      else do
        let q ← readMore read1 r.1 r.2
        if q.2.2 = true ∨ (read1 = true ∧ q.2.1 ≠ 0) then pure (q.2.1, q.1)
        else readintoLoop read1 fuel q.1 q.2.1
    else pure (written, dst)

/-- `BufferedReader._readinto`, `_pyio:1151-1197`. -/
def readerReadinto (read1 : Bool) (dst : Bytes) : PyM Buf (Nat × Bytes) := do
  checkClosed
  if dst = [] then pure (0, dst) else readintoLoop read1 (2 * dst.length) dst 0

/-- `readinto` (`read1 = False`) and `readinto1` (`read1 = True`): `BufferedIOBase`, `_pyio:701-739`, whose
`_readinto` calls the unsupported `read` for a writer; `BufferedRandom`, `_pyio:1441-1443,1453-1455`. -/
def readinto (read1 : Bool) (dst : Bytes) : PyM Buf (Nat × Bytes) := fun b =>
  match b.kind with
  | .writer => (.error .unsupported, b)
  | .reader => readerReadinto read1 dst b
  | .random => (do flush; readerReadinto read1 dst) b

/-- The index after the first newline, or the length, `(readahead.find(b"\n") + 1) or len(readahead)`. -/
def lineLength : Bytes → Nat
  | [] => 0
  | c :: cs => if c = 10 then 1 else 1 + lineLength cs

/-- `nreadahead()`, `_pyio:523-534`. -/
def nreadahead (size : Int) : PyM Buf Int := fun b =>
  match b.kind with
  | .writer => (.ok 1, b)
  | _ =>
    (do
      let ahead ← peek 1
      pure (if ahead = [] then 1
        else if 0 ≤ size then min (lineLength ahead : Int) size else lineLength ahead)) b

/-- The loop of `readline`, `_pyio:545-551`. -/
def readlineLoop (size : Int) : Nat → Bytes → PyM Buf Bytes
  | 0, res => pure res
  | fuel + 1, res =>
    if size < 0 ∨ (res.length : Int) < size then do
      let n ← nreadahead size
      let chunk ← read (some n)
      match chunk with
      | none => pure res
      | some [] => pure res
      | some (c :: cs) =>
        if (res ++ (c :: cs)).getLast? = some 10 then pure (res ++ (c :: cs))
        else readlineLoop size fuel (res ++ (c :: cs))
    else pure res

/-- `readline(size)`, `IOBase.readline`, `_pyio:512-552`. -/
def readline (size : Int) : PyM Buf Bytes := fun b =>
  readlineLoop size (b.raw.data.length + b.readBuf.length + 1) [] b

/-- `for line in f`, `_pyio:555-562`, as in `readlines(hint)`, `_pyio:564-580`: all lines, or until their total length
reaches `hint`.  Each round consumes a byte or is the last one. -/
def linesLoop (hint : Option Nat) : Nat → Nat → PyM Buf (List Bytes)
  | 0, _ => pure []
  | fuel + 1, n => do
    let line ← readline (-1)
    if line = [] then pure []
    else if hint.any (· ≤ n + line.length) then pure [line]
    else do
      let rest ← linesLoop hint fuel (n + line.length)
      pure (line :: rest)

/-- `readlines(hint)`, `_pyio:564-580`. -/
def readlines (hint : Option Int) : PyM Buf (List Bytes) := fun b =>
  (do
    checkClosed
    linesLoop (match hint with
      | none => none
      | some h => if h ≤ 0 then none else some h.toNat) (b.raw.data.length + b.readBuf.length + 1) 0) b

/-- The loop of `writelines`, `_pyio:589-590`. -/
def writeAll : List Bytes → PyM Buf Unit
  | [] => pure ()
  | l :: ls => do
    let _ ← write l
    writeAll ls

/-- `writelines(lines)`, `_pyio:582-590`. -/
def writelines (lines : List Bytes) : PyM Buf Unit := do
  checkClosed
  writeAll lines

/-! ## Positioning -/

/-- `tell`: `BufferedReader.tell`, `_pyio:1199-1201` (the result is not negative); `BufferedWriter.tell`,
`_pyio:1293-1294`; `BufferedRandom.tell`, `_pyio:1423-1427`; all over `_BufferedIOMixin.tell`, `_pyio:784-788`. -/
def tell : PyM Buf Nat := fun b =>
  (do
    let p ← onRaw Raw.tell
    pure (match b.kind with
      | .reader => p + b.readPos - b.readBuf.length
      | .writer => p + b.writeBuf.length
      | .random => if b.writeBuf = [] then p + b.readPos - b.readBuf.length else p + b.writeBuf.length)) b

/-- `BufferedReader.seek`, `_pyio:1203-1212`. -/
def readerSeek (offset : Int) (whence : Whence) : PyM Buf Nat := fun b =>
  (do
    checkClosed
    let p ← onRaw (Raw.seek (if whence = Whence.cur then offset - ((b.readBuf.length : Int) - b.readPos) else offset) whence)
    resetReadBuf
    pure p) b

/-- `BufferedWriter.seek`, `_pyio:1296-1301`. -/
def writerSeek (offset : Int) (whence : Whence) : PyM Buf Nat := do
  flushUnlocked
  onRaw (Raw.seek offset whence)

/-- The beginning of `BufferedRandom.seek`, `_pyio:1409-1413`: the buffer itself is kept. -/
def seekBack : PyM Buf Unit := fun b =>
  if b.readBuf = [] then (.ok (), b)
  else
    (do
      let _ ← onRaw (Raw.seek ((b.readPos : Int) - b.readBuf.length) .cur)
      pure ()) b

/-- `BufferedRandom.seek`, `_pyio:1406-1421`. -/
def randomSeek (offset : Int) (whence : Whence) : PyM Buf Nat := do
  flush
  seekBack
  let p ← onRaw (Raw.seek offset whence)
  resetReadBuf
  pure p

/-- `seek`. -/
def seek (offset : Int) (whence : Whence) : PyM Buf Nat := fun b =>
  match b.kind with
  | .reader => readerSeek offset whence b
  | .writer => writerSeek offset whence b
  | .random => randomSeek offset whence b

/-- `BufferedWriter.truncate`, `_pyio:1265-1270`. -/
def writerTruncate (arg : Option Int) : PyM Buf Nat := do
  flushUnlocked
  match arg with
  | none => do
    let p ← onRaw Raw.tell
    onRaw (Raw.truncate (some (p : Int)) true)
  | some n => onRaw (Raw.truncate (some n) true)

/-- `truncate`: `_BufferedIOMixin.truncate`, `_pyio:790-803`, for a reader, whose `writable` is `IOBase.writable`,
`_pyio:451-456`; `BufferedWriter.truncate`; `BufferedRandom.truncate`, `_pyio:1429-1433`. -/
def truncate (arg : Option Int) : PyM Buf Nat := fun b =>
  match b.kind with
  | .reader => (do checkClosed; PyM.raise .unsupported) b
  | .writer => writerTruncate arg b
  | .random =>
    match arg with
    | none => (do let p ← tell; writerTruncate (some (p : Int))) b
    | some n => writerTruncate (some n) b

/-! ## The methods of `_buffer_forwarder_mixin` -/

/-- `size`, `rsfile_streams.py:43-45`. -/
def size : PyM Buf Nat := do
  flush
  onRaw Raw.size

/-- `sync`, `rsfile_streams.py:47-49`. -/
def sync (fdatasync metadata fullFlush : Bool) : PyM Buf Unit := do
  flush
  onRaw (Raw.sync fdatasync metadata fullFlush)

/-- `_reset_buffers`, `rsfile_streams.py:34-35`. -/
def resetBuffers : PyM Buf Unit := do
  let _ ← seek 0 .cur
  pure ()

/-- `lock_file`, `rsfile_streams.py:51-53`; `others` is the content of the file when the lock is granted. -/
def lockFile (others : Bytes) : PyM Buf Unit := do
  resetBuffers
  onRaw (Raw.lockFile others)

/-- `unlock_file`, `rsfile_streams.py:55-57`. -/
def unlockFile : PyM Buf Unit := do
  resetBuffers
  onRaw Raw.unlockFile

/-- The end of `with f.lock_file():`.  The context manager comes from the raw stream: `_lock_remover`,
`rsfileio_abstract.py:527-532`, is bound to it and calls its `unlock_file`. -/
def exitLock : PyM Buf Unit := onRaw Raw.unlockFile

/-- `close`: `_BufferedIOMixin.close`, `_pyio:812-818`, and `BufferedWriter.close`, `_pyio:1303-1316`. -/
def close : PyM Buf Unit := fun b =>
  if b.raw.closed then (.ok (), b) else PyM.tryFinally flush (onRaw Raw.close) b

/-! ## Histories -/

end Buf

/-- A method call on an open stream. -/
inductive StreamOp where
  | read (n : Option Int)
  | read1 (n : Int)
  | peek (n : Int)
  | readline (n : Int)
  | write (data : Bytes)
  | seek (offset : Int) (whence : Whence)
  | tell
  | flush
  | truncate (n : Option Int)
  | size
  | lock (others : Bytes)
  | unlock

/-- What it returns or raises. -/
inductive StreamOut where
  | bytes (b : Bytes)
  | none
  | num (n : Nat)
  | done
  | error (e : Exn)
  deriving DecidableEq

namespace StreamOut

def ofBytes : Except Exn Bytes → StreamOut
  | .ok b => .bytes b
  | .error e => .error e

def ofOption : Except Exn (Option Bytes) → StreamOut
  | .ok (some b) => .bytes b
  | .ok Option.none => .none
  | .error e => .error e

def ofNat : Except Exn Nat → StreamOut
  | .ok n => .num n
  | .error e => .error e

def ofUnit : Except Exn Unit → StreamOut
  | .ok _ => .done
  | .error e => .error e

end StreamOut

namespace Buf

/-- One method call. -/
def step (b : Buf) : StreamOp → StreamOut × Buf
  | .read n => (.ofOption (b.read n).1, (b.read n).2)
  | .read1 n => (.ofOption (b.read1 n).1, (b.read1 n).2)
  | .peek n => (.ofBytes (b.peek n).1, (b.peek n).2)
  | .readline n => (.ofBytes (b.readline n).1, (b.readline n).2)
  | .write d => (.ofNat (b.write d).1, (b.write d).2)
  | .seek o w => (.ofNat (b.seek o w).1, (b.seek o w).2)
  | .tell => (.ofNat b.tell.1, b.tell.2)
  | .flush => (.ofUnit b.flush.1, b.flush.2)
  | .truncate n => (.ofNat (b.truncate n).1, (b.truncate n).2)
  | .size => (.ofNat b.size.1, b.size.2)
  | .lock o => (.ofUnit (b.lockFile o).1, (b.lockFile o).2)
  | .unlock => (.ofUnit b.unlockFile.1, b.unlockFile.2)

/-- A history of calls: the results and the final state. -/
def run (b : Buf) : List StreamOp → List StreamOut × Buf
  | [] => ([], b)
  | op :: ops =>
    let r := b.step op
    let r' := r.2.run ops
    (r.1 :: r'.1, r'.2)

end Buf

end Verif
