import Verif.Model.Open
import Verif.Model.Text

/-!
# `read_from_file`, `write_to_file` and `append_to_file`

`rsfile_utilities.py:86-222`, on unix, over `rsopen` (`Open`) and the streams (`RawIO`, `Buffered`, `Text`).

No other process or thread touches the file between the opening and the closing.  The encoding is a codec, the argument
`timeout` only decides when the locking in `rsopen` fails, which is arbitrary there.  `with` closes the stream in the end,
`IOBase.__exit__`, `_pyio:487-489`.
-/

set_option autoImplicit false

namespace Verif

/-- A `bytes` or a `str`. -/
inductive Chunk where
  | bytes (b : Bytes)
  | text (s : Text)
  deriving DecidableEq

namespace Chunk

/-- `bool(chunk)` is false. -/
def falsy : Chunk → Bool
  | bytes b => b = []
  | text s => s = []

/-- `isinstance(data, str)`. -/
def isStr : Chunk → Bool
  | bytes _ => false
  | text _ => true

/-- `joiner.join(data_blocks)`, `rsfile_utilities.py:124-129`. -/
def join (binary : Bool) : List Chunk → Except Exn Chunk
  | [] => .ok (if binary then bytes [] else text [])
  | c :: cs =>
    match c, join binary cs with
    | bytes b, .ok (bytes r) => .ok (bytes (b ++ r))
    | text s, .ok (text r) => .ok (text (s ++ r))
    | _, .error e => .error e
    | _, .ok _ => .error .typeError

end Chunk

/-- A stream of one of the three layers. -/
inductive AnyStream (C : Codec) where
  | raw (s : Raw)
  | buf (b : Buf)
  | txt (t : Txt C)

namespace AnyStream

variable {C : Codec} {α : Type}

/-- The raw stream below. -/
def theRaw : AnyStream C → Raw
  | raw s => s
  | buf b => b.raw
  | txt t => t.buf.raw

/-- A method call, depending on the layer. -/
def call (r : PyM Raw α) (b : PyM Buf α) (t : PyM (Txt C) α) : PyM (AnyStream C) α
  | raw s =>
    match r s with
    | (x, s) => (x, raw s)
  | buf c =>
    match b c with
    | (x, c) => (x, buf c)
  | txt c =>
    match t c with
    | (x, c) => (x, txt c)

/-- `myfile.read()`. -/
def read : PyM (AnyStream C) (Option Chunk) :=
  call (do let r ← Raw.read none; pure (r.map .bytes)) (do let r ← Buf.read none; pure (r.map .bytes))
    (do let r ← Txt.read none; pure (some (.text r)))

/-- `myfile.write(data)`; the result is not used. -/
def write : Chunk → PyM (AnyStream C) Unit
  | .bytes d => call (do let _ ← Raw.write d; pure ()) (do let _ ← Buf.write d; pure ()) (PyM.raise .typeError)
  | .text s => call (PyM.raise .typeError) (PyM.raise .typeError) (do let _ ← Txt.write s; pure ())

/-- `myfile.flush()`. -/
def flush : PyM (AnyStream C) Unit := call Raw.flush Buf.flush Txt.flush

/-- `myfile.sync()`. -/
def sync (fdatasync : Bool) : PyM (AnyStream C) Unit :=
  call (Raw.sync fdatasync true true) (Buf.sync fdatasync true true) (Txt.sync fdatasync true true)

/-- `myfile.close()`. -/
def close : PyM (AnyStream C) Unit := call Raw.close Buf.close Txt.close

end AnyStream

/-- The files, and what the system will answer. -/
structure Site where
  host : Host
  /-- the answers to the reads, writes and synchronisations to come -/
  io : List OsAns
  /-- what happened to each file, on its way to the device -/
  disk : Nat → List DiskEv

/-- The arguments that the three functions have in common. -/
structure FileArgs where
  filename : NameArg
  buffering : Arg Int
  encoding : Arg Unit
  errors : Arg Unit
  /-- `none` is not given -/
  newline : Option Newline
  locking : Bool

/-- What does not depend on the call: the encoding, `os.linesep`, `hasattr(os, "fdatasync")`. -/
structure Setting where
  py : Python
  codec : Codec
  linesep : Text
  fdatasync : Bool

namespace Site

/-- The content of an inode. -/
def content (w : Host) (ino : Nat) : Bytes := (w.nodes[ino]?.map Node.data).getD []

/-- The open raw stream: at the end of the file if it appends, `rsfileio_abstract.py:190-196`. -/
def rawOf (w : Site) (o : RawObj) : Raw :=
  { platform := .unix, junk := fun _ => 0, closed := false, readable := o.readable, writable := o.writable,
    seekable := o.seekable, append := o.append, data := content w.host o.ino,
    pos := if o.append then (content w.host o.ino).length else 0, sched := w.io, events := [],
    disk := w.disk o.ino ++ [.content (content w.host o.ino)] }

/-- The layers, `rsfile_factories.py:311-338`. -/
def layers (S : Setting) (newline : Option Newline) (o : Opened) (raw : Raw) : Except Exn (AnyStream S.codec) :=
  match o.buffer with
  | none => .ok (.raw raw)
  | some (k, n) =>
    match Buf.create k n raw with
    | .error e => .error e
    | .ok b =>
      match o.text with
      | none => .ok (.buf b)
      | some line =>
        match Txt.create (newline.getD .auto) line S.linesep b with
        | (.error e, _) => .error e
        | (.ok _, t) => .ok (.txt t)

/-- The world after the stream is closed. -/
def store (w : Site) (o : RawObj) (s : Raw) : Site :=
  let host := { w.host with nodes := w.host.nodes.modify o.ino fun n => { n with data := s.data } }
  { host := if s.closed then host.closeRaw o.closefd o.ino o.fd else host
    io := s.sched
    disk := fun i => if i = o.ino then s.disk else w.disk i }

/-- The arguments for `rsopen`. -/
def openArgs (a : FileArgs) (mode : List Char) : OpenArgs :=
  { name := a.filename, mode := .given mode, buffering := a.buffering, encoding := a.encoding, errors := a.errors,
    newline := a.newline.isSome, fileno := none, handle := none, closefd := true, opener := none, locking := a.locking,
    threadSafe := false, mutex := false }

/-- `with rsopen(...) as myfile: body`.  The descriptor is closed by the last step of `close`, whose exception replaces
all others. -/
def withOpen {α : Type} (S : Setting) (a : FileArgs) (mode : List Char) (body : PyM (AnyStream S.codec) α) : PyM Site α :=
  fun w =>
    match OpenArgs.rsopen S.py (openArgs a mode) w.host with
    | (.error e, h) => (.error e, { w with host := h })
    | (.ok o, h) =>
      let w := { w with host := h }
      match layers S a.newline o (w.rawOf o.raw) with
      | .error e =>
        (Host.closing o.raw.closefd o.raw.fd (.error e), { w with host := h.closeRaw o.raw.closefd o.raw.ino o.raw.fd })
      | .ok s =>
        match PyM.tryFinally body AnyStream.close s with
        | (r, s) => (if s.theRaw.closed then Host.closing o.raw.closefd o.raw.fd r else r, w.store o.raw s.theRaw)

/-- The loop of `read_from_file`, `rsfile_utilities.py:116-122`.  Each round but the last one reads at least one byte or
gives at least one character. -/
def readBlocks {C : Codec} : Nat → PyM (AnyStream C) (List Chunk)
  | 0 => pure []
  | fuel + 1 => do
    let temp ← AnyStream.read
    match temp with
    | none => pure []
    | some c =>
      if c.falsy then pure []
      else do
        let rest ← readBlocks fuel
        pure (c :: rest)

/-- The body of `read_from_file`, `rsfile_utilities.py:116-130`. -/
def readBody {C : Codec} (binary : Bool) : PyM (AnyStream C) Chunk := fun s =>
  (do
    let blocks ← readBlocks (s.theRaw.data.length + 2)
    fun s => (Chunk.join binary blocks, s)) s

/-- `read_from_file`, `rsfile_utilities.py:86-130`. -/
def readFromFile (S : Setting) (a : FileArgs) (binary : Bool) : PyM Site Chunk :=
  withOpen S a (['R', '+'] ++ if binary then ['B'] else []) (readBody binary)

/-- The bodies of the other two functions, `rsfile_utilities.py:174-177,219-222`. -/
def writeBody {C : Codec} (fdatasync : Bool) (data : Chunk) (sync : Bool) : PyM (AnyStream C) Unit := do
  AnyStream.write data
  AnyStream.flush
  PyM.when sync (AnyStream.sync fdatasync)

/-- `write_to_file`, `rsfile_utilities.py:133-177`. -/
def writeToFile (S : Setting) (a : FileArgs) (data : Chunk) (sync mustCreate mustNotCreate : Bool) : PyM Site Unit :=
  withOpen S a (['W', 'E'] ++ (if mustNotCreate then ['N'] else []) ++ (if mustCreate then ['C'] else []) ++
    if data.isStr then [] else ['B']) (writeBody S.fdatasync data sync)

/-- `append_to_file`, `rsfile_utilities.py:180-222`. -/
def appendToFile (S : Setting) (a : FileArgs) (data : Chunk) (sync mustNotCreate : Bool) : PyM Site Unit :=
  withOpen S a (['A'] ++ (if mustNotCreate then ['N'] else []) ++ if data.isStr then [] else ['B'])
    (writeBody S.fdatasync data sync)

end Site

end Verif
