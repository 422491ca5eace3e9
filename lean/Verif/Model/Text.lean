import Verif.Model.Buffered

/-!
# Text streams

`RSTextIOWrapper` (`rsfile_streams.py:77-147`) inherits from `TextIOWrapper`, transcribed from
`rstest/stdlib/_pyio_py313_backup.py` (cited as `_pyio`).

A character is its code point.  The codec is a parameter: its incremental encoder and decoder.  A codec that raises
keeps its state (true for the codecs of the standard library, which store it after a successful conversion).  Positions
returned by `tell` are not packed into one integer (`_pyio:2302-2317`; each field takes 64 bits there).  `reconfigure`
is in `Reconfigure`; `detach`, `newlines`, `fileno`, `isatty`, `repr` are not modelled; the checks of the types of arguments are those of
`Open`.  A loop is bounded by a number of rounds that it cannot exceed, as each round reads at least one byte.
-/

set_option autoImplicit false

namespace Verif

/-- A python `str`. -/
abbrev Text := List Nat

/-- An encoding, with its error handler. -/
structure Codec where
  /-- states of the incremental encoder -/
  Enc : Type
  /-- states of the incremental decoder -/
  Dec : Type
  /-- a new encoder; `reset()` -/
  encInit : Enc
  /-- `setstate(0)` -/
  encMid : Enc
  encode : Enc → Text → Except Exn (Bytes × Enc)
  /-- a new decoder; `reset()` -/
  decInit : Dec
  /-- `decode(input, final)` -/
  decode : Dec → Bytes → Bool → Except Exn (Text × Dec)
  /-- the bytes that are not decoded yet, and the flags -/
  getstate : Dec → Bytes × Nat
  setstate : Bytes × Nat → Dec

/-- The values of `newline`, `_pyio:2032-2036`. -/
inductive Newline where
  /-- `None` -/
  | auto
  /-- `''` -/
  | raw
  /-- `'\n'` -/
  | lf
  /-- `'\r'` -/
  | cr
  /-- `'\r\n'` -/
  | crlf
  deriving DecidableEq

namespace Newline

/-- `_readuniversal`, `_pyio:2046`. -/
def universal : Newline → Bool
  | auto | raw => true
  | _ => false

/-- `_readtranslate`, `_pyio:2047`. -/
def translate : Newline → Bool
  | auto => true
  | _ => false

/-- `_readnl`, `_pyio:2048`, where it is used. -/
def readnl : Newline → Text
  | cr => [13]
  | crlf => [13, 10]
  | _ => [10]

/-- `_writetranslate`, `_pyio:2049`. -/
def writeTranslate : Newline → Bool
  | raw => false
  | _ => true

/-- `_writenl`, `_pyio:2050`; the argument is `os.linesep`. -/
def writenl (linesep : Text) : Newline → Text
  | auto | raw => linesep
  | lf => [10]
  | cr => [13]
  | crlf => [13, 10]

end Newline

/-- `s.replace("\n", nl)`. -/
def replaceLf (nl : Text) : Text → Text
  | [] => []
  | c :: cs => (if c = 10 then nl else [c]) ++ replaceLf nl cs

/-- `s.replace("\r\n", "\n")`. -/
def replaceCrlf : Text → Text
  | [] => []
  | [c] => [c]
  | c :: d :: cs => if c = 13 ∧ d = 10 then 10 :: replaceCrlf cs else c :: replaceCrlf (d :: cs)

/-- `s.replace("\r", "\n")`. -/
def replaceCr (s : Text) : Text := s.map fun c => if c = 13 then 10 else c

/-- A text stream.  The decoder is kept together with `pendingcr` of `IncrementalNewlineDecoder`. -/
structure Txt (C : Codec) where
  buf : Buf
  newline : Newline
  lineBuffering : Bool
  linesep : Text
  /-- `_seekable` -/
  seekable : Bool
  telling : Bool
  encoder : Option C.Enc
  decoder : Option (C.Dec × Bool)
  /-- `_decoded_chars` -/
  chars : Text
  /-- `_decoded_chars_used` -/
  used : Nat
  /-- `_snapshot`: flags and input since then -/
  snapshot : Option (Nat × Bytes)
  /-- `_b2cratio`: numbers of bytes and characters -/
  ratio : Nat × Nat

namespace Txt

variable {C : Codec} {α : Type}

/-- A call of a method of `self.buffer`. -/
def onBuf (m : PyM Buf α) : PyM (Txt C) α := fun t =>
  match m t.buf with
  | (r, b) => (r, { t with buf := b })

/-! ## Construction -/

/-- `readable()`, `_pyio:2159-2160`: the one of the buffered stream, `rsfile_streams.py:128-143`, `IOBase.readable` for a
writer. -/
def readable : PyM (Txt C) Bool := fun t =>
  match t.buf.kind with
  | .writer => (.ok false, t)
  | _ => if t.buf.raw.closed then (.error .valueError, t) else (.ok t.buf.raw.readable, t)

/-- `writable()`, `_pyio:2162-2163`. -/
def writable : PyM (Txt C) Bool := fun t =>
  match t.buf.kind with
  | .reader => (.ok false, t)
  | _ => if t.buf.raw.closed then (.error .valueError, t) else (.ok t.buf.raw.writable, t)

/-- `_get_encoder()`, `_pyio:2214-2217`, with `setstate(0)` if `mid`. -/
def setEncoder (mid : Bool) : PyM (Txt C) Unit :=
  PyM.modify fun t => { t with encoder := some (if mid then C.encMid else C.encInit) }

/-- "don't write a BOM in the middle of a file", `_pyio:2055-2063`. -/
def configure : PyM (Txt C) Unit := fun t =>
  if t.seekable then
    (do
      let w ← writable
      if w then do
        let position ← onBuf Buf.tell
        PyM.when (decide (position ≠ 0)) (setEncoder true)
      else pure ()) t
  else (.ok (), t)

/-- `TextIOWrapper.__init__`, `_pyio:1999-2030`; the encoding and the error handler are known. -/
def create (newline : Newline) (lineBuffering : Bool) (linesep : Text) (b : Buf) : Except Exn Unit × Txt C :=
  if b.raw.closed then
    (.error .valueError, ⟨b, newline, lineBuffering, linesep, false, false, none, none, [], 0, none, (0, 0)⟩)
  else
    configure ⟨b, newline, lineBuffering, linesep, b.raw.seekable, b.raw.seekable, none, none, [], 0, none, (0, 0)⟩

/-! ## The decoder -/

/-- `IncrementalNewlineDecoder.decode`, `_pyio:1895-1924`, after the call of the decoder. -/
def splitCr (translate : Bool) (pendingcr : Bool) (output : Text) (final : Bool) : Text × Bool :=
  let emit := pendingcr && (decide (output ≠ []) || final)
  let output := if emit then 13 :: output else output
  let pendingcr := pendingcr && !emit
  let keep := decide (output.getLast? = some 13) && !final
  let output := if keep then output.dropLast else output
  let pendingcr := if keep then true else pendingcr
  (if translate then replaceCr (replaceCrlf output) else output, pendingcr)

/-- `decoder.decode(input, final)`. -/
def decodeWith (C : Codec) (nl : Newline) (d : C.Dec × Bool) (input : Bytes) (final : Bool) :
    Except Exn (Text × (C.Dec × Bool)) :=
  match C.decode d.1 input final with
  | .error e => .error e
  | .ok (output, dec) =>
    if nl.universal then
      let r := splitCr nl.translate d.2 output final
      .ok (r.1, (dec, r.2))
    else .ok (output, (dec, d.2))

/-- `decoder.getstate()`, `_pyio:1926-1935`. -/
def getstateWith (C : Codec) (nl : Newline) (d : C.Dec × Bool) : Bytes × Nat :=
  let s := C.getstate d.1
  if nl.universal then (s.1, 2 * s.2 + if d.2 then 1 else 0) else s

/-- `decoder.setstate(state)`, `_pyio:1937-1941`. -/
def setstateWith (C : Codec) (nl : Newline) (s : Bytes × Nat) : C.Dec × Bool :=
  if nl.universal then (C.setstate (s.1, s.2 / 2), s.2 % 2 = 1) else (C.setstate s, false)

/-- `self._decoder or self._get_decoder()`, `_pyio:2219-2225`. -/
def getDecoder : PyM (Txt C) Unit :=
  PyM.modify fun t => { t with decoder := some (t.decoder.getD (C.decInit, false)) }

/-- `if self._decoder: self._decoder.reset()`. -/
def resetDecoder : PyM (Txt C) Unit :=
  PyM.modify fun t => { t with decoder := t.decoder.map fun _ => (C.decInit, false) }

/-- `self._decoder.decode(input, final)`; `None` is the python `None`, which no decoder accepts. -/
def decode (input : Option Bytes) (final : Bool) : PyM (Txt C) Text := fun t =>
  match t.decoder, input with
  | none, _ => (.error .attributeError, t)
  | some _, none => (.error .typeError, t)
  | some d, some input =>
    match decodeWith C t.newline d input final with
    | .error e => (.error e, t)
    | .ok (s, d) => (.ok s, { t with decoder := some d })

/-- `_set_decoded_chars(chars)`, `_pyio:2230-2233`. -/
def setChars (s : Text) : PyM (Txt C) Unit := PyM.modify fun t => { t with chars := s, used := 0 }

/-- `_get_decoded_chars(n)`, `_pyio:2235-2243`. -/
def getChars (n : Option Nat) : PyM (Txt C) Text := fun t =>
  let s := match n with
    | none => t.chars.drop t.used
    | some n => (t.chars.drop t.used).take n
  (.ok s, { t with used := t.used + s.length })

/-- `if self._snapshot is not None: ...`, `_pyio:2207-2209,2523-2525`. -/
def dropSnapshot : PyM (Txt C) Unit :=
  PyM.modify fun t => if t.snapshot.isSome then { t with chars := [], used := 0, snapshot := none } else t

/-! ## Writing -/

/-- `flush`, `_pyio:2165-2167`. -/
def flush : PyM (Txt C) Unit := do
  onBuf Buf.flush
  PyM.modify fun t => { t with telling := t.seekable }

/-- `closed`, `_pyio:2176-2178`; `if self.closed: raise ValueError`. -/
def checkClosed : PyM (Txt C) Unit := onBuf Buf.checkClosed

/-- `close`, `_pyio:2169-2174`. -/
def close : PyM (Txt C) Unit := fun t =>
  if t.buf.raw.closed then (.ok (), t) else PyM.tryFinally flush (onBuf Buf.close) t

/-- `encoder.encode(s)`, `_pyio:2201-2203`. -/
def encode (s : Text) : PyM (Txt C) Bytes := fun t =>
  match C.encode (t.encoder.getD C.encInit) s with
  | .error e => (.error e, { t with encoder := some (t.encoder.getD C.encInit) })
  | .ok (b, enc) => (.ok b, { t with encoder := some enc })

/-- The text that is encoded, `_pyio:2198-2200`. -/
def newlines (t : Txt C) (s : Text) : Text :=
  let haslf := (t.newline.writeTranslate || t.lineBuffering) && s.contains 10
  if haslf && t.newline.writeTranslate && decide (t.newline.writenl t.linesep ≠ [10]) then
    replaceLf (t.newline.writenl t.linesep) s
  else s

/-- `write(s)`, `_pyio:2190-2212`. -/
def write (s : Text) : PyM (Txt C) Nat := fun t =>
  (do
    checkClosed
    let b ← encode (t.newlines s)
    let _ ← onBuf (Buf.write b)
    PyM.when (t.lineBuffering && ((t.newline.writeTranslate || t.lineBuffering) && s.contains 10 ||
      (t.newlines s).contains 13)) flush
    dropSnapshot
    resetDecoder
    pure s.length) t

/-! ## Reading -/

/-- `_CHUNK_SIZE`, `_pyio:1990`. -/
def chunkSize : Nat := 2048

/-- `_read_chunk`, `_pyio:2260-2300`.  Buffered readers have `read1`. -/
def readChunk : PyM (Txt C) Bool := fun t =>
  match t.decoder with
  | none => (.error .valueError, t)
  | some d =>
    (do
      let chunk ← onBuf (Buf.read1 chunkSize)
      let eof := decide (chunk.getD [] = [])
      let s ← decode chunk eof
      setChars s
      PyM.modify fun t' => { t' with
        ratio := if s = [] then (0, 0) else ((chunk.getD []).length, s.length)
        snapshot := if t.telling then
          some ((getstateWith C t.newline d).2, (getstateWith C t.newline d).1 ++ chunk.getD []) else t'.snapshot }
      pure (!eof)) t

/-- `_checkReadable`, `_pyio:444-449`. -/
def checkReadable : PyM (Txt C) Unit := do
  let r ← readable
  if r then pure () else PyM.raise .unsupported

/-- The number of bytes that may still be read, plus one. -/
def rounds (t : Txt C) : Nat := t.buf.raw.data.length + t.buf.readBuf.length + 1

/-- The loop of `read`, `_pyio:2531-2533`. -/
def readLoop (size : Nat) : Nat → Text → PyM (Txt C) Text
  | 0, result => pure result
  | fuel + 1, result =>
    if result.length < size then do
      let more ← readChunk
      let s ← getChars (some (size - result.length))
      if more then readLoop size fuel (result ++ s) else pure (result ++ s)
    else pure result

/-- `read()`, `_pyio:2519-2526`. -/
def readAll : PyM (Txt C) Text := do
  let s ← getChars none
  let b ← onBuf (Buf.read none)
  let s' ← decode b true
  dropSnapshot
  pure (s ++ s')

/-- `read(size)`, `_pyio:2507-2534`; `none` is the python `None`. -/
def read (size : Option Int) : PyM (Txt C) Text := fun t =>
  (do
    checkReadable
    getDecoder
    match size with
    | none => readAll
    | some n =>
      if n < 0 then readAll
      else do
        let s ← getChars (some n.toNat)
        readLoop n.toNat t.rounds s) t

/-- `line.find(nl)`. -/
def find (nl : Text) : Text → Option Nat
  | [] => if nl = [] then some 0 else none
  | c :: cs => if nl <+: c :: cs then some 0 else (find nl cs).map (· + 1)

/-- The end of the first line, `_pyio:2568-2613`.  (`start` is only a shortcut: no newline was found before it.) -/
def lineEnd (nl : Newline) (line : Text) : Option Nat :=
  if nl.translate then (find [10] line).map (· + 1)
  else if nl.universal then
    match find [10] line, find [13] line with
    | none, none => none
    | some n, none => some (n + 1)
    | none, some c => some (c + 1)
    | some n, some c => if n < c then some (n + 1) else if n = c + 1 then some (c + 2) else some (c + 1)
  else (find nl.readnl line).map (· + nl.readnl.length)

/-- "get more data", `_pyio:2620-2622`. -/
def moreChars : Nat → PyM (Txt C) Unit
  | 0 => pure ()
  | fuel + 1 => do
    let more ← readChunk
    let t ← PyM.get
    if more && decide (t.chars = []) then moreChars fuel else pure ()

/-- `_rewind_decoded_chars(n)`, `_pyio:2254-2258`. -/
def rewind (n : Nat) : PyM (Txt C) Unit := fun t =>
  if t.used < n then (.error .assertionError, t) else (.ok (), { t with used := t.used - n })

/-- The end of `readline`, `_pyio:2631-2636`. -/
def finishLine (size : Int) (line : Text) (endpos : Nat) : PyM (Txt C) Text := do
  let endpos := if 0 ≤ size ∧ size < endpos then size.toNat else endpos
  rewind (line.length - endpos)
  pure (line.take endpos)

/-- The loop of `readline`, `_pyio:2567-2629`. -/
def readlineLoop (size : Int) : Nat → Text → PyM (Txt C) Text
  | 0, line => pure line
  | fuel + 1, line => fun t =>
    match lineEnd t.newline line with
    | some endpos => finishLine size line endpos t
    | none =>
      if 0 ≤ size ∧ size ≤ line.length then finishLine size line size.toNat t
      else
        (do
          moreChars t.rounds
          let t ← PyM.get
          if t.chars ≠ [] then do
            let s ← getChars none
            readlineLoop size fuel (line ++ s)
          else do
            setChars []
            PyM.modify fun t => { t with snapshot := none }
            pure line) t

/-- `readline(size)`, `_pyio:2545-2636`; a negative size is the default. -/
def readline (size : Int) : PyM (Txt C) Text := fun t =>
  (do
    checkClosed
    let line ← getChars none
    getDecoder
    readlineLoop size (t.rounds + 1) line) t

/-- `__next__`, `_pyio:2536-2543`; the empty string stands for `StopIteration`. -/
def next : PyM (Txt C) Text := do
  PyM.modify fun t => { t with telling := false }
  let line ← readline (-1)
  PyM.when (decide (line = [])) (PyM.modify fun t => { t with snapshot := none, telling := t.seekable })
  pure line

/-! ## Positions -/

/-- What `tell` returns, `_pyio:2302-2317`: seek to `position`, set the flags of the decoder, feed it, skip
characters. -/
structure Cookie where
  position : Nat
  flags : Nat
  feed : Nat
  needEof : Bool
  skip : Nat
  deriving DecidableEq

/-- The number `cookie` as an integer is zero. -/
def Cookie.isZero (c : Cookie) : Bool := c.position = 0 ∧ c.flags = 0 ∧ c.feed = 0 ∧ c.needEof = false ∧ c.skip = 0

/-- The fast search of `tell`, `_pyio:2354-2377`: `skip_bytes`, and then the flags, the number of characters left and the
state of the decoder. -/
def fastSearch (C : Codec) (nl : Newline) (input : Bytes) (flags chars : Nat) : Nat → Nat → Nat →
    Except Exn (Nat × Nat × Nat × (C.Dec × Bool))
  | 0, _, _ => .ok (0, flags, chars, setstateWith C nl ([], flags))
  | fuel + 1, skipBytes, skipBack =>
    if skipBytes = 0 then .ok (0, flags, chars, setstateWith C nl ([], flags))
    else
      match decodeWith C nl (setstateWith C nl ([], flags)) (input.take skipBytes) false with
      | .error e => .error e
      | .ok (s, d) =>
        if s.length ≤ chars then
          if (getstateWith C nl d).1 = [] then .ok (skipBytes, (getstateWith C nl d).2, chars - s.length, d)
          else fastSearch C nl input flags chars fuel (skipBytes - (getstateWith C nl d).1.length) 1
        else fastSearch C nl input flags chars fuel (skipBytes - skipBack) (skipBack * 2)

/-- The loop of `tell`, `_pyio:2386-2414`, over the bytes that are left: the cookie. -/
def slowSearch (C : Codec) (nl : Newline) : Bytes → (C.Dec × Bool) → (start flags fed chars decoded : Nat) →
    Except Exn Cookie
  | [], d, start, flags, fed, chars, decoded =>
    match decodeWith C nl d [] true with
    | .error e => .error e
    | .ok (s, _) => if decoded + s.length < chars then .error (.ioError 0) else .ok ⟨start, flags, fed, true, chars⟩
  | b :: bs, d, start, flags, fed, chars, decoded =>
    match decodeWith C nl d [b] false with
    | .error e => .error e
    | .ok (s, d) =>
      let fed := fed + 1
      let decoded := decoded + s.length
      let state := getstateWith C nl d
      if state.1 = [] ∧ decoded ≤ chars then
        if chars - decoded = 0 then .ok ⟨start + fed, state.2, 0, false, 0⟩
        else slowSearch C nl bs d (start + fed) state.2 0 (chars - decoded) 0
      else if chars ≤ decoded then .ok ⟨start, flags, fed, false, chars⟩
      else slowSearch C nl bs d start flags fed chars decoded

/-- `tell`, `_pyio:2326-2416`, after the checks.  `guess` is `int(self._b2cratio * chars_to_skip)`; the state of the
decoder is restored in the end. -/
def locate (guess : Nat × Nat → Nat → Nat) (position : Nat) (t : Txt C) : Except Exn Cookie :=
  match t.decoder, t.snapshot with
  | some _, some (flags, input) =>
    if t.used = 0 then .ok ⟨position - input.length, flags, 0, false, 0⟩
    else if input.length < guess t.ratio t.used then .error .assertionError
    else
      match fastSearch C t.newline input flags t.used (guess t.ratio t.used) (guess t.ratio t.used) 1 with
      | .error e => .error e
      | .ok (skipBytes, flags, chars, d) =>
        if chars = 0 then .ok ⟨position - input.length + skipBytes, flags, 0, false, 0⟩
        else slowSearch C t.newline (input.drop skipBytes) d (position - input.length + skipBytes) flags 0 chars 0
  | _, _ => if t.chars = [] then .ok ⟨position, 0, 0, false, 0⟩ else .error .assertionError

/-- `tell`, `_pyio:2319-2416`. -/
def tell (guess : Nat × Nat → Nat → Nat) : PyM (Txt C) Cookie := fun t =>
  if !t.seekable then (.error .unsupported, t)
  else if !t.telling then (.error (.ioError 0), t)
  else
    (do
      flush
      let position ← onBuf Buf.tell
      fun t => (locate guess position t, t)) t

/-- `_reset_encoder(position)`, `_pyio:2433-2444`. -/
def resetEncoder (atStart : Bool) : PyM (Txt C) Unit := setEncoder (!atStart)

/-- The decoder after the movement, `_pyio:2484-2490`. -/
def restoreDecoder (c : Cookie) : PyM (Txt C) Unit := fun t =>
  if c.isZero = true ∧ t.decoder.isSome = true then resetDecoder t
  else if t.decoder.isSome = true ∨ c.flags ≠ 0 ∨ c.skip ≠ 0 then
    (.ok (), { t with decoder := some (setstateWith C t.newline ([], c.flags)), snapshot := some (c.flags, []) })
  else (.ok (), t)

/-- "feed the decoder", `_pyio:2492-2502`. -/
def skipChars (c : Cookie) : PyM (Txt C) Unit := do
  let chunk ← onBuf (Buf.read (some (c.feed : Int)))
  let s ← decode chunk c.needEof
  setChars s
  PyM.modify fun t => { t with snapshot := some (c.flags, chunk.getD []) }
  if s.length < c.skip then PyM.raise (.ioError 0) else PyM.modify fun t => { t with used := c.skip }

/-- `seek(cookie)`, `_pyio:2472-2505`. -/
def seekTo (c : Cookie) : PyM (Txt C) Cookie := do
  flush
  let _ ← onBuf (Buf.seek c.position .set)
  PyM.modify fun t => { t with chars := [], used := 0, snapshot := none }
  restoreDecoder c
  PyM.when (decide (c.skip ≠ 0)) (skipChars c)
  resetEncoder c.isZero
  pure c

/-- The arguments of `seek`, `_pyio:2432`: a position (`none` is a negative number), `seek(0, SEEK_CUR)`,
`seek(0, SEEK_END)`, other movements. -/
inductive Movement where
  | to (c : Option Cookie)
  | here
  | toEnd
  | relative
  | badWhence

/-- `seek`, `_pyio:2432-2505`. -/
def seek (guess : Nat × Nat → Nat → Nat) (m : Movement) : PyM (Txt C) Cookie := fun t =>
  (do
    checkClosed
    if !t.seekable then PyM.raise .unsupported
    else
      match m with
      | .relative => PyM.raise .unsupported
      | .badWhence => PyM.raise .valueError
      | .to none => PyM.raise .valueError
      | .to (some c) => seekTo c
      | .here => do
        let c ← tell guess
        seekTo c
      | .toEnd => do
        flush
        let p ← onBuf (Buf.seek 0 .fin)
        setChars []
        PyM.modify fun t => { t with snapshot := none }
        resetDecoder
        resetEncoder (decide (p = 0))
        pure ⟨p, 0, 0, false, 0⟩) t

/-- `truncate(pos)`, `_pyio:2418-2422`.  The value of `tell()` is passed as it is: a cookie that is not a plain offset is
a huge number. -/
def truncate (guess : Nat × Nat → Nat → Nat) (arg : Option Int) : PyM (Txt C) Nat := do
  flush
  match arg with
  | some n => onBuf (Buf.truncate (some n))
  | none => do
    let c ← tell guess
    onBuf (Buf.truncate (some ((c.position + c.flags * 2 ^ 64 + c.feed * 2 ^ 128 + c.skip * 2 ^ 192 +
      (if c.needEof then 2 ^ 256 else 0) : Nat) : Int)))

/-! ## The methods of `_text_forwarder_mixin` -/

/-- `size`, `rsfile_streams.py:87-89`. -/
def size : PyM (Txt C) Nat := do
  flush
  onBuf Buf.size

/-- `sync`, `rsfile_streams.py:91-93`. -/
def sync (fdatasync metadata fullFlush : Bool) : PyM (Txt C) Unit := do
  flush
  onBuf (Buf.sync fdatasync metadata fullFlush)

/-- `_reset_buffers`, `rsfile_streams.py:78-79`. -/
def resetBuffers (guess : Nat × Nat → Nat → Nat) : PyM (Txt C) Unit := do
  let _ ← seek guess .here
  pure ()

/-- `lock_file`, `rsfile_streams.py:95-97`; `others` is the content of the file when the lock is granted. -/
def lockFile (guess : Nat × Nat → Nat → Nat) (others : Bytes) : PyM (Txt C) Unit := do
  resetBuffers guess
  onBuf (Buf.lockFile others)

/-- `unlock_file`, `rsfile_streams.py:99-101`. -/
def unlockFile (guess : Nat × Nat → Nat → Nat) : PyM (Txt C) Unit := do
  resetBuffers guess
  onBuf Buf.unlockFile

/-- `readinto`, `rsfile_streams.py:103-105`. -/
def readinto : PyM (Txt C) Unit := do
  checkClosed
  PyM.raise .badValueType

/-! ## Histories of calls -/

/-- A call of a method, with its arguments. -/
inductive Op where
  | read (size : Option Int)
  | readline (size : Int)
  | next
  | write (s : Text)
  | flush
  | seek (m : Movement)
  | tell
  | truncate (arg : Option Int)
  | size
  | sync (fdatasync metadata fullFlush : Bool)
  | lock (others : Bytes)
  | unlock
  | readinto
  | close

/-- What a call returns. -/
inductive Out where
  | text (s : Text)
  | num (n : Nat)
  | cookie (c : Cookie)
  | done
  | error (e : Exn)
  deriving DecidableEq

/-- The outcome of a call. -/
def Out.of (f : α → Out) : Except Exn α × Txt C → Out × Txt C
  | (.ok a, t) => (f a, t)
  | (.error e, t) => (.error e, t)

/-- One call. -/
def step (guess : Nat × Nat → Nat → Nat) (t : Txt C) : Op → Out × Txt C
  | .read n => Out.of .text (read n t)
  | .readline n => Out.of .text (readline n t)
  | .next => Out.of .text (next t)
  | .write s => Out.of .num (write s t)
  | .flush => Out.of (fun _ => .done) (flush t)
  | .seek m => Out.of .cookie (seek guess m t)
  | .tell => Out.of .cookie (tell guess t)
  | .truncate a => Out.of .num (truncate guess a t)
  | .size => Out.of .num (size t)
  | .sync a m f => Out.of (fun _ => .done) (sync a m f t)
  | .lock others => Out.of (fun _ => .done) (lockFile guess others t)
  | .unlock => Out.of (fun _ => .done) (unlockFile guess t)
  | .readinto => Out.of (fun _ => .done) (readinto t)
  | .close => Out.of (fun _ => .done) (close t)

/-- A history of calls: the results and the final state. -/
def run (guess : Nat × Nat → Nat → Nat) (t : Txt C) : List Op → List Out × Txt C
  | [] => ([], t)
  | op :: ops =>
    let r := step guess t op
    let r' := run guess r.2 ops
    (r.1 :: r'.1, r'.2)

end Txt

end Verif
