import Verif.Model.Buffered

/-!
# `detach()` of buffered streams

`RSBufferedReader`, `RSBufferedWriter` and `RSBufferedRandom` inherit `detach` from `_pyio`; their own `__getattr__`
(`rsfile_streams.py:70-76`) finds no raw stream afterwards.  The raw stream can be used further, here by one new buffered stream.
-/

set_option autoImplicit false

namespace Verif

/-- The raw stream, the stream object `old` that had it first, whether it still has it, and the buffered stream that was made from
the detached raw stream.  The `raw` of `old` and `new` is not used but for its constants. -/
structure Handed where
  raw : Raw
  old : Buf
  attached : Bool
  new : Option Buf

namespace Handed

def start (b : Buf) : Handed := ⟨b.raw, b, true, none⟩

/-- Methods of an object whose `_raw` is `None`.  Reading `self.closed` (`_pyio:838-840`) or a method of `self.raw` raises
`AttributeError`, as does `__getattr__` (`rsfile_streams.py:70-76`).  A reader serves `read(n)` from its buffer, and empties it in
`read()`, before it uses the raw stream (`_pyio:1044-1102`); the methods that a class does not have raise `UnsupportedOperation`
(`_pyio:653-759`); `readline(0)` reads nothing (`_pyio:512-552`). -/
def orphan (b : Buf) : StreamOp → StreamOut × Buf
  | .read n =>
    match b.kind with
    | .writer => (.error .unsupported, b)
    | .random => (.error .attributeError, b)
    | .reader =>
      match n with
      | none => (.error .attributeError, { b with readBuf := [], readPos := 0 })
      | some z =>
        if z < -1 then (.error .valueError, b)
        else if z = -1 then (.error .attributeError, { b with readBuf := [], readPos := 0 })
        else if z.toNat ≤ b.readBuf.length - b.readPos then
          (.bytes ((b.readBuf.drop b.readPos).take z.toNat), { b with readPos := b.readPos + z.toNat })
        else (.error .attributeError, b)
  | .read1 _ => (.error (if b.kind = .writer then .unsupported else .attributeError), b)
  | .readline n =>
    if n = 0 then (.bytes [], b) else (.error (if b.kind = .writer then .unsupported else .attributeError), b)
  | .write _ => (.error (if b.kind = .reader then .unsupported else .attributeError), b)
  | .peek _ | .seek _ _ | .tell | .flush | .truncate _ | .size | .lock _ | .unlock => (.error .attributeError, b)

/-- A call of a method of the first stream. -/
def callOld (w : Handed) (op : StreamOp) : StreamOut × Handed :=
  if w.attached then
    let r := ({ w.old with raw := w.raw } : Buf).step op
    (r.1, { w with raw := r.2.raw, old := r.2 })
  else
    let r := orphan w.old op
    (r.1, { w with old := r.2 })

/-- `detach()` of the first stream, `_pyio:820-826`. -/
def detach (w : Handed) : Except Exn Unit × Handed :=
  if w.attached then
    match Buf.flush { w.old with raw := w.raw } with
    | (.ok _, b) => (.ok (), { w with raw := b.raw, old := b, attached := false })
    | (.error e, b) => (.error e, { w with raw := b.raw, old := b })
  else (.error .valueError, w)

/-- `close()` of the first stream, also at the end of a `with` block and when it is forgotten: `_pyio:812-818`, `_pyio:1303-1316`. -/
def closeOld (w : Handed) : Except Exn Unit × Handed :=
  if w.attached then
    match Buf.close { w.old with raw := w.raw } with
    | (r, b) => (r, { w with raw := b.raw, old := b })
  else (.ok (), w)

/-- A new buffered stream from the detached raw stream. -/
def wrap (w : Handed) (b : Buf) : Handed := { w with new := some b }

/-- A call of a method of the new stream `b`. -/
def callNew (w : Handed) (b : Buf) (op : StreamOp) : StreamOut × Handed :=
  let r := ({ b with raw := w.raw } : Buf).step op
  (r.1, { w with raw := r.2.raw, new := some r.2 })

/-- The histories: the calls of the first stream while it has the raw stream, and the calls of the second.  The first stream is
used, closed and detached again at any time afterwards. -/
inductive Ran (w0 : Handed) : List (StreamOp × StreamOut) → List (StreamOp × StreamOut) → Handed → Prop
  | start : Ran w0 [] [] w0
  | old {h1 h2 : List (StreamOp × StreamOut)} {w : Handed} (op : StreamOp) :
      Ran w0 h1 h2 w → w.attached = true → Ran w0 (h1 ++ [(op, (w.callOld op).1)]) h2 (w.callOld op).2
  | detach {h1 h2 : List (StreamOp × StreamOut)} {w : Handed} : Ran w0 h1 h2 w → Ran w0 h1 h2 w.detach.2
  | orphan {h1 h2 : List (StreamOp × StreamOut)} {w : Handed} (op : StreamOp) :
      Ran w0 h1 h2 w → w.attached = false → Ran w0 h1 h2 (w.callOld op).2
  | close {h1 h2 : List (StreamOp × StreamOut)} {w : Handed} :
      Ran w0 h1 h2 w → w.attached = false → Ran w0 h1 h2 w.closeOld.2
  | wrap {h1 h2 : List (StreamOp × StreamOut)} {w : Handed} {k : BufKind} {n : Int} {b : Buf} :
      Ran w0 h1 h2 w → w.attached = false → w.new = none → Buf.create k n w.raw = .ok b → Ran w0 h1 h2 (w.wrap b)
  | new {h1 h2 : List (StreamOp × StreamOut)} {w : Handed} {b : Buf} (op : StreamOp) :
      Ran w0 h1 h2 w → w.new = some b → Ran w0 h1 (h2 ++ [(op, (w.callNew b op).1)]) (w.callNew b op).2

end Handed

end Verif
