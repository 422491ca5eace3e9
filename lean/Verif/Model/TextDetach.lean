import Verif.Model.Text

/-!
# `detach()` of text streams

`RSTextIOWrapper` inherits `detach` from `_pyio`; its own `__getattr__` (`rsfile_streams.py:111-116`) finds no buffered stream
afterwards.  The buffered stream can be used further, directly and then by one new text stream, which may have another encoding.
-/

set_option autoImplicit false

namespace Verif

/-- The buffered stream, the text stream `old` that had it first, whether it still has it, and the text stream that was made from the
detached buffered stream.  The `buf` of `old` and `new` is not used. -/
structure TextHanded (C D : Codec) where
  buf : Buf
  old : Txt C
  attached : Bool
  new : Option (Txt D)

namespace TextHanded

variable {C D : Codec}

def start (t : Txt C) : TextHanded C D := ⟨t.buf, t, true, none⟩

/-- Methods of an object whose `_buffer` is `None`.  Reading `self.closed` (`_pyio:2176-2178`) or a method of `self.buffer` raises
`AttributeError`, as does `__getattr__`; this is the first thing that all methods do, but for `tell`, which looks at its own flags
first (`_pyio:2319-2324`), `__next__`, which sets one (`_pyio:2536-2538`), and `close`, which then does nothing (`_pyio:2169-2170`). -/
def orphan (t : Txt C) : Txt.Op → Txt.Out × Txt C
  | .close => (.done, t)
  | .next => (.error .attributeError, { t with telling := false })
  | .tell => (.error (if !t.seekable then .unsupported else if !t.telling then .ioError 0 else .attributeError), t)
  | _ => (.error .attributeError, t)

/-- A call of a method of the first stream. -/
def callOld (guess : Nat × Nat → Nat → Nat) (w : TextHanded C D) (op : Txt.Op) : Txt.Out × TextHanded C D :=
  if w.attached then
    let r := ({ w.old with buf := w.buf } : Txt C).step guess op
    (r.1, { w with buf := r.2.buf, old := r.2 })
  else
    let r := orphan w.old op
    (r.1, { w with old := r.2 })

/-- `detach()` of the first stream, `_pyio:2424-2430`. -/
def detach (w : TextHanded C D) : Except Exn Unit × TextHanded C D :=
  if w.attached then
    match Txt.flush { w.old with buf := w.buf } with
    | (.ok _, t) => (.ok (), { w with buf := t.buf, old := t, attached := false })
    | (.error e, t) => (.error e, { w with buf := t.buf, old := t })
  else (.error .valueError, w)

/-- A call of a method of the buffered stream. -/
def callBuf (w : TextHanded C D) (op : StreamOp) : StreamOut × TextHanded C D :=
  let r := w.buf.step op
  (r.1, { w with buf := r.2 })

/-- A new text stream from the detached buffered stream. -/
def wrap (w : TextHanded C D) (t : Txt D) : TextHanded C D := { w with buf := t.buf, new := some t }

/-- A call of a method of the new stream `t`. -/
def callNew (guess : Nat × Nat → Nat → Nat) (w : TextHanded C D) (t : Txt D) (op : Txt.Op) : Txt.Out × TextHanded C D :=
  let r := ({ t with buf := w.buf } : Txt D).step guess op
  (r.1, { w with buf := r.2.buf, new := some r.2 })

/-- The histories: the calls of the first stream while it has the buffered stream, those of the buffered stream after the detach, and
those of the new text stream.  The first stream is used, closed and detached again at any time afterwards. -/
inductive Ran (guess : Nat × Nat → Nat → Nat) (w0 : TextHanded C D) :
    List (Txt.Op × Txt.Out) → List (StreamOp × StreamOut) → List (Txt.Op × Txt.Out) → TextHanded C D → Prop
  | start : Ran guess w0 [] [] [] w0
  | old {h1 h2 : List (Txt.Op × Txt.Out)} {hb : List (StreamOp × StreamOut)} {w : TextHanded C D} (op : Txt.Op) :
      Ran guess w0 h1 hb h2 w → w.attached = true → Ran guess w0 (h1 ++ [(op, (w.callOld guess op).1)]) hb h2 (w.callOld guess op).2
  | detach {h1 h2 : List (Txt.Op × Txt.Out)} {hb : List (StreamOp × StreamOut)} {w : TextHanded C D} :
      Ran guess w0 h1 hb h2 w → Ran guess w0 h1 hb h2 w.detach.2
  | orphan {h1 h2 : List (Txt.Op × Txt.Out)} {hb : List (StreamOp × StreamOut)} {w : TextHanded C D} (op : Txt.Op) :
      Ran guess w0 h1 hb h2 w → w.attached = false → Ran guess w0 h1 hb h2 (w.callOld guess op).2
  | buf {h1 h2 : List (Txt.Op × Txt.Out)} {hb : List (StreamOp × StreamOut)} {w : TextHanded C D} (op : StreamOp) :
      Ran guess w0 h1 hb h2 w → w.attached = false → w.new = none →
        Ran guess w0 h1 (hb ++ [(op, (w.callBuf op).1)]) h2 (w.callBuf op).2
  | wrap {h1 h2 : List (Txt.Op × Txt.Out)} {hb : List (StreamOp × StreamOut)} {w : TextHanded C D} {nl : Newline} {lb : Bool} {ls : Text}
      {t : Txt D} : Ran guess w0 h1 hb h2 w → w.attached = false → w.new = none → Txt.create nl lb ls w.buf = (.ok (), t) →
        Ran guess w0 h1 hb h2 (w.wrap t)
  | new {h1 h2 : List (Txt.Op × Txt.Out)} {hb : List (StreamOp × StreamOut)} {w : TextHanded C D} {t : Txt D} (op : Txt.Op) :
      Ran guess w0 h1 hb h2 w → w.new = some t → Ran guess w0 h1 hb (h2 ++ [(op, (w.callNew guess t op).1)]) (w.callNew guess t op).2

end TextHanded

end Verif
