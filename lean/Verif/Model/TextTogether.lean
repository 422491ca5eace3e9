import Verif.Model.Together
import Verif.Model.Text

/-!
# Several text streams on one file

As `Together`, with the text layer on top.  Each stream has its own decoder, encoder, buffers, descriptor and position; the content
of the file is common.  One item of a history is one call, except that `lock_file` (`rsfile_streams.py:95-97`, and `51-53` for the
buffered stream below) is two: both layers reset their buffers when it is called, and the lock is granted later, while other streams
may act in between.  `unlock_file` (`rsfile_streams.py:99-101`) is one item: the buffers are reset while the lock is still held; if
that fails, the lock is not released.

All streams have the same codec; their treatment of newlines may differ.  Nothing here prevents two streams from holding conflicting
locks: that is the subject of `System`.
-/

set_option autoImplicit false

namespace Verif

inductive TextItem (C : Codec) where
  /-- a stream is opened -/
  | opened (i : Sid) (t : Txt C)
  /-- `lock_file` is called: `rsfile_streams.py:96` and `rsfile_streams.py:52` -/
  | ask (i : Sid)
  /-- `lock_file` of the raw stream returns: `rsfile_streams.py:53` -/
  | granted (i : Sid)
  /-- another method -/
  | did (i : Sid) (op : Txt.Op)
  /-- `unlock_file` -/
  | unlock (i : Sid)
  /-- the end of `with f.lock_file():`, see `Buf.exitLock` -/
  | exit (i : Sid)
  /-- `close` -/
  | close (i : Sid)
  /-- the process ends -/
  | gone (pid : Nat)

structure TextTogether (C : Codec) where
  file : Bytes
  txts : Sid → Option (Txt C)

namespace TextTogether

variable {C : Codec}

/-- Stream `t` sees the present content of the file. -/
def load (t : Txt C) (d : Bytes) : Txt C := { t with buf := Together.load t.buf d }

/-- Stream `i` is now `t`. -/
def keep (w : TextTogether C) (i : Sid) (t : Txt C) : TextTogether C := ⟨t.buf.raw.data, fun j => if j = i then some t else w.txts j⟩

/-- A method of stream `i` is called.  There is no object to call it on if the stream is not open. -/
def on (w : TextTogether C) (i : Sid) (m : Txt C → Txt.Out × Txt C) : Txt.Out × TextTogether C :=
  match w.txts i with
  | none => (.error .attributeError, w)
  | some t => ((m (load t w.file)).1, w.keep i (m (load t w.file)).2)

/-- The first part of `lock_file`: the text stream resets its buffers, `rsfile_streams.py:96`, and calls `lock_file` of the buffered
stream, which does the same, `rsfile_streams.py:52`. -/
def prepare (guess : Nat × Nat → Nat → Nat) : PyM (Txt C) Unit := do
  Txt.resetBuffers guess
  Txt.onBuf Buf.resetBuffers

/-- One item: the result of the call and the new state. -/
def step (guess : Nat × Nat → Nat → Nat) (w : TextTogether C) : TextItem C → Txt.Out × TextTogether C
  | .opened i t => (.done, { w with txts := fun j => if j = i then some t else w.txts j })
  | .ask i => w.on i (fun t => Txt.Out.of (fun _ => .done) (prepare guess t))
  | .granted i => w.on i (fun t => Txt.Out.of (fun _ => .done) (Txt.onBuf (Buf.onRaw (Raw.lockFile t.buf.raw.data)) t))
  | .did i op => w.on i (fun t => t.step guess op)
  | .unlock i => w.on i (fun t => t.step guess .unlock)
  | .exit i => w.on i (fun t => Txt.Out.of (fun _ => .done) (Txt.onBuf Buf.exitLock t))
  | .close i =>
    match w.on i (fun t => t.step guess .close) with
    | (out, w') => (out, { w' with txts := fun j => if j = i then none else w'.txts j })
  | .gone p => (.done, { w with txts := fun j => if j.1 = p then none else w.txts j })

end TextTogether

end Verif
