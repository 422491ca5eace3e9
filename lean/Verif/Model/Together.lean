import Verif.Model.Buffered

/-!
# Several buffered streams on one file

Each stream (named by a process and a number) has its own buffers, descriptor and position; the content of the file is
common.  One item of a history is one call, except that `lock_file` (`rsfile_streams.py:51-53`) is two: the buffers are
reset when it is called, and the lock is granted later, while other streams may act in between.  `unlock_file`
(`rsfile_streams.py:55-57`) is one item: it resets the buffers while the lock is still held.

Nothing here prevents two streams from holding conflicting locks: that is the subject of `System`.
-/

set_option autoImplicit false

namespace Verif

/-- A stream: process, and number in the process. -/
abbrev Sid := Nat × Nat

inductive Item where
  /-- a stream is opened -/
  | opened (i : Sid) (b : Buf)
  /-- `lock_file` is called: `rsfile_streams.py:52` -/
  | ask (i : Sid)
  /-- `lock_file` of the raw stream returns: `rsfile_streams.py:53` -/
  | granted (i : Sid) (shared : Bool)
  /-- another method -/
  | did (i : Sid) (op : StreamOp)
  /-- `unlock_file` -/
  | unlock (i : Sid)
  /-- the end of `with f.lock_file():`, see `Buf.exitLock` -/
  | exit (i : Sid)
  /-- `close` -/
  | close (i : Sid)
  /-- the process ends -/
  | gone (pid : Nat)

structure Together where
  file : Bytes
  bufs : Sid → Option Buf

namespace Together

/-- Stream `b` sees the present content of the file. -/
def load (b : Buf) (d : Bytes) : Buf := { b with raw := { b.raw with data := d } }

/-- Stream `i` is now `b`. -/
def keep (w : Together) (i : Sid) (b : Buf) : Together := ⟨b.raw.data, fun j => if j = i then some b else w.bufs j⟩

/-- A method of stream `i` is called. -/
def on (w : Together) (i : Sid) (m : Buf → StreamOut × Buf) : StreamOut × Together :=
  match w.bufs i with
  | none => (.none, w)
  | some b => ((m (load b w.file)).1, w.keep i (m (load b w.file)).2)

/-- One item: the result of the call and the new state. -/
def step (w : Together) : Item → StreamOut × Together
  | .opened i b => (.done, { w with bufs := fun j => if j = i then some b else w.bufs j })
  | .ask i => w.on i (fun b => (.ofUnit (Buf.resetBuffers b).1, (Buf.resetBuffers b).2))
  | .granted i _ =>
    w.on i (fun b => (.ofUnit (Buf.onRaw (Raw.lockFile b.raw.data) b).1, (Buf.onRaw (Raw.lockFile b.raw.data) b).2))
  | .did i op => w.on i (fun b => b.step op)
  | .unlock i => w.on i (fun b => (.ofUnit (Buf.unlockFile b).1, (Buf.unlockFile b).2))
  | .exit i => w.on i (fun b => (.ofUnit (Buf.exitLock b).1, (Buf.exitLock b).2))
  | .close i =>
    match w.on i (fun b => (.ofUnit (Buf.close b).1, (Buf.close b).2)) with
    | (out, w') => (out, { w' with bufs := fun j => if j = i then none else w'.bufs j })
  | .gone p => (.done, { w with bufs := fun j => if j.1 = p then none else w.bufs j })

/-- A history: the items with their results, and the final state. -/
def play (w : Together) : List Item → List (Item × StreamOut) × Together
  | [] => ([], w)
  | it :: its => ((it, (w.step it).1) :: ((w.step it).2.play its).1, ((w.step it).2.play its).2)

end Together

end Verif
