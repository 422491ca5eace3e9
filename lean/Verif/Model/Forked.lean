import Verif.Model.Buffered

/-!
# A stream that processes have inherited through `fork`

`rsopen` wraps an inheritable stream with a mutex of `multiprocessing` (`rsfile_factories.py:237-238`,
`rsfile_streams.py:162-172`), for processes that inherit the stream through `fork` (`rsfile_factories.py:79-81`).  They share the
open file of the system, with its position; each has its own copy of the buffers.  Calls are atomic here, as `Wrapper` proves
for calls under the mutex; closing, which ends a process' use of its own copy, is not modelled, nor are the locks (`System`).
-/

set_option autoImplicit false

namespace Verif

/-- The open file, and the stream object of each process; the `raw` of these is not used but for its constants. -/
structure Family where
  raw : Raw
  proc : Nat → Option Buf

deriving instance DecidableEq for StreamOp

namespace Family

/-- The process that has opened the stream. -/
def start (b : Buf) : Family := ⟨b.raw, fun i => if i = 0 then some b else none⟩

/-- Process `i`, whose stream object is `b`, calls a method. -/
def call (w : Family) (i : Nat) (b : Buf) (op : StreamOp) : StreamOut × Family :=
  let r := ({ b with raw := w.raw } : Buf).step op
  (r.1, ⟨r.2.raw, fun j => if j = i then some r.2 else w.proc j⟩)

/-- Process `i`, whose stream object is `b`, makes the process `j`. -/
def fork (w : Family) (b : Buf) (j : Nat) : Family := ⟨w.raw, fun k => if k = j then some b else w.proc k⟩

/-- The histories of calls: the process, the call and its result. -/
inductive Ran (w0 : Family) : List (Nat × StreamOp × StreamOut) → Family → Prop
  | start : Ran w0 [] w0
  | call {h : List (Nat × StreamOp × StreamOut)} {w : Family} {i : Nat} {b : Buf} (op : StreamOp) :
      Ran w0 h w → w.proc i = some b → Ran w0 (h ++ [(i, op, (w.call i b op).1)]) (w.call i b op).2
  | fork {h : List (Nat × StreamOp × StreamOut)} {w : Family} {i j : Nat} {b : Buf} :
      Ran w0 h w → w.proc i = some b → w.proc j = none → Ran w0 h (w.fork b j)

end Family

end Verif
