import Verif.Model.Text

/-!
# Methods that are forwarded to an inner stream

`_buffer_forwarder_mixin.__getattr__` (`rsfile_streams.py:69-74`) looks up a name that the buffered stream does not have
on the raw stream; `_text_forwarder_mixin.__getattr__` (`rsfile_streams.py:110-115`) looks up a name that the text stream does
not have on the buffered stream.  What they return is the bound method of the inner stream: it knows nothing of the buffers
of the outer one.

`readall` is defined by `RSFileIO` (`rsfileio_abstract.py:354-370`), not by the buffered classes of `_pyio`
(`_pyio:658-870,1014-1317,1392-1464`) and not by `TextIOWrapper` or its bases (`_pyio:312-593,1814-1879,1966-2641`).
`read1` and `peek` are defined by the buffered classes, not by `TextIOWrapper` (`readinto` is rejected: `Txt.readinto`).
`readinto1` is forwarded like `read1`.
-/

set_option autoImplicit false

namespace Verif

namespace Buf

/-- `buffered.readall()`: the method of the raw stream, `rsfile_streams.py:69-74`, `rsfileio_abstract.py:354-370`. -/
def readall : PyM Buf (Option Bytes) := onRaw Raw.readall

/-- A call on a buffered stream: of one of its own methods, or of `readall`. -/
inductive Call where
  | own (op : StreamOp)
  | readall

/-- One call. -/
def call (b : Buf) : Call → StreamOut × Buf
  | .own op => b.step op
  | .readall => (.ofOption b.readall.1, b.readall.2)

/-- A history of calls. -/
def calls (b : Buf) : List Call → List StreamOut × Buf
  | [] => ([], b)
  | c :: cs => ((b.call c).1 :: ((b.call c).2.calls cs).1, ((b.call c).2.calls cs).2)

end Buf

namespace Txt

variable {C : Codec}

/-- `text.read1(n)`: the method of the buffered stream, `rsfile_streams.py:110-115`. -/
def read1 (n : Int) : PyM (Txt C) (Option Bytes) := onBuf (Buf.read1 n)

/-- `text.peek(n)`: the method of the buffered stream, `rsfile_streams.py:110-115`. -/
def peek (n : Int) : PyM (Txt C) Bytes := onBuf (Buf.peek n)

/-- `text.readall()`: forwarded twice, to the raw stream, `rsfile_streams.py:69-74,110-115`. -/
def readall : PyM (Txt C) (Option Bytes) := onBuf Buf.readall

end Txt

end Verif
