import Verif.Model.Text

/-!
# How a stream ends without `close()`: `with` blocks and the garbage collector

No stream class of rsfile has a `__del__` or `__exit__` of its own (the one at `rsfileio_abstract.py:229-242` is inside a
string); the methods of `_pyio.IOBase` are used on all three levels.
-/

set_option autoImplicit false

namespace Verif

/-- The three objects of a text stream. -/
inductive Level where
  | text
  | buffered
  | raw
  deriving DecidableEq, Repr

namespace Txt

variable {C : Codec}

/-- `close` of one of the objects: `_pyio:2169-2174`, `_pyio:812-818,1303-1316`,
`rsfileio_abstract.py:207-227`. -/
def closeLevel : Level → PyM (Txt C) Unit
  | .text => close
  | .buffered => onBuf Buf.close
  | .raw => onBuf (Buf.onRaw Raw.close)

/-- `__del__`, `_pyio:404-418`, of one of the objects: nothing if it is closed, else `close()`.  The interpreter prints an
exception to `stderr` and drops it. -/
def finaliser (l : Level) (t : Txt C) : Txt C := if t.buf.raw.closed then t else (closeLevel l t).2

/-- The interpreter finalises the objects in some order.  Reference counts: the text object first, as it refers to the
buffered one, and so on.  Objects of a cycle: in the order of the collector, which is that of their creation if they are of the
same age, thus the raw object first. -/
def forget (order : List Level) (t : Txt C) : Txt C := order.foldl (fun t l => finaliser l t) t

/-- `with stream: body`: `__enter__`, `__exit__`, `_pyio:482-489`; an exception of `close()` replaces that of the block. -/
def withBlock {α : Type} (body : PyM (Txt C) α) : PyM (Txt C) α := do
  checkClosed
  PyM.tryFinally body close

end Txt

end Verif
