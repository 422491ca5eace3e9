import Verif.Model.LockCall
import Verif.Model.Text

/-!
# Which bytes `lock_file` and `unlock_file` of a buffered or text stream are about

The forwarding methods of `rsfile_streams.py` move the raw file pointer before they call the method of the raw stream,
which resolves offsets that are relative to the position or to the end of the file.
-/

set_option autoImplicit false

namespace Verif

/-- What `lock_file` and `unlock_file` of a raw stream look at: `_inner_tell()` and `_inner_size()`,
`rsfileio_abstract.py:521,523`, `rsfileio_unix.py:231-237`. -/
def Raw.lockView (enforced : Option Num) (s : Raw) : LockView :=
  ⟨s.closed, s.seekable, s.readable, s.writable, s.pos, s.data.length, enforced⟩

/-- `lock_file` of a raw stream up to its loop, `rsfileio_abstract.py:534-565`. -/
def Raw.lockPlan (enforced : Option Num) (timeout length offset whence shared : PyArg) : PyM Raw LockPlan :=
  fun s => (lockArgs (s.lockView enforced) timeout length offset whence shared, s)

/-- `unlock_file` of a raw stream up to its critical section, `rsfileio_abstract.py:640-656`. -/
def Raw.unlockPlan (enforced : Option Num) (length offset whence : PyArg) : PyM Raw (Option Int × Int) :=
  fun s => (unlockArgs (s.lockView enforced) length offset whence, s)

/-- `lock_file` of a buffered stream, likewise, `rsfile_streams.py:51-53`. -/
def Buf.lockPlan (enforced : Option Num) (timeout length offset whence shared : PyArg) : PyM Buf LockPlan := do
  Buf.resetBuffers
  Buf.onRaw (Raw.lockPlan enforced timeout length offset whence shared)

/-- `unlock_file` of a buffered stream, likewise, `rsfile_streams.py:55-57`. -/
def Buf.unlockPlan (enforced : Option Num) (length offset whence : PyArg) : PyM Buf (Option Int × Int) := do
  Buf.resetBuffers
  Buf.onRaw (Raw.unlockPlan enforced length offset whence)

/-- `lock_file` of a text stream, likewise, `rsfile_streams.py:95-97`. -/
def Txt.lockPlan {C : Codec} (guess : Nat × Nat → Nat → Nat) (enforced : Option Num)
    (timeout length offset whence shared : PyArg) : PyM (Txt C) LockPlan := do
  Txt.resetBuffers guess
  Txt.onBuf (Buf.lockPlan enforced timeout length offset whence shared)

end Verif
