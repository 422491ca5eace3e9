import Verif.Spec.Device

/-!
# A device behind a synchronized descriptor

With `O_SYNC` (`open(2)`: "by the time write(2) returns, the output data and associated file metadata have been transferred to the
underlying hardware") or `FILE_FLAG_WRITE_THROUGH`, the bytes of a write and the size of the file are stored when the call returns.
This says nothing about the bytes that others have written, nor about `ftruncate`.
-/

set_option autoImplicit false

namespace Verif.Spec

namespace Device

/-- Everything is stored, and nothing else can be found. -/
def Settled (d : Device) (c : Bytes) : Prop := d.lost = [] ∧ d.recent = [c]

/-- An event of a call that writes, through a synchronized descriptor, to a device that has stored everything that happened before.
A failing `fsync` loses nothing, since there is nothing to be stored. -/
def stepSync (d : Device) : DiskEv → Device
  | .content c => ⟨d.lost, [c]⟩
  | .flushed _ => d
  | .writeError => d

def afterSync (d : Device) : List DiskEv → Device
  | [] => d
  | e :: es => (d.stepSync e).afterSync es

end Device

/-- The course of a stream: for each call, whether it can only write, and the raw stream after it. -/
abbrev Course := List (Bool × Raw)

/-- The device after a course that begins with the raw stream `s`.  What happens in a call that may cut the file, or that waits for
others, is not stored. -/
def deviceAfter (d : Device) (s : Raw) : Course → Device
  | [] => d
  | (plain, s') :: rest =>
    deviceAfter (if plain then d.afterSync (s'.disk.drop s.disk.length) else d.after (s'.disk.drop s.disk.length)) s' rest

end Verif.Spec
