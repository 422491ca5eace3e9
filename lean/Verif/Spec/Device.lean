import Verif.Model.RawIO

/-!
# What a crash leaves

The system keeps the content of a file in memory and stores it on the device when it likes, in any order and in parts,
at the latest when it is asked to.
-/

namespace Verif.Spec

/-- What may be on the device. -/
structure Device where
  /-- contents of which parts may be there for ever, because writing a later content failed -/
  lost : List Bytes
  /-- all contents since the last successful flush, beginning with the one at that time; the last one is the current one -/
  recent : List Bytes

namespace Device

/-- `flushed`: the current content is on the device, but for the parts that the system has given up.
`writeError`: the system has given up everything that it had not stored yet, for example Linux marks the pages clean,
and the next `fsync` reports no error (`fsync(2)`: "a subsequent fsync() may return success without the data having been
written"). -/
def step (d : Device) : DiskEv → Device
  | .content c => { d with recent := d.recent ++ [c] }
  | .flushed _ => { d with recent := d.recent.getLast?.toList }
  | .writeError => ⟨d.lost ++ d.recent, d.recent.getLast?.toList⟩

def after (d : Device) : List DiskEv → Device
  | [] => d
  | e :: es => (d.step e).after es

/-- After a crash the file may be `c`: its size is the one of some content, and each byte is the one of some content, or
anything if there was a content without that byte. -/
def MayLeave (d : Device) (c : Bytes) : Prop :=
  (∃ v ∈ d.lost ++ d.recent, c.length = v.length) ∧
    ∀ i < c.length, (∃ v ∈ d.lost ++ d.recent, v[i]? = c[i]?) ∨ ∃ v ∈ d.lost ++ d.recent, v.length ≤ i

/-- The system has `c` in memory, and never failed to store something. -/
def Sound (d : Device) (c : Bytes) : Prop := d.lost = [] ∧ d.recent.getLast? = some c

end Device

end Verif.Spec
