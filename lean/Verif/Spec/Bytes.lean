import Verif.Model.RawIO

/-!
# Vocabulary for file contents
-/

namespace Verif.Spec

/-- `new` is `old` with `buf` stored at `off`; a gap between the old end and `off` reads as `fill`. -/
structure Stored (fill : Nat → Byte) (old : Bytes) (off : Nat) (buf new : Bytes) : Prop where
  /-- the bytes stored -/
  written : ∀ i, i < buf.length → new[off + i]? = buf[i]?
  /-- everything else keeps its value -/
  kept : ∀ i, i < old.length → ¬ (off ≤ i ∧ i < off + buf.length) → new[i]? = old[i]?
  /-- the gap -/
  gap : buf ≠ [] → ∀ i, old.length ≤ i → i < off → new[i]? = some (fill i)
  /-- the new size -/
  size : new.length = if buf = [] then old.length else max old.length (off + buf.length)

/-- `new` is `old` cut or extended by zeros to `n` bytes. -/
structure Resized (old : Bytes) (n : Nat) (new : Bytes) : Prop where
  size : new.length = n
  kept : ∀ i, i < min n old.length → new[i]? = old[i]?
  zeros : ∀ i, old.length ≤ i → i < n → new[i]? = some 0

/-- The operating system neither fails nor would block, and transfers at least one byte when it can. -/
def Blocking (sched : List OsAns) : Prop := ∀ a ∈ sched, ∃ k, a = .count k ∧ 1 ≤ k

/-- Like `Blocking`, but the call may also answer that it would block. -/
def NonBlocking (sched : List OsAns) : Prop := ∀ a ∈ sched, a = .again ∨ ∃ k, a = .count k ∧ 1 ≤ k

/-- The operating system transfers everything. -/
def Full (sched : List OsAns) : Prop := sched = []

end Verif.Spec
