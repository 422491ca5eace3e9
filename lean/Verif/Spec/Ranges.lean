/-!
# Byte ranges, as sets of bytes

The vocabulary used to state locking properties.  Independent of the model.
-/

namespace Verif.Spec

/-- Byte `b` belongs to the range that begins at `start` and ends before `stop` (`none`: infinite). -/
def Covers (start : Int) (stop : Option Int) (b : Int) : Prop :=
  start ≤ b ∧ ∀ e, stop = some e → b < e

/-- Two ranges share a byte. -/
def Meet (s₁ : Int) (e₁ : Option Int) (s₂ : Int) (e₂ : Option Int) : Prop :=
  ∃ b, Covers s₁ e₁ b ∧ Covers s₂ e₂ b

/-- The end denoted by a `length` argument: `None` and `0` mean "until the end of times". -/
def EndOf (start : Int) (length : Option Int) (stop : Option Int) : Prop :=
  ((length = none ∨ length = some 0) ∧ stop = none) ∨
  (∃ l, length = some l ∧ l ≠ 0 ∧ stop = some (start + l))

end Verif.Spec
