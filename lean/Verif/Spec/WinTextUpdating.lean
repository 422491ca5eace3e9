import Verif.Spec.TextUpdating
import Verif.Spec.TextLocks

/-!
# Programs that replace the text of a file, on windows
-/

set_option autoImplicit false

namespace Verif.Spec

open Verif
open Verif.Txt (Op Out)

variable {C : Codec}

/-- What may happen after the history `tr`, as `WinTextProper`; `truncate()` is called, too. -/
def WinEditProper (tr : TextTrace C) : TextItem C → Prop
  | .did i op => i ∈ lockers tr ∧ PlainCall op ∧ (∀ n, op ≠ .truncate (some n)) ∧ ∀ a m f, op ≠ .sync a m f
  | it => WinTextProper tr it

/-- A history, and the state after it, as `WinTextHistory`. -/
inductive WinEditHistory (guess : Nat × Nat → Nat → Nat) (d : Bytes) : TextTrace C → TextTogether C → Prop
  | start : WinEditHistory guess d [] ⟨d, fun _ => none⟩
  | item {tr : TextTrace C} {w : TextTogether C} {it : TextItem C} :
      WinEditHistory guess d tr w → WinEditProper tr it → (∀ i, it = .ask i → lockers tr ≠ [] → Prepares guess w i) →
      WinEditHistory guess d (tr ++ [(it, (w.step guess it).1)]) (w.step guess it).2

/-- A history, and the state after it, as `WinEditHistory`; a stream may ask for the lock while another holds it, whatever this needs. -/
inductive WinEditRun (guess : Nat × Nat → Nat → Nat) (d : Bytes) : TextTrace C → TextTogether C → Prop
  | start : WinEditRun guess d [] ⟨d, fun _ => none⟩
  | item {tr : TextTrace C} {w : TextTogether C} {it : TextItem C} :
      WinEditRun guess d tr w → WinEditProper tr it → WinEditRun guess d (tr ++ [(it, (w.step guess it).1)]) (w.step guess it).2

/-- As `WinEditProper` with the condition of `WinEditHistory`. -/
def WinEditRules (guess : Nat × Nat → Nat → Nat) : TextRule C := fun tr t it =>
  match it with
  | .granted i => lastCall tr i = some (.ask i, .done)
  | .ask i => i ∉ lockers tr ∧ (lockers tr ≠ [] → Prepares guess t i)
  | it => WinEditProper tr it

/-- No stream fails to wait for the lock: `lock_file` of a stream that is open gets as far as the lock itself. -/
def AllWait (tr : TextTrace C) : Prop := ∀ i o, (.ask i, o) ∈ tr → o = .done ∨ o = .error .attributeError

/-- As `WinEditRules`, without the condition. -/
def WinEditOpenRules : TextRule C := fun tr _ it =>
  match it with
  | .granted i => lastCall tr i = some (.ask i, .done)
  | it => WinEditProper tr it

end Verif.Spec
