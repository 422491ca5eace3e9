import Verif.Spec.AppendTexts
import Verif.Spec.WinTextTogether

/-!
# Critical sections with text streams in append mode on windows
-/

set_option autoImplicit false

namespace Verif.Spec

open Verif
open Verif.Txt (Op Out)

variable {C : Codec}

/-- What may happen after the history `tr`, as `LogProper`; files are not truncated, nor synchronised. -/
def WinLogProper (tr : TextTrace C) : TextItem C → Prop
  | .opened i t => (∀ x ∈ tr, TextItem.stream x.1 ≠ some i) ∧ ∃ nl ls k raw, Props.WinTextLogOpened C nl ls k raw t
  | .did i op => i ∈ lockers tr ∧ PlainCall op ∧ SinkCall .random op ∧ (∀ a, op ≠ .truncate a) ∧ ∀ a m f, op ≠ .sync a m f
  | it => LogProper tr it

/-- A history, and the state after it.  A stream asks for the lock while another holds it only if this needs no transfer. -/
inductive WinLogHistory (guess : Nat × Nat → Nat → Nat) (d : Bytes) : TextTrace C → TextTogether C → Prop
  | start : WinLogHistory guess d [] ⟨d, fun _ => none⟩
  | item {tr : TextTrace C} {w : TextTogether C} {it : TextItem C} :
      WinLogHistory guess d tr w → WinLogProper tr it → (∀ i, it = .ask i → lockers tr ≠ [] → Prepares guess w i) →
      WinLogHistory guess d (tr ++ [(it, (w.step guess it).1)]) (w.step guess it).2

/-- The same, without this condition. -/
inductive WinLogRun (guess : Nat × Nat → Nat → Nat) (d : Bytes) : TextTrace C → TextTogether C → Prop
  | start : WinLogRun guess d [] ⟨d, fun _ => none⟩
  | item {tr : TextTrace C} {w : TextTogether C} {it : TextItem C} :
      WinLogRun guess d tr w → WinLogProper tr it → WinLogRun guess d (tr ++ [(it, (w.step guess it).1)]) (w.step guess it).2

end Verif.Spec
