import Verif.Spec.WinAppendTexts
import Verif.Spec.TextLocks

/-!
# Critical sections with text streams in append mode on windows: files that are cut
-/

set_option autoImplicit false

namespace Verif.Spec

open Verif
open Verif.Txt (Op Out)

variable {C : Codec}

/-- What may happen after the history `tr`, as `LogProper`; files are not synchronised. -/
def WinCutProper (tr : TextTrace C) : TextItem C → Prop
  | .opened i t => (∀ x ∈ tr, TextItem.stream x.1 ≠ some i) ∧ ∃ nl ls k raw, Props.WinTextLogOpened C nl ls k raw t
  | .did i op => i ∈ lockers tr ∧ PlainCall op ∧ SinkCall .random op ∧ ∀ a m f, op ≠ .sync a m f
  | it => LogProper tr it

/-- A history, and the state after it. -/
inductive WinCutRun (guess : Nat × Nat → Nat → Nat) (d : Bytes) : TextTrace C → TextTogether C → Prop
  | start : WinCutRun guess d [] ⟨d, fun _ => none⟩
  | item {tr : TextTrace C} {w : TextTogether C} {it : TextItem C} :
      WinCutRun guess d tr w → WinCutProper tr it → WinCutRun guess d (tr ++ [(it, (w.step guess it).1)]) (w.step guess it).2

/-- As `WinCutProper`, without the condition that nobody else holds the lock. -/
def WinCutRules : TextRule C := fun tr _ it =>
  match it with
  | .granted i => lastCall tr i = some (.ask i, .done)
  | it => WinCutProper tr it

/-- `truncate` to a larger size. -/
def TextPool.Stretches (s : TextPool) : TextItem C → Prop
  | .did i (.truncate n) => ∃ v, s.pens i = some v ∧ (s.data.length : Int) < n.getD v.pos
  | _ => False

end Verif.Spec
