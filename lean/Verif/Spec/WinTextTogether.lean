import Verif.Spec.TextTogether
import Verif.Props.Ported

/-!
# Critical sections with text streams on windows

As in `Spec.TextTogether`, with the streams of windows, whose locks are mandatory: the system refuses transfers of bytes that another
handle has locked.
-/

set_option autoImplicit false

namespace Verif.Spec

open Verif
open Verif.Txt (Op Out)

variable {C : Codec}

/-- The stream while the system refuses to transfer bytes (`ERROR_LOCK_VIOLATION`, 33). -/
def refused (t : Txt C) : Txt C := { t with buf := { t.buf with raw := { t.buf.raw with sched := [.fail 33] } } }

/-- Stream `i` can prepare for the lock although the file is locked by another: this needs no transfer. -/
def Prepares (guess : Nat × Nat → Nat → Nat) (w : TextTogether C) (i : Sid) : Prop :=
  ∀ t, w.txts i = some t → (TextTogether.prepare guess (refused t)).1 = .ok ()

/-- What may happen after the history `tr`, as `TextProper`; files are not truncated, nor synchronised. -/
def WinTextProper (tr : TextTrace C) : TextItem C → Prop
  | .opened i t => (∀ x ∈ tr, TextItem.stream x.1 ≠ some i) ∧ ∃ nl ls raw, Props.WinWriterOpened C nl ls .random raw t
  | .did i op => i ∈ lockers tr ∧ PlainCall op ∧ (∀ a, op ≠ .truncate a) ∧ ∀ a m f, op ≠ .sync a m f
  | it => TextProper tr it

/-- A history, and the state after it.  A stream asks for the lock while another holds it only if this needs no transfer. -/
inductive WinTextHistory (guess : Nat × Nat → Nat → Nat) (d : Bytes) : TextTrace C → TextTogether C → Prop
  | start : WinTextHistory guess d [] ⟨d, fun _ => none⟩
  | item {tr : TextTrace C} {w : TextTogether C} {it : TextItem C} :
      WinTextHistory guess d tr w → WinTextProper tr it → (∀ i, it = .ask i → lockers tr ≠ [] → Prepares guess w i) →
      WinTextHistory guess d (tr ++ [(it, (w.step guess it).1)]) (w.step guess it).2

end Verif.Spec
