import Verif.Spec.TextTogether
import Verif.Spec.AppendText
import Verif.Props.AppendText

/-!
# Critical sections with text streams in append mode

Which histories are considered, and the reference: one byte array, and for each stream its position, its newlines and its class.
-/

set_option autoImplicit false

namespace Verif.Spec

open Verif
open Verif.Txt (Op Out)

variable {C : Codec}

/-! ## Histories -/

/-- What may happen after the history `tr`: a stream is opened in append mode, under a new name; it is used, but not read, while it
holds the lock; the lock is exclusive.  A `with` block ends with a `flush`.  A process does not end in a critical section. -/
def LogProper (tr : TextTrace C) : TextItem C → Prop
  | .opened i t => (∀ x ∈ tr, TextItem.stream x.1 ≠ some i) ∧ ∃ nl ls k raw, Props.TextLogOpened C nl ls k raw t
  | .ask i => i ∉ lockers tr
  | .granted i => lastCall tr i = some (.ask i, .done) ∧ lockers tr = []
  | .did i op => i ∈ lockers tr ∧ PlainCall op ∧ SinkCall .random op
  | .unlock i => i ∈ lockers tr
  | .exit i => i ∈ lockers tr ∧ lastCall tr i = some (.did i .flush, .done)
  | .close _ => True
  | .gone p => ∀ i ∈ lockers tr, i.1 ≠ p

/-- A history, and the state after it; the file has the content `d` at the beginning, when no stream is open. -/
inductive LogHistory (guess : Nat × Nat → Nat → Nat) (d : Bytes) : TextTrace C → TextTogether C → Prop
  | start : LogHistory guess d [] ⟨d, fun _ => none⟩
  | item {tr : TextTrace C} {w : TextTogether C} {it : TextItem C} :
      LogHistory guess d tr w → LogProper tr it → LogHistory guess d (tr ++ [(it, (w.step guess it).1)]) (w.step guess it).2

/-! ## The reference -/

/-- An open stream: its position, its newlines and its class. -/
structure Pen where
  pos : Nat
  ends : Text → Text
  kind : BufKind

structure TextPool where
  data : Bytes
  pens : Sid → Option Pen

/-- A call that only takes turns: it returns at once, if there is such a stream. -/
def TextPool.turn (s : TextPool) (i : Sid) : Out := if (s.pens i).isSome then .done else .error .attributeError

/-- What an item may do and return. -/
def TextPool.Step (C : Codec) (s : TextPool) : TextItem C → Out → TextPool → Prop
  | .opened i t, out, s' => out = .done ∧
      s' = ⟨s.data, fun j => if j = i then some ⟨t.buf.raw.pos, Props.outgoing t.linesep t.newline, t.buf.kind⟩ else s.pens j⟩
  | .did i op, out, s' => ∃ v log f, s.pens i = some v ∧ AppendTextAllowed C v.ends v.kind ⟨s.data, v.pos, log⟩ op out f ∧
      s' = ⟨f.data, fun j => if j = i then some { v with pos := f.pos } else s.pens j⟩
  | .ask i, out, s' => out = s.turn i ∧ s' = s
  | .granted i, out, s' => out = s.turn i ∧ s' = s
  | .unlock i, out, s' => out = s.turn i ∧ s' = s
  | .exit i, out, s' => out = s.turn i ∧ s' = s
  | .close i, out, s' => out = s.turn i ∧ s' = ⟨s.data, fun j => if j = i then none else s.pens j⟩
  | .gone p, out, s' => out = .done ∧ s' = ⟨s.data, fun j => if j.1 = p then none else s.pens j⟩

/-- The history is one of the array. -/
inductive TextPooled (C : Codec) : TextPool → TextTrace C → TextPool → Prop
  | nil (s : TextPool) : TextPooled C s [] s
  | snoc {s s' s'' : TextPool} {tr : TextTrace C} {it : TextItem C} {out : Out} :
      TextPooled C s tr s' → s'.Step C it out s'' → TextPooled C s (tr ++ [(it, out)]) s''

/-- The calls that the code gets wrong, see `AppendTextUnsafe`. -/
def TextPool.Unsafe (C : Codec) (s : TextPool) : TextItem C → Prop
  | .did i op => ∃ v, s.pens i = some v ∧ AppendTextUnsafe C ⟨s.data, v.pos, []⟩ op
  | _ => False

/-- The array at the beginning, when no stream is open. -/
def TextPool.start (d : Bytes) : TextPool := ⟨d, fun _ => none⟩

end Verif.Spec
