import Verif.Spec.TextSink

/-!
# A file to which texts are appended
-/

set_option autoImplicit false

namespace Verif.Spec

open Verif.Txt (Op Out)

/-- What a call may return and do: as `SinkAllowed`, except that a text is encoded for the end of the file, and stored there; the
position moves behind it. -/
def AppendTextAllowed (C : Codec) (translate : Text → Text) (k : BufKind) (f : Sink) (op : Op) (out : Out) (f' : Sink) : Prop :=
  match op with
  | .write s =>
    match encoded C f.data.length (translate s) with
    | .error e => out = .error e ∧ f' = f
    | .ok b => out = .num s.length ∧
        f' = { f with data := f.data ++ b, pos := if b = [] then f.pos else f.data.length + b.length }
  | op => SinkAllowed C translate k f op out f'

/-- A history of calls with their results. -/
inductive AppendTextConforms (C : Codec) (translate : Text → Text) (k : BufKind) : Sink → List (Op × Out) → Sink → Prop
  | nil (f : Sink) : AppendTextConforms C translate k f [] f
  | cons {f f' f'' : Sink} {op : Op} {out : Out} {rest : List (Op × Out)} :
      AppendTextAllowed C translate k f op out f' → AppendTextConforms C translate k f' rest f'' →
      AppendTextConforms C translate k f ((op, out) :: rest) f''

/-- The calls that the code gets wrong: with an encoding that begins files with a mark, writing at the start of a file that has
content, or behind the start of an empty one. -/
def AppendTextUnsafe (C : Codec) (f : Sink) (op : Op) : Prop :=
  (∃ s, op = .write s) ∧ C.encInit ≠ C.encMid ∧ ¬ (f.pos = 0 ↔ f.data = [])

end Verif.Spec
