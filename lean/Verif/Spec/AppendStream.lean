import Verif.Spec.Stream

/-!
# A file in append mode

As `Spec.Stream`, except that everything is written at the end of the file.
-/

set_option autoImplicit false

namespace Verif.Spec

/-- The reference state.  `late` says that bytes were written while the position was not the end of the file, and that no call since
then had a reason to store them: it is needed to describe what the code gets wrong. -/
structure AppendFile where
  file : File
  late : Bool

/-- Calls that do not store what was written before. -/
def Idles (k : BufKind) : StreamOp → Prop
  | .tell => True
  | .readline n => k = .writer ∨ n = 0
  | .read _ | .read1 _ | .peek _ => k = .writer
  | _ => False

/-- What a call may return and do: data go to the end of the file, and so does the position. -/
def AppendAllowed (k : BufKind) (f : AppendFile) (op : StreamOp) (out : StreamOut) (f' : AppendFile) : Prop :=
  match op with
  | .write d => out = .num d.length ∧
      (d = [] → f' = ⟨{ f.file with ahead := false }, f.late⟩) ∧
      (d ≠ [] → f'.file = { f.file with data := f.file.data ++ d, pos := f.file.data.length + d.length, ahead := false } ∧
        (f'.late = true ↔ f.late = true ∨ f.file.pos ≠ f.file.data.length))
  | op => Allowed k f.file op out f'.file ∧ (f'.late = true ↔ f.late = true ∧ Idles k op)

/-- A history of calls with their results. -/
inductive AppendConforms (k : BufKind) : AppendFile → List (StreamOp × StreamOut) → AppendFile → Prop
  | nil (f : AppendFile) : AppendConforms k f [] f
  | cons {f f' f'' : AppendFile} {op : StreamOp} {out : StreamOut} {rest : List (StreamOp × StreamOut)} :
      AppendAllowed k f op out f' → AppendConforms k f' rest f'' → AppendConforms k f ((op, out) :: rest) f''

/-- The calls that the code gets wrong: those of `Unsafe`, and asking for the position, or cutting the file there, while there are
late bytes. -/
def AppendUnsafe (k : BufKind) (f : AppendFile) (op : StreamOp) : Prop :=
  Unsafe k f.file op ∨ f.late = true ∧ (op = .tell ∨ k = .random ∧ op = .truncate none)

end Verif.Spec
