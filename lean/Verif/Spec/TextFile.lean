import Verif.Model.Text

/-!
# A file as a text with a position

The reference behaviour of a text stream that is read: no decoder, no buffers, no chunks.
-/

set_option autoImplicit false

namespace Verif.Spec

/-- The length of the line terminator at the beginning of a text, or 0, as the documentation of `newline` says. -/
def terminator : Newline → Text → Nat
  | .auto, 10 :: _ => 1
  | .lf, 10 :: _ => 1
  | .cr, 13 :: _ => 1
  | .crlf, 13 :: 10 :: _ => 2
  | .raw, 13 :: 10 :: _ => 2
  | .raw, 13 :: _ => 1
  | .raw, 10 :: _ => 1
  | _, _ => 0

/-- The first line, with its terminator. -/
def firstLine (nl : Newline) : Text → Text
  | [] => []
  | c :: cs =>
    if terminator nl (c :: cs) = 0 then c :: firstLine nl cs else (c :: cs).take (terminator nl (c :: cs))

/-- The text cut at a size; a negative size is no limit. -/
def limit (size : Int) (s : Text) : Text := if size < 0 then s else s.take size.toNat

/-- The reference state: the content of the file, the text from the position to the end, and the positions that `tell`
and `seek` have found, each with the text from there to the end.  `iterating` says that the last `next` returned a line; `sought`
that the last movement was to a position with characters to skip: it is needed to describe what the code gets wrong. -/
structure TextFile where
  data : Bytes
  rest : Text
  marks : List (Txt.Cookie × Text)
  iterating : Bool
  sought : Bool
  log : List RawEv

namespace TextFile

/-- The state after a movement to `c`, where the text is `r`. -/
def moved (f : TextFile) (c : Txt.Cookie) (r : Text) : TextFile :=
  { f with rest := r, marks := (c, r) :: f.marks, iterating := false, sought := decide (c.skip ≠ 0) }

/-- `f.seek(0, SEEK_CUR)`, and what follows it: disabled by an iteration; it may fail after a seek. -/
def Here (f : TextFile) (done : Txt.Cookie → Txt.Out) (out : Txt.Out) (f' : TextFile) (log : List RawEv) : Prop :=
  if f.iterating then out = .error (.ioError 0) ∧ f' = f
  else (∃ c, out = done c ∧ f' = { f.moved c f.rest with log := f.log ++ log }) ∨
    (f.sought = true ∧ out = .error .assertionError ∧ f' = f)

end TextFile

/-- What a call may return and do. -/
def TextAllowed (nl : Newline) (f : TextFile) : Txt.Op → Txt.Out → TextFile → Prop
  | .read n, out, f' =>
    out = .text (limit (n.getD (-1)) f.rest) ∧ f' = { f with rest := f.rest.drop (limit (n.getD (-1)) f.rest).length }
  | .readline n, out, f' =>
    out = .text (limit n (firstLine nl f.rest)) ∧
      f' = { f with rest := f.rest.drop (limit n (firstLine nl f.rest)).length }
  | .next, out, f' =>
    out = .text (firstLine nl f.rest) ∧
      f' = { f with rest := f.rest.drop (firstLine nl f.rest).length, iterating := decide (f.rest ≠ []) }
  | .tell, out, f' =>
    if f.iterating then out = .error (.ioError 0) ∧ f' = f
    else (∃ c, out = .cookie c ∧ f' = { f with marks := (c, f.rest) :: f.marks }) ∨
      (f.sought = true ∧ out = .error .assertionError ∧ f' = f)
  | .seek (.to (some c)), out, f' => ∃ r, (c, r) ∈ f.marks ∧ out = .cookie c ∧ f' = f.moved c r
  | .seek .here, out, f' => f.Here .cookie out f' []
  | .seek .toEnd, out, f' =>
    out = .cookie ⟨f.data.length, 0, 0, false, 0⟩ ∧ f' = f.moved ⟨f.data.length, 0, 0, false, 0⟩ []
  | .seek .relative, out, f' => out = .error .unsupported ∧ f' = f
  | .seek _, out, f' => out = .error .valueError ∧ f' = f
  | .flush, out, f' => out = .done ∧ f' = f
  | .size, out, f' => out = .num f.data.length ∧ f' = f
  | .lock others, out, f' => f.Here (fun _ => .done) out f' [.lock others]
  | .unlock, out, f' => f.Here (fun _ => .done) out f' [.unlock f.data]
  | .readinto, out, f' => out = .error .badValueType ∧ f' = f
  | _, _, _ => False

/-- The calls that are considered: those that do not write.  `flush` and `size` are excluded inside an iteration; a
position must come from `tell` or `seek`; nobody else changes the file. -/
def TextCall (f : TextFile) : Txt.Op → Prop
  | .write _ => False
  | .truncate _ => False
  | .sync _ _ _ => False
  | .close => False
  | .flush => f.iterating = false
  | .size => f.iterating = false
  | .seek (.to (some c)) => ∃ r, (c, r) ∈ f.marks
  | .lock others => others = f.data
  | _ => True

/-- A history of calls with their results. -/
inductive TextConforms (nl : Newline) : TextFile → List (Txt.Op × Txt.Out) → TextFile → Prop
  | nil (f : TextFile) : TextConforms nl f [] f
  | cons {f f' f'' : TextFile} {op : Txt.Op} {out : Txt.Out} {rest : List (Txt.Op × Txt.Out)} :
      TextAllowed nl f op out f' → TextConforms nl f' rest f'' → TextConforms nl f ((op, out) :: rest) f''

end Verif.Spec
