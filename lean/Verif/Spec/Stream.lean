import Verif.Model.Buffered
import Verif.Spec.Bytes

/-!
# A file as a byte array with a position

The reference behaviour of a stream: no buffers, no system calls.
-/

namespace Verif.Spec

/-- `data` with `buf` stored at `off`; a gap before `off` is filled with zeros. -/
def put (data : Bytes) (off : Nat) (buf : Bytes) : Bytes :=
  if buf = [] then data
  else (List.range (max data.length (off + buf.length))).map fun i =>
    if off ≤ i ∧ i < off + buf.length then buf.getD (i - off) 0 else data.getD i 0

/-- `data` cut, or extended with zeros, to `n` bytes. -/
def resizeTo (data : Bytes) (n : Nat) : Bytes := (List.range n).map fun i => data.getD i 0

/-- The reference state.  `ahead` says that there was a read since the last `seek`, `write`, `lock_file` or
`unlock_file`: it is needed to describe what the code gets wrong.  `log` is what other processes can observe. -/
structure File where
  data : Bytes
  pos : Nat
  ahead : Bool
  log : List RawEv

/-- The bytes from the position to the end. -/
def File.rest (f : File) : Bytes := f.data.drop f.pos

/-- The position `seek` asks for. -/
def File.target (f : File) (offset : Int) : Whence → Int
  | .set => offset
  | .cur => f.pos + offset
  | .fin => f.data.length + offset

/-- `line` is what `readline(size)` may return: a prefix of `rest` with no newline before its end, which stops at a
newline, at the end of the file or when at least `size` bytes (if `size` is not negative) have been read.  (That it has
at most `size` bytes, as the documentation says, is not true: see `C65_size_refuted`.) -/
structure Line (size : Int) (rest line : Bytes) : Prop where
  isPrefix : line <+: rest
  single : (10 : Byte) ∉ line.dropLast
  stop : line.getLast? = some 10 ∨ line = rest ∨ (0 ≤ size ∧ size ≤ line.length)
  bound : 0 < size → (line.length : Int) < 2 * size

/-- The lines of a byte string, each with its newline; only the last one may have none. -/
def linesOf : Bytes → List Bytes
  | [] => []
  | c :: cs =>
    if c = 10 then [c] :: linesOf cs
    else
      match linesOf cs with
      | [] => [[c]]
      | l :: ls => (c :: l) :: ls

/-- What a call may return and do. -/
def Allowed (k : BufKind) (f : File) : StreamOp → StreamOut → File → Prop
  | .read n, out, f' =>
    if k = .writer then out = .error .unsupported ∧ f' = f
    else
      match n with
      | none => out = .bytes f.rest ∧ f' = { f with pos := f.pos + f.rest.length, ahead := true }
      | some z =>
        if z < -1 then out = .error .valueError ∧ f' = f
        else if z = -1 then out = .bytes f.rest ∧ f' = { f with pos := f.pos + f.rest.length, ahead := true }
        else out = .bytes (f.rest.take z.toNat) ∧ f' = { f with pos := f.pos + (f.rest.take z.toNat).length, ahead := true }
  | .read1 n, out, f' =>
    if k = .writer then out = .error .unsupported ∧ f' = f
    else if n = 0 then out = .bytes [] ∧ f' = f
    else ∃ got, got <+: f.rest ∧ (got = [] → f.rest = []) ∧ (0 ≤ n → (got.length : Int) ≤ n) ∧
      out = .bytes got ∧ f' = { f with pos := f.pos + got.length, ahead := true }
  | .peek _, out, f' =>
    if k = .writer then out = .error .attributeError ∧ f' = f
    else ∃ got, got <+: f.rest ∧ (got = [] → f.rest = []) ∧ out = .bytes got ∧ f' = { f with ahead := true }
  | .readline n, out, f' =>
    if n = 0 then out = .bytes [] ∧ f' = f
    else if k = .writer then out = .error .unsupported ∧ f' = f
    else ∃ line, Line n f.rest line ∧ out = .bytes line ∧ f' = { f with pos := f.pos + line.length, ahead := true }
  | .write d, out, f' =>
    if k = .reader then out = .error .unsupported ∧ f' = f
    else out = .num d.length ∧ f' = { f with data := put f.data f.pos d, pos := f.pos + d.length, ahead := false }
  | .seek o w, out, f' =>
    if 0 ≤ f.target o w then out = .num (f.target o w).toNat ∧ f' = { f with pos := (f.target o w).toNat, ahead := false }
    else out = .error (.ioError 22) ∧ f' = f
  | .tell, out, f' => out = .num f.pos ∧ f' = f
  | .flush, out, f' => out = .done ∧ f' = f
  | .truncate n, out, f' =>
    if k = .reader then out = .error .unsupported ∧ f' = f
    else
      match n with
      | none => out = .num f.pos ∧ f' = { f with data := resizeTo f.data f.pos }
      | some z =>
        if z < 0 then out = .error (.ioError 22) ∧ f' = f
        else out = .num z.toNat ∧ f' = { f with data := resizeTo f.data z.toNat }
  | .size, out, f' => out = .num f.data.length ∧ f' = f
  | .lock others, out, f' =>
    out = .done ∧ f' = { f with data := others, ahead := false, log := f.log ++ [.lock others] }
  | .unlock, out, f' => out = .done ∧ f' = { f with ahead := false, log := f.log ++ [.unlock f.data] }

/-- A history of calls with their results. -/
inductive Conforms (k : BufKind) : File → List (StreamOp × StreamOut) → File → Prop
  | nil (f : File) : Conforms k f [] f
  | cons {f f' f'' : File} {op : StreamOp} {out : StreamOut} {rest : List (StreamOp × StreamOut)} :
      Allowed k f op out f' → Conforms k f' rest f'' → Conforms k f ((op, out) :: rest) f''

/-- The calls that the code gets wrong: on a stream opened for reading and writing, after a read, cutting the file and
failing seeks. -/
def Unsafe (k : BufKind) (f : File) : StreamOp → Prop
  | .truncate n => k = .random ∧ f.ahead = true ∧ n.getD f.pos < f.data.length ∧ 0 ≤ n.getD f.pos
  | .seek o w => k = .random ∧ f.ahead = true ∧ f.target o w < 0
  | _ => False

end Verif.Spec
