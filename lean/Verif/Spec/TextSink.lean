import Verif.Model.Text
import Verif.Spec.Stream

/-!
# A file to which texts are written

The reference behaviour of a text stream that is not read: no encoder, no buffers, no system calls.
-/

set_option autoImplicit false

namespace Verif.Spec

open Verif.Txt (Op Out Cookie Movement)

/-- The laws of an incremental encoder whose state says only whether something was written before (a byte order mark, if the
encoding has one), and that encodes a text like its parts.  Encodings with shift sequences do not satisfy them. -/
structure LawfulEncoder (C : Codec) : Prop where
  state : ∀ e s b e', e = C.encInit ∨ e = C.encMid → C.encode e s = .ok (b, e') →
    (b = [] ∧ e' = e) ∨ (b ≠ [] ∧ e' = C.encMid)
  append : ∀ e s s', e = C.encInit ∨ e = C.encMid → C.encode e (s ++ s') =
    match C.encode e s with
    | .error x => .error x
    | .ok (b, e1) =>
      match C.encode e1 s' with
      | .error x => .error x
      | .ok (b', e2) => .ok (b ++ b', e2)

/-- The content of the file, the offset of the stream in it, and what other processes can observe. -/
structure Sink where
  data : Bytes
  pos : Nat
  log : List RawEv

/-- The bytes that stand for a text at an offset. -/
def encoded (C : Codec) (pos : Nat) (s : Text) : Except Exn Bytes :=
  (C.encode (if pos = 0 then C.encInit else C.encMid) s).map Prod.fst

/-- The position `p`. -/
def offset (p : Nat) : Cookie := ⟨p, 0, 0, false, 0⟩

/-- What a call may return and do; `translate` replaces the newlines, `k` is the class of the buffered stream. -/
def SinkAllowed (C : Codec) (translate : Text → Text) (k : BufKind) (f : Sink) : Op → Out → Sink → Prop
  | .write s, out, f' =>
    match encoded C f.pos (translate s) with
    | .error e => out = .error e ∧ f' = f
    | .ok b => out = .num s.length ∧ f' = { f with data := put f.data f.pos b, pos := f.pos + b.length }
  | .flush, out, f' => out = .done ∧ f' = f
  | .sync _ _ _, out, f' => out = .done ∧ f' = f
  | .tell, out, f' => out = .cookie (offset f.pos) ∧ f' = f
  | .seek (.to (some c)), out, f' => c = offset c.position ∧ out = .cookie c ∧ f' = { f with pos := c.position }
  | .seek (.to none), out, f' => out = .error .valueError ∧ f' = f
  | .seek .here, out, f' => out = .cookie (offset f.pos) ∧ f' = f
  | .seek .toEnd, out, f' => out = .cookie (offset f.data.length) ∧ f' = { f with pos := f.data.length }
  | .seek .relative, out, f' => out = .error .unsupported ∧ f' = f
  | .seek .badWhence, out, f' => out = .error .valueError ∧ f' = f
  | .truncate none, out, f' => out = .num f.pos ∧ f' = { f with data := resizeTo f.data f.pos }
  | .truncate (some z), out, f' =>
    if z < 0 then out = .error (.ioError 22) ∧ f' = f
    else out = .num z.toNat ∧ f' = { f with data := resizeTo f.data z.toNat }
  | .size, out, f' => out = .num f.data.length ∧ f' = f
  | .lock others, out, f' => out = .done ∧ f' = { f with data := others, log := f.log ++ [.lock others] }
  | .unlock, out, f' => out = .done ∧ f' = { f with log := f.log ++ [.unlock f.data] }
  | .readinto, out, f' => out = .error .badValueType ∧ f' = f
  | .read _, out, f' => k = .writer ∧ out = .error .unsupported ∧ f' = f
  | .readline _, _, _ => False
  | .next, _, _ => False
  | .close, _, _ => False

/-- A history of calls with their results. -/
inductive SinkConforms (C : Codec) (translate : Text → Text) (k : BufKind) : Sink → List (Op × Out) → Sink → Prop
  | nil (f : Sink) : SinkConforms C translate k f [] f
  | cons {f f' f'' : Sink} {op : Op} {out : Out} {rest : List (Op × Out)} :
      SinkAllowed C translate k f op out f' → SinkConforms C translate k f' rest f'' →
      SinkConforms C translate k f ((op, out) :: rest) f''

/-- The calls of the reference: no reads (on a stream that may be read), only plain offsets as positions. -/
def SinkCall (k : BufKind) : Op → Prop
  | .read _ => k = .writer
  | .readline _ | .next | .close => False
  | .seek (.to (some c)) => c = offset c.position
  | _ => True

end Verif.Spec
