import Verif.Spec.TextFile
import Verif.Spec.Reading

/-!
# Taking text from a stream

What the calls that read text should return: no decoder, no buffers, no system calls.
-/

set_option autoImplicit false

namespace Verif.Spec

open Verif

/-- A call that reads text. -/
inductive TextReadCall where
  | read (n : Option Int)
  | readline (n : Int)
  | next
  deriving DecidableEq

/-- What the call should return if `rest` is the text to come; `""` is the end of an iteration. -/
def expected (nl : Newline) (rest : Text) : TextReadCall → Text
  | .read none => rest
  | .read (some n) => limit n rest
  | .readline n => limit n (firstLine nl rest)
  | .next => firstLine nl rest

/-- The decoder does not take the end of the input for a part of it: if it accepts the end here, it has nothing left, and
can go on. -/
def Early (C : Codec) : Prop :=
  ∀ (d : C.Dec) (x : Bytes) (s : Text) (d' : C.Dec), C.decode d x true = .ok (s, d') → C.decode d x false = .ok (s, d')

/-- Every input can be decoded, and may end anywhere: the encodings with one byte for each character. -/
def Total (C : Codec) : Prop := ∀ (d : C.Dec) (x : Bytes) (f : Bool), ∃ r, C.decode d x f = .ok r

end Verif.Spec
