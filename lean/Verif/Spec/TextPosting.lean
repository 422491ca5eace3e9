import Verif.Model.Text
import Verif.Spec.TextSink

/-!
# Writing text to a file that may not accept it

What the caller of `write` may conclude from its results: no buffers, no system calls.
-/

set_option autoImplicit false

namespace Verif.Spec

open Verif

/-- A call that writes. -/
inductive TextWriteCall where
  | write (s : Text)
  | flush
  deriving DecidableEq

/-- The text that the caller knows to be accepted: `characters_written` of BlockingIOError "contains the number of
characters written to the stream before it blocked". -/
def acceptedText : TextWriteCall × Except Exn Nat → Text
  | (.write s, .ok n) => s.take n
  | (.write s, .error (.blockingIO n)) => s.take n
  | _ => []

/-- Histories of calls and the bytes that belong to them; `e` is the state of the encoder, `out` replaces the newlines. -/
inductive Accounts (C : Codec) (out : Text → Text) (lineBuffering : Bool) :
    C.Enc → List (TextWriteCall × Except Exn Nat) → Bytes → Prop
  | nil (e : C.Enc) : Accounts C out lineBuffering e [] []
  /-- All of the text is accepted. -/
  | written {e e' : C.Enc} {s : Text} {b x : Bytes} {l : List (TextWriteCall × Except Exn Nat)} :
      C.encode e (out s) = .ok (b, e') → Accounts C out lineBuffering e' l x →
      Accounts C out lineBuffering e ((.write s, .ok s.length) :: l) (b ++ x)
  /-- A part is accepted; it is counted in bytes. -/
  | part {e e' : C.Enc} {s : Text} {b x : Bytes} {n : Nat} {l : List (TextWriteCall × Except Exn Nat)} :
      C.encode e (out s) = .ok (b, e') → n ≤ b.length → Accounts C out lineBuffering e' l x →
      Accounts C out lineBuffering e ((.write s, .error (.blockingIO n)) :: l) (b.take n ++ x)
  /-- All of the text is accepted, but the line cannot be flushed. -/
  | late {e e' : C.Enc} {s : Text} {b x : Bytes} {l : List (TextWriteCall × Except Exn Nat)} :
      lineBuffering = true → (10 ∈ s ∨ 13 ∈ out s) → C.encode e (out s) = .ok (b, e') → Accounts C out lineBuffering e' l x →
      Accounts C out lineBuffering e ((.write s, .error (.blockingIO 0)) :: l) (b ++ x)
  /-- The text cannot be encoded. -/
  | refused {e : C.Enc} {s : Text} {err : Exn} {x : Bytes} {l : List (TextWriteCall × Except Exn Nat)} :
      C.encode e (out s) = .error err → Accounts C out lineBuffering e l x →
      Accounts C out lineBuffering e ((.write s, .error err) :: l) x
  | flushed {e : C.Enc} {x : Bytes} {l : List (TextWriteCall × Except Exn Nat)} :
      Accounts C out lineBuffering e l x → Accounts C out lineBuffering e ((.flush, .ok 0) :: l) x
  | notFlushed {e : C.Enc} {x : Bytes} {l : List (TextWriteCall × Except Exn Nat)} :
      Accounts C out lineBuffering e l x → Accounts C out lineBuffering e ((.flush, .error (.blockingIO 0)) :: l) x

/-- Every character is one byte, whatever comes before. -/
structure SingleBytes (C : Codec) : Prop where
  empty : ∀ e, ∃ e', C.encode e [] = .ok ([], e')
  size : ∀ e s b e', C.encode e s = .ok (b, e') → b.length = s.length
  part : ∀ e s b e', C.encode e s = .ok (b, e') → ∀ e0 n, ∃ e1, C.encode e0 (s.take n) = .ok (b.take n, e1)
  errors : ∀ e s x, C.encode e s = .error x → ∀ n, x ≠ .blockingIO n

end Verif.Spec
