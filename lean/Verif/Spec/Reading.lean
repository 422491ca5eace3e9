import Verif.Model.Buffered

/-!
# Taking bytes from a stream

What the calls that read may return, whatever the system does: no buffers, no system calls.
-/

set_option autoImplicit false

namespace Verif.Spec

open Verif

/-- A call that reads. -/
inductive ReadCall where
  | read (n : Option Int)
  | read1 (n : Int)
  | peek (n : Int)
  | readline (n : Int)
  | readlines (hint : Option Int)
  deriving DecidableEq

/-- What it returns. -/
inductive Got where
  | bytes (b : Bytes)
  /-- `None` -/
  | nothing
  | lines (l : List Bytes)
  | raised (e : Exn)
  deriving DecidableEq

/-- The bytes the caller has been given by a call and is not to be given again. -/
def taken : ReadCall → Got → Bytes
  | .peek _, _ => []
  | _, .bytes b => b
  | _, .lines l => l.flatten
  | _, _ => []

/-- A call, what it returned, and `rest`, the bytes that were to come when it was made.  The only exception is that for a
negative size other than -1. -/
def Faithful (rest : Bytes) (c : ReadCall) (g : Got) : Prop :=
  taken c g <+: rest ∧
  match c, g with
  | .peek _, .bytes b => b <+: rest
  | .peek _, _ => False
  | .read (some n), .raised e => n < -1 ∧ e = .valueError
  | .readlines _, .bytes _ => False
  | .readlines _, .nothing => False
  | .read _, .lines _ => False
  | .read1 _, .lines _ => False
  | .readline _, .lines _ => False
  | .readline _, .nothing => False
  | _, .raised _ => False
  | _, _ => True

/-- The calls, each with what it returned, take the bytes `rest` from the front, in order, leaving out nothing. -/
def InOrder : Bytes → List (ReadCall × Got) → Prop
  | _, [] => True
  | rest, (c, g) :: l => Faithful rest c g ∧ InOrder (rest.drop (taken c g).length) l

/-- Not more than was asked for. -/
def Fits : ReadCall → Got → Prop
  | .read (some n), .bytes b => 0 ≤ n → (b.length : Int) ≤ n
  | .read1 n, .bytes b => 0 ≤ n → (b.length : Int) ≤ n
  | .readline _, .bytes b => (10 : Byte) ∉ b.dropLast
  | .readlines _, .lines l => ∀ x ∈ l, x ≠ [] ∧ (10 : Byte) ∉ x.dropLast
  | _, _ => True

/-- Not less than was asked for, as far as there is that much; `rest` is what was to come. -/
def Enough (rest : Bytes) : ReadCall → Got → Prop
  | .read none, g => taken (.read none) g = rest
  | .read (some n), g => n < -1 ∨ (0 ≤ n ∧ (taken (.read none) g).length = n) ∨ taken (.read none) g = rest
  | .read1 n, g => n = 0 ∨ taken (.read none) g ≠ [] ∨ rest = []
  | .peek _, g => g ≠ .bytes [] ∨ rest = []
  | .readline n, g => (taken (.read none) g).getLast? = some 10 ∨ (0 ≤ n ∧ n ≤ (taken (.read none) g).length) ∨
      taken (.read none) g = rest
  | .readlines hint, g => (∃ z, hint = some z ∧ 0 < z ∧ z ≤ (taken (.read none) g).length) ∨ taken (.read none) g = rest

/-- The last answer of the system was that there is nothing to read for now or any more. -/
def Stopped (answers : List OsAns) : Prop :=
  ∃ a, answers.getLast? = some a ∧ (a = .again ∨ a = .pipe ∨ a = .count 0)

end Verif.Spec
