import Verif.Spec.Together

/-!
# Vocabulary of C90: streams that append to one file
-/

set_option autoImplicit false

namespace Verif.Spec

open Verif

/-- A new stream on unix; if it writes, it is in append mode. -/
def AppendStream (b : Buf) : Prop :=
  (∃ k n raw, Buf.create k n raw = .ok b) ∧ b.raw.platform = .unix ∧ (b.kind ≠ .reader → b.raw.append = true)

/-- What programs may do: anything but cut the file.  (`lock_file` is the items `ask` and `granted`.) -/
def AppendItem (h : List Item) : Item → Prop
  | .opened i b => i ∉ openIn h ∧ AppendStream b
  | .did _ (.truncate _) | .did _ (.lock _) => False
  | _ => True

/-- Histories of such programs. -/
inductive AppendHistory : List Item → Prop
  | nil : AppendHistory []
  | snoc {h : List Item} {it : Item} : AppendHistory h → AppendItem h it → AppendHistory (h ++ [it])

/-- What a call reports as accepted.  A `write` that fails with another error than `BlockingIOError` has taken all or
nothing. -/
def Accepts : Item → StreamOut → Bytes → Prop
  | .did _ (.write d), .num n, acc => acc = d ∧ n = d.length
  | .did _ (.write d), .error (.blockingIO k), acc => acc = d.take k ∧ k ≤ d.length
  | .did _ (.write d), .error _, acc => acc = [] ∨ acc = d
  | _, _, acc => acc = []

/-- Calls after which nothing is pending. -/
def HandsOver : Item → StreamOut → Prop
  | .did _ .flush, .done => True
  | .did _ (.seek _ _), .num _ => True
  | .did _ .size, .num _ => True
  | .ask _, .done => True
  | .unlock _, .done => True
  | .did _ .unlock, .done => True
  | _, _ => False

/-- The reference: the pieces that were added to the file, each with its author, and the bytes that an author has handed in
and that are not yet in the file. -/
structure Ledger where
  pieces : List (Sid × Bytes)
  owed : Sid → Bytes

namespace Ledger

/-- Stream `i` takes `acc`, adds the beginning of what it owes to the file, and still owes `rest`. -/
def Adds (s : Ledger) (i : Sid) (acc rest : Bytes) (s' : Ledger) : Prop :=
  (∃ piece, s.owed i ++ acc = piece ++ rest ∧ s'.pieces = s.pieces ++ [(i, piece)]) ∧ ∀ j, j ≠ i → s'.owed j = s.owed j

/-- What an item may do to the reference. -/
def Step (s : Ledger) (it : Item) (out : StreamOut) (s' : Ledger) : Prop :=
  match it with
  | .opened _ _ => s' = s
  | .gone p => s' = ⟨s.pieces, fun j => if j.1 = p then [] else s.owed j⟩
  | .close i => ∃ rest, s.Adds i [] rest s' ∧ s'.owed i = [] ∧ ((∀ e, out ≠ .error e) → rest = [])
  | .ask i | .granted i _ | .did i _ | .unlock i | .exit i =>
    ∃ acc, Accepts it out acc ∧ s.Adds i acc (s'.owed i) s' ∧ (HandsOver it out → s'.owed i = [])

/-- The file. -/
def content (d : Bytes) (s : Ledger) : Bytes := d ++ (s.pieces.map Prod.snd).flatten

/-- What a stream has added. -/
def byAuthor (s : Ledger) (i : Sid) : Bytes := ((s.pieces.filter fun p => p.1 = i).map Prod.snd).flatten

end Ledger

/-- A history agrees with the reference. -/
inductive Booked : List (Item × StreamOut) → Ledger → Prop
  | nil : Booked [] ⟨[], fun _ => []⟩
  | snoc {s s' : Ledger} {tr : List (Item × StreamOut)} {it : Item} {out : StreamOut} :
      Booked tr s → s.Step it out s' → Booked (tr ++ [(it, out)]) s'

/-- All that was accepted from stream `i` in a history. -/
inductive AcceptedFrom (i : Sid) : List (Item × StreamOut) → Bytes → Prop
  | nil : AcceptedFrom i [] []
  | mine {tr : List (Item × StreamOut)} {it : Item} {out : StreamOut} {all acc : Bytes} :
      AcceptedFrom i tr all → streamOf it = some i → Accepts it out acc → AcceptedFrom i (tr ++ [(it, out)]) (all ++ acc)
  | other {tr : List (Item × StreamOut)} {it : Item} {out : StreamOut} {all : Bytes} :
      AcceptedFrom i tr all → streamOf it ≠ some i → AcceptedFrom i (tr ++ [(it, out)]) all

end Verif.Spec
