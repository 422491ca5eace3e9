import Verif.Spec.AppendTogether

/-!
# Reading a log while others write to it
-/

set_option autoImplicit false

namespace Verif.Spec

open Verif

/-- What programs do with a log: they open it to append to it or to read it; write, flush, ask for its size or
for their position, read and move. -/
def Follows : Item → Prop
  | .opened _ b => (b.raw.append = true ∧ b.kind = .writer) ∨ b.kind = .reader
  | .did _ (.truncate _) | .did _ (.lock _) | .did _ .unlock => False
  | _ => True

/-- Only readers are asked for their position.  (See `C123_refuted` for the others.) -/
def ReadersTell (h : List Item) : Prop := ∀ i b, Item.did i .tell ∈ h → Item.opened i b ∈ h → b.kind = .reader

/-- Where a stream was opened or moved to, and what it has read since then. -/
structure Follower where
  start : Nat
  got : Bytes

/-- A stream after an item and its result.  (`peek` does not count as reading.) -/
def Follower.next (i : Sid) (c : Follower) : Item × StreamOut → Follower
  | (.opened j b, _) => if j = i then ⟨b.raw.pos, []⟩ else c
  | (.did j (.seek _ _), .num n) => if j = i then ⟨n, []⟩ else c
  | (.did j (.read _), .bytes x) | (.did j (.read1 _), .bytes x) | (.did j (.readline _), .bytes x) =>
    if j = i then ⟨c.start, c.got ++ x⟩ else c
  | _ => c

/-- A stream after a history. -/
def followed (i : Sid) (tr : List (Item × StreamOut)) : Follower := tr.foldl (Follower.next i) ⟨0, []⟩

/-- What a call added to the log: the bytes that `write` accepted. -/
def accepted : Item × StreamOut → Bytes
  | (.did _ (.write x), .num _) => x
  | _ => []

/-- What was added to the log, in the order of the calls. -/
def logEntries (tr : List (Item × StreamOut)) : Bytes := tr.flatMap accepted

/-- A call, and its result, that leaves nothing to read: `read()`, or a call that asked for bytes and got none. -/
def CaughtUp : StreamOp → Bytes → Prop
  | .read none, _ => True
  | .read (some n), x => n = -1 ∨ (n ≠ 0 ∧ x = [])
  | .read1 n, x | .readline n, x => n ≠ 0 ∧ x = []
  | _, _ => False

/-- A call that reads, with a size that is allowed. -/
def Fetches : StreamOp → Prop
  | .read n => ∀ z, n = some z → -1 ≤ z
  | .read1 _ | .readline _ => True
  | _ => False

/-- What a call on a log returns: the number of bytes written, and bytes. -/
def Served (h : List Item) (i : Sid) (op : StreamOp) (out : StreamOut) : Prop :=
  (∀ y, op = .write y → (∀ b, Item.opened i b ∈ h → b.kind = .writer) → out = .num y.length) ∧
    (Fetches op → (∀ b, Item.opened i b ∈ h → b.kind = .reader) → ∃ x, out = .bytes x)

/-- Bytes that do not end in the middle of a line. -/
def EndsLines (x : Bytes) : Prop := x = [] ∨ x.getLast? = some 10

end Verif.Spec
