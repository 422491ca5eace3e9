import Verif.Model.Together
import Verif.Model.System
import Verif.Spec.Stream

/-!
# One byte array, and a position for each stream

What a history of several streams on one file should look like, and which histories are considered: every stream is used
only while it holds a lock on the file.
-/

set_option autoImplicit false

namespace Verif.Spec

open Verif

/-! ## Which locks are held -/

/-- The locks held after an item. -/
def holdStep (H : List (Sid × Bool)) : Item → List (Sid × Bool)
  | .granted i sh => H ++ [(i, sh)]
  | .unlock i => H.filter (fun h => h.1 ≠ i)
  | .exit i => H.filter (fun h => h.1 ≠ i)
  | .close i => H.filter (fun h => h.1 ≠ i)
  | .gone p => H.filter (fun h => h.1.1 ≠ p)
  | _ => H

/-- The locks held after a history. -/
def holding (its : List Item) : List (Sid × Bool) := its.foldl holdStep []

/-- A lock that is not shared is the only one. -/
def Exclusion (H : List (Sid × Bool)) : Prop := ∀ a ∈ H, ∀ b ∈ H, a.1 ≠ b.1 → a.2 = true ∧ b.2 = true

/-- The streams that are open after an item. -/
def openStep (S : List Sid) : Item → List Sid
  | .opened i _ => S ++ [i]
  | .close i => S.filter (fun j => j ≠ i)
  | .gone p => S.filter (fun j => j.1 ≠ p)
  | _ => S

/-- The streams that are open after a history. -/
def openIn (its : List Item) : List Sid := its.foldl openStep []

/-- The stream an item is about. -/
def streamOf : Item → Option Sid
  | .opened i _ => some i
  | .ask i => some i
  | .granted i _ => some i
  | .did i _ => some i
  | .unlock i => some i
  | .exit i => some i
  | .close i => some i
  | .gone _ => none

/-- The last item about a stream. -/
def lastOf (its : List Item) (i : Sid) : Option Item := its.reverse.find? (fun it => streamOf it = some i)

/-! ## Disciplined programs -/

/-- A call that does not change the file. -/
def Inquires : StreamOp → Prop
  | .read _ => True
  | .read1 _ => True
  | .peek _ => True
  | .readline _ => True
  | .seek _ _ => True
  | .tell => True
  | .flush => True
  | .size => True
  | _ => False

/-- A call that changes the file. -/
def Changes : StreamOp → Prop
  | .write _ => True
  | .truncate _ => True
  | _ => False

/-- A stream that was just opened on a regular file, neither in append mode nor non-blocking. -/
def FreshStream (b : Buf) : Prop :=
  (∃ k n raw, Buf.create k n raw = .ok b) ∧ b.raw.platform = .unix ∧ b.raw.append = false ∧ b.raw.seekable = true ∧
    Blocking b.raw.sched

/-- What a disciplined program may do after the history `h`: it uses a stream only while that stream holds a lock, and
changes the file only while the lock is exclusive.  A `with` block that has changed the file ends with a `flush`. -/
def Proper (h : List Item) : Item → Prop
  | .opened i b => i ∉ openIn h ∧ FreshStream b
  | .ask i => i ∈ openIn h ∧ ∀ sh, (i, sh) ∉ holding h
  | .granted i _ => i ∈ openIn h ∧ lastOf h i = some (.ask i)
  | .did i op => (Inquires op ∧ ∃ sh, (i, sh) ∈ holding h) ∨ (Changes op ∧ (i, false) ∈ holding h)
  | .unlock i => ∃ sh, (i, sh) ∈ holding h
  | .exit i => (i, true) ∈ holding h ∨ ((i, false) ∈ holding h ∧ lastOf h i = some (.did i .flush))
  | .close i => i ∈ openIn h
  | .gone p => ∀ a ∈ holding h, a.1.1 ≠ p

/-- All along a history, the programs are disciplined, and locks exclude each other. -/
inductive Disciplined : List Item → Prop
  | nil : Disciplined []
  | snoc {h : List Item} {it : Item} : Disciplined h → Proper h it → Exclusion (holding (h ++ [it])) → Disciplined (h ++ [it])

/-! ## Where the locks come from -/

/-- The locks of a history are held, on byte 0 of the file `u`, in the system of processes. -/
def HeldIn (u : Uid) (tr : List Event) (H : List (Sid × Bool)) : Prop :=
  ∀ a ∈ H, ∃ x ∈ heldOf tr, x.uid = u ∧ (x.pid, x.sid) = a.1 ∧ x.shared = a.2 ∧ Covers x.start x.stop 0

/-- Disciplined programs and the system of processes that grants the locks, side by side.  A step of the system takes no
lock away that a program relies on: locks are released at the request of the program. -/
inductive Joint (u : Uid) : List Item → List Label → World → List Event → Prop
  | init : Joint u [] [] World.init []
  | system {h : List Item} {ls : List Label} {w w' : World} {tr e : List Event} {l : Label} :
      Joint u h ls w tr → WellWrapped w l → Verif.step w l = some (w', e) → HeldIn u (tr ++ e) (holding h) →
      Joint u h (ls ++ [l]) w' (tr ++ e)
  | item {h : List Item} {ls : List Label} {w : World} {tr : List Event} {it : Item} :
      Joint u h ls w tr → Proper h it → HeldIn u tr (holding (h ++ [it])) → Joint u (h ++ [it]) ls w tr

/-! ## The reference -/

/-- One byte array; a position, and whether it has read since it last moved, for each stream. -/
structure Common where
  data : Bytes
  kind : Sid → BufKind
  pos : Sid → Nat
  ahead : Sid → Bool

/-- The array as a stream sees it. -/
def Common.view (s : Common) (i : Sid) (log : List RawEv) : File := ⟨s.data, s.pos i, s.ahead i, log⟩

/-- The array as a stream left it. -/
def Common.after (s : Common) (i : Sid) (f : File) : Common :=
  ⟨f.data, s.kind, fun j => if j = i then f.pos else s.pos j, fun j => if j = i then f.ahead else s.ahead j⟩

/-- What an item may do and return. -/
def Common.Step (s : Common) : Item → StreamOut → Common → Prop
  | .opened i b, out, s' =>
    out = .done ∧ s' = ⟨s.data, fun j => if j = i then b.kind else s.kind j, fun j => if j = i then b.raw.pos else s.pos j,
      fun j => if j = i then false else s.ahead j⟩
  | .did i op, out, s' => ∃ log f, Allowed (s.kind i) (s.view i log) op out f ∧ s' = s.after i f
  | .ask i, out, s' => out = .done ∧ s' = s.after i ⟨s.data, s.pos i, false, []⟩
  | .granted i _, out, s' => out = .done ∧ s' = s.after i ⟨s.data, s.pos i, false, []⟩
  | .unlock i, out, s' => out = .done ∧ s' = s.after i ⟨s.data, s.pos i, false, []⟩
  | .exit _, out, s' => out = .done ∧ s' = s
  | .close _, out, s' => out = .done ∧ s' = s
  | .gone _, out, s' => out = .done ∧ s' = s

/-- The history is one of the array. -/
inductive Serially : Common → List (Item × StreamOut) → Common → Prop
  | nil (s : Common) : Serially s [] s
  | snoc {s s' s'' : Common} {tr : List (Item × StreamOut)} {it : Item} {out : StreamOut} :
      Serially s tr s' → s'.Step it out s'' → Serially s (tr ++ [(it, out)]) s''

/-- The calls that the code gets wrong, see `Unsafe`. -/
def Common.Unsafe (s : Common) : Item → Prop
  | .did i op => Spec.Unsafe (s.kind i) (s.view i []) op
  | _ => False

/-- The array at the beginning, when no stream is open. -/
def Common.start (d : Bytes) : Common := ⟨d, fun _ => .reader, fun _ => 0, fun _ => false⟩

end Verif.Spec
