import Verif.Spec.Together
import Verif.Spec.AppendStream

/-!
# One byte array, and streams that may be in append mode

As `Spec.Together`, except that a stream may be in append mode: everything it writes goes to the end of the array.
-/

set_option autoImplicit false

namespace Verif.Spec

open Verif

/-! ## Disciplined programs -/

/-- A stream that was just opened on a regular file, in append mode or not, and not non-blocking. -/
def FreshAny (b : Buf) : Prop :=
  (∃ k n raw, Buf.create k n raw = .ok b) ∧ b.raw.platform = .unix ∧ b.raw.seekable = true ∧ Blocking b.raw.sched ∧
    (b.raw.append = true → b.kind ≠ .reader)

/-- What a disciplined program may do, see `Proper`. -/
def ProperAny (h : List Item) : Item → Prop
  | .opened i b => i ∉ openIn h ∧ FreshAny b
  | it => Proper h it

/-- All along a history, the programs are disciplined, and locks exclude each other. -/
inductive DisciplinedAny : List Item → Prop
  | nil : DisciplinedAny []
  | snoc {h : List Item} {it : Item} :
      DisciplinedAny h → ProperAny h it → Exclusion (holding (h ++ [it])) → DisciplinedAny (h ++ [it])

/-- Disciplined programs and the system of processes that grants the locks, see `Joint`. -/
inductive JointAny (u : Uid) : List Item → List Label → World → List Event → Prop
  | init : JointAny u [] [] World.init []
  | system {h : List Item} {ls : List Label} {w w' : World} {tr e : List Event} {l : Label} :
      JointAny u h ls w tr → WellWrapped w l → Verif.step w l = some (w', e) → HeldIn u (tr ++ e) (holding h) →
      JointAny u h (ls ++ [l]) w' (tr ++ e)
  | item {h : List Item} {ls : List Label} {w : World} {tr : List Event} {it : Item} :
      JointAny u h ls w tr → ProperAny h it → HeldIn u tr (holding (h ++ [it])) → JointAny u (h ++ [it]) ls w tr

/-! ## The reference -/

/-- One byte array; for each stream its kind, whether it is in append mode, its position, whether it has read since it last moved, and
whether it has written elsewhere than at the end (see `AppendFile`). -/
structure Pool where
  data : Bytes
  kind : Sid → BufKind
  append : Sid → Bool
  pos : Sid → Nat
  ahead : Sid → Bool
  late : Sid → Bool

/-- The array as a stream sees it. -/
def Pool.view (s : Pool) (i : Sid) (log : List RawEv) : AppendFile := ⟨⟨s.data, s.pos i, s.ahead i, log⟩, s.late i⟩

/-- The array as a stream left it. -/
def Pool.after (s : Pool) (i : Sid) (f : AppendFile) : Pool :=
  ⟨f.file.data, s.kind, s.append, fun j => if j = i then f.file.pos else s.pos j, fun j => if j = i then f.file.ahead else s.ahead j,
    fun j => if j = i then f.late else s.late j⟩

/-- What an item may do and return. -/
def Pool.Step (s : Pool) : Item → StreamOut → Pool → Prop
  | .opened i b, out, s' =>
    out = .done ∧ s' = ⟨s.data, fun j => if j = i then b.kind else s.kind j, fun j => if j = i then b.raw.append else s.append j,
      fun j => if j = i then b.raw.pos else s.pos j, fun j => if j = i then false else s.ahead j,
      fun j => if j = i then false else s.late j⟩
  | .did i op, out, s' => ∃ log f, (s.append i = true → AppendAllowed (s.kind i) (s.view i log) op out f) ∧
      (s.append i = false → Allowed (s.kind i) (s.view i log).file op out f.file ∧ f.late = false) ∧ s' = s.after i f
  | .ask i, out, s' => out = .done ∧ s' = s.after i ⟨⟨s.data, s.pos i, false, []⟩, false⟩
  | .granted i _, out, s' => out = .done ∧ s' = s.after i ⟨⟨s.data, s.pos i, false, []⟩, false⟩
  | .unlock i, out, s' => out = .done ∧ s' = s.after i ⟨⟨s.data, s.pos i, false, []⟩, false⟩
  | .exit _, out, s' => out = .done ∧ s' = s
  | .close _, out, s' => out = .done ∧ s' = s
  | .gone _, out, s' => out = .done ∧ s' = s

/-- The history is one of the array. -/
inductive Pooled : Pool → List (Item × StreamOut) → Pool → Prop
  | nil (s : Pool) : Pooled s [] s
  | snoc {s s' s'' : Pool} {tr : List (Item × StreamOut)} {it : Item} {out : StreamOut} :
      Pooled s tr s' → s'.Step it out s'' → Pooled s (tr ++ [(it, out)]) s''

/-- The calls that the code gets wrong, see `Unsafe` and `AppendUnsafe`. -/
def Pool.Unsafe (s : Pool) : Item → Prop
  | .did i op => (s.append i = true ∧ AppendUnsafe (s.kind i) (s.view i []) op) ∨
      (s.append i = false ∧ Spec.Unsafe (s.kind i) (s.view i []).file op)
  | _ => False

/-- The array at the beginning, when no stream is open. -/
def Pool.start (d : Bytes) : Pool := ⟨d, fun _ => .reader, fun _ => false, fun _ => 0, fun _ => false, fun _ => false⟩

end Verif.Spec
