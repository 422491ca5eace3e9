import Verif.Spec.Together
import Verif.Spec.Stretches
import Verif.Model.WinSystem

/-!
# Critical sections on windows

As in `Spec.Together`, with the streams and the locks of windows.
-/

set_option autoImplicit false

namespace Verif.Spec

open Verif

/-- A stream that was just opened on windows, on a regular file, neither in append mode nor refusing to work.  Gaps read as
zeros. -/
def WinFresh (b : Buf) : Prop :=
  (∃ k n raw, Buf.create k n raw = .ok b) ∧ b.raw.platform = .windows ∧ (∀ i, b.raw.junk i = 0) ∧ b.raw.append = false ∧
    b.raw.seekable = true ∧ Blocking b.raw.sched

/-- What a disciplined program may do after the history `h`, as `Proper`. -/
def WinProper (h : List Item) : Item → Prop
  | .opened i b => i ∉ openIn h ∧ WinFresh b
  | it => Proper h it

/-- All along a history, the programs are disciplined, and locks exclude each other. -/
inductive WinDisciplined : List Item → Prop
  | nil : WinDisciplined []
  | snoc {h : List Item} {it : Item} : WinDisciplined h → WinProper h it → Exclusion (holding (h ++ [it])) →
      WinDisciplined (h ++ [it])

/-- Disciplined programs and the windows system that grants the locks, side by side, as `Joint`. -/
inductive WinJoint (u : Uid) : List Item → List Win.Label → Win.World → List Event → Prop
  | init : WinJoint u [] [] Win.World.init []
  | system {h : List Item} {ls : List Win.Label} {w w' : Win.World} {tr e : List Event} {l : Win.Label} :
      WinJoint u h ls w tr → Win.Sane w l → Win.step w l = some (w', e) → HeldIn u (tr ++ e) (holding h) →
      WinJoint u h (ls ++ [l]) w' (tr ++ e)
  | item {h : List Item} {ls : List Win.Label} {w : Win.World} {tr : List Event} {it : Item} :
      WinJoint u h ls w tr → WinProper h it → HeldIn u tr (holding (h ++ [it])) → WinJoint u (h ++ [it]) ls w tr

/-- The calls that the code gets wrong on windows: those of `Unsafe`, and `truncate` to a larger size. -/
def Common.WinUnsafe (s : Common) : Item → Prop
  | .did i op => Spec.Unsafe (s.kind i) (s.view i []) op ∨ Stretches (s.kind i) (s.view i []) op
  | _ => False

end Verif.Spec
