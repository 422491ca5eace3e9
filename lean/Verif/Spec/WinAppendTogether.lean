import Verif.Spec.AppendTogether
import Verif.Spec.WinTogether

/-!
# Critical sections on windows, with streams in append mode
-/

set_option autoImplicit false

namespace Verif.Spec

open Verif

/-- A stream that was just opened on windows, on a regular file, in append mode or not, that does not refuse to work.  Gaps read as
zeros. -/
def WinFreshAny (b : Buf) : Prop :=
  (∃ k n raw, Buf.create k n raw = .ok b) ∧ b.raw.platform = .windows ∧ (∀ i, b.raw.junk i = 0) ∧ b.raw.seekable = true ∧
    Blocking b.raw.sched ∧ (b.raw.append = true → b.kind ≠ .reader)

/-- What a disciplined program may do after the history `h`, as `Proper`. -/
def WinProperAny (h : List Item) : Item → Prop
  | .opened i b => i ∉ openIn h ∧ WinFreshAny b
  | it => Proper h it

/-- All along a history, the programs are disciplined, and locks exclude each other. -/
inductive WinDisciplinedAny : List Item → Prop
  | nil : WinDisciplinedAny []
  | snoc {h : List Item} {it : Item} : WinDisciplinedAny h → WinProperAny h it → Exclusion (holding (h ++ [it])) →
      WinDisciplinedAny (h ++ [it])

/-- Disciplined programs and the windows system that grants the locks, side by side, as `Joint`. -/
inductive WinJointAny (u : Uid) : List Item → List Win.Label → Win.World → List Event → Prop
  | init : WinJointAny u [] [] Win.World.init []
  | system {h : List Item} {ls : List Win.Label} {w w' : Win.World} {tr e : List Event} {l : Win.Label} :
      WinJointAny u h ls w tr → Win.Sane w l → Win.step w l = some (w', e) → HeldIn u (tr ++ e) (holding h) →
      WinJointAny u h (ls ++ [l]) w' (tr ++ e)
  | item {h : List Item} {ls : List Win.Label} {w : Win.World} {tr : List Event} {it : Item} :
      WinJointAny u h ls w tr → WinProperAny h it → HeldIn u tr (holding (h ++ [it])) → WinJointAny u (h ++ [it]) ls w tr

/-- The calls that the code gets wrong on windows: those of `Unsafe`, and `truncate` to a larger size. -/
def Pool.WinUnsafe (s : Pool) : Item → Prop
  | .did i op => s.Unsafe (.did i op) ∨ Stretches (s.kind i) (s.view i []).file op
  | _ => False

end Verif.Spec
