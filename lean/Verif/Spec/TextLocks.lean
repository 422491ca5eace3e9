import Verif.Spec.WinAppendTexts
import Verif.Spec.Together
import Verif.Props.WinSystem

/-!
# Text streams and the system that grants the locks

In `TextProper` and `LogProper` the lock is granted only when no stream holds it.  Here this is not assumed: the locks come from the
processes, threads, registries and the kernel.
-/

set_option autoImplicit false

namespace Verif.Spec

open Verif
open Verif.Txt (Op Out)

variable {C : Codec}

/-- The streams hold exclusive locks. -/
def exclusively (H : List Sid) : List (Sid × Bool) := H.map fun i => (i, false)

/-- What programs may do after a history, in a state. -/
abbrev TextRule (C : Codec) := TextTrace C → TextTogether C → TextItem C → Prop

/-- Programs that keep the rule `P`, and the system that grants the locks, side by side.  `lock_file` returns when the stream holds the
lock, exclusively, on byte 0 of the file `u`.  A step of the system takes no lock away that a program relies on: locks are released at
the request of the program. -/
inductive TextJoint (P : TextRule C) (guess : Nat × Nat → Nat → Nat) (d : Bytes) (u : Uid) :
    TextTrace C → TextTogether C → List Label → World → List Event → Prop
  | init : TextJoint P guess d u [] ⟨d, fun _ => none⟩ [] World.init []
  | system {tr : TextTrace C} {t : TextTogether C} {ls : List Label} {w w' : World} {ev e : List Event} {l : Label} :
      TextJoint P guess d u tr t ls w ev → WellWrapped w l → Verif.step w l = some (w', e) →
      HeldIn u (ev ++ e) (exclusively (lockers tr)) → TextJoint P guess d u tr t (ls ++ [l]) w' (ev ++ e)
  | item {tr : TextTrace C} {t : TextTogether C} {ls : List Label} {w : World} {ev : List Event} {it : TextItem C} :
      TextJoint P guess d u tr t ls w ev → P tr t it → (∀ i, it = .granted i → HeldIn u ev (exclusively [i])) →
      HeldIn u ev (exclusively (lockers (tr ++ [(it, (t.step guess it).1)]))) →
      TextJoint P guess d u (tr ++ [(it, (t.step guess it).1)]) (t.step guess it).2 ls w ev

/-- The same with the system of windows. -/
inductive WinTextJoint (P : TextRule C) (guess : Nat × Nat → Nat → Nat) (d : Bytes) (u : Uid) :
    TextTrace C → TextTogether C → List Win.Label → Win.World → List Event → Prop
  | init : WinTextJoint P guess d u [] ⟨d, fun _ => none⟩ [] Win.World.init []
  | system {tr : TextTrace C} {t : TextTogether C} {ls : List Win.Label} {w w' : Win.World} {ev e : List Event} {l : Win.Label} :
      WinTextJoint P guess d u tr t ls w ev → Win.Sane w l → Win.step w l = some (w', e) →
      HeldIn u (ev ++ e) (exclusively (lockers tr)) → WinTextJoint P guess d u tr t (ls ++ [l]) w' (ev ++ e)
  | item {tr : TextTrace C} {t : TextTogether C} {ls : List Win.Label} {w : Win.World} {ev : List Event} {it : TextItem C} :
      WinTextJoint P guess d u tr t ls w ev → P tr t it → (∀ i, it = .granted i → HeldIn u ev (exclusively [i])) →
      HeldIn u ev (exclusively (lockers (tr ++ [(it, (t.step guess it).1)]))) →
      WinTextJoint P guess d u (tr ++ [(it, (t.step guess it).1)]) (t.step guess it).2 ls w ev

/-! ## The rules, without the condition that nobody else holds the lock -/

/-- As `TextProper`. -/
def TextRules : TextRule C := fun tr _ it =>
  match it with
  | .granted i => lastCall tr i = some (.ask i, .done)
  | it => TextProper tr it

/-- As `LogProper`. -/
def LogRules : TextRule C := fun tr _ it =>
  match it with
  | .granted i => lastCall tr i = some (.ask i, .done)
  | it => LogProper tr it

/-- As `WinTextProper` with the condition of `WinTextHistory`. -/
def WinTextRules (guess : Nat × Nat → Nat → Nat) : TextRule C := fun tr t it =>
  match it with
  | .granted i => lastCall tr i = some (.ask i, .done)
  | .ask i => i ∉ lockers tr ∧ (lockers tr ≠ [] → Prepares guess t i)
  | it => WinTextProper tr it

/-- As `WinLogProper`. -/
def WinLogRules : TextRule C := fun tr _ it =>
  match it with
  | .granted i => lastCall tr i = some (.ask i, .done)
  | it => WinLogProper tr it

end Verif.Spec
