import Verif.Spec.Stream

/-!
# Calls that lengthen a file
-/

set_option autoImplicit false

namespace Verif.Spec

open Verif

/-- On windows, a call that makes the file longer without writing to it. -/
def Stretches (k : BufKind) (f : File) : StreamOp → Prop
  | .truncate n => k ≠ .reader ∧ (f.data.length : Int) < n.getD f.pos
  | _ => False

end Verif.Spec
