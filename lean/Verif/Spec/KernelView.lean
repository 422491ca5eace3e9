import Verif.Model.Kernel
import Verif.Spec.Ranges

/-!
# What the kernel lock table means
-/

namespace Verif.Spec

open Verif

/-- Process `p` has a kernel lock of mode `sh` on byte `b` of `u`. -/
def KHas (t : KTable) (p : Nat) (u : Uid) (sh : Bool) (b : Int) : Prop :=
  ∃ k ∈ t, k.pid = p ∧ k.uid = u ∧ k.shared = sh ∧ Covers k.start k.stop b

end Verif.Spec
