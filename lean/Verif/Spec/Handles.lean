import Verif.Spec.Trace

/-!
# The native handles that rsfile has to close

Recomputed from the events: a handle is owed from the moment `close()` is called on a stream that was opened with
`closefd=True`, until the system closes the handle or the process ends.
-/

set_option autoImplicit false

namespace Verif.Spec

open Verif

/-- A stream as it was opened. -/
structure OpenedAs where
  pid : Nat
  sid : Nat
  fd : Nat
  closefd : Bool
  deriving DecidableEq, Repr

/-- The streams opened so far, and the handles that are owed. -/
structure Owes where
  streams : List OpenedAs
  owed : List (Nat × Nat)
  deriving DecidableEq, Repr

def owesStep (o : Owes) : Event → Owes
  | .opened pid sid fd _ c => { o with streams := o.streams ++ [⟨pid, sid, fd, c⟩] }
  | .closed pid sid _ =>
    { o with owed := o.owed ++
        (o.streams.filter (fun s => s.pid = pid ∧ s.sid = sid ∧ s.closefd = true)).map (fun s => (s.pid, s.fd)) }
  | .nclose pid fd _ => { o with owed := o.owed.filter (fun x => ¬ x = (pid, fd)) }
  | .exited pid => { o with owed := o.owed.filter (fun x => ¬ x.1 = pid) }
  | _ => o

/-- The handles that are owed after a history. -/
def owedOf (tr : List Event) : List (Nat × Nat) := (tr.foldl owesStep ⟨[], []⟩).owed

end Verif.Spec
