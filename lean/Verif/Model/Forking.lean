import Verif.Model.System

/-!
# Processes that fork while a thread owns the registry mutex (unix)

`fork` copies the memory of the process, thus the state of the mutex (`rsfile_registries.py:78`), but only the calling thread.
If another thread owns the mutex at that moment, nobody will ever release it in the child: python has no handler that would
(`_check_forking`, `rsfile_registries.py:80-88`, is called only by methods that own the mutex already).

In `System` the owner of the mutex has `crit` still to do.  The registry methods that are one atomic action there may be
interrupted by `fork` as well; these moments are not distinguished here, they would add children that are stuck.  A thread that
forks while it owns the mutex itself (in a signal handler or finaliser) is not modelled.
-/

set_option autoImplicit false

namespace Verif

open Spec

structure Forest where
  world : World
  /-- the mutex of the process belongs to a thread that does not exist -/
  stuck : Nat → Bool

def Forest.init : Forest := ⟨World.init, fun _ => false⟩

/-- The actions that begin by taking the mutex: `register_file_lock` (`rsfile_registries.py:176`), the end of `cond.wait`
(line 189), the `finally` of `lock_file` (`rsfileio_abstract.py:633`), `unlock_file` (line 658), and `close` of a stream that is
not closed (line 215). -/
def Proc.takesMutex (p : Proc) : PLabel → Bool
  | .reg _ | .wake _ | .unwind _ | .unlock _ _ _ => true
  | .close sid =>
    match p.streams sid with
    | some st => st.isOpen
    | none => true
  | _ => false

/-- One action; see `step`. -/
def fstep (f : Forest) : Label → Option (Forest × List Event)
  | .act pid l =>
    match f.world.procs pid with
    | none => none
    | some p =>
      if f.stuck pid && p.takesMutex l then none
      else
        match step f.world (.act pid l) with
        | some (w, e) => some ({ f with world := w }, e)
        | none => none
  | .fork parent child =>
    match f.world.procs parent with
    | none => none
    | some p =>
      match step f.world (.fork parent child) with
      | some (w, e) => some (⟨w, updMap f.stuck child (f.stuck parent || !p.crit.isEmpty)⟩, e)
      | none => none
  | l =>
    match step f.world l with
    | some (w, e) => some ({ f with world := w }, e)
    | none => none

/-- Execution of a list of labels; the events are accumulated. -/
def frun (f : Forest) : List Label → Option (Forest × List Event)
  | [] => some (f, [])
  | l :: ls =>
    match fstep f l with
    | none => none
    | some (f1, e) =>
      match frun f1 ls with
      | none => none
      | some (f2, e') => some (f2, e ++ e')

end Verif
