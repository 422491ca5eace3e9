import Verif.Model.Registry
import Verif.Spec.Ranges

/-!
# What a user can observe of the intra-process registry

`tableOf pid r uid` is the list of locks that the process `pid` owns on the file `uid`.  A registry created by
another process (inherited by `fork`) denotes no lock at all.
-/

namespace Verif.Spec

open Verif

/-- The locks that process `pid` owns on `uid`. -/
def tableOf (pid : Nat) (r : Registry) (uid : Uid) : List LockRec :=
  if r.originalPid = pid then
    match r.entries uid with
    | some e => e.locks
    | none => []
  else []

/-- The descriptors of `uid` whose native closing is postponed. -/
def pendingOf (pid : Nat) (r : Registry) (uid : Uid) : List Nat :=
  if r.originalPid = pid then
    match r.entries uid with
    | some e => e.data
    | none => []
  else []

/-- The number of threads of `pid` registered as waiting on `uid`. -/
def waitingOf (pid : Nat) (r : Registry) (uid : Uid) : Nat :=
  if r.originalPid = pid then
    match r.entries uid with
    | some e => e.waiting
    | none => 0
  else 0

/-- A lock and a request conflict: they share a byte, and they come from the same handle or one of them
is exclusive. -/
def ConflictsWith (r : LockRec) (handle : Nat) (shared : Bool) (start : Int) (stop : Option Int) : Prop :=
  Meet r.start r.stop start stop ∧ (r.handle = handle ∨ r.shared = false ∨ shared = false)

end Verif.Spec
