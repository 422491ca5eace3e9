import Verif.Model.Registry
import Verif.Spec.Ranges

/-!
# Observable events of a system of processes using rsfile, and what they mean

Only what is visible at the API (calls and returns), plus the native `close` calls.  The functions below
recompute, from the events alone, which locks users believe they hold.
-/

namespace Verif.Spec

open Verif

/-- Observable events. -/
inductive Event where
  /-- a stream `sid` was created in process `pid` on descriptor `fd` of file `uid` -/
  | opened (pid sid fd : Nat) (uid : Uid) (closefd : Bool)
  /-- `lock_file()` was called -/
  | lockReq (pid sid : Nat) (uid : Uid) (shared : Bool) (start : Int) (stop : Option Int)
  /-- `lock_file()` returned -/
  | locked (pid sid : Nat) (uid : Uid) (shared : Bool) (start : Int) (stop : Option Int)
  /-- `lock_file()` raised -/
  | lockFailed (pid sid : Nat) (uid : Uid) (shared : Bool) (start : Int) (stop : Option Int)
  /-- `unlock_file()` returned -/
  | unlocked (pid sid : Nat) (uid : Uid) (start : Int) (stop : Option Int)
  /-- `unlock_file()` raised -/
  | unlockFailed (pid sid : Nat) (uid : Uid) (start : Int) (stop : Option Int)
  /-- `close()` was called on an open stream -/
  | closed (pid sid : Nat) (uid : Uid)
  /-- the operating system closed descriptor `fd` of file `uid` -/
  | nclose (pid fd : Nat) (uid : Uid)
  /-- a system call was made with a descriptor that is not open (EBADF) -/
  | badFd (pid fd : Nat)
  /-- an internal `KeyError` of the registry -/
  | keyErr (pid : Nat)
  | forked (parent child : Nat)
  | exited (pid : Nat)
  deriving DecidableEq, Repr

/-- A lock as its user sees it. -/
structure Held where
  pid : Nat
  sid : Nat
  uid : Uid
  shared : Bool
  start : Int
  stop : Option Int
  deriving DecidableEq, Repr

/-- How an event changes the set of locks that are held: `lock_file` returning gives the lock; `unlock_file` on
the same stream with the same range, `close` of the stream, and the end of the process take it away.  A forked
child holds nothing. -/
def heldStep (H : List Held) : Event → List Held
  | .locked p s u sh a b => H ++ [⟨p, s, u, sh, a, b⟩]
  | .unlocked p s _ a b => H.filter (fun h => ¬ (h.pid = p ∧ h.sid = s ∧ h.start = a ∧ h.stop = b))
  | .closed p s _ => H.filter (fun h => ¬ (h.pid = p ∧ h.sid = s))
  | .exited p => H.filter (fun h => ¬ h.pid = p)
  | _ => H

/-- The locks held after a history. -/
def heldOf (tr : List Event) : List Held := tr.foldl heldStep []

/-- How an event changes the set of requests in progress (`lock_file` was called and has not returned).  A stream is
used by one thread at a time, so that it has at most one request in progress. -/
def requestStep (R : List Held) : Event → List Held
  | .lockReq p s u sh a b => R ++ [⟨p, s, u, sh, a, b⟩]
  | .locked p s _ _ _ _ => R.filter (fun h => ¬ (h.pid = p ∧ h.sid = s))
  | .lockFailed p s _ _ _ _ => R.filter (fun h => ¬ (h.pid = p ∧ h.sid = s))
  | .exited p => R.filter (fun h => ¬ h.pid = p)
  | _ => R

/-- The locks being requested after a history. -/
def requestedOf (tr : List Event) : List Held := tr.foldl requestStep []

/-- No two streams of one process hold or request overlapping shared locks. -/
def NoSharedOverlap (L : List Held) : Prop :=
  ∀ a ∈ L, ∀ b ∈ L, a.pid = b.pid → a.uid = b.uid → a.sid ≠ b.sid → a.shared = true → b.shared = true →
    ¬ Meet a.start a.stop b.start b.stop

end Verif.Spec
