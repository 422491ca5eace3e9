import Verif.Model.System
import Verif.Lemmas.Kernel

/-!
# Invariants of the system: definitions

A process is seen through its `View`: lock table, pending descriptors, descriptors, streams, threads, critical section.
-/

namespace Verif

open Spec

structure View where
  T : Uid → List LockRec
  D : Uid → List Nat
  fds : Nat → Option Uid
  streams : Nat → Option Stream
  threads : Nat → PC
  crit : List Micro

def view (pid : Nat) (p : Proc) : View :=
  ⟨tableOf pid p.reg, pendingOf pid p.reg, p.fds, p.streams, p.threads, p.crit⟩

/-- The request of a thread inside `lock_file`. -/
def PC.req : PC → Option Req
  | .idle => none
  | .atReg q => some q
  | .waiting q _ => some q
  | .checkReg q => some q
  | .atKern q => some q
  | .checkKern q => some q
  | .unwinding q => some q

/-- The request of a thread whose range is registered by the call in progress. -/
def PC.registered : PC → Option Req
  | .atKern q => some q
  | .checkKern q => some q
  | .unwinding q => some q
  | _ => none

theorem PC.req_of_registered {pc : PC} {q : Req} (h : pc.registered = some q) : pc.req = some q := by
  cases pc <;> simp_all [PC.registered, PC.req]

/-- The descriptors that the critical section is going to close or to queue. -/
def Micro.closing : Micro → Option Nat
  | .nclose f => some f
  | .addData _ f => some f
  | _ => none

def toClose (c : List Micro) : List Nat := c.filterMap Micro.closing

/-- Nothing is unlocked after the descriptor of the closed stream is queued. -/
def Shaped : List Micro → Prop
  | [] => True
  | .addData _ _ :: rest => (∀ fd u s l, Micro.kunlock fd u s l ∉ rest) ∧ Shaped rest
  | _ :: rest => Shaped rest

def Compat (x y : LockRec) : Prop :=
  ¬ (Meet x.start x.stop y.start y.stop ∧ (x.handle = y.handle ∨ x.shared = false ∨ y.shared = false))

theorem Compat.symm {x y : LockRec} (h : Compat x y) : Compat y x := by
  rintro ⟨h1, h2⟩
  exact h ⟨meet_comm.1 h1, by rcases h2 with h2 | h2 | h2 <;> simp [h2]⟩

/-- No open stream uses the descriptor. -/
def NoOpen (streams : Nat → Option Stream) (fd : Nat) : Prop :=
  ∀ s st, streams s = some st → st.isOpen = true → st.fd ≠ fd

structure VInv (v : View) : Prop where
  distinct : ∀ s₁ s₂ st₁ st₂, v.streams s₁ = some st₁ → v.streams s₂ = some st₂ → st₁.isOpen = true →
    st₂.isOpen = true → st₁.fd = st₂.fd → s₁ = s₂
  live : ∀ s st, v.streams s = some st → st.isOpen = true → v.fds st.fd = some st.uid
  pend : ∀ u fd, fd ∈ v.D u → v.fds fd = some u ∧ NoOpen v.streams fd
  closing : ∀ fd, fd ∈ toClose v.crit → (∃ u, v.fds fd = some u) ∧ NoOpen v.streams fd
  nodup : ∀ u, (toClose v.crit ++ v.D u).Nodup
  critN : ∀ fd, Micro.nclose fd ∈ v.crit → ∀ u, v.fds fd = some u → v.T u = []
  critA : ∀ u fd, Micro.addData u fd ∈ v.crit → v.fds fd = some u
  critU : ∀ fd u s l, Micro.kunlock fd u s l ∈ v.crit → v.fds fd = some u ∧ fd ∉ v.D u ∧
    Micro.nclose fd ∉ v.crit ∧ ∀ x ∈ v.T u, x.shared = false → ¬ Meet x.start x.stop s (newEnd s l)
  shaped : Shaped v.crit
  compat : ∀ u, (v.T u).Pairwise Compat
  nonempty : ∀ u x, x ∈ v.T u → Covers x.start x.stop x.start
  thr : ∀ t q, (v.threads t).req = some q → ∃ st, v.streams q.sid = some st ∧ st.isOpen = true ∧
    st.fd = q.fd ∧ st.uid = q.uid ∧ st.busy = some t
  reged : ∀ t q, (v.threads t).registered = some q → q.record ∈ v.T q.uid

structure VHeld (pid : Nat) (v : View) (H : List Held) : Prop where
  held : ∀ h ∈ H, h.pid = pid → ∃ st, v.streams h.sid = some st ∧ st.isOpen = true ∧ st.uid = h.uid ∧
    (⟨st.fd, h.shared, h.start, h.stop⟩ : LockRec) ∈ v.T h.uid
  notInflight : ∀ t q, (v.threads t).registered = some q → ∀ h ∈ H, h.pid = pid → h.sid = q.sid →
    ¬ (h.start = q.start ∧ h.stop = q.stop)
  owner : ∀ u x, x ∈ v.T u →
    (∃ h ∈ H, h.pid = pid ∧ h.uid = u ∧ h.shared = x.shared ∧ h.start = x.start ∧ h.stop = x.stop ∧
      ∃ st, v.streams h.sid = some st ∧ st.isOpen = true ∧ st.fd = x.handle) ∨
    (∃ t q, (v.threads t).registered = some q ∧ q.record = x ∧ q.uid = u)

structure KOK (k : KTable) (H : List Held) : Prop where
  backed : ∀ h ∈ H, h.shared = false → ∀ b, Covers h.start h.stop b → KHas k h.pid h.uid false b
  compat : KCompat k

structure Inv (w : World) (H : List Held) : Prop where
  proc : ∀ pid p, w.procs pid = some p → p.alive = true → VInv (view pid p) ∧ VHeld pid (view pid p) H
  kern : KOK w.kern H
  heldAlive : ∀ h ∈ H, ∃ p, w.procs h.pid = some p ∧ p.alive = true
  kernAlive : ∀ pid u sh b, KHas w.kern pid u sh b → ∃ p, w.procs pid = some p ∧ p.alive = true
  orig : ∀ pid p, w.procs pid = some p → w.procs p.reg.originalPid ≠ none

end Verif
