import Verif.Lemmas.SystemPhantom

/-! Which actions emit which events. -/

namespace Verif

open Spec

theorem attemptReg_events (pid : Nat) (p : Proc) (k : KTable) (t : Nat) (q : Req) :
    ∀ e ∈ (attemptReg pid p k t q).2.2, e = .keyErr pid ∨ e = .lockFailed pid q.sid q.uid q.shared q.start q.stop := by
  unfold attemptReg
  split
  · simp [failLock]
  · simp
  · split
    · split
      · simp
      · simp [failLock]
    · simp

/-- Native closes are made by the owner of the mutex only. -/
theorem stepProc_nclose {pid : Nat} {p : Proc} {k : KTable} {l : PLabel} {a : Act}
    (h : stepProc pid p k l = some a) {pid' fd : Nat} {u : Uid} (he : Event.nclose pid' fd u ∈ a.2.2) :
    pid' = pid ∧ ∃ rest, p.crit = .nclose fd :: rest ∧ p.fds fd = some u ∧ a.1.reg = p.reg ∧
      a.2.2 = [.nclose pid fd u] ∧ a.1.fds = updMap p.fds fd none := by
  cases l with
  | micro =>
    simp only [stepProc] at h
    split at h
    · rename_i m rest hcr
      cases h
      cases m with
      | nclose f =>
        simp only [doMicro] at he ⊢
        split at he
        · rename_i u' hu
          simp only [List.mem_singleton, Event.nclose.injEq] at he
          obtain ⟨rfl, rfl, rfl⟩ := he
          simp only [hu]
          exact ⟨trivial, rest, hcr, by simp⟩
        · simp at he
      | kunlock f u' s l =>
        simp only [doMicro] at he
        split at he <;> simp at he
      | purge u' =>
        simp only [doMicro] at he
        split at he <;> simp at he
      | addData u' f =>
        simp only [doMicro] at he
        split at he <;> simp at he
      | delEntry u' => simp [doMicro] at he
    · cases h
  | unlock sid len start =>
    simp only [stepProc] at h
    (repeat' split at h) <;> cases h
    simp only [unlockStream] at he
    split at he <;> simp at he
  | _ =>
    exfalso
    simp only [stepProc] at h
    (repeat' split at h) <;> first
      | (cases h; done)
      | (cases h; rcases attemptReg_events _ _ _ _ _ _ he with h | h <;> cases h)
      | (cases h; simp [failLock, grant, closeStream] at he)

/-- After a failed `lock_file` the stream is open and free. -/
theorem failLock_stream {pid : Nat} {p : Proc} (hi : VInv (view pid p)) (r : Registry) (th : Nat → PC) (k : KTable) {t : Nat}
    {q : Req} (hq : (p.threads t).req = some q) :
    ∃ st, (failLock pid { p with reg := r, threads := th } k t q).1.streams q.sid = some st ∧ st.isOpen = true ∧
      st.busy = none ∧ st.uid = q.uid := by
  obtain ⟨st, h1, h2, h3, h4, h5⟩ := hi.thr t q hq
  change p.streams q.sid = some st at h1
  refine ⟨{ st with busy := none }, ?_, h2, rfl, h4⟩
  simp only [failLock, Proc.release, Proc.setPC, h1, updMap_same]

theorem attemptReg_failed {pid : Nat} {p : Proc} (hi : VInv (view pid p)) (r : Registry) (k : KTable) {t : Nat} {q : Req}
    (hq : (p.threads t).req = some q) {pid' sid : Nat} {u : Uid} {sh : Bool} {s : Int} {e : Option Int}
    (he : Event.lockFailed pid' sid u sh s e ∈ (attemptReg pid { p with reg := r } k t q).2.2) :
    ∃ st, (attemptReg pid { p with reg := r } k t q).1.streams sid = some st ∧ st.isOpen = true ∧
      st.busy = none ∧ st.uid = u := by
  unfold attemptReg at he ⊢
  split at he
  · simp only [failLock, List.mem_singleton, Event.lockFailed.injEq] at he
    obtain ⟨_, rfl, rfl, _⟩ := he
    exact failLock_stream hi _ p.threads k hq
  · simp at he
  · split at he
    · rename_i hll
      split at he
      · simp at he
      · simp only [failLock, Event.lockFailed.injEq, List.mem_cons, reduceCtorEq, false_or, List.not_mem_nil, or_false] at he
        obtain ⟨_, rfl, rfl, _⟩ := he
        rw [if_pos hll]
        exact failLock_stream hi _ p.threads k hq
    · simp at he

theorem stepProc_lockFailed {pid : Nat} {p : Proc} {k : KTable} {l : PLabel} {a : Act} (hi : VInv (view pid p))
    (h : stepProc pid p k l = some a) {pid' sid : Nat} {u : Uid} {sh : Bool} {s : Int} {e : Option Int}
    (he : Event.lockFailed pid' sid u sh s e ∈ a.2.2) :
    pid' = pid ∧ (∀ H, a.2.2.foldl heldStep H = H) ∧
      ∃ st, a.1.streams sid = some st ∧ st.isOpen = true ∧ st.busy = none ∧ st.uid = u := by
  refine ⟨stepProc_ofPid h _ he, ?_⟩
  cases l with
  | reg tid =>
    simp only [stepProc] at h
    split at h
    · rename_i q hpc hcr
      cases h
      exact ⟨(attemptReg_crit pid p k tid q).2.2, attemptReg_failed hi p.reg k (by rw [hpc]; rfl) he⟩
    · cases h
  | wake tid =>
    simp only [stepProc] at h
    split at h
    · rename_i q hpc hcr
      split at h
      · rename_i r hr
        cases h
        exact ⟨(attemptReg_crit pid _ k tid q).2.2, attemptReg_failed hi r k (by rw [hpc]; rfl) he⟩
      · cases h
        simp only [failLock, Event.lockFailed.injEq, List.mem_cons, reduceCtorEq, false_or, List.not_mem_nil, or_false] at he
        obtain ⟨_, rfl, rfl, _⟩ := he
        exact ⟨fun _ => rfl, failLock_stream hi p.reg p.threads k (by rw [hpc]; rfl)⟩
    · cases h
  | unwind tid =>
    simp only [stepProc] at h
    split at h
    · rename_i q hpc hcr
      cases h
      simp only [failLock, List.mem_singleton, Event.lockFailed.injEq] at he
      obtain ⟨_, rfl, rfl, _⟩ := he
      refine ⟨fun _ => rfl, ?_⟩
      have hx : ∃ r th, (unregisterN pid p q.uid q.fd q.len q.start).2 = { p with reg := r, threads := th } := by
        unfold unregisterN
        split
        · exact ⟨_, _, rfl⟩
        · exact ⟨_, _, rfl⟩
      obtain ⟨r, th, hx⟩ := hx
      rw [hx]
      exact failLock_stream hi r th k (by rw [hpc]; rfl)
    · cases h
  | expire tid =>
    simp only [stepProc] at h
    split at h
    · rename_i q hpc
      split at h
      · cases h
      · cases h
        simp only [failLock, List.mem_singleton, Event.lockFailed.injEq] at he
        obtain ⟨_, rfl, rfl, _⟩ := he
        exact ⟨fun _ => rfl, failLock_stream hi p.reg p.threads k (by rw [hpc]; rfl)⟩
    · split at h
      · cases h
      · cases h; simp at he
    · cases h
  | micro =>
    simp only [stepProc] at h
    split at h
    · rename_i m rest hcr
      cases h
      cases m <;> simp only [doMicro] at he <;> (try split at he) <;> simp at he
    · cases h
  | unlock sid len start =>
    simp only [stepProc] at h
    (repeat' split at h) <;> cases h
    simp only [unlockStream] at he
    split at he <;> simp at he
  | _ =>
    exfalso
    simp only [stepProc] at h
    (repeat' split at h) <;> first
      | (cases h; done)
      | (cases h; simp [grant, closeStream] at he)

/-- What a successful `unlock_file` does. -/
theorem stepProc_unlocked {pid : Nat} {p p' : Proc} {k k' : KTable} {sid : Nat} {len : Option Nat} {s : Int}
    {e : List Event} (h : stepProc pid p k (.unlock sid len s) = some (p', k', e)) {pid' sid' : Nat} {u : Uid} {a : Int}
    {b : Option Int} (he : Event.unlocked pid' sid' u a b ∈ e) :
    ∃ st r p₁, p.streams sid = some st ∧ u = st.uid ∧ p.crit = [] ∧
      unregisterN pid p st.uid st.fd (len.map Int.ofNat) s = (.ok r, p₁) ∧
      p' = { p₁ with crit := unlockMicros st.fd st.uid s (len.map Int.ofNat) } := by
  simp only [stepProc] at h
  split at h
  · rename_i st hst hcr
    split at h
    · simp only [unlockStream, Option.some.injEq] at h
      split at h
      · simp only [Prod.mk.injEq] at h
        obtain ⟨-, -, rfl⟩ := h
        simp at he
      · rename_i r p₁ hu
        simp only [Prod.mk.injEq] at h
        obtain ⟨rfl, -, rfl⟩ := h
        simp only [List.mem_singleton, Event.unlocked.injEq] at he
        exact ⟨st, r, p₁, hst, he.2.2.1, hcr, hu, rfl⟩
    · cases h
  · cases h

/-- What `close` does on an open stream. -/
theorem stepProc_closed {pid : Nat} {p p' : Proc} {k k' : KTable} {sid : Nat} {st : Stream}
    {e : List Event} (h : stepProc pid p k (.close sid) = some (p', k', e)) (hst : p.streams sid = some st)
    (ho : st.isOpen = true) : (p', k', e) = closeStream pid p k sid st := by
  simp only [stepProc, hst] at h
  split at h
  · rename_i st' heq hcr
    cases heq
    split at h
    · cases h
    · rw [Option.some.injEq] at h
      exact h.symm
  · cases h

end Verif
