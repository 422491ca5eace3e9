import Verif.Lemmas.SystemEvents

/-!
# Threads waiting inside `register_file_lock`: their number, and what they wait for
-/

namespace Verif

open Spec

/-- The thread sleeps in `cond.wait` for the file. -/
def WaitsOn (pc : PC) (u : Uid) : Prop := ∃ q b, pc = .waiting q b ∧ q.uid = u

/-- The registry counts the waiting threads. -/
def WC (pid : Nat) (p : Proc) : Prop :=
  ∀ u, ∃ L : List Nat, L.Nodup ∧ (∀ t, t ∈ L ↔ WaitsOn (p.threads t) u) ∧ waitingOf pid p.reg u = L.length

theorem WC.same {pid : Nat} {p p' : Proc} (h : WC pid p) (hw : ∀ u, waitingOf pid p'.reg u = waitingOf pid p.reg u)
    (ht : ∀ t u, WaitsOn (p'.threads t) u ↔ WaitsOn (p.threads t) u) : WC pid p' := by
  intro u
  obtain ⟨L, h1, h2, h3⟩ := h u
  exact ⟨L, h1, fun t => (h2 t).trans (ht t u).symm, (hw u).trans h3⟩

theorem waitsOn_upd {th : Nat → PC} {t : Nat} {pc : PC} (h1 : ∀ u, ¬ WaitsOn (th t) u) (h2 : ∀ u, ¬ WaitsOn pc u) (t' : Nat)
    (u : Uid) : WaitsOn (updMap th t pc t') u ↔ WaitsOn (th t') u := by
  by_cases h : t' = t
  · subst h; rw [updMap_same]; exact ⟨fun h => absurd h (h2 u), fun h => absurd h (h1 u)⟩
  · rw [updMap_other _ _ h]

theorem waitsOn_notify (th : Nat → PC) (uid : Uid) (t : Nat) (u : Uid) :
    WaitsOn (notifyAll uid th t) u ↔ WaitsOn (th t) u := by
  unfold notifyAll
  cases h : th t <;> try exact Iff.rfl
  rename_i q b
  by_cases hq : q.uid = uid
  · simp only [hq, if_true]
    constructor
    · rintro ⟨q', b', he, hu⟩; cases he; exact ⟨q, b, rfl, hu⟩
    · rintro ⟨q', b', he, hu⟩; cases he; exact ⟨q, true, rfl, hu⟩
  · simp only [hq, if_false]

theorem noWait {pc : PC} (h : ∀ q b, pc ≠ .waiting q b) (u : Uid) : ¬ WaitsOn pc u := by
  rintro ⟨q, b, h', _⟩; exact h q b h'

/-- A thread that does not wait fails. -/
theorem WC.failLock {pid : Nat} {p : Proc} (h : WC pid p) {r : Registry} (hr : ∀ u, waitingOf pid r u = waitingOf pid p.reg u)
    (k : KTable) {t : Nat} {q : Req} (ht : ∀ q b, p.threads t ≠ .waiting q b) :
    WC pid (failLock pid { p with reg := r } k t q).1 := by
  apply h.same
  · intro u; rw [(failLock_crit pid _ k t q).2]; exact hr u
  · intro t' u; rw [failLock_threads]; exact waitsOn_upd (noWait ht) (noWait (by simp)) t' u

theorem nodup_cons_of {L : List Nat} (h : L.Nodup) {t : Nat} (ht : t ∉ L) : (t :: L).Nodup :=
  List.nodup_cons.2 ⟨ht, h⟩

/-- One attempt of a thread that is not counted as waiting. -/
theorem WC.attemptReg {pid : Nat} {p p₀ : Proc} (h : WC pid p₀) (k : KTable) {t : Nat} {q : Req}
    (h0 : ∀ t', t' ≠ t → p.threads t' = p₀.threads t') (ht : ∀ q b, p₀.threads t ≠ .waiting q b)
    (hr : ∀ u, waitingOf pid p.reg u = waitingOf pid p₀.reg u) :
    WC pid (attemptReg pid p k t q).1 ∧ .keyErr pid ∉ (attemptReg pid p k t q).2.2 := by
  have hup : ∀ pc, (∀ q b, pc ≠ .waiting q b) → ∀ t' u, WaitsOn (updMap p.threads t pc t') u ↔ WaitsOn (p₀.threads t') u := by
    intro pc hpc t' u
    by_cases h' : t' = t
    · subst h'; rw [updMap_same]; exact ⟨fun h => absurd h (noWait hpc u), fun h => absurd h (noWait ht u)⟩
    · rw [updMap_other _ _ h', h0 t' h']
  unfold Verif.attemptReg
  split
  · rename_i x r hreg
    obtain ⟨h1, h2, h3, h4, h5, h6⟩ := register_nok hreg (by simp)
    refine ⟨h.same (fun u => ?_) (fun t' u => ?_), by simp [Verif.failLock]⟩
    · rw [(failLock_crit pid _ k t q).2]; exact (h4 u).trans (hr u)
    · rw [failLock_threads]; exact hup _ (by simp) t' u
  · rename_i r hreg
    obtain ⟨h1, h2, h3, h4, h5⟩ := register_ok hreg
    exact ⟨h.same (fun u => (h4 u).trans (hr u)) (hup _ (by simp)), by simp⟩
  · rename_i r hreg
    obtain ⟨h1, h2, h3, h4, h5, h6⟩ := register_nok hreg (by simp)
    split
    · split
      · rename_i r' hinc
        obtain ⟨i1, i2, i3, i4⟩ := incWaiting_view h1 hinc
        refine ⟨fun u => ?_, by simp⟩
        obtain ⟨L, l1, l2, l3⟩ := h u
        by_cases hu : u = q.uid
        · subst hu
          refine ⟨t :: L, nodup_cons_of l1 (fun hm => noWait ht _ ((l2 t).1 hm)), fun t' => ?_, ?_⟩
          · change _ ↔ WaitsOn (updMap p.threads t _ t') _
            by_cases h' : t' = t
            · subst h'; rw [updMap_same]; simp [WaitsOn]
            · rw [updMap_other _ _ h', h0 t' h', List.mem_cons, l2 t']; simp [h']
          · change waitingOf pid r' q.uid = _
            rw [i4, if_pos rfl, h4, hr, l3]; rfl
        · refine ⟨L, l1, fun t' => ?_, ?_⟩
          · change _ ↔ WaitsOn (updMap p.threads t _ t') _
            by_cases h' : t' = t
            · subst h'; rw [updMap_same, l2]
              constructor
              · intro h; exact absurd h (noWait ht _)
              · rintro ⟨q', b, he, hq⟩; cases he; exact absurd hq.symm hu
            · rw [updMap_other _ _ h', h0 t' h', l2]
          · change waitingOf pid r' u = _
            rw [i4, if_neg hu, h4, hr, l3]
      · rename_i hinc
        unfold Registry.incWaiting at hinc
        split at hinc
        · rename_i hn; exact absurd hn h5
        · cases hinc
    · exact ⟨h.same (fun u => (h4 u).trans (hr u)) (hup _ (by simp)), by simp⟩

theorem entry_of_waiting {pid : Nat} {r : Registry} {u : Uid} (h : waitingOf pid r u ≠ 0) : r.entries u ≠ none := by
  intro hn
  apply h
  unfold waitingOf
  split
  · rw [hn]
  · rfl

theorem stepProc_wait {pid : Nat} {p : Proc} {k : KTable} {l : PLabel} {a : Act} (hw : WC pid p)
    (h : stepProc pid p k l = some a) : WC pid a.1 ∧ .keyErr pid ∉ a.2.2 := by
  have setpc : ∀ t pc, (∀ q b, p.threads t ≠ .waiting q b) → (∀ q b, pc ≠ .waiting q b) → WC pid (p.setPC t pc) :=
    fun t pc h1 h2 => hw.same (fun _ => rfl) (waitsOn_upd (noWait h1) (noWait h2))
  cases l with
  | osOpen fd uid =>
    simp only [stepProc] at h
    split at h
    · cases h; exact ⟨hw.same (fun _ => rfl) (fun _ _ => Iff.rfl), by simp⟩
    · cases h
  | openS sid fd uid =>
    simp only [stepProc] at h
    split at h
    · cases h; exact ⟨hw.same (fun _ => rfl) (fun _ _ => Iff.rfl), by simp⟩
    · cases h
  | wrapS sid fd cf =>
    simp only [stepProc] at h
    split at h
    · cases h
    · split at h
      · cases h; exact ⟨hw.same (fun _ => rfl) (fun _ _ => Iff.rfl), by simp⟩
      · cases h
  | lockCall tid sid len start shared llb =>
    simp only [stepProc] at h
    split at h
    · rename_i hpc hst
      split at h
      · cases h
        exact ⟨hw.same (fun _ => rfl) (waitsOn_upd (noWait (by simp [hpc])) (noWait (by simp))), by simp⟩
      · cases h
    · cases h
  | reg tid =>
    simp only [stepProc] at h
    split at h
    · rename_i q hpc hcr
      cases h
      exact hw.attemptReg k (fun _ _ => rfl) (by simp [hpc]) (fun _ => rfl)
    · cases h
  | wake tid =>
    simp only [stepProc] at h
    split at h
    · rename_i q hpc hcr
      obtain ⟨L, l1, l2, l3⟩ := hw q.uid
      have hin : tid ∈ L := (l2 tid).2 ⟨q, true, hpc, rfl⟩
      have hpos : waitingOf pid p.reg q.uid ≠ 0 := by
        rw [l3]
        intro h0
        rw [List.length_eq_zero_iff] at h0
        rw [h0] at hin
        cases hin
      split at h
      · rename_i r hr
        cases h
        obtain ⟨d1, d2, d3, d4, d5⟩ := decWaiting_view (pid := pid) hr
        apply WC.attemptReg (p₀ := { p with reg := r, threads := updMap p.threads tid .idle }) _ k
        · intro t' h'; exact (updMap_other _ _ h').symm
        · intro q b; simp [updMap_same]
        · intro u; rfl
        · intro u
          by_cases hu : u = q.uid
          · subst hu
            refine ⟨L.erase tid, l1.erase _, fun t' => ?_, ?_⟩
            · rw [l1.mem_erase_iff, l2]
              change _ ↔ WaitsOn (updMap p.threads tid _ t') _
              by_cases h' : t' = tid
              · subst h'; rw [updMap_same]; simp [WaitsOn]
              · rw [updMap_other _ _ h']; simp [h']
            · change waitingOf pid r q.uid = _
              rw [d4, if_pos rfl, l3, List.length_erase_of_mem hin]
          · obtain ⟨L', m1, m2, m3⟩ := hw u
            refine ⟨L', m1, fun t' => ?_, ?_⟩
            · rw [m2]
              change _ ↔ WaitsOn (updMap p.threads tid _ t') _
              by_cases h' : t' = tid
              · subst h'; rw [updMap_same]
                constructor
                · rintro ⟨q', b, he, hq⟩; rw [hpc] at he; cases he; exact absurd hq.symm hu
                · rintro ⟨q', b, he, hq⟩; cases he
              · rw [updMap_other _ _ h']
            · change waitingOf pid r u = _
              rw [d4, if_neg hu, m3]
      · rename_i x hx
        unfold Registry.decWaiting at hx
        split at hx
        · rename_i hn; exact absurd hn (entry_of_waiting hpos)
        · cases hx
    · cases h
  | kern tid =>
    simp only [stepProc] at h
    split at h
    · rename_i q hpc
      split at h
      · cases h; exact ⟨setpc _ _ (by simp [hpc]) (by simp), by simp⟩
      · split at h
        · cases h; exact ⟨setpc _ _ (by simp [hpc]) (by simp), by simp⟩
        · split at h
          · split at h
            · cases h
            · cases h; exact ⟨setpc _ _ (by simp [hpc]) (by simp), by simp⟩
          · cases h
            refine ⟨?_, by simp [grant]⟩
            simp only [grant, release_eq]
            exact hw.same (fun _ => rfl) (waitsOn_upd (noWait (by simp [hpc])) (noWait (by simp)))
    · cases h
  | kernErr tid =>
    simp only [stepProc] at h
    split at h
    · rename_i q hpc; cases h; exact ⟨setpc _ _ (by simp [hpc]) (by simp), by simp⟩
    · cases h
  | kernExc tid =>
    simp only [stepProc] at h
    split at h
    · rename_i q hpc; cases h; exact ⟨setpc _ _ (by simp [hpc]) (by simp), by simp⟩
    · cases h
  | kernIntr tid =>
    simp only [stepProc] at h
    split at h
    · rename_i q hpc
      split at h
      · cases h
      · cases h; exact ⟨setpc _ _ (by simp [hpc]) (by simp), by simp⟩
    · cases h
  | unwind tid =>
    simp only [stepProc] at h
    split at h
    · rename_i q hpc hcr
      cases h
      refine ⟨?_, by simp [failLock]⟩
      unfold unregisterN
      split
      · rename_i b r hr
        obtain ⟨h1, h2, h3, h4, h5⟩ := unregister_ok hr
        apply hw.same
        · intro u; rw [(failLock_crit pid _ k _ _).2]; exact h4 u
        · intro t' u
          rw [failLock_threads]
          by_cases ht : t' = tid
          · subst ht; rw [updMap_same, hpc]; simp [WaitsOn]
          · rw [updMap_other _ _ ht]
            dsimp only
            split
            · exact waitsOn_notify _ _ _ _
            · exact Iff.rfl
      · rename_i x r hr
        obtain ⟨_, rfl, _⟩ := unregister_error hr
        exact WC.failLock hw (fun u => by simp) k (by simp [hpc])
    · cases h
  | retry tid =>
    simp only [stepProc] at h
    split at h
    · rename_i q hpc; cases h; exact ⟨setpc _ _ (by simp [hpc]) (by simp), by simp⟩
    · rename_i q hpc; cases h; exact ⟨setpc _ _ (by simp [hpc]) (by simp), by simp⟩
    · cases h
  | expire tid =>
    simp only [stepProc] at h
    split at h
    · rename_i q hpc
      split at h
      · cases h
      · cases h
        exact ⟨WC.failLock hw (fun _ => rfl) k (by simp [hpc]), by simp [failLock]⟩
    · rename_i q hpc
      split at h
      · cases h
      · cases h; exact ⟨setpc _ _ (by simp [hpc]) (by simp), by simp⟩
    · cases h
  | unlock sid len start =>
    simp only [stepProc] at h
    split at h
    · rename_i st hst hcr
      split at h
      · cases h
        unfold unlockStream unregisterN
        dsimp only
        split
        · rename_i x p' hu
          split at hu
          · cases hu
          · rename_i x r hr
            cases hu
            obtain ⟨_, rfl, _⟩ := unregister_error hr
            exact ⟨hw.same (fun u => by simp) (fun _ _ => Iff.rfl), by simp⟩
        · rename_i b p' hu
          split at hu
          · rename_i b r hr
            cases hu
            obtain ⟨h1, h2, h3, h4, h5⟩ := unregister_ok hr
            refine ⟨hw.same h4 (fun t u => ?_), by simp⟩
            dsimp only
            split
            · exact waitsOn_notify _ _ _ _
            · exact Iff.rfl
          · cases hu
      · cases h
    · cases h
  | close sid =>
    simp only [stepProc] at h
    split at h
    · rename_i st hst hcr
      split at h
      · cases h
      · split at h
        · cases h
          obtain ⟨h1, h2, h3, h4, h5, h6⟩ := removeFileLocks_view pid p.reg st.uid st.fd
          exact ⟨hw.same h5 (fun _ _ => Iff.rfl), by simp [closeStream]⟩
        · cases h; exact ⟨hw, by simp⟩
    · cases h
  | micro =>
    simp only [stepProc] at h
    split at h
    · rename_i m rest hcr
      cases h
      cases m with
      | kunlock fd uid s len =>
        simp only [doMicro]
        split <;> exact ⟨hw.same (fun _ => rfl) (fun _ _ => Iff.rfl), by simp⟩
      | purge uid =>
        simp only [doMicro]
        obtain ⟨h1, h2⟩ := hasLocks_view pid p.reg uid
        split
        · exact ⟨hw.same (fun u => by rw [h2]; simp) (fun _ _ => Iff.rfl), by simp⟩
        · refine ⟨hw.same (fun u => ?_) (fun _ _ => Iff.rfl), by simp⟩
          rw [(removeData_view pid _ uid).2.2.2.2.1, h2]; simp
      | nclose fd =>
        simp only [doMicro]
        split <;> exact ⟨hw.same (fun _ => rfl) (fun _ _ => Iff.rfl), by simp⟩
      | addData uid fd =>
        by_cases hfd : fd = 0
        · subst hfd
          simp only [doMicro, Registry.addData, if_true]
          exact ⟨hw.same (fun _ => rfl) (fun _ _ => Iff.rfl), by simp⟩
        · obtain ⟨h1, h2, h3, h4, h5, h6⟩ := addData_view pid p.reg uid hfd
          simp only [doMicro]
          split
          · rename_i x r hr; rw [hr] at h1; cases h1
          · rename_i r hr
            rw [hr] at h5
            exact ⟨hw.same h5 (fun _ _ => Iff.rfl), by simp⟩
      | delEntry uid =>
        simp only [doMicro]
        exact ⟨hw.same (tryDelete_view pid p.reg uid).2.2.2.1 (fun _ _ => Iff.rfl), by simp⟩
    · cases h

/-! ## No descriptor error -/

theorem attemptReg_noBad (pid : Nat) (p : Proc) (k : KTable) (t : Nat) (q : Req) (pid' fd : Nat) :
    .badFd pid' fd ∉ (attemptReg pid p k t q).2.2 := by
  intro h
  rcases attemptReg_events _ _ _ _ _ _ h with h | h <;> cases h

theorem stepProc_noBad {pid : Nat} {p : Proc} {k : KTable} {l : PLabel} {a : Act} (hi : VInv (view pid p))
    (h : stepProc pid p k l = some a) (pid' fd' : Nat) : .badFd pid' fd' ∉ a.2.2 := by
  cases l with
  | kern tid =>
    simp only [stepProc] at h
    split at h
    · rename_i q hpc
      obtain ⟨st, h1, h2, h3, h4, h5⟩ := hi.thr tid q (by rw [show (view pid p).threads tid = _ from hpc]; rfl)
      have hl := hi.live _ _ h1 h2
      split at h
      · rename_i hn
        rw [h3, show (view pid p).fds q.fd = _ from hn] at hl; cases hl
      · (repeat' split at h) <;> cases h <;> simp [grant]
    · cases h
  | micro =>
    simp only [stepProc] at h
    split at h
    · rename_i m rest hcr
      have hcr' : (view pid p).crit = m :: rest := hcr
      cases h
      cases m with
      | kunlock fd uid s len =>
        have a' : p.fds fd = some uid := (hi.critU fd uid s len (by rw [hcr']; simp)).1
        simp [doMicro, a']
      | nclose fd =>
        obtain ⟨⟨u, hu⟩, hn⟩ := hi.closing fd (by rw [hcr', mem_toClose]; simp)
        have hu' : p.fds fd = some u := hu
        simp [doMicro, hu']
      | purge uid => simp only [doMicro]; split <;> simp
      | addData uid fd => simp only [doMicro]; split <;> simp
      | delEntry uid => simp [doMicro]
    · cases h
  | unlock sid len start =>
    simp only [stepProc] at h
    (repeat' split at h) <;> cases h
    simp only [unlockStream]
    split <;> simp
  | _ =>
    simp only [stepProc] at h
    (repeat' split at h) <;> first
      | (cases h; done)
      | (cases h; exact attemptReg_noBad _ _ _ _ _ _ _)
      | (cases h; simp [failLock, closeStream])

/-! ## No lost wake-up, unless locks are dropped by `close` -/

/-- Every sleeping thread that was not notified waits for a registered lock that conflicts with its request. -/
def WB (pid : Nat) (p : Proc) : Prop :=
  ∀ t q, p.threads t = .waiting q false → ∃ x ∈ tableOf pid p.reg q.uid, ConflictsWith x q.fd q.shared q.start q.stop

theorem WB.same {pid : Nat} {p p' : Proc} (h : WB pid p)
    (hT : ∀ u x, x ∈ tableOf pid p.reg u → x ∈ tableOf pid p'.reg u)
    (ht : ∀ t q, p'.threads t = .waiting q false → p.threads t = .waiting q false) : WB pid p' := by
  intro t q hq
  obtain ⟨x, hx, hc⟩ := h t q (ht t q hq)
  exact ⟨x, hT _ _ hx, hc⟩

theorem upd_waiting {th : Nat → PC} {t : Nat} {pc : PC} (h2 : ∀ q b, pc ≠ .waiting q b) (t' : Nat)
    (q : Req) (h : updMap th t pc t' = .waiting q false) : th t' = .waiting q false := by
  by_cases h' : t' = t
  · subst h'; rw [updMap_same] at h; exact absurd h (h2 _ _)
  · rwa [updMap_other _ _ h'] at h

theorem WB.attemptReg {pid : Nat} {p : Proc} (h : WB pid p) (k : KTable) (t : Nat) (q : Req) :
    WB pid (attemptReg pid p k t q).1 := by
  unfold Verif.attemptReg
  split
  · rename_i x r hreg
    obtain ⟨h1, h2, h3, h4, h5, h6⟩ := register_nok hreg (by simp)
    apply h.same
    · intro u x hx; rw [(failLock_crit pid _ k t q).2]; dsimp only; rw [h2]; exact hx
    · intro t' q' hq; rw [failLock_threads] at hq; exact upd_waiting (by simp) t' q' hq
  · rename_i r hreg
    obtain ⟨h1, h2, h3, h4, h5⟩ := register_ok hreg
    apply h.same
    · intro u x hx
      change x ∈ tableOf pid r u
      rw [h2]
      split
      · rename_i hu; subst hu; exact List.mem_append_left _ hx
      · exact hx
    · intro t' q' hq; exact upd_waiting (by simp) t' q' hq
  · rename_i r hreg
    obtain ⟨h1, h2, h3, h4, h5, h6⟩ := register_nok hreg (by simp)
    have hscan : scanLocks q.fd q.shared q.start (newEnd q.start q.len) (tableOf pid p.reg q.uid) = .ok false := by
      rw [← register_fst, hreg]
    obtain ⟨x, hx, _, hconf⟩ := scan_false_mem hscan
    split
    · split
      · rename_i r' hinc
        obtain ⟨i1, i2, i3, i4⟩ := incWaiting_view h1 hinc
        intro t' q' hq
        change updMap p.threads t _ t' = _ at hq
        change ∃ x ∈ tableOf pid r' q'.uid, _
        rw [i2, h2]
        by_cases h' : t' = t
        · subst h'; rw [updMap_same] at hq; cases hq; exact ⟨x, hx, hconf⟩
        · rw [updMap_other _ _ h'] at hq; exact h t' q' hq
      · apply h.same
        · intro u x hx; rw [(failLock_crit pid _ k t q).2]; dsimp only; rw [h2]; exact hx
        · intro t' q' hq; rw [failLock_threads] at hq; exact upd_waiting (by simp) t' q' hq
    · apply h.same
      · intro u x hx; change x ∈ tableOf pid r u; rw [h2]; exact hx
      · intro t' q' hq; exact upd_waiting (by simp) t' q' hq

theorem notify_waiting {th : Nat → PC} {uid : Uid} {t : Nat} {q : Req} (h : notifyAll uid th t = .waiting q false) :
    th t = .waiting q false ∧ q.uid ≠ uid := by
  unfold notifyAll at h
  cases hp : th t <;> rw [hp] at h <;> dsimp only at h <;> try cases h
  rename_i q' b
  split at h
  · cases h
  · cases h; exact ⟨rfl, ‹_›⟩

theorem WB.unregisterN {pid : Nat} {p : Proc} (h : WB pid p) (uid : Uid) (fd : Nat) (len : Option Int) (s : Int) :
    WB pid (unregisterN pid p uid fd len s).2 := by
  unfold Verif.unregisterN
  split
  · rename_i b r hr
    obtain ⟨h1, h2, h3, h4, h5, h6⟩ := unregister_ok hr
    intro t q hq
    dsimp only at hq ⊢
    split at hq
    · obtain ⟨hq1, hq2⟩ := notify_waiting hq
      rw [h2, if_neg hq2]
      exact h t q hq1
    · rename_i hn
      simp only [Option.isSome_iff_ne_none, ne_eq, Classical.not_not] at hn
      obtain ⟨x, hx, hc⟩ := h t q hq
      refine ⟨x, ?_, hc⟩
      rw [h2]
      split
      · rename_i hu
        rw [hu, (checkForking_entries_none hn).1] at hx; cases hx
      · exact hx
  · rename_i x r hr
    obtain ⟨_, rfl, _⟩ := unregister_error hr
    exact h.same (fun u x hx => by simpa using hx) (fun _ _ h => h)

/-- The only action that can break the property is closing a stream that holds locks. -/
theorem stepProc_wb {pid : Nat} {p : Proc} {k : KTable} {H : List Held} {l : PLabel} {a : Act} (hi : VInv (view pid p))
    (hh : VHeld pid (view pid p) H) (hw : WB pid p)
    (hc : ∀ sid u, .closed pid sid u ∈ a.2.2 → ∀ x ∈ H, (x.pid, x.sid) ≠ (pid, sid))
    (h : stepProc pid p k l = some a) : WB pid a.1 := by
  have setpc : ∀ t pc, (∀ q b, pc ≠ .waiting q b) → WB pid (p.setPC t pc) :=
    fun t pc h2 => hw.same (fun _ _ h => h) (upd_waiting h2)
  have failok : ∀ (p' : Proc) t q, WB pid p' → WB pid (failLock pid p' k t q).1 := by
    intro p' t q hp'
    apply hp'.same
    · intro u x hx; rw [(failLock_crit pid _ k t q).2]; exact hx
    · intro t' q' hq; rw [failLock_threads] at hq; exact upd_waiting (by simp) t' q' hq
  cases l with
  | osOpen fd uid =>
    simp only [stepProc] at h
    split at h
    · cases h; exact hw.same (fun _ _ h => h) (fun _ _ h => h)
    · cases h
  | openS sid fd uid =>
    simp only [stepProc] at h
    split at h
    · cases h; exact hw.same (fun _ _ h => h) (fun _ _ h => h)
    · cases h
  | wrapS sid fd cf =>
    simp only [stepProc] at h
    split at h
    · cases h
    · split at h
      · cases h; exact hw.same (fun _ _ h => h) (fun _ _ h => h)
      · cases h
  | lockCall tid sid len start shared llb =>
    simp only [stepProc] at h
    split at h
    · split at h
      · cases h; exact hw.same (fun _ _ h => h) (upd_waiting (by simp))
      · cases h
    · cases h
  | reg tid =>
    simp only [stepProc] at h
    split at h
    · cases h; exact hw.attemptReg k _ _
    · cases h
  | wake tid =>
    simp only [stepProc] at h
    split at h
    · rename_i q hpc hcr
      split at h
      · rename_i r hr
        cases h
        obtain ⟨d1, d2, d3, d4, d5⟩ := decWaiting_view (pid := pid) hr
        apply WB.attemptReg
        exact hw.same (fun u x hx => by dsimp only; rw [d2]; exact hx) (fun _ _ h => h)
      · cases h; exact failok _ _ _ hw
    · cases h
  | kern tid =>
    simp only [stepProc] at h
    split at h
    · split at h
      · cases h; exact setpc _ _ (by simp)
      · split at h
        · cases h; exact setpc _ _ (by simp)
        · split at h
          · split at h
            · cases h
            · cases h; exact setpc _ _ (by simp)
          · cases h
            simp only [grant, release_eq]
            exact hw.same (fun _ _ h => h) (upd_waiting (by simp))
    · cases h
  | kernErr tid =>
    simp only [stepProc] at h
    split at h
    · cases h; exact setpc _ _ (by simp)
    · cases h
  | kernExc tid =>
    simp only [stepProc] at h
    split at h
    · cases h; exact setpc _ _ (by simp)
    · cases h
  | kernIntr tid =>
    simp only [stepProc] at h
    split at h
    · split at h
      · cases h
      · cases h; exact setpc _ _ (by simp)
    · cases h
  | unwind tid =>
    simp only [stepProc] at h
    split at h
    · cases h; exact failok _ _ _ (hw.unregisterN _ _ _ _)
    · cases h
  | retry tid =>
    simp only [stepProc] at h
    split at h
    · cases h; exact setpc _ _ (by simp)
    · cases h; exact setpc _ _ (by simp)
    · cases h
  | expire tid =>
    simp only [stepProc] at h
    split at h
    · split at h
      · cases h
      · cases h; exact failok _ _ _ hw
    · split at h
      · cases h
      · cases h; exact setpc _ _ (by simp)
    · cases h
  | unlock sid len start =>
    simp only [stepProc] at h
    split at h
    · rename_i st hst hcr
      split at h
      · cases h
        have := hw.unregisterN st.uid st.fd (len.map Int.ofNat) start
        unfold unlockStream
        dsimp only
        split
        · rename_i x p' hu; rw [hu] at this; exact this
        · rename_i b p' hu
          rw [hu] at this
          exact this.same (fun _ _ h => h) (fun _ _ h => h)
      · cases h
    · cases h
  | close sid =>
    simp only [stepProc] at h
    split at h
    · rename_i st hst hcr
      split at h
      · cases h
      · rename_i hb
        split at h
        · rename_i ho
          cases h
          obtain ⟨h1, h2, h3, h4, h5, h6⟩ := removeFileLocks_view pid p.reg st.uid st.fd
          refine hw.same (fun u x hx => ?_) (fun _ _ h => h)
          change x ∈ tableOf pid (p.reg.removeFileLocks pid st.uid st.fd).2 u
          rw [h3]
          split
          · rename_i hu
            subst hu
            rw [List.mem_filter, decide_eq_true_eq]
            refine ⟨hx, fun hfd => ?_⟩
            rcases hh.owner _ _ hx with ⟨y, hy, a1, a2, a3, a4, a5, st', a6, a7, a8⟩ | ⟨t, q, a1, a2, a3⟩
            · have hs := hi.distinct _ _ _ _ a6 hst a7 ho (a8.trans hfd)
              exact hc sid st.uid (by simp [closeStream]) y hy (by rw [a1, hs])
            · obtain ⟨st', b1, b2, b3, b4, b5⟩ := hi.thr t q (PC.req_of_registered a1)
              have : q.fd = st.fd := by rw [← hfd, ← a2]; rfl
              have hs := hi.distinct _ _ _ _ b1 hst b2 ho (b3.trans this)
              rw [hs, show (view pid p).streams sid = _ from hst] at b1
              cases b1
              rw [b5] at hb; simp at hb
          · exact hx
        · cases h; exact hw
    · cases h
  | micro =>
    simp only [stepProc] at h
    split at h
    · rename_i m rest hcr
      cases h
      cases m with
      | kunlock fd uid s len =>
        simp only [doMicro]
        split <;> exact hw.same (fun _ _ h => h) (fun _ _ h => h)
      | purge uid =>
        simp only [doMicro]
        obtain ⟨h1, h2⟩ := hasLocks_view pid p.reg uid
        split
        · exact hw.same (fun u x hx => by rw [h2]; simpa using hx) (fun _ _ h => h)
        · refine hw.same (fun u x hx => ?_) (fun _ _ h => h)
          dsimp only
          rw [(removeData_view pid _ uid).2.2.1, h2]; simpa using hx
      | nclose fd =>
        simp only [doMicro]
        split <;> exact hw.same (fun _ _ h => h) (fun _ _ h => h)
      | addData uid fd =>
        by_cases hfd : fd = 0
        · subst hfd
          simp only [doMicro, Registry.addData, if_true]
          exact hw.same (fun _ _ h => h) (fun _ _ h => h)
        · obtain ⟨h1, h2, h3, h4, h5, h6⟩ := addData_view pid p.reg uid hfd
          simp only [doMicro]
          split
          · rename_i x r hr; rw [hr] at h1; cases h1
          · rename_i r hr
            rw [hr] at h3
            exact hw.same (fun u x hx => by dsimp only at h3 ⊢; rw [h3]; exact hx) (fun _ _ h => h)
      | delEntry uid =>
        simp only [doMicro]
        exact hw.same (fun u x hx => by dsimp only; rw [(tryDelete_view pid p.reg uid).2.1]; exact hx) (fun _ _ h => h)
    · cases h

end Verif
