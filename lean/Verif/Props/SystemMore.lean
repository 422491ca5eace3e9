import Verif.Props.System
import Verif.Lemmas.SystemComplete

/-!
# Properties of the whole system: C07, C09, C62
-/

namespace Verif.Props

open Verif Verif.Spec

set_option synthInstance.maxSize 1000

/-! ## C07 -/

/-- C07 (partial): outside of critical sections, a process without any registered lock on a file keeps no postponed
descriptor for it.  Missing: executions where `lock_file` rolls a registration back (`C07_rollback_refuted`). -/
theorem C07_no_leak_partial {ls : List Label} {w : World} {tr : List Event} (h : Reach ls w tr)
    (hl : ls.all Label.noUnwind = true) {pid : Nat} {p : Proc} (hp : w.procs pid = some p) (ha : p.alive = true)
    (hc : p.crit = []) (u : Uid) (hT : tableOf pid p.reg u = []) : pendingOf pid p.reg u = [] := by
  by_cases hd : pendingOf pid p.reg u = []
  · exact hd
  · rcases (h.pending hl pid p hp ha).owed u hd with h1 | h1
    · exact absurd hT h1
    · rw [hc] at h1; exact h1.elim

/-- C07: when `unlock_file()` returns and leaves the file without locks, its critical section ends by itself and closes
all the postponed descriptors of the file. -/
theorem C07_unlock_closes {ls : List Label} {w w' : World} {tr e : List Event} {pid sid : Nat} {len : Option Nat} {s : Int}
    (h : Reach ls w tr) (hs : step w (.act pid (.unlock sid len s)) = some (w', e)) {u : Uid} {a : Int} {b : Option Int}
    (he : .unlocked pid sid u a b ∈ e) {p p' : Proc} (hp : w.procs pid = some p) (hp' : w'.procs pid = some p')
    (hT : tableOf pid p'.reg u = []) :
    ∃ n w'' ev p'', runFrom w' (tr ++ e) (micros pid n) = some (w'', tr ++ e ++ ev) ∧ w''.procs pid = some p'' ∧
      p''.crit = [] ∧ ∀ fd ∈ pendingOf pid p.reg u, .nclose pid fd u ∈ ev := by
  have hr := h.step (l := .act pid (.unlock sid len s)) trivial hs
  simp only [step, hp] at hs
  split at hs
  · rename_i ha
    split at hs
    · rename_i p₁ k e' hst
      cases hs
      obtain ⟨hv, hh⟩ := h.inv.proc _ _ hp ha
      have hps := stepProc_inv hv hh h.inv.kern (fun _ _ _ hl => by cases hl) hst
      dsimp only at hp'
      rw [updMap_same] at hp'
      cases hp'
      obtain ⟨n, w'', ev, p'', e1, e2, _, e4, _, _, e7⟩ := hr.complete (pid := pid) (updMap_same _ _ _) (hps.alive.trans ha)
      refine ⟨n, w'', ev, p'', e1, e2, e4, ?_⟩
      obtain ⟨st, r, p₁, _, rfl, _, hu, rfl⟩ := stepProc_unlocked hst he
      obtain ⟨g1, g2, g3, g4, g5, g6, g7, g8⟩ := unregisterN_ok hu
      have hD : pendingOf pid p₁.reg st.uid = pendingOf pid p.reg st.uid := by
        have := congrArg View.D g7; exact congrFun this st.uid
      intro fd hd
      refine (e7 (by simp [NoZero, unlockMicros]) st.uid hT).1 (by simp [unlockMicros]) fd ?_
      dsimp only
      rw [hD]; exact hd
    · cases hs
  · cases hs

/-- C07: when `close()` leaves the file without locks, its critical section ends by itself and closes the descriptor of
the stream and all the postponed descriptors of the file (streams that own their descriptor; descriptor 0 is excluded,
see `C07_fd0_refuted`). -/
theorem C07_close_closes {ls : List Label} {w w' : World} {tr e : List Event} {pid sid : Nat}
    (h : Reach ls w tr) (hs : step w (.act pid (.close sid)) = some (w', e)) {p p' : Proc} (hp : w.procs pid = some p)
    (hp' : w'.procs pid = some p') {st : Stream} (hst : p.streams sid = some st) (ho : st.isOpen = true)
    (hcf : st.closefd = true) (hfd : st.fd ≠ 0) (hT : tableOf pid p'.reg st.uid = []) :
    ∃ n w'' ev p'', runFrom w' (tr ++ e) (micros pid n) = some (w'', tr ++ e ++ ev) ∧ w''.procs pid = some p'' ∧
      p''.crit = [] ∧ .nclose pid st.fd st.uid ∈ ev ∧ ∀ fd ∈ pendingOf pid p.reg st.uid, .nclose pid fd st.uid ∈ ev := by
  have hr := h.step (l := .act pid (.close sid)) trivial hs
  simp only [step, hp] at hs
  split at hs
  · rename_i ha
    split at hs
    · rename_i p₁ k e' hstp
      cases hs
      obtain ⟨hv, hh⟩ := h.inv.proc _ _ hp ha
      have hps := stepProc_inv hv hh h.inv.kern (fun _ _ _ hl => by cases hl) hstp
      dsimp only at hp'
      rw [updMap_same] at hp'
      cases hp'
      obtain ⟨n, w'', ev, p'', e1, e2, _, e4, _, _, e7⟩ := hr.complete (pid := pid) (updMap_same _ _ _) (hps.alive.trans ha)
      refine ⟨n, w'', ev, p'', e1, e2, e4, ?_⟩
      have hcl := stepProc_closed hstp hst ho
      obtain ⟨h1, h2, h3, h4, h5, h6⟩ := removeFileLocks_view pid p.reg st.uid st.fd
      have hp1 := congrArg Prod.fst hcl
      dsimp only at hp1
      subst hp1
      have hz : NoZero (closeStream pid p w.kern sid st).1.crit := by
        intro u hm
        simp only [closeStream, closeMicros, hcf, if_true, List.mem_append, List.mem_flatMap, unlockMicros,
          List.mem_cons, reduceCtorEq, List.not_mem_nil, or_self, and_false, exists_false, false_or,
          Micro.addData.injEq, or_false] at hm
        exact hfd hm.2.symm
      obtain ⟨f1, f2⟩ := e7 hz st.uid hT
      refine ⟨f2 st.fd (by simp [closeStream, closeMicros, hcf]), fun fd hd => f1 (by simp [closeStream, closeMicros, hcf])
        fd ?_⟩
      simp only [closeStream]
      rw [h4]; exact hd
    · cases hs
  · cases hs

/-- C07: exactly once: a descriptor closed by rsfile was open, is no longer queued anywhere, and no `close` or `lockf` of
rsfile ever meets a descriptor that is not open. -/
theorem C07_closed_once {ls : List Label} {w w' : World} {tr e : List Event} {l : Label} (h : Reach ls w tr)
    (hw : WellWrapped w l) (hs : step w l = some (w', e)) {pid fd : Nat} {u : Uid} (he : .nclose pid fd u ∈ e) :
    (∃ p, w.procs pid = some p ∧ p.fds fd = some u) ∧
    ∃ p', w'.procs pid = some p' ∧ p'.fds fd = none ∧ Micro.nclose fd ∉ p'.crit ∧ ∀ v, fd ∉ pendingOf pid p'.reg v := by
  have hr := h.step hw hs
  cases l with
  | act pid' l =>
    simp only [step] at hs
    split at hs
    · cases hs
    · rename_i p hp
      split at hs
      · rename_i ha
        split at hs
        · rename_i p' k e' hst
          cases hs
          obtain ⟨rfl, rest, hcr, hfd, hreg, he', hf'⟩ := stepProc_nclose hst he
          obtain ⟨hv, hh⟩ := h.inv.proc _ _ hp ha
          have hps := stepProc_inv hv hh h.inv.kern (fun sid fd cf hl s st e o => by
            subst hl; exact hw p hp s st e o) hst
          dsimp only at hf'
          refine ⟨⟨p, hp, hfd⟩, _, updMap_same _ _ _, by rw [hf', updMap_same], ?_, ?_⟩
          · intro hm
            obtain ⟨⟨u', hu'⟩, _⟩ := hps.inv.closing fd (by rw [mem_toClose]; exact Or.inl hm)
            have : p'.fds fd = some u' := hu'
            rw [hf', updMap_same] at this; cases this
          · intro v hm
            have : p'.fds fd = some v := (hps.inv.pend v fd hm).1
            rw [hf', updMap_same] at this; cases this
        · cases hs
      · cases hs
  | newProc p => simp only [step] at hs; split at hs <;> cases hs; cases he
  | fork a b => simp only [step] at hs; (repeat' split at hs) <;> cases hs; simp at he
  | exit p => simp only [step] at hs; (repeat' split at hs) <;> cases hs; simp at he

-- the postponed descriptor 5 is pending, then closed by the last unlock
example : (run closeRun).map (fun x => (x.1.procs 1).map (fun p => pendingOf 1 p.reg (0, 7))) = some (some [5]) ∧
    (run (closeRun ++ doUnlock 1 10 (some 5) 0 ++ doUnlock 1 11 (some 5) 5 ++ micros 1 1)).map
      (fun x => (x.1.procs 1).map (fun p => (pendingOf 1 p.reg (0, 7), p.fds 5, tableOf 1 p.reg (0, 7), p.crit))) =
      some (some ([], none, [], [])) ∧ closeRun.all Label.noUnwind = true := by decide

/-- Stream 11 is closed while stream 10 is acquiring a lock, which fails afterwards. -/
def leakRun : List Label :=
  [.newProc 1, .act 1 (.openS 10 3 (0, 7)), .act 1 (.openS 11 4 (0, 7)), .act 1 (.lockCall 0 10 (some 5) 0 false false),
    .act 1 (.reg 0), .act 1 (.close 11)] ++ micros 1 3 ++ [.act 1 (.kernErr 0), .act 1 (.expire 0), .act 1 (.unwind 0)]

/-- C07 without the restriction is false of the code: the rollback of `rsfileio_abstract.py:631-636` does not purge. -/
theorem C07_rollback_refuted : ¬ ∀ (ls : List Label) (w : World) (tr : List Event), Reach ls w tr → ∀ pid p,
    w.procs pid = some p → p.alive = true → p.crit = [] → ∀ u, tableOf pid p.reg u = [] → pendingOf pid p.reg u = [] := by
  intro hall
  have hh : (run leakRun).map (fun x => (x.1.procs 1).map (fun p => (p.alive, p.crit, tableOf 1 p.reg (0, 7),
      pendingOf 1 p.reg (0, 7)))) = some (some (true, [], [], [4])) := by decide
  cases hr : run leakRun with
  | none => rw [hr] at hh; cases hh
  | some x =>
    rw [hr] at hh
    simp only [Option.map_some, Option.some.injEq] at hh
    cases hp : x.1.procs 1 with
    | none => rw [hp] at hh; cases hh
    | some p =>
      rw [hp] at hh
      simp only [Option.map_some, Option.some.injEq, Prod.mk.injEq] at hh
      have := hall _ x.1 x.2 (reach_of_run (by decide) hr) 1 p hp hh.1 hh.2.1 (0, 7) hh.2.2.1
      rw [hh.2.2.2] at this; cases this

/-- Descriptor 0 is never closed by `close()` (`assert data`, `rsfile_registries.py:250`). -/
theorem C07_fd0_refuted : ∃ w tr p, Reach ([.newProc 1, .act 1 (.openS 10 0 (0, 7)), .act 1 (.close 10)] ++ micros 1 1) w tr ∧
    w.procs 1 = some p ∧ p.crit = [] ∧ p.fds 0 = some (0, 7) ∧ pendingOf 1 p.reg (0, 7) = [] := by
  have hh : (run ([.newProc 1, .act 1 (.openS 10 0 (0, 7)), .act 1 (.close 10)] ++ micros 1 1)).map (fun x =>
      (x.1.procs 1).map (fun p => (p.crit, p.fds 0, pendingOf 1 p.reg (0, 7)))) = some (some ([], some (0, 7), [])) := by
    decide
  cases hr : run ([.newProc 1, .act 1 (.openS 10 0 (0, 7)), .act 1 (.close 10)] ++ micros 1 1) with
  | none => rw [hr] at hh; cases hh
  | some x =>
    rw [hr] at hh
    simp only [Option.map_some, Option.some.injEq] at hh
    cases hp : x.1.procs 1 with
    | none => rw [hp] at hh; cases hh
    | some p =>
      rw [hp] at hh
      simp only [Option.map_some, Option.some.injEq, Prod.mk.injEq] at hh
      exact ⟨x.1, x.2, p, reach_of_run (by decide) hr, hp, hh.1, hh.2.1, hh.2.2⟩

/-- A child created by `fork` while descriptors are postponed keeps them open and does not know them any more. -/
theorem C07_fork_refuted : ∃ w tr p, Reach (closeRun ++ [.fork 1 2]) w tr ∧
    w.procs 2 = some p ∧ p.fds 5 = some (0, 7) ∧ pendingOf 2 p.reg (0, 7) = [] ∧
    ∀ s st, p.streams s = some st → st.isOpen = true → st.fd ≠ 5 := by
  have hh : (run (closeRun ++ [.fork 1 2])).map (fun x =>
      (x.1.procs 2).map (fun p => (p.fds 5, pendingOf 2 p.reg (0, 7)))) = some (some (some (0, 7), [])) := by decide
  cases hr : run (closeRun ++ [.fork 1 2]) with
  | none => rw [hr] at hh; cases hh
  | some x =>
    rw [hr] at hh
    simp only [Option.map_some, Option.some.injEq] at hh
    cases hp : x.1.procs 2 with
    | none => rw [hp] at hh; cases hh
    | some p =>
      rw [hp] at hh
      simp only [Option.map_some, Option.some.injEq, Prod.mk.injEq] at hh
      have hreach : Reach (closeRun ++ [.fork 1 2]) x.1 x.2 := reach_of_run (by decide) hr
      refine ⟨x.1, x.2, p, hreach, hp, hh.1, hh.2, ?_⟩
      obtain ⟨w₀, tr₀, e, h1, h2, h3, h4⟩ := hreach.cases_append
      have hpend : (run closeRun).map (fun x => (x.1.procs 1).map (fun p => (p.alive, pendingOf 1 p.reg (0, 7)))) =
        some (some (true, [5])) := by decide
      cases hr0 : run closeRun with
      | none => rw [hr0] at hpend; cases hpend
      | some y =>
        obtain ⟨rfl, rfl⟩ := h1.det (reach_of_run (by decide) hr0)
        rw [hr0] at hpend
        simp only [Option.map_some, Option.some.injEq] at hpend
        cases hp1 : y.1.procs 1 with
        | none => rw [hp1] at hpend; cases hpend
        | some p1 =>
          rw [hp1] at hpend
          simp only [Option.map_some, Option.some.injEq, Prod.mk.injEq] at hpend
          have hno := ((h1.inv.proc 1 p1 hp1 hpend.1).1.pend (0, 7) 5 (by
            change 5 ∈ pendingOf 1 p1.reg (0, 7); rw [hpend.2]; simp)).2
          simp only [step, hp1] at h3
          split at h3
          · rename_i p0 heq _
            cases heq
            simp only [hpend.1, if_true, Option.some.injEq, Prod.mk.injEq] at h3
            rw [← h3.1] at hp
            dsimp only at hp
            rw [updMap_same] at hp
            cases hp
            intro s st hs ho
            simp only [Proc.forked, Option.map_eq_some_iff] at hs
            obtain ⟨st', hs', rfl⟩ := hs
            exact hno s st' hs' ho
          · cases h3

/-! ## C09 -/

/-- C09 (partial): a thread that sleeps in `lock_file` without having been notified always has a reason: a conflicting
lock registered in the process.  Missing: executions where a stream is closed while it holds a lock
(`C09_refuted`). -/
theorem C09_no_lost_wakeup_partial {ls : List Label} {w : World} {tr : List Event} (h : Reach ls w tr)
    (hc : ∀ tr₁ tr₂ pid sid u, tr = tr₁ ++ .closed pid sid u :: tr₂ → ∀ x ∈ heldOf tr₁, (x.pid, x.sid) ≠ (pid, sid))
    {pid : Nat} {p : Proc} (hp : w.procs pid = some p) (ha : p.alive = true) {t : Nat} {q : Req}
    (hq : p.threads t = .waiting q false) :
    ∃ x ∈ tableOf pid p.reg q.uid, ConflictsWith x q.fd q.shared q.start q.stop :=
  h.noLost hc pid p hp ha t q hq

/-- C09: `unlock_file()` notifies all the threads that wait for the file. -/
theorem C09_unlock_notifies {ls : List Label} {w w' : World} {tr e : List Event} {pid sid : Nat} {len : Option Nat} {s : Int}
    (h : Reach ls w tr) (hs : step w (.act pid (.unlock sid len s)) = some (w', e)) {u : Uid} {a : Int} {b : Option Int}
    (he : .unlocked pid sid u a b ∈ e) {p' : Proc} (hp' : w'.procs pid = some p') {t : Nat} {q : Req} {n : Bool}
    (hq : p'.threads t = .waiting q n) (hu : q.uid = u) : n = true := by
  have hr := h.step (l := .act pid (.unlock sid len s)) trivial hs
  simp only [step] at hs
  split at hs
  · cases hs
  · rename_i p hp
    split at hs
    · rename_i ha
      split at hs
      · rename_i p₁ k e' hst
        cases hs
        dsimp only at hp'
        rw [updMap_same] at hp'
        cases hp'
        obtain ⟨st, r, p₁, _, rfl, _, hu', rfl⟩ := stepProc_unlocked hst he
        unfold unregisterN at hu'
        split at hu'
        · rename_i b r hreg
          cases hu'
          dsimp only at hq
          split at hq
          · cases n with
            | true => rfl
            | false => exact absurd hu (notify_waiting hq).2
          · rename_i hn
            exfalso
            have hn : (p.reg.checkForking pid).entries st.uid = none := by simpa using hn
            obtain ⟨L, l1, l2, l3⟩ := h.wait _ _ hp ha st.uid
            rw [(checkForking_entries_none hn).2.2] at l3
            have : t ∈ L := (l2 t).2 ⟨q, n, hq, hu⟩
            rw [List.length_eq_zero_iff.1 l3.symm] at this
            cases this
        · cases hu'
      · cases hs
    · cases hs

/-- C09: a notified thread can go on as soon as the mutex is free, and it gets the registration when nothing
conflicts any more. -/
theorem C09_wake_progress {ls : List Label} {w : World} {tr : List Event} (h : Reach ls w tr) {pid : Nat} {p : Proc}
    (hp : w.procs pid = some p) (ha : p.alive = true) (hc : p.crit = []) {t : Nat} {q : Req}
    (hq : p.threads t = .waiting q true)
    (hno : ∀ x ∈ tableOf pid p.reg q.uid, ¬ ConflictsWith x q.fd q.shared q.start q.stop) :
    ∃ w' p', step w (.act pid (.wake t)) = some (w', []) ∧ w'.procs pid = some p' ∧ p'.threads t = .atKern q := by
  obtain ⟨L, l1, l2, l3⟩ := h.wait _ _ hp ha q.uid
  have hin : t ∈ L := (l2 t).2 ⟨q, true, hq, rfl⟩
  have hpos : waitingOf pid p.reg q.uid ≠ 0 := by
    rw [l3]
    intro h0
    rw [List.length_eq_zero_iff] at h0
    rw [h0] at hin
    cases hin
  cases hd : p.reg.decWaiting q.uid with
  | error x =>
    exfalso
    unfold Registry.decWaiting at hd
    split at hd
    · rename_i hn; exact entry_of_waiting hpos hn
    · cases hd
  | ok r =>
    obtain ⟨d1, d2, d3, d4, d5⟩ := decWaiting_view (pid := pid) hd
    have hscan : (r.register pid q.uid q.fd q.len q.start q.shared).1 = .ok true := by
      rw [register_fst, d2]; exact (scan_true_iff _ _ _ _ _).2 hno
    rcases hreg : r.register pid q.uid q.fd q.len q.start q.shared with ⟨o, r'⟩
    rw [hreg] at hscan
    simp only at hscan
    subst hscan
    refine ⟨⟨updMap w.procs pid (some (({ p with reg := r' } : Proc).setPC t (.atKern q))), w.kern⟩, _, ?_,
      updMap_same _ _ _, updMap_same _ _ _⟩
    simp only [step, hp, ha, if_true, stepProc, hq, hc, hd, attemptReg, hreg]

/-- Thread 1 waits for the lock of stream 10, which is unlocked. -/
def wakeRun : List Label :=
  [.newProc 1, .act 1 (.openS 10 3 (0, 7)), .act 1 (.openS 11 4 (0, 7))] ++ doLock 1 0 10 (some 10) 0 false ++
  [.act 1 (.lockCall 1 11 (some 10) 5 false true), .act 1 (.reg 1)]

example : (run wakeRun).map (fun x => (x.1.procs 1).map (fun p => p.threads 1)) =
    some (some (.waiting ⟨11, 4, (0, 7), some 10, 5, false, true⟩ false)) ∧
    (run (wakeRun ++ doUnlock 1 10 (some 10) 0)).map (fun x => (x.1.procs 1).map (fun p => p.threads 1)) =
    some (some (.waiting ⟨11, 4, (0, 7), some 10, 5, false, true⟩ true)) ∧
    (run (wakeRun ++ doUnlock 1 10 (some 10) 0 ++ [.act 1 (.wake 1), .act 1 (.kern 1)])).map (fun x => heldOf x.2) =
    some [⟨1, 11, (0, 7), false, 5, some 15⟩] := by decide

/-- C09 is false of the code: when the owner of the lock closes its stream, nobody is notified
(`rsfile_registries.py:205-225`); the waiting thread sleeps although no lock is registered. -/
theorem C09_refuted : ¬ ∀ (ls : List Label) (w : World) (tr : List Event), Reach ls w tr → ∀ pid p,
    w.procs pid = some p → p.alive = true → p.crit = [] → ∀ t q, p.threads t = .waiting q false →
    ∃ x ∈ tableOf pid p.reg q.uid, ConflictsWith x q.fd q.shared q.start q.stop := by
  intro hall
  have hh : (run (wakeRun ++ [.act 1 (.close 10)] ++ micros 1 6)).map (fun x => (x.1.procs 1).map (fun p =>
      (p.alive, p.crit, p.threads 1, tableOf 1 p.reg (0, 7)))) =
      some (some (true, [], .waiting ⟨11, 4, (0, 7), some 10, 5, false, true⟩ false, [])) := by decide
  cases hr : run (wakeRun ++ [.act 1 (.close 10)] ++ micros 1 6) with
  | none => rw [hr] at hh; cases hh
  | some x =>
    rw [hr] at hh
    simp only [Option.map_some, Option.some.injEq] at hh
    cases hp : x.1.procs 1 with
    | none => rw [hp] at hh; cases hh
    | some p =>
      rw [hp] at hh
      simp only [Option.map_some, Option.some.injEq, Prod.mk.injEq] at hh
      obtain ⟨y, hy, _⟩ := hall _ x.1 x.2 (reach_of_run (by decide) hr) 1 p hp hh.1 hh.2.1 1 _ hh.2.2.1
      dsimp only at hy
      rw [hh.2.2.2] at hy; cases hy

/-! ## C62 -/

/-- C62: the registry never fails with an internal `KeyError`, and no system call is made with a descriptor that is
not open, in any execution. -/
theorem C62_no_internal_error {ls : List Label} {w : World} {tr : List Event} (h : Reach ls w tr) (pid : Nat) :
    .keyErr pid ∉ tr ∧ ∀ fd, .badFd pid fd ∉ tr := h.noInternal pid

/-- C62: the entry of a file is kept as long as a thread waits on its condition, and the registry counts these
threads. -/
theorem C62_waiters_counted {ls : List Label} {w : World} {tr : List Event} (h : Reach ls w tr) {pid : Nat} {p : Proc}
    (hp : w.procs pid = some p) (ha : p.alive = true) (u : Uid) :
    ∃ L : List Nat, L.Nodup ∧ (∀ t, t ∈ L ↔ ∃ q b, p.threads t = .waiting q b ∧ q.uid = u) ∧
      waitingOf pid p.reg u = L.length ∧ (L ≠ [] → p.reg.entries u ≠ none) := by
  obtain ⟨L, l1, l2, l3⟩ := h.wait _ _ hp ha u
  refine ⟨L, l1, l2, l3, fun hne => ?_⟩
  apply entry_of_waiting (pid := pid)
  rw [l3]
  exact fun h0 => hne (List.length_eq_zero_iff.1 h0)

-- two threads wait; the owner closes its stream: the entry stays
example : (run (wakeRun ++ [.act 1 (.openS 12 5 (0, 7)), .act 1 (.lockCall 2 12 none 0 false true), .act 1 (.reg 2),
    .act 1 (.close 10)] ++ micros 1 6)).map (fun x => (x.1.procs 1).map (fun p =>
      (waitingOf 1 p.reg (0, 7), (p.reg.entries (0, 7)).isSome))) = some (some (2, true)) := by decide

end Verif.Props
