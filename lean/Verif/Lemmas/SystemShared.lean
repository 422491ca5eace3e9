import Verif.Lemmas.SystemInv

/-!
# Requests in progress, and kernel locks behind shared locks
-/

namespace Verif

open Spec

/-- The request of a thread as a lock of the trace. -/
def Req.asHeld (pid : Nat) (q : Req) : Held := ⟨pid, q.sid, q.uid, q.shared, q.start, q.stop⟩

/-- The requests of the threads of a process are requests in progress of the trace. -/
def RInv (pid : Nat) (p : Proc) (R : List Held) : Prop := ∀ t q, (p.threads t).req = some q → q.asHeld pid ∈ R

theorem failLock_threads (pid : Nat) (p : Proc) (k : KTable) (t : Nat) (q : Req) :
    (failLock pid p k t q).1.threads = updMap p.threads t .idle := by
  simp only [failLock, release_eq]; rfl

/-- A thread leaves `lock_file`. -/
theorem RInv.leave {pid : Nat} {p : Proc} {R : List Held} (hi : VInv (view pid p)) (h : RInv pid p R) {t : Nat} {q : Req}
    (hq : (p.threads t).req = some q) {th : Nat → PC}
    (hth : ∀ t' q', (th t').req = some q' → t' ≠ t ∧ (p.threads t').req = some q') :
    ∀ t' q', (th t').req = some q' → q'.asHeld pid ∈ R.filter (fun h => ¬ (h.pid = pid ∧ h.sid = q.sid)) := by
  intro t' q' hq'
  obtain ⟨hne, hq''⟩ := hth t' q' hq'
  simp only [List.mem_filter, decide_eq_true_eq]
  refine ⟨h t' q' hq'', ?_⟩
  rintro ⟨_, hs⟩
  obtain ⟨st, a, _, _, _, e⟩ := hi.thr t q hq
  obtain ⟨st', a', _, _, _, e'⟩ := hi.thr t' q' hq''
  simp only [Req.asHeld] at hs
  rw [hs, a] at a'; cases a'; rw [e] at e'; cases e'; exact hne rfl

theorem updMap_idle_req {th : Nat → PC} {t t' : Nat} {q' : Req} (h : (updMap th t .idle t').req = some q') :
    t' ≠ t ∧ (th t').req = some q' := by
  by_cases ht : t' = t
  · subst ht; rw [updMap_same] at h; cases h
  · rw [updMap_other _ _ ht] at h; exact ⟨ht, h⟩

theorem RInv.setPC {pid : Nat} {p : Proc} {R : List Held} (h : RInv pid p R) {t : Nat} {pc : PC}
    (hq : pc.req = (p.threads t).req) : RInv pid (p.setPC t pc) R := by
  intro t' q' hq'
  change (updMap p.threads t pc t').req = some q' at hq'
  by_cases ht : t' = t
  · subst ht; rw [updMap_same, hq] at hq'; exact h t' q' hq'
  · rw [updMap_other _ _ ht] at hq'; exact h t' q' hq'

theorem RInv.failLock {pid : Nat} {p : Proc} {R : List Held} (hi : VInv (view pid p)) (h : RInv pid p R) {t : Nat}
    {q : Req} (k : KTable) (hq : (p.threads t).req = some q) :
    RInv pid (failLock pid p k t q).1 ((failLock pid p k t q).2.2.foldl requestStep R) := by
  intro t' q' hq'
  rw [failLock_threads] at hq'
  exact RInv.leave hi h hq (fun t' q' => updMap_idle_req) t' q' hq'

theorem RInv.attemptReg {pid : Nat} {p : Proc} {R : List Held} (hi : VInv (view pid p)) (h : RInv pid p R) {t : Nat}
    {q : Req} (k : KTable) (hq : (p.threads t).req = some q) :
    RInv pid (attemptReg pid p k t q).1 ((attemptReg pid p k t q).2.2.foldl requestStep R) := by
  have hstep : ∀ r : Registry, RInv pid (Verif.failLock pid { p with reg := r } k t q).1
      ((Verif.failLock pid { p with reg := r } k t q).2.2.foldl requestStep R) := by
    intro r t' q' hq'
    rw [failLock_threads] at hq'
    exact RInv.leave hi h hq (fun t' q' => updMap_idle_req) t' q' hq'
  unfold Verif.attemptReg
  split
  · exact hstep _
  · exact RInv.setPC (p := { p with reg := _ }) h hq.symm
  · split
    · split
      · exact RInv.setPC (p := { p with reg := _ }) h hq.symm
      · exact hstep _
    · exact RInv.setPC (p := { p with reg := _ }) h hq.symm

theorem stepProc_req {pid : Nat} {p : Proc} {k : KTable} {R : List Held} {l : PLabel} {a : Act}
    (hi : VInv (view pid p)) (hR : RInv pid p R) (h : stepProc pid p k l = some a) :
    RInv pid a.1 (a.2.2.foldl requestStep R) := by
  cases l with
  | osOpen fd uid =>
    simp only [stepProc] at h
    split at h
    · cases h; exact hR
    · cases h
  | openS sid fd uid =>
    simp only [stepProc] at h
    split at h
    · cases h; exact hR
    · cases h
  | wrapS sid fd cf =>
    simp only [stepProc] at h
    split at h
    · cases h
    · split at h
      · cases h; exact hR
      · cases h
  | lockCall tid sid len start shared llb =>
    simp only [stepProc] at h
    split at h
    · rename_i st hidle hst
      split at h
      · cases h
        intro t q hq
        simp only [List.foldl_cons, List.foldl_nil, requestStep, List.mem_append, List.mem_singleton]
        change (updMap p.threads tid _ t).req = some q at hq
        by_cases ht : t = tid
        · subst ht; rw [updMap_same] at hq; cases hq; exact Or.inr rfl
        · rw [updMap_other _ _ ht] at hq; exact Or.inl (hR t q hq)
      · cases h
    · cases h
  | reg tid =>
    simp only [stepProc] at h
    split at h
    · rename_i q hpc hc
      cases h
      exact RInv.attemptReg hi hR k (by rw [hpc]; rfl)
    · cases h
  | wake tid =>
    simp only [stepProc] at h
    split at h
    · rename_i q hpc hc
      split at h
      · rename_i r hr
        cases h
        obtain ⟨d1, d2, d3, _⟩ := decWaiting_view (pid := pid) hr
        have hv := view_reg (p := p) d2 d3
        exact RInv.attemptReg (p := { p with reg := r }) (by rw [hv]; exact hi) hR k (by rw [hpc]; rfl)
      · cases h
        exact RInv.failLock hi hR k (by rw [hpc]; rfl)
    · cases h
  | kern tid =>
    simp only [stepProc] at h
    split at h
    · rename_i q hpc
      split at h
      · cases h; exact RInv.setPC hR (by rw [hpc]; rfl)
      · split at h
        · cases h; exact RInv.setPC hR (by rw [hpc]; rfl)
        · split at h
          · split at h
            · cases h
            · cases h; exact RInv.setPC hR (by rw [hpc]; rfl)
          · cases h
            intro t' q' hq'
            have : (grant pid p k tid q).1.threads = updMap p.threads tid .idle := by
              simp only [grant, release_eq]; rfl
            rw [this] at hq'
            exact RInv.leave hi hR (t := tid) (q := q) (by rw [hpc]; rfl) (fun t' q' => updMap_idle_req) t' q' hq'
    · cases h
  | kernErr tid =>
    simp only [stepProc] at h
    split at h
    · rename_i q hpc
      cases h; exact RInv.setPC hR (by rw [hpc]; rfl)
    · cases h
  | kernExc tid =>
    simp only [stepProc] at h
    split at h
    · rename_i q hpc
      cases h; exact RInv.setPC hR (by rw [hpc]; rfl)
    · cases h
  | kernIntr tid =>
    simp only [stepProc] at h
    split at h
    · rename_i q hpc
      split at h
      · cases h
      · cases h; exact RInv.setPC hR (by rw [hpc]; rfl)
    · cases h
  | unwind tid =>
    simp only [stepProc] at h
    split at h
    · rename_i q hpc hc
      cases h
      intro t' q' hq'
      rw [failLock_threads] at hq'
      refine RInv.leave hi hR (t := tid) (q := q) (by rw [hpc]; rfl) (fun t' q' h => ?_) t' q' hq'
      have h' := updMap_idle_req h
      refine ⟨h'.1, ?_⟩
      rcases hu : unregisterN pid p q.uid q.fd q.len q.start with ⟨o, p'⟩
      rw [hu] at h'
      cases o with
      | error x => obtain ⟨_, rfl, _⟩ := unregisterN_error hu; exact h'.2
      | ok b => rw [← ((unregisterN_ok hu).2.2.2.2.2.1 t').1]; exact h'.2
    · cases h
  | retry tid =>
    simp only [stepProc] at h
    split at h
    · rename_i q hpc
      cases h; exact RInv.setPC hR (by rw [hpc]; rfl)
    · rename_i q hpc
      cases h; exact RInv.setPC hR (by rw [hpc]; rfl)
    · cases h
  | expire tid =>
    simp only [stepProc] at h
    split at h
    · rename_i q hpc
      split at h
      · cases h
      · cases h; exact RInv.failLock hi hR k (by rw [hpc]; rfl)
    · rename_i q hpc
      split at h
      · cases h
      · cases h; exact RInv.setPC hR (by rw [hpc]; rfl)
    · cases h
  | unlock sid len start =>
    simp only [stepProc] at h
    split at h
    · rename_i st hst hc
      split at h
      · cases h
        unfold unlockStream
        dsimp only
        split
        · rename_i x p' hu
          obtain ⟨_, rfl, _⟩ := unregisterN_error hu; exact hR
        · rename_i b p' hu
          intro t q hq
          exact hR t q (((unregisterN_ok hu).2.2.2.2.2.1 t).1.symm.trans hq)
      · cases h
    · cases h
  | close sid =>
    simp only [stepProc] at h
    split at h
    · split at h
      · cases h
      · split at h
        · cases h; exact hR
        · cases h; exact hR
    · cases h
  | micro =>
    simp only [stepProc] at h
    split at h
    · rename_i m rest hc
      cases h
      cases m with
      | kunlock fd uid s len => simp only [doMicro]; split <;> exact hR
      | purge uid => simp only [doMicro]; split <;> exact hR
      | nclose fd => simp only [doMicro]; split <;> exact hR
      | addData uid fd => simp only [doMicro]; split <;> exact hR
      | delEntry uid => exact hR
    · cases h

/-- Events of an action of `pid` only concern `pid`. -/
def Event.ofPid : Event → Nat
  | .opened p .. => p
  | .lockReq p .. => p
  | .locked p .. => p
  | .lockFailed p .. => p
  | .unlocked p .. => p
  | .unlockFailed p .. => p
  | .closed p .. => p
  | .nclose p .. => p
  | .badFd p _ => p
  | .keyErr p => p
  | .forked p _ => p
  | .exited p => p

theorem attemptReg_ofPid (pid : Nat) (p : Proc) (k : KTable) (t : Nat) (q : Req) :
    ∀ e ∈ (attemptReg pid p k t q).2.2, Event.ofPid e = pid := by
  unfold attemptReg
  split
  · simp [failLock, Event.ofPid]
  · simp
  · split
    · split
      · simp
      · simp [failLock, Event.ofPid]
    · simp

theorem stepProc_ofPid {pid : Nat} {p : Proc} {k : KTable} {l : PLabel} {a : Act}
    (h : stepProc pid p k l = some a) : ∀ e ∈ a.2.2, Event.ofPid e = pid := by
  cases l <;> simp only [stepProc] at h <;> (repeat' split at h) <;> first
    | (cases h; done)
    | (cases h; exact attemptReg_ofPid _ _ _ _ _)
    | (cases h; simp [failLock, grant, unlockStream, closeStream, Event.ofPid]; done)
    | (cases h; simp only [unlockStream]; split <;> simp [Event.ofPid]; done)
    | (cases h; rename_i m rest _; cases m <;> simp only [doMicro] <;> (repeat' split) <;> simp [Event.ofPid])

theorem requestStep_other {R : List Held} {e : List Event} {pid : Nat} (he : ∀ x ∈ e, Event.ofPid x = pid) {h : Held}
    (hp : h.pid ≠ pid) (hh : h ∈ R) : h ∈ e.foldl requestStep R := by
  induction e generalizing R with
  | nil => exact hh
  | cons x xs ih =>
    simp only [List.foldl_cons]
    apply ih (fun y hy => he y (List.mem_cons_of_mem _ hy))
    have hx := he x (by simp)
    cases x <;> simp only [requestStep, Event.ofPid] at * <;> first
      | exact hh
      | (subst hx; simp only [List.mem_append, List.mem_filter, decide_eq_true_eq]; first
          | exact Or.inl hh
          | exact ⟨hh, fun hc => hp hc.1⟩
          | exact ⟨hh, fun hc => hp hc⟩)

/-- World level: the requests of all threads of all living processes are requests of the trace. -/
def WReq (w : World) (R : List Held) : Prop := ∀ pid p, w.procs pid = some p → p.alive = true → RInv pid p R

theorem WReq.step {w w' : World} {H R : List Held} {l : Label} {e : List Event} (hi : Inv w H) (hr : WReq w R)
    (h : step w l = some (w', e)) : WReq w' (e.foldl requestStep R) := by
  cases l with
  | newProc pid =>
    simp only [Verif.step] at h
    split at h
    · cases h
      intro pid' p hp ha
      rcases updMap_cases hp with ⟨rfl, h'⟩ | ⟨_, h'⟩
      · cases h'; intro t q hq; cases hq
      · exact hr pid' p h' ha
    · cases h
  | act pid l =>
    simp only [Verif.step] at h
    split at h
    · cases h
    · rename_i p hp
      split at h
      · rename_i ha
        split at h
        · rename_i p' k ev hs
          cases h
          intro pid' p'' hp' ha'
          rcases updMap_cases hp' with ⟨rfl, h'⟩ | ⟨hne, h'⟩
          · cases h'
            exact stepProc_req (hi.proc pid' p hp ha).1 (hr pid' p hp ha) hs
          · intro t q hq
            exact requestStep_other (stepProc_ofPid hs) hne (hr pid' p'' h' ha' t q hq)
        · cases h
      · cases h
  | fork parent child =>
    simp only [Verif.step] at h
    split at h
    · split at h
      · cases h
        intro pid' p hp ha
        rcases updMap_cases hp with ⟨rfl, h'⟩ | ⟨_, h'⟩
        · cases h'; intro t q hq; cases hq
        · exact hr pid' p h' ha
      · cases h
    · cases h
  | exit pid =>
    simp only [Verif.step] at h
    split at h
    · cases h
    · split at h
      · cases h
        intro pid' p hp ha
        rcases updMap_cases hp with ⟨rfl, h'⟩ | ⟨hne, h'⟩
        · cases h'; cases ha
        · intro t q hq
          simp only [List.foldl_cons, List.foldl_nil, requestStep, List.mem_filter, decide_eq_true_eq]
          exact ⟨hr pid' p h' ha t q hq, hne⟩
      · cases h

theorem Reach.req {ls : List Label} {w : World} {tr : List Event} (h : Reach ls w tr) : WReq w (requestedOf tr) := by
  induction h with
  | init => intro pid p hp; cases hp
  | step hr _ hs ih =>
    have := WReq.step hr.inv ih hs
    simpa only [requestedOf, List.foldl_append] using this

/-! ## Without overlapping shared locks inside a process, all held locks are in the kernel -/

theorem table_disjoint {pid : Nat} {p : Proc} {H R : List Held} (hi : VInv (view pid p)) (hh : VHeld pid (view pid p) H)
    (hr : RInv pid p R) (hc : NoSharedOverlap (H ++ R)) {u : Uid} {x y : LockRec} (hx : x ∈ tableOf pid p.reg u)
    (hy : y ∈ tableOf pid p.reg u) (hne : x ≠ y) : ¬ Meet x.start x.stop y.start y.stop := by
  intro hm
  have hcompat := pairwise_compat_ne (hi.compat u) hx hy hne
  have hnc : ¬ (x.handle = y.handle ∨ x.shared = false ∨ y.shared = false) := fun h => hcompat ⟨hm, h⟩
  simp only [not_or, Bool.not_eq_false] at hnc
  obtain ⟨hhan, hxs, hys⟩ := hnc
  have key : ∀ z ∈ tableOf pid p.reg u, ∃ a ∈ H ++ R, a.pid = pid ∧ a.uid = u ∧ a.shared = z.shared ∧
      a.start = z.start ∧ a.stop = z.stop ∧ ∃ st, p.streams a.sid = some st ∧ st.fd = z.handle := by
    intro z hz
    rcases hh.owner u z hz with ⟨a, m, p1, p2, p3, p4, p5, st, s1, s2, s3⟩ | ⟨t, q, hq, hrec, hu⟩
    · exact ⟨a, List.mem_append_left _ m, p1, p2, p3, p4, p5, st, s1, s3⟩
    · obtain ⟨st, a, b, c, d, e⟩ := hi.thr t q (PC.req_of_registered hq)
      subst hrec
      exact ⟨q.asHeld pid, List.mem_append_right _ (hr t q (PC.req_of_registered hq)), rfl, hu, rfl, rfl, rfl, st, a, c⟩
  obtain ⟨a, a0, a1, a2, a3, a4, a5, sa, a6, a7⟩ := key x hx
  obtain ⟨b, b0, b1, b2, b3, b4, b5, sb, b6, b7⟩ := key y hy
  refine hc a a0 b b0 (a1.trans b1.symm) (a2.trans b2.symm) ?_ (a3.trans hxs) (b3.trans hys) ?_
  · intro hs
    rw [hs, b6] at a6; cases a6
    exact hhan (a7.symm.trans b7)
  · rw [a4, a5, b4, b5]; exact hm

/-- Per-process part of the strengthened invariant. -/
structure SP (pid : Nat) (p : Proc) (k : KTable) (H : List Held) : Prop where
  backed : ∀ h ∈ H, h.pid = pid → ∀ b, Covers h.start h.stop b → KHas k pid h.uid h.shared b
  crit : ∀ fd u s l, Micro.kunlock fd u s l ∈ p.crit → ∀ x ∈ tableOf pid p.reg u, ¬ Meet x.start x.stop s (newEnd s l)

theorem SP.same {pid : Nat} {p p' : Proc} {k : KTable} {H : List Held} (h : SP pid p k H) (hc : p'.crit = p.crit)
    (hT : ∀ u, tableOf pid p'.reg u = tableOf pid p.reg u) : SP pid p' k H :=
  ⟨h.backed, fun fd u s l hm x hx => h.crit fd u s l (hc ▸ hm) x (by rw [← hT]; exact hx)⟩

theorem SP.noCrit {pid : Nat} {p p' : Proc} {k : KTable} {H : List Held} (h : SP pid p k H) (hc : p'.crit = []) :
    SP pid p' k H :=
  ⟨h.backed, fun fd u s l hm => by rw [hc] at hm; cases hm⟩

theorem failLock_crit (pid : Nat) (p : Proc) (k : KTable) (t : Nat) (q : Req) :
    (failLock pid p k t q).1.crit = p.crit ∧ (failLock pid p k t q).1.reg = p.reg := by
  simp only [failLock, release_eq]; exact ⟨rfl, rfl⟩

theorem unregisterN_crit (pid : Nat) (p : Proc) (uid : Uid) (fd : Nat) (len : Option Int) (s : Int) :
    (unregisterN pid p uid fd len s).2.crit = p.crit := by
  unfold unregisterN; split <;> rfl

theorem attemptReg_crit (pid : Nat) (p : Proc) (k : KTable) (t : Nat) (q : Req) :
    (attemptReg pid p k t q).1.crit = p.crit ∧ (attemptReg pid p k t q).2.1 = k ∧
    ∀ H, (attemptReg pid p k t q).2.2.foldl heldStep H = H := by
  unfold attemptReg
  split
  · exact ⟨(failLock_crit pid _ k _ _).1, rfl, fun _ => rfl⟩
  · exact ⟨rfl, rfl, fun _ => rfl⟩
  · split
    · split
      · exact ⟨rfl, rfl, fun _ => rfl⟩
      · exact ⟨(failLock_crit pid _ k _ _).1, rfl, fun _ => rfl⟩
    · exact ⟨rfl, rfl, fun _ => rfl⟩

/-- The range being acquired meets no lock held by the process. -/
theorem inflight_disjoint' {pid : Nat} {p : Proc} {H R : List Held} (hv : VInv (view pid p))
    (hh : VHeld pid (view pid p) H) (hr : RInv pid p R) (hc : NoSharedOverlap (H ++ R)) {t : Nat} {q : Req}
    (hq : (p.threads t).registered = some q) {x : Held} (hx : x ∈ H) (hp : x.pid = pid) (hu : x.uid = q.uid) :
    ¬ Meet x.start x.stop q.start q.stop := by
  obtain ⟨st, a, b, c, d⟩ := hh.held x hx hp
  obtain ⟨st', a', b', c', d', e'⟩ := hv.thr t q (PC.req_of_registered hq)
  have hin := hv.reged t q hq
  rw [hu] at d
  refine table_disjoint (x := ⟨st.fd, x.shared, x.start, x.stop⟩) (y := q.record) hv hh hr hc d hin ?_
  intro he
  simp only [Req.record, LockRec.mk.injEq] at he
  obtain ⟨e1, e2, e3, e4⟩ := he
  have : x.sid = q.sid := hv.same a a' b b' (e1.trans c'.symm)
  exact hh.notInflight t q hq x hx hp this ⟨e3, e4⟩

theorem stepProc_shared {pid : Nat} {p : Proc} {k : KTable} {H R : List Held} {l : PLabel} {a : Act}
    (hi : VInv (view pid p)) (hh : VHeld pid (view pid p) H) (hR : RInv pid p R)
    (hc : NoSharedOverlap (H ++ R)) (hs : SP pid p k H) (h : stepProc pid p k l = some a) :
    SP pid a.1 a.2.1 (a.2.2.foldl heldStep H) := by
  cases l with
  | osOpen fd uid =>
    simp only [stepProc] at h
    split at h
    · cases h; exact hs.same rfl (fun _ => rfl)
    · cases h
  | openS sid fd uid =>
    simp only [stepProc] at h
    split at h
    · cases h; exact hs.same rfl (fun _ => rfl)
    · cases h
  | wrapS sid fd cf =>
    simp only [stepProc] at h
    split at h
    · cases h
    · split at h
      · cases h; exact hs.same rfl (fun _ => rfl)
      · cases h
  | lockCall tid sid len start shared llb =>
    simp only [stepProc] at h
    split at h
    · split at h
      · cases h; exact hs.same rfl (fun _ => rfl)
      · cases h
    · cases h
  | reg tid =>
    simp only [stepProc] at h
    split at h
    · rename_i q hpc hcr
      cases h
      obtain ⟨a1, a2, a3⟩ := attemptReg_crit pid p k tid q
      rw [a2, a3]
      exact hs.noCrit (a1.trans hcr)
    · cases h
  | wake tid =>
    simp only [stepProc] at h
    split at h
    · rename_i q hpc hcr
      split at h
      · rename_i r hr
        cases h
        obtain ⟨a1, a2, a3⟩ := attemptReg_crit pid { p with reg := r } k tid q
        rw [a2, a3]
        exact hs.noCrit (a1.trans hcr)
      · cases h
        exact hs.noCrit ((failLock_crit pid _ k _ _).1.trans hcr)
    · cases h
  | kern tid =>
    simp only [stepProc] at h
    split at h
    · rename_i q hpc
      split at h
      · cases h; exact hs.same rfl (fun _ => rfl)
      · split at h
        · cases h; exact hs.same rfl (fun _ => rfl)
        · split at h
          · split at h
            · cases h
            · cases h; exact hs.same rfl (fun _ => rfl)
          · cases h
            have hreg : (p.threads tid).registered = some q := by rw [hpc]; rfl
            have e1 : (grant pid p k tid q).1.crit = p.crit ∧ (grant pid p k tid q).1.reg = p.reg := by
              simp only [grant, release_eq]; exact ⟨rfl, rfl⟩
            refine ⟨?_, ?_⟩
            · intro x hx hp b hb
              simp only [grant, List.foldl_cons, List.foldl_nil, heldStep, List.mem_append, List.mem_singleton] at hx
              simp only [grant]
              rw [kHas_lock]
              rcases hx with hx | rfl
              · refine Or.inl ⟨hs.backed x hx hp b hb, ?_⟩
                rintro ⟨_, h2, h3⟩
                exact inflight_disjoint' hi hh hR hc hreg hx hp h2 ⟨b, hb, h3⟩
              · exact Or.inr ⟨rfl, rfl, rfl, hb⟩
            · intro fd u s l hm x hx
              rw [e1.1] at hm; rw [e1.2] at hx
              exact hs.crit fd u s l hm x hx
    · cases h
  | kernErr tid =>
    simp only [stepProc] at h
    split at h
    · cases h; exact hs.same rfl (fun _ => rfl)
    · cases h
  | kernExc tid =>
    simp only [stepProc] at h
    split at h
    · cases h; exact hs.same rfl (fun _ => rfl)
    · cases h
  | kernIntr tid =>
    simp only [stepProc] at h
    split at h
    · rename_i q hpc
      split at h
      · cases h
      · cases h
        have hreg : (p.threads tid).registered = some q := by rw [hpc]; rfl
        refine ⟨?_, hs.crit⟩
        intro x hx hp b hb
        simp only [List.foldl_nil] at hx
        simp only
        rw [kHas_lock]
        refine Or.inl ⟨hs.backed x hx hp b hb, ?_⟩
        rintro ⟨_, h2, h3⟩
        exact inflight_disjoint' hi hh hR hc hreg hx hp h2 ⟨b, hb, h3⟩
    · cases h
  | unwind tid =>
    simp only [stepProc] at h
    split at h
    · rename_i q hpc hcr
      cases h
      exact hs.noCrit (((failLock_crit pid _ k _ _).1.trans (unregisterN_crit _ _ _ _ _ _)).trans hcr)
    · cases h
  | retry tid =>
    simp only [stepProc] at h
    split at h
    · cases h; exact hs.same rfl (fun _ => rfl)
    · cases h; exact hs.same rfl (fun _ => rfl)
    · cases h
  | expire tid =>
    simp only [stepProc] at h
    split at h
    · split at h
      · cases h
      · cases h
        exact hs.same (failLock_crit pid _ k _ _).1 (fun u => by rw [(failLock_crit pid _ k _ _).2])
    · split at h
      · cases h
      · cases h; exact hs.same rfl (fun _ => rfl)
    · cases h
  | unlock sid len start =>
    simp only [stepProc] at h
    split at h
    · rename_i st hst hcr
      split at h
      · rename_i hob
        cases h
        unfold unlockStream
        dsimp only
        split
        · rename_i x p' hu
          obtain ⟨_, rfl, _⟩ := unregisterN_error hu
          exact hs.noCrit hcr
        · rename_i b p' hu
          obtain ⟨h1, h2, h3, h4, h5, h6, h7, h8⟩ := unregisterN_ok hu
          refine ⟨?_, ?_⟩
          · intro x hx hp b hb
            simp only [List.foldl_cons, List.foldl_nil, heldStep, List.mem_filter] at hx
            exact hs.backed x hx.1 hp b hb
          · intro fd u s' l' hm x hx
            simp only [unlockMicros, List.mem_cons, Micro.kunlock.injEq, reduceCtorEq, List.not_mem_nil, or_false] at hm
            obtain ⟨rfl, rfl, rfl, rfl⟩ := hm
            have hT : tableOf pid p'.reg st.uid = (tableOf pid p.reg st.uid).eraseP
                (LockRec.matchesRange st.fd s' (newEnd s' (len.map Int.ofNat))) := by
              have := congrArg (fun v => v.T st.uid) h7
              simpa [view, updMap_same] using this
            change x ∈ tableOf pid p'.reg st.uid at hx
            rw [hT] at hx
            rcases h8 with ⟨y, hy, hym⟩ | ⟨hn, _⟩
            · have hxT := List.mem_of_mem_eraseP hx
              obtain ⟨e1, e2⟩ := erase_compat (hi.compat st.uid) (fun y hy => hi.nonempty _ y hy) (Or.inl ⟨y, hy, hym⟩) hx
              rw [matchesRange_iff] at hym
              have hne : x ≠ y := by rintro rfl; exact e1 hym
              have := table_disjoint hi hh hR hc hxT hy hne
              rw [hym.2.1, hym.2.2] at this; exact this
            · rw [hn] at hx; cases hx
      · cases h
    · cases h
  | close sid =>
    simp only [stepProc] at h
    split at h
    · rename_i st hst hcr
      split at h
      · cases h
      · split at h
        · rename_i ho
          cases h
          obtain ⟨h1, h2, h3, h4, h5, h6⟩ := removeFileLocks_view pid p.reg st.uid st.fd
          refine ⟨?_, ?_⟩
          · intro x hx hp b hb
            simp only [closeStream, List.foldl_cons, List.foldl_nil, heldStep, List.mem_filter] at hx
            exact hs.backed x hx.1 hp b hb
          · intro fd u s' l' hm x hx
            have hm' : Micro.kunlock fd u s' l' ∈ closeCrit st ((tableOf pid p.reg st.uid).filter (fun x => x.handle = st.fd)) := by
              simp only [closeStream, h1] at hm; exact hm
            have hx' : x ∈ tableOf pid (p.reg.removeFileLocks pid st.uid st.fd).2 u := hx
            rcases closeCrit_mem hm' with ⟨y, hy, he⟩ | he | he | he <;> cases he
            rw [h3, if_pos rfl] at hx'
            have hxT := (List.mem_filter.1 hx').1
            have hxf : x.handle ≠ st.fd := by simpa using (List.mem_filter.1 hx').2
            have hyT := (List.mem_filter.1 hy).1
            have hyf : y.handle = st.fd := by simpa using (List.mem_filter.1 hy).2
            rw [newEnd_len (hi.nonempty _ y hyT)]
            exact table_disjoint hi hh hR hc hxT hyT (by rintro rfl; exact hxf hyf)
        · cases h; exact hs
    · cases h
  | micro =>
    simp only [stepProc] at h
    split at h
    · rename_i m rest hcr
      cases h
      have hrest : ∀ fd u s l, Micro.kunlock fd u s l ∈ rest → Micro.kunlock fd u s l ∈ p.crit := by
        intro fd u s l hm; rw [hcr]; exact List.mem_cons_of_mem _ hm
      have hcr' : (view pid p).crit = m :: rest := hcr
      cases m with
      | kunlock fd uid s len =>
        have a' : p.fds fd = some uid := (hi.critU fd uid s len (by rw [hcr']; simp)).1
        have hd := hs.crit fd uid s len (by rw [hcr]; simp)
        simp only [doMicro, a']
        refine ⟨?_, fun fd' u' s' l' hm => hs.crit fd' u' s' l' (hrest _ _ _ _ hm)⟩
        intro x hx hp b hb
        simp only [List.foldl_nil] at hx
        rw [kHas_unlock]
        refine ⟨hs.backed x hx hp b hb, ?_⟩
        rintro ⟨_, e2, e3⟩
        obtain ⟨st, _, _, _, hin⟩ := hh.held x hx hp
        rw [e2] at hin
        exact hd _ hin ⟨b, hb, e3⟩
      | purge uid =>
        obtain ⟨h1, h2⟩ := hasLocks_view pid p.reg uid
        simp only [doMicro]
        split
        · refine ⟨hs.backed, fun fd u s l hm x hx => hs.crit fd u s l (hrest _ _ _ _ hm) x ?_⟩
          simpa [h2] using hx
        · obtain ⟨r1, r2, r3, r4, r5, r6⟩ := removeData_view pid (p.reg.checkForking pid) uid
          rw [h2]
          refine ⟨hs.backed, fun fd u s l hm x hx => ?_⟩
          simp only [List.mem_append, List.mem_map, reduceCtorEq, and_false, exists_false, false_or] at hm
          refine hs.crit fd u s l (hrest _ _ _ _ hm) x ?_
          simp only [r3, tableOf_checkForking] at hx; exact hx
      | nclose fd =>
        obtain ⟨⟨u, hu⟩, hn⟩ := hi.closing fd (by rw [hcr', mem_toClose]; simp)
        have hu' : p.fds fd = some u := hu
        have hT := hi.critN fd (by rw [hcr']; simp) u hu
        simp only [doMicro, hu']
        refine ⟨?_, fun fd' u' s' l' hm => hs.crit fd' u' s' l' (hrest _ _ _ _ hm)⟩
        intro x hx hp b hb
        simp only [List.foldl_cons, List.foldl_nil, heldStep] at hx
        rw [kHas_drop]
        refine ⟨hs.backed x hx hp b hb, ?_⟩
        rintro ⟨e1, e2⟩
        obtain ⟨st, _, _, _, hin⟩ := hh.held x hx hp
        rw [e2, hT] at hin; cases hin
      | addData uid fd =>
        simp only [doMicro]
        by_cases hfd : fd = 0
        · have : p.reg.addData pid uid fd = (.error .assertionError, p.reg) := by simp [Registry.addData, hfd]
          rw [this]
          exact hs.noCrit rfl
        · obtain ⟨a1, a2, a3, a4, a5, a6, _⟩ := addData_view pid p.reg uid hfd
          rcases har : p.reg.addData pid uid fd with ⟨o, r⟩
          rw [har] at a1 a3
          simp only at a1 a3
          subst a1
          exact ⟨hs.backed, fun fd' u' s' l' hm x hx => hs.crit fd' u' s' l' (hrest _ _ _ _ hm) x (by
            simp only [a3] at hx; exact hx)⟩
      | delEntry uid =>
        obtain ⟨h1, h2, h3, h4, _⟩ := tryDelete_view pid p.reg uid
        simp only [doMicro]
        exact ⟨hs.backed, fun fd' u' s' l' hm x hx => hs.crit fd' u' s' l' (hrest _ _ _ _ hm) x (by
            simp only [h2] at hx; exact hx)⟩
    · cases h

def WSP (w : World) (H : List Held) : Prop := ∀ pid p, w.procs pid = some p → p.alive = true → SP pid p w.kern H

theorem WSP.step {w w' : World} {H R : List Held} {l : Label} {e : List Event} (hi : Inv w H) (hw : WellWrapped w l)
    (hr : WReq w R) (hc : NoSharedOverlap (H ++ R)) (hs : WSP w H)
    (h : step w l = some (w', e)) : WSP w' (e.foldl heldStep H) := by
  cases l with
  | newProc pid =>
    simp only [Verif.step] at h
    split at h
    · rename_i hn
      cases h
      intro pid' p hp ha
      rcases updMap_cases hp with ⟨rfl, h'⟩ | ⟨_, h'⟩
      · cases h'
        refine ⟨?_, by intro fd u s l hm; cases hm⟩
        intro x hx hxp
        obtain ⟨p, hp, _⟩ := hi.heldAlive x hx
        rw [hxp, hn] at hp; cases hp
      · exact hs pid' p h' ha
    · cases h
  | act pid l =>
    simp only [Verif.step] at h
    split at h
    · cases h
    · rename_i p hp
      split at h
      · rename_i ha
        split at h
        · rename_i p' k ev hst
          cases h
          obtain ⟨hv, hh⟩ := hi.proc pid p hp ha
          have hps := stepProc_inv hv hh hi.kern (fun sid fd cf hl s st e o => by
            subst hl; exact hw p hp s st e o) hst
          intro pid' p'' hp' ha'
          rcases updMap_cases hp' with ⟨rfl, h'⟩ | ⟨hne, h'⟩
          · cases h'
            exact stepProc_shared hv hh (hr pid' p hp ha) hc (hs pid' p hp ha) hst
          · refine ⟨?_, (hs pid' p'' h' ha').crit⟩
            intro x hx hxp b hb
            rw [hps.others x (by rw [hxp]; exact hne)] at hx
            exact (hps.kothers _ _ _ _ hne).2 ((hs pid' p'' h' ha').backed x hx hxp b hb)
        · cases h
      · cases h
  | fork parent child =>
    simp only [Verif.step] at h
    split at h
    · rename_i hn
      split at h
      · cases h
        intro pid' p hp ha
        rcases updMap_cases hp with ⟨rfl, h'⟩ | ⟨_, h'⟩
        · cases h'
          refine ⟨?_, by intro fd u s l hm; cases hm⟩
          intro x hx hxp
          obtain ⟨p, hp, _⟩ := hi.heldAlive x hx
          rw [hxp, hn] at hp; cases hp
        · exact hs pid' p h' ha
      · cases h
    · cases h
  | exit pid =>
    simp only [Verif.step] at h
    split at h
    · cases h
    · split at h
      · cases h
        intro pid' p hp ha
        rcases updMap_cases hp with ⟨rfl, h'⟩ | ⟨hne, h'⟩
        · cases h'; cases ha
        · refine ⟨?_, (hs pid' p h' ha).crit⟩
          intro x hx hxp b hb
          simp only [List.foldl_cons, List.foldl_nil, heldStep, List.mem_filter] at hx
          rw [kHas_dropPid]
          exact ⟨(hs pid' p h' ha).backed x hx.1 hxp b hb, hne⟩
      · cases h

/-- Along a history in which no process ever holds or requests overlapping shared locks through different streams,
every held lock is in the kernel. -/
theorem Reach.shared {ls : List Label} {w : World} {tr : List Event} (h : Reach ls w tr)
    (hc : ∀ tr₁ tr₂, tr = tr₁ ++ tr₂ → NoSharedOverlap (heldOf tr₁ ++ requestedOf tr₁)) : WSP w (heldOf tr) := by
  induction h with
  | init => intro pid p hp; cases hp
  | @step ls w tr l w' e hr hw hs ih =>
    have := WSP.step hr.inv hw hr.req (hc tr e rfl)
      (ih (fun tr₁ tr₂ ht => hc tr₁ (tr₂ ++ e) (by rw [ht, List.append_assoc]))) hs
    simpa only [heldOf, List.foldl_append] using this

end Verif
