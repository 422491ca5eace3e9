import Verif.Lemmas.SystemLift
import Verif.Lemmas.Runs

/-! The owner of the mutex reaches the end of its critical section, and closes what it has to close. -/

namespace Verif

open Spec

/-- Number of actions of the critical section that are not native closes. -/
def nonClose (c : List Micro) : Nat := (c.filter (fun m => match m with | .nclose _ => false | _ => true)).length

theorem nonClose_nclose (L : List Nat) (r : List Micro) : nonClose (L.map .nclose ++ r) = nonClose r := by
  induction L with
  | nil => rfl
  | cons a L ih => simp [nonClose]

theorem micros_succ (pid n : Nat) : micros pid (n + 1) = .act pid .micro :: micros pid n := rfl

/-- No descriptor 0 is going to be queued. -/
def NoZero (c : List Micro) : Prop := ∀ u, Micro.addData u 0 ∉ c

/-- Effect of one action of the critical section on what remains to be closed. -/
theorem doMicro_close {pid : Nat} {p : Proc} (hi : VInv (view pid p)) (hq : Queues p.crit) (k : KTable) {m : Micro}
    {rest : List Micro} (hcr : p.crit = m :: rest) :
    (nonClose (doMicro pid p k m rest).1.crit < nonClose p.crit ∨
      (nonClose (doMicro pid p k m rest).1.crit = nonClose p.crit ∧
        (doMicro pid p k m rest).1.crit.length < p.crit.length)) ∧
    (∀ u, tableOf pid (doMicro pid p k m rest).1.reg u = tableOf pid p.reg u) ∧
    (∀ fd u, Micro.nclose fd ∈ p.crit → p.fds fd = some u → .nclose pid fd u ∈ (doMicro pid p k m rest).2.2 ∨
      (Micro.nclose fd ∈ (doMicro pid p k m rest).1.crit ∧ (doMicro pid p k m rest).1.fds fd = some u)) ∧
    (NoZero p.crit → NoZero (doMicro pid p k m rest).1.crit ∧
      ∀ u, tableOf pid p.reg u = [] →
        (Micro.purge u ∈ p.crit → ∀ fd ∈ pendingOf pid p.reg u,
          (Micro.purge u ∈ (doMicro pid p k m rest).1.crit ∧ fd ∈ pendingOf pid (doMicro pid p k m rest).1.reg u) ∨
          (Micro.nclose fd ∈ (doMicro pid p k m rest).1.crit ∧ (doMicro pid p k m rest).1.fds fd = some u)) ∧
        (∀ fd, Micro.addData u fd ∈ p.crit → Micro.addData u fd ∈ (doMicro pid p k m rest).1.crit ∨
          (Micro.purge u ∈ (doMicro pid p k m rest).1.crit ∧ fd ∈ pendingOf pid (doMicro pid p k m rest).1.reg u))) := by
  rw [hcr] at hq
  rw [hcr]
  cases m with
  | kunlock fd uid s len =>
    have a' : p.fds fd = some uid := (hi.critU fd uid s len (by rw [show (view pid p).crit = _ from hcr]; simp)).1
    simp only [doMicro, a']
    refine ⟨Or.inl (by simp [nonClose]), by simp, fun fd' u hm hf => ?_, fun hz => ⟨fun u hu => hz u (by simp [hu]),
      fun u hT => ⟨fun hm fd' hd => Or.inl ⟨?_, hd⟩, fun fd' hm => Or.inl ?_⟩⟩⟩
    · simp only [List.mem_cons, reduceCtorEq, false_or] at hm
      exact Or.inr ⟨hm, hf⟩
    · simpa using hm
    · simpa using hm
  | nclose fd =>
    obtain ⟨⟨u, hu⟩, hn⟩ := hi.closing fd (by rw [show (view pid p).crit = _ from hcr, mem_toClose]; simp)
    have hu' : p.fds fd = some u := hu
    simp only [doMicro, hu']
    refine ⟨Or.inr ⟨by simp [nonClose], by simp⟩, by simp, fun fd' u' hm hf => ?_,
      fun hz => ⟨fun u hu => hz u (by simp [hu]),
      fun u hT => ⟨fun hm fd' hd => Or.inl ⟨?_, hd⟩, fun fd' hm => Or.inl ?_⟩⟩⟩
    · by_cases hfd : fd' = fd
      · subst hfd; rw [hu'] at hf; cases hf; exact Or.inl (by simp)
      · simp only [List.mem_cons, Micro.nclose.injEq, hfd, false_or] at hm
        exact Or.inr ⟨hm, by rw [updMap_other _ _ hfd]; exact hf⟩
    · simpa using hm
    · simpa using hm
  | purge uid =>
    obtain ⟨h1, h2⟩ := hasLocks_view pid p.reg uid
    obtain ⟨r1, r2, r3, r4, r5, r6⟩ := removeData_view pid (p.reg.hasLocks pid uid).2 uid
    simp only [doMicro]
    split
    · rename_i hl
      refine ⟨Or.inl (by simp [nonClose]), fun u => by rw [h2]; simp, fun fd' u hm hf => ?_,
        fun hz => ⟨fun u hu => hz u (by simp [hu]), fun u hT => ⟨fun hm fd' hd => Or.inl ⟨?_, ?_⟩, fun fd' hm => Or.inl ?_⟩⟩⟩
      · simp only [List.mem_cons, reduceCtorEq, false_or] at hm
        exact Or.inr ⟨hm, hf⟩
      · simp only [List.mem_cons, Micro.purge.injEq] at hm
        rcases hm with rfl | hm
        · rw [h1, hT] at hl; simp at hl
        · exact hm
      · dsimp only; rw [h2]; simpa using hd
      · simpa using hm
    · refine ⟨Or.inl (by dsimp only; rw [nonClose_nclose]; simp [nonClose]), fun u => by rw [r3, h2]; simp,
        fun fd' u hm hf => ?_, fun hz => ⟨fun u hu => ?_, fun u hT => ⟨fun hm fd' hd => ?_, fun fd' hm => Or.inl ?_⟩⟩⟩
      · simp only [List.mem_cons, reduceCtorEq, false_or] at hm
        exact Or.inr ⟨List.mem_append_right _ hm, hf⟩
      · simp only [List.mem_append, List.mem_map, reduceCtorEq, and_false, exists_false, false_or] at hu
        exact hz u (by simp [hu])
      · by_cases hu : u = uid
        · subst hu
          refine Or.inr ⟨List.mem_append_left _ ?_, (hi.pend u fd' hd).1⟩
          rw [r1, h2]
          exact List.mem_map.2 ⟨fd', by simpa using hd, rfl⟩
        · refine Or.inl ⟨?_, ?_⟩
          · simp only [List.mem_cons, Micro.purge.injEq, hu, false_or] at hm
            exact List.mem_append_right _ hm
          · dsimp only
            rw [r4, if_neg hu, h2]; simpa using hd
      · simp only [List.mem_cons, reduceCtorEq, false_or] at hm
        exact List.mem_append_right _ hm
  | addData uid fd =>
    have hrest : rest = [.purge uid, .delEntry uid] := hq
    simp only [doMicro]
    by_cases hfd : fd = 0
    · subst hfd
      simp only [Registry.addData, if_true]
      exact ⟨Or.inl (by simp [nonClose]), by simp, fun fd' u hm hf => by simp [hrest] at hm,
        fun hz => absurd (by simp) (hz uid)⟩
    · obtain ⟨h1, h2, h3, h4, h5, h6⟩ := addData_view pid p.reg uid hfd
      split
      · rename_i x r hr; rw [hr] at h1; cases h1
      · rename_i r hr
        rw [hr] at h3 h4
        refine ⟨Or.inl (by simp [nonClose]), h3, fun fd' u hm hf => by simp [hrest] at hm,
          fun hz => ⟨fun u hu => hz u (by simp [hu]), fun u hT => ⟨fun hm fd' hd => Or.inl ⟨by simpa using hm, ?_⟩,
          fun fd' hm => Or.inr ⟨?_, ?_⟩⟩⟩⟩
        · dsimp only at h4 ⊢
          rw [h4]
          split
          · rename_i hu; subst hu; exact List.mem_append_left _ hd
          · exact hd
        · simp only [hrest, List.mem_cons, Micro.addData.injEq, reduceCtorEq, List.not_mem_nil, or_false] at hm
          rw [hrest, hm.1]; simp
        · simp only [hrest, List.mem_cons, Micro.addData.injEq, reduceCtorEq, List.not_mem_nil, or_false] at hm
          obtain ⟨rfl, rfl⟩ := hm
          dsimp only at h4 ⊢
          rw [h4, if_pos rfl]; simp
  | delEntry uid =>
    obtain ⟨d1, d2, d3, d4⟩ := tryDelete_view pid p.reg uid
    simp only [doMicro]
    refine ⟨Or.inl (by simp [nonClose]), d2, fun fd' u hm hf => ?_, fun hz => ⟨fun u hu => hz u (by simp [hu]),
      fun u hT => ⟨fun hm fd' hd => Or.inl ⟨?_, ?_⟩, fun fd' hm => Or.inl ?_⟩⟩⟩
    · simp only [List.mem_cons, reduceCtorEq, false_or] at hm
      exact Or.inr ⟨hm, hf⟩
    · simpa using hm
    · rw [d3]; exact hd
    · simpa using hm

theorem stepProc_queues {pid : Nat} {p : Proc} {k : KTable} {l : PLabel} {a : Act} (hq : Queues p.crit)
    (h : stepProc pid p k l = some a) : Queues a.1.crit := by
  cases l with
  | unlock sid len start =>
    simp only [stepProc] at h
    (repeat' split at h) <;> cases h
    unfold unlockStream
    dsimp only
    split
    · rename_i x p' hu
      obtain ⟨_, rfl, _⟩ := unregisterN_error hu
      exact hq
    · simp [unlockMicros, Queues]
  | close sid =>
    simp only [stepProc] at h
    (repeat' split at h) <;> cases h
    · simp only [closeStream]
      rw [queues_unlocks]
      unfold closeMicros
      split <;> simp [Queues]
    · exact hq
  | micro =>
    simp only [stepProc] at h
    split at h
    · rename_i m rest hcr
      cases h
      rw [hcr] at hq
      cases m with
      | kunlock => simp only [doMicro]; split <;> exact hq
      | nclose => simp only [doMicro]; split <;> exact hq
      | purge =>
        simp only [doMicro]
        split
        · exact hq
        · exact (queues_nclose _ _).2 hq
      | addData u f =>
        have hrest : rest = [.purge u, .delEntry u] := hq
        simp only [doMicro]
        split
        · trivial
        · rw [hrest]; simp [Queues]
      | delEntry => exact hq
    · cases h
  | reg tid =>
    simp only [stepProc] at h
    split at h <;> cases h
    rw [(attemptReg_crit pid p k _ _).1]; exact hq
  | wake tid =>
    simp only [stepProc] at h
    split at h
    · split at h <;> cases h
      · rw [(attemptReg_crit pid _ k _ _).1]; exact hq
      · rw [(failLock_crit pid p k _ _).1]; exact hq
    · cases h
  | kern tid =>
    simp only [stepProc] at h
    (repeat' split at h) <;> cases h <;> try exact hq
    simp only [grant, release_eq]; exact hq
  | expire tid =>
    simp only [stepProc] at h
    (repeat' split at h) <;> cases h <;> try exact hq
    rw [(failLock_crit pid p k _ _).1]; exact hq
  | unwind tid =>
    simp only [stepProc] at h
    split at h <;> cases h
    rw [(failLock_crit pid _ k _ _).1, unregisterN_crit]; exact hq
  | _ =>
    simp only [stepProc] at h
    (repeat' split at h) <;> cases h <;> exact hq

theorem Reach.queues {ls : List Label} {w : World} {tr : List Event} (h : Reach ls w tr) :
    ∀ pid p, w.procs pid = some p → p.alive = true → Queues p.crit :=
  Reach.lift (P := fun _ p => Queues p.crit) (C := fun _ _ => True) (fun _ _ _ _ _ => trivial) (fun _ => trivial)
    (fun _ _ _ => trivial) (fun _ _ _ _ _ _ _ _ _ _ _ _ hq hs => stepProc_queues hq hs) h trivial

/-- The critical section ends.  On the way every descriptor that it has to close is closed, and so are the postponed
descriptors of the files without locks that it is going to purge. -/
theorem Reach.complete {ls : List Label} {w : World} {tr : List Event} (h : Reach ls w tr) {pid : Nat} {p : Proc}
    (hp : w.procs pid = some p) (ha : p.alive = true) :
    ∃ n w' ev p', runFrom w tr (micros pid n) = some (w', tr ++ ev) ∧ w'.procs pid = some p' ∧ p'.alive = true ∧
      p'.crit = [] ∧ (∀ u, tableOf pid p'.reg u = tableOf pid p.reg u) ∧
      (∀ fd u, Micro.nclose fd ∈ p.crit → p.fds fd = some u → .nclose pid fd u ∈ ev) ∧
      (NoZero p.crit → ∀ u, tableOf pid p.reg u = [] →
        (Micro.purge u ∈ p.crit → ∀ fd ∈ pendingOf pid p.reg u, .nclose pid fd u ∈ ev) ∧
        (∀ fd, Micro.addData u fd ∈ p.crit → .nclose pid fd u ∈ ev)) := by
  match hcr : p.crit with
  | [] => exact ⟨0, w, [], p, by simp [micros, runFrom], hp, ha, hcr, by simp, by simp, by simp⟩
  | m :: rest =>
    obtain ⟨hv, hh⟩ := h.inv.proc _ _ hp ha
    obtain ⟨d1, d2, d3, d4⟩ := doMicro_close hv (h.queues _ _ hp ha) w.kern hcr
    have hst : stepProc pid p w.kern .micro = some (doMicro pid p w.kern m rest) := by simp only [stepProc, hcr]
    have hps := stepProc_inv hv hh h.inv.kern (fun _ _ _ hl => by cases hl) hst
    have hstep : Verif.step w (.act pid .micro) = some (⟨updMap w.procs pid (some (doMicro pid p w.kern m rest).1),
        (doMicro pid p w.kern m rest).2.1⟩, (doMicro pid p w.kern m rest).2.2) := by
      simp only [Verif.step, hp, ha, if_true, hst]
    have hr := h.step (w' := _) (by trivial) hstep
    have ha' : (doMicro pid p w.kern m rest).1.alive = true := hps.alive.trans ha
    have hterm := d1
    obtain ⟨n, w', ev, p', e1, e2, e3, e4, e5, e6, e7⟩ := Reach.complete hr (pid := pid) (updMap_same _ _ _) ha'
    rw [← hcr]
    refine ⟨n + 1, w', (doMicro pid p w.kern m rest).2.2 ++ ev, p', ?_, e2, e3, e4, fun u => (e5 u).trans (d2 u), ?_, ?_⟩
    · rw [micros_succ, runFrom, hstep]
      simpa using e1
    · intro fd u hm hf
      rw [List.mem_append]
      rcases d3 fd u hm hf with h1 | ⟨h1, h2⟩
      · exact Or.inl h1
      · exact Or.inr (e6 fd u h1 h2)
    · intro hz u hT
      obtain ⟨z1, z2⟩ := d4 hz
      obtain ⟨f1, f2⟩ := e7 z1 u ((d2 u).trans hT)
      obtain ⟨g1, g2⟩ := z2 u hT
      constructor
      · intro hm fd hd
        rw [List.mem_append]
        right
        rcases g1 hm fd hd with ⟨h1, h2⟩ | ⟨h1, h2⟩
        · exact f1 h1 fd h2
        · exact e6 fd u h1 h2
      · intro fd hm
        rw [List.mem_append]
        right
        rcases g2 fd hm with h1 | ⟨h1, h2⟩
        · exact f2 fd h1
        · exact f1 h1 fd h2
termination_by (nonClose p.crit, p.crit.length)
decreasing_by
  rcases hterm with h1 | ⟨h1, h2⟩
  · exact Prod.Lex.left _ _ h1
  · rw [h1]; exact Prod.Lex.right _ h2

end Verif
