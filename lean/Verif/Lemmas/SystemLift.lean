import Verif.Lemmas.SystemWait

/-!
# From actions of one process to executions of the system; postponed descriptors
-/

namespace Verif

open Spec

/-- A property of single processes that holds at start, is established by `fork`, and preserved by actions holds in
all reachable states.  `C` restricts the executions considered. -/
theorem Reach.lift {P : Nat → Proc → Prop} {C : List Label → List Event → Prop}
    (hC : ∀ ls l tr e, C (ls ++ [l]) (tr ++ e) → C ls tr) (hfresh : ∀ pid, P pid (Proc.fresh pid))
    (hfork : ∀ child (p : Proc), p.reg.originalPid ≠ child → P child p.forked)
    (hstep : ∀ ls w tr pid p l a, Reach ls w tr → WellWrapped w (.act pid l) →
      C (ls ++ [.act pid l]) (tr ++ a.2.2) → w.procs pid = some p → p.alive = true → P pid p →
      stepProc pid p w.kern l = some a → P pid a.1)
    {ls : List Label} {w : World} {tr : List Event} (h : Reach ls w tr) (hc : C ls tr) :
    ∀ pid p, w.procs pid = some p → p.alive = true → P pid p := by
  induction h with
  | init => intro pid p hp; cases hp
  | @step ls w tr l w' e hr hw hs ih =>
    have ih := ih (hC _ _ _ _ hc)
    cases l with
    | newProc pid =>
      simp only [Verif.step] at hs
      split at hs
      · cases hs
        intro pid' p hp ha
        rcases updMap_cases hp with ⟨rfl, h'⟩ | ⟨_, h'⟩
        · cases h'; exact hfresh _
        · exact ih pid' p h' ha
      · cases hs
    | act pid l =>
      simp only [Verif.step] at hs
      split at hs
      · cases hs
      · rename_i p hp
        split at hs
        · rename_i ha
          split at hs
          · rename_i p' k ev hst
            cases hs
            intro pid' p'' hp' ha'
            rcases updMap_cases hp' with ⟨rfl, h'⟩ | ⟨hne, h'⟩
            · cases h'
              exact hstep ls w tr pid' p l _ hr hw hc hp ha (ih _ _ hp ha) hst
            · exact ih _ _ h' ha'
          · cases hs
        · cases hs
    | fork parent child =>
      simp only [Verif.step] at hs
      split at hs
      · rename_i p hp hn
        split at hs
        · cases hs
          intro pid' p' hp' ha
          rcases updMap_cases hp' with ⟨rfl, h'⟩ | ⟨_, h'⟩
          · cases h'
            exact hfork _ _ (fun he => hr.inv.orig parent p hp (by rw [he]; exact hn))
          · exact ih pid' p' h' ha
        · cases hs
      · cases hs
    | exit pid =>
      simp only [Verif.step] at hs
      split at hs
      · cases hs
      · split at hs
        · cases hs
          intro pid' p hp ha
          rcases updMap_cases hp with ⟨rfl, h'⟩ | ⟨hne, h'⟩
          · cases h'; cases ha
          · exact ih pid' p h' ha
        · cases hs

theorem Reach.wait {ls : List Label} {w : World} {tr : List Event} (h : Reach ls w tr) :
    ∀ pid p, w.procs pid = some p → p.alive = true → WC pid p := by
  refine Reach.lift (C := fun _ _ => True) (fun _ _ _ _ _ => trivial) ?_ ?_ ?_ h trivial
  · intro pid u
    refine ⟨[], List.nodup_nil, fun t => ?_, by simp [waitingOf, Proc.fresh, Registry.init]⟩
    simp [Proc.fresh, WaitsOn]
  · intro child p hp u
    refine ⟨[], List.nodup_nil, fun t => ?_, by simp [waitingOf, Proc.forked, hp]⟩
    simp [Proc.forked, WaitsOn]
  · intro ls w tr pid p l a _ _ _ _ _ hw hs
    exact (stepProc_wait hw hs).1

/-- No event of a reachable step is an internal error. -/
theorem Reach.noInternal {ls : List Label} {w : World} {tr : List Event} (h : Reach ls w tr) :
    ∀ pid, .keyErr pid ∉ tr ∧ ∀ fd, .badFd pid fd ∉ tr := by
  induction h with
  | init => simp
  | @step ls w tr l w' e hr hw hs ih =>
    suffices ∀ pid, .keyErr pid ∉ e ∧ ∀ fd, .badFd pid fd ∉ e by
      intro pid
      simp only [List.mem_append, not_or]
      exact ⟨⟨(ih pid).1, (this pid).1⟩, fun fd => ⟨(ih pid).2 fd, (this pid).2 fd⟩⟩
    intro pid
    cases l with
    | act pid' l =>
      simp only [Verif.step] at hs
      split at hs
      · cases hs
      · rename_i p hp
        split at hs
        · rename_i ha
          split at hs
          · rename_i p' k ev hst
            cases hs
            refine ⟨fun hk => ?_, stepProc_noBad (hr.inv.proc _ _ hp ha).1 hst pid⟩
            have hpid : pid = pid' := stepProc_ofPid hst _ hk
            subst hpid
            exact (stepProc_wait (hr.wait _ _ hp ha) hst).2 hk
          · cases hs
        · cases hs
    | newProc p => simp only [Verif.step] at hs; split at hs <;> cases hs; simp
    | fork a b => simp only [Verif.step] at hs; (repeat' split at hs) <;> cases hs; simp
    | exit p => simp only [Verif.step] at hs; (repeat' split at hs) <;> cases hs; simp

/-- No stream was closed while it held a lock. -/
def ClosedFree (tr : List Event) : Prop :=
  ∀ tr₁ tr₂ pid sid u, tr = tr₁ ++ .closed pid sid u :: tr₂ → ∀ x ∈ heldOf tr₁, (x.pid, x.sid) ≠ (pid, sid)

theorem Reach.noLost {ls : List Label} {w : World} {tr : List Event} (h : Reach ls w tr) (hc : ClosedFree tr) :
    ∀ pid p, w.procs pid = some p → p.alive = true → WB pid p := by
  refine Reach.lift (C := fun _ tr => ClosedFree tr) ?_ ?_ ?_ ?_ h hc
  · intro ls l tr e hc tr₁ tr₂ pid sid u ht
    exact hc tr₁ (tr₂ ++ e) pid sid u (by rw [ht]; simp)
  · intro pid t q hq; cases hq
  · intro child p hp t q hq; cases hq
  · intro ls w tr pid p l a hr hw hc hp ha hb hs
    obtain ⟨hv, hh⟩ := hr.inv.proc _ _ hp ha
    refine stepProc_wb hv hh hb (fun sid u hm => ?_) hs
    cases l with
    | close s =>
      simp only [stepProc] at hs
      (repeat' split at hs) <;> cases hs
      · simp only [closeStream, List.mem_singleton, Event.closed.injEq] at hm
        obtain ⟨_, rfl, rfl⟩ := hm
        exact hc tr [] pid sid _ rfl
      · cases hm
    | micro =>
      exfalso
      simp only [stepProc] at hs
      split at hs
      · rename_i m rest hcr
        cases hs
        cases m <;> simp only [doMicro] at hm <;> (try split at hm) <;> simp at hm
      · cases hs
    | unlock sid len start =>
      exfalso
      simp only [stepProc] at hs
      (repeat' split at hs) <;> cases hs
      simp only [unlockStream] at hm
      split at hm <;> simp at hm
    | _ =>
      exfalso
      simp only [stepProc] at hs
      (repeat' split at hs) <;> first
        | (cases hs; done)
        | (cases hs; rcases attemptReg_events _ _ _ _ _ _ hm with h | h <;> cases h)
        | (cases hs; simp [failLock, grant] at hm)

/-! ## Postponed descriptors -/

/-- The critical section will purge the file, before queueing any other descriptor. -/
def Soon (u : Uid) : List Micro → Prop
  | [] => False
  | .purge v :: r => v = u ∨ Soon u r
  | .addData _ _ :: _ => False
  | _ :: r => Soon u r

/-- A descriptor is queued at the end only, and purged at once. -/
def Queues : List Micro → Prop
  | [] => True
  | .addData u _ :: r => r = [.purge u, .delEntry u]
  | _ :: r => Queues r

structure PI (pid : Nat) (p : Proc) : Prop where
  queues : Queues p.crit
  owed : ∀ u, pendingOf pid p.reg u ≠ [] → tableOf pid p.reg u ≠ [] ∨ Soon u p.crit

theorem soon_nclose (u : Uid) (L : List Nat) (r : List Micro) : Soon u (L.map .nclose ++ r) ↔ Soon u r := by
  induction L with
  | nil => rfl
  | cons a L ih => simpa [Soon] using ih

theorem queues_nclose (L : List Nat) (r : List Micro) : Queues (L.map .nclose ++ r) ↔ Queues r := by
  induction L with
  | nil => rfl
  | cons a L ih => simpa [Queues] using ih

theorem queues_unlocks (fd : Nat) (uid : Uid) (f : LockRec → Option Int) (L : List LockRec) (r : List Micro) :
    Queues (L.flatMap (fun x => unlockMicros fd uid x.start (f x)) ++ r) ↔ Queues r := by
  induction L with
  | nil => rfl
  | cons a L ih => simpa [Queues, unlockMicros] using ih

theorem soon_unlocks {fd : Nat} {uid : Uid} {f : LockRec → Option Int} {L : List LockRec} {r : List Micro} (h : L ≠ []) :
    Soon uid (L.flatMap (fun x => unlockMicros fd uid x.start (f x)) ++ r) := by
  cases L with
  | nil => exact absurd rfl h
  | cons a L => simp [Soon, unlockMicros]

theorem PI.same {pid : Nat} {p p' : Proc} (h : PI pid p) (hc : p'.crit = p.crit)
    (hD : ∀ u, pendingOf pid p'.reg u = pendingOf pid p.reg u)
    (hT : ∀ u, tableOf pid p.reg u ≠ [] → tableOf pid p'.reg u ≠ []) : PI pid p' := by
  refine ⟨hc ▸ h.queues, fun u hu => ?_⟩
  rw [hD] at hu
  rcases h.owed u hu with h1 | h1
  · exact Or.inl (hT u h1)
  · exact Or.inr (hc ▸ h1)

theorem PI.attemptReg {pid : Nat} {p : Proc} (h : PI pid p) (k : KTable) (t : Nat) (q : Req) :
    PI pid (attemptReg pid p k t q).1 := by
  have hcr := (attemptReg_crit pid p k t q).1
  unfold Verif.attemptReg at hcr ⊢
  split
  · rename_i x r hreg
    obtain ⟨h1, h2, h3, h4, h5, h6⟩ := register_nok hreg (by simp)
    refine h.same (failLock_crit pid _ k t q).1 (fun u => ?_) (fun u hu => ?_)
    · rw [(failLock_crit pid _ k t q).2]; exact h3 u
    · rw [(failLock_crit pid _ k t q).2]; dsimp only; rw [h2]; exact hu
  · rename_i r hreg
    obtain ⟨h1, h2, h3, h4, h5⟩ := register_ok hreg
    refine h.same rfl h3 (fun u hu => ?_)
    change tableOf pid r u ≠ []
    rw [h2]
    split
    · simp
    · exact hu
  · rename_i r hreg
    obtain ⟨h1, h2, h3, h4, h5, h6⟩ := register_nok hreg (by simp)
    split
    · split
      · rename_i r' hinc
        obtain ⟨i1, i2, i3, i4⟩ := incWaiting_view h1 hinc
        refine h.same rfl (fun u => (i3 u).trans (h3 u)) (fun u hu => ?_)
        change tableOf pid r' u ≠ []
        rw [i2, h2]; exact hu
      · refine h.same (failLock_crit pid _ k t q).1 (fun u => ?_) (fun u hu => ?_)
        · rw [(failLock_crit pid _ k t q).2]; exact h3 u
        · rw [(failLock_crit pid _ k t q).2]; dsimp only; rw [h2]; exact hu
    · refine h.same rfl h3 (fun u hu => ?_)
      change tableOf pid r u ≠ []
      rw [h2]; exact hu

/-- Labels other than the rollback of a registration. -/
def Label.noUnwind : Label → Bool
  | .act _ (.unwind _) => false
  | _ => true

theorem PI.micro {pid : Nat} {p : Proc} {k : KTable} (h : PI pid p) {m : Micro} {rest : List Micro}
    (hcr : p.crit = m :: rest) : PI pid (doMicro pid p k m rest).1 := by
  obtain ⟨hq, ho⟩ := h
  rw [hcr] at hq ho
  cases m with
  | kunlock fd uid s len =>
    have : PI pid { p with crit := rest } := ⟨hq, ho⟩
    simp only [doMicro]
    split <;> exact this
  | nclose fd =>
    simp only [doMicro]
    split
    · exact ⟨hq, ho⟩
    · exact ⟨hq, ho⟩
  | purge uid =>
    simp only [doMicro]
    obtain ⟨h1, h2⟩ := hasLocks_view pid p.reg uid
    split
    · rename_i hl
      refine ⟨hq, fun u hu => ?_⟩
      dsimp only at hu ⊢
      rw [h2, pendingOf_checkForking] at hu
      rw [h2, tableOf_checkForking]
      rcases ho u hu with h3 | h3 | h3
      · exact Or.inl h3
      · subst h3
        rw [h1] at hl
        exact Or.inl (fun he => by rw [he] at hl; simp at hl)
      · exact Or.inr h3
    · obtain ⟨r1, r2, r3, r4, r5, r6⟩ := removeData_view pid (p.reg.hasLocks pid uid).2 uid
      refine ⟨(queues_nclose _ _).2 hq, fun u hu => ?_⟩
      dsimp only at hu ⊢
      rw [r4] at hu
      rw [soon_nclose, r3, h2, tableOf_checkForking]
      split at hu
      · exact absurd rfl hu
      · rename_i hne
        rw [h2, pendingOf_checkForking] at hu
        rcases ho u hu with h3 | h3 | h3
        · exact Or.inl h3
        · exact absurd h3.symm hne
        · exact Or.inr h3
  | addData uid fd =>
    have hrest : rest = [.purge uid, .delEntry uid] := hq
    by_cases hfd : fd = 0
    · subst hfd
      simp only [doMicro, Registry.addData, if_true]
      refine ⟨trivial, fun u hu => ?_⟩
      rcases ho u hu with h3 | h3
      · exact Or.inl h3
      · exact absurd h3 (by simp [Soon])
    · obtain ⟨h1, h2, h3, h4, h5, h6⟩ := addData_view pid p.reg uid hfd
      simp only [doMicro]
      split
      · rename_i x r hr; rw [hr] at h1; cases h1
      · rename_i r hr
        rw [hr] at h3 h4
        refine ⟨by rw [hrest]; simp [Queues], fun u hu => ?_⟩
        dsimp only at hu h3 h4 ⊢
        rw [h4] at hu
        rw [h3]
        split at hu
        · rename_i hu'; right; rw [hrest, hu']; simp [Soon]
        · rcases ho u hu with h5 | h5
          · exact Or.inl h5
          · exact absurd h5 (by simp [Soon])
  | delEntry uid =>
    simp only [doMicro]
    obtain ⟨d1, d2, d3, d4⟩ := tryDelete_view pid p.reg uid
    refine ⟨hq, fun u hu => ?_⟩
    dsimp only at hu ⊢
    rw [d3] at hu
    rw [d2]
    exact ho u hu

theorem stepProc_pending {pid : Nat} {p : Proc} {k : KTable} {l : PLabel} {a : Act} (hp : PI pid p)
    (hl : ∀ t, l ≠ .unwind t) (h : stepProc pid p k l = some a) : PI pid a.1 := by
  have same : ∀ p' : Proc, p'.crit = p.crit → p'.reg = p.reg → PI pid p' :=
    fun p' h1 h2 => hp.same h1 (fun u => by rw [h2]) (fun u hu => by rw [h2]; exact hu)
  cases l with
  | osOpen fd uid =>
    simp only [stepProc] at h
    split at h <;> cases h; exact same _ rfl rfl
  | openS sid fd uid =>
    simp only [stepProc] at h
    split at h <;> cases h; exact same _ rfl rfl
  | wrapS sid fd cf =>
    simp only [stepProc] at h
    (repeat' split at h) <;> cases h; exact same _ rfl rfl
  | lockCall tid sid len start shared llb =>
    simp only [stepProc] at h
    (repeat' split at h) <;> cases h; exact same _ rfl rfl
  | reg tid =>
    simp only [stepProc] at h
    split at h <;> cases h; exact hp.attemptReg k _ _
  | wake tid =>
    simp only [stepProc] at h
    split at h
    · rename_i q hpc hcr
      split at h
      · rename_i r hr
        cases h
        obtain ⟨d1, d2, d3, d4, d5⟩ := decWaiting_view (pid := pid) hr
        apply PI.attemptReg
        exact hp.same rfl d3 (fun u hu => by dsimp only; rw [d2]; exact hu)
      · cases h; exact same _ (failLock_crit pid p k _ _).1 (failLock_crit pid p k _ _).2
    · cases h
  | kern tid =>
    simp only [stepProc] at h
    (repeat' split at h) <;> cases h
    · exact same _ rfl rfl
    · exact same _ rfl rfl
    · exact same _ rfl rfl
    · simp only [grant, release_eq]; exact same _ rfl rfl
  | kernErr tid =>
    simp only [stepProc] at h
    split at h <;> cases h; exact same _ rfl rfl
  | kernExc tid =>
    simp only [stepProc] at h
    split at h <;> cases h; exact same _ rfl rfl
  | kernIntr tid =>
    simp only [stepProc] at h
    (repeat' split at h) <;> cases h; exact same _ rfl rfl
  | unwind tid => exact absurd rfl (hl tid)
  | retry tid =>
    simp only [stepProc] at h
    split at h <;> cases h <;> exact same _ rfl rfl
  | expire tid =>
    simp only [stepProc] at h
    (repeat' split at h) <;> cases h
    · exact same _ (failLock_crit pid p k _ _).1 (failLock_crit pid p k _ _).2
    · exact same _ rfl rfl
  | unlock sid len start =>
    simp only [stepProc] at h
    split at h
    · rename_i st hst hcr
      split at h
      · cases h
        unfold unlockStream unregisterN
        dsimp only
        split
        · rename_i x p' hu
          split at hu
          · cases hu
          · rename_i x r hr
            cases hu
            obtain ⟨_, rfl, _⟩ := unregister_error hr
            exact hp.same rfl (by simp) (by simp)
        · rename_i b p' hu
          split at hu
          · rename_i b r hr
            cases hu
            obtain ⟨h1, h2, h3, h4, h5⟩ := unregister_ok hr
            refine ⟨by simp [unlockMicros, Queues], fun u hu => ?_⟩
            dsimp only at hu ⊢
            rw [h3] at hu
            by_cases hu' : u = st.uid
            · right; simp [unlockMicros, Soon, hu']
            · left
              rw [h2, if_neg hu']
              rcases hp.owed u hu with h5 | h5
              · exact h5
              · rw [hcr] at h5; exact h5.elim
          · cases hu
      · cases h
    · cases h
  | close sid =>
    simp only [stepProc] at h
    split at h
    · rename_i st hst hcr
      split at h
      · cases h
      · split at h
        · cases h
          obtain ⟨h1, h2, h3, h4, h5, h6⟩ := removeFileLocks_view pid p.reg st.uid st.fd
          refine ⟨?_, fun u hu => ?_⟩
          · simp only [closeStream]
            rw [queues_unlocks]
            unfold closeMicros
            split <;> simp [Queues]
          · simp only [closeStream] at hu ⊢
            rw [h4] at hu
            rw [h3]
            have hT : tableOf pid p.reg u ≠ [] := by
              rcases hp.owed u hu with h5 | h5
              · exact h5
              · rw [hcr] at h5; exact h5.elim
            split
            · rename_i hu'
              subst hu'
              by_cases hrm : (p.reg.removeFileLocks pid st.uid st.fd).1 = []
              · left
                rw [h1] at hrm
                intro hf
                apply hT
                rw [List.filter_eq_nil_iff] at hrm hf
                rw [List.eq_nil_iff_forall_not_mem]
                intro x hx
                have a1 := hrm x hx
                have a2 := hf x hx
                simp only [decide_eq_true_eq] at a1 a2
                exact a2 a1
              · exact Or.inr (soon_unlocks hrm)
            · exact Or.inl hT
        · cases h; exact hp
    · cases h
  | micro =>
    simp only [stepProc] at h
    split at h
    · rename_i m rest hcr
      cases h
      exact hp.micro hcr
    · cases h

theorem Reach.pending {ls : List Label} {w : World} {tr : List Event} (h : Reach ls w tr)
    (hl : ls.all Label.noUnwind = true) : ∀ pid p, w.procs pid = some p → p.alive = true → PI pid p := by
  refine Reach.lift (C := fun ls _ => ls.all Label.noUnwind = true) ?_ ?_ ?_ ?_ h hl
  · intro ls l tr e hc
    simp only [List.all_append, Bool.and_eq_true] at hc
    exact hc.1
  · intro pid
    exact ⟨trivial, fun u hu => absurd (by simp [pendingOf, Proc.fresh, Registry.init]) hu⟩
  · intro child p hp
    exact ⟨trivial, fun u hu => absurd (by simp [pendingOf, Proc.forked, hp]) hu⟩
  · intro ls w tr pid p l a _ _ hc _ _ hp hs
    refine stepProc_pending hp ?_ hs
    rintro t rfl
    simp [Label.noUnwind] at hc

end Verif
