import Verif.Lemmas.WinAccountSteps

/-!
# The accounts of all processes
-/

set_option autoImplicit false

namespace Verif.Win

open Verif Spec

/-- The phase of one thread changes, not its registration. -/
theorem RInv.phase {pid : Nat} {p : Proc} {k : KTable} {H : List Held} (h : RInv pid p k H) {tid : Nat} {pc : PC}
    (hpc : pc.regd = (p.threads tid).regd) : RInv pid (p.setPC tid pc) k H := by
  refine h.frame h.own (fun _ => rfl) ?_ (setPC_ext p p.reg tid pc) rfl (fun _ _ => rfl) (fun _ _ => Iff.rfl)
    (fun _ _ => Iff.rfl)
  intro t
  by_cases e : t = tid
  · subst e
    show (updMap p.threads t pc t).regd = _
    rw [updMap_same, hpc]
  · show (updMap p.threads tid pc t).regd = _
    rw [updMap_other _ _ e]

/-- The call of a thread ends that has no registered lock. -/
theorem RInv.finished {pid : Nat} {p : Proc} {k : KTable} {H : List Held} (h : RInv pid p k H) {tid sid : Nat}
    (hn : (p.threads tid).regd = none) {r : Registry} (hr : r.originalPid = pid)
    (ht : ∀ u, tableOf pid r u = tableOf pid p.reg u) :
    RInv pid ((({ p with reg := r } : Proc).setPC tid .idle).release sid) k H := by
  refine h.frame ?_ ?_ ?_ (finished_ext _ _ _ _ _) ?_ ?_ (fun _ _ => Iff.rfl) (fun _ _ => Iff.rfl)
  · rw [release_reg]; exact hr
  · intro a
    show tableOf pid (Proc.reg _) (key a) = _
    rw [release_reg]; exact ht _
  · intro t
    rw [release_threads]
    by_cases e : t = tid
    · subst e
      show (updMap p.threads t .idle t).regd = _
      rw [updMap_same, hn]; rfl
    · show (updMap p.threads tid .idle t).regd = _
      rw [updMap_other _ _ e]
  · rw [release_crit]; rfl
  · intro m _
    unfold Proc.target
    rw [release_handles]; rfl

/-- An action of the process keeps its accounts, unless `KeyboardInterrupt` arrives after the grant of a lock or a
system call of `unlock_file` or `close` fails for reasons of its own. -/
theorem RInv.step {pid n : Nat} {p p' : Proc} {k k' : KTable} {l : PLabel} {e : List Event} {H : List Held}
    (h : RInv pid p k H) (hi : PInv n p) (hb : ∀ x ∈ H, x.pid = pid → BackedP pid p k x)
    (hu : k.Pairwise (fun a b => ¬ SamePlace a b))
    (hs : stepProc pid n p k l = some (p', k', e)) (hoc : ∀ a, l = .osClose a → Unused p a)
    (hni : ∀ tid, l ≠ .kernIntr tid) (hne : l ≠ .microErr) :
    RInv pid p' k' (after H e) ∧ k'.Pairwise (fun a b => ¬ SamePlace a b) := by
  have ex : ∀ {p' : Proc}, p'.streams = p.streams → Ext p p' := fun g s st hs => ⟨st.busy, by rw [g]; exact hs⟩
  have idk : ∀ y : KLock, y.pid = pid → (y ∈ k ↔ y ∈ k) := fun _ _ => Iff.rfl
  have idH : ∀ x : Held, x.pid = pid → (x ∈ H ↔ x ∈ H) := fun _ _ => Iff.rfl
  have live : ∀ (a : Nat) (hd : Handle), p.target a = none → ∀ m ∈ p.crit,
      (p.handles ++ [(a, hd)]).lookup m.handle = p.target m.handle := by
    intro a hd ha m hm
    rw [target_append hd ha, if_neg]
    intro e
    exact (hi.crit m hm).1 (e ▸ ha)
  cases l with
  | osOpen a file =>
    simp only [stepProc] at hs
    split at hs
    · rename_i ha
      cases hs
      exact ⟨h.frame h.own (fun _ => rfl) (fun _ => rfl) (ex rfl) rfl (live a _ ha) idk idH, hu⟩
    · cases hs
  | osClose a =>
    simp only [stepProc] at hs
    split at hs
    · rename_i hd ha
      cases hs
      rw [hi.closeHandle ha]
      refine ⟨h.frame h.own (fun _ => rfl) (fun _ => rfl) (ex rfl) rfl ?_
        (h.drop hi ha (hoc a rfl).1 (fun s len hm => (hoc a rfl).2 _ hm rfl)) idH, hu.sublist (kDrop_sublist _ _ _)⟩
      intro m hm
      show (p.handles.filter (fun x => ¬ x.1 = a)).lookup m.handle = _
      rw [target_filter, if_neg ((hoc a rfl).2 m hm)]
    · cases hs
  | openS sid a file =>
    simp only [stepProc] at hs
    split at hs
    · rename_i ha
      cases hs
      refine ⟨h.frame h.own (fun _ => rfl) (fun _ => rfl) ?_ rfl (live a _ ha.1) idk idH, hu⟩
      intro s st g
      have ne : s ≠ sid := by rintro rfl; rw [ha.2] at g; cases g
      exact ⟨st.busy, by simp only [updMap_other _ _ ne]; exact g⟩
    · cases hs
  | wrapS sid a c =>
    simp only [stepProc] at hs
    split at hs
    · cases hs
    · rename_i hd ha
      split at hs
      · rename_i hn
        cases hs
        refine ⟨h.frame h.own (fun _ => rfl) (fun _ => rfl) ?_ rfl (fun _ _ => rfl) idk idH, hu⟩
        intro s st g
        have ne : s ≠ sid := by rintro rfl; rw [hn] at g; cases g
        exact ⟨st.busy, by simp only [updMap_other _ _ ne]; exact g⟩
      · cases hs
  | lockCall tid sid len start sh llb =>
    simp only [stepProc] at hs
    split at hs
    · rename_i st ht hst
      split at hs
      · rename_i ho
        cases hs
        refine ⟨h.frame h.own (fun _ => rfl) ?_ ?_ rfl (fun _ _ => rfl) idk idH, hu⟩
        · intro t
          by_cases e : t = tid
          · subst e; simp only [updMap_same, ht, PC.regd]
          · simp only [updMap_other _ _ e]
        · intro s st' g
          by_cases e : s = sid
          · subst e
            rw [hst] at g; cases g
            exact ⟨some tid, by simp only [updMap_same]⟩
          · exact ⟨st'.busy, by simp only [updMap_other _ _ e]; exact g⟩
      · cases hs
    · cases hs
  | reg tid =>
    simp only [stepProc] at hs
    split at hs
    · rename_i q ht hc
      have hn : (p.threads tid).regd = none := by rw [ht]; rfl
      simp only [Option.some.injEq] at hs
      unfold attemptReg at hs
      split at hs
      · rename_i x r hr
        cases hs
        obtain ⟨r1, r2, _⟩ := register_nok hr (by nofun)
        exact ⟨h.finished hn r1 r2, hu⟩
      · rename_i r hr
        cases hs
        exact ⟨h.registered hi ht hc hr, hu⟩
      · rename_i r hr
        cases hs
        obtain ⟨r1, r2, _⟩ := register_nok hr (by nofun)
        refine ⟨RInv.phase (p := { p with reg := r }) ?_ (by rw [hn]; rfl), hu⟩
        exact h.frame r1 (fun a => r2 _) (fun _ => rfl) (ex rfl) rfl (fun _ _ => rfl) idk idH
    · cases hs
  | kern tid =>
    simp only [stepProc] at hs
    split at hs
    · rename_i q ht
      have hq : (p.threads tid).regd = some q := by rw [ht]; rfl
      split at hs
      · cases hs; exact ⟨h.phase hq.symm, hu⟩
      · rename_i l o hr
        split at hs
        · cases hs; exact ⟨h.phase hq.symm, hu⟩
        · rename_i hd ha
          split at hs
          · split at hs
            · cases hs
            · cases hs; exact ⟨h.phase hq.symm, hu⟩
          · cases hs
            exact h.granted hi hu ht hr ha
    · cases hs
  | kernErr tid =>
    simp only [stepProc] at hs
    split at hs
    · rename_i q ht
      cases hs; exact ⟨h.phase (by rw [ht]; rfl), hu⟩
    · cases hs
  | kernExc tid =>
    simp only [stepProc] at hs
    split at hs
    · rename_i q ht
      cases hs; exact ⟨h.phase (by rw [ht]; rfl), hu⟩
    · cases hs
  | kernIntr tid => exact absurd rfl (hni tid)
  | unwind tid =>
    simp only [stepProc] at hs
    split at hs
    · rename_i q ht hc
      cases hs; exact ⟨h.unwound hi ht, hu⟩
    · cases hs
  | retry tid =>
    simp only [stepProc] at hs
    split at hs
    · rename_i q ht
      cases hs; exact ⟨h.phase (by rw [ht]; rfl), hu⟩
    · rename_i q ht
      cases hs; exact ⟨h.phase (by rw [ht]; rfl), hu⟩
    · cases hs
  | expire tid =>
    simp only [stepProc] at hs
    split at hs
    · rename_i q ht
      split at hs
      · cases hs
      · cases hs; exact ⟨h.finished (by rw [ht]; rfl) h.own (fun _ => rfl), hu⟩
    · rename_i q ht
      split at hs
      · cases hs
      · cases hs; exact ⟨h.phase (by rw [ht]; rfl), hu⟩
    · cases hs
  | unlock sid len start =>
    simp only [stepProc] at hs
    split at hs
    · rename_i st hst hc
      split at hs
      · rename_i ho
        simp only [Option.some.injEq] at hs
        unfold unlockStream at hs
        dsimp only at hs
        split at hs
        · rename_i x r hr
          cases hs
          obtain ⟨_, rfl, _⟩ := unregister_error hr
          refine ⟨h.frame (by simp) (fun a => ?_) (fun _ => rfl) (ex rfl) rfl (fun _ _ => rfl) idk idH, hu⟩
          show tableOf pid (p.reg.checkForking pid) (key a) = _
          rw [tableOf_checkForking]; rfl
        · rename_i b r hr
          cases hs
          exact ⟨h.unlocking hi hst ho.1 ho.2 hc hr, hu⟩
      · cases hs
    · cases hs
  | close sid =>
    simp only [stepProc] at hs
    split at hs
    · rename_i st hst hc
      split at hs
      · cases hs
      · rename_i hbz
        split at hs
        · rename_i ho
          simp only [Option.some.injEq] at hs
          have := h.closing hi hb hst ho (by
            cases e : st.busy with
            | none => rfl
            | some t => exact absurd (by rw [e]; nofun) hbz) hc
          rw [hs] at this
          have hk : k' = k := by
            have := congrArg (fun z => z.2.1) hs
            exact this.symm
          subst hk
          exact ⟨this, hu⟩
        · cases hs
          exact ⟨h, hu⟩
    · cases hs
  | micro =>
    simp only [stepProc] at hs
    split at hs
    · rename_i m rest hc
      simp only [Option.some.injEq] at hs
      cases m with
      | unlock sid a f s len => exact h.micro_unlock hi hb hu hc hs
      | cunlock a s len => exact ⟨(h.micro_cunlock hi hu hc hs).1, (h.micro_cunlock hi hu hc hs).2.1⟩
      | cclose a => exact h.micro_close hi hu hc hs
    · cases hs
  | microErr => exact absurd rfl hne

/-! ## All processes -/

/-- The process of an event. -/
def evPid : Event → Nat
  | .opened p _ _ _ _ => p
  | .lockReq p _ _ _ _ _ => p
  | .locked p _ _ _ _ _ => p
  | .lockFailed p _ _ _ _ _ => p
  | .unlocked p _ _ _ _ => p
  | .unlockFailed p _ _ _ _ => p
  | .closed p _ _ => p
  | .nclose p _ _ => p
  | .badFd p _ => p
  | .keyErr p => p
  | .forked p _ => p
  | .exited p => p

theorem stepProc_events {pid n : Nat} {p p' : Proc} {k k' : KTable} {l : PLabel} {e : List Event}
    (hs : stepProc pid n p k l = some (p', k', e)) : ∀ ev ∈ e, evPid ev = pid := by
  intro ev hm
  have fin : ∀ {L : List Event}, (∀ ev ∈ L, evPid ev = pid) → ev ∈ L → evPid ev = pid := fun h hm => h ev hm
  cases l with
  | reg tid =>
    simp only [stepProc] at hs
    split at hs
    · simp only [Option.some.injEq] at hs
      unfold attemptReg failLock at hs
      split at hs <;> cases hs <;> first | (exact fin (by simp [evPid]) hm) | cases hm
    · cases hs
  | unlock sid len start =>
    simp only [stepProc] at hs
    split at hs
    · split at hs
      · simp only [Option.some.injEq] at hs
        unfold unlockStream at hs
        dsimp only at hs
        split at hs <;> cases hs <;> first | (exact fin (by simp [evPid]) hm) | cases hm
      · cases hs
    · cases hs
  | micro =>
    simp only [stepProc] at hs
    split at hs
    · rename_i m rest _
      simp only [Option.some.injEq] at hs
      cases m <;>
      · simp only [doMicro] at hs
        repeat' split at hs
        all_goals (cases hs; first | (exact fin (by simp [evPid]) hm) | cases hm)
    · cases hs
  | microErr =>
    simp only [stepProc] at hs
    split at hs
    · rename_i m _ _
      cases m <;> cases hs <;> first | (exact fin (by simp [evPid]) hm) | cases hm
    · cases hs
  | _ =>
    simp only [stepProc, failLock, closeStream] at hs
    repeat' split at hs
    all_goals first
      | (cases hs; done)
      | (cases hs; first | (exact fin (by simp [evPid]) hm) | cases hm)

theorem heldStep_other {H : List Held} {ev : Event} {x : Held} (h : x.pid ≠ evPid ev) : x ∈ heldStep H ev ↔ x ∈ H := by
  cases ev <;> simp only [heldStep, evPid] at h ⊢
  · rw [List.mem_append, List.mem_singleton]
    refine ⟨fun g => ?_, Or.inl⟩
    rcases g with g | rfl
    · exact g
    · exact absurd rfl h
  all_goals
    rw [List.mem_filter]
    simp [h]

theorem after_other {pid : Nat} {e : List Event} (he : ∀ ev ∈ e, evPid ev = pid) {x : Held} (h : x.pid ≠ pid) :
    ∀ {H : List Held}, x ∈ after H e ↔ x ∈ H := by
  induction e with
  | nil => intro H; exact Iff.rfl
  | cons ev es ih =>
    intro H
    show x ∈ after (heldStep H ev) es ↔ _
    rw [ih (fun v hv => he v (List.mem_cons_of_mem _ hv))]
    exact heldStep_other (by rw [he ev List.mem_cons_self]; exact h)

/-- The accounts of all processes. -/
structure Accounts (w : World) (tr : List Event) : Prop where
  inv : Inv w tr
  procs : ∀ pid p, w.procs pid = some p → p.alive = true → RInv pid p w.kern (heldOf tr)
  unique : w.kern.Pairwise (fun a b => ¬ SamePlace a b)
  alive : ∀ y ∈ w.kern, ∃ p, w.procs y.pid = some p ∧ p.alive = true

/-- No interrupt arrives between the grant of a lock and the return of `lock_file`, and `UnlockFileEx` and `CloseHandle`
do what they are asked for. -/
def Undisturbed : Label → Prop
  | .act _ (.kernIntr _) => False
  | .act _ .microErr => False
  | _ => True

theorem RInv.other {pid : Nat} {p : Proc} {k k' : KTable} {H H' : List Held} (h : RInv pid p k H)
    (hk : ∀ y : KLock, y.pid = pid → (y ∈ k' ↔ y ∈ k)) (hH : ∀ x : Held, x.pid = pid → (x ∈ H' ↔ x ∈ H)) :
    RInv pid p k' H' :=
  h.frame h.own (fun _ => rfl) (fun _ => rfl) (fun _ st g => ⟨st.busy, g⟩) rfl (fun _ _ => rfl) hk hH

theorem RInv.fresh (pid : Nat) {k : KTable} {H : List Held} (hk : ∀ y ∈ k, y.pid ≠ pid) (hH : ∀ x ∈ H, x.pid ≠ pid) :
    RInv pid (Proc.fresh pid) k H where
  own := rfl
  recs := by
    intro h r hm
    have : tab pid (Proc.fresh pid) h = [] := by simp [tab, tableOf, Proc.fresh, Registry.init]
    rw [this] at hm; cases hm
  apart := by
    intro h
    have : tab pid (Proc.fresh pid) h = [] := by simp [tab, tableOf, Proc.fresh, Registry.init]
    rw [this]; exact List.Pairwise.nil
  flight := by intro t q hq; cases hq
  heldRec := by intro x hx hp; exact absurd hp (hH x hx)
  recWhy := by
    intro h r hm
    have : tab pid (Proc.fresh pid) h = [] := by simp [tab, tableOf, Proc.fresh, Registry.init]
    rw [this] at hm; cases hm
  kernWhy := by intro y hy hp; exact absurd hp (hk y hy)
  cun := by intro _ _ _ hm; cases hm
  cunApart := List.Pairwise.nil
  unlk := by intro _ _ _ _ _ hm; cases hm

theorem Accounts.step {w w' : World} {tr e : List Event} {l : Label} (h : Accounts w tr) (hw : Sane w l)
    (hnd : Undisturbed l) (hs : Win.step w l = some (w', e)) : Accounts w' (tr ++ e) := by
  have hinv := h.inv.step hw hs
  obtain ⟨hw, hsg, hf⟩ := hw
  cases l with
  | newProc pid =>
    simp only [Win.step] at hs
    split at hs
    · rename_i hn
      cases hs
      have hk : ∀ y ∈ w.kern, y.pid ≠ pid := by
        intro y hy e
        obtain ⟨p, g1, _⟩ := h.alive y hy
        rw [e, hn] at g1; cases g1
      have hH : ∀ x ∈ heldOf tr, x.pid ≠ pid := by
        intro x hx e
        obtain ⟨p, g1, _⟩ := h.inv.held x hx
        rw [e, hn] at g1; cases g1
      refine ⟨hinv, ?_, h.unique, ?_⟩
      · intro q p hp ha
        rw [List.append_nil]
        by_cases e : q = pid
        · simp only [e, updMap_same, Option.some.injEq] at hp
          subst hp; subst e
          exact RInv.fresh _ hk hH
        · simp only [updMap_other _ _ e] at hp
          exact h.procs q p hp ha
      · intro y hy
        obtain ⟨p, g1, g2⟩ := h.alive y hy
        exact ⟨p, by simp only [updMap_other _ _ (hk y hy)]; exact g1, g2⟩
    · cases hs
  | act pid l =>
    simp only [Win.step] at hs
    split at hs
    · cases hs
    · rename_i p hp
      split at hs
      · rename_i ha
        split at hs
        · rename_i p' k' e' hst
          cases hs
          have hi := h.inv.procs pid p hp ha
          have hoc : ∀ a, l = .osClose a → Unused p a := by
            rintro a rfl; exact hw p hp
          obtain ⟨_, k2⟩ := kern_step hst h.inv.kern
          have hb : ∀ x ∈ heldOf tr, x.pid = pid → BackedP pid p w.kern x := by
            intro y hy hyp
            obtain ⟨p₂, g1, g2, g3⟩ := h.inv.held y hy
            rw [hyp, hp] at g1
            cases g1
            rwa [hyp] at g3
          obtain ⟨r1, r2⟩ := (h.procs pid p hp ha).step hi hb h.unique hst hoc
            (by rintro tid rfl; exact hnd) (by rintro rfl; exact hnd)
          refine ⟨hinv, ?_, r2, ?_⟩
          · intro q p₁ hp₁ ha₁
            rw [heldOf_append]
            by_cases e : q = pid
            · simp only [e, updMap_same, Option.some.injEq] at hp₁
              subst hp₁; subst e
              exact r1
            · simp only [updMap_other _ _ e] at hp₁
              refine (h.procs q p₁ hp₁ ha₁).other (fun y hy => k2 y (by rw [hy]; exact e)) (fun x hx => ?_)
              exact after_other (stepProc_events hst) (by rw [hx]; exact e)
          · intro y hy
            by_cases e : y.pid = pid
            · exact ⟨p', by simp only [e, updMap_same], by rw [stepProc_alive hst]; exact ha⟩
            · obtain ⟨p₂, g1, g2⟩ := h.alive y ((k2 y e).1 hy)
              exact ⟨p₂, by simp only [updMap_other _ _ e]; exact g1, g2⟩
        · cases hs
      · cases hs
  | dup src a dst b =>
    simp only [Win.step] at hs
    split at hs
    · rename_i p p' hp hp'
      split at hs
      · rename_i hc
        split at hs
        · rename_i hd ha
          cases hs
          have hi' := h.inv.procs dst p' hp' hc.2.1
          refine ⟨hinv, ?_, h.unique, ?_⟩
          · intro q p₁ hp₁ ha₁
            rw [List.append_nil]
            by_cases e : q = dst
            · simp only [e, updMap_same, Option.some.injEq] at hp₁
              subst hp₁; subst e
              refine (h.procs _ p' hp' hc.2.1).frame ?_ (fun _ => rfl) (fun _ => rfl) (fun _ st g => ⟨st.busy, g⟩) rfl ?_
                (fun _ _ => Iff.rfl) (fun _ _ => Iff.rfl)
              · exact (h.procs _ p' hp' hc.2.1).own
              · intro m hm
                show (p'.handles ++ [(b, hd)]).lookup m.handle = _
                rw [target_append hd hc.2.2, if_neg]
                intro e
                exact (hi'.crit m hm).1 (e ▸ hc.2.2)
            · simp only [updMap_other _ _ e] at hp₁
              exact h.procs q p₁ hp₁ ha₁
          · intro y hy
            obtain ⟨p₂, g1, g2⟩ := h.alive y hy
            by_cases e : y.pid = dst
            · exact ⟨{ p' with handles := p'.handles ++ [(b, hd)] }, by simp only [e, updMap_same], hc.2.1⟩
            · exact ⟨p₂, by simp only [updMap_other _ _ e]; exact g1, g2⟩
        · cases hs
      · cases hs
    · cases hs
  | exit pid =>
    simp only [Win.step] at hs
    split at hs
    · cases hs
    · rename_i p hp
      split at hs
      · cases hs
        have memK : ∀ y : KLock, y ∈ kDropPid w.kern pid ↔ y ∈ w.kern ∧ y.pid ≠ pid := by
          intro y; unfold kDropPid; rw [List.mem_filter]; simp
        refine ⟨hinv, ?_, h.unique.sublist List.filter_sublist, ?_⟩
        · intro q p₁ hp₁ ha₁
          by_cases e : q = pid
          · simp only [e, updMap_same, Option.some.injEq] at hp₁
            subst hp₁; cases ha₁
          · simp only [updMap_other _ _ e] at hp₁
            refine (h.procs q p₁ hp₁ ha₁).other (fun y hy => ?_) (fun x hx => ?_)
            · rw [memK]; exact ⟨fun g => g.1, fun g => ⟨g, by rw [hy]; exact e⟩⟩
            · rw [heldOf_append]
              exact after_other (pid := pid) (by intro ev hm; rw [List.mem_singleton] at hm; subst hm; rfl)
                (by rw [hx]; exact e)
        · intro y hy
          obtain ⟨g, ne⟩ := (memK y).1 hy
          obtain ⟨p₂, g1, g2⟩ := h.alive y g
          exact ⟨p₂, by simp only [updMap_other _ _ ne]; exact g1, g2⟩
      · cases hs

theorem Accounts.init : Accounts World.init [] where
  inv := Inv.init
  procs := fun _ _ h => by cases h
  unique := List.Pairwise.nil
  alive := fun _ h => by cases h

theorem Reach.accounts {ls : List Label} {w : World} {tr : List Event}
    (h : Reach (fun w l => Sane w l ∧ Undisturbed l) ls w tr) : Accounts w tr := by
  induction h with
  | init => exact Accounts.init
  | step _ ha hs ih => exact ih.step ha.1 ha.2 hs

end Verif.Win
