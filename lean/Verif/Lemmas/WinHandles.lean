import Verif.Lemmas.WinAccountWorld
import Verif.Spec.Handles

/-!
# The handles that `close` has to close (windows)
-/

set_option autoImplicit false

namespace Verif.Win

open Verif Spec

/-- What is known of the streams and owed handles of one process. -/
structure OInv (pid : Nat) (p : Proc) (o : Owes) : Prop where
  streams : ∀ s ∈ o.streams, s.pid = pid → ∃ st, p.streams s.sid = some st ∧ st.handle = s.fd ∧ st.closefd = s.closefd
  owed : ∀ x ∈ o.owed, x.1 = pid → Micro.cclose x.2 ∈ p.crit

theorem OInv.frame {pid : Nat} {p p' : Proc} {o : Owes} (h : OInv pid p o) (hx : Ext p p')
    (hc : ∀ a, Micro.cclose a ∈ p.crit → Micro.cclose a ∈ p'.crit) : OInv pid p' o := by
  refine ⟨fun s hs hp => ?_, fun x hx' hp => hc _ (h.owed x hx' hp)⟩
  obtain ⟨st, g1, g2, g3⟩ := h.streams s hs hp
  obtain ⟨b, hb⟩ := hx _ _ g1
  exact ⟨_, hb, g2, g3⟩

/-- What is owed after some events. -/
def owes (o : Owes) (e : List Event) : Owes := e.foldl owesStep o

theorem OInv.opened {pid : Nat} {p p' : Proc} {o : Owes} (h : OInv pid p o) (hx : Ext p p') (hc : p'.crit = p.crit)
    {sid fd : Nat} {u : Uid} {c : Bool} {st : Stream} (hs : p'.streams sid = some st) (h1 : st.handle = fd)
    (h2 : st.closefd = c) : OInv pid p' (owes o [.opened pid sid fd u c]) := by
  have hf := h.frame hx (fun a g => by rw [hc]; exact g)
  refine ⟨fun s hm hp => ?_, hf.owed⟩
  rcases List.mem_append.1 (show s ∈ o.streams ++ [_] from hm) with hm | hm
  · exact hf.streams s hm hp
  · rw [List.mem_singleton] at hm
    subst hm
    exact ⟨st, hs, h1, h2⟩

theorem OInv.step {pid n : Nat} {p p' : Proc} {k k' : KTable} {l : PLabel} {e : List Event} {H : List Held} {o : Owes}
    (ho : OInv pid p o) (h : RInv pid p k H) (hi : PInv n p) (hu : k.Pairwise (fun a b => ¬ SamePlace a b))
    (hs : stepProc pid n p k l = some (p', k', e)) (hoc : ∀ a, l = .osClose a → Unused p a)
    (hni : ∀ tid, l ≠ .kernIntr tid) (hne : l ≠ .microErr) : OInv pid p' (owes o e) := by
  have ex : ∀ {p' : Proc}, p'.streams = p.streams → Ext p p' := fun g s st hs => ⟨st.busy, by rw [g]; exact hs⟩
  have same : ∀ {p' : Proc}, p'.streams = p.streams → p'.crit = p.crit → OInv pid p' o :=
    fun g1 g2 => ho.frame (ex g1) (fun a g => by rw [g2]; exact g)
  have fin : ∀ (r : Registry) (tid sid : Nat), OInv pid ((({ p with reg := r } : Proc).setPC tid .idle).release sid) o :=
    fun r tid sid => ho.frame (finished_ext _ _ _ _ _) (fun a g => by rw [release_crit]; exact g)
  have gone : ∀ {p' : Proc} (a : Nat) (f : Uid), Ext p p' →
      (∀ b, b ≠ a → Micro.cclose b ∈ p.crit → Micro.cclose b ∈ p'.crit) → OInv pid p' (owes o [.nclose pid a f]) := by
    intro p' a f hx hc
    refine ⟨fun s hm hp => ?_, fun x hm hp => ?_⟩
    · obtain ⟨st, g1, g2, g3⟩ := ho.streams s hm hp
      obtain ⟨b, hb⟩ := hx _ _ g1
      exact ⟨_, hb, g2, g3⟩
    · have hm : x ∈ o.owed.filter (fun x => ¬ x = (pid, a)) := hm
      rw [List.mem_filter] at hm
      have hne : x ≠ (pid, a) := by simpa using hm.2
      refine hc _ (fun e => hne ?_) (ho.owed x hm.1 hp)
      rw [← hp, ← e]
  cases l with
  | osOpen a file =>
    simp only [stepProc] at hs
    split at hs
    · cases hs; exact same rfl rfl
    · cases hs
  | osClose a =>
    simp only [stepProc] at hs
    split at hs
    · rename_i hd ha
      cases hs
      rw [hi.closeHandle ha]
      exact gone a hd.file (ex rfl) (fun _ _ g => g)
    · cases hs
  | openS sid a file =>
    simp only [stepProc] at hs
    split at hs
    · rename_i ha
      cases hs
      refine ho.opened ?_ (by rfl) (st := ⟨a, n, file, true, true, none⟩) ?_ rfl rfl
      · intro s st g
        have ne : s ≠ sid := by rintro rfl; rw [ha.2] at g; cases g
        exact ⟨st.busy, by simp only [updMap_other _ _ ne]; exact g⟩
      · simp only [updMap_same]
    · cases hs
  | wrapS sid a c =>
    simp only [stepProc] at hs
    split at hs
    · cases hs
    · rename_i hd ha
      split at hs
      · rename_i hn
        cases hs
        refine ho.opened ?_ (by rfl) (st := ⟨a, hd.obj, hd.file, c, true, none⟩) ?_ rfl rfl
        · intro s st g
          have ne : s ≠ sid := by rintro rfl; rw [hn] at g; cases g
          exact ⟨st.busy, by simp only [updMap_other _ _ ne]; exact g⟩
        · simp only [updMap_same]
      · cases hs
  | lockCall tid sid len start sh llb =>
    simp only [stepProc] at hs
    split at hs
    · rename_i st ht hst
      split at hs
      · cases hs
        refine ho.frame ?_ (fun _ g => g)
        intro s st' g
        by_cases e : s = sid
        · subst e
          rw [hst] at g; cases g
          exact ⟨some tid, by simp only [updMap_same]⟩
        · exact ⟨st'.busy, by simp only [updMap_other _ _ e]; exact g⟩
      · cases hs
    · cases hs
  | reg tid =>
    simp only [stepProc] at hs
    split at hs
    · rename_i q ht hc
      simp only [Option.some.injEq] at hs
      unfold attemptReg at hs
      split at hs <;> cases hs
      · exact fin _ _ _
      · exact same rfl rfl
      · exact same rfl rfl
    · cases hs
  | kern tid =>
    simp only [stepProc] at hs
    split at hs
    · rename_i q ht
      split at hs
      · cases hs; exact same rfl rfl
      · split at hs
        · cases hs; exact same rfl rfl
        · split at hs
          · split at hs
            · cases hs
            · cases hs; exact same rfl rfl
          · cases hs; exact fin p.reg _ _
    · cases hs
  | kernErr tid =>
    simp only [stepProc] at hs
    split at hs
    · cases hs; exact same rfl rfl
    · cases hs
  | kernExc tid =>
    simp only [stepProc] at hs
    split at hs
    · cases hs; exact same rfl rfl
    · cases hs
  | kernIntr tid => exact absurd rfl (hni tid)
  | unwind tid =>
    simp only [stepProc] at hs
    split at hs
    · cases hs; exact fin _ _ _
    · cases hs
  | retry tid =>
    simp only [stepProc] at hs
    split at hs
    · cases hs; exact same rfl rfl
    · cases hs; exact same rfl rfl
    · cases hs
  | expire tid =>
    simp only [stepProc] at hs
    split at hs
    · split at hs
      · cases hs
      · cases hs; exact fin p.reg _ _
    · split at hs
      · cases hs
      · cases hs; exact same rfl rfl
    · cases hs
  | unlock sid len start =>
    simp only [stepProc] at hs
    split at hs
    · rename_i st hst hc
      split at hs
      · simp only [Option.some.injEq] at hs
        unfold unlockStream at hs
        dsimp only at hs
        split at hs
        · cases hs; exact same rfl rfl
        · cases hs
          exact ho.frame (ex rfl) (fun a g => by rw [hc] at g; cases g)
      · cases hs
    · cases hs
  | close sid =>
    simp only [stepProc] at hs
    split at hs
    · rename_i st hst hc
      split at hs
      · cases hs
      · split at hs
        · rename_i hopen
          cases hs
          have hstr : ∀ s ∈ o.streams, s.pid = pid →
              ∃ st', (closeStream pid p k sid st).1.streams s.sid = some st' ∧ st'.handle = s.fd ∧
                st'.closefd = s.closefd := by
            intro s hm hp
            obtain ⟨st', g1, g2, g3⟩ := ho.streams s hm hp
            by_cases e : s.sid = sid
            · rw [e, hst] at g1; cases g1
              exact ⟨{ st with isOpen := false }, by simp only [closeStream, e, updMap_same], g2, g3⟩
            · exact ⟨st', by simp only [closeStream, updMap_other _ _ e]; exact g1, g2, g3⟩
          refine ⟨hstr, fun x hm hp => ?_⟩
          rcases List.mem_append.1 (show x ∈ o.owed ++ _ from hm) with hm | hm
          · have := ho.owed x hm hp
            rw [hc] at this; cases this
          · obtain ⟨s, hs1, rfl⟩ := List.mem_map.1 hm
            rw [List.mem_filter] at hs1
            have hz : s.pid = pid ∧ s.sid = sid ∧ s.closefd = true := by simpa using hs1.2
            obtain ⟨z1, z2, z3⟩ := hz
            obtain ⟨st', g1, g2, g3⟩ := ho.streams s hs1.1 z1
            rw [z2, hst] at g1; cases g1
            show Micro.cclose s.fd ∈ _
            simp only [closeStream]
            refine List.mem_append_right _ ?_
            rw [g3, z3, ← g2]
            exact List.mem_cons_self
        · cases hs; exact same rfl rfl
    · cases hs
  | micro =>
    simp only [stepProc] at hs
    split at hs
    · rename_i m rest hc
      simp only [Option.some.injEq] at hs
      have hsh := hi.shape
      rw [hc] at hsh
      cases m with
      | unlock sid a f s len =>
        have hn : ∀ b, Micro.cclose b ∉ p.crit := by
          intro b hb
          rw [hc, show rest = [] from hsh, List.mem_singleton] at hb
          cases hb
        have any : ∀ {p' : Proc}, p'.streams = p.streams → OInv pid p' o :=
          fun g => ho.frame (ex g) (fun a g => absurd g (hn a))
        simp only [doMicro] at hs
        repeat' split at hs
        all_goals (cases hs; exact any rfl)
      | cunlock a s len =>
        obtain ⟨_, _, hr⟩ := h.micro_cunlock hi hu hc hs
        have he : e = [] := by
          obtain ⟨hd, l, o, c1, c2, y, c3, c4, c5, c6, c7⟩ := h.cun a s len (by rw [hc]; exact List.mem_cons_self)
          simp only [doMicro, c1, c2] at hs
          split at hs <;> cases hs <;> rfl
        have hst : p'.streams = p.streams := by
          simp only [doMicro] at hs
          repeat' split at hs
          all_goals (cases hs; rfl)
        subst he
        refine ho.frame (ex hst) (fun b hb => ?_)
        rw [hr]
        rw [hc] at hb
        rcases List.mem_cons.1 hb with hb | hb
        · cases hb
        · exact hb
      | cclose a =>
        have hrest : rest = [] := hsh
        simp only [doMicro] at hs
        split at hs
        · rename_i ha
          exact absurd ha (hi.crit (.cclose a) (by rw [hc]; exact List.mem_cons_self)).1
        · rename_i hd ha
          rw [hi.closeHandle ha] at hs
          cases hs
          refine gone a hd.file (ex rfl) (fun b hb g => ?_)
          rw [hc, hrest, List.mem_singleton] at g
          cases g
          exact absurd rfl hb
    · cases hs
  | microErr => exact absurd rfl hne

theorem owesStep_other {o : Owes} {ev : Event} :
    (∀ s : OpenedAs, s.pid ≠ evPid ev → (s ∈ (owesStep o ev).streams → s ∈ o.streams)) ∧
    (∀ x : Nat × Nat, x.1 ≠ evPid ev → (x ∈ (owesStep o ev).owed → x ∈ o.owed)) := by
  refine ⟨fun s hp h => ?_, fun x hp h => ?_⟩
  · cases ev <;> simp only [owesStep, evPid] at h hp <;> try exact h
    rcases List.mem_append.1 h with h | h
    · exact h
    · rw [List.mem_singleton] at h; subst h; exact absurd rfl hp
  · cases ev <;> simp only [owesStep, evPid] at h hp <;> try exact h
    · rcases List.mem_append.1 h with h | h
      · exact h
      · obtain ⟨s, hs, rfl⟩ := List.mem_map.1 h
        rw [List.mem_filter] at hs
        exact absurd (of_decide_eq_true hs.2).1 hp
    · exact (List.mem_filter.1 h).1
    · exact (List.mem_filter.1 h).1

theorem owes_other {pid : Nat} {e : List Event} (he : ∀ ev ∈ e, evPid ev = pid) : ∀ {o : Owes},
    (∀ s : OpenedAs, s.pid ≠ pid → (s ∈ (owes o e).streams → s ∈ o.streams)) ∧
    (∀ x : Nat × Nat, x.1 ≠ pid → (x ∈ (owes o e).owed → x ∈ o.owed)) := by
  induction e with
  | nil => intro o; exact ⟨fun _ _ h => h, fun _ _ h => h⟩
  | cons ev es ih =>
    intro o
    have h1 := he ev List.mem_cons_self
    obtain ⟨i1, i2⟩ := ih (fun v hv => he v (List.mem_cons_of_mem _ hv)) (o := owesStep o ev)
    obtain ⟨j1, j2⟩ := owesStep_other (o := o) (ev := ev)
    rw [h1] at j1 j2
    exact ⟨fun s hs h => j1 s hs (i1 s hs h), fun x hx h => j2 x hx (i2 x hx h)⟩

theorem OInv.other {pid pid' : Nat} {p : Proc} {o : Owes} {e : List Event} (h : OInv pid' p o)
    (he : ∀ ev ∈ e, evPid ev = pid) (hne : pid' ≠ pid) : OInv pid' p (owes o e) := by
  obtain ⟨h1, h2⟩ := owes_other he (o := o)
  exact ⟨fun s hs hp => h.streams s (h1 s (by rw [hp]; exact hne) hs) hp,
    fun x hx hp => h.owed x (h2 x (by rw [hp]; exact hne) hx) hp⟩

/-- The invariant of all processes. -/
def OwesAll (w : World) (tr : List Event) : Prop :=
  (∀ s ∈ (owes ⟨[], []⟩ tr).streams, w.procs s.pid ≠ none) ∧
  (∀ x ∈ (owes ⟨[], []⟩ tr).owed, ∃ p, w.procs x.1 = some p ∧ p.alive = true) ∧
  ∀ pid p, w.procs pid = some p → p.alive = true → OInv pid p (owes ⟨[], []⟩ tr)

theorem owes_append (o : Owes) (tr e : List Event) : owes o (tr ++ e) = owes (owes o tr) e := by
  simp only [owes, List.foldl_append]

theorem OwesAll.step {w w' : World} {tr e : List Event} {l : Label} (ho : OwesAll w tr) (h : Accounts w tr)
    (hw : Sane w l) (hnd : Undisturbed l) (hs : Win.step w l = some (w', e)) : OwesAll w' (tr ++ e) := by
  obtain ⟨hw, hsg, hf⟩ := hw
  obtain ⟨o1, o2, o3⟩ := ho
  unfold OwesAll
  rw [owes_append]
  generalize owes ⟨[], []⟩ tr = o at o1 o2 o3
  cases l with
  | newProc pid =>
    simp only [Win.step] at hs
    split at hs
    · rename_i hn
      cases hs
      have s1 : ∀ s ∈ o.streams, s.pid ≠ pid := fun s hs e => o1 s hs (by rw [e]; exact hn)
      have s2 : ∀ x ∈ o.owed, x.1 ≠ pid := by
        intro x hx e
        obtain ⟨p, g, _⟩ := o2 x hx
        rw [e, hn] at g; cases g
      refine ⟨fun s hs => ?_, fun x hx => ?_, fun q p hp ha => ?_⟩
      · simp only [updMap_other _ _ (s1 s hs)]; exact o1 s hs
      · simp only [updMap_other _ _ (s2 x hx)]; exact o2 x hx
      · by_cases e : q = pid
        · simp only [e, updMap_same, Option.some.injEq] at hp
          subst hp; subst e
          exact ⟨fun s hs hp => absurd hp (s1 s hs), fun x hx hp => absurd hp (s2 x hx)⟩
        · simp only [updMap_other _ _ e] at hp
          exact o3 q p hp ha
    · cases hs
  | act pid l =>
    simp only [Win.step] at hs
    split at hs
    · cases hs
    · rename_i p hp
      split at hs
      · rename_i ha
        split at hs
        · rename_i p' k' e' hst
          cases hs
          have hev := stepProc_events hst
          have hoc : ∀ a, l = .osClose a → Unused p a := by
            rintro a rfl; exact hw p hp
          have hme := (o3 pid p hp ha).step (h.procs pid p hp ha) (h.inv.procs pid p hp ha) h.unique hst hoc
            (by rintro tid rfl; exact hnd) (by rintro rfl; exact hnd)
          obtain ⟨i1, i2⟩ := owes_other hev (o := o)
          refine ⟨fun s hs => ?_, fun x hx => ?_, fun q p₁ hp₁ ha₁ => ?_⟩
          · by_cases e : s.pid = pid
            · simp only [e, updMap_same]; nofun
            · simp only [updMap_other _ _ e]; exact o1 s (i1 s e hs)
          · by_cases e : x.1 = pid
            · exact ⟨p', by simp only [e, updMap_same], by rw [stepProc_alive hst]; exact ha⟩
            · simp only [updMap_other _ _ e]; exact o2 x (i2 x e hx)
          · by_cases e : q = pid
            · simp only [e, updMap_same, Option.some.injEq] at hp₁
              subst hp₁; subst e
              exact hme
            · simp only [updMap_other _ _ e] at hp₁
              exact (o3 q p₁ hp₁ ha₁).other hev e
        · cases hs
      · cases hs
  | dup src a dst b =>
    simp only [Win.step] at hs
    split at hs
    · rename_i p p' hp hp'
      split at hs
      · rename_i hc
        split at hs
        · rename_i hd ha
          cases hs
          refine ⟨fun s hs => ?_, fun x hx => ?_, fun q p₁ hp₁ ha₁ => ?_⟩
          · by_cases e : s.pid = dst
            · simp only [e, updMap_same]; nofun
            · simp only [updMap_other _ _ e]; exact o1 s hs
          · by_cases e : x.1 = dst
            · exact ⟨{ p' with handles := p'.handles ++ [(b, hd)] }, by simp only [e, updMap_same], hc.2.1⟩
            · simp only [updMap_other _ _ e]; exact o2 x hx
          · by_cases e : q = dst
            · simp only [e, updMap_same, Option.some.injEq] at hp₁
              subst hp₁; subst e
              exact (o3 _ p' hp' hc.2.1).frame (fun _ st g => ⟨st.busy, g⟩) (fun _ g => g)
            · simp only [updMap_other _ _ e] at hp₁
              exact o3 q p₁ hp₁ ha₁
        · cases hs
      · cases hs
    · cases hs
  | exit pid =>
    simp only [Win.step] at hs
    split at hs
    · cases hs
    · rename_i p hp
      split at hs
      · cases hs
        refine ⟨fun s hs => ?_, fun x hx => ?_, fun q p₁ hp₁ ha₁ => ?_⟩
        · by_cases e : s.pid = pid
          · simp only [e, updMap_same]; nofun
          · simp only [updMap_other _ _ e]; exact o1 s hs
        · have hx : x ∈ o.owed.filter (fun x => ¬ x.1 = pid) := hx
          rw [List.mem_filter] at hx
          have e : x.1 ≠ pid := by simpa using hx.2
          simp only [updMap_other _ _ e]; exact o2 x hx.1
        · by_cases e : q = pid
          · simp only [e, updMap_same, Option.some.injEq] at hp₁
            subst hp₁; cases ha₁
          · simp only [updMap_other _ _ e] at hp₁
            exact (o3 q p₁ hp₁ ha₁).other (by intro ev hm; rw [List.mem_singleton] at hm; subst hm; rfl) e
      · cases hs

theorem Reach.owes_all {ls : List Label} {w : World} {tr : List Event}
    (h : Reach (fun w l => Sane w l ∧ Undisturbed l) ls w tr) : OwesAll w tr := by
  induction h with
  | init => exact ⟨fun _ h => (by cases h), fun _ h => (by cases h), fun _ _ h => by cases h⟩
  | step hr ha hs ih => exact ih.step hr.accounts ha.1 ha.2 hs

end Verif.Win
