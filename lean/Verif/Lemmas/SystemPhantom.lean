import Verif.Lemmas.SystemShared

/-!
# Kernel locks are held locks, or locks being released
-/

namespace Verif

open Spec

/-- The only way to obtain a kernel lock without `lock_file` returning is an asynchronous exception. -/
def Label.noIntr : Label → Bool
  | .act _ (.kernIntr _) => false
  | _ => true

/-- Every kernel lock of the process is a held lock, or its release is pending in the critical section. -/
def PH (pid : Nat) (p : Proc) (k : KTable) (H : List Held) : Prop :=
  ∀ u sh b, KHas k pid u sh b →
    (∃ h ∈ H, h.pid = pid ∧ h.uid = u ∧ h.shared = sh ∧ Covers h.start h.stop b) ∨
    (∃ fd s l, Micro.kunlock fd u s l ∈ p.crit ∧ Covers s (newEnd s l) b)

theorem PH.crit {pid : Nat} {p p' : Proc} {k : KTable} {H : List Held} (h : PH pid p k H)
    (hc : ∀ fd u s l, Micro.kunlock fd u s l ∈ p.crit → Micro.kunlock fd u s l ∈ p'.crit) : PH pid p' k H := by
  intro u sh b hk
  rcases h u sh b hk with h1 | ⟨fd, s, l, hm, hcov⟩
  · exact Or.inl h1
  · exact Or.inr ⟨fd, s, l, hc _ _ _ _ hm, hcov⟩

theorem PH.same {pid : Nat} {p p' : Proc} {k : KTable} {H : List Held} (h : PH pid p k H) (hc : p'.crit = p.crit) :
    PH pid p' k H := h.crit (fun _ _ _ _ hm => hc ▸ hm)

theorem stepProc_phantom {pid : Nat} {p : Proc} {k : KTable} {H : List Held} {l : PLabel} {a : Act}
    (hi : VInv (view pid p)) (hh : VHeld pid (view pid p) H) (hs : PH pid p k H)
    (hl : ∀ t, l ≠ .kernIntr t) (h : stepProc pid p k l = some a) :
    PH pid a.1 a.2.1 (a.2.2.foldl heldStep H) := by
  cases l with
  | osOpen fd uid =>
    simp only [stepProc] at h
    split at h
    · cases h; exact hs.same rfl
    · cases h
  | openS sid fd uid =>
    simp only [stepProc] at h
    split at h
    · cases h; exact hs.same rfl
    · cases h
  | wrapS sid fd cf =>
    simp only [stepProc] at h
    split at h
    · cases h
    · split at h
      · cases h; exact hs.same rfl
      · cases h
  | lockCall tid sid len start shared llb =>
    simp only [stepProc] at h
    split at h
    · split at h
      · cases h; exact hs.same rfl
      · cases h
    · cases h
  | reg tid =>
    simp only [stepProc] at h
    split at h
    · rename_i q hpc hcr
      cases h
      obtain ⟨a1, a2, a3⟩ := attemptReg_crit pid p k tid q
      rw [a2, a3]
      exact hs.same a1
    · cases h
  | wake tid =>
    simp only [stepProc] at h
    split at h
    · rename_i q hpc hcr
      split at h
      · rename_i r hr
        cases h
        obtain ⟨a1, a2, a3⟩ := attemptReg_crit pid { p with reg := r } k tid q
        rw [a2, a3]
        exact hs.same a1
      · cases h
        exact hs.same (failLock_crit pid _ k _ _).1
    · cases h
  | kern tid =>
    simp only [stepProc] at h
    split at h
    · rename_i q hpc
      split at h
      · cases h; exact hs.same rfl
      · split at h
        · cases h; exact hs.same rfl
        · split at h
          · split at h
            · cases h
            · cases h; exact hs.same rfl
          · cases h
            have e1 : (grant pid p k tid q).1.crit = p.crit := by
              simp only [grant, release_eq]; rfl
            intro u sh b hk
            simp only [grant, List.foldl_cons, List.foldl_nil, heldStep, List.mem_append, List.mem_singleton] at hk ⊢
            rw [kHas_lock] at hk
            rcases hk with ⟨hk, _⟩ | ⟨_, rfl, rfl, hk⟩
            · rcases hs u sh b hk with ⟨x, hx, h2⟩ | ⟨fd, s, l, hm, hcov⟩
              · exact Or.inl ⟨x, Or.inl hx, h2⟩
              · exact Or.inr ⟨fd, s, l, by have := e1 ▸ hm; exact this, hcov⟩
            · exact Or.inl ⟨_, Or.inr rfl, rfl, rfl, rfl, hk⟩
    · cases h
  | kernErr tid =>
    simp only [stepProc] at h
    split at h
    · cases h; exact hs.same rfl
    · cases h
  | kernExc tid =>
    simp only [stepProc] at h
    split at h
    · cases h; exact hs.same rfl
    · cases h
  | kernIntr tid => exact absurd rfl (hl tid)
  | unwind tid =>
    simp only [stepProc] at h
    split at h
    · rename_i q hpc hcr
      cases h
      exact hs.same ((failLock_crit pid _ k _ _).1.trans (unregisterN_crit _ _ _ _ _ _))
    · cases h
  | retry tid =>
    simp only [stepProc] at h
    split at h
    · cases h; exact hs.same rfl
    · cases h; exact hs.same rfl
    · cases h
  | expire tid =>
    simp only [stepProc] at h
    split at h
    · split at h
      · cases h
      · cases h
        exact hs.same (failLock_crit pid _ k _ _).1
    · split at h
      · cases h
      · cases h; exact hs.same rfl
    · cases h
  | unlock sid len start =>
    simp only [stepProc] at h
    split at h
    · rename_i st hst hcr
      split at h
      · rename_i hob
        cases h
        unfold unlockStream
        dsimp only
        split
        · rename_i x p' hu
          obtain ⟨_, rfl, _⟩ := unregisterN_error hu
          exact hs.same rfl
        · rename_i b p' hu
          intro u sh b hk
          simp only [List.foldl_cons, List.foldl_nil, heldStep, List.mem_filter, decide_eq_true_eq]
          rcases hs u sh b hk with ⟨x, hx, h1, h2, h3, h4⟩ | ⟨fd, s, l, hm, hcov⟩
          · by_cases hf : x.pid = pid ∧ x.sid = sid ∧ x.start = start ∧ x.stop = newEnd start (len.map Int.ofNat)
            · obtain ⟨f1, f2, f3, f4⟩ := hf
              obtain ⟨st', a, b', c, d⟩ := hh.held x hx h1
              change p.streams x.sid = some st' at a
              rw [f2, hst] at a; cases a
              refine Or.inr ⟨st.fd, start, len.map Int.ofNat, ?_, by rw [f3, f4] at h4; exact h4⟩
              have : u = st.uid := by rw [c, ← h2]
              subst this
              simp [unlockMicros]
            · exact Or.inl ⟨x, ⟨hx, hf⟩, h1, h2, h3, h4⟩
          · rw [hcr] at hm; cases hm
      · cases h
    · cases h
  | close sid =>
    simp only [stepProc] at h
    split at h
    · rename_i st hst hcr
      split at h
      · cases h
      · split at h
        · rename_i ho
          cases h
          obtain ⟨h1, h2, h3, h4, h5, h6⟩ := removeFileLocks_view pid p.reg st.uid st.fd
          intro u sh b hk
          simp only [closeStream, List.foldl_cons, List.foldl_nil, heldStep, List.mem_filter, decide_eq_true_eq] at hk ⊢
          rcases hs u sh b hk with ⟨x, hx, f1, f2, f3, f4⟩ | ⟨fd, s, l, hm, hcov⟩
          · by_cases hf : x.pid = pid ∧ x.sid = sid
            · obtain ⟨st', a, b', c, d⟩ := hh.held x hx f1
              change p.streams x.sid = some st' at a
              rw [hf.2, hst] at a; cases a
              have hu : u = st.uid := by rw [c, ← f2]
              subst hu
              rw [f2] at d
              have hne := hi.nonempty _ _ d
              refine Or.inr ⟨st.fd, x.start, x.stop.map (fun t => t - x.start), ?_, ?_⟩
              · rw [h1]
                apply List.mem_append_left
                rw [List.mem_flatMap]
                refine ⟨_, List.mem_filter.2 ⟨d, by simp⟩, ?_⟩
                simp [unlockMicros]
              · have := newEnd_len hne
                simp only at this
                rw [this]; exact f4
            · exact Or.inl ⟨x, ⟨hx, hf⟩, f1, f2, f3, f4⟩
          · rw [hcr] at hm; cases hm
        · cases h; exact hs
    · cases h
  | micro =>
    simp only [stepProc] at h
    split at h
    · rename_i m rest hcr
      cases h
      have hcr' : (view pid p).crit = m :: rest := hcr
      cases m with
      | kunlock fd uid s len =>
        have a' : p.fds fd = some uid := (hi.critU fd uid s len (by rw [hcr']; simp)).1
        simp only [doMicro, a']
        intro u sh b hk
        rw [kHas_unlock] at hk
        rcases hs u sh b hk.1 with h1 | ⟨fd', s', l', hm, hcov⟩
        · exact Or.inl h1
        · rw [hcr, List.mem_cons] at hm
          rcases hm with hm | hm
          · cases hm; exact absurd ⟨rfl, rfl, hcov⟩ hk.2
          · exact Or.inr ⟨fd', s', l', hm, hcov⟩
      | purge uid =>
        simp only [doMicro]
        split
        · apply hs.crit
          intro fd u s l hm
          rw [hcr, List.mem_cons] at hm
          rcases hm with hm | hm
          · cases hm
          · exact hm
        · apply hs.crit
          intro fd u s l hm
          rw [hcr, List.mem_cons] at hm
          rcases hm with hm | hm
          · cases hm
          · exact List.mem_append_right _ hm
      | nclose fd =>
        obtain ⟨⟨u, hu⟩, hn⟩ := hi.closing fd (by rw [hcr', mem_toClose]; simp)
        have hu' : p.fds fd = some u := hu
        simp only [doMicro, hu']
        intro u' sh b hk
        rw [kHas_drop] at hk
        rcases hs u' sh b hk.1 with h1 | ⟨fd', s', l', hm, hcov⟩
        · exact Or.inl h1
        · rw [hcr, List.mem_cons] at hm
          rcases hm with hm | hm
          · cases hm
          · exact Or.inr ⟨fd', s', l', hm, hcov⟩
      | addData uid fd =>
        have hsh := hi.shaped
        rw [hcr'] at hsh
        have : ∀ p' : Proc, PH pid p' k H := by
          intro p'
          apply hs.crit
          intro fd' u s l hm
          rw [hcr, List.mem_cons] at hm
          rcases hm with hm | hm
          · cases hm
          · exact absurd hm (hsh.1 _ _ _ _)
        simp only [doMicro]
        split <;> exact this _
      | delEntry uid =>
        simp only [doMicro]
        apply hs.crit
        intro fd u s l hm
        rw [hcr, List.mem_cons] at hm
        rcases hm with hm | hm
        · cases hm
        · exact hm
    · cases h

def WPH (w : World) (H : List Held) : Prop := ∀ pid p, w.procs pid = some p → p.alive = true → PH pid p w.kern H

theorem WPH.step {w w' : World} {H : List Held} {l : Label} {e : List Event} (hi : Inv w H) (hw : WellWrapped w l)
    (hs : WPH w H) (hl : l.noIntr = true) (h : step w l = some (w', e)) : WPH w' (e.foldl heldStep H) := by
  cases l with
  | newProc pid =>
    simp only [Verif.step] at h
    split at h
    · rename_i hn
      cases h
      intro pid' p hp ha
      rcases updMap_cases hp with ⟨rfl, h'⟩ | ⟨_, h'⟩
      · cases h'
        intro u sh b hk
        obtain ⟨p, hp, _⟩ := hi.kernAlive _ _ _ _ hk
        rw [hn] at hp; cases hp
      · exact hs pid' p h' ha
    · cases h
  | act pid l =>
    simp only [Verif.step] at h
    split at h
    · cases h
    · rename_i p hp
      split at h
      · rename_i ha
        split at h
        · rename_i p' k ev hst
          cases h
          obtain ⟨hv, hh⟩ := hi.proc pid p hp ha
          have hps := stepProc_inv hv hh hi.kern (fun sid fd cf hl s st e o => by
            subst hl; exact hw p hp s st e o) hst
          intro pid' p'' hp' ha'
          rcases updMap_cases hp' with ⟨rfl, h'⟩ | ⟨hne, h'⟩
          · cases h'
            exact stepProc_phantom hv hh (hs pid' p hp ha) (by rintro t rfl; cases hl) hst
          · intro u sh b hk
            rw [hps.kothers _ _ _ _ hne] at hk
            rcases hs pid' p'' h' ha' u sh b hk with ⟨x, hx, h1, h2⟩ | h1
            · exact Or.inl ⟨x, (hps.others x (by rw [h1]; exact hne)).2 hx, h1, h2⟩
            · exact Or.inr h1
        · cases h
      · cases h
  | fork parent child =>
    simp only [Verif.step] at h
    split at h
    · rename_i hn
      split at h
      · cases h
        intro pid' p hp ha
        rcases updMap_cases hp with ⟨rfl, h'⟩ | ⟨_, h'⟩
        · cases h'
          intro u sh b hk
          obtain ⟨p, hp, _⟩ := hi.kernAlive _ _ _ _ hk
          rw [hn] at hp; cases hp
        · exact hs pid' p h' ha
      · cases h
    · cases h
  | exit pid =>
    simp only [Verif.step] at h
    split at h
    · cases h
    · split at h
      · cases h
        intro pid' p hp ha
        rcases updMap_cases hp with ⟨rfl, h'⟩ | ⟨hne, h'⟩
        · cases h'; cases ha
        · intro u sh b hk
          rw [kHas_dropPid] at hk
          simp only [List.foldl_cons, List.foldl_nil, heldStep, List.mem_filter, decide_eq_true_eq]
          rcases hs pid' p h' ha u sh b hk.1 with ⟨x, hx, h1, h2⟩ | h1
          · exact Or.inl ⟨x, ⟨hx, by rw [h1]; exact hne⟩, h1, h2⟩
          · exact Or.inr h1
      · cases h

theorem Reach.phantom {ls : List Label} {w : World} {tr : List Event} (h : Reach ls w tr)
    (hl : ls.all Label.noIntr = true) : WPH w (heldOf tr) := by
  induction h with
  | init => intro pid p hp; cases hp
  | step hr hw hs ih =>
    simp only [List.all_append, List.all_cons, List.all_nil, Bool.and_true, Bool.and_eq_true] at hl
    have := WPH.step hr.inv hw (ih hl.1) hl.2 hs
    simpa only [heldOf, List.foldl_append] using this

end Verif
