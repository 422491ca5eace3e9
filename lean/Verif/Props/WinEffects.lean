import Verif.Props.WinAccounts

/-!
# Locks on windows: effects of single calls (C78, C79)

Also with failing system calls and interrupts.
-/

set_option autoImplicit false

namespace Verif.Win

open Verif Spec

/-- The books know every stream as it was opened, and every handle that is going to be closed. -/
structure Books (pid : Nat) (p : Proc) (o : Owes) : Prop where
  streams : ∀ sid st, p.streams sid = some st → (⟨pid, sid, st.handle, st.closefd⟩ : OpenedAs) ∈ o.streams
  crit : ∀ h, .cclose h ∈ p.crit → (pid, h) ∈ o.owed

theorem Books.frame {pid : Nat} {p p' : Proc} {o o' : Owes} (h : Books pid p o)
    (hs : ∀ sid st', p'.streams sid = some st' → ∃ st, p.streams sid = some st ∧ st.handle = st'.handle ∧
      st.closefd = st'.closefd)
    (hc : ∀ a, .cclose a ∈ p'.crit → .cclose a ∈ p.crit) (h1 : ∀ s : OpenedAs, s.pid = pid → s ∈ o.streams → s ∈ o'.streams)
    (h2 : ∀ x : Nat × Nat, x.1 = pid → x ∈ o.owed → x ∈ o'.owed) : Books pid p' o' := by
  refine ⟨fun sid st' g => ?_, fun a g => h2 _ rfl (h.crit a (hc a g))⟩
  obtain ⟨st, g1, g2, g3⟩ := hs sid st' g
  rw [← g2, ← g3]
  exact h1 _ rfl (h.streams sid st g1)

theorem sameStreams_back {p p' : Proc} (h : SameStreams p p') (sid : Nat) (st' : Stream)
    (hs : p'.streams sid = some st') : ∃ st, p.streams sid = some st ∧ st.handle = st'.handle ∧
      st.closefd = st'.closefd := by
  have := h sid
  rw [hs] at this
  cases e : p.streams sid with
  | none => rw [e] at this; cases this
  | some st =>
    rw [e] at this
    simp only [Option.map_some, Option.some.injEq, Stream.mk.injEq] at this
    exact ⟨st, rfl, this.1.symm, this.2.2.2.1.symm⟩

/-- The events of every step keep the books, except those of opening and closing, which write in them. -/
theorem Books.step {pid n : Nat} {p p' : Proc} {k k' : KTable} {l : PLabel} {e : List Event} {o : Owes}
    (h : Books pid p o) (hi : PInv n p) (hs : stepProc pid n p k l = some (p', k', e))
    (hoc : ∀ a, l = .osClose a → Unused p a) : Books pid p' (owes o e) := by
  have keep : ∀ {p' : Proc} {o' : Owes}, SameStreams p p' → (∀ a, .cclose a ∈ p'.crit → .cclose a ∈ p.crit) →
      o'.streams = o.streams → o'.owed = o.owed → Books pid p' o' :=
    fun g1 g2 g3 g4 => h.frame (sameStreams_back g1) g2 (fun _ _ m => by rw [g3]; exact m) (fun _ _ m => by rw [g4]; exact m)
  have fin : ∀ {r : Registry} {tid sid : Nat} {o' : Owes}, o'.streams = o.streams → o'.owed = o.owed →
      Books pid ((({ p with reg := r } : Proc).setPC tid .idle).release sid) o' := by
    intro r tid sid o' g3 g4
    refine keep ?_ ?_ g3 g4
    · exact release_streams _ _
    · intro a g; rw [release_crit] at g; exact g
  cases l with
  | osOpen a f =>
    simp only [stepProc] at hs
    split at hs <;> cases hs
    exact keep (.rfl rfl) (fun _ g => g) rfl rfl
  | osClose a =>
    simp only [stepProc] at hs
    split at hs
    · rename_i hd ha
      cases hs
      have hu := hoc a rfl
      refine ⟨fun sid st g => h.streams sid st g, fun b g => ?_⟩
      refine List.mem_filter.2 ⟨h.crit b g, ?_⟩
      have := hu.2 _ g
      simp only [Micro.handle] at this
      simpa using this
    · cases hs
  | openS sid a f =>
    simp only [stepProc] at hs
    split at hs <;> cases hs
    refine ⟨fun s st g => ?_, h.crit⟩
    by_cases e : s = sid
    · subst e
      simp only [updMap_same, Option.some.injEq] at g
      subst g
      exact List.mem_append_right _ (List.mem_singleton.2 rfl)
    · simp only [updMap_other _ _ e] at g
      exact List.mem_append_left _ (h.streams s st g)
  | wrapS sid a c =>
    simp only [stepProc] at hs
    split at hs
    · cases hs
    · split at hs <;> cases hs
      refine ⟨fun s st g => ?_, h.crit⟩
      by_cases e : s = sid
      · subst e
        simp only [updMap_same, Option.some.injEq] at g
        subst g
        exact List.mem_append_right _ (List.mem_singleton.2 rfl)
      · simp only [updMap_other _ _ e] at g
        exact List.mem_append_left _ (h.streams s st g)
  | lockCall tid sid len s sh llb =>
    simp only [stepProc] at hs
    split at hs
    · rename_i st ht hst
      split at hs <;> cases hs
      refine h.frame ?_ (fun _ g => g) (fun _ _ m => m) (fun _ _ m => m)
      intro s' st' g
      by_cases e : s' = sid
      · subst e
        simp only [updMap_same, Option.some.injEq] at g
        subst g
        exact ⟨st, hst, rfl, rfl⟩
      · simp only [updMap_other _ _ e] at g
        exact ⟨st', g, rfl, rfl⟩
    · cases hs
  | close sid =>
    simp only [stepProc] at hs
    split at hs
    · rename_i st hst hc
      split at hs
      · cases hs
      · split at hs
        · simp only [closeStream, Option.some.injEq] at hs
          cases hs
          refine ⟨?_, ?_⟩
          · intro s' st' g
            by_cases e : s' = sid
            · subst e
              simp only [updMap_same, Option.some.injEq] at g
              subst g
              have := h.streams _ _ hst
              exact this
            · simp only [updMap_other _ _ e] at g
              exact h.streams _ _ g
          · intro a g
            refine List.mem_append_right _ ?_
            rcases List.mem_append.1 g with g | g
            · obtain ⟨x, _, hx⟩ := List.mem_map.1 g
              cases hx
            · split at g
              · rename_i hcf
                rw [List.mem_singleton] at g
                cases g
                refine List.mem_map.2 ⟨⟨pid, sid, st.handle, st.closefd⟩, List.mem_filter.2 ⟨h.streams _ _ hst, ?_⟩, rfl⟩
                simp [hcf]
              · cases g
        · cases hs
          exact h
    · cases hs
  | micro =>
    simp only [stepProc] at hs
    split at hs
    · rename_i m rest hc
      simp only [Option.some.injEq] at hs
      have hsh := hi.shape
      rw [hc] at hsh
      have tl : ∀ a, .cclose a ∈ rest → .cclose a ∈ p.crit := fun a g => by rw [hc]; exact List.mem_cons_of_mem _ g
      cases m with
      | cclose b =>
        have hr : rest = [] := hsh
        subst hr
        simp only [doMicro] at hs
        split at hs <;> cases hs
        · exact ⟨fun sid st g => h.streams sid st g, fun _ g => by cases g⟩
        · exact ⟨fun sid st g => h.streams sid st g, fun _ g => by cases g⟩
      | unlock _ _ _ _ _ =>
        simp only [doMicro] at hs
        repeat' split at hs
        all_goals (cases hs; first
          | exact keep (.rfl rfl) tl rfl rfl
          | exact keep (.rfl rfl) (fun _ g => absurd g List.not_mem_nil) rfl rfl)
      | cunlock _ _ _ =>
        simp only [doMicro] at hs
        repeat' split at hs
        all_goals (cases hs; first
          | exact keep (.rfl rfl) tl rfl rfl
          | exact keep (.rfl rfl) (fun _ g => absurd g List.not_mem_nil) rfl rfl)
    · cases hs
  | microErr =>
    simp only [stepProc] at hs
    split at hs
    · rename_i m _ _
      cases m <;> cases hs <;> exact keep (.rfl rfl) (fun _ g => by cases g) rfl rfl
    · cases hs
  | reg tid =>
    simp only [stepProc] at hs
    split at hs
    · simp only [Option.some.injEq] at hs
      unfold attemptReg failLock at hs
      split at hs <;> cases hs
      · exact fin rfl rfl
      · exact keep (.rfl rfl) (fun _ g => g) rfl rfl
      · exact keep (.rfl rfl) (fun _ g => g) rfl rfl
    · cases hs
  | unlock s len start =>
    simp only [stepProc] at hs
    split at hs
    · split at hs
      · simp only [Option.some.injEq] at hs
        unfold unlockStream at hs
        dsimp only at hs
        split at hs <;> cases hs
        · exact keep (.rfl rfl) (fun _ g => g) rfl rfl
        · exact keep (.rfl rfl) (fun _ g => by simp at g) rfl rfl
      · cases hs
    · cases hs
  | _ =>
    simp only [stepProc, failLock] at hs
    repeat' split at hs
    all_goals first
      | (cases hs; done)
      | (cases hs; exact keep (.rfl rfl) (fun _ g => g) rfl rfl)
      | (cases hs; exact fin (r := p.reg) rfl rfl)
      | (cases hs; exact fin rfl rfl)

/-- Events of other processes leave the books of a process alone. -/
theorem owesStep_keep {o : Owes} {ev : Event} :
    (∀ s : OpenedAs, s.pid ≠ evPid ev → s ∈ o.streams → s ∈ (owesStep o ev).streams) ∧
    (∀ x : Nat × Nat, x.1 ≠ evPid ev → x ∈ o.owed → x ∈ (owesStep o ev).owed) := by
  refine ⟨fun s hp h => ?_, fun x hp h => ?_⟩
  · cases ev <;> simp only [owesStep, evPid] at hp ⊢ <;> first | exact h | exact List.mem_append_left _ h
  · cases ev <;> simp only [owesStep, evPid] at hp ⊢ <;> first
      | exact h
      | exact List.mem_append_left _ h
      | (refine List.mem_filter.2 ⟨h, ?_⟩
         simp only [decide_eq_true_eq]
         intro e
         rw [e] at hp
         exact hp rfl)
      | (refine List.mem_filter.2 ⟨h, ?_⟩
         simpa using hp)

theorem owes_keep {pid : Nat} {e : List Event} (he : ∀ ev ∈ e, evPid ev = pid) : ∀ {o : Owes},
    (∀ s : OpenedAs, s.pid ≠ pid → s ∈ o.streams → s ∈ (owes o e).streams) ∧
    (∀ x : Nat × Nat, x.1 ≠ pid → x ∈ o.owed → x ∈ (owes o e).owed) := by
  induction e with
  | nil => intro o; exact ⟨fun _ _ h => h, fun _ _ h => h⟩
  | cons ev es ih =>
    intro o
    obtain ⟨h1, h2⟩ := ih (fun v hv => he v (List.mem_cons_of_mem _ hv)) (o := owesStep o ev)
    obtain ⟨g1, g2⟩ := owesStep_keep (o := o) (ev := ev)
    have hev := he ev List.mem_cons_self
    rw [hev] at g1 g2
    exact ⟨fun s hp hs => h1 s hp (g1 s hp hs), fun x hp hx => h2 x hp (g2 x hp hx)⟩

theorem Books.other {pid pid' : Nat} {p : Proc} {o : Owes} {e : List Event} (h : Books pid' p o)
    (he : ∀ ev ∈ e, evPid ev = pid) (hne : pid' ≠ pid) : Books pid' p (owes o e) := by
  obtain ⟨h1, h2⟩ := owes_keep he (o := o)
  exact h.frame (fun _ st g => ⟨st, g, rfl, rfl⟩) (fun _ g => g) (fun s hp => h1 s (by rw [hp]; exact hne))
    (fun x hp => h2 x (by rw [hp]; exact hne))

theorem Reach.books {ls : List Label} {w : World} {tr : List Event} (h : Reach Sane ls w tr) :
    ∀ pid p, w.procs pid = some p → p.alive = true → Books pid p (owes ⟨[], []⟩ tr) := by
  induction h with
  | init => intro pid p hp; cases hp
  | @step ls w tr l w' e hr ha hst ih =>
    intro pid p hp hal
    rw [owes_append]
    cases l with
    | newProc q =>
      simp only [Win.step] at hst
      split at hst <;> cases hst
      by_cases e : pid = q
      · simp only [e, updMap_same, Option.some.injEq] at hp
        subst hp
        exact ⟨fun _ _ g => (by cases g), fun _ g => (by cases g)⟩
      · simp only [updMap_other _ _ e] at hp; exact ih pid p hp hal
    | act q l =>
      simp only [Win.step] at hst
      split at hst
      · cases hst
      · rename_i p₀ hp₀
        split at hst
        · rename_i hal₀
          split at hst
          · rename_i p' k' e' hsp
            cases hst
            by_cases e : pid = q
            · subst e
              simp only [updMap_same, Option.some.injEq] at hp
              subst hp
              refine (ih _ _ hp₀ hal₀).step (hr.inv.procs _ _ hp₀ hal₀) hsp ?_
              rintro a rfl
              exact ha.1 _ hp₀
            · simp only [updMap_other _ _ e] at hp
              exact (ih pid p hp hal).other (stepProc_events hsp) e
          · cases hst
        · cases hst
    | dup src a dst b =>
      simp only [Win.step] at hst
      split at hst
      · rename_i p₀ p₁ hp₀ hp₁
        split at hst
        · rename_i hcond
          split at hst <;> cases hst
          by_cases e : pid = dst
          · simp only [e, updMap_same, Option.some.injEq] at hp
            subst hp
            have := ih dst p₁ hp₁ hcond.2.1
            subst e
            exact ⟨this.streams, this.crit⟩
          · simp only [updMap_other _ _ e] at hp; exact ih pid p hp hal
        · cases hst
      · cases hst
    | exit q =>
      simp only [Win.step] at hst
      split at hst
      · cases hst
      · rename_i p₀ hp₀
        split at hst <;> cases hst
        by_cases e : pid = q
        · simp only [e, updMap_same, Option.some.injEq] at hp
          subst hp; cases hal
        · simp only [updMap_other _ _ e] at hp
          exact (ih pid p hp hal).other (pid := q) (by simp [evPid]) e

end Verif.Win

namespace Verif.Props

open Verif Spec Win

/-- A step that closes a handle. -/
theorem nclose_step {pid n : Nat} {p p' : Proc} {k k' : KTable} {l : PLabel} {e : List Event}
    (hs : stepProc pid n p k l = some (p', k', e)) {a fd : Nat} {f : Uid} (hm : .nclose a fd f ∈ e) :
    a = pid ∧ (l = .osClose fd ∨ (l = .micro ∧ .cclose fd ∈ p.crit)) ∧ p.target fd ≠ none ∧ p'.target fd = none := by
  have gone : ∀ b, (p.handles.filter (fun x => ¬ x.1 = b)).lookup b = none := by
    intro b
    rw [target_filter, if_pos rfl]
  cases l with
  | osClose b =>
    simp only [stepProc] at hs
    split at hs
    · rename_i hd ha
      cases hs
      rw [List.mem_singleton] at hm
      cases hm
      refine ⟨rfl, Or.inl rfl, by rw [ha]; nofun, gone fd⟩
    · cases hs
  | micro =>
    simp only [stepProc] at hs
    split at hs
    · rename_i m rest hc
      simp only [Option.some.injEq] at hs
      cases m with
      | cclose b =>
        simp only [doMicro] at hs
        split at hs
        · cases hs; simp at hm
        · rename_i hd ha
          cases hs
          rw [List.mem_singleton] at hm
          cases hm
          exact ⟨rfl, Or.inr ⟨rfl, by rw [hc]; exact List.mem_cons_self⟩, by rw [ha]; nofun, gone fd⟩
      | unlock _ _ _ _ _ =>
        exfalso
        simp only [doMicro] at hs
        repeat' split at hs
        all_goals (cases hs; simp at hm)
      | cunlock _ _ _ =>
        exfalso
        simp only [doMicro] at hs
        repeat' split at hs
        all_goals (cases hs; simp at hm)
    · cases hs
  | microErr =>
    exfalso
    simp only [stepProc] at hs
    split at hs
    · rename_i m _ _
      cases m <;> cases hs <;> simp at hm
    · cases hs
  | reg tid =>
    exfalso
    simp only [stepProc] at hs
    split at hs
    · simp only [Option.some.injEq] at hs
      unfold attemptReg failLock at hs
      split at hs <;> cases hs <;> simp at hm
    · cases hs
  | unlock s len start =>
    exfalso
    simp only [stepProc] at hs
    split at hs
    · split at hs
      · simp only [Option.some.injEq] at hs
        unfold unlockStream at hs
        dsimp only at hs
        split at hs <;> cases hs <;> simp at hm
      · cases hs
    · cases hs
  | _ =>
    exfalso
    simp only [stepProc, failLock, closeStream] at hs
    repeat' split at hs
    all_goals first
      | (cases hs; done)
      | (cases hs; simp at hm)

/-- C79, the other half: rsfile closes only handles that it owes, those of closed streams opened with
`closefd=True`; afterwards the handle is not open any more. -/
theorem C79_spares_partial {ls : List Label} {w w' : World} {tr e : List Event} (h : Reach Sane ls w tr) {pid : Nat}
    {l : PLabel} (hs : Win.step w (.act pid l) = some (w', e)) {a fd : Nat} {f : Uid} (hm : .nclose a fd f ∈ e) :
    a = pid ∧ (l = .osClose fd ∨ (pid, fd) ∈ owedOf tr) ∧
      ∃ p p', w.procs pid = some p ∧ w'.procs pid = some p' ∧ p.target fd ≠ none ∧ p'.target fd = none := by
  simp only [Win.step] at hs
  split at hs
  · cases hs
  · rename_i p hp
    split at hs
    · rename_i hal
      split at hs
      · rename_i p' k' e' hst
        cases hs
        obtain ⟨h1, h2, h3, h4⟩ := nclose_step hst hm
        refine ⟨h1, ?_, p, p', hp, by simp, h3, h4⟩
        rcases h2 with h2 | ⟨_, h2⟩
        · exact Or.inl h2
        · exact Or.inr ((h.books pid p hp hal).crit fd h2)
      · cases hs
    · cases hs

/-- C79: only closing takes handles away: while a stream with `closefd=False` is closed, and in every other step, the
handles stay what they are. -/
theorem C79_handles_stay {w w' : World} {e : List Event} {pid : Nat} {l : PLabel} {p p' : Proc}
    (hs : Win.step w (.act pid l) = some (w', e)) (hp : w.procs pid = some p) (hp' : w'.procs pid = some p') {fd : Nat}
    (hl : p.target fd ≠ none) (hn : ∀ f, .nclose pid fd f ∉ e) : p'.target fd = p.target fd := by
  have app : ∀ {b : Nat} {hd : Handle}, p.target b = none → (p.handles ++ [(b, hd)]).lookup fd = p.target fd := by
    intro b hd hb
    rw [target_append hd hb, if_neg]
    rintro rfl; exact hl hb
  have fil : ∀ {b : Nat}, b ≠ fd → (p.handles.filter (fun x => ¬ x.1 = b)).lookup fd = p.target fd := by
    intro b hb
    rw [target_filter, if_neg (Ne.symm hb)]
  have rel : ∀ {p₁ : Proc} {s : Nat}, p₁.handles = p.handles → (p₁.release s).target fd = p.target fd := by
    intro p₁ s hh
    unfold Proc.target
    rw [release_handles, hh]
  simp only [Win.step, hp] at hs
  split at hs
  · split at hs
    · rename_i p₁ k' e' hst
      cases hs
      simp only [updMap_same, Option.some.injEq] at hp'
      subst hp'
      cases l with
      | osOpen b f =>
        simp only [stepProc] at hst
        split at hst
        · rename_i hb
          cases hst
          exact app hb
        · cases hst
      | openS sid b f =>
        simp only [stepProc] at hst
        split at hst
        · rename_i hb
          cases hst
          exact app hb.1
        · cases hst
      | osClose b =>
        simp only [stepProc] at hst
        split at hst
        · rename_i hd hb
          cases hst
          by_cases e : b = fd
          · subst e; exact absurd (List.mem_singleton.2 rfl) (hn hd.file)
          · exact fil e
        · cases hst
      | micro =>
        simp only [stepProc] at hst
        split at hst
        · rename_i m rest hc
          simp only [Option.some.injEq] at hst
          cases m with
          | cclose b =>
            simp only [doMicro] at hst
            split at hst
            · cases hst; rfl
            · rename_i hd hb
              cases hst
              by_cases e : b = fd
              · subst e; exact absurd (List.mem_singleton.2 rfl) (hn hd.file)
              · exact fil e
          | unlock _ _ _ _ _ =>
            simp only [doMicro] at hst
            repeat' split at hst
            all_goals (cases hst; rfl)
          | cunlock _ _ _ =>
            simp only [doMicro] at hst
            repeat' split at hst
            all_goals (cases hst; rfl)
        · cases hst
      | microErr =>
        simp only [stepProc] at hst
        split at hst
        · rename_i m _ _
          cases m <;> cases hst <;> rfl
        · cases hst
      | reg tid =>
        simp only [stepProc] at hst
        split at hst
        · simp only [Option.some.injEq] at hst
          unfold attemptReg failLock at hst
          split at hst <;> cases hst
          · exact rel rfl
          · rfl
          · rfl
        · cases hst
      | unlock s len start =>
        simp only [stepProc] at hst
        split at hst
        · split at hst
          · simp only [Option.some.injEq] at hst
            unfold unlockStream at hst
            dsimp only at hst
            split at hst <;> cases hst <;> rfl
          · cases hst
        · cases hst
      | _ =>
        simp only [stepProc, failLock, closeStream] at hst
        repeat' split at hst
        all_goals first
          | (cases hst; done)
          | (cases hst; rfl)
          | (cases hst; exact rel rfl)
    · cases hs
  · cases hs

theorem eraseP_erase {P : KLock → Bool} {k : KTable} (h : k.any P = true) :
    ∃ y ∈ k, P y = true ∧ k.eraseP P = k.erase y := by
  induction k with
  | nil => cases h
  | cons z zs ih =>
    by_cases hz : P z = true
    · exact ⟨z, List.mem_cons_self, hz, by rw [List.eraseP_cons_of_pos hz, List.erase_cons_head]⟩
    · rw [List.any_cons] at h
      obtain ⟨y, h1, h2, h3⟩ := ih (by simpa [hz] using h)
      have hne : z ≠ y := by rintro rfl; exact hz h2
      exact ⟨y, List.mem_cons_of_mem _ h1, h2, by
        rw [List.eraseP_cons_of_neg hz, List.erase_cons_tail (by simpa using hne), h3]⟩

/-- The only way for `unlock_file` to return. -/
theorem unlocked_step {pid n : Nat} {p p' : Proc} {k k' : KTable} {l : PLabel} {e : List Event} (hi : PInv n p)
    (hs : stepProc pid n p k l = some (p', k', e)) {a sid : Nat} {u : Uid} {s : Int} {t : Option Int}
    (hm : .unlocked a sid u s t ∈ e) : a = pid ∧ ∃ st y, p.streams sid = some st ∧ st.isOpen = true ∧ y ∈ k ∧
      y.pid = pid ∧ y.obj = st.obj ∧ At s t y.off y.len ∧ k' = k.erase y := by
  rcases unlock_label hs hm (Or.inl ⟨_, _, _, _, _, rfl⟩) with ⟨sid', len, s', rfl⟩ | rfl | rfl
  · exfalso
    simp only [stepProc] at hs
    split at hs
    · split at hs
      · simp only [Option.some.injEq] at hs
        unfold unlockStream at hs
        dsimp only at hs
        split at hs <;> cases hs <;> simp at hm
      · cases hs
    · cases hs
  · simp only [stepProc] at hs
    split at hs
    · rename_i m rest hc
      simp only [Option.some.injEq] at hs
      have hin : m ∈ p.crit := by rw [hc]; exact List.mem_cons_self
      cases m with
      | unlock sid' b f s' len =>
        obtain ⟨hlive, ⟨st, t1, t2, t3, t4⟩, len', hl, hfit⟩ := hi.crit _ hin
        have htgt := hi.streams _ _ t1 t2
        rw [t3] at htgt
        subst hl
        simp only [doMicro] at hs
        split at hs
        · cases hs; simp at hm
        · rename_i l o hr
          have hat := osRange_at hfit hr
          rw [htgt] at hs
          simp only at hs
          split at hs
          · cases hs; simp at hm
          · rename_i k₁ hk
            cases hs
            rw [List.mem_singleton] at hm
            cases hm
            have find : ∀ {P : KLock → Bool}, (∀ y, P y = true → KLock.isAt pid st.obj o l y = true) →
                k.any P = true → ∃ y ∈ k, KLock.isAt pid st.obj o l y = true ∧ k.eraseP P = k.erase y := by
              intro P hP hany
              obtain ⟨y, h1, h2, h3⟩ := eraseP_erase hany
              exact ⟨y, h1, hP y h2, h3⟩
            unfold kUnlock at hk
            split at hk
            · rename_i hex
              cases hk
              obtain ⟨y, h1, h2, h3⟩ := find (fun y hy => (Bool.and_eq_true _ _ ▸ hy).1) hex
              simp only [KLock.isAt, decide_eq_true_eq] at h2
              exact ⟨rfl, st, y, t1, t2, h1, h2.1, h2.2.1, by rw [h2.2.2.1, h2.2.2.2]; exact hat, h3⟩
            · split at hk
              · rename_i hex
                cases hk
                obtain ⟨y, h1, h2, h3⟩ := find (fun y hy => hy) hex
                simp only [KLock.isAt, decide_eq_true_eq] at h2
                exact ⟨rfl, st, y, t1, t2, h1, h2.1, h2.2.1, by rw [h2.2.2.1, h2.2.2.2]; exact hat, h3⟩
              · cases hk
      | cunlock b s' len =>
        exfalso
        simp only [doMicro] at hs
        repeat' split at hs
        all_goals (cases hs; simp at hm)
      | cclose b =>
        exfalso
        simp only [doMicro] at hs
        repeat' split at hs
        all_goals (cases hs; simp at hm)
    · cases hs
  · exfalso
    simp only [stepProc] at hs
    split at hs
    · rename_i m _ _
      cases m <;> cases hs <;> simp at hm
    · cases hs

/-- C78: whenever `unlock_file` returns, the system has released one lock of the stream on exactly this range, and
nothing else. -/
theorem C78_effect_partial {ls : List Label} {w w' : World} {tr e : List Event} (h : Reach Sane ls w tr) {pid : Nat}
    {l : PLabel} (hs : Win.step w (.act pid l) = some (w', e)) {a sid : Nat} {u : Uid} {s : Int} {t : Option Int}
    (hm : .unlocked a sid u s t ∈ e) : a = pid ∧ ∃ p st y, w.procs pid = some p ∧ p.streams sid = some st ∧
      st.isOpen = true ∧ y ∈ w.kern ∧ y.pid = pid ∧ y.obj = st.obj ∧ s = y.off ∧ (t = none → y.len = 2 ^ 64 - 1) ∧
      (∀ x, t = some x → x = y.off + y.len) ∧ w'.kern = w.kern.erase y := by
  simp only [Win.step] at hs
  split at hs
  · cases hs
  · rename_i p hp
    split at hs
    · rename_i hal
      split at hs
      · rename_i p' k' e' hst
        cases hs
        obtain ⟨h1, st, y, h2, h3, h4, h5, h6, h7, h8⟩ := unlocked_step (h.inv.procs pid p hp hal) hst hm
        refine ⟨h1, p, st, y, hp, h2, h3, h4, h5, h6, ?_, h7.inf, ?_, h8⟩
        · have := h7.off; have := h7.nonneg; omega
        · intro x hx
          have := h7.off; have := h7.nonneg
          obtain ⟨b, c, d⟩ := h7.fin x hx
          omega
      · cases hs
    · cases hs

/-- The step of `closedRun` that closes the handle of stream 10. -/
example : ∃ w tr w' e, Reach Sane closedRun w tr ∧ Win.step w (.act 1 .micro) = some (w', e) ∧
    .nclose 1 100 (0, 7) ∈ e ∧ (w.procs 1).map (fun p => p.target 104) = some (some ⟨1, (0, 7)⟩) := by
  obtain ⟨w, tr, h1, h2⟩ := sane_view (ls := closedRun)
    (f := fun x => ((Win.step x.1 (.act 1 .micro)).map (fun y => y.2), (x.1.procs 1).map (fun p => p.target 104)))
    (v := (some [.nclose 1 100 (0, 7)], some (some ⟨1, (0, 7)⟩))) (by decide +kernel)
  simp only [Prod.mk.injEq] at h2
  cases hs : Win.step w (.act 1 .micro) with
  | none => rw [hs] at h2; cases h2.1
  | some y =>
    rw [hs] at h2
    simp only [Option.map_some, Option.some.injEq] at h2
    exact ⟨w, tr, y.1, y.2, h1, hs, by rw [h2.1]; exact List.mem_cons_self, h2.2⟩

end Verif.Props
