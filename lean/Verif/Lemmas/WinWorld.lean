import Verif.Lemmas.WinSteps

/-!
# The invariant of the whole windows lock system
-/

set_option autoImplicit false

namespace Verif.Win

open Verif Spec

/-- `lock_file` returns only in the process that acts. -/
theorem locked_pid {pid n : Nat} {p p' : Proc} {k k' : KTable} {l : PLabel} {e : List Event}
    (hs : stepProc pid n p k l = some (p', k', e)) {a s : Nat} {u : Uid} {sh : Bool} {x : Int} {y : Option Int}
    (hm : Event.locked a s u sh x y ∈ e) : a = pid := by
  cases l with
  | reg tid =>
    simp only [stepProc] at hs
    split at hs
    · simp only [Option.some.injEq] at hs
      unfold attemptReg failLock at hs
      split at hs <;> cases hs <;> simp at hm
    · cases hs
  | unlock sid len start =>
    simp only [stepProc] at hs
    split at hs
    · split at hs
      · simp only [Option.some.injEq] at hs
        unfold unlockStream at hs
        dsimp only at hs
        split at hs <;> cases hs <;> simp at hm
      · cases hs
    · cases hs
  | micro =>
    simp only [stepProc] at hs
    split at hs
    · rename_i m rest _
      simp only [Option.some.injEq] at hs
      cases m with
      | unlock sid a f s len =>
        simp only [doMicro] at hs
        repeat' split at hs
        all_goals (cases hs; simp at hm)
      | cunlock a s len =>
        simp only [doMicro] at hs
        repeat' split at hs
        all_goals (cases hs; simp at hm)
      | cclose a =>
        simp only [doMicro] at hs
        repeat' split at hs
        all_goals (cases hs; simp at hm)
    · cases hs
  | microErr =>
    simp only [stepProc] at hs
    split at hs
    · rename_i m _ _
      cases m <;> cases hs <;> simp at hm
    · cases hs
  | kern tid =>
    simp only [stepProc] at hs
    repeat' split at hs
    all_goals first
      | (cases hs; done)
      | (cases hs; simp at hm; done)
      | (cases hs; simp at hm; exact hm.1)
  | close sid =>
    simp only [stepProc] at hs
    repeat' split at hs
    all_goals first
      | (cases hs; done)
      | (cases hs; simp [closeStream] at hm; done)
  | unwind tid =>
    simp only [stepProc, failLock] at hs
    repeat' split at hs
    all_goals first
      | (cases hs; done)
      | (cases hs; simp at hm; done)
  | expire tid =>
    simp only [stepProc, failLock] at hs
    repeat' split at hs
    all_goals first
      | (cases hs; done)
      | (cases hs; simp at hm; done)
  | _ =>
    simp only [stepProc] at hs
    repeat' split at hs
    all_goals first
      | (cases hs; done)
      | (cases hs; simp at hm; done)

theorem heldStep_new {H : List Held} {ev : Event} {x : Held} (h : x ∈ heldStep H ev) :
    x ∈ H ∨ ev = .locked x.pid x.sid x.uid x.shared x.start x.stop := by
  cases ev <;> simp only [heldStep, List.mem_append, List.mem_singleton, List.mem_filter] at h
  all_goals first
    | exact Or.inl h
    | exact Or.inl h.1
    | (rcases h with h | rfl
       · exact Or.inl h
       · exact Or.inr rfl)

theorem after_new {e : List Event} : ∀ {H : List Held} {x : Held}, x ∈ after H e →
    x ∈ H ∨ Event.locked x.pid x.sid x.uid x.shared x.start x.stop ∈ e := by
  induction e with
  | nil => intro H x h; exact Or.inl h
  | cons ev es ih =>
    intro H x h
    rcases ih (H := heldStep H ev) h with h | h
    · rcases heldStep_new h with h | rfl
      · exact Or.inl h
      · exact Or.inr List.mem_cons_self
    · exact Or.inr (List.mem_cons_of_mem _ h)

/-- The invariant. -/
structure Inv (w : World) (tr : List Event) : Prop where
  procs : ∀ pid p, w.procs pid = some p → p.alive = true → PInv w.next p
  held : ∀ x ∈ heldOf tr, ∃ p, w.procs x.pid = some p ∧ p.alive = true ∧ BackedP x.pid p w.kern x
  kern : w.kern.Pairwise Compat

theorem heldOf_append (tr e : List Event) : heldOf (tr ++ e) = after (heldOf tr) e := by
  simp only [heldOf, after, List.foldl_append]

theorem stepProc_alive {pid n : Nat} {p p' : Proc} {k k' : KTable} {l : PLabel} {e : List Event}
    (hs : stepProc pid n p k l = some (p', k', e)) : p'.alive = p.alive := by
  cases l with
  | reg tid =>
    simp only [stepProc] at hs
    split at hs
    · simp only [Option.some.injEq] at hs
      unfold attemptReg failLock at hs
      split at hs <;> cases hs
      · exact release_alive _ _
      · rfl
      · rfl
    · cases hs
  | unlock sid len start =>
    simp only [stepProc] at hs
    split at hs
    · split at hs
      · simp only [Option.some.injEq] at hs
        unfold unlockStream at hs
        dsimp only at hs
        split at hs <;> cases hs <;> rfl
      · cases hs
    · cases hs
  | micro =>
    simp only [stepProc] at hs
    split at hs
    · rename_i m rest _
      simp only [Option.some.injEq] at hs
      cases m with
      | unlock sid a f s len =>
        simp only [doMicro] at hs
        repeat' split at hs
        all_goals (cases hs; rfl)
      | cunlock a s len =>
        simp only [doMicro] at hs
        repeat' split at hs
        all_goals (cases hs; rfl)
      | cclose a =>
        simp only [doMicro] at hs
        repeat' split at hs
        all_goals (cases hs; rfl)
    · cases hs
  | microErr =>
    simp only [stepProc] at hs
    split at hs
    · rename_i m _ _
      cases m <;> cases hs <;> rfl
    · cases hs
  | kern tid =>
    simp only [stepProc] at hs
    repeat' split at hs
    all_goals first
      | (cases hs; done)
      | (cases hs; rfl)
      | (cases hs; exact release_alive _ _)
  | unwind tid =>
    simp only [stepProc, failLock] at hs
    repeat' split at hs
    all_goals first
      | (cases hs; done)
      | (cases hs; exact release_alive _ _)
  | expire tid =>
    simp only [stepProc, failLock] at hs
    repeat' split at hs
    all_goals first
      | (cases hs; done)
      | (cases hs; rfl)
      | (cases hs; exact release_alive _ _)
  | _ =>
    simp only [stepProc] at hs
    repeat' split at hs
    all_goals first
      | (cases hs; done)
      | (cases hs; rfl)

theorem PInv.fresh (n pid : Nat) : PInv n (Proc.fresh pid) where
  objs := fun _ h => by cases h
  single := fun _ h => by cases h
  streams := fun _ _ h => by cases h
  distinct := fun _ _ _ _ h => by cases h
  crit := fun _ h => by cases h
  shape := trivial
  threads := fun _ _ h => by cases h

/-- A step of the system keeps the invariant. -/
theorem Inv.step {w w' : World} {tr e : List Event} {l : Label} (h : Inv w tr) (hw : Sane w l)
    (hs : Win.step w l = some (w', e)) : Inv w' (tr ++ e) := by
  obtain ⟨hw, hsg, hf⟩ := hw
  cases l with
  | newProc pid =>
    simp only [Win.step] at hs
    split at hs
    · rename_i hn
      cases hs
      refine ⟨?_, ?_, h.kern⟩
      · intro q p hp ha
        by_cases e : q = pid
        · simp only [e, updMap_same, Option.some.injEq] at hp
          subst hp
          exact PInv.fresh _ _
        · simp only [updMap_other _ _ e] at hp
          exact h.procs q p hp ha
      · intro x hx
        rw [List.append_nil] at hx
        obtain ⟨p, h1, h2⟩ := h.held x hx
        have ne : x.pid ≠ pid := by intro e; rw [e, hn] at h1; cases h1
        exact ⟨p, by simp only [updMap_other _ _ ne]; exact h1, h2⟩
    · cases hs
  | act pid l =>
    simp only [Win.step] at hs
    split at hs
    · cases hs
    · rename_i p hp
      split at hs
      · rename_i ha
        split at hs
        · rename_i p' k' e' hst
          cases hs
          have hi := h.procs pid p hp ha
          have hwu : ∀ sid a c, l = .wrapS sid a c → Unused p a := by
            rintro sid a c rfl; exact hw p hp
          have hoc : ∀ a, l = .osClose a → Unused p a := by
            rintro a rfl; exact hw p hp
          obtain ⟨k1, k2⟩ := kern_step hst h.kern
          refine ⟨?_, ?_, k1⟩
          · intro q p₁ hp₁ ha₁
            by_cases e : q = pid
            · simp only [e, updMap_same, Option.some.injEq] at hp₁
              subst hp₁
              exact hi.step hst hwu hoc hf
            · simp only [updMap_other _ _ e] at hp₁
              exact (h.procs q p₁ hp₁ ha₁).next (Nat.le_succ _)
          · intro x hx
            rw [heldOf_append] at hx
            by_cases e : x.pid = pid
            · refine ⟨p', by simp only [e, updMap_same], by rw [stepProc_alive hst]; exact ha, ?_⟩
              rw [e]
              refine backed_step hi hst hoc ?_ x hx e
              intro y hy hyp
              obtain ⟨p₂, g1, g2, g3⟩ := h.held y hy
              rw [hyp, hp] at g1
              cases g1
              rwa [hyp] at g3
            · rcases after_new hx with hx | hx
              · obtain ⟨p₂, g1, g2, g3⟩ := h.held x hx
                refine ⟨p₂, by simp only [updMap_other _ _ e]; exact g1, g2, ?_⟩
                exact g3.mono (SameStreams.rfl rfl) (fun y hy hyp => (k2 y (by rw [hyp]; exact e)).2 hy)
              · exact absurd (locked_pid hst hx) e
        · cases hs
      · cases hs
  | dup src a dst b =>
    simp only [Win.step] at hs
    split at hs
    · rename_i p p' hp hp'
      split at hs
      · rename_i hc
        split at hs
        · rename_i hd ha
          cases hs
          have hi := h.procs src p hp hc.1
          have hi' := h.procs dst p' hp' hc.2.1
          refine ⟨?_, ?_, h.kern⟩
          · intro q p₁ hp₁ ha₁
            by_cases e : q = dst
            · simp only [e, updMap_same, Option.some.injEq] at hp₁
              subst hp₁
              exact hi'.handle (Nat.le_refl _) hc.2.2 (hi.objs _ (mem_of_target ha)) (hsg p p' hd hp hp' ha)
            · simp only [updMap_other _ _ e] at hp₁
              exact h.procs q p₁ hp₁ ha₁
          · intro x hx
            rw [List.append_nil] at hx
            obtain ⟨p₂, g1, g2, g3⟩ := h.held x hx
            by_cases e : x.pid = dst
            · rw [e, hp'] at g1
              cases g1
              exact ⟨{ p' with handles := p'.handles ++ [(b, hd)] }, by simp only [e, updMap_same], g2,
                g3.mono (SameStreams.rfl rfl) (fun _ h _ => h)⟩
            · exact ⟨p₂, by simp only [updMap_other _ _ e]; exact g1, g2, g3⟩
        · cases hs
      · cases hs
    · cases hs
  | exit pid =>
    simp only [Win.step] at hs
    split at hs
    · cases hs
    · rename_i p hp
      split at hs
      · cases hs
        refine ⟨?_, ?_, h.kern.sublist List.filter_sublist⟩
        · intro q p₁ hp₁ ha₁
          by_cases e : q = pid
          · simp only [e, updMap_same, Option.some.injEq] at hp₁
            subst hp₁; cases ha₁
          · simp only [updMap_other _ _ e] at hp₁
            exact h.procs q p₁ hp₁ ha₁
        · intro x hx
          rw [heldOf_append] at hx
          simp only [after, List.foldl_cons, List.foldl_nil, heldStep, List.mem_filter, decide_eq_true_eq] at hx
          obtain ⟨p₂, g1, g2, g3⟩ := h.held x hx.1
          refine ⟨p₂, by simp only [updMap_other _ _ hx.2]; exact g1, g2, ?_⟩
          refine g3.mono (SameStreams.rfl rfl) (fun y hy hyp => ?_)
          exact List.mem_filter.2 ⟨hy, by simpa [hyp] using hx.2⟩
      · cases hs

theorem Inv.init : Inv World.init [] where
  procs := fun _ _ h => by cases h
  held := fun _ h => by cases h
  kern := List.Pairwise.nil

theorem Reach.inv {ls : List Label} {w : World} {tr : List Event} (h : Reach Sane ls w tr) : Inv w tr := by
  induction h with
  | init => exact Inv.init
  | step _ ha hs ih => exact ih.step ha hs

theorem Reach.mono {A B : World → Label → Prop} (hAB : ∀ w l, A w l → B w l) {ls : List Label} {w : World}
    {tr : List Event} (h : Reach A ls w tr) : Reach B ls w tr := by
  induction h with
  | init => exact .init
  | step _ ha hs ih => exact .step ih (hAB _ _ ha) hs

/-- Two different elements of a list that is pairwise related. -/
theorem pairwise_two {α : Type} {R : α → α → Prop} {L : List α} (h : L.Pairwise R) {a b : α} (ha : a ∈ L) (hb : b ∈ L)
    (hne : a ≠ b) : R a b ∨ R b a := by
  induction h with
  | nil => cases ha
  | cons h1 _ ih =>
    rcases List.mem_cons.1 ha with ea | ha' <;> rcases List.mem_cons.1 hb with eb | hb'
    · exact absurd (ea.trans eb.symm) hne
    · exact Or.inl (ea ▸ h1 b hb')
    · exact Or.inr (eb ▸ h1 a ha')
    · exact ih ha' hb'

end Verif.Win
