import Verif.Lemmas.SystemShared
import Verif.Lemmas.SystemEvents
import Verif.Lemmas.SystemLift

/-!
# What the actions of the system say about the streams

Which actions make which events, and that streams keep their file.
-/

set_option autoImplicit false

namespace Verif

open Spec

/-- Every stream is still there, with its file. -/
def KeepsStreams (ss ss' : Nat → Option Stream) : Prop :=
  ∀ s st, ss s = some st → ∃ st', ss' s = some st' ∧ st'.uid = st.uid

theorem KeepsStreams.refl (ss : Nat → Option Stream) : KeepsStreams ss ss := fun _ st h => ⟨st, h, rfl⟩

theorem KeepsStreams.upd {ss : Nat → Option Stream} {sid : Nat} {st st' : Stream} (h : ss sid = some st) (hu : st'.uid = st.uid) :
    KeepsStreams ss (updMap ss sid (some st')) := by
  intro s x hx
  by_cases hs : s = sid
  · subst hs; rw [h] at hx; cases hx; exact ⟨st', by simp [updMap], hu⟩
  · exact ⟨x, by simp [updMap, hs, hx], rfl⟩

theorem KeepsStreams.add {ss : Nat → Option Stream} {sid : Nat} {st' : Stream} (h : ss sid = none) :
    KeepsStreams ss (updMap ss sid (some st')) := by
  intro s x hx
  by_cases hs : s = sid
  · subst hs; rw [h] at hx; cases hx
  · exact ⟨x, by simp [updMap, hs, hx], rfl⟩

theorem KeepsStreams.rel (ss : Nat → Option Stream) (sid : Nat) : KeepsStreams ss (relStreams ss sid) := by
  intro s st h
  by_cases hs : s = sid
  · subst hs; exact ⟨{ st with busy := none }, by simp [relStreams, h], rfl⟩
  · exact ⟨st, by simp [relStreams, hs, h], rfl⟩

theorem failLock_streams (pid : Nat) (p : Proc) (k : KTable) (t : Nat) (q : Req) :
    (failLock pid p k t q).1.streams = relStreams p.streams q.sid := by
  simp only [failLock, release_eq]; rfl

theorem attemptReg_keeps (pid : Nat) (p : Proc) (k : KTable) (t : Nat) (q : Req) :
    KeepsStreams p.streams (attemptReg pid p k t q).1.streams := by
  unfold attemptReg
  split
  · rw [failLock_streams]; exact .rel _ _
  · exact .refl _
  · split
    · split
      · exact .refl _
      · dsimp only; rw [failLock_streams]; exact .rel _ _
    · exact .refl _

theorem doMicro_streams (pid : Nat) (p : Proc) (k : KTable) (m : Micro) (rest : List Micro) :
    (doMicro pid p k m rest).1.streams = p.streams := by
  cases m <;> simp only [doMicro] <;> split <;> rfl

theorem unregisterN_streams (pid : Nat) (p : Proc) (u : Uid) (fd : Nat) (l : Option Int) (s : Int) :
    (unregisterN pid p u fd l s).2.streams = p.streams := by
  unfold unregisterN; split <;> rfl

theorem stepProc_keeps {pid : Nat} {p : Proc} {k : KTable} {l : PLabel} {a : Act} (h : stepProc pid p k l = some a) :
    KeepsStreams p.streams a.1.streams := by
  cases l with
  | osOpen fd uid => simp only [stepProc] at h; split at h <;> cases h; exact .refl _
  | openS sid fd uid =>
    simp only [stepProc] at h; split at h <;> cases h
    rename_i h; exact .add h.2
  | wrapS sid fd cf =>
    simp only [stepProc] at h; split at h
    · cases h
    · split at h <;> cases h
      rename_i h; exact .add h.1
  | lockCall tid sid len start sh llb =>
    simp only [stepProc] at h; split at h
    · split at h <;> cases h
      rename_i h1 _; exact .upd h1 rfl
    · cases h
  | reg tid =>
    simp only [stepProc] at h; split at h
    · cases h; exact attemptReg_keeps _ _ _ _ _
    · cases h
  | wake tid =>
    simp only [stepProc] at h; split at h
    · split at h
      · rename_i r _
        cases h; exact attemptReg_keeps pid { p with reg := r } k tid _
      · cases h; dsimp only; rw [failLock_streams]; exact .rel _ _
    · cases h
  | kern tid =>
    simp only [stepProc] at h; split at h
    · (repeat' split at h) <;> cases h <;> first
        | exact .refl _
        | (simp only [grant, release_eq]; exact .rel _ _)
    · cases h
  | kernErr tid => simp only [stepProc] at h; split at h <;> cases h; exact .refl _
  | kernExc tid => simp only [stepProc] at h; split at h <;> cases h; exact .refl _
  | kernIntr tid =>
    simp only [stepProc] at h; split at h
    · split at h <;> cases h; exact .refl _
    · cases h
  | unwind tid =>
    simp only [stepProc] at h; split at h
    · cases h; rw [failLock_streams, unregisterN_streams]; exact .rel _ _
    · cases h
  | retry tid => simp only [stepProc] at h; split at h <;> cases h <;> exact .refl _
  | expire tid =>
    simp only [stepProc] at h; split at h
    · split at h <;> cases h; rw [failLock_streams]; exact .rel _ _
    · split at h <;> cases h; exact .refl _
    · cases h
  | unlock sid len start =>
    simp only [stepProc] at h; split at h
    · split at h
      · cases h
        simp only [unlockStream]
        generalize hr : unregisterN pid p _ _ _ _ = r
        have hs : r.2.streams = p.streams := by rw [← hr]; exact unregisterN_streams ..
        obtain ⟨x, p'⟩ := r
        cases x <;> (dsimp only at hs ⊢; rw [hs]; exact .refl _)
      · cases h
    · cases h
  | close sid =>
    simp only [stepProc] at h; split at h
    · (repeat' split at h) <;> cases h
      · rename_i h1 _ _ _; exact .upd h1 rfl
      · exact .refl _
    · cases h
  | micro =>
    simp only [stepProc] at h; split at h <;> cases h
    rw [doMicro_streams]; exact .refl _

/-- What an event says about the action. -/
def Makes (w : World) (l : Label) : Event → Prop
  | .locked p s u sh a b => ∃ pr t q, w.procs p = some pr ∧ pr.alive = true ∧ pr.threads t = .atKern q ∧
      q.asHeld p = ⟨p, s, u, sh, a, b⟩
  | .unlocked p s _ _ _ => ∃ len st, l = .act p (.unlock s len st)
  | .closed p s _ => l = .act p (.close s)
  | .exited p => l = .exit p
  | .lockReq p s u sh a b => ∃ t len llb pr st, l = .act p (.lockCall t s len a sh llb) ∧ w.procs p = some pr ∧
      pr.streams s = some st ∧ u = st.uid ∧ b = newEnd a (len.map Int.ofNat)
  | .lockFailed p _ _ _ _ _ => ∃ pl, l = .act p pl
  | _ => True

theorem doMicro_events (pid : Nat) (p : Proc) (k : KTable) (m : Micro) (rest : List Micro) (w : World) (l : Label) :
    ∀ e ∈ (doMicro pid p k m rest).2.2, Makes w l e := by
  cases m <;> simp only [doMicro] <;> (try split) <;> simp [Makes]

theorem step_makes {w w' : World} {l : Label} {es : List Event} (h : step w l = some (w', es)) : ∀ e ∈ es, Makes w l e := by
  cases l with
  | newProc pid => simp only [step] at h; split at h <;> cases h; simp
  | fork a b =>
    simp only [step] at h; split at h
    · split at h <;> cases h; simp [Makes]
    · cases h
  | exit pid =>
    simp only [step] at h; split at h
    · cases h
    · split at h <;> cases h; simp [Makes]
  | act pid pl =>
    simp only [step] at h
    split at h
    · cases h
    · rename_i p hp
      split at h
      · rename_i hal
        split at h
        · rename_i p' k' e hs
          cases h
          have hreg : ∀ (p₁ : Proc) (t : Nat) (q : Req), ∀ e ∈ (attemptReg pid p₁ w.kern t q).2.2, Makes w (.act pid pl) e := by
            intro p₁ t q e he
            rcases attemptReg_events pid p₁ w.kern t q e he with rfl | rfl
            · trivial
            · exact ⟨pl, rfl⟩
          cases pl with
          | osOpen fd uid => simp only [stepProc] at hs; split at hs <;> cases hs; simp
          | openS sid fd uid => simp only [stepProc] at hs; split at hs <;> cases hs; simp [Makes]
          | wrapS sid fd cf =>
            simp only [stepProc] at hs; split at hs
            · cases hs
            · split at hs <;> cases hs; simp [Makes]
          | lockCall tid sid len start sh llb =>
            simp only [stepProc] at hs; split at hs
            · split at hs <;> cases hs
              rename_i h1 _
              simp only [List.mem_singleton, forall_eq]
              exact ⟨_, _, _, _, _, rfl, hp, h1, rfl, rfl⟩
            · cases hs
          | reg tid =>
            simp only [stepProc] at hs; split at hs
            · simp only [Option.some.injEq] at hs
              have := hreg p tid; rename_i q _ _; have := this q; rw [hs] at this; exact this
            · cases hs
          | wake tid =>
            simp only [stepProc] at hs; split at hs
            · rename_i q _ _
              split at hs
              · rename_i r _
                simp only [Option.some.injEq] at hs
                have := hreg { p with reg := r } tid q; rw [hs] at this; exact this
              · cases hs; simp [failLock, Makes]
            · cases hs
          | kern tid =>
            simp only [stepProc] at hs; split at hs
            · rename_i q hq
              (repeat' split at hs) <;> cases hs <;> first
                | (simp [Makes]; done)
                | (simp only [List.mem_singleton, forall_eq]; exact ⟨p, tid, q, hp, hal, hq, rfl⟩)
            · cases hs
          | kernErr tid => simp only [stepProc] at hs; split at hs <;> cases hs; simp
          | kernExc tid => simp only [stepProc] at hs; split at hs <;> cases hs; simp
          | kernIntr tid =>
            simp only [stepProc] at hs; split at hs
            · split at hs <;> cases hs; simp
            · cases hs
          | unwind tid =>
            simp only [stepProc] at hs; split at hs <;> cases hs
            simp [Makes]
          | retry tid => simp only [stepProc] at hs; split at hs <;> cases hs <;> simp
          | expire tid =>
            simp only [stepProc] at hs; split at hs
            · split at hs <;> cases hs; simp [Makes]
            · split at hs <;> cases hs; simp
            · cases hs
          | unlock sid len start =>
            simp only [stepProc] at hs; split at hs
            · split at hs
              · simp only [Option.some.injEq, unlockStream] at hs
                split at hs <;> cases hs
                · simp [Makes]
                · simp only [List.mem_singleton, forall_eq]; exact ⟨_, _, rfl⟩
              · cases hs
            · cases hs
          | close sid =>
            simp only [stepProc] at hs; split at hs
            · (repeat' split at hs) <;> cases hs
              · simp [Makes]
              · simp
            · cases hs
          | micro =>
            simp only [stepProc] at hs; split at hs
            · simp only [Option.some.injEq] at hs
              rename_i m rest _
              have := doMicro_events pid p w.kern m rest w (.act pid .micro)
              rw [hs] at this; exact this
            · cases hs
        · cases h
      · cases h

/-- Streams of processes keep their file; processes do not vanish. -/
theorem step_keeps {w w' : World} {l : Label} {es : List Event} (h : step w l = some (w', es)) {pid : Nat} {p : Proc}
    (hp : w.procs pid = some p) : ∃ p', w'.procs pid = some p' ∧ KeepsStreams p.streams p'.streams := by
  cases l with
  | newProc q =>
    simp only [step] at h; split at h <;> cases h
    rename_i hq
    refine ⟨p, ?_, .refl _⟩
    dsimp only; rw [updMap_other]
    · exact hp
    · rintro rfl; rw [hp] at hq; cases hq
  | fork a b =>
    simp only [step] at h; split at h
    · rename_i hb
      split at h <;> cases h
      refine ⟨p, ?_, .refl _⟩
      dsimp only; rw [updMap_other]
      · exact hp
      · rintro rfl; rw [hp] at hb; cases hb
    · cases h
  | exit q =>
    simp only [step] at h; split at h
    · cases h
    · rename_i x hx
      split at h <;> cases h
      by_cases hq : pid = q
      · subst hq; rw [hp] at hx; cases hx
        exact ⟨{ p with alive := false }, by simp [updMap], .refl _⟩
      · exact ⟨p, by simp [updMap, hq, hp], .refl _⟩
  | act q pl =>
    simp only [step] at h
    split at h
    · cases h
    · rename_i x hx
      split at h
      · split at h
        · rename_i p' k' e hs
          cases h
          by_cases hq : pid = q
          · subst hq; rw [hp] at hx; cases hx
            exact ⟨p', by simp [updMap], stepProc_keeps hs⟩
          · exact ⟨p, by simp [updMap, hq, hp], .refl _⟩
        · cases h
      · cases h

theorem attemptReg_mild (pid : Nat) (p : Proc) (k : KTable) (t : Nat) (q : Req) (p' s : Nat) (u : Uid) (sh : Bool) (x : Int)
    (y : Option Int) : Event.locked p' s u sh x y ∉ (attemptReg pid p k t q).2.2 := by
  intro h
  rcases attemptReg_events pid p k t q _ h with h | h <;> cases h

theorem doMicro_mild (pid : Nat) (p : Proc) (k : KTable) (m : Micro) (rest : List Micro) (p' s : Nat) (u : Uid) (sh : Bool)
    (x : Int) (y : Option Int) : Event.locked p' s u sh x y ∉ (doMicro pid p k m rest).2.2 := by
  cases m <;> simp only [doMicro] <;> (try split) <;> simp

theorem stepProc_locked {pid : Nat} {p : Proc} {k : KTable} {l : PLabel} {a : Act} (hs : stepProc pid p k l = some a)
    {p' s : Nat} {u : Uid} {sh : Bool} {x : Int} {y : Option Int} (he : Event.locked p' s u sh x y ∈ a.2.2) :
    ∃ t, l = .kern t := by
  cases l with
  | osOpen fd uid => simp only [stepProc] at hs; split at hs <;> cases hs; simp at he
  | openS sid fd uid => simp only [stepProc] at hs; split at hs <;> cases hs; simp at he
  | wrapS sid fd cf =>
    simp only [stepProc] at hs; split at hs
    · cases hs
    · split at hs <;> cases hs; simp at he
  | lockCall tid sid len start sh llb =>
    simp only [stepProc] at hs; split at hs
    · split at hs <;> cases hs; simp at he
    · cases hs
  | reg tid =>
    simp only [stepProc] at hs; split at hs <;> cases hs
    exact absurd he (attemptReg_mild _ _ _ _ _ _ _ _ _ _ _)
  | wake tid =>
    simp only [stepProc] at hs; split at hs
    · split at hs
      · rename_i r _
        cases hs
        exact absurd he (attemptReg_mild pid { p with reg := r } k tid _ _ _ _ _ _ _)
      · cases hs; simp [failLock] at he
    · cases hs
  | kern tid => exact ⟨tid, rfl⟩
  | kernErr tid => simp only [stepProc] at hs; split at hs <;> cases hs; simp at he
  | kernExc tid => simp only [stepProc] at hs; split at hs <;> cases hs; simp at he
  | kernIntr tid =>
    simp only [stepProc] at hs; split at hs
    · split at hs <;> cases hs; simp at he
    · cases hs
  | unwind tid =>
    simp only [stepProc] at hs; split at hs <;> cases hs
    simp [failLock] at he
  | retry tid => simp only [stepProc] at hs; split at hs <;> cases hs <;> simp at he
  | expire tid =>
    simp only [stepProc] at hs; split at hs
    · split at hs <;> cases hs; simp [failLock] at he
    · split at hs <;> cases hs; simp at he
    · cases hs
  | unlock sid len start =>
    simp only [stepProc] at hs; split at hs
    · split at hs
      · simp only [Option.some.injEq, unlockStream] at hs
        split at hs <;> cases hs <;> simp at he
      · cases hs
    · cases hs
  | close sid =>
    simp only [stepProc] at hs; split at hs
    · (repeat' split at hs) <;> cases hs
      · simp [closeStream] at he
      · simp at he
    · cases hs
  | micro =>
    simp only [stepProc] at hs; split at hs <;> cases hs
    exact absurd he (doMicro_mild _ _ _ _ _ _ _ _ _ _ _)

/-! ## The effect of an action on the locks that are held and requested -/

/-- Events after which nobody holds more, and no process is gone. -/
def Mild : Event → Prop
  | .locked .. => False
  | .exited _ => False
  | _ => True

/-- An action grants a lock, ends a process, or does neither. -/
theorem step_shape {w w' : World} {l : Label} {es : List Event} (h : step w l = some (w', es)) :
    (∃ pid t q p, l = .act pid (.kern t) ∧ w.procs pid = some p ∧ p.alive = true ∧ p.threads t = .atKern q ∧
      es = [.locked pid q.sid q.uid q.shared q.start q.stop]) ∨
    (∃ pid, l = .exit pid ∧ es = [.exited pid]) ∨ ∀ e ∈ es, Mild e := by
  cases l with
  | exit pid =>
    simp only [step] at h; split at h
    · cases h
    · split at h <;> cases h; exact .inr (.inl ⟨pid, rfl, rfl⟩)
  | newProc pid =>
    refine .inr (.inr fun e he => ?_)
    have := step_makes h e he
    cases e <;> first | trivial | (simp [Makes] at this; done) | skip
    simp only [step] at h; split at h <;> cases h; cases he
  | fork a b =>
    refine .inr (.inr fun e he => ?_)
    simp only [step] at h; split at h
    · split at h <;> cases h
      simp only [List.mem_singleton] at he; subst he; trivial
    · cases h
  | act pid pl =>
    by_cases hk : ∃ t, pl = .kern t
    · obtain ⟨t, rfl⟩ := hk
      simp only [step] at h
      split at h
      · cases h
      · rename_i p hp
        split at h
        · rename_i hal
          simp only [stepProc] at h
          split at h
          · rename_i hs
            split at hs
            · rename_i q hq
              (repeat' split at hs) <;> cases hs <;> cases h
              · exact .inr (.inr (by simp [Mild]))
              · exact .inr (.inr (by simp))
              · exact .inr (.inr (by simp))
              · exact .inl ⟨pid, t, q, p, rfl, hp, hal, hq, rfl⟩
            · cases hs
          · cases h
        · cases h
    · refine .inr (.inr fun e he => ?_)
      have hm := step_makes h e he
      cases e with
      | exited p => simp only [Makes] at hm; cases hm
      | locked p s u sh a b =>
        exfalso
        simp only [step] at h
        split at h
        · cases h
        · split at h
          · split at h
            · rename_i hs
              cases h
              exact hk (stepProc_locked hs he)
            · cases h
          · cases h
      | _ => trivial

end Verif
