import Verif.Lemmas.WinRuns

/-!
# The handles of open streams are open

This needs less than the invariant of `WinSystem`: nothing about file objects and ranges.
-/

set_option autoImplicit false

namespace Verif.Win

open Verif Spec

/-- What a system call of the owner of the mutex relies on: its handle is open, and one that it is to close belongs to no
open stream. -/
def Ready (p : Proc) (m : Micro) : Prop :=
  p.target m.handle ≠ none ∧ ∀ h, m = .cclose h → ∀ sid st, p.streams sid = some st → st.isOpen = true → st.handle ≠ h

/-- The handles of open streams and of the remaining calls are open. -/
structure Live (p : Proc) : Prop where
  streams : ∀ sid st, p.streams sid = some st → st.isOpen = true → p.target st.handle ≠ none
  distinct : ∀ sid st sid' st', p.streams sid = some st → p.streams sid' = some st' → st.isOpen = true →
    st'.isOpen = true → st.handle = st'.handle → sid = sid'
  crit : ∀ m ∈ p.crit, Ready p m
  shape : Shape p.crit
  threads : ∀ tid q, (p.threads tid).req = some q →
    ∃ st, p.streams q.sid = some st ∧ st.isOpen = true ∧ st.busy = some tid ∧ st.handle = q.handle

theorem Live.same {p p' : Proc} (h : Live p) (hh : p'.handles = p.handles) (hs : SameStreams p p')
    (hc : ∀ m ∈ p'.crit, Ready p m) (hsh : Shape p'.crit)
    (ht : ∀ tid q, (p'.threads tid).req = some q →
      ∃ st, p'.streams q.sid = some st ∧ st.isOpen = true ∧ st.busy = some tid ∧ st.handle = q.handle) : Live p' := by
  have hs' := hs.symm
  constructor
  · intro sid st h1 h2
    obtain ⟨b, e⟩ := hs'.some h1
    rw [Proc.target, hh]
    have := h.streams _ _ e h2
    exact this
  · intro sid st sid' st' h1 h2 h3 h4 h5
    obtain ⟨b, e⟩ := hs'.some h1
    obtain ⟨b', e'⟩ := hs'.some h2
    exact h.distinct sid _ sid' _ e e' h3 h4 h5
  · intro m hm
    obtain ⟨live, this⟩ := hc m hm
    refine ⟨by rw [Proc.target, hh]; exact live, ?_⟩
    intro a ha sid st h1 h2
    obtain ⟨b, e⟩ := hs'.some h1
    have := this a ha _ _ e h2
    exact this
  · exact hsh
  · exact ht

/-- The registry, the phase of one thread change. -/
theorem Live.phase {p : Proc} (h : Live p) {tid : Nat} {q : Req} (hq : (p.threads tid).req = some q)
    {pc : PC} (hpc : pc.req = some q) (r : Registry) : Live (({ p with reg := r } : Proc).setPC tid pc) := by
  refine h.same rfl (SameStreams.rfl rfl) h.crit h.shape ?_
  intro t q' e
  simp only [Proc.setPC] at e ⊢
  by_cases ht : t = tid
  · subst ht
    rw [updMap_same] at e
    exact h.threads t q' (by rw [hq, ← e, hpc])
  · rw [updMap_other _ _ ht] at e
    exact h.threads t q' e

/-- The call of a thread ends. -/
theorem Live.finished {p : Proc} (h : Live p) {tid : Nat} {q : Req} (hq : (p.threads tid).req = some q)
    (r : Registry) : Live ((({ p with reg := r } : Proc).setPC tid .idle).release q.sid) := by
  obtain ⟨st, h1, h2, h3, h4⟩ := h.threads tid q hq
  refine h.same (release_handles _ _) (release_streams _ _) ?_ ?_ ?_
  · rw [release_crit]; exact h.crit
  · rw [release_crit]; exact h.shape
  · intro t q' e
    rw [release_threads] at e
    simp only [Proc.setPC] at e
    by_cases ht : t = tid
    · subst ht; rw [updMap_same] at e; cases e
    · rw [updMap_other _ _ ht] at e
      obtain ⟨st', f1, f2, f3, f4⟩ := h.threads t q' e
      have hne : q'.sid ≠ q.sid := by
        intro he
        rw [he, h1] at f1
        cases f1
        rw [h3] at f3
        exact ht (Option.some.inj f3).symm
      refine ⟨st', ?_, f2, f3, f4⟩
      rw [release_other _ hne]
      exact f1

/-- Only the registry and what remains to be done change. -/
theorem Live.critical {p : Proc} (h : Live p) (r : Registry) {c : List Micro}
    (hc : ∀ m ∈ c, Ready p m) (hsh : Shape c) : Live { p with reg := r, crit := c } :=
  h.same rfl (SameStreams.rfl rfl) hc hsh h.threads

/-- A new handle, without a stream. -/
theorem Live.handle {p : Proc} (h : Live p) {a : Nat} {hd : Handle} (ha : p.target a = none) :
    Live { p with handles := p.handles ++ [(a, hd)] } := by
  have key : ∀ b, p.target b ≠ none → (p.handles ++ [(a, hd)]).lookup b ≠ none := by
    intro b hb
    rw [target_append hd ha]
    split
    · nofun
    · exact hb
  exact ⟨fun sid st h1 h2 => key _ (h.streams sid st h1 h2), h.distinct, fun m hm => ⟨key _ (h.crit m hm).1, (h.crit m hm).2⟩,
    h.shape, h.threads⟩

/-- A new stream on a handle that no open stream uses. -/
theorem Live.stream {p : Proc} (h : Live p) {sid a : Nat} {hd : Handle} {c : Bool}
    (ha : p.target a = some hd) (hn : p.streams sid = none) (hu : Unused p a) :
    Live { p with streams := updMap p.streams sid (some ⟨a, hd.obj, hd.file, c, true, none⟩) } := by
  constructor
  · intro s st h1 h2
    by_cases e : s = sid
    · subst e
      simp only [updMap_same, Option.some.injEq] at h1
      subst h1
      show p.target a ≠ none
      rw [ha]; nofun
    · simp only [updMap_other _ _ e] at h1
      exact h.streams s st h1 h2
  · intro s st s' st' h1 h2 h3 h4 h5
    by_cases e : s = sid <;> by_cases e' : s' = sid
    · rw [e, e']
    · simp only [e, updMap_same, Option.some.injEq, updMap_other _ _ e'] at h1 h2
      subst h1
      exact absurd h5.symm (hu.1 s' st' h2 h4)
    · simp only [e', updMap_same, Option.some.injEq, updMap_other _ _ e] at h1 h2
      subst h2
      exact absurd h5 (hu.1 s st h1 h3)
    · simp only [updMap_other _ _ e', updMap_other _ _ e] at h1 h2
      exact h.distinct s st s' st' h1 h2 h3 h4 h5
  · intro m hm
    obtain ⟨live, ok⟩ := h.crit m hm
    have off := hu.2 m hm
    refine ⟨live, ?_⟩
    rintro b rfl s st h1 h2
    by_cases e : s = sid
    · simp only [e, updMap_same, Option.some.injEq] at h1
      subst h1
      exact fun q => off q.symm
    · simp only [updMap_other _ _ e] at h1
      exact ok b rfl s st h1 h2
  · exact h.shape
  · intro t q e
    obtain ⟨st, h1, h2⟩ := h.threads t q e
    have ne : q.sid ≠ sid := by intro e; rw [e, hn] at h1; cases h1
    exact ⟨st, by simp only [updMap_other _ _ ne]; exact h1, h2⟩

/-- A handle without an open stream is closed. -/
theorem Live.closed {p : Proc} (h : Live p) {a : Nat}
    (hu : ∀ sid st, p.streams sid = some st → st.isOpen = true → st.handle ≠ a) {c : List Micro}
    (hc : ∀ m ∈ c, m ∈ p.crit ∧ m.handle ≠ a) (hsh : Shape c) :
    Live { p with handles := p.handles.filter (fun x => ¬ x.1 = a), crit := c } := by
  constructor
  · intro sid st h1 h2
    show (p.handles.filter (fun x => ¬ x.1 = a)).lookup st.handle ≠ none
    rw [target_filter, if_neg (hu sid st h1 h2)]
    exact h.streams sid st h1 h2
  · exact h.distinct
  · intro m hm
    obtain ⟨live, ok⟩ := h.crit m (hc m hm).1
    refine ⟨?_, ok⟩
    show (p.handles.filter (fun x => ¬ x.1 = a)).lookup m.handle ≠ none
    rw [target_filter, if_neg (hc m hm).2]
    exact live
  · exact hsh
  · exact h.threads

/-- A stream begins a call. -/
theorem Live.called {p : Proc} (h : Live p) {tid sid : Nat} {st : Stream} (ht : p.threads tid = .idle)
    (hs : p.streams sid = some st) (ho : st.isOpen = true) (hb : st.busy = none) {q : Req} (hq : q.sid = sid)
    (hh : q.handle = st.handle) :
    Live { p with threads := updMap p.threads tid (.atReg q),
                    streams := updMap p.streams sid (some { st with busy := some tid }) } := by
  refine h.same rfl ?_ h.crit h.shape ?_
  · intro a
    by_cases e : a = sid
    · subst e; simp [hs]
    · simp [updMap_other _ _ e]
  · intro t q' e
    by_cases et : t = tid
    · subst et
      simp only [updMap_same, PC.req, Option.some.injEq] at e
      subst e
      exact ⟨{ st with busy := some t }, by simp only [hq, updMap_same], ho, rfl, hh.symm⟩
    · simp only [updMap_other _ _ et] at e
      obtain ⟨st', h1, h2, h3, h4⟩ := h.threads t q' e
      have ne : q'.sid ≠ sid := by
        intro e'
        rw [e', hs] at h1
        cases h1
        rw [hb] at h3; cases h3
      exact ⟨st', by simp only [updMap_other _ _ ne]; exact h1, h2, h3, h4⟩

/-- A stream is marked closed. -/
theorem Live.closing {p : Proc} (h : Live p) {sid : Nat} {st : Stream} (hs : p.streams sid = some st)
    (ho : st.isOpen = true) (hb : st.busy = none) (r : Registry) {c : List Micro}
    (hm : ∀ m ∈ c, (∃ s l, m = .cunlock st.handle s l) ∨ m = .cclose st.handle) (hsh : Shape c) :
    Live { p with streams := updMap p.streams sid (some { st with isOpen := false }), reg := r, crit := c } := by
  have other : ∀ s st', updMap p.streams sid (some { st with isOpen := false }) s = some st' → st'.isOpen = true →
      s ≠ sid ∧ p.streams s = some st' := by
    intro s st' h1 h2
    by_cases e : s = sid
    · simp only [e, updMap_same, Option.some.injEq] at h1
      subst h1; cases h2
    · rw [updMap_other _ _ e] at h1; exact ⟨e, h1⟩
  constructor
  · intro s st' h1 h2
    exact h.streams s st' (other s st' h1 h2).2 h2
  · intro s st₁ s' st₂ h1 h2 h3 h4 h5
    exact h.distinct s st₁ s' st₂ (other s st₁ h1 h3).2 (other s' st₂ h2 h4).2 h3 h4 h5
  · intro m hm'
    have key : ∀ s st', updMap p.streams sid (some { st with isOpen := false }) s = some st' → st'.isOpen = true →
        st'.handle ≠ st.handle := by
      intro s st' h1 h2 e
      obtain ⟨a, b⟩ := other s st' h1 h2
      exact a (h.distinct s st' sid st b hs h2 ho e)
    have live : p.target st.handle ≠ none := h.streams sid st hs ho
    rcases hm m hm' with ⟨x, l, rfl⟩ | rfl
    · exact ⟨live, nofun⟩
    · exact ⟨live, fun a e => by cases e; exact key⟩
  · exact hsh
  · intro t q e
    obtain ⟨st', h1, h2, h3, h4⟩ := h.threads t q e
    have ne : q.sid ≠ sid := by
      intro e'
      rw [e', hs] at h1; cases h1
      rw [hb] at h3; cases h3
    exact ⟨st', by simp only [updMap_other _ _ ne]; exact h1, h2, h3, h4⟩
/-- An action of the owner of the mutex keeps the invariant. -/
theorem Live.micro {pid : Nat} {p : Proc} {k : KTable} (h : Live p) {m : Micro} {rest : List Micro}
    (hc : p.crit = m :: rest) : Live (doMicro pid p k m rest).1 := by
  have hsh : Shape (m :: rest) := hc ▸ h.shape
  have hr : ∀ m' ∈ rest, Ready p m' := fun m' hm' => h.crit m' (by rw [hc]; exact List.mem_cons_of_mem _ hm')
  have hall : Live { p with crit := [] } := h.critical p.reg (fun _ hm => by cases hm) trivial
  have hrest : Live { p with crit := rest } := h.critical p.reg hr hsh.tail
  have ok := h.crit m (by rw [hc]; exact List.mem_cons_self)
  cases m with
  | unlock sid a f s len =>
    simp only [doMicro]
    split
    · exact hall
    · split
      · exact hall
      · split
        · exact hall
        · exact hrest
  | cunlock a s len =>
    simp only [doMicro]
    split
    · exact hall
    · split
      · exact hall
      · split
        · exact hall
        · exact hrest
  | cclose a =>
    simp only [doMicro]
    split
    · exact hall
    · rename_i hd ha
      have : rest = [] := hsh
      subst this
      exact h.closed (ok.2 a rfl) (fun _ hm => by cases hm) trivial

/-- Every action of a process keeps this. -/
theorem Live.step {pid n : Nat} {p p' : Proc} {k k' : KTable} {l : PLabel} {e : List Event} (h : Live p)
    (hs : stepProc pid n p k l = some (p', k', e))
    (hw : ∀ sid a c, l = .wrapS sid a c → Unused p a) (hoc : ∀ a, l = .osClose a → Unused p a) : Live p' := by
  cases l with
  | osOpen a file =>
    simp only [stepProc] at hs
    split at hs
    · rename_i ha
      cases hs
      exact h.handle ha
    · cases hs
  | osClose a =>
    simp only [stepProc] at hs
    split at hs
    · rename_i hd ha
      cases hs
      exact h.closed (hoc a rfl).1 (fun m hm => ⟨hm, (hoc a rfl).2 m hm⟩) h.shape
    · cases hs
  | openS sid a file =>
    simp only [stepProc] at hs
    split at hs
    · rename_i ha
      cases hs
      have h1 := h.handle (hd := ⟨n, file⟩) ha.1
      refine h1.stream (hd := ⟨n, file⟩) (c := true) (sid := sid) (a := a) ?_ ha.2 ?_
      · show (p.handles ++ [(a, _)]).lookup a = _
        rw [target_append _ ha.1, if_pos rfl]
      · refine ⟨?_, ?_⟩
        · intro s st f1 f2 f3
          exact h.streams s st f1 f2 (f3 ▸ ha.1)
        · intro m hm e
          exact (h.crit m hm).1 (e ▸ ha.1)
    · cases hs
  | wrapS sid a c =>
    simp only [stepProc] at hs
    split at hs
    · cases hs
    · rename_i hd ha
      split at hs
      · rename_i hn
        cases hs
        exact (h.stream ha hn (hw sid a c rfl))
      · cases hs
  | lockCall tid sid len start sh llb =>
    simp only [stepProc] at hs
    split at hs
    · rename_i st ht hst
      split at hs
      · rename_i ho
        cases hs
        exact (h.called ht hst ho.1 ho.2 rfl rfl)
      · cases hs
    · cases hs
  | reg tid =>
    simp only [stepProc] at hs
    split at hs
    · rename_i q ht hc
      have hq : (p.threads tid).req = some q := by rw [ht]; rfl
      simp only [Option.some.injEq] at hs
      unfold attemptReg at hs
      split at hs <;> cases hs
      · exact (h.finished hq _)
      · exact (h.phase hq rfl _)
      · exact (h.phase hq rfl _)
    · cases hs
  | kern tid =>
    simp only [stepProc] at hs
    split at hs
    · rename_i q ht
      have hq : (p.threads tid).req = some q := by rw [ht]; rfl
      split at hs
      · cases hs; exact (h.phase hq rfl p.reg)
      · split at hs
        · cases hs; exact (h.phase hq rfl p.reg)
        · split at hs
          · split at hs
            · cases hs
            · cases hs; exact (h.phase hq rfl p.reg)
          · cases hs; exact (h.finished hq p.reg)
    · cases hs
  | kernErr tid =>
    simp only [stepProc] at hs
    split at hs
    · rename_i q ht
      have hq : (p.threads tid).req = some q := by rw [ht]; rfl
      cases hs; exact (h.phase hq rfl p.reg)
    · cases hs
  | kernExc tid =>
    simp only [stepProc] at hs
    split at hs
    · rename_i q ht
      have hq : (p.threads tid).req = some q := by rw [ht]; rfl
      cases hs; exact (h.phase hq rfl p.reg)
    · cases hs
  | kernIntr tid =>
    simp only [stepProc] at hs
    split at hs
    · rename_i q ht
      have hq : (p.threads tid).req = some q := by rw [ht]; rfl
      split at hs
      · split at hs
        · cases hs
        · cases hs; exact (h.phase hq rfl p.reg)
      · cases hs
    · cases hs
  | unwind tid =>
    simp only [stepProc] at hs
    split at hs
    · rename_i q ht hc
      have hq : (p.threads tid).req = some q := by rw [ht]; rfl
      cases hs; exact (h.finished hq _)
    · cases hs
  | retry tid =>
    simp only [stepProc] at hs
    split at hs
    · rename_i q ht
      have hq : (p.threads tid).req = some q := by rw [ht]; rfl
      cases hs; exact (h.phase hq rfl p.reg)
    · rename_i q ht
      have hq : (p.threads tid).req = some q := by rw [ht]; rfl
      cases hs; exact (h.phase hq rfl p.reg)
    · cases hs
  | expire tid =>
    simp only [stepProc] at hs
    split at hs
    · rename_i q ht
      have hq : (p.threads tid).req = some q := by rw [ht]; rfl
      split at hs
      · cases hs
      · cases hs; exact (h.finished hq p.reg)
    · rename_i q ht
      have hq : (p.threads tid).req = some q := by rw [ht]; rfl
      split at hs
      · cases hs
      · cases hs; exact (h.phase hq rfl p.reg)
    · cases hs
  | unlock sid len start =>
    simp only [stepProc] at hs
    split at hs
    · rename_i st hst hc
      split at hs
      · rename_i ho
        simp only [Option.some.injEq] at hs
        unfold unlockStream at hs
        dsimp only at hs
        split at hs
        · cases hs
          exact (h.critical _ h.crit h.shape)
        · cases hs
          refine (h.critical _ ?_ rfl)
          intro m hm
          rw [List.mem_singleton] at hm
          subst hm
          exact ⟨h.streams sid st hst ho.1, nofun⟩
      · cases hs
    · cases hs
  | close sid =>
    simp only [stepProc] at hs
    split at hs
    · rename_i st hst hc
      split at hs
      · cases hs
      · rename_i hb
        split at hs
        · rename_i ho
          cases hs
          refine (h.closing hst ho ?_ _ (fun m hm => closeCrit_mem hm) (closeCrit_shape _ _ _))
          cases e : st.busy with
          | none => rfl
          | some t => exact absurd (by rw [e]; nofun) hb
        · cases hs
          exact h
    · cases hs
  | micro =>
    simp only [stepProc] at hs
    split at hs
    · rename_i m rest hc
      simp only [Option.some.injEq] at hs
      have := h.micro (pid := pid) (k := k) hc
      rw [hs] at this
      exact this
    · cases hs
  | microErr =>
    simp only [stepProc] at hs
    split at hs
    · rename_i m rest hc
      have hall : Live { p with crit := [] } := h.critical p.reg (fun _ hm => by cases hm) trivial
      cases m <;> cases hs <;> exact hall
    · cases hs


end Verif.Win
