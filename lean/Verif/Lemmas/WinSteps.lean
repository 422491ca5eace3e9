import Verif.Lemmas.WinSystem

/-!
# The invariants of the windows lock system are preserved by every action
-/

set_option autoImplicit false

namespace Verif.Win

open Verif Spec

theorem release_streams (p : Proc) (sid : Nat) : SameStreams p (p.release sid) := by
  intro a
  unfold Proc.release
  split
  · rename_i st h
    by_cases e : a = sid
    · subst e; simp [h]
    · simp [updMap_other _ _ e]
  · rfl

theorem release_threads (p : Proc) (sid : Nat) : (p.release sid).threads = p.threads := by
  unfold Proc.release; split <;> rfl

theorem release_handles (p : Proc) (sid : Nat) : (p.release sid).handles = p.handles := by
  unfold Proc.release; split <;> rfl

theorem release_crit (p : Proc) (sid : Nat) : (p.release sid).crit = p.crit := by
  unfold Proc.release; split <;> rfl

theorem release_reg (p : Proc) (sid : Nat) : (p.release sid).reg = p.reg := by
  unfold Proc.release; split <;> rfl

theorem release_alive (p : Proc) (sid : Nat) : (p.release sid).alive = p.alive := by
  unfold Proc.release; split <;> rfl

theorem release_other (p : Proc) {sid a : Nat} (h : a ≠ sid) : (p.release sid).streams a = p.streams a := by
  unfold Proc.release; split
  · exact updMap_other _ _ h
  · rfl

/-- The registry, the phase of one thread change. -/
theorem PInv.phase {next : Nat} {p : Proc} (h : PInv next p) {tid : Nat} {q : Req} (hq : (p.threads tid).req = some q)
    {pc : PC} (hpc : pc.req = some q) (r : Registry) : PInv next (({ p with reg := r } : Proc).setPC tid pc) := by
  refine h.same rfl (SameStreams.rfl rfl) h.crit h.shape ?_
  intro t q' e
  simp only [Proc.setPC] at e ⊢
  by_cases ht : t = tid
  · subst ht
    rw [updMap_same] at e
    exact h.threads t q' (by rw [hq, ← e, hpc])
  · rw [updMap_other _ _ ht] at e
    exact h.threads t q' e

/-- The call of a thread ends. -/
theorem PInv.finished {next : Nat} {p : Proc} (h : PInv next p) {tid : Nat} {q : Req} (hq : (p.threads tid).req = some q)
    (r : Registry) : PInv next ((({ p with reg := r } : Proc).setPC tid .idle).release q.sid) := by
  obtain ⟨_, st, h1, h2, h3, h4⟩ := h.threads tid q hq
  refine h.same (release_handles _ _) (release_streams _ _) ?_ ?_ ?_
  · rw [release_crit]; exact h.crit
  · rw [release_crit]; exact h.shape
  · intro t q' e
    rw [release_threads] at e
    simp only [Proc.setPC] at e
    by_cases ht : t = tid
    · subst ht; rw [updMap_same] at e; cases e
    · rw [updMap_other _ _ ht] at e
      obtain ⟨hf, st', f1, f2, f3, f4⟩ := h.threads t q' e
      have hne : q'.sid ≠ q.sid := by
        intro he
        rw [he, h1] at f1
        cases f1
        rw [h3] at f3
        exact ht (Option.some.inj f3).symm
      refine ⟨hf, st', ?_, f2, f3, f4⟩
      rw [release_other _ hne]
      exact f1

/-- Only the registry and what remains to be done change. -/
theorem PInv.critical {next : Nat} {p : Proc} (h : PInv next p) (r : Registry) {c : List Micro}
    (hc : ∀ m ∈ c, MicroOk p m) (hsh : Shape c) : PInv next { p with reg := r, crit := c } :=
  h.same rfl (SameStreams.rfl rfl) hc hsh h.threads

theorem PInv.next {n m : Nat} {p : Proc} (h : PInv n p) (hl : n ≤ m) : PInv m p :=
  { h with objs := fun x hx => Nat.lt_of_lt_of_le (h.objs x hx) hl }

/-- A new handle, without a stream. -/
theorem PInv.handle {n m : Nat} {p : Proc} (h : PInv n p) (hl : n ≤ m) {a : Nat} {hd : Handle} (ha : p.target a = none)
    (ho : hd.obj < m) (hs : ∀ x ∈ p.handles, x.2.obj ≠ hd.obj) :
    PInv m { p with handles := p.handles ++ [(a, hd)] } := by
  constructor
  · intro x hx
    rcases List.mem_append.1 hx with hx | hx
    · exact Nat.lt_of_lt_of_le (h.objs x hx) hl
    · rw [List.mem_singleton] at hx; subst hx; exact ho
  · intro x hx y hy e
    rcases List.mem_append.1 hx with hx | hx <;> rcases List.mem_append.1 hy with hy | hy
    · exact h.single x hx y hy e
    · rw [List.mem_singleton] at hy; subst hy; exact absurd e (hs x hx)
    · rw [List.mem_singleton] at hx; subst hx; exact absurd e.symm (hs y hy)
    · rw [List.mem_singleton] at hx hy; subst hx; subst hy; rfl
  · intro sid st h1 h2
    have := h.streams sid st h1 h2
    show (p.handles ++ [(a, hd)]).lookup st.handle = _
    rw [target_append hd ha]
    have hne : st.handle ≠ a := by intro e; rw [e, ha] at this; cases this
    rw [if_neg hne]; exact this
  · exact h.distinct
  · intro m hm
    obtain ⟨live, ok⟩ := h.crit m hm
    refine ⟨?_, by cases m <;> exact ok⟩
    show (p.handles ++ [(a, hd)]).lookup m.handle ≠ none
    rw [target_append hd ha]
    split
    · nofun
    · exact live
  · exact h.shape
  · exact h.threads

/-- A new stream on a handle that no open stream uses. -/
theorem PInv.stream {n : Nat} {p : Proc} (h : PInv n p) {sid a : Nat} {hd : Handle} {c : Bool}
    (ha : p.target a = some hd) (hn : p.streams sid = none) (hu : Unused p a) :
    PInv n { p with streams := updMap p.streams sid (some ⟨a, hd.obj, hd.file, c, true, none⟩) } := by
  constructor
  · exact h.objs
  · exact h.single
  · intro s st h1 h2
    by_cases e : s = sid
    · subst e; simp only [updMap_same, Option.some.injEq] at h1; subst h1; exact ha
    · simp only [updMap_other _ _ e] at h1
      exact h.streams s st h1 h2
  · intro s st s' st' h1 h2 h3 h4 h5
    by_cases e : s = sid <;> by_cases e' : s' = sid
    · rw [e, e']
    · simp only [e, updMap_same, Option.some.injEq, updMap_other _ _ e'] at h1 h2
      subst h1
      exact absurd h5.symm (hu.1 s' st' h2 h4)
    · simp only [e', updMap_same, Option.some.injEq, updMap_other _ _ e] at h1 h2
      subst h2
      exact absurd h5 (hu.1 s st h1 h3)
    · simp only [updMap_other _ _ e', updMap_other _ _ e] at h1 h2
      exact h.distinct s st s' st' h1 h2 h3 h4 h5
  · intro m hm
    obtain ⟨live, ok⟩ := h.crit m hm
    have off := hu.2 m hm
    refine ⟨live, ?_⟩
    cases m with
    | unlock s b f x len =>
      obtain ⟨⟨st, h1, h2⟩, h3⟩ := ok
      have e : s ≠ sid := by intro e; rw [e, hn] at h1; cases h1
      exact ⟨⟨st, by simp only [updMap_other _ _ e]; exact h1, h2⟩, h3⟩
    | cunlock b x len =>
      intro s st h1 h2
      by_cases e : s = sid
      · simp only [e, updMap_same, Option.some.injEq] at h1
        subst h1
        exact fun q => off q.symm
      · simp only [updMap_other _ _ e] at h1
        exact ok s st h1 h2
    | cclose b =>
      intro s st h1 h2
      by_cases e : s = sid
      · simp only [e, updMap_same, Option.some.injEq] at h1
        subst h1
        exact fun q => off q.symm
      · simp only [updMap_other _ _ e] at h1
        exact ok s st h1 h2
  · exact h.shape
  · intro t q e
    obtain ⟨h0, st, h1, h2⟩ := h.threads t q e
    have ne : q.sid ≠ sid := by intro e; rw [e, hn] at h1; cases h1
    exact ⟨h0, st, by simp only [updMap_other _ _ ne]; exact h1, h2⟩

/-- A handle without an open stream is closed. -/
theorem PInv.closed {n : Nat} {p : Proc} (h : PInv n p) {a : Nat}
    (hu : ∀ sid st, p.streams sid = some st → st.isOpen = true → st.handle ≠ a) {c : List Micro}
    (hc : ∀ m ∈ c, m ∈ p.crit ∧ m.handle ≠ a) (hsh : Shape c) :
    PInv n { p with handles := p.handles.filter (fun x => ¬ x.1 = a), crit := c } := by
  constructor
  · intro x hx; exact h.objs x (List.mem_filter.1 hx).1
  · intro x hx y hy; exact h.single x (List.mem_filter.1 hx).1 y (List.mem_filter.1 hy).1
  · intro sid st h1 h2
    show (p.handles.filter (fun x => ¬ x.1 = a)).lookup st.handle = _
    rw [target_filter, if_neg (hu sid st h1 h2)]
    exact h.streams sid st h1 h2
  · exact h.distinct
  · intro m hm
    obtain ⟨live, ok⟩ := h.crit m (hc m hm).1
    refine ⟨?_, by cases m <;> exact ok⟩
    show (p.handles.filter (fun x => ¬ x.1 = a)).lookup m.handle ≠ none
    rw [target_filter, if_neg (hc m hm).2]
    exact live
  · exact hsh
  · exact h.threads

/-- With one handle per file object, closing it drops the locks. -/
theorem PInv.closeHandle {n : Nat} {p : Proc} (h : PInv n p) {a : Nat} {hd : Handle} (ha : p.target a = some hd)
    (pid : Nat) (k : KTable) :
    closeHandle pid p k a hd.obj = ({ p with handles := p.handles.filter (fun x => ¬ x.1 = a) }, kDrop k pid hd.obj) := by
  unfold Win.closeHandle
  simp only [Prod.mk.injEq, true_and]
  rw [if_neg]
  intro hany
  obtain ⟨x, hx, ho⟩ := List.any_eq_true.1 hany
  rw [List.mem_filter] at hx
  have := h.single x hx.1 (a, hd) (mem_of_target ha) (by simpa using ho)
  exact absurd this (by simpa using hx.2)

/-- A stream begins a call. -/
theorem PInv.called {n : Nat} {p : Proc} (h : PInv n p) {tid sid : Nat} {st : Stream} (ht : p.threads tid = .idle)
    (hs : p.streams sid = some st) (ho : st.isOpen = true) (hb : st.busy = none) {q : Req} (hq : q.sid = sid)
    (hh : q.handle = st.handle) (hf : q.file = st.file) (hfit : FitsIn q.length q.start) :
    PInv n { p with threads := updMap p.threads tid (.atReg q),
                    streams := updMap p.streams sid (some { st with busy := some tid }) } := by
  refine h.same rfl ?_ h.crit h.shape ?_
  · intro a
    by_cases e : a = sid
    · subst e; simp [hs]
    · simp [updMap_other _ _ e]
  · intro t q' e
    by_cases et : t = tid
    · subst et
      simp only [updMap_same, PC.req, Option.some.injEq] at e
      subst e
      exact ⟨hfit, { st with busy := some t }, by simp only [hq, updMap_same], ho, rfl, hh.symm, hf.symm⟩
    · simp only [updMap_other _ _ et] at e
      obtain ⟨h0, st', h1, h2, h3, h4⟩ := h.threads t q' e
      have ne : q'.sid ≠ sid := by
        intro e'
        rw [e', hs] at h1
        cases h1
        rw [hb] at h3; cases h3
      exact ⟨h0, st', by simp only [updMap_other _ _ ne]; exact h1, h2, h3, h4⟩

/-- A stream is marked closed. -/
theorem PInv.closing {n : Nat} {p : Proc} (h : PInv n p) {sid : Nat} {st : Stream} (hs : p.streams sid = some st)
    (ho : st.isOpen = true) (hb : st.busy = none) (r : Registry) {c : List Micro}
    (hm : ∀ m ∈ c, (∃ s l, m = .cunlock st.handle s l) ∨ m = .cclose st.handle) (hsh : Shape c) :
    PInv n { p with streams := updMap p.streams sid (some { st with isOpen := false }), reg := r, crit := c } := by
  have other : ∀ s st', updMap p.streams sid (some { st with isOpen := false }) s = some st' → st'.isOpen = true →
      s ≠ sid ∧ p.streams s = some st' := by
    intro s st' h1 h2
    by_cases e : s = sid
    · simp only [e, updMap_same, Option.some.injEq] at h1
      subst h1; cases h2
    · rw [updMap_other _ _ e] at h1; exact ⟨e, h1⟩
  constructor
  · exact h.objs
  · exact h.single
  · intro s st' h1 h2
    exact h.streams s st' (other s st' h1 h2).2 h2
  · intro s st₁ s' st₂ h1 h2 h3 h4 h5
    exact h.distinct s st₁ s' st₂ (other s st₁ h1 h3).2 (other s' st₂ h2 h4).2 h3 h4 h5
  · intro m hm'
    have key : ∀ s st', updMap p.streams sid (some { st with isOpen := false }) s = some st' → st'.isOpen = true →
        st'.handle ≠ st.handle := by
      intro s st' h1 h2 e
      obtain ⟨a, b⟩ := other s st' h1 h2
      exact a (h.distinct s st' sid st b hs h2 ho e)
    have live : p.target st.handle ≠ none := by rw [h.streams sid st hs ho]; nofun
    rcases hm m hm' with ⟨x, l, rfl⟩ | rfl
    · exact ⟨live, key⟩
    · exact ⟨live, key⟩
  · exact hsh
  · intro t q e
    obtain ⟨h0, st', h1, h2, h3, h4⟩ := h.threads t q e
    have ne : q.sid ≠ sid := by
      intro e'
      rw [e', hs] at h1; cases h1
      rw [hb] at h3; cases h3
    exact ⟨h0, st', by simp only [updMap_other _ _ ne]; exact h1, h2, h3, h4⟩

theorem closeCrit_shape (L : List LockRec) (h : Nat) (c : Bool) :
    Shape (L.map (fun x => Micro.cunlock h x.start (x.stop.map (fun t => t - x.start))) ++
      (if c then [.cclose h] else [])) := by
  induction L with
  | nil => cases c <;> trivial
  | cons x xs ih => exact ih

theorem closeCrit_mem {L : List LockRec} {h : Nat} {c : Bool} {m : Micro}
    (hm : m ∈ L.map (fun x => Micro.cunlock h x.start (x.stop.map (fun t => t - x.start))) ++
      (if c then [.cclose h] else [])) : (∃ s l, m = .cunlock h s l) ∨ m = .cclose h := by
  rcases List.mem_append.1 hm with hm | hm
  · obtain ⟨x, _, rfl⟩ := List.mem_map.1 hm
    exact Or.inl ⟨_, _, rfl⟩
  · cases c
    · cases hm
    · exact Or.inr (List.mem_singleton.1 hm)

/-- An action of the owner of the mutex keeps the invariant. -/
theorem PInv.micro {pid n : Nat} {p : Proc} {k : KTable} (h : PInv n p) {m : Micro} {rest : List Micro}
    (hc : p.crit = m :: rest) : PInv n (doMicro pid p k m rest).1 := by
  have hsh : Shape (m :: rest) := hc ▸ h.shape
  have hr : ∀ m' ∈ rest, MicroOk p m' := fun m' hm' => h.crit m' (by rw [hc]; exact List.mem_cons_of_mem _ hm')
  have hall : PInv n { p with crit := [] } := h.critical p.reg (fun _ hm => by cases hm) trivial
  have hrest : PInv n { p with crit := rest } := h.critical p.reg hr hsh.tail
  have ok := h.crit m (by rw [hc]; exact List.mem_cons_self)
  cases m with
  | unlock sid a f s len =>
    simp only [doMicro]
    split
    · exact hall
    · split
      · exact hall
      · split
        · exact hall
        · exact hrest
  | cunlock a s len =>
    simp only [doMicro]
    split
    · exact hall
    · split
      · exact hall
      · split
        · exact hall
        · exact hrest
  | cclose a =>
    simp only [doMicro]
    split
    · exact hall
    · rename_i hd ha
      rw [h.closeHandle ha]
      have : rest = [] := hsh
      subst this
      exact h.closed ok.2 (fun _ hm => by cases hm) trivial

/-- Every action of a process keeps its invariant. -/
theorem PInv.step {pid n : Nat} {p p' : Proc} {k k' : KTable} {l : PLabel} {e : List Event} (h : PInv n p)
    (hs : stepProc pid n p k l = some (p', k', e))
    (hw : ∀ sid a c, l = .wrapS sid a c → Unused p a) (hoc : ∀ a, l = .osClose a → Unused p a)
    (hf : Fits (.act pid l)) : PInv (n + 1) p' := by
  have hlt : ∀ x ∈ p.handles, x.2.obj ≠ n := fun x hx => Nat.ne_of_lt (h.objs x hx)
  have up : ∀ {p : Proc}, PInv n p → PInv (n + 1) p := fun h => h.next (Nat.le_succ n)
  cases l with
  | osOpen a file =>
    simp only [stepProc] at hs
    split at hs
    · rename_i ha
      cases hs
      exact h.handle (Nat.le_succ n) ha (Nat.lt_succ_self n) hlt
    · cases hs
  | osClose a =>
    simp only [stepProc] at hs
    split at hs
    · rename_i hd ha
      cases hs
      rw [h.closeHandle ha]
      exact up (h.closed (hoc a rfl).1 (fun m hm => ⟨hm, (hoc a rfl).2 m hm⟩) h.shape)
    · cases hs
  | openS sid a file =>
    simp only [stepProc] at hs
    split at hs
    · rename_i ha
      cases hs
      have h1 := h.handle (m := n + 1) (Nat.le_succ n) (hd := ⟨n, file⟩) ha.1 (Nat.lt_succ_self n) hlt
      refine h1.stream (hd := ⟨n, file⟩) (c := true) (sid := sid) (a := a) ?_ ha.2 ?_
      · show (p.handles ++ [(a, _)]).lookup a = _
        rw [target_append _ ha.1, if_pos rfl]
      · refine ⟨?_, ?_⟩
        · intro s st f1 f2 f3
          have := h.streams s st f1 f2
          rw [f3, ha.1] at this; cases this
        · intro m hm e
          exact (h.crit m hm).1 (e ▸ ha.1)
    · cases hs
  | wrapS sid a c =>
    simp only [stepProc] at hs
    split at hs
    · cases hs
    · rename_i hd ha
      split at hs
      · rename_i hn
        cases hs
        exact up (h.stream ha hn (hw sid a c rfl))
      · cases hs
  | lockCall tid sid len start sh llb =>
    simp only [stepProc] at hs
    split at hs
    · rename_i st ht hst
      split at hs
      · rename_i ho
        cases hs
        exact up (h.called ht hst ho.1 ho.2 rfl rfl rfl hf)
      · cases hs
    · cases hs
  | reg tid =>
    simp only [stepProc] at hs
    split at hs
    · rename_i q ht hc
      have hq : (p.threads tid).req = some q := by rw [ht]; rfl
      simp only [Option.some.injEq] at hs
      unfold attemptReg at hs
      split at hs <;> cases hs
      · exact up (h.finished hq _)
      · exact up (h.phase hq rfl _)
      · exact up (h.phase hq rfl _)
    · cases hs
  | kern tid =>
    simp only [stepProc] at hs
    split at hs
    · rename_i q ht
      have hq : (p.threads tid).req = some q := by rw [ht]; rfl
      split at hs
      · cases hs; exact up (h.phase hq rfl p.reg)
      · split at hs
        · cases hs; exact up (h.phase hq rfl p.reg)
        · split at hs
          · split at hs
            · cases hs
            · cases hs; exact up (h.phase hq rfl p.reg)
          · cases hs; exact up (h.finished hq p.reg)
    · cases hs
  | kernErr tid =>
    simp only [stepProc] at hs
    split at hs
    · rename_i q ht
      have hq : (p.threads tid).req = some q := by rw [ht]; rfl
      cases hs; exact up (h.phase hq rfl p.reg)
    · cases hs
  | kernExc tid =>
    simp only [stepProc] at hs
    split at hs
    · rename_i q ht
      have hq : (p.threads tid).req = some q := by rw [ht]; rfl
      cases hs; exact up (h.phase hq rfl p.reg)
    · cases hs
  | kernIntr tid =>
    simp only [stepProc] at hs
    split at hs
    · rename_i q ht
      have hq : (p.threads tid).req = some q := by rw [ht]; rfl
      split at hs
      · split at hs
        · cases hs
        · cases hs; exact up (h.phase hq rfl p.reg)
      · cases hs
    · cases hs
  | unwind tid =>
    simp only [stepProc] at hs
    split at hs
    · rename_i q ht hc
      have hq : (p.threads tid).req = some q := by rw [ht]; rfl
      cases hs; exact up (h.finished hq _)
    · cases hs
  | retry tid =>
    simp only [stepProc] at hs
    split at hs
    · rename_i q ht
      have hq : (p.threads tid).req = some q := by rw [ht]; rfl
      cases hs; exact up (h.phase hq rfl p.reg)
    · rename_i q ht
      have hq : (p.threads tid).req = some q := by rw [ht]; rfl
      cases hs; exact up (h.phase hq rfl p.reg)
    · cases hs
  | expire tid =>
    simp only [stepProc] at hs
    split at hs
    · rename_i q ht
      have hq : (p.threads tid).req = some q := by rw [ht]; rfl
      split at hs
      · cases hs
      · cases hs; exact up (h.finished hq p.reg)
    · rename_i q ht
      have hq : (p.threads tid).req = some q := by rw [ht]; rfl
      split at hs
      · cases hs
      · cases hs; exact up (h.phase hq rfl p.reg)
    · cases hs
  | unlock sid len start =>
    simp only [stepProc] at hs
    split at hs
    · rename_i st hst hc
      split at hs
      · rename_i ho
        simp only [Option.some.injEq] at hs
        unfold unlockStream at hs
        dsimp only at hs
        split at hs
        · cases hs
          exact up (h.critical _ h.crit h.shape)
        · cases hs
          refine up (h.critical _ ?_ rfl)
          intro m hm
          rw [List.mem_singleton] at hm
          subst hm
          refine ⟨?_, ⟨st, hst, ho.1, rfl, rfl⟩, len, rfl, hf⟩
          show p.target st.handle ≠ none
          rw [h.streams sid st hst ho.1]; nofun
      · cases hs
    · cases hs
  | close sid =>
    simp only [stepProc] at hs
    split at hs
    · rename_i st hst hc
      split at hs
      · cases hs
      · rename_i hb
        split at hs
        · rename_i ho
          cases hs
          refine up (h.closing hst ho ?_ _ (fun m hm => closeCrit_mem hm) (closeCrit_shape _ _ _))
          cases e : st.busy with
          | none => rfl
          | some t => exact absurd (by rw [e]; nofun) hb
        · cases hs
          exact up h
    · cases hs
  | micro =>
    simp only [stepProc] at hs
    split at hs
    · rename_i m rest hc
      simp only [Option.some.injEq] at hs
      have := h.micro (pid := pid) (k := k) hc
      rw [hs] at this
      exact up this
    · cases hs
  | microErr =>
    simp only [stepProc] at hs
    split at hs
    · rename_i m rest hc
      have hall : PInv n { p with crit := [] } := h.critical p.reg (fun _ hm => by cases hm) trivial
      cases m <;> cases hs <;> exact up hall
    · cases hs

/-! ## The kernel locks behind the held locks -/

/-- What is held by a process after some events. -/
def after (H : List Held) (e : List Event) : List Held := e.foldl heldStep H

/-- Nothing that concerns held locks happens: they stay backed. -/
theorem backed_same {pid : Nat} {p p' : Proc} {k k' : KTable} {H : List Held}
    (hb : ∀ x ∈ H, x.pid = pid → BackedP pid p k x) (hs : SameStreams p p') (hk : ∀ y ∈ k, y.pid = pid → y ∈ k') :
    ∀ x ∈ H, x.pid = pid → BackedP pid p' k' x := fun x hx hp => (hb x hx hp).mono hs hk

/-- A kernel lock of an open stream is not one of a handle that no open stream uses. -/
theorem BackedP.other {pid n : Nat} {p : Proc} {k : KTable} {x : Held} (hi : PInv n p) (hb : BackedP pid p k x)
    {a : Nat} {hd : Handle} (ha : p.target a = some hd)
    (hu : ∀ sid st, p.streams sid = some st → st.isOpen = true → st.handle ≠ a) :
    ∃ st, p.streams x.sid = some st ∧ st.isOpen = true ∧ st.file = x.uid ∧
      ∃ y ∈ k, y.pid = pid ∧ y.obj = st.obj ∧ y.file = x.uid ∧ y.shared = x.shared ∧ At x.start x.stop y.off y.len ∧
        y.obj ≠ hd.obj := by
  obtain ⟨st, h1, h2, h3, y, h4, h5, h6, h7, h8, h9⟩ := hb
  refine ⟨st, h1, h2, h3, y, h4, h5, h6, h7, h8, h9, ?_⟩
  intro e
  have m1 := mem_of_target (hi.streams _ _ h1 h2)
  have m2 := mem_of_target ha
  exact hu _ _ h1 h2 (hi.single _ m1 _ m2 (h6.symm.trans e))

theorem backed_drop {pid n : Nat} {p p' : Proc} {k : KTable} {H : List Held} (hi : PInv n p)
    (hb : ∀ x ∈ H, x.pid = pid → BackedP pid p k x) (hs : SameStreams p p') {a : Nat} {hd : Handle}
    (ha : p.target a = some hd) (hu : ∀ sid st, p.streams sid = some st → st.isOpen = true → st.handle ≠ a) :
    ∀ x ∈ H, x.pid = pid → BackedP pid p' (kDrop k pid hd.obj) x := by
  intro x hx hp
  obtain ⟨st, h1, h2, h3, y, h4, h5, h6, h7, h8, h9, h10⟩ := (hb x hx hp).other hi ha hu
  obtain ⟨b, e⟩ := hs.some h1
  exact ⟨_, e, h2, h3, y, List.mem_filter.2 ⟨h4, by simp [h10]⟩, h5, h6, h7, h8, h9⟩

theorem backed_cunlock {pid n : Nat} {p p' : Proc} {k k' : KTable} {H : List Held} (hi : PInv n p)
    (hb : ∀ x ∈ H, x.pid = pid → BackedP pid p k x) (hs : SameStreams p p') {a o l : Nat} {hd : Handle}
    (ha : p.target a = some hd) (hu : ∀ sid st, p.streams sid = some st → st.isOpen = true → st.handle ≠ a)
    (hk : kUnlock k pid hd.obj o l = some k') : ∀ x ∈ H, x.pid = pid → BackedP pid p' k' x := by
  intro x hx hp
  obtain ⟨st, h1, h2, h3, y, h4, h5, h6, h7, h8, h9, h10⟩ := (hb x hx hp).other hi ha hu
  obtain ⟨b, e⟩ := hs.some h1
  exact ⟨_, e, h2, h3, y, kUnlock_keeps hk h4 (isAt_false (fun q => h10 q.2.1)), h5, h6, h7, h8, h9⟩

theorem backed_unlock {pid n : Nat} {p p' : Proc} {k k' : KTable} {H : List Held} (hi : PInv n p)
    (hb : ∀ x ∈ H, x.pid = pid → BackedP pid p k x) (hs : SameStreams p p') {sid o l : Nat} {st : Stream} {s : Int}
    {e : Option Int} (hst : p.streams sid = some st) (ho : st.isOpen = true) (hat : At s e o l)
    (hk : kUnlock k pid st.obj o l = some k') :
    ∀ x ∈ H, x.pid = pid → ¬ (x.sid = sid ∧ x.start = s ∧ x.stop = e) → BackedP pid p' k' x := by
  intro x hx hp hne
  obtain ⟨st', h1, h2, h3, y, h4, h5, h6, h7, h8, h9⟩ := hb x hx hp
  obtain ⟨b, eq⟩ := hs.some h1
  refine ⟨_, eq, h2, h3, y, kUnlock_keeps hk h4 (isAt_false ?_), h5, h6, h7, h8, h9⟩
  rintro ⟨_, q1, q2, q3⟩
  apply hne
  have m1 := mem_of_target (hi.streams _ _ h1 h2)
  have m2 := mem_of_target (hi.streams _ _ hst ho)
  have hh := hi.single _ m1 _ m2 (h6.symm.trans q1)
  refine ⟨hi.distinct _ _ _ _ h1 hst h2 ho hh, ?_⟩
  rw [q2, q3] at h9
  exact h9.inj hat

theorem backed_close {pid n : Nat} {p p' : Proc} {k : KTable} {H : List Held}
    (hb : ∀ x ∈ H, x.pid = pid → BackedP pid p k x) {sid : Nat}
    (hs : ∀ s, s ≠ sid → p'.streams s = p.streams s) :
    ∀ x ∈ H, x.pid = pid → x.sid ≠ sid → BackedP pid p' k x := by
  intro x hx hp hne
  obtain ⟨st', h1, h2⟩ := hb x hx hp
  exact ⟨st', by rw [hs _ hne]; exact h1, h2⟩

/-- Every action of a process keeps its held locks backed. -/
theorem backed_step {pid n : Nat} {p p' : Proc} {k k' : KTable} {l : PLabel} {e : List Event} (hi : PInv n p)
    (hs : stepProc pid n p k l = some (p', k', e)) (hoc : ∀ a, l = .osClose a → Unused p a)
    {H : List Held} (hb : ∀ x ∈ H, x.pid = pid → BackedP pid p k x) :
    ∀ x ∈ after H e, x.pid = pid → BackedP pid p' k' x := by
  have id' : ∀ y ∈ k, y.pid = pid → y ∈ k := fun _ h _ => h
  have ss : ∀ {p' : Proc}, p'.streams = p.streams → SameStreams p p' := SameStreams.rfl
  cases l with
  | osOpen a file =>
    simp only [stepProc] at hs
    split at hs
    · cases hs; exact backed_same hb (ss rfl) id'
    · cases hs
  | osClose a =>
    simp only [stepProc] at hs
    split at hs
    · rename_i hd ha
      cases hs
      rw [hi.closeHandle ha]
      exact backed_drop hi hb (ss rfl) ha (hoc a rfl).1
    · cases hs
  | openS sid a file =>
    simp only [stepProc] at hs
    split at hs
    · rename_i ha
      cases hs
      intro x hx hp
      obtain ⟨st, h1, h2⟩ := hb x hx hp
      refine ⟨st, ?_, h2⟩
      have ne : x.sid ≠ sid := by intro q; rw [q, ha.2] at h1; cases h1
      simp only [updMap_other _ _ ne]; exact h1
    · cases hs
  | wrapS sid a c =>
    simp only [stepProc] at hs
    split at hs
    · cases hs
    · split at hs
      · rename_i hn
        cases hs
        intro x hx hp
        obtain ⟨st, h1, h2⟩ := hb x hx hp
        refine ⟨st, ?_, h2⟩
        have ne : x.sid ≠ sid := by intro q; rw [q, hn] at h1; cases h1
        simp only [updMap_other _ _ ne]; exact h1
      · cases hs
  | lockCall tid sid len start sh llb =>
    simp only [stepProc] at hs
    split at hs
    · rename_i st ht hst
      split at hs
      · cases hs
        refine backed_same hb ?_ id'
        intro b
        by_cases q : b = sid
        · subst q; simp [hst]
        · simp [updMap_other _ _ q]
      · cases hs
    · cases hs
  | reg tid =>
    simp only [stepProc] at hs
    split at hs
    · simp only [Option.some.injEq] at hs
      unfold attemptReg at hs
      split at hs <;> cases hs
      · exact backed_same hb (release_streams _ _) id'
      · exact backed_same hb (ss rfl) id'
      · exact backed_same hb (ss rfl) id'
    · cases hs
  | kern tid =>
    simp only [stepProc] at hs
    split at hs
    · rename_i q ht
      have hq : (p.threads tid).req = some q := by rw [ht]; rfl
      obtain ⟨hfit, st, t1, t2, t3, t4, t5⟩ := hi.threads tid q hq
      split at hs
      · cases hs; exact backed_same hb (ss rfl) id'
      · rename_i l o hr
        split at hs
        · cases hs; exact backed_same hb (ss rfl) id'
        · rename_i hd ha
          split at hs
          · split at hs
            · cases hs
            · cases hs; exact backed_same hb (ss rfl) id'
          · cases hs
            have htg := hi.streams _ _ t1 t2
            rw [t4, ha] at htg
            cases htg
            have hsame : SameStreams p ((p.setPC tid .idle).release q.sid) := release_streams _ _
            intro x hx hp
            simp only [after, List.foldl_cons, List.foldl_nil, heldStep] at hx
            rcases List.mem_append.1 hx with hx | hx
            · exact backed_same hb hsame (fun y hy _ => List.mem_append_left _ hy) x hx hp
            · rw [List.mem_singleton] at hx
              subst hx
              obtain ⟨b, eb⟩ := hsame.some t1
              exact ⟨_, eb, t2, t5, _, List.mem_append_right _ (List.mem_singleton.2 rfl), rfl, rfl, t5, rfl,
                osRange_at hfit hr⟩
    · cases hs
  | kernErr tid =>
    simp only [stepProc] at hs
    split at hs <;> cases hs
    exact backed_same hb (ss rfl) id'
  | kernExc tid =>
    simp only [stepProc] at hs
    split at hs <;> cases hs
    exact backed_same hb (ss rfl) id'
  | kernIntr tid =>
    simp only [stepProc] at hs
    split at hs
    · split at hs
      · split at hs
        · cases hs
        · cases hs
          exact backed_same hb (ss rfl) (fun y hy _ => List.mem_append_left _ hy)
      · cases hs
    · cases hs
  | unwind tid =>
    simp only [stepProc] at hs
    split at hs <;> cases hs
    exact backed_same hb (release_streams _ _) id'
  | retry tid =>
    simp only [stepProc] at hs
    split at hs <;> cases hs <;> exact backed_same hb (ss rfl) id'
  | expire tid =>
    simp only [stepProc] at hs
    split at hs
    · split at hs
      · cases hs
      · cases hs; exact backed_same hb (release_streams _ _) id'
    · split at hs
      · cases hs
      · cases hs; exact backed_same hb (ss rfl) id'
    · cases hs
  | unlock sid len start =>
    simp only [stepProc] at hs
    split at hs
    · split at hs
      · simp only [Option.some.injEq] at hs
        unfold unlockStream at hs
        dsimp only at hs
        split at hs <;> cases hs <;> exact backed_same hb (ss rfl) id'
      · cases hs
    · cases hs
  | close sid =>
    simp only [stepProc] at hs
    split at hs
    · split at hs
      · cases hs
      · split at hs
        · cases hs
          intro x hx hp
          simp only [after, List.foldl_cons, List.foldl_nil, heldStep, List.mem_filter, decide_eq_true_eq] at hx
          exact backed_close (n := n) hb (fun s hs => updMap_other _ _ hs) x hx.1 hp (fun q => hx.2 ⟨hp, q⟩)
        · cases hs; exact hb
    · cases hs
  | micro =>
    simp only [stepProc] at hs
    split at hs
    · rename_i m rest hc
      simp only [Option.some.injEq] at hs
      have ok := hi.crit m (by rw [hc]; exact List.mem_cons_self)
      cases m with
      | unlock sid a f s len =>
        obtain ⟨_, ⟨st, o1, o2, o3, o4⟩, nn, rfl, hfit⟩ := ok
        simp only [doMicro] at hs
        split at hs
        · cases hs; exact backed_same hb (ss rfl) id'
        · rename_i l o hr
          split at hs
          · cases hs; exact backed_same hb (ss rfl) id'
          · rename_i hd ha
            have htg := hi.streams _ _ o1 o2
            rw [o3, ha] at htg
            cases htg
            split at hs
            · cases hs; exact backed_same hb (ss rfl) id'
            · rename_i k₁ hk
              cases hs
              intro x hx hp
              simp only [after, List.foldl_cons, List.foldl_nil, heldStep, List.mem_filter, decide_eq_true_eq] at hx
              exact backed_unlock hi hb (ss rfl) o1 o2 (osRange_at hfit hr) hk x hx.1 hp (fun q => hx.2 ⟨hp, q⟩)
      | cunlock a s len =>
        simp only [doMicro] at hs
        split at hs
        · cases hs; exact backed_same hb (ss rfl) id'
        · split at hs
          · cases hs; exact backed_same hb (ss rfl) id'
          · rename_i hd ha
            split at hs
            · cases hs; exact backed_same hb (ss rfl) id'
            · rename_i k₁ hk
              cases hs
              exact backed_cunlock hi hb (ss rfl) ha ok.2 hk
      | cclose a =>
        simp only [doMicro] at hs
        split at hs
        · cases hs; exact backed_same hb (ss rfl) id'
        · rename_i hd ha
          rw [hi.closeHandle ha] at hs
          cases hs
          exact backed_drop hi hb (ss rfl) ha ok.2
    · cases hs
  | microErr =>
    simp only [stepProc] at hs
    split at hs
    · rename_i m rest hc
      cases m <;> cases hs <;> exact backed_same hb (ss rfl) id'
    · cases hs

/-! ## Kernel: other processes, compatibility -/

theorem kDrop_sublist (k : KTable) (pid obj : Nat) : (kDrop k pid obj).Sublist k := List.filter_sublist

/-- What an action of a process does to the kernel table: locks of other processes stay, and the locks remain
compatible. -/
theorem kern_step {pid n : Nat} {p p' : Proc} {k k' : KTable} {l : PLabel} {e : List Event}
    (hs : stepProc pid n p k l = some (p', k', e)) (hc : k.Pairwise Compat) :
    k'.Pairwise Compat ∧ ∀ y, y.pid ≠ pid → (y ∈ k' ↔ y ∈ k) := by
  have same : k.Pairwise Compat ∧ ∀ y : KLock, y.pid ≠ pid → (y ∈ k ↔ y ∈ k) := ⟨hc, fun _ _ => Iff.rfl⟩
  have grant : ∀ {hd : Handle} {sh : Bool} {o l : Nat}, kConflict k pid hd.obj hd.file sh o l ≠ true →
      (kGrant pid k hd sh o l).Pairwise Compat ∧ ∀ y : KLock, y.pid ≠ pid → (y ∈ kGrant pid k hd sh o l ↔ y ∈ k) := by
    intro hd sh o l h
    refine ⟨compat_grant hc (by simpa using h), fun y hy => ?_⟩
    rw [kGrant, List.mem_append, List.mem_singleton]
    constructor
    · rintro (h | rfl)
      · exact h
      · exact absurd rfl hy
    · exact Or.inl
  have unl : ∀ {obj o l : Nat} {k' : KTable}, kUnlock k pid obj o l = some k' →
      k'.Pairwise Compat ∧ ∀ y : KLock, y.pid ≠ pid → (y ∈ k' ↔ y ∈ k) := by
    intro obj o l k' h
    refine ⟨hc.sublist (kUnlock_sublist h), fun y hy => ⟨fun q => (kUnlock_sublist h).subset q, fun q => ?_⟩⟩
    exact kUnlock_keeps h q (isAt_false (fun z => hy z.1))
  have drop : ∀ (h obj : Nat), (closeHandle pid p k h obj).2.Pairwise Compat ∧
      ∀ y : KLock, y.pid ≠ pid → (y ∈ (closeHandle pid p k h obj).2 ↔ y ∈ k) := by
    intro h obj
    unfold closeHandle
    dsimp only
    split
    · exact same
    · refine ⟨hc.sublist (kDrop_sublist _ _ _), fun y hy => ?_⟩
      rw [kDrop, List.mem_filter]
      simp [hy]
  cases l with
  | osOpen a file => simp only [stepProc] at hs; split at hs <;> cases hs; exact same
  | osClose a =>
    simp only [stepProc] at hs
    split at hs <;> cases hs
    exact drop _ _
  | openS sid a file => simp only [stepProc] at hs; split at hs <;> cases hs; exact same
  | wrapS sid a c =>
    simp only [stepProc] at hs
    split at hs
    · cases hs
    · split at hs <;> cases hs; exact same
  | lockCall tid sid len start sh llb =>
    simp only [stepProc] at hs
    split at hs
    · split at hs <;> cases hs; exact same
    · cases hs
  | reg tid =>
    simp only [stepProc] at hs
    split at hs
    · simp only [Option.some.injEq] at hs
      unfold attemptReg at hs
      split at hs <;> cases hs <;> exact same
    · cases hs
  | kern tid =>
    simp only [stepProc] at hs
    split at hs
    · split at hs
      · cases hs; exact same
      · split at hs
        · cases hs; exact same
        · split at hs
          · split at hs <;> cases hs; exact same
          · rename_i hn
            cases hs
            exact grant hn
    · cases hs
  | kernErr tid => simp only [stepProc] at hs; split at hs <;> cases hs; exact same
  | kernExc tid => simp only [stepProc] at hs; split at hs <;> cases hs; exact same
  | kernIntr tid =>
    simp only [stepProc] at hs
    split at hs
    · split at hs
      · split at hs
        · cases hs
        · rename_i hn
          cases hs
          exact grant hn
      · cases hs
    · cases hs
  | unwind tid => simp only [stepProc] at hs; split at hs <;> cases hs; exact same
  | retry tid => simp only [stepProc] at hs; split at hs <;> cases hs <;> exact same
  | expire tid =>
    simp only [stepProc] at hs
    split at hs
    · split at hs <;> cases hs; exact same
    · split at hs <;> cases hs; exact same
    · cases hs
  | unlock sid len start =>
    simp only [stepProc] at hs
    split at hs
    · split at hs
      · simp only [Option.some.injEq] at hs
        unfold unlockStream at hs
        dsimp only at hs
        split at hs <;> cases hs <;> exact same
      · cases hs
    · cases hs
  | close sid =>
    simp only [stepProc] at hs
    split at hs
    · split at hs
      · cases hs
      · split at hs <;> cases hs <;> exact same
    · cases hs
  | micro =>
    simp only [stepProc] at hs
    split at hs
    · rename_i m rest _
      simp only [Option.some.injEq] at hs
      cases m with
      | unlock sid a f s len =>
        simp only [doMicro] at hs
        split at hs
        · cases hs; exact same
        · split at hs
          · cases hs; exact same
          · split at hs
            · cases hs; exact same
            · rename_i hk
              cases hs; exact unl hk
      | cunlock a s len =>
        simp only [doMicro] at hs
        split at hs
        · cases hs; exact same
        · split at hs
          · cases hs; exact same
          · split at hs
            · cases hs; exact same
            · rename_i hk
              cases hs; exact unl hk
      | cclose a =>
        simp only [doMicro] at hs
        split at hs
        · cases hs; exact same
        · cases hs; exact drop _ _
    · cases hs
  | microErr =>
    simp only [stepProc] at hs
    split at hs
    · rename_i m _ _
      cases m <;> cases hs <;> exact same
    · cases hs

end Verif.Win
