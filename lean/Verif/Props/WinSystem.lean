import Verif.Lemmas.WinRuns

/-!
# Locks on windows: exclusion (C76)

The properties of `Props/System` for the windows backend.  Held locks are recomputed from the events by `Spec/Trace`.
The byte `2 ^ 64 - 1` and those after it do not exist in any file.
-/

set_option autoImplicit false

namespace Verif.Props

open Verif Spec Win

/-- The bytes of the range that a file can have are those of the kernel lock. -/
theorem At.covers {s : Int} {e : Option Int} {o l : Nat} (h : At s e o l) {i : Int} (hc : Covers s e i)
    (hi : i < 2 ^ 64 - 1) : o ≤ i.toNat ∧ i.toNat < o + l := by
  have h1 := h.off; have h2 := h.nonneg; have h3 := hc.1
  cases e with
  | none => have := h.inf rfl; omega
  | some t => obtain ⟨a, b, c⟩ := h.fin t rfl; have := hc.2 t rfl; omega

/-- C76, the reason: while a stream holds a lock, whatever other streams, threads and processes lock, unlock, open or
close, the kernel has a lock of the file object of the stream with this mode and this range. -/
theorem C76_backed {ls : List Label} {w : World} {tr : List Event} (h : Reach Sane ls w tr) {a : Held}
    (ha : a ∈ heldOf tr) : ∃ p st, w.procs a.pid = some p ∧ p.alive = true ∧ p.streams a.sid = some st ∧
      st.isOpen = true ∧ p.target st.handle = some ⟨st.obj, a.uid⟩ ∧ ∃ k ∈ w.kern, k.pid = a.pid ∧ k.obj = st.obj ∧
        k.file = a.uid ∧ k.shared = a.shared ∧
        ∀ i, i < 2 ^ 64 - 1 → Covers a.start a.stop i → (k.off : Int) ≤ i ∧ i < k.off + k.len := by
  obtain ⟨p, h1, h2, st, h3, h4, h5, k, h6, h7, h8, h9, h10, h11⟩ := h.inv.held a ha
  refine ⟨p, st, h1, h2, h3, h4, ?_, k, h6, h7, h8, h9, h10, ?_⟩
  · rw [← h5]; exact (h.inv.procs _ _ h1 h2).streams _ _ h3 h4
  · intro i hi hc
    have := At.covers h11 hc hi
    have h0 := h11.nonneg; have := hc.1
    omega

/-- C76: a lock of one stream keeps the exclusive locks of all other streams of all processes away from its
bytes.  Unlike on unix (`C02_refuted`) this holds for overlapping shared locks of one process, too. -/
theorem C76_excludes_partial {ls : List Label} {w : World} {tr : List Event} (h : Reach Sane ls w tr) {a b : Held}
    (ha : a ∈ heldOf tr) (hb : b ∈ heldOf tr) (hx : b.shared = false) (hu : a.uid = b.uid)
    (hs : (a.pid, a.sid) ≠ (b.pid, b.sid)) (i : Int) (hi : i < 2 ^ 64 - 1) :
    ¬ (Covers a.start a.stop i ∧ Covers b.start b.stop i) := by
  rintro ⟨ca, cb⟩
  obtain ⟨p, h1, h2, st, h3, h4, h5, k, h6, h7, h8, h9, h10, h11⟩ := h.inv.held a ha
  obtain ⟨p', g1, g2, st', g3, g4, g5, k', g6, g7, g8, g9, g10, g11⟩ := h.inv.held b hb
  have oa := At.covers h11 ca hi
  have ob := At.covers g11 cb hi
  have nowner : ¬ (k.pid = k'.pid ∧ k.obj = k'.obj) := by
    rintro ⟨q1, q2⟩
    rw [h7, g7] at q1
    rw [q1, g1] at h1
    cases h1
    have hi := h.inv.procs _ _ g1 g2
    have := hi.single _ (mem_of_target (hi.streams _ _ h3 h4)) _ (mem_of_target (hi.streams _ _ g3 g4))
      (h8.symm.trans (q2.trans g8))
    have := hi.distinct _ _ _ _ h3 g3 h4 g4 this
    exact hs (by rw [q1, this])
  have ne : k ≠ k' := fun e => nowner (by rw [e]; exact ⟨rfl, rfl⟩)
  have hf : k.file = k'.file := by rw [h9, g9, hu]
  rcases pairwise_two h.inv.kern h6 g6 ne with c | c
  · rcases c hf _ oa ob with c | c
    · exact nowner c
    · rw [g10, hx] at c; cases c.2
  · rcases c hf.symm _ ob oa with c | c
    · exact nowner ⟨c.1.symm, c.2.symm⟩
    · rw [g10, hx] at c; cases c.1

/-- C76, exclusive locks: those of different streams have no byte in common. -/
theorem C76_exclusive_partial {ls : List Label} {w : World} {tr : List Event} (h : Reach Sane ls w tr) {a b : Held}
    (ha : a ∈ heldOf tr) (hb : b ∈ heldOf tr) (_hxa : a.shared = false) (hxb : b.shared = false) (hu : a.uid = b.uid)
    (hs : (a.pid, a.sid) ≠ (b.pid, b.sid)) (i : Int) (hi : i < 2 ^ 64 - 1) :
    ¬ (Covers a.start a.stop i ∧ Covers b.start b.stop i) :=
  C76_excludes_partial h ha hb hxb hu hs i hi

/-- A reachable state with the evaluated held locks. -/
theorem sane_held {ls : List Label} {H : List Held} (h : (sane ls).map (fun x => heldOf x.2) = some H) :
    ∃ w tr, Reach Sane ls w tr ∧ heldOf tr = H := by
  cases hr : sane ls with
  | none => rw [hr] at h; cases h
  | some x =>
    rw [hr] at h
    simp only [Option.map_some, Option.some.injEq] at h
    exact ⟨x.1, x.2, reach_sane hr, h⟩

/-- Two processes; process 1 has two streams with shared locks on `[0,10)`, one of which it releases; process 2, which
inherited the handle of the other one, has an exclusive lock until the end of times from byte 10 on. -/
def winRun : List Label :=
  [.newProc 1, .newProc 2, .act 1 (.openS 10 100 (0, 7)), .act 1 (.openS 11 104 (0, 7)), .dup 1 100 2 100,
   .act 2 (.wrapS 20 100 true)]
  ++ doLock 1 0 10 (some 10) 0 true ++ doLock 1 0 11 (some 10) 0 true ++ doUnlock 1 11 (some 10) 0
  ++ doLock 2 0 20 none 10 false

example : ∃ w tr a b, Reach Sane winRun w tr ∧ a ∈ heldOf tr ∧ b ∈ heldOf tr ∧ b.shared = false ∧ a.uid = b.uid ∧
    (a.pid, a.sid) ≠ (b.pid, b.sid) := by
  obtain ⟨w, tr, h1, h2⟩ := sane_held (ls := winRun)
    (H := [⟨1, 10, (0, 7), true, 0, some 10⟩, ⟨2, 20, (0, 7), false, 10, none⟩]) (by decide +kernel)
  exact ⟨w, tr, ⟨1, 10, (0, 7), true, 0, some 10⟩, ⟨2, 20, (0, 7), false, 10, none⟩, h1,
    by rw [h2]; decide, by rw [h2]; decide, rfl, rfl, by decide⟩

/-! ## What the assumptions are for -/

/-- Stream 11 uses a duplicate of the handle of stream 10 (`os.dup`). -/
def dupRun : List Label :=
  [.newProc 1, .act 1 (.openS 10 100 (0, 7)), .dup 1 100 1 104, .act 1 (.wrapS 11 104 true)]
  ++ doLock 1 0 10 none 0 false ++ doLock 1 1 11 none 0 true

/-- C76 is false with duplicated handles: the system grants a shared lock over an exclusive one through the
same file object, and the registry compares handles. -/
theorem C76_dup_shared_refuted : ¬ ∀ (ls : List Label) (w : World) (tr : List Event),
    Reach (fun w l => WellWrapped w l ∧ Fits l) ls w tr → ∀ a ∈ heldOf tr, ∀ b ∈ heldOf tr, b.shared = false →
      a.uid = b.uid → (a.pid, a.sid) ≠ (b.pid, b.sid) → ∀ i : Int, i < 2 ^ 64 - 1 →
      ¬ (Covers a.start a.stop i ∧ Covers b.start b.stop i) := by
  intro hall
  have hh : (wrapped dupRun).map (fun x => heldOf x.2) =
      some [⟨1, 10, (0, 7), false, 0, none⟩, ⟨1, 11, (0, 7), true, 0, none⟩] := by decide +kernel
  cases hr : wrapped dupRun with
  | none => rw [hr] at hh; cases hh
  | some x =>
    rw [hr] at hh
    simp only [Option.map_some, Option.some.injEq] at hh
    exact hall _ x.1 x.2 (reach_wrapped hr) ⟨1, 11, (0, 7), true, 0, none⟩ (by rw [hh]; decide)
      ⟨1, 10, (0, 7), false, 0, none⟩ (by rw [hh]; decide) rfl rfl (by decide) 0 (by decide)
      ⟨by simp [Covers], by simp [Covers]⟩

/-- Stream 11 releases, through a duplicate of the handle, the lock of stream 10; the registry has no entry for its
handle.  Then stream 12 gets the lock. -/
def dupUnlockRun : List Label :=
  [.newProc 1, .act 1 (.openS 10 100 (0, 7)), .dup 1 100 1 104, .act 1 (.wrapS 11 104 true),
   .act 1 (.openS 12 108 (0, 7))]
  ++ doLock 1 0 10 none 0 false ++ doUnlock 1 11 none 0 ++ doLock 1 1 12 none 0 false

/-- C76 is false with duplicated handles: `unlock_file` on one stream releases the lock of the other one. -/
theorem C76_dup_unlock_refuted : ¬ ∀ (ls : List Label) (w : World) (tr : List Event),
    Reach (fun w l => WellWrapped w l ∧ Fits l) ls w tr → ∀ a ∈ heldOf tr, ∀ b ∈ heldOf tr, a.shared = false →
      b.shared = false → a.uid = b.uid → (a.pid, a.sid) ≠ (b.pid, b.sid) → ∀ i : Int, i < 2 ^ 64 - 1 →
      ¬ (Covers a.start a.stop i ∧ Covers b.start b.stop i) := by
  intro hall
  have hh : (wrapped dupUnlockRun).map (fun x => heldOf x.2) =
      some [⟨1, 10, (0, 7), false, 0, none⟩, ⟨1, 12, (0, 7), false, 0, none⟩] := by decide +kernel
  cases hr : wrapped dupUnlockRun with
  | none => rw [hr] at hh; cases hh
  | some x =>
    rw [hr] at hh
    simp only [Option.map_some, Option.some.injEq] at hh
    exact hall _ x.1 x.2 (reach_wrapped hr) ⟨1, 10, (0, 7), false, 0, none⟩ (by rw [hh]; decide)
      ⟨1, 12, (0, 7), false, 0, none⟩ (by rw [hh]; decide) rfl rfl rfl (by decide) 0 (by decide)
      ⟨by simp [Covers], by simp [Covers]⟩

/-- Two streams ask for `2 ^ 64 + 3` bytes from byte 5 and for byte 9. -/
def longRun : List Label :=
  [.newProc 1, .act 1 (.openS 10 100 (0, 7)), .act 1 (.openS 11 104 (0, 7))]
  ++ doLock 1 0 10 (some (2 ^ 64 + 3)) 5 false ++ doLock 1 1 11 (some 1) 9 false

/-- C76 is false for lengths from `2 ^ 64` on: the system gets the length modulo `2 ^ 64`. -/
theorem C76_length_refuted : ¬ ∀ (ls : List Label) (w : World) (tr : List Event),
    Reach (fun w l => WellWrapped w l ∧ SingleHandles w l) ls w tr → ∀ a ∈ heldOf tr, ∀ b ∈ heldOf tr,
      a.shared = false → b.shared = false → a.uid = b.uid → (a.pid, a.sid) ≠ (b.pid, b.sid) → ∀ i : Int,
      i < 2 ^ 64 - 1 → ¬ (Covers a.start a.stop i ∧ Covers b.start b.stop i) := by
  intro hall
  have hh : (handled longRun).map (fun x => heldOf x.2) =
      some [⟨1, 10, (0, 7), false, 5, some (2 ^ 64 + 8)⟩, ⟨1, 11, (0, 7), false, 9, some 10⟩] := by decide +kernel
  cases hr : handled longRun with
  | none => rw [hr] at hh; cases hh
  | some x =>
    rw [hr] at hh
    simp only [Option.map_some, Option.some.injEq] at hh
    exact hall _ x.1 x.2 (reach_handled hr) ⟨1, 10, (0, 7), false, 5, some (2 ^ 64 + 8)⟩
      (by rw [hh]; exact List.mem_cons_self)
      ⟨1, 11, (0, 7), false, 9, some 10⟩ (by rw [hh]; exact List.mem_cons_of_mem _ List.mem_cons_self) rfl rfl rfl
      (by decide) 9 (by decide) ⟨by simp [Covers], by simp [Covers]⟩

end Verif.Props
