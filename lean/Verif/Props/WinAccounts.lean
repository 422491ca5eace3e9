import Verif.Lemmas.WinHandles
import Verif.Lemmas.WinLive
import Verif.Props.WinSystem

/-!
# Locks on windows: nothing is left behind (C77, C78, C79, C80)

In executions where no interrupt arrives between the grant of a lock and the return of `lock_file`, and where
`UnlockFileEx` and `CloseHandle` do not fail for reasons of their own, the kernel has exactly the locks that are held.
-/

set_option autoImplicit false

namespace Verif.Props

open Verif Spec Win

/-- The assumptions on the executions. -/
abbrev Tidy (w : World) (l : Label) : Prop := Sane w l ∧ Undisturbed l

theorem At.covered {s : Int} {e : Option Int} {o l : Nat} (h : At s e o l) {i : Int} (h1 : (o : Int) ≤ i)
    (h2 : i < o + l) : Covers s e i := by
  have h3 := h.off; have h4 := h.nonneg
  refine ⟨by omega, fun t ht => ?_⟩
  obtain ⟨a, b, c⟩ := h.fin t ht
  omega

/-- C77: outside of the critical sections of `unlock_file` and `close`, every kernel lock of a process is that of a lock
held by one of its open streams, with its mode, and covers none but its bytes. -/
theorem C77_kernel_locks_held_partial {ls : List Label} {w : World} {tr : List Event} (h : Reach Tidy ls w tr)
    {y : KLock} (hy : y ∈ w.kern) : ∃ p, w.procs y.pid = some p ∧ p.alive = true ∧ (p.crit = [] →
      ∃ x ∈ heldOf tr, x.pid = y.pid ∧ x.uid = y.file ∧ x.shared = y.shared ∧
        (∃ st, p.streams x.sid = some st ∧ st.isOpen = true ∧ st.obj = y.obj) ∧
        ∀ i : Int, (y.off : Int) ≤ i → i < y.off + y.len → Covers x.start x.stop i) := by
  have ha := h.accounts
  obtain ⟨p, h1, h2⟩ := ha.alive y hy
  refine ⟨p, h1, h2, fun hc => ?_⟩
  rcases (ha.procs _ _ h1 h2).kernWhy y hy rfl with ⟨x, g1, g2, g3, g4, g5, st, g6, g7, g8⟩ | ⟨a, s, len, hd, g1, _⟩
  · exact ⟨x, g1, g2, g4.symm, g3.symm, ⟨st, g6, g7, g8⟩, fun i i1 i2 => At.covered g5 i1 i2⟩
  · rw [hc] at g1; cases g1

/-- C77, the other direction: every lock that is held is in the kernel, exactly once. -/
theorem C77_held_in_kernel_partial {ls : List Label} {w : World} {tr : List Event} (h : Reach Tidy ls w tr)
    {x : Held} (hx : x ∈ heldOf tr) : ∃ p st, w.procs x.pid = some p ∧ p.streams x.sid = some st ∧ st.isOpen = true ∧
      ∃ y ∈ w.kern, y.pid = x.pid ∧ y.obj = st.obj ∧ y.file = x.uid ∧ y.shared = x.shared ∧ x.start = y.off ∧
        (x.stop = none → y.len = 2 ^ 64 - 1) ∧ (∀ t, x.stop = some t → t = y.off + y.len) ∧
        ∀ z ∈ w.kern, z.pid = x.pid → z.obj = st.obj → z.off = y.off → z.len = y.len → z = y := by
  have ha := h.accounts
  obtain ⟨p, h1, h2, st, h3, h4, h5, y, h6, h7, h8, h9, h10, h11⟩ := ha.inv.held x hx
  refine ⟨p, st, h1, h3, h4, y, h6, h7, h8, h9, h10, ?_, h11.inf, ?_, ?_⟩
  · have := h11.off; have := h11.nonneg; omega
  · intro t ht
    have := h11.off; have := h11.nonneg
    obtain ⟨a, b, c⟩ := h11.fin t ht
    omega
  · intro z hz z1 z2 z3 z4
    apply Classical.byContradiction
    intro hne
    rcases pairwise_two ha.unique hz h6 hne with q | q
    · exact q ⟨z1.trans h7.symm, z2.trans h8.symm, z3, z4⟩
    · exact q ⟨h7.trans z1.symm, h8.trans z2.symm, z3.symm, z4.symm⟩

/-- C77, what it is good for: if no other stream holds a conflicting lock on a byte of the range, and nobody is in the
middle of `unlock_file` or `close`, the system grants the lock. -/
theorem C77_free_is_granted_partial {ls : List Label} {w : World} {tr : List Event} (h : Reach Tidy ls w tr)
    {pid tid : Nat} {p : Proc} {q : Req} (hp : w.procs pid = some p) (hal : p.alive = true)
    (ht : p.threads tid = .atKern q) (h0 : 0 ≤ q.start)
    (hidle : ∀ pid' p', w.procs pid' = some p' → p'.alive = true → p'.crit = [])
    (hfree : ∀ x ∈ heldOf tr, x.uid = q.file → (x.pid, x.sid) ≠ (pid, q.sid) → ¬ (x.shared = true ∧ q.shared = true) →
      ¬ Meet x.start x.stop q.start q.stop) :
    ∃ w', Win.step w (.act pid (.kern tid)) = some (w', [.locked pid q.sid q.file q.shared q.start q.stop]) := by
  have ha := h.accounts
  have hi := ha.inv.procs pid p hp hal
  have hr := ha.procs pid p hp hal
  obtain ⟨hfit, st, s1, s2, s3, s4, s5⟩ := hi.threads tid q (by rw [ht]; rfl)
  have htgt := hi.streams _ _ s1 s2
  rw [s4] at htgt
  obtain ⟨l, o, e1, e2⟩ := osRange_fits hfit h0
  have hq : (p.threads tid).regd = some q := by rw [ht]; rfl
  obtain ⟨f1, f2⟩ := hr.flight tid q hq
  have nc : kConflict w.kern pid st.obj st.file q.shared o l = false := by
    rw [kConflict, List.any_eq_false]
    intro y hy hz
    simp only [KLock.meets, Bool.and_eq_true, decide_eq_true_eq, Bool.not_eq_true', Bool.and_eq_false_iff,
      Bool.or_eq_false_iff] at hz
    obtain ⟨⟨z1, z2⟩, z3⟩ := hz
    obtain ⟨p', g1, g2, g3⟩ := C77_kernel_locks_held_partial h hy
    obtain ⟨x, x1, x2, x3, x4, ⟨st', x5, x6, x7⟩, x8⟩ := g3 (hidle _ _ g1 g2)
    have hmeet : Meet x.start x.stop q.start q.stop := by
      refine ⟨(max y.off o : Nat), x8 _ (by omega) (by omega), At.covered e2 (by omega) (by omega)⟩
    by_cases own : (x.pid, x.sid) = (pid, q.sid)
    · simp only [Prod.mk.injEq] at own
      obtain ⟨st'', k1, k2, k3⟩ := hr.heldRec x x1 own.1
      rw [own.2, s1] at k1; cases k1
      rcases k3 with k3 | ⟨_, _, _, k4, _⟩
      · rw [s4] at k3
        have hne : (⟨q.handle, x.shared, x.start, x.stop⟩ : LockRec) ≠ q.record := by
          intro e
          have := f2 x x1 own.1 own.2
          apply this
          have e := LockRec.mk.inj e
          exact ⟨e.2.2.1, e.2.2.2⟩
        rcases pairwise_two (hr.apart q.handle) k3 f1 hne with c | c
        · exact c hmeet
        · exact c (meet_comm.1 hmeet)
      · rw [hidle _ _ hp hal] at k4; cases k4
    · refine hfree x x1 (by rw [x3, z1, s5]) own ?_ hmeet
      rintro ⟨c1, c2⟩
      rw [x4] at c1
      rcases z3 with z3 | z3
      · rw [c2] at z3; cases z3
      · rw [z3.1] at c1; cases c1
  have hst : stepProc pid w.next p w.kern (.kern tid) = some ((p.setPC tid .idle).release q.sid,
      kGrant pid w.kern ⟨st.obj, st.file⟩ q.shared o l, [.locked pid q.sid q.file q.shared q.start q.stop]) := by
    simp only [stepProc, ht]
    rw [show osRange q.len q.start = some (l, o) from e1]
    simp only [htgt, nc]
    rfl
  simp only [Win.step, hp, hal, hst, if_true]
  exact ⟨_, rfl⟩

/-! ## Concrete runs -/

theorem reach_also {A : World → Label → Prop} {B : Label → Prop} {ls : List Label} {w : World} {tr : List Event}
    (h : Reach A ls w tr) (hb : ∀ l ∈ ls, B l) : Reach (fun w l => A w l ∧ B l) ls w tr := by
  induction h with
  | init => exact .init
  | step hr ha hs ih =>
    exact .step (ih (fun l hl => hb l (List.mem_append_left _ hl)))
      ⟨ha, hb _ (List.mem_append_right _ (List.mem_singleton.2 rfl))⟩ hs

instance (l : Label) : Decidable (Undisturbed l) := by
  unfold Undisturbed; split <;> infer_instance

/-- A reachable state with an evaluated view. -/
theorem sane_view {α : Type} {ls : List Label} {f : World × List Event → α} {v : α} (h : (sane ls).map f = some v) :
    ∃ w tr, Reach Sane ls w tr ∧ f (w, tr) = v := by
  cases hr : sane ls with
  | none => rw [hr] at h; cases h
  | some x =>
    rw [hr] at h
    simp only [Option.map_some, Option.some.injEq] at h
    exact ⟨x.1, x.2, reach_sane hr, h⟩

set_option synthInstance.maxSize 1000

/-- The kernel locks, what is held, and the position of thread 0 of process 1. -/
abbrev winView (x : World × List Event) : KTable × List Held × Option PC × Option (List Micro) :=
  (x.1.kern, heldOf x.2, (x.1.procs 1).map (fun p => p.threads 0), (x.1.procs 1).map (fun p => p.crit))

/-- Process 1 has a shared lock, and asks through another stream for the exclusive lock on the bytes after it, which
process 2 has just released by closing its stream. -/
def tidyRun : List Label :=
  [.newProc 1, .newProc 2, .act 1 (.openS 10 100 (0, 7)), .act 1 (.openS 11 104 (0, 7)), .act 2 (.openS 20 100 (0, 7))]
  ++ doLock 1 0 10 (some 10) 0 true ++ doLock 2 0 20 none 10 false ++ [.act 2 (.close 20), .act 2 .micro, .act 2 .micro]
  ++ [.act 1 (.lockCall 0 11 none 10 false false), .act 1 (.reg 0)]

example : ∃ w tr, Reach Tidy tidyRun w tr ∧ (∃ y, y ∈ w.kern) ∧ (∃ x, x ∈ heldOf tr) ∧
    (w.procs 1).map (fun p => p.threads 0) = some (.atKern ⟨11, 104, (0, 7), none, 10, false, false⟩) ∧
    (w.procs 1).map (fun p => p.crit) = some [] ∧ (w.procs 2).map (fun p => p.crit) = some [] := by
  obtain ⟨w, tr, h1, h2⟩ := sane_view (ls := tidyRun)
    (f := fun x => (winView x, (x.1.procs 2).map (fun p => p.crit)))
    (v := (([⟨1, 0, (0, 7), true, 0, 10⟩], [⟨1, 10, (0, 7), true, 0, some 10⟩],
      some (.atKern ⟨11, 104, (0, 7), none, 10, false, false⟩), some []), some [])) (by decide +kernel)
  simp only [winView, Prod.mk.injEq] at h2
  obtain ⟨⟨k1, k2, k3, k4⟩, k5⟩ := h2
  exact ⟨w, tr, reach_also h1 (by decide), ⟨_, by rw [k1]; exact List.mem_cons_self⟩,
    ⟨_, by rw [k2]; exact List.mem_cons_self⟩, k3, k4, k5⟩

/-- An interrupt after the grant: `lock_file` raises `KeyboardInterrupt` and takes back the registration, not the kernel
lock (`rsfileio_abstract.py:631-636`).  Then another stream asks for the lock. -/
def grantIntrRun : List Label :=
  [.newProc 1, .act 1 (.openS 10 100 (0, 7)), .act 1 (.openS 11 104 (0, 7)),
   .act 1 (.lockCall 0 10 none 0 false true), .act 1 (.reg 0), .act 1 (.kernIntr 0), .act 1 (.unwind 0),
   .act 1 (.lockCall 0 11 none 0 false true), .act 1 (.reg 0)]

/-- C77 is false with interrupts: a kernel lock remains that no stream holds. -/
theorem C77_interrupt_refuted : ¬ ∀ (ls : List Label) (w : World) (tr : List Event), Reach Sane ls w tr →
    ∀ y ∈ w.kern, ∃ p, w.procs y.pid = some p ∧ (p.crit = [] →
      ∃ x ∈ heldOf tr, x.pid = y.pid ∧ x.uid = y.file ∧ x.shared = y.shared) := by
  intro hall
  obtain ⟨w, tr, h1, h2⟩ := sane_view (ls := grantIntrRun) (f := winView)
    (v := ([⟨1, 0, (0, 7), false, 0, 2 ^ 64 - 1⟩], [],
      some (.atKern ⟨11, 104, (0, 7), none, 0, false, true⟩), some [])) (by decide +kernel)
  simp only [winView, Prod.mk.injEq] at h2
  obtain ⟨k1, k2, k3, k4⟩ := h2
  obtain ⟨p, g1, g2⟩ := hall _ w tr h1 _ (by rw [k1]; exact List.mem_cons_self)
  simp only at g1
  rw [g1] at k4
  simp only [Option.map_some, Option.some.injEq] at k4
  obtain ⟨x, hx, _⟩ := g2 k4
  rw [k2] at hx; cases hx

/-- C77 is false with interrupts: a blocking `lock_file` waits, though nobody holds a lock. -/
theorem C77_interrupt_blocks_refuted : ¬ ∀ (ls : List Label) (w : World) (tr : List Event), Reach Sane ls w tr →
    ∀ (p : Proc) (q : Req), w.procs 1 = some p → p.threads 0 = .atKern q → heldOf tr = [] → p.crit = [] →
      Win.step w (.act 1 (.kern 0)) ≠ none := by
  intro hall
  have hv : (sane grantIntrRun).map (fun x => (winView x, (Win.step x.1 (.act 1 (.kern 0))).isNone)) =
      some (([⟨1, 0, (0, 7), false, 0, 2 ^ 64 - 1⟩], [],
      some (.atKern ⟨11, 104, (0, 7), none, 0, false, true⟩), some []), true) := by decide +kernel
  obtain ⟨w, tr, h1, h2⟩ := sane_view hv
  simp only [winView, Prod.mk.injEq] at h2
  obtain ⟨⟨k1, k2, k3, k4⟩, k5⟩ := h2
  cases hp : w.procs 1 with
  | none => rw [hp] at k3; cases k3
  | some p =>
    rw [hp] at k3 k4
    simp only [Option.map_some, Option.some.injEq] at k3 k4
    exact hall _ w tr h1 p _ hp k3 k2 k4 (Option.isNone_iff_eq_none.1 k5)

/-- C78: in every history, `unlock_file` returns only if the stream holds the lock, and raises only if it does not. -/
def UnlocksProperly (tr : List Event) : Prop :=
  ∀ before e rest, tr = before ++ e :: rest →
    (∀ pid sid u s t, e = .unlocked pid sid u s t →
      ∃ x ∈ heldOf before, x.pid = pid ∧ x.sid = sid ∧ x.uid = u ∧ x.start = s ∧ x.stop = t) ∧
    (∀ pid sid u s t, e = .unlockFailed pid sid u s t →
      ∀ x ∈ heldOf before, ¬ (x.pid = pid ∧ x.sid = sid ∧ x.start = s ∧ x.stop = t))

/-- Only `unlock_file` and what remains to be done make `unlock_file` return or raise. -/
theorem unlock_label {pid n : Nat} {p p' : Proc} {k k' : KTable} {l : PLabel} {e : List Event}
    (hs : stepProc pid n p k l = some (p', k', e)) {ev : Event} (hm : ev ∈ e)
    (hev : (∃ a b u s t, ev = .unlocked a b u s t) ∨ ∃ a b u s t, ev = .unlockFailed a b u s t) :
    (∃ sid len s, l = .unlock sid len s) ∨ l = .micro ∨ l = .microErr := by
  have nope : ∀ {L : List Event}, ev ∈ L → (∀ v ∈ L, (∀ a b u s t, v ≠ .unlocked a b u s t) ∧
      (∀ a b u s t, v ≠ .unlockFailed a b u s t)) → False := by
    intro L h1 h2
    rcases hev with ⟨a, b, u, s, t, rfl⟩ | ⟨a, b, u, s, t, rfl⟩
    · exact (h2 _ h1).1 a b u s t rfl
    · exact (h2 _ h1).2 a b u s t rfl
  cases l with
  | unlock sid len s => exact Or.inl ⟨sid, len, s, rfl⟩
  | micro => exact Or.inr (Or.inl rfl)
  | microErr => exact Or.inr (Or.inr rfl)
  | reg tid =>
    exfalso
    simp only [stepProc] at hs
    split at hs
    · simp only [Option.some.injEq] at hs
      unfold attemptReg failLock at hs
      split at hs <;> cases hs <;> exact nope hm (by simp)
    · cases hs
  | _ =>
    exfalso
    simp only [stepProc, failLock, closeStream] at hs
    repeat' split at hs
    all_goals first
      | (cases hs; done)
      | (cases hs; exact nope hm (by simp))

theorem unlock_step {pid n : Nat} {p p' : Proc} {k k' : KTable} {l : PLabel} {e : List Event} {H : List Held}
    (h : RInv pid p k H) (hi : PInv n p) (hb : ∀ x ∈ H, x.pid = pid → BackedP pid p k x)
    (hs : stepProc pid n p k l = some (p', k', e)) (hne : l ≠ .microErr) {ev : Event} (hm : ev ∈ e)
    (hev : (∃ a b u s t, ev = .unlocked a b u s t) ∨ ∃ a b u s t, ev = .unlockFailed a b u s t) :
    e = [ev] ∧ (∀ a sid u s t, ev = .unlocked a sid u s t →
      ∃ x ∈ H, x.pid = a ∧ x.sid = sid ∧ x.uid = u ∧ x.start = s ∧ x.stop = t) ∧
    (∀ a sid u s t, ev = .unlockFailed a sid u s t →
      ∀ x ∈ H, ¬ (x.pid = a ∧ x.sid = sid ∧ x.start = s ∧ x.stop = t)) := by
  rcases unlock_label hs hm hev with ⟨sid, len, s, rfl⟩ | rfl | rfl
  · simp only [stepProc] at hs
    split at hs
    · rename_i st hst hc
      split at hs
      · rename_i ho
        simp only [Option.some.injEq] at hs
        unfold unlockStream at hs
        dsimp only at hs
        split at hs
        · rename_i x r hr
          cases hs
          rw [List.mem_singleton] at hm
          subst hm
          refine ⟨rfl, by nofun, ?_⟩
          intro a sid' u s' t he x hx hz
          cases he
          obtain ⟨z1, z2, z3, z4⟩ := hz
          obtain ⟨st', g1, g2, g3⟩ := h.heldRec x hx z1
          rw [z2, hst] at g1; cases g1
          rcases g3 with g3 | ⟨_, _, _, g4, _⟩
          · have := (unregister_error hr).2.2 _ g3
            rw [z3, z4] at this
            simp [LockRec.matchesRange] at this
          · rw [hc] at g4; cases g4
        · cases hs; cases hm
      · cases hs
    · cases hs
  · simp only [stepProc] at hs
    split at hs
    · rename_i m rest hc
      simp only [Option.some.injEq] at hs
      have hin : m ∈ p.crit := by rw [hc]; exact List.mem_cons_self
      cases m with
      | unlock sid a f s len =>
        obtain ⟨hlive, ⟨st, t1, t2, t3, t4⟩, len', hl, hfit⟩ := hi.crit _ hin
        have htgt := hi.streams _ _ t1 t2
        rw [t3] at htgt
        subst hl
        simp only [doMicro] at hs
        split at hs
        · rename_i hr
          cases hs
          rw [List.mem_singleton] at hm
          subst hm
          refine ⟨rfl, by nofun, ?_⟩
          intro a sid' u s' t he x hx hz
          cases he
          obtain ⟨z1, z2, z3, z4⟩ := hz
          obtain ⟨_, _, _, _, y, _, _, _, _, _, hat⟩ := hb x hx z1
          have h0 := hat.nonneg
          rw [z3] at h0
          obtain ⟨l, o, g, _⟩ := osRange_fits hfit h0
          rw [g] at hr; cases hr
        · rename_i l o hr
          have hat := osRange_at hfit hr
          rw [htgt] at hs
          simp only at hs
          split at hs
          · rename_i hk
            cases hs
            rw [List.mem_singleton] at hm
            subst hm
            refine ⟨rfl, by nofun, ?_⟩
            intro a sid' u s' t he x hx hz
            cases he
            obtain ⟨z1, z2, z3, z4⟩ := hz
            obtain ⟨st', g1, _, _, y, g2, g3, g4, _, _, g5⟩ := hb x hx z1
            rw [z2, t1] at g1; cases g1
            rw [z3, z4] at g5
            obtain ⟨q1, q2⟩ := g5.uniq hat
            exact kUnlock_none hk g2 g3 g4 q1 q2
          · rename_i k₁ hk
            cases hs
            rw [List.mem_singleton] at hm
            subst hm
            refine ⟨rfl, ?_, by nofun⟩
            intro a' sid' u s' t he
            cases he
            -- the lock that was released
            have : ∃ y ∈ k, KLock.isAt pid st.obj o l y = true := by
              unfold kUnlock at hk
              split at hk
              · rename_i hex
                obtain ⟨y, hy, hz⟩ := List.any_eq_true.1 hex
                simp only [Bool.and_eq_true] at hz
                exact ⟨y, hy, hz.1⟩
              · split at hk
                · rename_i hex
                  exact List.any_eq_true.1 hex
                · cases hk
            obtain ⟨y, hy, hz⟩ := this
            simp only [KLock.isAt, decide_eq_true_eq] at hz
            obtain ⟨z1, z2, z3, z4⟩ := hz
            rcases h.kernWhy y hy z1 with ⟨x, g1, g2, g3, g4, g5, st', g6, g7, g8⟩ | ⟨b, s', len', hd, g1, _⟩
            · have hsid : x.sid = sid := by
                refine hi.distinct _ _ _ _ g6 t1 g7 t2 ?_
                exact hi.single _ (mem_of_target (hi.streams _ _ g6 g7)) _ (mem_of_target (hi.streams _ _ t1 t2))
                  (g8.trans z2)
              rw [z3, z4] at g5
              obtain ⟨w1, w2⟩ := g5.inj hat
              obtain ⟨st'', g9, _, g10, _⟩ := hb x g1 g2
              rw [hsid, t1] at g9; cases g9
              exact ⟨x, g1, g2, hsid, by rw [← g10, t4], w1, w2⟩
            · have hsh := hi.shape
              rw [hc] at hsh g1
              rw [show rest = [] from hsh, List.mem_singleton] at g1
              cases g1
      | cunlock a s len =>
        exfalso
        simp only [doMicro] at hs
        repeat' split at hs
        all_goals (cases hs; rcases hev with ⟨a, b, u, s, t, rfl⟩ | ⟨a, b, u, s, t, rfl⟩ <;> simp at hm)
      | cclose a =>
        exfalso
        simp only [doMicro] at hs
        repeat' split at hs
        all_goals (cases hs; rcases hev with ⟨a, b, u, s, t, rfl⟩ | ⟨a, b, u, s, t, rfl⟩ <;> simp at hm)
    · cases hs
  · exact absurd rfl hne

/-- C78: `unlock_file` returns exactly if the stream holds the lock. -/
theorem C78_unlock_partial {ls : List Label} {w : World} {tr : List Event} (h : Reach Tidy ls w tr) :
    UnlocksProperly tr := by
  induction h with
  | init => intro b e r hz; cases b <;> cases hz
  | @step ls w tr l w' es hr ha hs ih =>
    have key : ∀ ev ∈ es, ((∃ a b u s t, ev = .unlocked a b u s t) ∨ ∃ a b u s t, ev = .unlockFailed a b u s t) →
        es = [ev] ∧ (∀ a sid u s t, ev = .unlocked a sid u s t →
          ∃ x ∈ heldOf tr, x.pid = a ∧ x.sid = sid ∧ x.uid = u ∧ x.start = s ∧ x.stop = t) ∧
        (∀ a sid u s t, ev = .unlockFailed a sid u s t →
          ∀ x ∈ heldOf tr, ¬ (x.pid = a ∧ x.sid = sid ∧ x.start = s ∧ x.stop = t)) := by
      intro ev hm hev
      have hacc := hr.accounts
      cases l with
      | newProc pid =>
        simp only [Win.step] at hs
        split at hs <;> cases hs
        cases hm
      | dup a b c d =>
        simp only [Win.step] at hs
        repeat' split at hs
        all_goals first | (cases hs; done) | (cases hs; cases hm)
      | exit pid =>
        simp only [Win.step] at hs
        repeat' split at hs
        all_goals first
          | (cases hs; done)
          | (cases hs
             rcases hev with ⟨a, b, u, s, t, rfl⟩ | ⟨a, b, u, s, t, rfl⟩ <;> simp at hm)
      | act pid l =>
        simp only [Win.step] at hs
        split at hs
        · cases hs
        · rename_i p hp
          split at hs
          · rename_i hal
            split at hs
            · rename_i p' k' e' hst
              cases hs
              have hb : ∀ x ∈ heldOf tr, x.pid = pid → BackedP pid p w.kern x := by
                intro y hy hyp
                obtain ⟨p₂, g1, g2, g3⟩ := hacc.inv.held y hy
                rw [hyp, hp] at g1
                cases g1
                rwa [hyp] at g3
              have hnd := ha.2
              exact unlock_step (hacc.procs pid p hp hal) (hacc.inv.procs pid p hp hal) hb hst
                (by rintro rfl; exact hnd) hm hev
            · cases hs
          · cases hs
    intro before ev rest hz
    have pos : (∃ c, before ++ c = tr ∧ ∃ c', c = ev :: c') ∨ ∃ c, before = tr ++ c ∧ es = c ++ ev :: rest := by
      rw [List.append_eq_append_iff] at hz
      rcases hz with ⟨c, z1, z2⟩ | ⟨c, z1, z2⟩
      · exact Or.inr ⟨c, z1, z2⟩
      · cases c with
        | nil => exact Or.inr ⟨[], by rw [z1]; simp, by simpa using z2.symm⟩
        | cons c0 cs =>
          simp only [List.cons_append, List.cons.injEq] at z2
          exact Or.inl ⟨c0 :: cs, z1.symm, cs, by rw [z2.1]⟩
    rcases pos with ⟨c, z1, c', rfl⟩ | ⟨c, z1, z2⟩
    · exact ih before ev c' z1.symm
    · have hm : ev ∈ es := by rw [z2]; exact List.mem_append_right _ List.mem_cons_self
      have nil : es = [ev] → c = [] := by
        intro u1
        rw [u1] at z2
        cases c with
        | nil => rfl
        | cons c0 cs =>
          have := congrArg List.length z2
          simp at this
      refine ⟨fun pid sid u s t he => ?_, fun pid sid u s t he => ?_⟩
      · obtain ⟨k0, k1, _⟩ := key ev hm (Or.inl ⟨_, _, _, _, _, he⟩)
        rw [z1, nil k0, List.append_nil]
        exact k1 _ _ _ _ _ he
      · obtain ⟨k0, _, k2⟩ := key ev hm (Or.inr ⟨_, _, _, _, _, he⟩)
        rw [z1, nil k0, List.append_nil]
        exact k2 _ _ _ _ _ he

example : ∃ w tr, Reach Tidy (winRun ++ [.act 1 (.unlock 11 (some 10) 0)]) w tr ∧
    (.unlocked 1 11 (0, 7) 0 (some 10)) ∈ tr ∧ (.unlockFailed 1 11 (0, 7) 0 (some 10)) ∈ tr := by
  obtain ⟨w, tr, h1, h2⟩ := sane_view (ls := winRun ++ [.act 1 (.unlock 11 (some 10) 0)])
    (f := fun x => decide ((.unlocked 1 11 (0, 7) 0 (some 10)) ∈ x.2 ∧ (.unlockFailed 1 11 (0, 7) 0 (some 10)) ∈ x.2))
    (v := true) (by decide +kernel)
  exact ⟨w, tr, reach_also h1 (by decide), of_decide_eq_true h2⟩

/-- `UnlockFileEx` fails once. -/
def unlockErrRun : List Label :=
  [.newProc 1, .act 1 (.openS 10 100 (0, 7))] ++ doLock 1 0 10 none 0 false
  ++ [.act 1 (.unlock 10 none 0), .act 1 .microErr]

/-- C78 is false after an `UnlockFileEx` call that failed: the registration is gone, so that another `unlock_file` raises
`RuntimeError`, without any system call, although the lock is still held. -/
theorem C78_retry_refuted : ¬ ∀ (ls : List Label) (w : World) (tr : List Event), Reach Sane ls w tr →
    ∀ (pid sid : Nat) (len : Option Nat) (start : Int) (w' : World) (u : Uid) (s : Int) (t : Option Int),
      Win.step w (.act pid (.unlock sid len start)) = some (w', [.unlockFailed pid sid u s t]) →
      ∀ x ∈ heldOf tr, ¬ (x.pid = pid ∧ x.sid = sid ∧ x.start = s ∧ x.stop = t) := by
  intro hall
  have hv : (sane unlockErrRun).map (fun x => (heldOf x.2,
      (Win.step x.1 (.act 1 (.unlock 10 none 0))).map (fun y => y.2))) =
      some ([⟨1, 10, (0, 7), false, 0, none⟩], some [.unlockFailed 1 10 (0, 7) 0 none]) := by
    decide +kernel
  obtain ⟨w, tr, h1, h2⟩ := sane_view hv
  simp only [Prod.mk.injEq] at h2
  obtain ⟨k1, k2⟩ := h2
  cases hs : Win.step w (.act 1 (.unlock 10 none 0)) with
  | none => rw [hs] at k2; cases k2
  | some y =>
    rw [hs] at k2
    simp only [Option.map_some, Option.some.injEq] at k2
    refine hall _ w tr h1 1 10 none 0 y.1 (0, 7) 0 none (by rw [hs, ← k2]) ⟨1, 10, (0, 7), false, 0, none⟩ ?_
      ⟨rfl, rfl, rfl, rfl⟩
    rw [k1]; exact List.mem_cons_self

/-- Every process was started. -/
theorem _root_.Verif.Win.Reach.started {A : World → Label → Prop} {ls : List Label} {w : World} {tr : List Event}
    (h : Reach A ls w tr) {pid : Nat} {p : Proc} (hp : w.procs pid = some p) : .newProc pid ∈ ls := by
  induction h generalizing p with
  | init => cases hp
  | @step ls w tr l w' e hr ha hst ih =>
    rw [List.mem_append, List.mem_singleton]
    cases l with
    | newProc q =>
      simp only [Win.step] at hst
      split at hst <;> cases hst
      by_cases e : pid = q
      · exact Or.inr (by rw [e])
      · simp only [updMap_other _ _ e] at hp; exact Or.inl (ih hp)
    | act q l =>
      simp only [Win.step] at hst
      split at hst
      · cases hst
      · rename_i p₀ hp₀
        split at hst
        · split at hst
          · cases hst
            by_cases e : pid = q
            · exact Or.inl (ih (p := p₀) (by rw [e]; exact hp₀))
            · simp only [updMap_other _ _ e] at hp; exact Or.inl (ih hp)
          · cases hst
        · cases hst
    | dup src a dst b =>
      simp only [Win.step] at hst
      split at hst
      · rename_i p₀ p₁ hp₀ hp₁
        split at hst
        · split at hst <;> cases hst
          by_cases e : pid = dst
          · exact Or.inl (ih (p := p₁) (by rw [e]; exact hp₁))
          · simp only [updMap_other _ _ e] at hp; exact Or.inl (ih hp)
        · cases hst
      · cases hst
    | exit q =>
      simp only [Win.step] at hst
      split at hst
      · cases hst
      · rename_i p₀ hp₀
        split at hst <;> cases hst
        by_cases e : pid = q
        · exact Or.inl (ih (p := p₀) (by rw [e]; exact hp₀))
        · simp only [updMap_other _ _ e] at hp; exact Or.inl (ih hp)

/-- No action of a process uses a handle that is not open. -/
theorem no_badFd {pid n : Nat} {p p' : Proc} {k k' : KTable} {l : PLabel} {e : List Event} (hi : Live p)
    (hs : stepProc pid n p k l = some (p', k', e)) (a b : Nat) : .badFd a b ∉ e := by
  intro hm
  cases l with
  | kern tid =>
    simp only [stepProc] at hs
    split at hs
    · rename_i q hq
      obtain ⟨st, s1, s2, _, s3⟩ := hi.threads tid q (by rw [hq]; rfl)
      have htgt := hi.streams _ _ s1 s2
      rw [s3] at htgt
      repeat' split at hs
      all_goals first
        | (cases hs; done)
        | (cases hs; simp at hm; done)
        | (exact absurd (by assumption) htgt)
    · cases hs
  | micro =>
    simp only [stepProc] at hs
    split at hs
    · rename_i m rest hc
      obtain ⟨live, _⟩ := hi.crit m (by rw [hc]; exact List.mem_cons_self)
      simp only [Option.some.injEq] at hs
      cases m <;> simp only [doMicro, Micro.handle] at hs live
      all_goals repeat' split at hs
      all_goals first
        | (cases hs; simp at hm; done)
        | (exact absurd (by assumption) live)
    · cases hs
  | microErr =>
    simp only [stepProc] at hs
    split at hs
    · rename_i m _ _
      cases m <;> cases hs <;> simp at hm
    · cases hs
  | reg tid =>
    simp only [stepProc] at hs
    split at hs
    · simp only [Option.some.injEq] at hs
      unfold attemptReg failLock at hs
      split at hs <;> cases hs <;> simp at hm
    · cases hs
  | unlock s len start =>
    simp only [stepProc] at hs
    split at hs
    · split at hs
      · simp only [Option.some.injEq] at hs
        unfold unlockStream at hs
        dsimp only at hs
        split at hs <;> cases hs <;> simp at hm
      · cases hs
    · cases hs
  | _ =>
    simp only [stepProc, failLock, closeStream] at hs
    repeat' split at hs
    all_goals first
      | (cases hs; done)
      | (cases hs; simp at hm)

/-- C79: when no critical section is in progress, the handles of all streams that were closed have been closed, those
opened with `closefd=False` excepted. -/
theorem C79_close_partial {ls : List Label} {w : World} {tr : List Event} (h : Reach Tidy ls w tr)
    (hidle : ∀ pid p, w.procs pid = some p → p.alive = true → p.crit = []) : owedOf tr = [] := by
  obtain ⟨_, h2, h3⟩ := h.owes_all
  rw [List.eq_nil_iff_forall_not_mem]
  intro x hx
  obtain ⟨p, g1, g2⟩ := h2 x hx
  have := (h3 _ p g1 g2).owed x hx rfl
  rw [hidle _ _ g1 g2] at this
  cases this

/-- Stream 10 is closed while it holds a lock; stream 11, around the handle of other code, is closed, too. -/
def closedRun : List Label :=
  [.newProc 1, .act 1 (.openS 10 100 (0, 7)), .act 1 (.osOpen 104 (0, 7)), .act 1 (.wrapS 11 104 false)]
  ++ doLock 1 0 10 (some 10) 0 true ++ doLock 1 0 11 (some 10) 0 true
  ++ [.act 1 (.close 11), .act 1 .micro, .act 1 (.close 10), .act 1 .micro]

example : ∃ w tr, Reach Tidy closedRun w tr ∧ owedOf tr = [(1, 100)] ∧
    ∃ w' tr', Reach Tidy (closedRun ++ [.act 1 .micro]) w' tr' ∧ owedOf tr' = [] ∧ w'.kern = [] ∧
      .nclose 1 100 (0, 7) ∈ tr' ∧ .nclose 1 104 (0, 7) ∉ tr' := by
  obtain ⟨w, tr, h1, h2⟩ := sane_view (ls := closedRun) (f := fun x => owedOf x.2) (v := [(1, 100)]) (by decide +kernel)
  obtain ⟨w', tr', g1, g2⟩ := sane_view (ls := closedRun ++ [.act 1 .micro])
    (f := fun x => decide (owedOf x.2 = [] ∧ x.1.kern = [] ∧ .nclose 1 100 (0, 7) ∈ x.2 ∧ .nclose 1 104 (0, 7) ∉ x.2))
    (v := true) (by decide +kernel)
  exact ⟨w, tr, reach_also h1 (by decide), h2, w', tr', reach_also g1 (by decide), of_decide_eq_true g2⟩

/-- `UnlockFileEx` fails in `close`. -/
def closeErrRun : List Label :=
  [.newProc 1, .act 1 (.openS 10 100 (0, 7))] ++ doLock 1 0 10 none 0 false
  ++ [.act 1 (.close 10), .act 1 .microErr, .act 1 (.close 10)]

/-- C79 is false if `UnlockFileEx` fails in `close`: the stream is marked closed, its handle and its kernel lock remain,
and another `close` does nothing. -/
theorem C79_error_refuted : ¬ ∀ (ls : List Label) (w : World) (tr : List Event), Reach Sane ls w tr →
    (∀ pid p, w.procs pid = some p → p.alive = true → p.crit = []) → owedOf tr = [] ∧ (heldOf tr = [] → w.kern = []) := by
  intro hall
  have hv : (sane closeErrRun).map (fun x => (owedOf x.2, (x.1.procs 1).map (fun p => p.crit))) =
      some ([(1, 100)], some []) := by
    decide +kernel
  obtain ⟨w, tr, h1, h2⟩ := sane_view hv
  simp only [Prod.mk.injEq] at h2
  obtain ⟨k1, k2⟩ := h2
  have only : ∀ pid p, w.procs pid = some p → pid = 1 := by
    intro pid p hp
    have := h1.started hp
    simpa [closeErrRun, doLock] using this
  have := (hall _ w tr h1 (fun pid p hp _ => by
    have e := only pid p hp
    rw [e] at hp
    rw [hp] at k2
    exact Option.some.inj k2)).1
  rw [k1] at this
  cases this

/-- The handles of the open streams of every process are open. -/
theorem _root_.Verif.Win.Reach.live {ls : List Label} {w : World} {tr : List Event} (h : Reach WellWrapped ls w tr)
    {pid : Nat} {p : Proc} (hp : w.procs pid = some p) (hal : p.alive = true) : Live p := by
  induction h generalizing pid p with
  | init => cases hp
  | @step ls w tr l w' es hr ha hs ih =>
    cases l with
    | newProc q =>
      simp only [Win.step] at hs
      split at hs <;> cases hs
      by_cases e : pid = q
      · subst e
        simp only [updMap_same, Option.some.injEq] at hp
        subst hp
        exact ⟨nofun, nofun, nofun, trivial, nofun⟩
      · simp only [updMap_other _ _ e] at hp
        exact ih hp hal
    | dup src a dst b =>
      simp only [Win.step] at hs
      split at hs
      · rename_i p1 p2 h1 h2
        split at hs
        · rename_i hc
          split at hs
          · rename_i hd ht
            cases hs
            by_cases e : pid = dst
            · subst e
              simp only [updMap_same, Option.some.injEq] at hp
              subst hp
              exact (ih h2 hc.2.1).handle hc.2.2
            · simp only [updMap_other _ _ e] at hp
              exact ih hp hal
          · cases hs
        · cases hs
      · cases hs
    | exit q =>
      simp only [Win.step] at hs
      split at hs
      · cases hs
      · split at hs
        · cases hs
          by_cases e : pid = q
          · subst e
            simp only [updMap_same, Option.some.injEq] at hp
            subst hp
            cases hal
          · simp only [updMap_other _ _ e] at hp
            exact ih hp hal
        · cases hs
    | act q l =>
      simp only [Win.step] at hs
      split at hs
      · cases hs
      · rename_i p0 hp0
        split at hs
        · rename_i hal0
          split at hs
          · rename_i p' k' e' hst
            cases hs
            by_cases e : pid = q
            · subst e
              simp only [updMap_same, Option.some.injEq] at hp
              subst hp
              refine (ih hp0 hal0).step hst ?_ ?_
              · rintro sid a c rfl; exact ha p0 hp0
              · rintro a rfl; exact ha p0 hp0
            · simp only [updMap_other _ _ e] at hp
              exact ih hp hal
          · cases hs
        · cases hs

/-- C80: no system call is made on a handle that is not open, so long as nobody else closes or wraps a handle that an
open stream uses.  Duplicated handles and any ranges included.
Missing: the other case, for which it is false (`C80_refuted`). -/
theorem C80_handles_partial {ls : List Label} {w : World} {tr : List Event} (h : Reach WellWrapped ls w tr) (pid a : Nat) :
    .badFd pid a ∉ tr := by
  induction h with
  | init => nofun
  | @step ls w tr l w' es hr ha hs ih =>
    intro hm
    rcases List.mem_append.1 hm with hm | hm
    · exact ih hm
    · cases l with
      | newProc q =>
        simp only [Win.step] at hs
        split at hs <;> cases hs
        cases hm
      | dup a b c d =>
        simp only [Win.step] at hs
        repeat' split at hs
        all_goals first | (cases hs; done) | (cases hs; cases hm)
      | exit q =>
        simp only [Win.step] at hs
        repeat' split at hs
        all_goals first | (cases hs; done) | (cases hs; simp at hm)
      | act q l =>
        simp only [Win.step] at hs
        split at hs
        · cases hs
        · rename_i p hp
          split at hs
          · rename_i hal
            split at hs
            · rename_i p' k' e' hst
              cases hs
              exact no_badFd (hr.live hp hal) hst pid a hm
            · cases hs
          · cases hs

/-- A duplicated handle and a very long range: the streams 10 and 11 are closed, one with a lock. -/
def dupClosedRun : List Label :=
  [.newProc 1, .act 1 (.openS 10 100 (0, 7)), .dup 1 100 1 104, .act 1 (.wrapS 11 104 true)]
  ++ doLock 1 0 10 (some (2 ^ 70)) 0 true ++ [.act 1 (.close 11), .act 1 .micro, .act 1 (.close 10), .act 1 .micro]

example : ∃ w tr, Reach WellWrapped dupClosedRun w tr ∧ (.nclose 1 104 (0, 7)) ∈ tr := by
  have hv : (checkedFrom wrappedB [] World.init [] dupClosedRun).map
        (fun x => decide ((.nclose 1 104 (0, 7)) ∈ x.2)) = some true := by decide +kernel
  cases hr : checkedFrom wrappedB [] World.init [] dupClosedRun with
  | none => rw [hr] at hv; cases hv
  | some x =>
    rw [hr] at hv
    simp only [Option.map_some, Option.some.injEq] at hv
    have := reach_of_checked (A := WellWrapped) (fun _ _ _ _ h hb => wrapped_of_B h hb) Reach.init hr
    exact ⟨x.1, x.2, this, of_decide_eq_true hv⟩

/-- Two streams around one handle. -/
def sharedHandleRun : List Label :=
  [.newProc 1, .act 1 (.openS 10 100 (0, 7)), .act 1 (.wrapS 11 100 true), .act 1 (.close 11), .act 1 .micro]
  ++ [.act 1 (.close 10), .act 1 .micro]

/-- C80 is false if a handle that an open stream uses is wrapped again: the second `close` uses a dead handle. -/
theorem C80_refuted : ¬ ∀ (ls : List Label) (w : World) (tr : List Event), Reach (fun _ _ => True) ls w tr →
    ∀ pid a : Nat, .badFd pid a ∉ tr := by
  intro hall
  have hv : (checkedFrom (fun _ _ _ => true) [] World.init [] sharedHandleRun).map
      (fun x => decide ((.badFd 1 100) ∈ x.2)) = some true := by decide +kernel
  cases hr : checkedFrom (fun _ _ _ => true) [] World.init [] sharedHandleRun with
  | none => rw [hr] at hv; cases hv
  | some x =>
    rw [hr] at hv
    simp only [Option.map_some, Option.some.injEq] at hv
    exact hall _ x.1 x.2 (reach_of_checked (A := fun _ _ => True) (fun _ _ _ _ _ _ => trivial) Reach.init hr) 1 100
      (of_decide_eq_true hv)

/-- C81: `lock_file` raises before any system call exactly if the stream itself holds a lock on a byte of the
range; otherwise it goes on to `LockFileEx`, whatever locks other streams of the process hold. -/
theorem C81_own_locks_partial {ls : List Label} {w : World} {tr : List Event} (h : Reach Tidy ls w tr)
    {pid tid : Nat} {p : Proc} {q : Req} (hp : w.procs pid = some p) (hal : p.alive = true)
    (ht : p.threads tid = .atReg q) (hc : p.crit = []) : ∃ w' e, Win.step w (.act pid (.reg tid)) = some (w', e) ∧
      ((∃ x ∈ heldOf tr, x.pid = pid ∧ x.sid = q.sid ∧ Meet x.start x.stop q.start q.stop) →
        e = [.lockFailed pid q.sid q.file q.shared q.start q.stop]) ∧
      ((¬ ∃ x ∈ heldOf tr, x.pid = pid ∧ x.sid = q.sid ∧ Meet x.start x.stop q.start q.stop) →
        e = [] ∧ (w'.procs pid).map (fun p => p.threads tid) = some (.atKern q)) := by
  have ha := h.accounts
  have hi := ha.inv.procs pid p hp hal
  have hr := ha.procs pid p hp hal
  have hq : (p.threads tid).req = some q := by rw [ht]; rfl
  obtain ⟨hfit, st, s1, s2, s3, s4, s5⟩ := hi.threads tid q hq
  have hscan := register_fst pid p.reg (key q.handle) q.handle q.len q.start q.shared
  have htab : tableOf pid p.reg (key q.handle) = tab pid p q.handle := rfl
  rw [htab] at hscan
  have back : ∀ r ∈ tab pid p q.handle, Meet r.start r.stop q.start q.stop →
      ∃ x ∈ heldOf tr, x.pid = pid ∧ x.sid = q.sid ∧ Meet x.start x.stop q.start q.stop := by
    intro r hm hmeet
    rcases hr.recWhy _ r hm with ⟨t, q', g1, g2, g3⟩ | ⟨x, x1, x2, rfl, st', x3, x4, x5⟩
    · have := hi.same_thread (regd_req g1) hq g2
      rw [this, ht] at g1; cases g1
    · exact ⟨x, x1, x2, hi.distinct _ _ _ _ x3 s1 x4 s2 (x5.trans s4.symm), hmeet⟩
  have forth : ∀ x ∈ heldOf tr, x.pid = pid → x.sid = q.sid →
      (⟨q.handle, x.shared, x.start, x.stop⟩ : LockRec) ∈ tab pid p q.handle := by
    intro x hx x1 x2
    obtain ⟨st', g1, g2, g3⟩ := hr.heldRec x hx x1
    rw [x2, s1] at g1; cases g1
    rcases g3 with g3 | ⟨_, _, _, g4, _⟩
    · rwa [s4] at g3
    · rw [hc] at g4; cases g4
  have hst : stepProc pid w.next p w.kern (.reg tid) = some (attemptReg pid p w.kern tid q) := by
    simp only [stepProc, ht, hc]
  unfold attemptReg at hst
  cases hreg : p.reg.register pid (key q.handle) q.handle q.len q.start q.shared with
  | mk o r =>
    rw [hreg] at hst hscan
    cases o with
    | error x =>
      dsimp only at hscan
      obtain ⟨_, r', m1, _, m3⟩ := scan_error_mem hscan.symm
      simp only [Win.step, hp, hal, hst, if_true, failLock]
      exact ⟨_, _, rfl, fun _ => rfl, fun hn => absurd (back r' m1 m3) hn⟩
    | ok b =>
      cases b with
      | true =>
        dsimp only at hscan
        have hno := (scan_true_iff _ _ _ _ _).1 hscan.symm
        simp only [Win.step, hp, hal, hst, if_true]
        refine ⟨_, _, rfl, ?_, fun _ => ⟨rfl, by simp [Proc.setPC]⟩⟩
        rintro ⟨x, x1, x2, x3, x4⟩
        exact absurd ⟨x4, Or.inl rfl⟩ (hno _ (forth x x1 x2 x3))
      | false =>
        dsimp only at hscan
        obtain ⟨r', m1, m2, _⟩ := scan_false_mem hscan.symm
        exact absurd (hr.recs _ r' m1).1 m2

/-- Stream 10 holds `[0,10)` and asks for `[9,12)`; stream 11 asks for `[0,10)`. -/
example : ∃ w tr, Reach Tidy ([.newProc 1, .act 1 (.openS 10 100 (0, 7)), .act 1 (.openS 11 104 (0, 7))]
      ++ doLock 1 0 10 (some 10) 0 false ++ [.act 1 (.lockCall 0 10 (some 3) 9 true false),
        .act 1 (.lockCall 1 11 (some 10) 0 false false)]) w tr ∧
    heldOf tr = [⟨1, 10, (0, 7), false, 0, some 10⟩] ∧
    (w.procs 1).map (fun p => p.threads 0) = some (.atReg ⟨10, 100, (0, 7), some 3, 9, true, false⟩) ∧
    (w.procs 1).map (fun p => p.threads 1) = some (.atReg ⟨11, 104, (0, 7), some 10, 0, false, false⟩) ∧
    (w.procs 1).map (fun p => p.crit) = some [] := by
  obtain ⟨w, tr, h1, h2⟩ := sane_view (ls := [.newProc 1, .act 1 (.openS 10 100 (0, 7)), .act 1 (.openS 11 104 (0, 7))]
      ++ doLock 1 0 10 (some 10) 0 false ++ [.act 1 (.lockCall 0 10 (some 3) 9 true false),
        .act 1 (.lockCall 1 11 (some 10) 0 false false)])
    (f := fun x => decide (heldOf x.2 = [⟨1, 10, (0, 7), false, 0, some 10⟩] ∧
      (x.1.procs 1).map (fun p => p.threads 0) = some (.atReg ⟨10, 100, (0, 7), some 3, 9, true, false⟩) ∧
      (x.1.procs 1).map (fun p => p.threads 1) = some (.atReg ⟨11, 104, (0, 7), some 10, 0, false, false⟩) ∧
      (x.1.procs 1).map (fun p => p.crit) = some [])) (v := true) (by decide +kernel)
  exact ⟨w, tr, reach_also h1 (by decide), of_decide_eq_true h2⟩

/-- C81 is false after an `UnlockFileEx` call that failed: the registration is gone, so that `lock_file` goes on to the
system although the stream itself holds the lock. -/
theorem C81_retry_refuted : ¬ ∀ (ls : List Label) (w : World) (tr : List Event), Reach Sane ls w tr →
    ∀ (pid tid : Nat) (p : Proc) (q : Req), w.procs pid = some p → p.alive = true → p.threads tid = .atReg q → p.crit = [] →
      (∃ x ∈ heldOf tr, x.pid = pid ∧ x.sid = q.sid ∧ Meet x.start x.stop q.start q.stop) →
      ∀ w' e, Win.step w (.act pid (.reg tid)) = some (w', e) → e = [.lockFailed pid q.sid q.file q.shared q.start q.stop] := by
  intro hall
  have hv : (sane (unlockErrRun ++ [.act 1 (.lockCall 0 10 (some 10) 0 false false)])).map (fun x => (heldOf x.2,
      (x.1.procs 1).map (fun p => (p.alive, p.threads 0, p.crit)),
      (Win.step x.1 (.act 1 (.reg 0))).map (fun y => y.2))) =
      some ([⟨1, 10, (0, 7), false, 0, none⟩], some (true, .atReg ⟨10, 100, (0, 7), some 10, 0, false, false⟩, []), some []) := by
    decide +kernel
  obtain ⟨w, tr, h1, h2⟩ := sane_view hv
  simp only [Prod.mk.injEq] at h2
  obtain ⟨k1, k2, k3⟩ := h2
  cases hp : w.procs 1 with
  | none => rw [hp] at k2; cases k2
  | some p =>
    rw [hp] at k2
    simp only [Option.map_some, Option.some.injEq, Prod.mk.injEq] at k2
    cases hs : Win.step w (.act 1 (.reg 0)) with
    | none => rw [hs] at k3; cases k3
    | some y =>
      rw [hs] at k3
      simp only [Option.map_some, Option.some.injEq] at k3
      have := hall _ w tr h1 1 0 p _ hp k2.1 k2.2.1 k2.2.2
        ⟨⟨1, 10, (0, 7), false, 0, none⟩, by rw [k1]; exact List.mem_cons_self, rfl, rfl, 0, ⟨by decide, nofun⟩,
          by decide, fun e he => by cases he; decide⟩ y.1 y.2 hs
      rw [k3] at this
      cases this

end Verif.Props
