import Verif.Lemmas.Runs
import Verif.Lemmas.SystemEvents
import Mathlib.Data.List.Induction

/-!
# Properties of the whole system: C01, C02, C05, C06, C10, C16, C61
-/

namespace Verif.Props

open Verif Verif.Spec

/-- Two processes; streams 10, 11 in process 1, stream 20 in process 2, all on the file (0,7); exclusive locks on
`[0,5)`, `[5,10)` and `[20,∞)`. -/
def demoRun : List Label :=
  [.newProc 1, .newProc 2, .act 1 (.openS 10 3 (0, 7)), .act 1 (.openS 11 4 (0, 7)), .act 2 (.openS 20 3 (0, 7))]
  ++ doLock 1 0 10 (some 5) 0 false ++ doLock 1 1 11 (some 5) 5 false ++ doLock 2 0 20 none 20 false

def demoHeld : List Held :=
  [⟨1, 10, (0, 7), false, 0, some 5⟩, ⟨1, 11, (0, 7), false, 5, some 10⟩, ⟨2, 20, (0, 7), false, 20, none⟩]

theorem demo_held : ((run demoRun).map (fun x => heldOf x.2)) = some demoHeld := by decide

theorem demo_reach : ∃ w tr, Reach demoRun w tr ∧ heldOf tr = demoHeld := by
  have h := demo_held
  cases hr : run demoRun with
  | none => rw [hr] at h; cases h
  | some x =>
    obtain ⟨w, tr⟩ := x
    rw [hr] at h
    simp only [Option.map_some, Option.some.injEq] at h
    exact ⟨w, tr, reach_of_run (by decide) hr, h⟩


/-- Two locks of different open streams of one process are two different, compatible records. -/
theorem held_compat {ls : List Label} {w : World} {tr : List Event} (h : Reach ls w tr) {a b : Held}
    (ha : a ∈ heldOf tr) (hb : b ∈ heldOf tr) (hu : a.uid = b.uid) (hp : a.pid = b.pid) (hs : a.sid ≠ b.sid)
    (hx : a.shared = false ∨ b.shared = false) : ¬ Meet a.start a.stop b.start b.stop := by
  obtain ⟨p, hpr, hal⟩ := h.inv.heldAlive a ha
  obtain ⟨hv, hh⟩ := h.inv.proc _ _ hpr hal
  obtain ⟨st, a1, a2, a3, a4⟩ := hh.held a ha rfl
  obtain ⟨st', b1, b2, b3, b4⟩ := hh.held b hb hp.symm
  have hfd : st.fd ≠ st'.fd := fun he => hs (hv.distinct _ _ _ _ a1 b1 a2 b2 he)
  rw [← hu] at b4
  have hc := pairwise_compat_ne (hv.compat a.uid) a4 b4 (fun he => hfd (congrArg LockRec.handle he))
  intro hm
  exact hc ⟨hm, Or.inr hx⟩

/-! ## C01 -/

/-- C01: in every reachable state, two exclusive locks held by two different streams (of one process or of two
processes) on the same file have no byte in common. -/
theorem C01_exclusive {ls : List Label} {w : World} {tr : List Event} (h : Reach ls w tr) {a b : Held}
    (ha : a ∈ heldOf tr) (hb : b ∈ heldOf tr) (hxa : a.shared = false) (hxb : b.shared = false) (hu : a.uid = b.uid)
    (hs : (a.pid, a.sid) ≠ (b.pid, b.sid)) : ¬ Meet a.start a.stop b.start b.stop := by
  by_cases hp : a.pid = b.pid
  · exact held_compat h ha hb hu hp (fun he => hs (by rw [hp, he])) (Or.inl hxa)
  · rintro ⟨x, h1, h2⟩
    have k1 := h.inv.kern.backed a ha hxa x h1
    have k2 := h.inv.kern.backed b hb hxb x h2
    rw [← hu] at k2
    have := (h.inv.kern.compat _ _ _ _ _ _ hp k1 k2).1
    cases this

-- three exclusive locks of three streams in two processes
example : ∃ ls w tr a b, Reach ls w tr ∧ a ∈ heldOf tr ∧ b ∈ heldOf tr ∧ a.shared = false ∧ b.shared = false ∧
    a.uid = b.uid ∧ a.pid ≠ b.pid := by
  obtain ⟨w, tr, hr, hh⟩ := demo_reach
  exact ⟨_, w, tr, ⟨1, 10, (0, 7), false, 0, some 5⟩, ⟨2, 20, (0, 7), false, 20, none⟩, hr,
    by rw [hh]; decide, by rw [hh]; decide, rfl, rfl, rfl, by decide⟩

/-- C01/C04: the ranges locked through one stream are pairwise disjoint, whatever their modes. -/
theorem C01_same_stream {ls : List Label} {w : World} {tr : List Event} (h : Reach ls w tr) {a b : Held}
    (ha : a ∈ heldOf tr) (hb : b ∈ heldOf tr) (hp : a.pid = b.pid) (hs : a.sid = b.sid) (hne : a ≠ b) :
    ¬ Meet a.start a.stop b.start b.stop := by
  obtain ⟨p, hpr, hal⟩ := h.inv.heldAlive a ha
  obtain ⟨hv, hh⟩ := h.inv.proc _ _ hpr hal
  obtain ⟨st, a1, a2, a3, a4⟩ := hh.held a ha rfl
  obtain ⟨st', b1, b2, b3, b4⟩ := hh.held b hb hp.symm
  rw [← hs, a1] at b1
  cases b1
  have hu : a.uid = b.uid := a3.symm.trans b3
  rw [← hu] at b4
  have hc := pairwise_compat_ne (hv.compat a.uid) a4 b4 (by
    intro he
    apply hne
    obtain ⟨x1, x2, x3, x4, x5, x6⟩ := a
    obtain ⟨y1, y2, y3, y4, y5, y6⟩ := b
    simp_all)
  intro hm
  exact hc ⟨hm, Or.inl rfl⟩

/-! ## C02 -/

/-- C02 inside one process: while a stream holds a lock, no other stream of the process holds a lock on one of its
bytes unless both are shared. -/
theorem C02_in_process {ls : List Label} {w : World} {tr : List Event} (h : Reach ls w tr) {a b : Held}
    (ha : a ∈ heldOf tr) (hb : b ∈ heldOf tr) (_hxa : a.shared = true) (hxb : b.shared = false) (hu : a.uid = b.uid)
    (hp : a.pid = b.pid) (hs : a.sid ≠ b.sid) : ¬ Meet a.start a.stop b.start b.stop :=
  held_compat h ha hb hu hp hs (Or.inr hxb)

/-- C02 (partial): a shared lock keeps the exclusive locks of all other streams of all processes out, as long as no two
streams of one process ever hold or request overlapping shared locks.  Missing: histories where they do
(`C02_refuted`). -/
theorem C02_shared_excludes_writer_partial {ls : List Label} {w : World} {tr : List Event} (h : Reach ls w tr)
    (hc : ∀ tr₁ tr₂, tr = tr₁ ++ tr₂ → NoSharedOverlap (heldOf tr₁ ++ requestedOf tr₁)) {a b : Held}
    (ha : a ∈ heldOf tr) (hb : b ∈ heldOf tr) (hxa : a.shared = true) (hxb : b.shared = false) (hu : a.uid = b.uid)
    (hs : (a.pid, a.sid) ≠ (b.pid, b.sid)) : ¬ Meet a.start a.stop b.start b.stop := by
  by_cases hp : a.pid = b.pid
  · exact C02_in_process h ha hb hxa hxb hu hp (fun he => hs (by rw [hp, he]))
  · rintro ⟨x, h1, h2⟩
    obtain ⟨p, hpr, hal⟩ := h.inv.heldAlive a ha
    have k1 := (h.shared hc a.pid p hpr hal).backed a ha rfl x h1
    have k2 := h.inv.kern.backed b hb hxb x h2
    rw [← hu] at k2
    have := (h.inv.kern.compat _ _ _ _ _ _ hp k1 k2).2
    cases this

/-- Process 1 takes a shared lock on `[0,10)` by stream 10, process 2 an exclusive one on `[10,20)`. -/
def sharedRun : List Label :=
  [.newProc 1, .newProc 2, .act 1 (.openS 10 3 (0, 7)), .act 2 (.openS 20 3 (0, 7))]
  ++ doLock 1 0 10 (some 10) 0 true ++ doLock 2 0 20 (some 10) 10 false

instance (s₁ : Int) (e₁ : Option Int) (s₂ : Int) (e₂ : Option Int) : Decidable (Meet s₁ e₁ s₂ e₂) :=
  decidable_of_iff _ (areasOverlap_iff ⟨0, false, s₁, e₁⟩ s₂ e₂)

instance (L : List Held) : Decidable (NoSharedOverlap L) := by unfold NoSharedOverlap; infer_instance

theorem prefixes {α : Type} {P : List α → Prop} {l : List α} (h : ∀ n < l.length + 1, P (l.take n)) (l₁ l₂ : List α)
    (hl : l = l₁ ++ l₂) : P l₁ := by
  have := h l₁.length (by rw [hl, List.length_append]; omega)
  rwa [hl, List.take_left] at this

example : ∃ ls w tr a b, Reach ls w tr ∧
    (∀ tr₁ tr₂, tr = tr₁ ++ tr₂ → NoSharedOverlap (heldOf tr₁ ++ requestedOf tr₁)) ∧ a ∈ heldOf tr ∧ b ∈ heldOf tr ∧
    a.shared = true ∧ b.shared = false ∧ a.uid = b.uid ∧ a.pid ≠ b.pid := by
  cases hr : (run sharedRun).map Prod.snd with
  | none => exact absurd hr (by decide)
  | some tr =>
    obtain ⟨w, h1, h2⟩ := reach_of_trace (by decide) hr
    have htr : tr = [.opened 1 10 3 (0, 7) true, .opened 2 20 3 (0, 7) true,
      .lockReq 1 10 (0, 7) true 0 (some 10), .locked 1 10 (0, 7) true 0 (some 10),
      .lockReq 2 20 (0, 7) false 10 (some 20), .locked 2 20 (0, 7) false 10 (some 20)] := by
      have : (run sharedRun).map Prod.snd = some [.opened 1 10 3 (0, 7) true, .opened 2 20 3 (0, 7) true,
        .lockReq 1 10 (0, 7) true 0 (some 10), .locked 1 10 (0, 7) true 0 (some 10),
        .lockReq 2 20 (0, 7) false 10 (some 20), .locked 2 20 (0, 7) false 10 (some 20)] := by decide
      rw [hr] at this
      exact Option.some.inj this
    subst htr
    exact ⟨_, w, _, ⟨1, 10, (0, 7), true, 0, some 10⟩, ⟨2, 20, (0, 7), false, 10, some 20⟩, h2,
      prefixes (P := fun t => NoSharedOverlap (heldOf t ++ requestedOf t)) (by decide), by decide, by decide, rfl, rfl, rfl, by decide⟩

/-- Streams 10 and 11 of process 1 take the same shared lock, stream 10 unlocks it; then process 2 gets an exclusive
lock although stream 11 still holds the shared one. -/
def sharedBug : List Label :=
  [.newProc 1, .newProc 2, .act 1 (.openS 10 3 (0, 7)), .act 1 (.openS 11 4 (0, 7)), .act 2 (.openS 20 3 (0, 7))]
  ++ doLock 1 0 10 (some 10) 0 true ++ doLock 1 0 11 (some 10) 0 true ++ doUnlock 1 10 (some 10) 0
  ++ doLock 2 0 20 (some 10) 0 false

/-- C02 is false of the code. -/
theorem C02_refuted : ¬ ∀ (ls : List Label) (w : World) (tr : List Event), Reach ls w tr → ∀ a ∈ heldOf tr,
    ∀ b ∈ heldOf tr, a.shared = true → b.shared = false → a.uid = b.uid → (a.pid, a.sid) ≠ (b.pid, b.sid) →
    ¬ Meet a.start a.stop b.start b.stop := by
  intro hall
  have hh : (run sharedBug).map (fun x => heldOf x.2) =
      some [⟨1, 11, (0, 7), true, 0, some 10⟩, ⟨2, 20, (0, 7), false, 0, some 10⟩] := by decide
  cases hr : run sharedBug with
  | none => rw [hr] at hh; cases hh
  | some x =>
    rw [hr] at hh
    simp only [Option.map_some, Option.some.injEq] at hh
    refine hall _ x.1 x.2 (reach_of_run (by decide) hr) ⟨1, 11, (0, 7), true, 0, some 10⟩ (by rw [hh]; decide)
      ⟨2, 20, (0, 7), false, 0, some 10⟩ (by rw [hh]; decide) rfl rfl rfl (by decide) ⟨0, by simp [Covers]⟩

/-! ## C05 -/

/-- C05: rsfile natively closes a descriptor of a file only when the process has no registered lock on the file
(held or being acquired), so no lock held by the process on that file is lost by the close. -/
theorem C05_native_close_safe {ls : List Label} {w w' : World} {tr e : List Event} {l : Label} (h : Reach ls w tr)
    (hs : step w l = some (w', e)) {pid fd : Nat} {u : Uid} (he : .nclose pid fd u ∈ e) :
    (∃ p, w.procs pid = some p ∧ tableOf pid p.reg u = []) ∧ ∀ x ∈ heldOf (tr ++ e), ¬ (x.pid = pid ∧ x.uid = u) := by
  cases l with
  | act pid' l =>
    simp only [step] at hs
    split at hs
    · cases hs
    · rename_i p hp
      split at hs
      · rename_i ha
        split at hs
        · rename_i p' k e' hst
          cases hs
          obtain ⟨rfl, rest, hcr, hfd, _, he', _⟩ := stepProc_nclose hst he
          obtain ⟨hv, hh⟩ := h.inv.proc _ _ hp ha
          have hT : tableOf pid p.reg u = [] := hv.critN fd (by rw [show (view pid p).crit = _ from hcr]; simp) u hfd
          refine ⟨⟨p, hp, hT⟩, ?_⟩
          have hev : e = [.nclose pid fd u] := he'
          rintro x hx ⟨rfl, rfl⟩
          rw [hev, heldOf, List.foldl_append] at hx
          obtain ⟨st, _, _, _, h4⟩ := hh.held x hx rfl
          rw [show (view x.pid p).T = tableOf x.pid p.reg from rfl, hT] at h4
          cases h4
        · cases hs
      · cases hs
  | newProc p => simp only [step] at hs; split at hs <;> cases hs; cases he
  | fork a b => simp only [step] at hs; (repeat' split at hs) <;> cases hs; simp at he
  | exit p => simp only [step] at hs; (repeat' split at hs) <;> cases hs; simp at he

/-- C05: in every reachable state, in particular after any close, every byte of every exclusive lock is locked in the
kernel. -/
theorem C05_exclusive_backed {ls : List Label} {w : World} {tr : List Event} (h : Reach ls w tr) {a : Held}
    (ha : a ∈ heldOf tr) (hx : a.shared = false) (b : Int) (hb : Covers a.start a.stop b) :
    KHas w.kern a.pid a.uid false b := h.inv.kern.backed a ha hx b hb

/-- C05 (partial): the same for all locks, when no two streams of one process hold or request overlapping shared locks.
Missing: such histories, where the claim is false (`C05_shared_refuted`). -/
theorem C05_backed_partial {ls : List Label} {w : World} {tr : List Event} (h : Reach ls w tr)
    (hc : ∀ tr₁ tr₂, tr = tr₁ ++ tr₂ → NoSharedOverlap (heldOf tr₁ ++ requestedOf tr₁)) {a : Held}
    (ha : a ∈ heldOf tr) (b : Int) (hb : Covers a.start a.stop b) : KHas w.kern a.pid a.uid a.shared b := by
  obtain ⟨p, hpr, hal⟩ := h.inv.heldAlive a ha
  exact (h.shared hc a.pid p hpr hal).backed a ha rfl b hb

/-- Streams 10 and 11 of process 1 hold exclusive locks; stream 12, on the same file, is closed: its descriptor stays
open until stream 10 and then stream 11 have unlocked. -/
def closeRun : List Label :=
  [.newProc 1, .act 1 (.openS 10 3 (0, 7)), .act 1 (.openS 11 4 (0, 7)), .act 1 (.openS 12 5 (0, 7))]
  ++ doLock 1 0 10 (some 5) 0 false ++ doLock 1 0 11 (some 5) 5 false ++ [.act 1 (.close 12)] ++ micros 1 3

-- the descriptor is not closed while the locks are held, and is closed by the last unlock
example : (run closeRun).map (fun x => x.2.filter (fun e => match e with | .nclose .. => true | _ => false)) = some [] ∧
    (run (closeRun ++ doUnlock 1 10 (some 5) 0 ++ doUnlock 1 11 (some 5) 5 ++ micros 1 1)).map
      (fun x => x.2.filter (fun e => match e with | .nclose .. => true | _ => false)) =
      some [.nclose 1 5 (0, 7)] := by decide

/-- Closing stream 10 removes the kernel lock of stream 11 when both hold a shared lock. -/
def closeBug : List Label :=
  [.newProc 1, .act 1 (.openS 10 3 (0, 7)), .act 1 (.openS 11 4 (0, 7))]
  ++ doLock 1 0 10 (some 10) 0 true ++ doLock 1 0 11 (some 10) 0 true ++ [.act 1 (.close 10)] ++ micros 1 5

/-- The full claim of C05 is false of the code for shared locks. -/
theorem C05_shared_refuted : ¬ ∀ (ls : List Label) (w : World) (tr : List Event), Reach ls w tr → ∀ a ∈ heldOf tr,
    ∀ b, Covers a.start a.stop b → KHas w.kern a.pid a.uid a.shared b := by
  intro hall
  have hh : (run closeBug).map (fun x => (heldOf x.2, x.1.kern.all (fun k => !k.overlaps 0 (some 1)))) =
      some ([⟨1, 11, (0, 7), true, 0, some 10⟩], true) := by decide
  cases hr : run closeBug with
  | none => rw [hr] at hh; cases hh
  | some x =>
    rw [hr] at hh
    simp only [Option.map_some, Option.some.injEq, Prod.mk.injEq] at hh
    obtain ⟨k, hk, _, _, _, hcov⟩ := hall _ x.1 x.2 (reach_of_run (by decide) hr) ⟨1, 11, (0, 7), true, 0, some 10⟩
      (by rw [hh.1]; decide) 0 ⟨by decide, by simp⟩
    have ho : k.overlaps 0 (some 1) = true := (areasOverlap_iff _ _ _).2 ⟨0, hcov, by simp [Covers]⟩
    have := List.all_eq_true.1 hh.2 k hk
    rw [ho] at this
    cases this

/-! ## C06 -/

/-- C06: `close()` of an open stream removes all the registered locks of its descriptor on its file and no other lock
of the process; the locks held afterwards are those held before except the locks of this stream. -/
theorem C06_close_effect {ls : List Label} {w w' : World} {tr e : List Event} {pid sid : Nat} (_h : Reach ls w tr)
    (hs : step w (.act pid (.close sid)) = some (w', e)) {p : Proc} (hp : w.procs pid = some p) {st : Stream}
    (hst : p.streams sid = some st) (ho : st.isOpen = true) :
    (∃ p' st', w'.procs pid = some p' ∧ p'.streams sid = some st' ∧ st'.isOpen = false ∧
      (∀ x, x ∈ tableOf pid p'.reg st.uid ↔ x ∈ tableOf pid p.reg st.uid ∧ x.handle ≠ st.fd) ∧
      ∀ u, u ≠ st.uid → tableOf pid p'.reg u = tableOf pid p.reg u) ∧
    (∀ x, x ∈ heldOf (tr ++ e) ↔ x ∈ heldOf tr ∧ (x.pid, x.sid) ≠ (pid, sid)) ∧
    ∀ q, q ≠ pid → w'.procs q = w.procs q := by
  simp only [step, hp] at hs
  split at hs
  · simp only [stepProc, hst] at hs
    split at hs
    · rename_i p' k e' hst'
      cases hs
      split at hst'
      · rename_i st' heq hcr
        cases heq
        split at hst'
        · cases hst'
        · cases hst'
          obtain ⟨h1, h2, h3, h4, h5⟩ := removeFileLocks_view pid p.reg st.uid st.fd
          simp only [ho] at *
          refine ⟨⟨_, { st with isOpen := false }, updMap_same _ _ _, updMap_same _ _ _, rfl, fun x => ?_,
            fun u hu => ?_⟩, fun x => ?_, fun q hq => updMap_other _ _ hq⟩
          · rw [h3, if_pos rfl, List.mem_filter, decide_eq_true_eq]
          · rw [h3, if_neg hu]
          · rw [heldOf, List.foldl_append]
            simp only [List.foldl_cons, List.foldl_nil, heldStep, List.mem_filter, decide_eq_true_eq, ne_eq,
              Prod.mk.injEq]
            rfl
      · cases hst'
    · cases hs
  · cases hs

/-- C06: closing a closed stream changes nothing and emits nothing. -/
theorem C06_close_idempotent {w w' : World} {e : List Event} {pid sid : Nat}
    (hs : step w (.act pid (.close sid)) = some (w', e)) {p : Proc} (hp : w.procs pid = some p) {st : Stream}
    (hst : p.streams sid = some st) (ho : st.isOpen = false) : w' = w ∧ e = [] := by
  simp only [step, hp] at hs
  split at hs
  · simp only [stepProc, hst] at hs
    split at hs
    · rename_i p' k e' hst'
      cases hs
      (repeat' split at hst') <;> cases hst'
      · simp_all
      · refine ⟨?_, rfl⟩
        obtain ⟨procs, kern⟩ := w
        congr 1
        funext q
        by_cases hq : q = pid
        · subst hq; rw [updMap_same]; exact hp.symm
        · exact updMap_other _ _ hq
    · cases hs
  · cases hs

/-- C06: from then on a closed stream holds nothing, and no lock is registered for its descriptor unless another open
stream uses it. -/
theorem C06_closed_holds_nothing {ls : List Label} {w : World} {tr : List Event} (h : Reach ls w tr) {pid sid : Nat}
    {p : Proc} (hp : w.procs pid = some p) (hal : p.alive = true) {st : Stream} (hst : p.streams sid = some st)
    (ho : st.isOpen = false) :
    (∀ x ∈ heldOf tr, (x.pid, x.sid) ≠ (pid, sid)) ∧
    ∀ u, ∀ x ∈ tableOf pid p.reg u, ∃ s' st', s' ≠ sid ∧ p.streams s' = some st' ∧ st'.isOpen = true ∧
      st'.fd = x.handle := by
  obtain ⟨hv, hh⟩ := h.inv.proc _ _ hp hal
  constructor
  · rintro x hx hxe
    simp only [Prod.mk.injEq] at hxe
    obtain ⟨st', h1, h2, _⟩ := hh.held x hx hxe.1
    rw [hxe.2, show (view pid p).streams sid = _ from hst] at h1
    cases h1
    rw [ho] at h2; cases h2
  · intro u x hx
    have key : ∀ s' st', p.streams s' = some st' → st'.isOpen = true → s' ≠ sid := by
      rintro s' st' h1 h2 rfl
      rw [hst] at h1; cases h1; rw [ho] at h2; cases h2
    rcases hh.owner u x hx with ⟨y, hy, h1, h2, h3, h4, h5, st', h6, h7, h8⟩ | ⟨t, q, h1, rfl, rfl⟩
    · exact ⟨_, st', key _ _ h6 h7, h6, h7, h8⟩
    · obtain ⟨st', h2, h3, h4, h5, h6⟩ := hv.thr t q (PC.req_of_registered h1)
      exact ⟨_, st', key _ _ h2 h3, h2, h3, h4⟩

example : (run (demoRun ++ [.act 1 (.close 10)])).map (fun x => heldOf x.2) =
    some [⟨1, 11, (0, 7), false, 5, some 10⟩, ⟨2, 20, (0, 7), false, 20, none⟩] ∧
    ((run (demoRun ++ [.act 1 (.close 10)] ++ micros 1 5 ++ [.act 1 (.close 10)])).map (fun x => heldOf x.2)).isSome
    = true := by decide

/-! ## C10 -/

/-- C10: when no `lock_file` call is in progress on an open stream, the locks registered for its descriptor are exactly
those its user holds. -/
theorem C10_no_residue {ls : List Label} {w : World} {tr : List Event} (h : Reach ls w tr) {pid sid : Nat} {p : Proc}
    (hp : w.procs pid = some p) (hal : p.alive = true) {st : Stream} (hst : p.streams sid = some st)
    (ho : st.isOpen = true) (hb : st.busy = none) (sh : Bool) (s : Int) (e : Option Int) :
    ⟨st.fd, sh, s, e⟩ ∈ tableOf pid p.reg st.uid ↔ ⟨pid, sid, st.uid, sh, s, e⟩ ∈ heldOf tr := by
  obtain ⟨hv, hh⟩ := h.inv.proc _ _ hp hal
  constructor
  · intro hx
    rcases hh.owner _ _ hx with ⟨y, hy, h1, h2, h3, h4, h5, st', h6, h7, h8⟩ | ⟨t, q, h1, h2, h3⟩
    · have hs := hv.distinct _ _ _ _ h6 hst h7 ho h8
      obtain ⟨y1, y2, y3, y4, y5, y6⟩ := y
      simp only at *
      subst h1 h2 h3 h4 h5 hs
      exact hy
    · exfalso
      obtain ⟨st', a1, a2, a3, a4, a5⟩ := hv.thr t q (PC.req_of_registered h1)
      have hfd : q.fd = st.fd := by have := congrArg LockRec.handle h2; exact this
      have hs := hv.distinct _ _ _ _ a1 hst a2 ho (a3.trans hfd)
      rw [hs, show (view pid p).streams sid = _ from hst] at a1
      cases a1
      rw [hb] at a5; cases a5
  · intro hx
    obtain ⟨st', h1, h2, h3, h4⟩ := hh.held _ hx rfl
    change p.streams sid = some st' at h1
    rw [hst] at h1; cases h1
    exact h4

/-- C10: when `lock_file()` raises, for whatever reason, the locks registered for the stream are exactly those that its
user held before the failure. -/
theorem C10_failed_call {ls : List Label} {w w' : World} {tr e : List Event} {l : Label} (h : Reach ls w tr)
    (hw : WellWrapped w l) (hs : step w l = some (w', e)) {pid sid : Nat} {u : Uid} {sh : Bool} {a : Int} {b : Option Int}
    (he : .lockFailed pid sid u sh a b ∈ e) :
    ∃ p st, w'.procs pid = some p ∧ p.streams sid = some st ∧ st.isOpen = true ∧ st.busy = none ∧ st.uid = u ∧
      ∀ sh s e, ⟨st.fd, sh, s, e⟩ ∈ tableOf pid p.reg u ↔ ⟨pid, sid, u, sh, s, e⟩ ∈ heldOf tr := by
  have hr := h.step hw hs
  cases l with
  | act pid' l =>
    simp only [step] at hs
    split at hs
    · cases hs
    · rename_i p hp
      split at hs
      · rename_i ha
        split at hs
        · rename_i p' k e' hst
          cases hs
          obtain ⟨hv, hh⟩ := h.inv.proc _ _ hp ha
          have hps := stepProc_inv hv hh h.inv.kern (fun sid fd cf hl s st e o => by
            subst hl; exact hw p hp s st e o) hst
          obtain ⟨rfl, h1, st, h2, h3, h4, rfl⟩ := stepProc_lockFailed hv hst he
          have hheld : heldOf (tr ++ e) = heldOf tr := by
            rw [heldOf, List.foldl_append]; exact h1 _
          refine ⟨p', st, updMap_same _ _ _, h2, h3, h4, rfl, fun sh' s' e' => ?_⟩
          have := C10_no_residue hr (updMap_same _ _ _) (hps.alive.trans ha) h2 h3 h4 sh' s' e'
          rw [hheld] at this
          exact this
        · cases hs
      · cases hs
  | newProc p => simp only [step] at hs; split at hs <;> cases hs; cases he
  | fork a b => simp only [step] at hs; (repeat' split at hs) <;> cases hs; simp at he
  | exit p => simp only [step] at hs; (repeat' split at hs) <;> cases hs; simp at he

/-- Stream 20 of process 2 fails to lock `[3,8)` because of process 1, after its registration; it holds `[20,∞)`. -/
def failRun : List Label :=
  demoRun ++ [.act 2 (.lockCall 0 20 (some 5) 3 false false), .act 2 (.reg 0), .act 2 (.kern 0), .act 2 (.expire 0),
    .act 2 (.unwind 0)]

example : (run failRun).map (fun x => (x.2.getLast?, heldOf x.2 == demoHeld)) =
    some (some (.lockFailed 2 20 (0, 7) false 3 (some 8)), true) := by decide

/-! ## C61 -/

/-- C61 (partial): while no thread of the process is inside a critical section of the registry, each byte that the
process has locked in the kernel belongs to a lock of that mode which one of its streams holds.  Missing: asynchronous
exceptions between the kernel's grant and the assignment of `rsfileio_abstract.py:626` (`C61_refuted`). -/
theorem C61_kernel_locks_held_partial {ls : List Label} {w : World} {tr : List Event} (h : Reach ls w tr)
    (hn : ls.all Label.noIntr = true) {pid : Nat} {p : Proc} (hp : w.procs pid = some p) (hal : p.alive = true)
    (hc : p.crit = []) (u : Uid) (sh : Bool) (b : Int) (hk : KHas w.kern pid u sh b) :
    ∃ x ∈ heldOf tr, x.pid = pid ∧ x.uid = u ∧ x.shared = sh ∧ Covers x.start x.stop b := by
  rcases h.phantom hn pid p hp hal u sh b hk with h1 | ⟨fd, s, l, hm, _⟩
  · exact h1
  · rw [hc] at hm; cases hm

/-- C61, exclusive locks: the kernel has exactly the exclusive locks that are held. -/
theorem C61_kernel_exact_partial {ls : List Label} {w : World} {tr : List Event} (h : Reach ls w tr)
    (hn : ls.all Label.noIntr = true) {pid : Nat} {p : Proc} (hp : w.procs pid = some p) (hal : p.alive = true)
    (hc : p.crit = []) (u : Uid) (b : Int) :
    KHas w.kern pid u false b ↔
      ∃ x ∈ heldOf tr, x.pid = pid ∧ x.uid = u ∧ x.shared = false ∧ Covers x.start x.stop b := by
  constructor
  · exact C61_kernel_locks_held_partial h hn hp hal hc u false b
  · rintro ⟨x, hx, rfl, rfl, h3, h4⟩
    exact C05_exclusive_backed h hx h3 b h4

-- after a failed request and the release of `[0,5)`, nothing but the two other locks is left in the kernel
example : ((failRun ++ doUnlock 1 10 (some 5) 0).all Label.noIntr = true) ∧
    (run (failRun ++ doUnlock 1 10 (some 5) 0)).map (fun x => ((x.1.procs 1).map (fun p => p.crit), heldOf x.2)) =
    some (some [], [⟨1, 11, (0, 7), false, 5, some 10⟩, ⟨2, 20, (0, 7), false, 20, none⟩]) := by decide

/-- An asynchronous exception arrives just after the kernel granted the lock. -/
def intrRun : List Label :=
  [.newProc 1, .act 1 (.openS 10 3 (0, 7)), .act 1 (.lockCall 0 10 (some 5) 0 false true), .act 1 (.reg 0),
    .act 1 (.kernIntr 0), .act 1 (.unwind 0)]

/-- The claim without restriction is false: `lock_file` raised, nothing is held nor registered, and the kernel lock is
still there. -/
theorem C61_refuted : ¬ ∀ (ls : List Label) (w : World) (tr : List Event), Reach ls w tr → ∀ pid p,
    w.procs pid = some p → p.alive = true → p.crit = [] → ∀ u sh b, KHas w.kern pid u sh b →
    ∃ x ∈ heldOf tr, x.pid = pid ∧ x.uid = u ∧ x.shared = sh ∧ Covers x.start x.stop b := by
  intro hall
  have hh : (run intrRun).map (fun x => (heldOf x.2, x.1.kern, (x.1.procs 1).map (fun p => (p.alive, p.crit)))) =
      some ([], [⟨1, (0, 7), false, 0, some 5⟩], some (true, [])) := by decide
  cases hr : run intrRun with
  | none => rw [hr] at hh; cases hh
  | some x =>
    rw [hr] at hh
    simp only [Option.map_some, Option.some.injEq, Prod.mk.injEq] at hh
    obtain ⟨h1, h2, h3⟩ := hh
    cases hp : x.1.procs 1 with
    | none => rw [hp] at h3; cases h3
    | some p =>
      rw [hp] at h3
      simp only [Option.map_some, Option.some.injEq, Prod.mk.injEq] at h3
      obtain ⟨y, hy, _⟩ := hall _ x.1 x.2 (reach_of_run (by decide) hr) 1 p hp h3.1 h3.2 (0, 7) false 0
        ⟨⟨1, (0, 7), false, 0, some 5⟩, by rw [h2]; simp, rfl, rfl, rfl, by simp [Covers]⟩
      rw [h1] at hy; cases hy

/-! ## C16 -/

/-- C16: used by another process than the one that created it, a registry gives the answers of an empty one, and becomes
what an empty one would become. -/
theorem C16_inherited_registry_is_empty (pid : Nat) (r : Registry) (hne : r.originalPid ≠ pid) (uid : Uid) (fd : Nat)
    (len : Option Int) (s : Int) (sh : Bool) :
    r.register pid uid fd len s sh = (Registry.init pid).register pid uid fd len s sh ∧
    r.unregister pid uid fd len s = (Registry.init pid).unregister pid uid fd len s ∧
    r.removeFileLocks pid uid fd = (Registry.init pid).removeFileLocks pid uid fd ∧
    r.tryDeleteEntry pid uid = (Registry.init pid).tryDeleteEntry pid uid ∧
    r.removeData pid uid = (Registry.init pid).removeData pid uid ∧
    r.hasLocks pid uid = (Registry.init pid).hasLocks pid uid ∧
    (fd ≠ 0 → r.addData pid uid fd = (Registry.init pid).addData pid uid fd) := by
  have h1 : r.checkForking pid = (Registry.init pid).checkForking pid := by
    simp [Registry.checkForking, Registry.init, Ne.symm hne]
  simp only [Registry.register, Registry.unregister, Registry.removeFileLocks, Registry.tryDeleteEntry,
    Registry.removeData, Registry.hasLocks, Registry.addData, h1, true_and]
  intro hfd
  simp [hfd]

/-- C16: after `fork` the child holds no lock, has no kernel lock, and its registry is one created by another
process; the parent keeps everything. -/
theorem C16_fork {ls : List Label} {w w' : World} {tr e : List Event} {parent child : Nat} (h : Reach ls w tr)
    (hs : step w (.fork parent child) = some (w', e)) :
    (∃ p, w'.procs child = some p ∧ p.reg.originalPid ≠ child) ∧
    (∀ x ∈ heldOf (tr ++ e), x.pid ≠ child) ∧ (∀ u sh b, ¬ KHas w'.kern child u sh b) ∧
    heldOf (tr ++ e) = heldOf tr ∧ w'.kern = w.kern ∧ w'.procs parent = w.procs parent := by
  simp only [step] at hs
  split at hs
  · rename_i p hp hc
    split at hs
    · cases hs
      have hne : parent ≠ child := by rintro rfl; rw [hp] at hc; cases hc
      have hheld : heldOf (tr ++ [.forked parent child]) = heldOf tr := by
        rw [heldOf, List.foldl_append]; rfl
      refine ⟨⟨_, updMap_same _ _ _, ?_⟩, ?_, ?_, hheld, rfl, updMap_other _ _ hne⟩
      · intro ho
        exact h.inv.orig parent p hp (by rw [show p.reg.originalPid = child from ho]; exact hc)
      · intro x hx hxc
        rw [hheld] at hx
        obtain ⟨q, hq, _⟩ := h.inv.heldAlive x hx
        rw [hxc, hc] at hq; cases hq
      · intro u sh b hk
        obtain ⟨q, hq, _⟩ := h.inv.kernAlive _ _ _ _ hk
        rw [hc] at hq; cases hq
    · cases hs
  · cases hs

/-- An action of another process than `pid`. -/
def ofOther (pid : Nat) : Label → Prop
  | .act q _ => q ≠ pid
  | .exit q => q ≠ pid
  | .newProc _ => True
  | .fork _ _ => True

/-- C16: whatever other processes do (children using inherited streams and descriptors included: lock, unlock, close,
exit), the registry, the descriptors, the kernel locks and the held locks of a process do not change. -/
theorem C16_others_harmless {ls ls' : List Label} {w w' : World} {tr tr' : List Event} {pid : Nat} {p : Proc}
    (h : Reach ls w tr) (hp : w.procs pid = some p) (h' : Reach (ls ++ ls') w' tr') (ho : ∀ l ∈ ls', ofOther pid l) :
    w'.procs pid = some p ∧ (∀ u sh b, KHas w'.kern pid u sh b ↔ KHas w.kern pid u sh b) ∧
    ∀ x, x.pid = pid → (x ∈ heldOf tr' ↔ x ∈ heldOf tr) := by
  induction ls' using List.reverseRecOn generalizing w' tr' with
  | nil =>
    rw [List.append_nil] at h'
    obtain ⟨rfl, rfl⟩ := h.det h'
    exact ⟨hp, fun _ _ _ => Iff.rfl, fun _ _ => Iff.rfl⟩
  | append_singleton ls' l ih =>
    rw [← List.append_assoc] at h'
    obtain ⟨w₁, tr₁, e, hr, hw, hs, rfl⟩ := h'.cases_append
    obtain ⟨i1, i2, i3⟩ := ih hr (fun x hx => ho x (by simp [hx]))
    have hol := ho l (by simp)
    have hheld : heldOf (tr₁ ++ e) = e.foldl heldStep (heldOf tr₁) := by rw [heldOf, List.foldl_append]; rfl
    cases l with
    | newProc q =>
      simp only [step] at hs
      split at hs
      · rename_i hn
        cases hs
        have hne : pid ≠ q := by rintro rfl; rw [i1] at hn; cases hn
        exact ⟨(updMap_other _ _ hne).trans i1, i2, by rw [hheld]; exact i3⟩
      · cases hs
    | fork a b =>
      simp only [step] at hs
      split at hs
      · rename_i hn
        split at hs
        · cases hs
          have hne : pid ≠ b := by rintro rfl; rw [i1] at hn; cases hn
          exact ⟨(updMap_other _ _ hne).trans i1, i2, by rw [hheld]; exact i3⟩
        · cases hs
      · cases hs
    | exit q =>
      simp only [step] at hs
      split at hs
      · cases hs
      · split at hs
        · cases hs
          have hne : pid ≠ q := fun h => hol h.symm
          refine ⟨(updMap_other _ _ hne).trans i1, fun u sh b => ?_, fun x hx => ?_⟩
          · rw [kHas_dropPid, i2]
            exact ⟨fun h => h.1, fun h => ⟨h, hne⟩⟩
          · rw [hheld]
            simp only [List.foldl_cons, List.foldl_nil, heldStep, List.mem_filter, decide_eq_true_eq, i3 x hx]
            exact ⟨fun h => h.1, fun h => ⟨h, by rw [hx]; exact hne⟩⟩
        · cases hs
    | act q l =>
      simp only [step] at hs
      split at hs
      · cases hs
      · rename_i p₁ hp₁
        split at hs
        · rename_i ha
          split at hs
          · rename_i p' k e' hst
            cases hs
            have hne : pid ≠ q := fun h => hol h.symm
            obtain ⟨hv, hh⟩ := hr.inv.proc _ _ hp₁ ha
            have hps := stepProc_inv hv hh hr.inv.kern (fun sid fd cf hl s st e o => by
              subst hl; exact hw p₁ hp₁ s st e o) hst
            refine ⟨(updMap_other _ _ hne).trans i1, fun u sh b => ?_, fun x hx => ?_⟩
            · exact (hps.kothers _ _ _ _ hne).trans (i2 u sh b)
            · rw [hheld]
              exact (hps.others x (by rw [hx]; exact hne)).trans (i3 x hx)
          · cases hs
        · cases hs

-- process 1 forks; the child closes its copies of the streams, takes a lock and exits: the parent's locks are intact
example : (run (demoRun ++ [.fork 1 3, .act 3 (.close 10)] ++ micros 3 4 ++
      [.act 3 (.unlock 11 (some 5) 5)] ++ micros 3 2 ++
      doLock 3 0 11 (some 3) 10 false ++ [.exit 3])).map (fun x => heldOf x.2) = some demoHeld := by decide

end Verif.Props
