import Verif.Model.WinInfo
import Verif.Props.WinOpenMore
import Verif.Props.WinWrap

/-!
# C95: `times()` and `unique_id()` on windows, and the descriptors of the C library
-/

set_option autoImplicit false

namespace Verif.Props

open Verif Verif.WinInfo

/-- The claim: these calls leave the table of descriptors as it is. -/
def InfoKeeps (b : Backend) (ids : Ids) (s : State) (cs : List Call) : Prop := (run b ids s cs).2.host.cfds = s.host.cfds

/-- The result of a call that may fail: only the schedule moves. -/
theorem outside_same (s : WinOpen.St) : ∃ r sched, WinOpen.outside s = (r, { s with host := { s.host with sched := sched } }) ∧
    (s.host.sched = [] → r = .ok () ∧ sched = []) := by
  unfold WinOpen.outside
  split
  · rename_i h; exact ⟨_, [], by rw [← h], fun _ => ⟨rfl, rfl⟩⟩
  · rename_i rest h; exact ⟨_, rest, rfl, fun h' => by rw [h] at h'; cases h'⟩
  · rename_i e rest h; exact ⟨_, rest, rfl, fun h' => by rw [h] at h'; cases h'⟩

/-- With ctypes. -/
theorem ask_ctypes (s : State) : ∃ r sched, ask .ctypes s = (r, { s with host := { s.host with sched := sched } }) := by
  unfold ask information
  obtain ⟨r, sched, h1, _⟩ := outside_same ⟨s.host, ⟨some s.handle, none, true, true, true, true, false, true⟩⟩
  rw [PyM.bind_apply, h1]
  cases r with
  | error e => exact ⟨_, sched, rfl⟩
  | ok _ =>
    dsimp only
    rw [PyM.bind_apply]
    dsimp only
    cases hl : s.host.handles.lookup s.handle with
    | none => exact ⟨_, sched, rfl⟩
    | some d => exact ⟨_, sched, rfl⟩

/-- With pywin32: a result takes a descriptor, an error takes one or none. -/
theorem ask_pywin32 (s : State) : ∃ r sched, (ask .pywin32 s = (r, { s with host := { s.host with sched := sched } }) ∧ ∀ i, r ≠ .ok i) ∨
    (ask .pywin32 s = (r, { s with host := { s.host with sched := sched, cfds := (s.host.freeC, s.handle) :: s.host.cfds } }) ∧
      s.host.freeC < WinOpen.cLimit) := by
  unfold ask information
  obtain ⟨r, sched, h1, _⟩ := outside_same ⟨s.host, ⟨some s.handle, none, true, true, true, true, false, true⟩⟩
  rw [PyM.bind_apply, h1]
  cases r with
  | error e => exact ⟨_, sched, .inl ⟨rfl, nofun⟩⟩
  | ok _ =>
    dsimp only
    rw [PyM.bind_apply]
    dsimp only
    cases hl : s.host.handles.lookup s.handle with
    | none => exact ⟨_, sched, .inl ⟨rfl, nofun⟩⟩
    | some d =>
      dsimp only
      unfold WinOpen.openOsfhandle
      rw [PyM.bind_apply, PyM.bind_apply]
      obtain ⟨r, sched, h1, _⟩ := outside_same ⟨{ s.host with sched := sched }, ⟨some s.handle, none, true, true, true, true, false, true⟩⟩
      rw [h1]
      cases r with
      | error e => exact ⟨_, sched, .inl ⟨rfl, nofun⟩⟩
      | ok _ =>
        dsimp only
        rw [hl]
        simp only [Option.isNone_some, Bool.false_eq_true, if_false]
        by_cases hc : WinOpen.cLimit ≤ s.host.freeC
        · rw [show WinOpen.Host.freeC { s.host with sched := sched } = s.host.freeC from rfl, if_pos hc]
          exact ⟨_, sched, .inl ⟨rfl, nofun⟩⟩
        · rw [show WinOpen.Host.freeC { s.host with sched := sched } = s.host.freeC from rfl, if_neg hc]
          dsimp only
          unfold WinOpen.fstat
          rw [PyM.bind_apply, PyM.bind_apply]
          obtain ⟨r, sched, h1, _⟩ := outside_same ⟨{ s.host with sched := sched, cfds := (s.host.freeC, s.handle) :: s.host.cfds },
            ⟨some s.handle, none, true, true, true, true, false, true⟩⟩
          rw [h1]
          cases r with
          | error e => exact ⟨_, sched, .inr ⟨rfl, by omega⟩⟩
          | ok _ =>
            dsimp only
            cases hn : (List.lookup s.host.freeC ((s.host.freeC, s.handle) :: s.host.cfds)).bind
              (WinOpen.Host.nodeOf { s.host with sched := sched, cfds := (s.host.freeC, s.handle) :: s.host.cfds }) with
            | none => exact ⟨_, sched, .inr ⟨rfl, by omega⟩⟩
            | some n => exact ⟨_, sched, .inr ⟨rfl, by omega⟩⟩

/-- With pywin32, if no call fails for reasons of its own. -/
theorem ask_quiet (s : State) (hs : s.host.sched = []) {d : WinOpen.Handle} (hd : s.host.handles.lookup s.handle = some d)
    {n : WinOpen.Node} (hn : s.host.nodes[d.ino]? = some n) :
    ask .pywin32 s = if WinOpen.cLimit ≤ s.host.freeC then (.error (.ioError 24), s)
      else (.ok d.ino, { s with host := { s.host with cfds := (s.host.freeC, s.handle) :: s.host.cfds } }) := by
  have ho : ∀ t : WinOpen.St, t.host.sched = [] → WinOpen.outside t = (.ok (), t) := by
    intro t ht; unfold WinOpen.outside; rw [ht]
  unfold ask information
  rw [PyM.bind_ok (ho _ hs), PyM.bind_apply]
  simp only [hd]
  unfold WinOpen.openOsfhandle
  rw [PyM.bind_apply, PyM.bind_ok (ho _ hs)]
  simp only [hd, Option.isNone_some, Bool.false_eq_true, if_false]
  by_cases hc : WinOpen.cLimit ≤ s.host.freeC
  · simp only [if_pos hc]
  · simp only [if_neg hc]
    unfold WinOpen.fstat
    rw [PyM.bind_apply, PyM.bind_ok (ho _ hs)]
    simp only [List.lookup_cons, beq_self_eq_true, Option.bind_some, WinOpen.Host.nodeOf, hd, hn]
    rfl

/-! ## C95 -/

/-- What a call does to the table, with pywin32: nothing, or a descriptor of the handle more; and one more if it returns times. -/
theorem info_step (ids : Ids) (s : State) (c : Call) :
    ((step .pywin32 ids s c).2.host.cfds = s.host.cfds ∧ ∀ i, (step .pywin32 ids s c).1 ≠ .times i) ∨
    ((step .pywin32 ids s c).2.host.cfds = (s.host.freeC, s.handle) :: s.host.cfds) := by
  obtain ⟨r, sched, h⟩ := ask_pywin32 s
  cases c with
  | times =>
    simp only [step, times]
    by_cases hc : s.closed = true
    · rw [if_pos hc]; exact .inl ⟨rfl, nofun⟩
    · rw [if_neg hc]
      rcases h with ⟨h, hr⟩ | ⟨h, _⟩
      · rw [h]
        cases r with
        | ok i => exact absurd rfl (hr i)
        | error e => exact .inl ⟨rfl, nofun⟩
      · rw [h]; cases r <;> exact .inr rfl
  | uniqueId =>
    simp only [step, uniqueId]
    by_cases hc : s.closed = true
    · rw [if_pos hc]; exact .inl ⟨rfl, nofun⟩
    · rw [if_neg hc]
      cases hu : s.uid with
      | some u => exact .inl ⟨rfl, nofun⟩
      | none =>
        dsimp only
        rcases h with ⟨h, hr⟩ | ⟨h, _⟩
        · rw [h]
          cases r with
          | ok i => exact absurd rfl (hr i)
          | error e => exact .inl ⟨rfl, nofun⟩
        · rw [h]
          cases r with
          | ok i =>
            dsimp only
            by_cases hz : (ids i).1 = 0 ∨ (ids i).2 = 0
            · rw [if_pos hz]; exact .inr rfl
            · rw [if_neg hz]; exact .inr rfl
          | error e => exact .inr rfl

theorem step_handle (b : Backend) (ids : Ids) (s : State) (c : Call) : (step b ids s c).2.handle = s.handle := by
  have ha : ∃ r w, ask b s = (r, { s with host := w }) := ⟨_, _, rfl⟩
  obtain ⟨r, w, ha⟩ := ha
  cases c with
  | times =>
    simp only [step, times]
    by_cases hc : s.closed = true
    · rw [if_pos hc]
    · rw [if_neg hc, ha]; cases r <;> rfl
  | uniqueId =>
    simp only [step, uniqueId]
    by_cases hc : s.closed = true
    · rw [if_pos hc]
    · rw [if_neg hc]
      cases hu : s.uid with
      | some u => rfl
      | none =>
        dsimp only
        rw [ha]
        cases r with
        | ok i =>
          dsimp only
          by_cases hz : (ids i).1 = 0 ∨ (ids i).2 = 0
          · rw [if_pos hz]
          · rw [if_neg hz]
        | error e => rfl

/-- How many of the answers are times. -/
def timesGiven (as : List Answer) : Nat := (as.filter fun a => match a with | .times _ => true | _ => false).length

/-- C95 with ctypes: no call changes the table of descriptors.
Missing: pywin32, for which it is false (`C95_refuted`, `C95_lost`). -/
theorem C95_partial (ids : Ids) (s : State) (cs : List Call) : InfoKeeps .ctypes ids s cs := by
  have hstep : ∀ (s : State) (c : Call), (step .ctypes ids s c).2.host.cfds = s.host.cfds := by
    intro s c
    obtain ⟨r, sched, ha⟩ := ask_ctypes s
    cases c with
    | times =>
      simp only [step, times]
      by_cases hc : s.closed = true
      · rw [if_pos hc]
      · rw [if_neg hc, ha]; cases r <;> rfl
    | uniqueId =>
      simp only [step, uniqueId]
      by_cases hc : s.closed = true
      · rw [if_pos hc]
      · rw [if_neg hc]
        cases hu : s.uid with
        | some u => rfl
        | none =>
          dsimp only
          rw [ha]
          cases r with
          | ok i =>
            dsimp only
            by_cases hz : (ids i).1 = 0 ∨ (ids i).2 = 0
            · rw [if_pos hz]
            · rw [if_neg hz]
          | error e => rfl
  unfold InfoKeeps
  induction cs generalizing s with
  | nil => rfl
  | cons c cs ih => simp only [run]; rw [ih, hstep]

/-- C95 with pywin32, exactly: the table gets new descriptors of the handle of the stream, one for each `times()` that
returns, and at most one for each other call. -/
theorem C95_lost (ids : Ids) (s : State) (cs : List Call) :
    ∃ E : List Nat, (run .pywin32 ids s cs).2.host.cfds = E.map (·, s.handle) ++ s.host.cfds ∧
      timesGiven (run .pywin32 ids s cs).1 ≤ E.length ∧ E.length ≤ cs.length ∧ E.Nodup ∧ ∀ f ∈ E, s.host.cfds.lookup f = none := by
  induction cs generalizing s with
  | nil => exact ⟨[], rfl, Nat.le_refl _, Nat.le_refl _, List.nodup_nil, nofun⟩
  | cons c cs ih =>
    obtain ⟨E, h1, h2, h3, h4, h5⟩ := ih (step .pywin32 ids s c).2
    rw [step_handle] at h1
    simp only [run]
    rcases info_step ids s c with ⟨g1, g2⟩ | g1
    · refine ⟨E, by rw [h1, g1], ?_, Nat.le_succ_of_le h3, h4, by rw [g1] at h5; exact h5⟩
      have : timesGiven ((step .pywin32 ids s c).1 :: (run .pywin32 ids (step .pywin32 ids s c).2 cs).1) =
          timesGiven (run .pywin32 ids (step .pywin32 ids s c).2 cs).1 := by
        unfold timesGiven
        cases ha : (step .pywin32 ids s c).1 with
        | times i => exact absurd ha (g2 i)
        | uid u => rfl
        | error e => rfl
      omega
    · rw [g1] at h5
      refine ⟨E ++ [s.host.freeC], by rw [h1, g1]; simp, ?_, by simp; omega, ?_, ?_⟩
      · have : timesGiven ((step .pywin32 ids s c).1 :: (run .pywin32 ids (step .pywin32 ids s c).2 cs).1) ≤
            timesGiven (run .pywin32 ids (step .pywin32 ids s c).2 cs).1 + 1 := by
          unfold timesGiven
          cases (step .pywin32 ids s c).1 <;> simp
        simp only [List.length_append, List.length_cons, List.length_nil]
        omega
      · rw [List.nodup_append]
        refine ⟨h4, by simp, ?_⟩
        intro a ha b hb
        rw [List.mem_singleton.1 hb]
        intro e
        have := h5 a ha
        rw [e, List.lookup_cons, beq_self_eq_true] at this
        cases this
      · intro f hf
        rcases List.mem_append.1 hf with hf | hf
        · have := h5 f hf
          rw [List.lookup_cons] at this
          split at this
          · cases this
          · exact this
        · rw [List.mem_singleton.1 hf]; exact WinOpen.freeC_free _

/-- C95: `unique_id()` asks the system once. -/
theorem C95_cached (b : Backend) (ids : Ids) (s : State) {u : Nat × Nat} (h : (uniqueId b ids s).1 = .ok u) (cs : List Call)
    (hcs : ∀ c ∈ cs, c = .uniqueId) :
    run b ids (uniqueId b ids s).2 cs = (cs.map fun _ => .uid u, (uniqueId b ids s).2) := by
  have key : (uniqueId b ids s).2.closed = false ∧ (uniqueId b ids s).2.uid = some u := by
    have ha : ∃ r w, ask b s = (r, { s with host := w }) := ⟨_, _, rfl⟩
    obtain ⟨r, w, ha⟩ := ha
    unfold uniqueId at h ⊢
    by_cases hc : s.closed = true
    · rw [if_pos hc] at h; cases h
    · rw [if_neg hc] at h ⊢
      have hc' : s.closed = false := by simpa using hc
      cases hu : s.uid with
      | some v =>
        rw [hu] at h
        cases h
        exact ⟨hc', hu⟩
      | none =>
        rw [hu] at h
        dsimp only at h ⊢
        rw [ha] at h ⊢
        cases r with
        | error e => cases h
        | ok i =>
          dsimp only at h ⊢
          by_cases hz : (ids i).1 = 0 ∨ (ids i).2 = 0
          · rw [if_pos hz] at h; cases h
          · rw [if_neg hz] at h ⊢
            cases h
            exact ⟨hc', rfl⟩
  generalize (uniqueId b ids s).2 = t at key
  have hstep : step b ids t .uniqueId = (.uid u, t) := by simp [step, uniqueId, key]
  induction cs with
  | nil => rfl
  | cons c cs ih =>
    rw [hcs c (by simp)]
    simp only [run, hstep, List.map_cons]
    rw [ih fun c hc => hcs c (List.mem_cons_of_mem _ hc)]

/-- C95 fails in practice: who asks for the times of an open file again and again gets an error after at most 8192 times. -/
theorem C95_exhausted (ids : Ids) (s : State) (hopen : s.closed = false) (hs : s.host.sched = []) {d : WinOpen.Handle}
    (hd : s.host.handles.lookup s.handle = some d) {n : WinOpen.Node} (hn : s.host.nodes[d.ino]? = some n) :
    ∃ k, k ≤ 8192 ∧ (times .pywin32 (run .pywin32 ids s (List.replicate k .times)).2).1 = .error (.ioError 24) := by
  suffices h : ∀ (m : Nat) (s : State), freeCount s.host ≤ m → s.closed = false → s.host.sched = [] →
      s.host.handles.lookup s.handle = some d → s.host.nodes[d.ino]? = some n →
      ∃ k, k ≤ m ∧ (times .pywin32 (run .pywin32 ids s (List.replicate k .times)).2).1 = .error (.ioError 24) from
    h 8192 s (freeCount_le _) hopen hs hd hn
  intro m
  induction m with
  | zero =>
    intro s hm ho hs hd hn
    refine ⟨0, Nat.le_refl _, ?_⟩
    simp only [List.replicate_zero, run, times, ho, Bool.false_eq_true, if_false]
    rw [ask_quiet s hs hd hn]
    by_cases hc : WinOpen.cLimit ≤ s.host.freeC
    · rw [if_pos hc]
    · exfalso
      have := freeCount_lost (w := s.host) (w' := { s.host with cfds := (s.host.freeC, s.handle) :: s.host.cfds })
        (WinOpen.freeC_free _) (by omega) rfl
      omega
  | succ m ih =>
    intro s hm ho hs hd hn
    by_cases hc : WinOpen.cLimit ≤ s.host.freeC
    · refine ⟨0, Nat.zero_le _, ?_⟩
      simp only [List.replicate_zero, run, times, ho, Bool.false_eq_true, if_false]
      rw [ask_quiet s hs hd hn, if_pos hc]
    · have hlt : freeCount { s.host with cfds := (s.host.freeC, s.handle) :: s.host.cfds } < freeCount s.host :=
        freeCount_lost (WinOpen.freeC_free _) (by omega) rfl
      obtain ⟨k, h1, h2⟩ := ih { s with host := { s.host with cfds := (s.host.freeC, s.handle) :: s.host.cfds } }
        (Nat.le_of_lt_succ (Nat.lt_of_lt_of_le hlt hm)) ho hs hd hn
      refine ⟨k + 1, by omega, ?_⟩
      have hstep : (step .pywin32 ids s .times).2 = { s with host := { s.host with cfds := (s.host.freeC, s.handle) :: s.host.cfds } } := by
        unfold step times
        rw [if_neg (by rw [ho]; simp), ask_quiet s hs hd hn, if_neg hc]
      simp only [List.replicate_succ, run]
      rw [hstep]
      exact h2

/-- A stream on the handle 16, a file. -/
def infoStream : State := ⟨winOpened, 16, false, none⟩

example : infoStream.host.sched = [] ∧ (infoStream.host.handles.lookup infoStream.handle).isSome = true := by decide

/-- C95 is false with pywin32: `times()` loses a descriptor. -/
theorem C95_refuted : ¬ ∀ (b : Backend) (ids : Ids) (s : State) (cs : List Call), InfoKeeps b ids s cs := by
  intro h
  have := h .pywin32 (fun i => (1, i + 1)) infoStream [.times]
  unfold InfoKeeps at this
  revert this
  decide +kernel

-- `unique_id()` loses one, `times()` one each time; with ctypes none is lost
example : (run .pywin32 (fun i => (1, i + 1)) infoStream [.uniqueId, .times, .uniqueId, .times]).1 =
    [.uid (1, 1), .times 0, .uid (1, 1), .times 0] ∧
    (run .pywin32 (fun i => (1, i + 1)) infoStream [.uniqueId, .times, .uniqueId, .times]).2.host.cfds =
      (7, 16) :: (6, 16) :: (5, 16) :: winOpened.cfds ∧
    (run .ctypes (fun i => (1, i + 1)) infoStream [.uniqueId, .times]).1 = [.uid (1, 1), .times 0] := by decide +kernel

end Verif.Props
