import Verif.Lemmas.Registry

/-!
# Properties of the intra-process lock registry: C03, C04, C06 (registry part), C08

`demo` is the concrete registry used to show that hypotheses can be met: process 7 owns, on file (1,5), an
exclusive lock [0,10) and a shared lock [20,∞) of handle 3, and a shared lock [30,40) of handle 4.
-/

namespace Verif.Props

open Verif Verif.Spec

def demo : Registry :=
  ⟨7, fun u => if u = (1, 5) then
      some ⟨[⟨3, false, 0, some 10⟩, ⟨3, true, 20, none⟩, ⟨4, true, 30, some 40⟩], [], 0⟩ else none⟩

/-! ## C03 -/

/-- C03: a request from a handle that owns none of the requested bytes is accepted iff no lock of another
handle shares a byte with it, one of the two being exclusive; otherwise the answer is `False` (never an
exception). -/
theorem C03_grant_iff (pid : Nat) (r : Registry) (uid : Uid) (h : Nat) (len : Option Int) (s : Int)
    (sh : Bool) (stop : Option Int) (hstop : EndOf s len stop)
    (hown : ∀ x ∈ tableOf pid r uid, x.handle = h → ¬ Meet x.start x.stop s stop) :
    ((r.register pid uid h len s sh).1 = .ok true ↔
      ¬ ∃ x ∈ tableOf pid r uid, x.handle ≠ h ∧ Meet x.start x.stop s stop ∧
        (x.shared = false ∨ sh = false)) ∧
    ((r.register pid uid h len s sh).1 = .ok true ∨ (r.register pid uid h len s sh).1 = .ok false) := by
  rw [endOf_unique hstop] at *
  rw [register_fst]
  constructor
  · rw [scan_true_iff]
    constructor
    · rintro hall ⟨x, hx, hne, hm, hsh⟩
      exact hall x hx ⟨hm, Or.inr hsh⟩
    · rintro hno x hx ⟨hm, hh | hsh⟩
      · exact hown x hx hh hm
      · by_cases hh : x.handle = h
        · exact hown x hx hh hm
        · exact hno ⟨x, hx, hh, hm, hsh⟩
  · rcases scan_cases h sh s (newEnd s len) (tableOf pid r uid) with h1 | h1 | h1
    · exact Or.inl h1
    · exact Or.inr h1
    · obtain ⟨_, x, hx, hh, hm⟩ := scan_error_mem h1
      exact absurd hm (hown x hx hh)

/-- C03, effect: an accepted request adds exactly one lock, on exactly that file; a refused one changes no
lock. -/
theorem C03_grant_effect (pid : Nat) (r : Registry) (uid : Uid) (h : Nat) (len : Option Int) (s : Int)
    (sh : Bool) (stop : Option Int) (hstop : EndOf s len stop) (u : Uid) :
    tableOf pid (r.register pid uid h len s sh).2 u =
      if u = uid ∧ (r.register pid uid h len s sh).1 = .ok true
      then tableOf pid r u ++ [⟨h, sh, s, stop⟩] else tableOf pid r u := by
  rw [endOf_unique hstop]
  by_cases ho : (r.register pid uid h len s sh).1 = .ok true
  · have := register_ok (r' := (r.register pid uid h len s sh).2) (Prod.ext ho rfl)
    rw [this.2.1]
    by_cases hu : u = uid
    · subst hu; simp [ho]
    · simp [hu]
  · have := register_nok (r' := (r.register pid uid h len s sh).2) (o := (r.register pid uid h len s sh).1)
      rfl ho
    rw [this.2.1]; simp [ho]

-- the hypotheses of C03 are met by a request that is refused and by one that is granted
example : EndOf 5 (some 3) (some 8) ∧
    (∀ x ∈ tableOf 7 demo (1, 5), x.handle = 9 → ¬ Meet x.start x.stop 5 (some 8)) ∧
    (demo.register 7 (1, 5) 9 (some 3) 5 true).1 = .ok false := by
  refine ⟨Or.inr ⟨3, by decide⟩, ?_, by decide⟩
  intro x hx; simp [tableOf, demo] at hx; rcases hx with rfl | rfl | rfl <;> simp

example : EndOf 10 (some 10) (some 20) ∧
    (∀ x ∈ tableOf 7 demo (1, 5), x.handle = 9 → ¬ Meet x.start x.stop 10 (some 20)) ∧
    (demo.register 7 (1, 5) 9 (some 10) 10 false).1 = .ok true := by
  refine ⟨Or.inr ⟨10, by decide⟩, ?_, by decide⟩
  intro x hx; simp [tableOf, demo] at hx; rcases hx with rfl | rfl | rfl <;> simp

/-! ## C04 -/

/-- C04: a request that overlaps a lock of the same handle is never accepted; it raises `RuntimeError`, unless a
lock of another handle conflicts (then the answer may be `False`); in all cases no lock of the process
changes. -/
theorem C04_not_reentrant (pid : Nat) (r : Registry) (uid : Uid) (h : Nat) (len : Option Int) (s : Int)
    (sh : Bool) (stop : Option Int) (hstop : EndOf s len stop)
    (x : LockRec) (hx : x ∈ tableOf pid r uid) (hh : x.handle = h) (hm : Meet x.start x.stop s stop) :
    ((r.register pid uid h len s sh).1 = .error .runtimeError ∨
      ((r.register pid uid h len s sh).1 = .ok false ∧
        ∃ y ∈ tableOf pid r uid, y.handle ≠ h ∧ Meet y.start y.stop s stop ∧
          (y.shared = false ∨ sh = false))) ∧
    ∀ u, tableOf pid (r.register pid uid h len s sh).2 u = tableOf pid r u := by
  rw [endOf_unique hstop] at *
  have hfst := register_fst pid r uid h len s sh
  have hnt : (r.register pid uid h len s sh).1 ≠ .ok true := by
    rw [hfst]; intro hc
    exact (scan_true_iff _ _ _ _ _).1 hc x hx ⟨hm, Or.inl hh⟩
  refine ⟨?_, (register_nok (r' := (r.register pid uid h len s sh).2)
      (o := (r.register pid uid h len s sh).1) rfl hnt).2.1⟩
  rcases scan_cases h sh s (newEnd s len) (tableOf pid r uid) with h1 | h1 | h1
  · exact absurd (hfst.trans h1) hnt
  · right
    obtain ⟨y, hy, hne, hc⟩ := scan_false_mem h1
    refine ⟨hfst.trans h1, y, hy, hne, hc.1, ?_⟩
    rcases hc.2 with h2 | h2
    · exact absurd h2 hne
    · exact h2
  · exact Or.inl (hfst.trans h1)

/-- C04, strict form: when no other handle conflicts, the error is certain. -/
theorem C04_runtimeError (pid : Nat) (r : Registry) (uid : Uid) (h : Nat) (len : Option Int) (s : Int)
    (sh : Bool) (stop : Option Int) (hstop : EndOf s len stop)
    (x : LockRec) (hx : x ∈ tableOf pid r uid) (hh : x.handle = h) (hm : Meet x.start x.stop s stop)
    (hno : ∀ y ∈ tableOf pid r uid, y.handle ≠ h → Meet y.start y.stop s stop →
      y.shared = true ∧ sh = true) :
    (r.register pid uid h len s sh).1 = .error .runtimeError := by
  rcases (C04_not_reentrant pid r uid h len s sh stop hstop x hx hh hm).1 with h1 | ⟨_, y, hy, hne, hm', hsh⟩
  · exact h1
  · obtain ⟨a, b⟩ := hno y hy hne hm'
    rcases hsh with h1 | h1 <;> simp_all

example : (demo.register 7 (1, 5) 3 none 35 true).1 = .error .runtimeError ∧
    (⟨3, true, 20, none⟩ : LockRec) ∈ tableOf 7 demo (1, 5) ∧ Meet 20 none 35 none := by
  refine ⟨by decide, by simp [tableOf, demo], 35, ?_, ?_⟩ <;> simp [Covers]

/-! ## C06 (registry part) -/

/-- C06: closing (through `remove_file_locks`) removes all the locks of the closed handle on its file, and keeps,
in order, those of other handles and those of other files; doing it again changes nothing. -/
theorem C06_registry_remove (pid : Nat) (r : Registry) (uid : Uid) (h : Nat) :
    (∀ x, x ∈ tableOf pid (r.removeFileLocks pid uid h).2 uid ↔ x ∈ tableOf pid r uid ∧ x.handle ≠ h) ∧
    (tableOf pid (r.removeFileLocks pid uid h).2 uid).Sublist (tableOf pid r uid) ∧
    (∀ u, u ≠ uid → tableOf pid (r.removeFileLocks pid uid h).2 u = tableOf pid r u) ∧
    (∀ x, x ∈ (r.removeFileLocks pid uid h).1 ↔ x ∈ tableOf pid r uid ∧ x.handle = h) ∧
    (∀ u, pendingOf pid (r.removeFileLocks pid uid h).2 u = pendingOf pid r u) ∧
    ((r.removeFileLocks pid uid h).2.removeFileLocks pid uid h).1 = [] ∧
    ∀ u, tableOf pid ((r.removeFileLocks pid uid h).2.removeFileLocks pid uid h).2 u =
      tableOf pid (r.removeFileLocks pid uid h).2 u := by
  obtain ⟨h1, h2, h3, h4, h5, h6⟩ := removeFileLocks_view pid r uid h
  obtain ⟨g1, g2, g3, g4, g5, g6⟩ := removeFileLocks_view pid (r.removeFileLocks pid uid h).2 uid h
  refine ⟨fun x => ?_, ?_, fun u hu => ?_, fun x => ?_, h4, ?_, fun u => ?_⟩
  · rw [h3]; simp
  · rw [h3, if_pos rfl]; exact List.filter_sublist
  · rw [h3, if_neg hu]
  · rw [h1]; simp
  · rw [g1, h3, if_pos rfl]; simp [List.filter_filter]
  · rw [g3]; split
    · rename_i hu; subst hu; rw [h3, if_pos rfl]; simp [List.filter_filter]
    · rfl

example : (demo.removeFileLocks 7 (1, 5) 3).1.length = 2 ∧
    tableOf 7 (demo.removeFileLocks 7 (1, 5) 3).2 (1, 5) = [⟨4, true, 30, some 40⟩] := by decide

/-! ## C08 -/

/-- C08: if the handle owns a lock with exactly this range, unlocking succeeds and removes one such record and
nothing else, on no other file. -/
theorem C08_unlock_exact (pid : Nat) (r : Registry) (uid : Uid) (h : Nat) (len : Option Int) (s : Int)
    (stop : Option Int) (hstop : EndOf s len stop)
    (x : LockRec) (hx : x ∈ tableOf pid r uid) (hxh : x.handle = h) (hxs : x.start = s) (hxe : x.stop = stop) :
    ∃ b l₁ y l₂, (r.unregister pid uid h len s).1 = .ok b ∧
      y.handle = h ∧ y.start = s ∧ y.stop = stop ∧
      tableOf pid r uid = l₁ ++ y :: l₂ ∧
      tableOf pid (r.unregister pid uid h len s).2 uid = l₁ ++ l₂ ∧
      (b = true ↔ l₁ ++ l₂ = []) ∧
      ∀ u, u ≠ uid → tableOf pid (r.unregister pid uid h len s).2 u = tableOf pid r u := by
  rw [endOf_unique hstop] at *
  have hmx : x.matchesRange h s (newEnd s len) = true := matchesRange_iff.2 ⟨hxh, hxs, hxe⟩
  obtain ⟨y, l₁, l₂, hl, hpy, heq, her⟩ := List.exists_of_eraseP hx hmx
  rw [matchesRange_iff] at hpy
  rcases ho : (r.unregister pid uid h len s) with ⟨o, r'⟩
  cases o with
  | error e =>
    have := (unregister_error ho).2.2 x hx
    rw [hmx] at this; cases this
  | ok b =>
    obtain ⟨h1, h2, h3, h4, h5, h6⟩ := unregister_ok ho
    refine ⟨b, l₁, y, l₂, rfl, hpy.1, hpy.2.1, hpy.2.2, heq, ?_, ?_, fun u hu => ?_⟩
    · simp only [h2, if_pos, her]
    · -- value of the returned boolean
      simp only [Registry.unregister, Registry.tryUnlockingRange] at ho
      split at ho
      · rename_i hn
        obtain ⟨g, _⟩ := checkForking_entries_none hn
        rw [g] at hx; simp at hx
      · rename_i e he
        obtain ⟨g, _⟩ := checkForking_entries_some he
        split at ho
        · simp only [Prod.mk.injEq, Except.ok.injEq] at ho
          rw [← ho.1, ← g, her]; simp
        · simp at ho
    · simp only [h2, if_neg hu]

/-- C08, refusal (partial): if the process has locks on the file but none of this handle with this exact range,
unlocking raises `RuntimeError` and changes no lock.  Missing: the case where the process has no registry
entry for the file, where the code reports success (see `C08_unlock_unowned_refuted`). -/
theorem C08_unlock_unowned_partial (pid : Nat) (r : Registry) (uid : Uid) (h : Nat) (len : Option Int)
    (s : Int) (stop : Option Int) (hstop : EndOf s len stop) (hne : tableOf pid r uid ≠ [])
    (hno : ∀ x ∈ tableOf pid r uid, ¬ (x.handle = h ∧ x.start = s ∧ x.stop = stop)) :
    (r.unregister pid uid h len s).1 = .error .runtimeError ∧
    ∀ u, tableOf pid (r.unregister pid uid h len s).2 u = tableOf pid r u := by
  rw [endOf_unique hstop] at *
  rcases ho : (r.unregister pid uid h len s) with ⟨o, r'⟩
  cases o with
  | error e =>
    obtain ⟨rfl, rfl, _⟩ := unregister_error ho
    exact ⟨rfl, by simp⟩
  | ok b =>
    exfalso
    rcases (unregister_ok ho).2.2.2.2.2 with ⟨x, hx, hm⟩ | ⟨he, _⟩
    · exact hno x hx (matchesRange_iff.1 hm)
    · exact hne he

/-- In every case unlocking something that is not owned changes no lock of the process. -/
theorem C08_unlock_unowned_harmless (pid : Nat) (r : Registry) (uid : Uid) (h : Nat) (len : Option Int)
    (s : Int) (stop : Option Int) (hstop : EndOf s len stop)
    (hno : ∀ x ∈ tableOf pid r uid, ¬ (x.handle = h ∧ x.start = s ∧ x.stop = stop)) (u : Uid) :
    tableOf pid (r.unregister pid uid h len s).2 u = tableOf pid r u := by
  by_cases hne : tableOf pid r uid = []
  · rcases ho : (r.unregister pid uid h len s) with ⟨o, r'⟩
    cases o with
    | error e => obtain ⟨rfl, rfl, _⟩ := unregister_error ho; simp
    | ok b =>
      rw [(unregister_ok ho).2.1]; split
      · rename_i hu; subst hu; simp [hne]
      · rfl
  · exact (C08_unlock_unowned_partial pid r uid h len s stop hstop hne hno).2 u

/-- The full refusal claim of C08 is false of the code: without an entry for the file, unlocking a range that
nobody locked is reported as a success (`rsfile_registries.py:151-152`). -/
theorem C08_unlock_unowned_refuted :
    ¬ ∀ (pid : Nat) (r : Registry) (uid : Uid) (h : Nat) (len : Option Int) (s : Int),
      (∀ x ∈ tableOf pid r uid, ¬ (x.handle = h ∧ x.start = s ∧ x.stop = newEnd s len)) →
      (r.unregister pid uid h len s).1 = .error .runtimeError := by
  intro hall
  have := hall 7 demo (2, 2) 3 (some 4) 0 (by simp [tableOf, demo])
  revert this; decide

example : EndOf 0 (some 10) (some 10) ∧ (⟨3, false, 0, some 10⟩ : LockRec) ∈ tableOf 7 demo (1, 5) ∧
    (demo.unregister 7 (1, 5) 3 (some 10) 0).1 = .ok false := by
  refine ⟨Or.inr ⟨10, by decide⟩, by simp [tableOf, demo], by decide⟩

-- a near miss (wrong length) and a lock of another handle are refused
example : (demo.unregister 7 (1, 5) 3 (some 9) 0).1 = .error .runtimeError ∧
    (demo.unregister 7 (1, 5) 3 (some 10) 30).1 = .error .runtimeError ∧
    tableOf 7 demo (1, 5) ≠ [] := by decide

end Verif.Props
