import Verif.Model.Registry
import Verif.Spec.RegistryView

/-! Auxiliary lemmas on the registry model. -/

namespace Verif

open Spec

@[simp] theorem updMap_same {α β : Type} [DecidableEq α] (f : α → β) (a : α) (b : β) :
    updMap f a b a = b := by simp [updMap]

theorem updMap_other {α β : Type} [DecidableEq α] (f : α → β) {a x : α} (b : β) (h : x ≠ a) :
    updMap f a b x = f x := by simp [updMap, h]

theorem covers_iff (s : Int) (e : Option Int) (b : Int) :
    Covers s e b ↔ s ≤ b ∧ (match e with | none => True | some x => b < x) := by
  cases e <;> simp [Covers]

theorem meet_comm {s₁ : Int} {e₁ : Option Int} {s₂ : Int} {e₂ : Option Int} :
    Meet s₁ e₁ s₂ e₂ ↔ Meet s₂ e₂ s₁ e₁ :=
  ⟨fun ⟨b, h, h'⟩ => ⟨b, h', h⟩, fun ⟨b, h, h'⟩ => ⟨b, h', h⟩⟩

theorem areasOverlap_iff (r : LockRec) (s : Int) (e : Option Int) :
    areasOverlap r s e = true ↔ Meet r.start r.stop s e := by
  obtain ⟨h, sh, s₁, e₁⟩ := r
  simp only [areasOverlap, Meet, covers_iff, minEnd]
  cases e₁ with
  | none =>
    cases e with
    | none => simp only [true_iff]; exact ⟨max s₁ s, ⟨by omega, trivial⟩, by omega, trivial⟩
    | some x =>
      simp only [decide_eq_true_eq]
      constructor
      · intro h; exact ⟨max s₁ s, ⟨by omega, trivial⟩, by omega, h⟩
      · rintro ⟨b, ⟨h1, _⟩, h2, h3⟩; omega
  | some y =>
    cases e with
    | none =>
      simp only [decide_eq_true_eq]
      constructor
      · intro h; exact ⟨max s₁ s, ⟨by omega, h⟩, by omega, trivial⟩
      · rintro ⟨b, ⟨h1, _⟩, h2, h3⟩; omega
    | some x =>
      by_cases hxy : x < y
      · simp only [hxy, if_true, decide_eq_true_eq]
        constructor
        · intro h; exact ⟨max s₁ s, ⟨by omega, by omega⟩, by omega, h⟩
        · rintro ⟨b, ⟨h1, _⟩, h2, h3⟩; omega
      · simp only [hxy, if_false, decide_eq_true_eq]
        constructor
        · intro h; exact ⟨max s₁ s, ⟨by omega, by omega⟩, by omega, by omega⟩
        · rintro ⟨b, ⟨h1, _⟩, h2, h3⟩; omega

theorem newEnd_spec (s : Int) (l : Option Int) : EndOf s l (newEnd s l) := by
  cases l with
  | none => simp [EndOf, newEnd]
  | some l => by_cases h : l = 0 <;> simp [EndOf, newEnd, h]

theorem endOf_unique {s : Int} {l e : Option Int} (h : EndOf s l e) : e = newEnd s l := by
  rcases h with ⟨h | h, rfl⟩ | ⟨x, rfl, hx, rfl⟩ <;> simp [newEnd, *]

/-- The loop accepts exactly when nothing conflicts. -/
theorem scan_true_iff (h : Nat) (sh : Bool) (s : Int) (e : Option Int) (L : List LockRec) :
    scanLocks h sh s e L = .ok true ↔ ∀ r ∈ L, ¬ ConflictsWith r h sh s e := by
  induction L with
  | nil => simp [scanLocks]
  | cons r rs ih =>
    have ho := areasOverlap_iff r s e
    simp only [scanLocks, List.forall_mem_cons, ConflictsWith]
    simp only [ConflictsWith] at ih
    by_cases h1 : r.handle ≠ h ∧ r.shared = true ∧ sh = true
    · rw [if_pos h1, ih]
      obtain ⟨a, b, c⟩ := h1
      simp [a, b, c]
    · rw [if_neg h1]
      have h1' : r.handle = h ∨ r.shared = false ∨ sh = false := by
        cases hs : r.shared <;> cases sh <;> simp_all
      by_cases h2 : areasOverlap r s e = true
      · rw [if_pos h2]
        rw [ho] at h2
        have hl : ¬ ((if r.handle = h then (.error .runtimeError : Except Exn Bool) else .ok false) = .ok true) := by
          split <;> simp
        exact ⟨fun hc => absurd hc hl, fun hc => absurd ⟨h2, h1'⟩ hc.1⟩
      · rw [if_neg h2, ih]
        rw [ho] at h2
        simp [h2]

theorem scan_cases (h : Nat) (sh : Bool) (s : Int) (e : Option Int) (L : List LockRec) :
    scanLocks h sh s e L = .ok true ∨ scanLocks h sh s e L = .ok false ∨
    scanLocks h sh s e L = .error .runtimeError := by
  induction L with
  | nil => simp [scanLocks]
  | cons r rs ih =>
    simp only [scanLocks]
    split
    · exact ih
    · split
      · split <;> simp
      · exact ih

theorem scan_false_mem {h : Nat} {sh : Bool} {s : Int} {e : Option Int} {L : List LockRec}
    (hs : scanLocks h sh s e L = .ok false) :
    ∃ r ∈ L, r.handle ≠ h ∧ ConflictsWith r h sh s e := by
  induction L with
  | nil => simp [scanLocks] at hs
  | cons r rs ih =>
    simp only [scanLocks] at hs
    split at hs
    · obtain ⟨x, hx, h'⟩ := ih hs; exact ⟨x, by simp [hx], h'⟩
    · rename_i h1
      split at hs
      · rename_i h2
        split at hs
        · simp at hs
        · rename_i h3
          refine ⟨r, by simp, h3, (areasOverlap_iff r s e).1 h2, ?_⟩
          cases hs : r.shared <;> cases sh <;> simp_all
      · obtain ⟨x, hx, h'⟩ := ih hs; exact ⟨x, by simp [hx], h'⟩

theorem scan_error_mem {h : Nat} {sh : Bool} {s : Int} {e : Option Int} {L : List LockRec} {x : Exn}
    (hs : scanLocks h sh s e L = .error x) :
    x = .runtimeError ∧ ∃ r ∈ L, r.handle = h ∧ Meet r.start r.stop s e := by
  induction L with
  | nil => simp [scanLocks] at hs
  | cons r rs ih =>
    simp only [scanLocks] at hs
    split at hs
    · obtain ⟨x, r', hx, h'⟩ := ih hs; exact ⟨x, r', by simp [hx], h'⟩
    · split at hs
      · rename_i h2
        split at hs
        · rename_i h3
          simp only [Except.error.injEq] at hs
          exact ⟨hs.symm, r, by simp, h3, (areasOverlap_iff r s e).1 h2⟩
        · simp at hs
      · obtain ⟨x, r', hx, h'⟩ := ih hs; exact ⟨x, r', by simp [hx], h'⟩

@[simp] theorem checkForking_pid (pid : Nat) (r : Registry) : (r.checkForking pid).originalPid = pid := by
  unfold Registry.checkForking; split <;> simp_all

@[simp] theorem tableOf_checkForking (pid : Nat) (r : Registry) (uid : Uid) :
    tableOf pid (r.checkForking pid) uid = tableOf pid r uid := by
  by_cases h : pid = r.originalPid
  · simp [Registry.checkForking, h]
  · have h' : ¬ r.originalPid = pid := fun e => h e.symm
    simp [Registry.checkForking, h, tableOf, h']

@[simp] theorem pendingOf_checkForking (pid : Nat) (r : Registry) (uid : Uid) :
    pendingOf pid (r.checkForking pid) uid = pendingOf pid r uid := by
  by_cases h : pid = r.originalPid
  · simp [Registry.checkForking, h]
  · have h' : ¬ r.originalPid = pid := fun e => h e.symm
    simp [Registry.checkForking, h, pendingOf, h']

@[simp] theorem waitingOf_checkForking (pid : Nat) (r : Registry) (uid : Uid) :
    waitingOf pid (r.checkForking pid) uid = waitingOf pid r uid := by
  by_cases h : pid = r.originalPid
  · simp [Registry.checkForking, h]
  · have h' : ¬ r.originalPid = pid := fun e => h e.symm
    simp [Registry.checkForking, h, waitingOf, h']

@[simp] theorem set_pid (r : Registry) (uid : Uid) (e : Entry) : (r.set uid e).originalPid = r.originalPid := rfl
@[simp] theorem del_pid (r : Registry) (uid : Uid) : (r.del uid).originalPid = r.originalPid := rfl
@[simp] theorem set_entries_same (r : Registry) (uid : Uid) (e : Entry) : (r.set uid e).entries uid = some e := by
  simp [Registry.set]
theorem set_entries_other (r : Registry) {uid u : Uid} (e : Entry) (h : u ≠ uid) :
    (r.set uid e).entries u = r.entries u := by simp [Registry.set, updMap, h]
@[simp] theorem del_entries_same (r : Registry) (uid : Uid) : (r.del uid).entries uid = none := by
  simp [Registry.del]
theorem del_entries_other (r : Registry) {uid u : Uid} (h : u ≠ uid) :
    (r.del uid).entries u = r.entries u := by simp [Registry.del, updMap, h]

theorem tableOf_own {pid : Nat} {r : Registry} (h : r.originalPid = pid) (uid : Uid) :
    tableOf pid r uid = (r.getOrCreate uid).locks := by
  unfold tableOf Registry.getOrCreate; rw [if_pos h]; cases r.entries uid <;> rfl

theorem pendingOf_own {pid : Nat} {r : Registry} (h : r.originalPid = pid) (uid : Uid) :
    pendingOf pid r uid = (r.getOrCreate uid).data := by
  unfold pendingOf Registry.getOrCreate; rw [if_pos h]; cases r.entries uid <;> rfl

theorem waitingOf_own {pid : Nat} {r : Registry} (h : r.originalPid = pid) (uid : Uid) :
    waitingOf pid r uid = (r.getOrCreate uid).waiting := by
  unfold waitingOf Registry.getOrCreate; rw [if_pos h]; cases r.entries uid <;> rfl

theorem tableOf_set {pid : Nat} {r : Registry} (h : r.originalPid = pid) (uid u : Uid) (e : Entry) :
    tableOf pid (r.set uid e) u = if u = uid then e.locks else tableOf pid r u := by
  by_cases hu : u = uid
  · subst hu; simp [tableOf, h]
  · simp [tableOf, h, hu, set_entries_other]

theorem pendingOf_set {pid : Nat} {r : Registry} (h : r.originalPid = pid) (uid u : Uid) (e : Entry) :
    pendingOf pid (r.set uid e) u = if u = uid then e.data else pendingOf pid r u := by
  by_cases hu : u = uid
  · subst hu; simp [pendingOf, h]
  · simp [pendingOf, h, hu, set_entries_other]

theorem waitingOf_set {pid : Nat} {r : Registry} (h : r.originalPid = pid) (uid u : Uid) (e : Entry) :
    waitingOf pid (r.set uid e) u = if u = uid then e.waiting else waitingOf pid r u := by
  by_cases hu : u = uid
  · subst hu; simp [waitingOf, h]
  · simp [waitingOf, h, hu, set_entries_other]

/-- Changing an entry without touching any of its fields (an entry may be created) is not observable. -/
theorem touch_view {pid : Nat} {r : Registry} (hp : r.originalPid = pid) (uid : Uid) :
    (∀ u, tableOf pid (r.set uid (r.getOrCreate uid)) u = tableOf pid r u) ∧
    (∀ u, pendingOf pid (r.set uid (r.getOrCreate uid)) u = pendingOf pid r u) ∧
    (∀ u, waitingOf pid (r.set uid (r.getOrCreate uid)) u = waitingOf pid r u) := by
  refine ⟨fun u => ?_, fun u => ?_, fun u => ?_⟩
  · rw [tableOf_set hp]; split
    · rename_i h; subst h; rw [tableOf_own hp]
    · rfl
  · rw [pendingOf_set hp]; split
    · rename_i h; subst h; rw [pendingOf_own hp]
    · rfl
  · rw [waitingOf_set hp]; split
    · rename_i h; subst h; rw [waitingOf_own hp]
    · rfl

/-- The result of a registration attempt is that of the scan of the table of the process. -/
theorem register_fst (pid : Nat) (r : Registry) (uid : Uid) (h : Nat) (len : Option Int) (s : Int)
    (sh : Bool) :
    (r.register pid uid h len s sh).1 = scanLocks h sh s (newEnd s len) (tableOf pid r uid) := by
  have hp : (r.checkForking pid).originalPid = pid := by simp
  have ht : tableOf pid r uid = ((r.checkForking pid).getOrCreate uid).locks := by
    rw [← tableOf_own hp, tableOf_checkForking]
  simp only [Registry.register, Registry.tryLockingRange, ht]
  split <;> simp_all

/-- Effect of an accepted registration. -/
theorem register_ok {pid : Nat} {r r' : Registry} {uid : Uid} {h : Nat} {len : Option Int} {s : Int}
    {sh : Bool} (hr : r.register pid uid h len s sh = (.ok true, r')) :
    r'.originalPid = pid ∧
    (∀ u, tableOf pid r' u =
      if u = uid then tableOf pid r uid ++ [⟨h, sh, s, newEnd s len⟩] else tableOf pid r u) ∧
    (∀ u, pendingOf pid r' u = pendingOf pid r u) ∧
    (∀ u, waitingOf pid r' u = waitingOf pid r u) ∧
    r'.entries uid ≠ none ∧ (∀ u, u ≠ uid → r'.entries u = (r.checkForking pid).entries u) := by
  have hp : (r.checkForking pid).originalPid = pid := by simp
  have ht : tableOf pid r uid = ((r.checkForking pid).getOrCreate uid).locks := by
    rw [← tableOf_own hp, tableOf_checkForking]
  have hd : pendingOf pid r uid = ((r.checkForking pid).getOrCreate uid).data := by
    rw [← pendingOf_own hp, pendingOf_checkForking]
  have hw : waitingOf pid r uid = ((r.checkForking pid).getOrCreate uid).waiting := by
    rw [← waitingOf_own hp, waitingOf_checkForking]
  simp only [Registry.register, Registry.tryLockingRange] at hr
  split at hr <;> simp only [Prod.mk.injEq, reduceCtorEq, Except.ok.injEq, false_and, true_and, Bool.false_eq_true] at hr
  subst hr
  refine ⟨hp, fun u => ?_, fun u => ?_, fun u => ?_, by simp, fun u hu => set_entries_other _ _ hu⟩
  · simp only [tableOf_set hp, tableOf_checkForking, ht]
  · simp only [pendingOf_set hp, pendingOf_checkForking, ← hd]
    split <;> simp_all
  · simp only [waitingOf_set hp, waitingOf_checkForking, ← hw]
    split <;> simp_all

/-- Effect of a registration attempt that is not accepted: none that can be observed. -/
theorem register_nok {pid : Nat} {r r' : Registry} {uid : Uid} {h : Nat} {len : Option Int} {s : Int}
    {sh : Bool} {o : Except Exn Bool} (hr : r.register pid uid h len s sh = (o, r')) (ho : o ≠ .ok true) :
    r'.originalPid = pid ∧
    (∀ u, tableOf pid r' u = tableOf pid r u) ∧
    (∀ u, pendingOf pid r' u = pendingOf pid r u) ∧
    (∀ u, waitingOf pid r' u = waitingOf pid r u) ∧
    r'.entries uid ≠ none ∧ (∀ u, u ≠ uid → r'.entries u = (r.checkForking pid).entries u) := by
  have hp : (r.checkForking pid).originalPid = pid := by simp
  obtain ⟨h1, h2, h3⟩ := touch_view hp uid
  simp only [tableOf_checkForking, pendingOf_checkForking, waitingOf_checkForking] at h1 h2 h3
  simp only [Registry.register, Registry.tryLockingRange] at hr
  split at hr <;> simp only [Prod.mk.injEq] at hr <;> obtain ⟨rfl, rfl⟩ := hr
  · exact ⟨hp, h1, h2, h3, by simp, fun u hu => set_entries_other _ _ hu⟩
  · exact ⟨hp, h1, h2, h3, by simp, fun u hu => set_entries_other _ _ hu⟩
  · exact absurd rfl ho

theorem checkForking_entries_none {pid : Nat} {r : Registry} {uid : Uid}
    (h : (r.checkForking pid).entries uid = none) :
    tableOf pid r uid = [] ∧ pendingOf pid r uid = [] ∧ waitingOf pid r uid = 0 := by
  have hp : (r.checkForking pid).originalPid = pid := by simp
  rw [← tableOf_checkForking, ← pendingOf_checkForking, ← waitingOf_checkForking]
  simp [tableOf, pendingOf, waitingOf, h]

theorem checkForking_entries_some {pid : Nat} {r : Registry} {uid : Uid} {e : Entry}
    (h : (r.checkForking pid).entries uid = some e) :
    tableOf pid r uid = e.locks ∧ pendingOf pid r uid = e.data ∧ waitingOf pid r uid = e.waiting := by
  have hp : (r.checkForking pid).originalPid = pid := by simp
  rw [← tableOf_checkForking, ← pendingOf_checkForking, ← waitingOf_checkForking]
  simp [tableOf, pendingOf, waitingOf, h]


theorem matchesRange_iff {h : Nat} {s : Int} {e : Option Int} {r : LockRec} :
    r.matchesRange h s e = true ↔ r.handle = h ∧ r.start = s ∧ r.stop = e := by
  simp [LockRec.matchesRange]

/-- Effect of a successful unregistration. -/
theorem unregister_ok {pid : Nat} {r r' : Registry} {uid : Uid} {h : Nat} {len : Option Int} {s : Int}
    {b : Bool} (hr : r.unregister pid uid h len s = (.ok b, r')) :
    r'.originalPid = pid ∧
    (∀ u, tableOf pid r' u =
      if u = uid then (tableOf pid r uid).eraseP (LockRec.matchesRange h s (newEnd s len)) else tableOf pid r u) ∧
    (∀ u, pendingOf pid r' u = pendingOf pid r u) ∧
    (∀ u, waitingOf pid r' u = waitingOf pid r u) ∧
    (∀ u, r'.entries u = none ↔ (r.checkForking pid).entries u = none) ∧
    ((∃ x ∈ tableOf pid r uid, x.matchesRange h s (newEnd s len) = true) ∨
      (tableOf pid r uid = [] ∧ (r.checkForking pid).entries uid = none)) := by
  have hp : (r.checkForking pid).originalPid = pid := by simp
  simp only [Registry.unregister, Registry.tryUnlockingRange] at hr
  split at hr
  · rename_i hn
    obtain ⟨h1, h2, h3⟩ := checkForking_entries_none hn
    simp only [Prod.mk.injEq, Except.ok.injEq] at hr
    obtain ⟨_, rfl⟩ := hr
    refine ⟨hp, fun u => ?_, by simp, by simp, fun _ => Iff.rfl, Or.inr ⟨h1, hn⟩⟩
    rw [tableOf_checkForking]; split
    · rename_i hu; subst hu; simp [h1]
    · rfl
  · rename_i e he
    obtain ⟨h1, h2, h3⟩ := checkForking_entries_some he
    split at hr
    · rename_i hany
      simp only [Prod.mk.injEq, Except.ok.injEq] at hr
      obtain ⟨_, rfl⟩ := hr
      refine ⟨hp, fun u => ?_, fun u => ?_, fun u => ?_, fun u => ?_, Or.inl ?_⟩
      · simp only [tableOf_set hp, tableOf_checkForking, h1]
      · simp only [pendingOf_set hp, pendingOf_checkForking]; split <;> simp_all
      · simp only [waitingOf_set hp, waitingOf_checkForking]; split <;> simp_all
      · by_cases hu : u = uid
        · subst hu; simp [he]
        · rw [set_entries_other _ _ hu]
      · rw [h1]; simpa using hany
    · simp at hr

/-- Effect of a refused unregistration. -/
theorem unregister_error {pid : Nat} {r r' : Registry} {uid : Uid} {h : Nat} {len : Option Int} {s : Int}
    {x : Exn} (hr : r.unregister pid uid h len s = (.error x, r')) :
    x = .runtimeError ∧ r' = r.checkForking pid ∧
    (∀ y ∈ tableOf pid r uid, y.matchesRange h s (newEnd s len) = false) := by
  simp only [Registry.unregister, Registry.tryUnlockingRange] at hr
  split at hr
  · simp at hr
  · rename_i e he
    obtain ⟨h1, h2, h3⟩ := checkForking_entries_some he
    split at hr
    · simp at hr
    · rename_i hany
      simp only [Prod.mk.injEq, Except.error.injEq] at hr
      refine ⟨hr.1.symm, hr.2.symm, ?_⟩
      rw [h1]; simpa using hany

/-- Effect of `remove_file_locks`. -/
theorem removeFileLocks_view (pid : Nat) (r : Registry) (uid : Uid) (h : Nat) :
    (r.removeFileLocks pid uid h).1 = (tableOf pid r uid).filter (fun x => x.handle = h) ∧
    (r.removeFileLocks pid uid h).2.originalPid = pid ∧
    (∀ u, tableOf pid (r.removeFileLocks pid uid h).2 u =
      if u = uid then (tableOf pid r uid).filter (fun x => ¬ x.handle = h) else tableOf pid r u) ∧
    (∀ u, pendingOf pid (r.removeFileLocks pid uid h).2 u = pendingOf pid r u) ∧
    (∀ u, waitingOf pid (r.removeFileLocks pid uid h).2 u = waitingOf pid r u) ∧
    (∀ u, (r.removeFileLocks pid uid h).2.entries u = none ↔ (r.checkForking pid).entries u = none) := by
  have hp : (r.checkForking pid).originalPid = pid := by simp
  simp only [Registry.removeFileLocks]
  split
  · rename_i hn
    obtain ⟨h1, h2, h3⟩ := checkForking_entries_none hn
    refine ⟨by simp [h1], hp, fun u => ?_, by simp, by simp, fun _ => Iff.rfl⟩
    rw [tableOf_checkForking]; split
    · rename_i hu; subst hu; simp [h1]
    · rfl
  · rename_i e he
    obtain ⟨h1, h2, h3⟩ := checkForking_entries_some he
    refine ⟨by simp [h1], hp, fun u => ?_, fun u => ?_, fun u => ?_, fun u => ?_⟩
    · simp only [tableOf_set hp, tableOf_checkForking, h1]
    · simp only [pendingOf_set hp, pendingOf_checkForking]; split <;> simp_all
    · simp only [waitingOf_set hp, waitingOf_checkForking]; split <;> simp_all
    · by_cases hu : u = uid
      · subst hu; simp [he]
      · rw [set_entries_other _ _ hu]

/-- `unique_id_has_locks` observes the table. -/
theorem hasLocks_view (pid : Nat) (r : Registry) (uid : Uid) :
    (r.hasLocks pid uid).1 = !(tableOf pid r uid).isEmpty ∧ (r.hasLocks pid uid).2 = r.checkForking pid := by
  simp only [Registry.hasLocks]
  split
  · rename_i hn
    obtain ⟨h1, h2, h3⟩ := checkForking_entries_none hn
    simp [h1]
  · rename_i e he
    obtain ⟨h1, h2, h3⟩ := checkForking_entries_some he
    simp [h1]

/-- `remove_unique_id_data` returns the pending descriptors and forgets them. -/
theorem removeData_view (pid : Nat) (r : Registry) (uid : Uid) :
    (r.removeData pid uid).1 = pendingOf pid r uid ∧
    (r.removeData pid uid).2.originalPid = pid ∧
    (∀ u, tableOf pid (r.removeData pid uid).2 u = tableOf pid r u) ∧
    (∀ u, pendingOf pid (r.removeData pid uid).2 u = if u = uid then [] else pendingOf pid r u) ∧
    (∀ u, waitingOf pid (r.removeData pid uid).2 u = waitingOf pid r u) ∧
    (∀ u, (r.removeData pid uid).2.entries u = none ↔ (r.checkForking pid).entries u = none) := by
  have hp : (r.checkForking pid).originalPid = pid := by simp
  simp only [Registry.removeData]
  split
  · rename_i hn
    obtain ⟨h1, h2, h3⟩ := checkForking_entries_none hn
    refine ⟨by simp [h2], hp, by simp, fun u => ?_, by simp, fun _ => Iff.rfl⟩
    rw [pendingOf_checkForking]; split
    · rename_i hu; subst hu; simp [h2]
    · rfl
  · rename_i e he
    obtain ⟨h1, h2, h3⟩ := checkForking_entries_some he
    refine ⟨by simp [h2], hp, fun u => ?_, fun u => ?_, fun u => ?_, fun u => ?_⟩
    · simp only [tableOf_set hp, tableOf_checkForking]; split <;> simp_all
    · simp only [pendingOf_set hp, pendingOf_checkForking]
    · simp only [waitingOf_set hp, waitingOf_checkForking]; split <;> simp_all
    · by_cases hu : u = uid
      · subst hu; simp [he]
      · rw [set_entries_other _ _ hu]

/-- `add_unique_id_data` on a descriptor other than 0. -/
theorem addData_view (pid : Nat) (r : Registry) (uid : Uid) {fd : Nat} (hfd : fd ≠ 0) :
    (r.addData pid uid fd).1 = .ok () ∧
    (r.addData pid uid fd).2.originalPid = pid ∧
    (∀ u, tableOf pid (r.addData pid uid fd).2 u = tableOf pid r u) ∧
    (∀ u, pendingOf pid (r.addData pid uid fd).2 u =
      if u = uid then pendingOf pid r uid ++ [fd] else pendingOf pid r u) ∧
    (∀ u, waitingOf pid (r.addData pid uid fd).2 u = waitingOf pid r u) ∧
    (r.addData pid uid fd).2.entries uid ≠ none ∧
    (∀ u, u ≠ uid → (r.addData pid uid fd).2.entries u = (r.checkForking pid).entries u) := by
  have hp : (r.checkForking pid).originalPid = pid := by simp
  have ht : tableOf pid r uid = ((r.checkForking pid).getOrCreate uid).locks := by
    rw [← tableOf_own hp, tableOf_checkForking]
  have hd : pendingOf pid r uid = ((r.checkForking pid).getOrCreate uid).data := by
    rw [← pendingOf_own hp, pendingOf_checkForking]
  have hw : waitingOf pid r uid = ((r.checkForking pid).getOrCreate uid).waiting := by
    rw [← waitingOf_own hp, waitingOf_checkForking]
  simp only [Registry.addData, hfd, if_false]
  refine ⟨trivial, hp, fun u => ?_, fun u => ?_, fun u => ?_, by simp, fun u hu => set_entries_other _ _ hu⟩
  · simp only [tableOf_set hp, tableOf_checkForking, ← ht]; split <;> simp_all
  · simp only [pendingOf_set hp, pendingOf_checkForking, ← hd]
  · simp only [waitingOf_set hp, waitingOf_checkForking, ← hw]; split <;> simp_all

/-- `try_deleting_unique_id_entry` never changes what can be observed. -/
theorem tryDelete_view (pid : Nat) (r : Registry) (uid : Uid) :
    (r.tryDeleteEntry pid uid).2.originalPid = pid ∧
    (∀ u, tableOf pid (r.tryDeleteEntry pid uid).2 u = tableOf pid r u) ∧
    (∀ u, pendingOf pid (r.tryDeleteEntry pid uid).2 u = pendingOf pid r u) ∧
    (∀ u, waitingOf pid (r.tryDeleteEntry pid uid).2 u = waitingOf pid r u) ∧
    (∀ u, (r.tryDeleteEntry pid uid).2.entries u = none →
      (r.checkForking pid).entries u = none ∨
      (tableOf pid r u = [] ∧ pendingOf pid r u = [] ∧ waitingOf pid r u = 0)) := by
  have hp : (r.checkForking pid).originalPid = pid := by simp
  simp only [Registry.tryDeleteEntry]
  split
  · exact ⟨hp, by simp, by simp, by simp, fun u hu => Or.inl hu⟩
  · rename_i e he
    obtain ⟨h1, h2, h3⟩ := checkForking_entries_some he
    split
    · exact ⟨hp, by simp, by simp, by simp, fun u hu => Or.inl hu⟩
    · rename_i hc
      have hc' : e.locks = [] ∧ e.data = [] ∧ e.waiting = 0 := by
        refine ⟨?_, ?_, ?_⟩ <;> (apply Classical.byContradiction; intro hx; exact hc (by simp [hx]))
      obtain ⟨c1, c2, c3⟩ := hc'
      rw [c1] at h1; rw [c2] at h2; rw [c3] at h3
      refine ⟨hp, fun u => ?_, fun u => ?_, fun u => ?_, fun u hu => ?_⟩
      · by_cases hu : u = uid
        · subst hu; rw [h1]; simp [tableOf]
        · rw [← tableOf_checkForking pid r u]; simp [tableOf, del_entries_other _ hu]
      · by_cases hu : u = uid
        · subst hu; rw [h2]; simp [pendingOf]
        · rw [← pendingOf_checkForking pid r u]; simp [pendingOf, del_entries_other _ hu]
      · by_cases hu : u = uid
        · subst hu; rw [h3]; simp [waitingOf]
        · rw [← waitingOf_checkForking pid r u]; simp [waitingOf, del_entries_other _ hu]
      · by_cases hx : u = uid
        · subst hx; exact Or.inr ⟨h1, h2, h3⟩
        · exact Or.inl (by rwa [del_entries_other _ hx] at hu)

end Verif
