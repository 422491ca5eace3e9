import Verif.Lemmas.Along
import Verif.Lemmas.BufferedRefine
import Verif.Spec.Device

/-!
# The history of the file on its way to the device
-/

set_option autoImplicit false

namespace Verif

open Verif.Spec

/-- The current content after some events. -/
def lastContent (d : Bytes) : List DiskEv → Bytes
  | [] => d
  | .content c :: es => lastContent c es
  | _ :: es => lastContent d es

theorem lastContent_append (d : Bytes) (l l' : List DiskEv) :
    lastContent d (l ++ l') = lastContent (lastContent d l) l' := by
  induction l generalizing d with
  | nil => rfl
  | cons e l ih => cases e <;> exact ih _

theorem after_append (d : Device) (l l' : List DiskEv) : d.after (l ++ l') = (d.after l).after l' := by
  induction l generalizing d with
  | nil => rfl
  | cons e l ih => exact ih _

/-- The last recent content is the current one. -/
theorem after_last (d : Device) (c : Bytes) (h : d.recent.getLast? = some c) (l : List DiskEv) :
    (d.after l).recent.getLast? = some (lastContent c l) := by
  induction l generalizing d c with
  | nil => exact h
  | cons e l ih =>
    cases e with
    | content v => exact ih _ _ (by simp [Device.step])
    | flushed k => exact ih _ _ (by simp [Device.step, h])
    | writeError => exact ih _ _ (by simp [Device.step, h])

theorem after_lost (d : Device) (l : List DiskEv) (h : .writeError ∉ l) : (d.after l).lost = d.lost := by
  induction l generalizing d with
  | nil => rfl
  | cons e l ih =>
    rw [List.mem_cons, not_or] at h
    refine (ih _ h.2).trans ?_
    cases e with
    | content v => rfl
    | flushed k => rfl
    | writeError => exact absurd rfl h.1

/-- Contents may only be added. -/
theorem after_mem (d : Device) (l : List DiskEv) (v : Bytes) (h : v ∈ (d.after l).lost ++ (d.after l).recent) :
    v ∈ d.lost ++ d.recent ∨ .content v ∈ l := by
  induction l generalizing d with
  | nil => exact Or.inl h
  | cons e l ih =>
    rcases ih _ h with h | h
    · cases e with
      | content c =>
        simp only [Device.step, List.mem_append, List.mem_singleton] at h
        rcases h with h | h | rfl
        · exact Or.inl (by simp [h])
        · exact Or.inl (by simp [h])
        · exact Or.inr (by simp)
      | flushed k =>
        simp only [Device.step, List.mem_append, Option.mem_toList] at h
        rcases h with h | h
        · exact Or.inl (by simp [h])
        · exact Or.inl (by simp [List.mem_of_getLast? h])
      | writeError =>
        simp only [Device.step, List.mem_append, Option.mem_toList] at h
        rcases h with (h | h) | h
        · exact Or.inl (by simp [h])
        · exact Or.inl (by simp [h])
        · exact Or.inl (by simp [List.mem_of_getLast? h])
    · exact Or.inr (by simp [h])

/-- The events of a call, and the content after it. -/
def Grows (s s' : Raw) : Prop := ∃ l, s'.disk = s.disk ++ l ∧ s'.data = lastContent s.data l

namespace Grows

variable {α β : Type}

theorem pre : Pre Grows where
  refl s := ⟨[], by simp, rfl⟩
  trans := by
    rintro s s' s'' ⟨l, h1, h2⟩ ⟨l', h3, h4⟩
    exact ⟨l ++ l', by rw [h3, h1, List.append_assoc], by rw [h4, h2, lastContent_append]⟩

theorem same {s s' : Raw} (h1 : s'.disk = s.disk) (h2 : s'.data = s.data) : Grows s s' := ⟨[], by simp [h1], h2⟩

theorem nextAns (s : Raw) (n : Nat) : (s.nextAns n).2.disk = s.disk ∧ (s.nextAns n).2.data = s.data := by
  unfold Raw.nextAns; split <;> exact ⟨rfl, rfl⟩

theorem step {s s1 s' : Raw} (h : s1.disk = s.disk ∧ s1.data = s.data) (e : DiskEv) (h1 : s'.disk = s1.disk ++ [e])
    (h2 : s'.data = lastContent s.data [e]) : Grows s s' := ⟨[e], by rw [h1, h.1], h2⟩

theorem innerSeek (o : Int) (w : Whence) : Along Grows (Raw.innerSeek o w) := by
  intro s
  unfold Raw.innerSeek
  split
  · extract_lets t
    split <;> exact same rfl rfl
  · exact pre.refl _

theorem osWrite (e : Bool) (buf : Bytes) : Along Grows (Raw.osWrite e buf) := by
  intro s
  have := nextAns s buf.length
  unfold Raw.osWrite
  split <;> rename_i h <;> rw [h] at this
  · exact step this (.content _) rfl rfl
  · exact same this.1 this.2
  · exact same this.1 this.2
  · exact same this.1 this.2

theorem osTruncate (n : Nat) : Along Grows (Raw.osTruncate n) := by
  intro s
  have := nextAns s 1
  unfold Raw.osTruncate
  split <;> rename_i h <;> rw [h] at this
  · exact same this.1 this.2
  · exact step this (.content _) rfl rfl

theorem osFlush (k : FlushKind) : Along Grows (Raw.osFlush k) := by
  intro s
  have := nextAns s 0
  unfold Raw.osFlush
  split <;> rename_i h <;> rw [h] at this
  · exact step this (.flushed k) rfl this.2
  · exact same this.1 this.2
  · exact same this.1 this.2
  · dsimp only
    split
    · exact step this .writeError rfl this.2
    · exact same this.1 this.2

theorem innerRead (n : Nat) : Along Grows (Raw.innerRead n) := by
  intro s
  have := nextAns s n
  unfold Raw.innerRead
  split <;> rename_i h <;> rw [h] at this
  all_goals exact same this.1 this.2

theorem checkSeekable : Along Grows Raw.checkSeekable := by
  intro s; unfold Raw.checkSeekable; split
  · exact pre.refl _
  · split <;> exact pre.refl _

theorem lockFile (o : Bytes) : Along Grows (Raw.lockFile o) :=
  .bind pre checkSeekable fun _ _ => ⟨[.content o], rfl, rfl⟩

theorem unlockFile : Along Grows Raw.unlockFile := .bind pre checkSeekable fun _ _ => same rfl rfl

theorem prims : RawPrims Grows := ⟨⟨pre, innerSeek, innerRead⟩, osWrite, osTruncate, osFlush, lockFile, unlockFile⟩

theorem steps : RawSteps Grows := prims.steps

end Grows

/-- What no call but `close` changes. -/
structure Fixed (s s' : Raw) : Prop where
  platform : s'.platform = s.platform
  closed : s'.closed = s.closed
  readable : s'.readable = s.readable
  writable : s'.writable = s.writable
  seekable : s'.seekable = s.seekable
  append : s'.append = s.append

namespace Fixed

theorem pre : Pre Fixed where
  refl _ := ⟨rfl, rfl, rfl, rfl, rfl, rfl⟩
  trans h h' := ⟨h'.1.trans h.1, h'.2.trans h.2, h'.3.trans h.3, h'.4.trans h.4, h'.5.trans h.5, h'.6.trans h.6⟩

theorem nextAns (s : Raw) (n : Nat) : Fixed s (s.nextAns n).2 := by
  unfold Raw.nextAns; split <;> exact ⟨rfl, rfl, rfl, rfl, rfl, rfl⟩

theorem innerSeek (o : Int) (w : Whence) : Along Fixed (Raw.innerSeek o w) := by
  intro s
  unfold Raw.innerSeek
  split
  · extract_lets t
    split <;> exact ⟨rfl, rfl, rfl, rfl, rfl, rfl⟩
  · exact pre.refl _

theorem osWrite (e : Bool) (buf : Bytes) : Along Fixed (Raw.osWrite e buf) := by
  intro s
  have := nextAns s buf.length
  unfold Raw.osWrite
  split <;> rename_i h <;> rw [h] at this
  · exact pre.trans this ⟨rfl, rfl, rfl, rfl, rfl, rfl⟩
  all_goals exact this

theorem osTruncate (n : Nat) : Along Fixed (Raw.osTruncate n) := by
  intro s
  have := nextAns s 1
  unfold Raw.osTruncate
  split <;> rename_i h <;> rw [h] at this
  · exact this
  · exact pre.trans this ⟨rfl, rfl, rfl, rfl, rfl, rfl⟩

theorem osFlush (k : FlushKind) : Along Fixed (Raw.osFlush k) := by
  intro s
  have := nextAns s 0
  unfold Raw.osFlush
  split <;> rename_i h <;> rw [h] at this
  · exact pre.trans this ⟨rfl, rfl, rfl, rfl, rfl, rfl⟩
  · exact this
  · exact this
  · dsimp only
    split
    · exact pre.trans this ⟨rfl, rfl, rfl, rfl, rfl, rfl⟩
    · exact this

theorem innerRead (n : Nat) : Along Fixed (Raw.innerRead n) := by
  intro s
  have := nextAns s n
  unfold Raw.innerRead
  split <;> rename_i h <;> rw [h] at this
  · exact pre.trans this ⟨rfl, rfl, rfl, rfl, rfl, rfl⟩
  all_goals exact this

theorem checkSeekable : Along Fixed Raw.checkSeekable := by
  intro s; unfold Raw.checkSeekable; split
  · exact pre.refl _
  · split <;> exact pre.refl _

theorem lockFile (o : Bytes) : Along Fixed (Raw.lockFile o) :=
  .bind pre checkSeekable fun _ _ => ⟨rfl, rfl, rfl, rfl, rfl, rfl⟩

theorem unlockFile : Along Fixed Raw.unlockFile := .bind pre checkSeekable fun _ _ => ⟨rfl, rfl, rfl, rfl, rfl, rfl⟩

theorem steps : RawSteps Fixed :=
  RawPrims.steps ⟨⟨pre, innerSeek, innerRead⟩, osWrite, osTruncate, osFlush, lockFile, unlockFile⟩

end Fixed

/-! ## `readinto` -/

theorem Along.bufReadinto {Q : Buf → Buf → Prop} (hp : Pre Q) (hraw : ∀ m : PyM Raw (Nat × Bytes), Along Q (Buf.onRaw m))
    (hpeek : Along Q (Buf.peekUnlocked 1)) (hpos : ∀ b : Buf, ∀ n, Q b { b with readPos := n }) (hflush : Along Q Buf.flush)
    (hcheck : Along Q Buf.checkClosed) (r : Bool) (dst : Bytes) : Along Q (Buf.readinto r dst) := by
  have hcopy : ∀ dst n, Along Q (Buf.copyOut dst n) := by
    intro dst n b
    unfold Buf.copyOut
    extract_lets a
    split
    · exact hp.refl _
    · split
      · exact hp.refl _
      · exact hpos _ _
  have hmore : ∀ dst n, Along Q (Buf.readMore r dst n) := by
    intro dst n b
    unfold Buf.readMore
    split
    · exact Along.bind hp (hraw _) (fun _ => .pure hp _) b
    · split
      · exact hp.refl _
      · exact Along.bind hp hpeek (fun _ => .pure hp _) b
  have hloop : ∀ fuel dst n, Along Q (Buf.readintoLoop r fuel dst n) := by
    intro fuel
    induction fuel with
    | zero => intro dst n; exact .pure hp _
    | succ fuel ih =>
      intro dst n
      unfold Buf.readintoLoop
      exact .ite (.bind hp (hcopy _ _) fun _ => .ite (.pure hp _) (.bind hp (hmore _ _) fun _ =>
        .ite (.pure hp _) (ih _ _))) (.pure hp _)
  have h1 : Along Q (Buf.readerReadinto r dst) := .bind hp hcheck fun _ => .ite (.pure hp _) (hloop _ _ _)
  intro b
  unfold Buf.readinto
  split
  · exact hp.refl _
  · exact h1 b
  · exact Along.bind hp hflush (fun _ => h1) b

theorem Buf.Still.readinto (r : Bool) (dst : Bytes) : Along Buf.Still (Buf.readinto r dst) :=
  .bufReadinto pre onRaw (peekUnlocked 1) (fun _ _ h => ⟨h, rfl⟩) flush checkClosed r dst

/-- The class of the stream and the size of its buffer stay the same. -/
def SameClass (b b' : Buf) : Prop := b'.kind = b.kind ∧ b'.bufferSize = b.bufferSize

theorem SameClass.pre : Pre SameClass := ⟨fun _ => ⟨rfl, rfl⟩, fun h h' => ⟨h'.1.trans h.1, h'.2.trans h.2⟩⟩

theorem SameClass.readinto (r : Bool) (dst : Bytes) : Along SameClass (Buf.readinto r dst) :=
  .bufReadinto pre (fun m => Buf.Keeps.onRaw m) (Buf.Keeps.peekUnlocked 1) (fun _ _ => ⟨rfl, rfl⟩) Buf.Keeps.flush
    Buf.Keeps.checkClosed r dst

theorem SameClass.sync (a m f : Bool) : Along SameClass (Buf.sync a m f) :=
  .bind pre Buf.Keeps.flush fun _ => Buf.Keeps.onRaw _

theorem SameClass.close : Along SameClass Buf.close := by
  intro b
  unfold Buf.close
  split
  · exact pre.refl _
  · exact Along.tryFinally pre Buf.Keeps.flush (Buf.Keeps.onRaw _) b

/-! ## Synchronisation -/

namespace Raw

/-- A successful flush is the last event. -/
theorem osFlush_ok {k : FlushKind} {s s' : Raw} (h : osFlush k s = (.ok (), s')) :
    ∃ l, s'.disk = s.disk ++ l ∧ l.getLast? = some (.flushed k) := by
  have := Grows.nextAns s 0
  unfold osFlush at h
  split at h <;> rename_i h1 <;> rw [h1] at this <;> cases h
  exact ⟨[.flushed k], by rw [← this.1], rfl⟩

theorem getLast?_append {α : Type} (l l' : List α) (a : α) (h : l'.getLast? = some a) : (l ++ l').getLast? = some a := by
  rw [List.getLast?_append, h]; rfl

/-- One of the calls succeeded, as the last event. -/
theorem innerSync_ok {a m f : Bool} {s s' : Raw} (h : innerSync a m f s = (.ok (), s')) :
    ∃ l k, s'.disk = s.disk ++ l ∧ l.getLast? = some (.flushed k) ∧ (m = true → k ≠ .data) := by
  have helse : ∀ {m₁ m₂ : PyM Raw Unit} {s s' : Raw} {Q : FlushKind → Prop}, Along Grows m₁ →
      (∀ s s', m₁ s = (.ok (), s') → ∃ l k, s'.disk = s.disk ++ l ∧ l.getLast? = some (.flushed k) ∧ Q k) →
      (∀ s s', m₂ s = (.ok (), s') → ∃ l k, s'.disk = s.disk ++ l ∧ l.getLast? = some (.flushed k) ∧ Q k) →
      orElse m₁ m₂ s = (.ok (), s') → ∃ l k, s'.disk = s.disk ++ l ∧ l.getLast? = some (.flushed k) ∧ Q k := by
    intro m₁ m₂ s s' Q hg h1 h2 h
    unfold orElse at h
    split at h
    · rename_i e s1 he
      obtain ⟨l, g1, _⟩ := hg s
      rw [he] at g1
      obtain ⟨l', k, g2, g3, g4⟩ := h2 _ _ h
      exact ⟨l ++ l', k, by rw [g2, g1, List.append_assoc], getLast?_append _ _ _ g3, g4⟩
    · exact h1 _ _ h
  have hone : ∀ (k : FlushKind) (s s' : Raw), (m = true → k ≠ .data) → osFlush k s = (.ok (), s') →
      ∃ l k, s'.disk = s.disk ++ l ∧ l.getLast? = some (.flushed k) ∧ (m = true → k ≠ .data) := by
    intro k s s' hk h
    obtain ⟨l, h1, h2⟩ := osFlush_ok h
    exact ⟨l, k, h1, h2, hk⟩
  unfold innerSync at h
  split at h
  · exact hone .full s s' (fun _ => nofun) h
  · extract_lets last second at h
    have hlast : ∀ s s', last s = (.ok (), s') →
        ∃ l k, s'.disk = s.disk ++ l ∧ l.getLast? = some (.flushed k) ∧ (m = true → k ≠ .data) :=
      fun s s' h => hone .metadata s s' (fun _ => nofun) h
    have hsecond : ∀ s s', second s = (.ok (), s') →
        ∃ l k, s'.disk = s.disk ++ l ∧ l.getLast? = some (.flushed k) ∧ (m = true → k ≠ .data) := by
      intro s s' h
      simp only [second, PyM.ite_apply] at h
      split at h
      · rename_i hc
        have hm : m = false := by cases m <;> simp_all
        exact helse (Grows.osFlush _) (fun s s' h => hone .data s s' (by simp [hm]) h) hlast h
      · exact hlast _ _ h
    rw [PyM.ite_apply] at h
    split at h
    · exact helse (Grows.osFlush _) (fun s s' h => hone .full s s' (fun _ => nofun) h) hsecond h
    · exact hsecond _ _ h

theorem sync_ok {a m f : Bool} {s s' : Raw} (h : sync a m f s = (.ok (), s')) :
    s.closed = false ∧ ∃ l k, s'.disk = s.disk ++ l ∧ l.getLast? = some (.flushed k) ∧ (m = true → k ≠ .data) := by
  unfold sync at h
  have hc : s.closed = false := by
    cases hc : s.closed with
    | false => rfl
    | true => rw [PyM.bind_error (show checkClosed s = (.error .valueError, s) by simp [checkClosed, hc])] at h; cases h
  rw [PyM.bind_ok (show checkClosed s = (.ok (), s) by simp [checkClosed, hc])] at h
  exact ⟨hc, innerSync_ok h⟩

theorem osFlush_count {K : FlushKind} {s : Raw} {k : Nat} {rest : List OsAns} (h : s.sched = .count k :: rest) :
    (osFlush K s).1 = .ok () := by
  unfold osFlush nextAns; rw [h]

theorem osFlush_try {K : FlushKind} {s : Raw} {x : OsAns} {rest : List OsAns} (h : s.sched = x :: rest) :
    (osFlush K s).1 = .ok () ∨ ∃ e s', osFlush K s = (.error (.ioError e), s') ∧ s'.sched = rest := by
  unfold osFlush nextAns; rw [h]
  cases x with
  | count k => exact Or.inl rfl
  | again => exact Or.inr ⟨_, _, rfl, rfl⟩
  | pipe => exact Or.inr ⟨_, _, rfl, rfl⟩
  | fail e =>
    refine Or.inr ⟨_, _, rfl, ?_⟩
    split <;> rfl

theorem orElse_try {K : FlushKind} {m : PyM Raw Unit} {s : Raw} {x : OsAns} {rest : List OsAns} (h : s.sched = x :: rest)
    (hm : ∀ s', s'.sched = rest → (m s').1 = .ok ()) : (orElse (osFlush K) m s).1 = .ok () := by
  unfold orElse
  rcases osFlush_try (K := K) h with h1 | ⟨e, s', h1, h2⟩
  · split
    · rename_i h2; rw [h2] at h1; cases h1
    · exact h1
  · rw [h1]; exact hm s' h2

theorem sync_completes {s : Raw} (ho : s.closed = false) (hp : s.platform = .unix) (a m f : Bool) (k : Nat)
    (rest tries : List OsAns) (ht : tries.length = (if f then 1 else 0) + if !m && a then 1 else 0)
    (hs : s.sched = tries ++ .count k :: rest) : (sync a m f s).1 = .ok () := by
  unfold sync
  rw [PyM.bind_ok (show checkClosed s = (.ok (), s) by simp [checkClosed, ho])]
  unfold innerSync
  rw [hp]
  dsimp only
  have h2 : ∀ (t : List OsAns) (s : Raw), t.length = (if !m && a then 1 else 0) → s.sched = t ++ .count k :: rest →
      ((if (!m && a) = true then orElse (osFlush .data) (osFlush .metadata) else osFlush .metadata) s).1 = .ok () := by
    intro t s ht hs
    rw [PyM.ite_apply]
    by_cases hc : (!m && a) = true
    · rw [if_pos hc] at ht ⊢
      match t, ht with
      | [x], _ => exact orElse_try hs fun s' h => osFlush_count h
    · rw [if_neg hc] at ht ⊢
      match t, ht with
      | [], _ => exact osFlush_count hs
  rw [PyM.ite_apply]
  by_cases hf : f = true
  · rw [if_pos hf] at ht ⊢
    match tries, ht, hs with
    | x :: t, ht, hs => exact orElse_try hs fun s' h => h2 t s' (by simp only [List.length_cons] at ht; omega) h
    | [], ht, hs => simp only [List.length_nil] at ht; omega
  · rw [if_neg hf] at ht ⊢
    exact h2 tries s (by omega) hs

/-- Synchronisation does not change the content. -/
def SameData (s s' : Raw) : Prop := s'.data = s.data

theorem sameData_pre : Pre SameData := ⟨fun _ => rfl, fun h h' => h'.trans h⟩

theorem osFlush_data (k : FlushKind) : Along SameData (osFlush k) := by
  intro s
  have := (Grows.nextAns s 0).2
  unfold osFlush
  split <;> rename_i h <;> rw [h] at this
  · exact this
  · exact this
  · exact this
  · dsimp only
    split <;> exact this

theorem sync_data {a m f : Bool} : Along SameData (sync a m f) := by
  have horElse : ∀ {m m' : PyM Raw Unit}, Along SameData m → Along SameData m' → Along SameData (orElse m m') := by
    intro m m' hm hm' s
    have := hm s
    unfold orElse
    split
    · rename_i h1; rw [h1] at this; exact (hm' _).trans this
    · exact this
  have hcheck : Along SameData checkClosed := by
    intro s; unfold checkClosed; split <;> rfl
  refine .bind sameData_pre hcheck fun _ s => ?_
  unfold innerSync
  split
  · exact osFlush_data _ s
  · have h2 : Along SameData (if !m && a then orElse (osFlush .data) (osFlush .metadata) else osFlush .metadata) :=
      .ite (horElse (osFlush_data _) (osFlush_data _)) (osFlush_data _)
    exact Along.ite (horElse (osFlush_data _) h2) h2 s

end Raw

end Verif
