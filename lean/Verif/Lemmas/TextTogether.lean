import Verif.Spec.TextTogether
import Verif.Lemmas.TextAlong
import Verif.Props.Appending
import Verif.Props.Settled
import Verif.Props.TextBoth

/-!
# Invariants of text streams that take turns
-/

set_option autoImplicit false

namespace Verif

open Verif.Spec

/-! ## What all calls keep -/

/-- The answers of the system that are left are among those that were left. -/
def Calmer (s s' : Raw) : Prop := ∀ a ∈ s'.sched, a ∈ s.sched

namespace Calmer

theorem pre : Pre Calmer := ⟨fun _ _ h => h, fun h1 h2 a h => h1 a (h2 a h)⟩

theorem same {s s' : Raw} (h : s'.sched = s.sched) : Calmer s s' := fun _ ha => h ▸ ha

theorem nextAns (s : Raw) (n : Nat) : Calmer s (s.nextAns n).2 := by
  unfold Raw.nextAns; split
  · exact pre.refl _
  · rename_i h
    intro a ha
    rw [h]
    exact List.mem_cons_of_mem _ ha

theorem innerSeek (o : Int) (w : Whence) : Along Calmer (Raw.innerSeek o w) := by
  intro s
  unfold Raw.innerSeek
  split
  · extract_lets t
    split <;> exact same rfl
  · exact pre.refl _

theorem osWrite (e : Bool) (buf : Bytes) : Along Calmer (Raw.osWrite e buf) := by
  intro s
  have := nextAns s buf.length
  unfold Raw.osWrite
  split <;> rename_i h <;> rw [h] at this
  · exact pre.trans this (same rfl)
  all_goals exact this

theorem osTruncate (n : Nat) : Along Calmer (Raw.osTruncate n) := by
  intro s
  have := nextAns s 1
  unfold Raw.osTruncate
  split <;> rename_i h <;> rw [h] at this
  · exact this
  · exact pre.trans this (same rfl)

theorem osFlush (k : FlushKind) : Along Calmer (Raw.osFlush k) := by
  intro s
  have := nextAns s 0
  unfold Raw.osFlush
  split <;> rename_i h <;> rw [h] at this
  · exact pre.trans this (same rfl)
  · exact this
  · exact this
  · dsimp only
    split
    · exact pre.trans this (same rfl)
    · exact this

theorem innerRead (n : Nat) : Along Calmer (Raw.innerRead n) := by
  intro s
  have := nextAns s n
  unfold Raw.innerRead
  split <;> rename_i h <;> rw [h] at this
  · exact pre.trans this (same rfl)
  all_goals exact this

theorem checkSeekable : Along Calmer Raw.checkSeekable := by
  intro s; unfold Raw.checkSeekable; split
  · exact pre.refl _
  · split <;> exact pre.refl _

theorem lockFile (o : Bytes) : Along Calmer (Raw.lockFile o) := .bind pre checkSeekable fun _ _ => same rfl

theorem unlockFile : Along Calmer Raw.unlockFile := .bind pre checkSeekable fun _ _ => same rfl

theorem steps : RawSteps Calmer :=
  RawPrims.steps ⟨⟨pre, innerSeek, innerRead⟩, osWrite, osTruncate, osFlush, lockFile, unlockFile⟩

end Calmer

/-- A stream that can be used can still be used. -/
structure Held (b b' : Buf) : Prop where
  kind : b'.kind = b.kind
  size : b'.bufferSize = b.bufferSize
  fixed : Fixed b.raw b'.raw
  calm : Calmer b.raw b'.raw

namespace Held

variable {α : Type}

theorem pre : Pre Held :=
  ⟨fun _ => ⟨rfl, rfl, Fixed.pre.refl _, Calmer.pre.refl _⟩, fun h1 h2 => ⟨h2.kind.trans h1.kind, h2.size.trans h1.size,
    Fixed.pre.trans h1.fixed h2.fixed, Calmer.pre.trans h1.calm h2.calm⟩⟩

theorem of {m : PyM Buf α} (hk : Buf.Keeps m) (h1 : Along (OnRaw Fixed) m) (h2 : Along (OnRaw Calmer) m) : Along Held m :=
  fun b => ⟨(hk b).1, (hk b).2, h1 b, h2 b⟩

theorem onRaw {m : PyM Raw α} (h1 : Along Fixed m) (h2 : Along Calmer m) : Along Held (Buf.onRaw m) :=
  fun b => ⟨rfl, rfl, h1 b.raw, h2 b.raw⟩

theorem steps : BufSteps Held where
  pre := pre
  checkClosed := of Buf.Keeps.checkClosed Fixed.steps.bufs.checkClosed Calmer.steps.bufs.checkClosed
  flush := of Buf.Keeps.flush Fixed.steps.bufs.flush Calmer.steps.bufs.flush
  read n := of (Buf.Keeps.read n) (Fixed.steps.bufs.read n) (Calmer.steps.bufs.read n)
  read1 n := of (Buf.Keeps.read1 n) (Fixed.steps.bufs.read1 n) (Calmer.steps.bufs.read1 n)
  tell := of Buf.Keeps.tell Fixed.steps.bufs.tell Calmer.steps.bufs.tell
  seekSet p := of (Buf.Keeps.seek _ _) (Fixed.steps.bufs.seekSet p) (Calmer.steps.bufs.seekSet p)
  seekEnd := of (Buf.Keeps.seek _ _) Fixed.steps.bufs.seekEnd Calmer.steps.bufs.seekEnd
  size := of Buf.Keeps.size Fixed.steps.bufs.size Calmer.steps.bufs.size
  write d := of (Buf.Keeps.write d) (Fixed.steps.bufs.write d) (Calmer.steps.bufs.write d)
  sync a m f := of (Buf.Keeps.flush.bind fun _ => Buf.Keeps.onRaw _) (Fixed.steps.bufs.sync a m f) (Calmer.steps.bufs.sync a m f)
  lockFile o := of (Buf.Keeps.lockFile o) (Fixed.steps.bufs.lockFile o) (Calmer.steps.bufs.lockFile o)
  unlockFile := of Buf.Keeps.unlockFile Fixed.steps.bufs.unlockFile Calmer.steps.bufs.unlockFile

theorem truncate (n : Option Int) : Along Held (Buf.truncate n) :=
  of (Buf.Keeps.truncate n) (Fixed.steps.bTruncate n) (Calmer.steps.bTruncate n)

theorem resetBuffers : Along Held Buf.resetBuffers :=
  of ((Buf.Keeps.seek 0 .cur).bind fun _ => Buf.Keeps.pure ()) Fixed.steps.bResetBuffers Calmer.steps.bResetBuffers

theorem live {b b' : Buf} (h : Held b b') (hl : Buf.Live b) : Buf.Live b' :=
  hl.frame h.kind h.size ⟨h.fixed.1, h.fixed.2, h.fixed.3, h.fixed.4, h.fixed.5, h.fixed.6⟩ fun a ha => hl.blocking a (h.calm a ha)

end Held

namespace TextTogether

variable {C : Codec}

open Verif.Props

/-- An open stream for reading and writing. -/
structure Usual (t : Txt C) : Prop where
  live : Buf.Live t.buf
  kind : t.buf.kind = .random
  seekable : t.seekable = true

theorem Usual.usable {t : Txt C} (h : Usual t) : Usable t.buf :=
  ⟨h.live.opened, h.live.unix, h.live.writable, fun hk => by rw [h.kind] at hk; cases hk⟩

theorem Usual.next {t t' : Txt C} (h : Usual t) (ho : OnText C Held t t') : Usual t' :=
  ⟨ho.buf.live h.live, ho.buf.kind.trans h.kind, ho.seekable.trans h.seekable⟩

theorem Usual.load {t : Txt C} (h : Usual t) (d : Bytes) : Usual (load t d) := ⟨Together.load_live h.live d, h.kind, h.seekable⟩

/-- What a call does to a stream in general. -/
theorem step_held (guess : Nat × Nat → Nat → Nat) {op : Txt.Op} (hc : op ≠ .close) (t : Txt C) : OnText C Held t (t.step guess op).2 :=
  Held.steps.tStep guess (fun _ z => Held.truncate (some z)) (fun h => absurd h hc) t

theorem prepare_held (guess : Nat × Nat → Nat → Nat) : Along (OnText C Held) (prepare guess) :=
  .bind Held.steps.tPre (Held.steps.tResetBuffers guess) fun _ => Held.steps.onBuf Held.resetBuffers

/-- A stream with nothing pending. -/
theorem prepare_settles (guess : Nat × Nat → Nat → Nat) : Along (OnText C Settles) (prepare guess) :=
  .bind Settles.bufs.tPre (Settles.bufs.tResetBuffers guess) fun _ => Settles.bufs.onBuf resetBuffers_settles

theorem Settled.quiet {b b' : Buf} (h : Settled b b') (he : b.writeBuf = []) : b'.writeBuf = [] ∧ b'.raw.data = b.raw.data := by
  obtain ⟨j, hj⟩ := h.part
  exact ⟨by rw [hj.left, he, List.drop_nil], by rw [hj.data, he]; simp [put]⟩

/-- `_reset_buffers` leaves the buffers empty. -/
theorem reset_empty {b b' : Buf} (hu : Usable b) (hk : b.kind = .random) (h : Buf.resetBuffers b = (.ok (), b')) :
    b'.readBuf = [] ∧ b'.readPos = 0 ∧ b'.writeBuf = [] := by
  refine ⟨(resetBuffers_usable hu h).2.2.2.1 (by rw [hk]; simp), ?_, (resetBuffers_usable hu h).2.2.1⟩
  unfold Buf.resetBuffers at h
  obtain ⟨p, b1, hs, h1⟩ := bind_inv h
  cases h1
  unfold Buf.seek at hs
  rw [hk] at hs
  dsimp only at hs
  unfold Buf.randomSeek at hs
  obtain ⟨_, b2, _, hs⟩ := bind_inv hs
  obtain ⟨_, b3, _, hs⟩ := bind_inv hs
  obtain ⟨_, b4, _, hs⟩ := bind_inv hs
  obtain ⟨_, b5, h5, hs⟩ := bind_inv hs
  cases hs
  cases h5
  rfl

theorem prepare_empty {guess : Nat × Nat → Nat → Nat} {t t' : Txt C} (h : Usual t) (hp : prepare guess t = (.ok (), t')) :
    t'.buf.readBuf = [] ∧ t'.buf.readPos = 0 ∧ t'.buf.writeBuf = [] := by
  unfold prepare at hp
  obtain ⟨_, t1, h1, h2⟩ := bind_inv hp
  have hu : Usual t1 := by
    have := Held.steps.tResetBuffers (C := C) guess t
    rw [h1] at this
    exact h.next this
  unfold Txt.onBuf at h2
  generalize hq : Buf.resetBuffers t1.buf = q at h2
  obtain ⟨r, b⟩ := q
  dsimp only at h2
  cases h2
  exact reset_empty hu.usable hu.kind hq

/-- A stream whose buffers are empty represents the file, whatever it contains. -/
theorem ready_of {t : Txt C} (h : Usual t) (h1 : t.buf.readBuf = []) (h2 : t.buf.readPos = 0) (h3 : t.buf.writeBuf = []) :
    Txt.Ready t.newline t.linesep .random t ⟨t.buf.raw.data, t.buf.raw.pos, false, t.buf.raw.events⟩ := by
  refine ⟨⟨h.live, ?_, ?_, .inl h1, fun _ => h3, fun _ => h1, ?_, ?_, fun _ => h1, rfl⟩, h.kind, by simp, rfl, rfl, h.seekable⟩
  · rw [h2]; exact Nat.zero_le _
  · simp [Buf.extra, h1]
  · simp [h3]
  · simp [Buf.extra, h1, h3]

theorem opened_usual {nl : Newline} {ls : Text} {raw : Raw} {t : Txt C} (h : WriterOpened C nl ls .random raw t) :
    Usual t ∧ t.buf.writeBuf = [] := by
  have ho := h.outlet
  obtain ⟨lb, enc, b, hb, rfl⟩ := h.shape
  exact ⟨⟨ho.buf.live, ho.ready.kind, ho.ready.seekable⟩, hb.clean⟩

/-- `close` of a stream with nothing pending leaves the file alone. -/
theorem close_quiet {guess : Nat × Nat → Nat → Nat} {t : Txt C} (h : Usual t) (he : t.buf.writeBuf = []) :
    (t.step guess .close).2.buf.raw.data = t.buf.raw.data := by
  obtain ⟨r, t', j, h1, _, _, h4, _⟩ := C22_text t h.usable
  have : (t.step guess .close).2 = t' := by
    simp only [Txt.step, h1, Txt.Out.of]
    cases r <;> rfl
  rw [this, h4, he]
  simp [put]

/-! ## The books -/

theorem lockers_snoc (tr : TextTrace C) (x : TextItem C × Txt.Out) : lockers (tr ++ [x]) = lockStep (lockers tr) x := by
  simp [lockers]

theorem lastCall_snoc (tr : TextTrace C) (x : TextItem C × Txt.Out) (i : Sid) :
    lastCall (tr ++ [x]) i = if TextItem.stream x.1 = some i then some x else lastCall tr i := by
  simp [lastCall, List.find?]
  split <;> simp_all

theorem lastCall_stream {tr : TextTrace C} {i : Sid} {x : TextItem C × Txt.Out} (hl : lastCall tr i = some x) :
    TextItem.stream x.1 = some i := by
  have := List.find?_some hl
  simpa using this

theorem lastCall_mem {tr : TextTrace C} {i : Sid} {x : TextItem C × Txt.Out} (hl : lastCall tr i = some x) : x ∈ tr := by
  have := List.mem_of_find?_eq_some hl
  simpa using this

/-- What is true of all streams after a history. -/
structure Books (tr : TextTrace C) (w : TextTogether C) : Prop where
  named : ∀ i t, w.txts i = some t → ∃ x ∈ tr, TextItem.stream x.1 = some i
  usual : ∀ i t, w.txts i = some t → Usual t
  /-- at most one stream holds the lock, and it is open -/
  solo : lockers tr = [] ∨ ∃ i t, lockers tr = [i] ∧ w.txts i = some t ∧ t.buf.raw.data = w.file
  /-- others have nothing pending -/
  idle : ∀ i t, w.txts i = some t → i ∉ lockers tr → t.buf.writeBuf = []
  /-- a stream that waits for the lock has empty buffers -/
  asked : ∀ i t, w.txts i = some t → lastCall tr i = some (.ask i, .done) → t.buf.readBuf = [] ∧ t.buf.readPos = 0 ∧ t.buf.writeBuf = []
  flushed : ∀ i t, w.txts i = some t → lastCall tr i = some (.did i .flush, .done) → t.buf.writeBuf = []

theorem Books.locker {tr : TextTrace C} {w : TextTogether C} (hb : Books tr w) {i : Sid} (h : i ∈ lockers tr) :
    lockers tr = [i] ∧ ∃ t, w.txts i = some t ∧ t.buf.raw.data = w.file := by
  rcases hb.solo with h' | ⟨j, t, h1, h2, h3⟩
  · rw [h'] at h; cases h
  · rw [h1] at h
    obtain rfl := List.mem_singleton.1 h
    exact ⟨h1, t, h2, h3⟩

/-- A call of a method of stream `i`. -/
theorem Books.call {tr : TextTrace C} {w : TextTogether C} (hb : Books tr w) {i : Sid} {t' : Txt C} {x : TextItem C × Txt.Out}
    (hx : TextItem.stream x.1 = some i) (hu : Usual t')
    (hsolo : lockers (tr ++ [x]) = [] ∨ (lockers (tr ++ [x]) = [i]) ∨ (lockers (tr ++ [x]) = lockers tr ∧ t'.buf.raw.data = w.file))
    (hidle : i ∉ lockers (tr ++ [x]) → t'.buf.writeBuf = [])
    (hothers : ∀ j, j ≠ i → j ∈ lockers tr → j ∈ lockers (tr ++ [x]))
    (hasked : x = (.ask i, .done) → t'.buf.readBuf = [] ∧ t'.buf.readPos = 0 ∧ t'.buf.writeBuf = [])
    (hflushed : x = (.did i .flush, .done) → t'.buf.writeBuf = []) : Books (tr ++ [x]) (w.keep i t') := by
  have hi : (w.keep i t').txts i = some t' := by simp [keep]
  have hj : ∀ j, j ≠ i → (w.keep i t').txts j = w.txts j := fun j h => by simp [keep, h]
  have hl : ∀ j, j ≠ i → lastCall (tr ++ [x]) j = lastCall tr j := fun j h => by
    rw [lastCall_snoc, if_neg]
    rw [hx]; exact fun e => h (Option.some.inj e).symm
  have hli : lastCall (tr ++ [x]) i = some x := by rw [lastCall_snoc, if_pos hx]
  refine ⟨fun j t ht => ?_, fun j t ht => ?_, ?_, fun j t ht hn => ?_, fun j t ht hc => ?_, fun j t ht hc => ?_⟩
  · by_cases h : j = i
    · subst h; exact ⟨x, by simp, hx⟩
    · rw [hj j h] at ht
      obtain ⟨y, h1, h2⟩ := hb.named j t ht
      exact ⟨y, by simp [h1], h2⟩
  · by_cases h : j = i
    · subst h; rw [hi] at ht; cases ht; exact hu
    · rw [hj j h] at ht; exact hb.usual j t ht
  · rcases hsolo with h | h | ⟨h, hd⟩
    · exact .inl h
    · exact .inr ⟨i, t', h, hi, rfl⟩
    · rcases hb.solo with g | ⟨j, t, g1, g2, g3⟩
      · exact .inl (h.trans g)
      · by_cases hji : j = i
        · subst hji; exact .inr ⟨j, t', h.trans g1, hi, rfl⟩
        · exact .inr ⟨j, t, h.trans g1, (hj j hji).trans g2, g3.trans hd.symm⟩
  · by_cases h : j = i
    · subst h; rw [hi] at ht; cases ht; exact hidle hn
    · rw [hj j h] at ht; exact hb.idle j t ht fun hm => hn (hothers j h hm)
  · by_cases h : j = i
    · subst h; rw [hi] at ht; cases ht; rw [hli] at hc; exact hasked (Option.some.inj hc)
    · rw [hj j h] at ht; rw [hl j h] at hc; exact hb.asked j t ht hc
  · by_cases h : j = i
    · subst h; rw [hi] at ht; cases ht; rw [hli] at hc; exact hflushed (Option.some.inj hc)
    · rw [hj j h] at ht; rw [hl j h] at hc; exact hb.flushed j t ht hc

/-- A call of a method of a stream that is not open. -/
theorem Books.absent {tr : TextTrace C} {w : TextTogether C} (hb : Books tr w) {i : Sid} (hi : w.txts i = none)
    {x : TextItem C × Txt.Out} (hx : TextItem.stream x.1 = some i) (hl : lockers (tr ++ [x]) = lockers tr) : Books (tr ++ [x]) w := by
  have key : ∀ j t, w.txts j = some t → lastCall (tr ++ [x]) j = lastCall tr j := fun j t ht => by
    rw [lastCall_snoc, if_neg]
    rw [hx]
    intro e
    rw [Option.some.inj e, ht] at hi
    cases hi
  refine ⟨fun j t ht => ?_, hb.usual, by rw [hl]; exact hb.solo, by rw [hl]; exact hb.idle, fun j t ht hc => ?_, fun j t ht hc => ?_⟩
  · obtain ⟨y, h1, h2⟩ := hb.named j t ht
    exact ⟨y, by simp [h1], h2⟩
  · rw [key j t ht] at hc; exact hb.asked j t ht hc
  · rw [key j t ht] at hc; exact hb.flushed j t ht hc

/-- A stream goes away. -/
theorem Books.away {tr : TextTrace C} {w w' : TextTogether C} (hb : Books tr w) {P : Sid → Bool} {x : TextItem C × Txt.Out}
    (hx : ∀ j, TextItem.stream x.1 = some j → P j = true) (hl : lockers (tr ++ [x]) = (lockers tr).filter (fun j => !P j))
    (hw : ∀ j, w'.txts j = if P j then none else w.txts j) (hf : ∀ j ∈ lockers tr, P j = false → w'.file = w.file) :
    Books (tr ++ [x]) w' := by
  have key : ∀ j t, w'.txts j = some t → P j = false ∧ w.txts j = some t ∧ lastCall (tr ++ [x]) j = lastCall tr j := fun j t ht => by
    rw [hw] at ht
    cases hP : P j with
    | true => rw [hP] at ht; cases ht
    | false =>
      rw [hP] at ht
      refine ⟨rfl, ht, ?_⟩
      rw [lastCall_snoc, if_neg]
      intro e
      rw [hx j e] at hP
      cases hP
  refine ⟨fun j t ht => ?_, fun j t ht => hb.usual j t (key j t ht).2.1, ?_, fun j t ht hn => ?_, fun j t ht hc => ?_, fun j t ht hc => ?_⟩
  · obtain ⟨y, h1, h2⟩ := hb.named j t (key j t ht).2.1
    exact ⟨y, by simp [h1], h2⟩
  · rcases hb.solo with h | ⟨j, t, h1, h2, h3⟩
    · exact .inl (by rw [hl, h]; rfl)
    · rw [hl, h1]
      cases hP : P j with
      | true => exact .inl (by simp [hP])
      | false =>
        refine .inr ⟨j, t, by simp [hP], ?_, ?_⟩
        · rw [hw, hP]; exact h2
        · rw [h3]; exact (hf j (by rw [h1]; simp) hP).symm
  · refine hb.idle j t (key j t ht).2.1 fun hm => hn ?_
    rw [hl]
    exact List.mem_filter.2 ⟨hm, by rw [(key j t ht).1]; rfl⟩
  · rw [(key j t ht).2.2] at hc; exact hb.asked j t (key j t ht).2.1 hc
  · rw [(key j t ht).2.2] at hc; exact hb.flushed j t (key j t ht).2.1 hc

/-- The result of a method without a value. -/
theorem of_done {α : Type} {m : Except Exn α × Txt C} : (Txt.Out.of (fun _ => .done) m).1 = .done ↔ ∃ a, m.1 = .ok a := by
  obtain ⟨r, t⟩ := m
  cases r <;> simp [Txt.Out.of]

theorem of_snd {α : Type} {f : α → Txt.Out} {m : Except Exn α × Txt C} : (Txt.Out.of f m).2 = m.2 := by
  obtain ⟨r, t⟩ := m
  cases r <;> rfl

theorem lockers_other {tr : TextTrace C} {it : TextItem C} {out : Txt.Out} (h : ∀ H : List Sid, lockStep H (it, out) = H) :
    lockers (tr ++ [(it, out)]) = lockers tr := by rw [lockers_snoc, h]

theorem on_none {w : TextTogether C} {i : Sid} {m : Txt C → Txt.Out × Txt C} (h : w.txts i = none) :
    w.on i m = (.error .attributeError, w) := by unfold on; rw [h]

theorem on_some {w : TextTogether C} {i : Sid} {t : Txt C} {m : Txt C → Txt.Out × Txt C} (h : w.txts i = some t) :
    w.on i m = ((m (load t w.file)).1, w.keep i (m (load t w.file)).2) := by unfold on; rw [h]

/-- What a stream has in its buffers, and in its file, when `unlock_file` returns. -/
theorem unlock_empties {guess : Nat × Nat → Nat → Nat} {t : Txt C} (h : Usual t) (hd : (t.step guess .unlock).1 = .done) :
    (t.step guess .unlock).2.buf.writeBuf = [] ∧ (t.step guess .unlock).2.buf.raw.data = pendingData t.buf := by
  unfold Txt.step at hd ⊢
  dsimp only at hd ⊢
  obtain ⟨a, ha⟩ := of_done.1 hd
  rw [of_snd]
  generalize hq0 : Txt.unlockFile guess t = q at ha ⊢
  obtain ⟨r, t'⟩ := q
  dsimp only at ha ⊢
  subst ha
  unfold Txt.unlockFile at hq0
  obtain ⟨_, t1, h1, h2⟩ := bind_inv hq0
  have hu : Usual t1 := by
    have := Held.steps.tResetBuffers (C := C) guess t
    rw [h1] at this
    exact h.next this
  have hpd : pendingData t1.buf = pendingData t.buf := by
    have := (Settles.bufs.tResetBuffers (C := C) guess t).buf h.usable
    rw [h1] at this
    exact this.pending
  unfold Txt.onBuf at h2
  generalize hq : Buf.unlockFile t1.buf = q at h2
  obtain ⟨r, b⟩ := q
  dsimp only at h2
  cases h2
  unfold Buf.unlockFile at hq
  obtain ⟨_, b1, h3, h4⟩ := bind_inv hq
  have := (reset_empty hu.usable hu.kind h3).2.2
  have hdata := (resetBuffers_usable hu.usable h3).1
  have hn := (unlockFile_noted b1.raw).1
  unfold Buf.onRaw at h4
  generalize Raw.unlockFile b1.raw = q at h4 hn
  obtain ⟨r, s⟩ := q
  dsimp only at h4 hn
  cases h4
  exact ⟨this, hn.trans (hdata.trans hpd)⟩

theorem flush_out {guess : Nat × Nat → Nat → Nat} {t : Txt C} (h : Usual t) (hd : (t.step guess .flush).1 = .done) :
    (t.step guess .flush).2.buf.writeBuf = [] := by
  unfold Txt.step at hd ⊢
  dsimp only at hd ⊢
  obtain ⟨a, ha⟩ := of_done.1 hd
  rw [of_snd]
  generalize hq0 : Txt.flush t = q at ha ⊢
  obtain ⟨r, t'⟩ := q
  dsimp only at ha ⊢
  subst ha
  unfold Txt.flush at hq0
  obtain ⟨_, t1, h1, h2⟩ := bind_inv hq0
  cases h2
  unfold Txt.onBuf at h1
  generalize hq : Buf.flush t.buf = q at h1
  obtain ⟨r, b⟩ := q
  dsimp only at h1
  cases h1
  exact (flush_done h.usable hq).2.1

/-- One item. -/
theorem step_books (guess : Nat × Nat → Nat → Nat) {tr : TextTrace C} {w : TextTogether C} (hb : Books tr w) {it : TextItem C}
    (hp : TextProper tr it) : Books (tr ++ [(it, (w.step guess it).1)]) (w.step guess it).2 ∧
      ((∀ i, TextItem.stream it = some i → i ∉ lockers tr) → (w.step guess it).2.file = w.file) := by
  cases it with
  | opened i t =>
    obtain ⟨hnew, nl, ls, raw, ho⟩ := hp
    obtain ⟨hu, he⟩ := opened_usual ho
    have hnone : w.txts i = none := by
      cases hc : w.txts i with
      | none => rfl
      | some t' =>
        obtain ⟨x, h1, h2⟩ := hb.named i t' hc
        exact absurd h2 (hnew x h1)
    refine ⟨?_, fun _ => rfl⟩
    have hl : lockers (tr ++ [((.opened i t : TextItem C), (Txt.Out.done))]) = lockers tr := lockers_other fun _ => rfl
    have hx : TextItem.stream (.opened i t : TextItem C) = some i := rfl
    have hj : ∀ j, j ≠ i → lastCall (tr ++ [((.opened i t : TextItem C), (Txt.Out.done))]) j = lastCall tr j := fun j h => by
      rw [lastCall_snoc, if_neg]
      exact fun e => h (Option.some.inj e).symm
    have hli : lastCall (tr ++ [((.opened i t : TextItem C), (Txt.Out.done))]) i = some (.opened i t, .done) := by
      rw [lastCall_snoc, if_pos hx]
    change Books (tr ++ [(.opened i t, .done)]) ⟨w.file, fun j => if j = i then some t else w.txts j⟩
    refine ⟨fun j u hu' => ?_, fun j u hu' => ?_, ?_, fun j u hu' hn => ?_, fun j u hu' hc => ?_, fun j u hu' hc => ?_⟩
    · by_cases h : j = i
      · subst h; exact ⟨(.opened j t, .done), by simp, hx⟩
      · simp only [if_neg h] at hu'
        obtain ⟨y, h1, h2⟩ := hb.named j u hu'
        exact ⟨y, by simp [h1], h2⟩
    · by_cases h : j = i
      · simp only [if_pos h] at hu'; cases hu'; exact hu
      · simp only [if_neg h] at hu'; exact hb.usual j u hu'
    · rw [hl]
      rcases hb.solo with h | ⟨j, u, h1, h2, h3⟩
      · exact .inl h
      · refine .inr ⟨j, u, h1, ?_, h3⟩
        have : j ≠ i := fun e => by rw [e, hnone] at h2; cases h2
        simp only [if_neg this]; exact h2
    · rw [hl] at hn
      by_cases h : j = i
      · simp only [if_pos h] at hu'; cases hu'; exact he
      · simp only [if_neg h] at hu'; exact hb.idle j u hu' hn
    · by_cases h : j = i
      · subst h; rw [hli] at hc; cases hc
      · simp only [if_neg h] at hu'; rw [hj j h] at hc; exact hb.asked j u hu' hc
    · by_cases h : j = i
      · subst h; rw [hli] at hc; cases hc
      · simp only [if_neg h] at hu'; rw [hj j h] at hc; exact hb.flushed j u hu' hc
  | ask i =>
    have hn : i ∉ lockers tr := hp
    simp only [step]
    cases hc : w.txts i with
    | none => rw [on_none hc]; exact ⟨hb.absent hc rfl (lockers_other fun _ => rfl), fun _ => rfl⟩
    | some t =>
      rw [on_some hc]
      dsimp only
      have hu := (hb.usual i t hc).load w.file
      have he : (load t w.file).buf.writeBuf = [] := hb.idle i t hc hn
      have h1 := prepare_held guess (load t w.file)
      have h2 := Settled.quiet ((prepare_settles guess (load t w.file)).buf hu.usable) he
      rw [of_snd]
      refine ⟨hb.call rfl (hu.next h1) (.inr (.inr ⟨lockers_other fun _ => rfl, h2.2⟩)) (fun _ => h2.1) (fun j _ hj => ?_)
        (fun hx => ?_) nofun, fun _ => h2.2⟩
      · rw [lockers_other fun _ => rfl]; exact hj
      · obtain ⟨a, ha⟩ := of_done.1 (Prod.mk.inj hx).2
        exact prepare_empty (t' := (prepare guess (load t w.file)).2) hu (Prod.ext ha rfl)
  | granted i =>
    obtain ⟨hlast, hfree⟩ := hp
    simp only [step]
    cases hc : w.txts i with
    | none => rw [on_none hc]; exact ⟨hb.absent hc rfl (lockers_other fun _ => rfl), fun _ => rfl⟩
    | some t =>
      rw [on_some hc]
      dsimp only
      have hu := (hb.usual i t hc).load w.file
      obtain ⟨e1, e2, e3⟩ := hb.asked i t hc hlast
      have h1 : OnText C Held (load t w.file)
          (Txt.onBuf (Buf.onRaw (Raw.lockFile (load t w.file).buf.raw.data)) (load t w.file)).2 :=
        Held.steps.onBuf (Held.onRaw (Fixed.lockFile _) (Calmer.lockFile _)) (load t w.file)
      have h2 : (Txt.onBuf (Buf.onRaw (Raw.lockFile (load t w.file).buf.raw.data)) (load t w.file)).2.buf.raw.data = w.file :=
        (lockFile_noted (load t w.file).buf.raw).1
      rw [of_snd]
      refine ⟨hb.call rfl (hu.next h1) ?_ (fun _ => e3) (fun j _ hj => ?_) nofun nofun, fun _ => h2⟩
      · rw [lockers_snoc, hfree]
        generalize (Txt.Out.of _ _).1 = o
        cases o
        case done => exact .inr (.inl rfl)
        all_goals exact .inl rfl
      · rw [hfree] at hj; cases hj
  | did i op =>
    obtain ⟨hm, hop⟩ := hp
    obtain ⟨hl, t, hc, hd⟩ := hb.locker hm
    simp only [step]
    rw [on_some hc]
    dsimp only
    have hu := (hb.usual i t hc).load w.file
    have hh : lockers (tr ++ [(.did i op, ((load t w.file).step guess op).1)]) = lockers tr := lockers_other fun _ => rfl
    have h1 := step_held guess (op := op) (by rintro rfl; exact hop) (load t w.file)
    refine ⟨hb.call rfl (hu.next h1) (.inr (.inl (hh.trans hl))) (fun hn => absurd (hh ▸ hm) hn)
      (fun j _ hj => hh ▸ hj) nofun (fun hx => ?_), fun h => absurd hm (h i rfl)⟩
    obtain ⟨hx1, hx2⟩ := Prod.mk.inj hx
    cases hx1
    exact flush_out hu hx2
  | unlock i =>
    have hm : i ∈ lockers tr := hp
    obtain ⟨hl, t, hc, hd⟩ := hb.locker hm
    simp only [step]
    rw [on_some hc]
    dsimp only
    have hu := (hb.usual i t hc).load w.file
    have h1 := step_held guess (op := .unlock) nofun (load t w.file)
    have h2 := unlock_empties (guess := guess) hu
    have hh : lockers (tr ++ [(.unlock i, ((load t w.file).step guess .unlock).1)]) =
        if ((load t w.file).step guess .unlock).1 = .done then [] else [i] := by
      rw [lockers_snoc, hl]
      generalize ((load t w.file).step guess .unlock).1 = o
      cases o <;> simp [lockStep]
    refine ⟨hb.call rfl (hu.next h1) ?_ (fun hn => ?_) (fun j hj hj' => ?_) nofun nofun, fun h => absurd hm (h i rfl)⟩
    · rw [hh]; split
      · exact .inl rfl
      · exact .inr (.inl rfl)
    · rw [hh] at hn
      split at hn
      · exact (h2 (by assumption)).1
      · simp at hn
    · rw [hl] at hj'; exact absurd (List.mem_singleton.1 hj') hj
  | exit i =>
    obtain ⟨hm, hlast⟩ := hp
    obtain ⟨hl, t, hc, hd⟩ := hb.locker hm
    simp only [step]
    rw [on_some hc]
    dsimp only
    have hu := (hb.usual i t hc).load w.file
    have h1 : OnText C Held (load t w.file) (Txt.onBuf Buf.exitLock (load t w.file)).2 :=
      Held.steps.onBuf (Held.onRaw Fixed.unlockFile Calmer.unlockFile) (load t w.file)
    have h2 : (Txt.onBuf Buf.exitLock (load t w.file)).2.buf.writeBuf = [] := hb.flushed i t hc hlast
    rw [of_snd]
    generalize (Txt.Out.of _ _).1 = o
    refine ⟨hb.call rfl (hu.next h1) ?_ (fun _ => h2) (fun j hj hj' => ?_) nofun nofun, fun h => absurd hm (h i rfl)⟩
    · rw [lockers_snoc, hl]
      cases o
      case done => exact .inl (by simp [lockStep])
      all_goals exact .inr (.inl rfl)
    · rw [hl] at hj'; exact absurd (List.mem_singleton.1 hj') hj
  | close i =>
    simp only [step]
    cases hc : w.txts i with
    | none =>
      rw [on_none hc]
      have hni : i ∉ lockers tr := fun hm => by
        obtain ⟨_, t, h, _⟩ := hb.locker hm
        rw [hc] at h; cases h
      refine ⟨hb.away (P := fun j => decide (j = i)) (fun j hj => ?_) ?_ (fun j => ?_) fun _ _ _ => rfl, fun _ => rfl⟩
      · cases hj; simp
      · rw [lockers_snoc]; simp [lockStep]
      · simp
    | some t =>
      rw [on_some hc]
      dsimp only
      have hu := (hb.usual i t hc).load w.file
      have hq : i ∉ lockers tr → ((load t w.file).step guess .close).2.buf.raw.data = w.file := fun hn =>
        close_quiet hu (hb.idle i t hc hn)
      refine ⟨hb.away (P := fun j => decide (j = i)) (fun j hj => ?_) ?_ (fun j => ?_) fun j hj hP => hq fun hm => ?_,
        fun h => hq (h i rfl)⟩
      · cases hj; simp
      · rw [lockers_snoc]; simp [lockStep]
      · simp only [keep]
        by_cases h : j = i <;> simp [h]
      · rw [(hb.locker hm).1] at hj
        simp [List.mem_singleton.1 hj] at hP
  | gone p =>
    simp only [step]
    refine ⟨hb.away (P := fun j => decide (j.1 = p)) nofun ?_ (fun j => ?_) fun _ _ _ => rfl, fun _ => by simp⟩
    · rw [lockers_snoc]; simp [lockStep]
    · simp

/-- The books of a history. -/
theorem books {guess : Nat × Nat → Nat → Nat} {d : Bytes} {tr : TextTrace C} {w : TextTogether C} (h : TextHistory guess d tr w) :
    Books tr w := by
  induction h with
  | start =>
    refine ⟨fun i t h => ?_, fun i t h => ?_, .inl rfl, fun i t h => ?_, fun i t h => ?_, fun i t h => ?_⟩ <;> exact absurd h (by simp)
  | item _ hp ih => exact (step_books guess ih hp).1

/-- The last item of a history. -/
theorem _root_.Verif.Spec.TextHistory.last {guess : Nat × Nat → Nat → Nat} {d : Bytes} {tr : TextTrace C} {x : TextItem C × Txt.Out}
    {w : TextTogether C} (h : TextHistory guess d (tr ++ [x]) w) : ∃ w₀, TextHistory guess d tr w₀ ∧ TextProper tr x.1 ∧
      x.2 = (w₀.step guess x.1).1 ∧ w = (w₀.step guess x.1).2 := by
  generalize hq : tr ++ [x] = q at h
  cases h with
  | start => simp at hq
  | item h1 h2 =>
    obtain ⟨e1, e2⟩ := List.append_inj' hq rfl
    cases e2
    subst e1
    exact ⟨_, h1, h2, rfl, rfl⟩

theorem _root_.Verif.Spec.TextHistory.prefix {guess : Nat × Nat → Nat → Nat} {d : Bytes} {tr' : TextTrace C} : ∀ {tr : TextTrace C}
    {w : TextTogether C}, TextHistory guess d (tr ++ tr') w → ∃ w₀, TextHistory guess d tr w₀ := by
  induction tr' with
  | nil => intro tr w h; exact ⟨w, by simpa using h⟩
  | cons x tr' ih =>
    intro tr w h
    obtain ⟨w₁, h1⟩ := ih (tr := tr ++ [x]) (by simpa using h)
    obtain ⟨w₀, h2, _⟩ := h1.last
    exact ⟨w₀, h2⟩

/-- Equal histories lead to equal states. -/
theorem _root_.Verif.Spec.TextHistory.unique {guess : Nat × Nat → Nat → Nat} {d : Bytes} {tr : TextTrace C} {w w' : TextTogether C}
    (h : TextHistory guess d tr w) (h' : TextHistory guess d tr w') : w = w' := by
  induction h generalizing w' with
  | start =>
    generalize hq : ([] : TextTrace C) = q at h'
    cases h' with
    | start => rfl
    | item => simp at hq
  | item h1 h2 ih =>
    obtain ⟨w₀, g1, _, _, g4⟩ := h'.last
    rw [g4, ih g1]

/-! ## Alone in a section -/

/-- What others do while stream `i` holds the lock. -/
theorem others_wait (guess : Nat × Nat → Nat → Nat) {tr : TextTrace C} {w : TextTogether C} (hb : Books tr w) {i : Sid}
    (hl : lockers tr = [i]) {it : TextItem C} (hp : TextProper tr it) (hs : TextItem.stream it ≠ some i) (hg : it ≠ .gone i.1) :
    (w.step guess it).2.txts i = w.txts i ∧ (w.step guess it).2.file = w.file ∧ lockers (tr ++ [(it, (w.step guess it).1)]) = [i] := by
  have hne : ∀ j, TextItem.stream it = some j → j ∉ lockers tr := fun j hj hm => by
    rw [hl] at hm
    rw [List.mem_singleton.1 hm] at hj
    exact hs hj
  have hon : ∀ j m, j ≠ i → (w.on j m).2.txts i = w.txts i := fun j m h => by
    cases hc : w.txts j with
    | none => rw [on_none hc]
    | some t => rw [on_some hc]; simp only [keep]; rw [if_neg (Ne.symm h)]
  have hji : ∀ j, TextItem.stream it = some j → j ≠ i := fun j hj e => hs (e ▸ hj)
  refine ⟨?_, (step_books guess hb hp).2 hne, ?_⟩
  · cases it with
    | opened j t => simp only [step]; rw [if_neg (Ne.symm (hji j rfl))]
    | ask j => exact hon j _ (hji j rfl)
    | granted j => exact hon j _ (hji j rfl)
    | did j op => exact hon j _ (hji j rfl)
    | unlock j => exact hon j _ (hji j rfl)
    | exit j => exact hon j _ (hji j rfl)
    | close j =>
      simp only [step]
      rw [if_neg (Ne.symm (hji j rfl))]
      exact hon j _ (hji j rfl)
    | gone p =>
      simp only [step]
      rw [if_neg fun e => hg (by rw [e])]
  · rw [lockers_snoc, hl]
    cases it with
    | opened j t => rfl
    | ask j => rfl
    | granted j => exact absurd hl (by rw [hp.2]; simp)
    | did j op => rfl
    | unlock j => exact absurd hp (hne j rfl)
    | exit j => exact absurd hp.1 (hne j rfl)
    | close j =>
      have := hji j rfl
      simp [lockStep, Ne.symm this]
    | gone p =>
      have : ¬ i.1 = p := fun e => hg (by rw [e])
      simp [lockStep, this]

theorem callsOf_snoc (i : Sid) (tr : TextTrace C) (x : TextItem C × Txt.Out) : callsOf i (tr ++ [x]) = callsOf i tr ++ callsOf i [x] := by
  simp [callsOf, List.filterMap_append]

theorem load_same {t : Txt C} {d : Bytes} (h : t.buf.raw.data = d) : load t d = t := by subst h; rfl

/-- The stream when it gets the lock. -/
theorem grant {guess : Nat × Nat → Nat → Nat} {tr : TextTrace C} {w : TextTogether C} (hb : Books tr w) {i : Sid}
    (hp : TextProper tr (.granted i)) (hd : (w.step guess (.granted i)).1 = .done) :
    ∃ t₀ t, w.txts i = some t₀ ∧ (w.step guess (.granted i)).2.txts i = some t ∧ (w.step guess (.granted i)).2.file = w.file ∧
      t.buf.raw.data = w.file ∧ Usual t ∧ t.newline = t₀.newline ∧ t.linesep = t₀.linesep ∧
      t.buf.readBuf = [] ∧ t.buf.readPos = 0 ∧ t.buf.writeBuf = [] ∧ lockers (tr ++ [(.granted i, .done)]) = [i] := by
  cases hc : w.txts i with
  | none => simp only [step] at hd; rw [on_none hc] at hd; cases hd
  | some t₀ =>
    have hu := (hb.usual i t₀ hc).load w.file
    obtain ⟨e1, e2, e3⟩ := hb.asked i t₀ hc hp.1
    have h1 : OnText C Held (load t₀ w.file)
        (Txt.onBuf (Buf.onRaw (Raw.lockFile (load t₀ w.file).buf.raw.data)) (load t₀ w.file)).2 :=
      Held.steps.onBuf (Held.onRaw (Fixed.lockFile _) (Calmer.lockFile _)) (load t₀ w.file)
    have h2 : (Txt.onBuf (Buf.onRaw (Raw.lockFile (load t₀ w.file).buf.raw.data)) (load t₀ w.file)).2.buf.raw.data = w.file :=
      (lockFile_noted (load t₀ w.file).buf.raw).1
    refine ⟨t₀, (Txt.onBuf (Buf.onRaw (Raw.lockFile (load t₀ w.file).buf.raw.data)) (load t₀ w.file)).2, rfl, ?_, ?_, h2, hu.next h1,
      h1.newline, h1.linesep, e1, e2, e3, ?_⟩
    · simp only [step]; rw [on_some hc, of_snd]; simp [keep]
    · simp only [step]; rw [on_some hc, of_snd]; exact h2
    · rw [lockers_snoc, hp.2]; rfl

/-- A section: the stream behaves as if it were alone. -/
theorem alone {guess : Nat × Nat → Nat → Nat} {d : Bytes} {tr : TextTrace C} {i : Sid} {w : TextTogether C}
    (hw : TextHistory guess d tr w) (k : Nat) : ∀ (mid : TextTrace C) (w' : TextTogether C), mid.length = k →
    TextHistory guess d (tr ++ (.granted i, .done) :: mid) w' → Within i mid →
    ∃ t₀ t, w.txts i = some t₀ ∧ t.buf.raw.data = w.file ∧ Usual t ∧ t.newline = t₀.newline ∧ t.linesep = t₀.linesep ∧
      t.buf.readBuf = [] ∧ t.buf.readPos = 0 ∧ t.buf.writeBuf = [] ∧
      (callsOf i mid).map Prod.snd = (Txt.run guess t ((callsOf i mid).map Prod.fst)).1 ∧
      w'.txts i = some (Txt.run guess t ((callsOf i mid).map Prod.fst)).2 ∧
      w'.file = (Txt.run guess t ((callsOf i mid).map Prod.fst)).2.buf.raw.data ∧
      lockers (tr ++ (.granted i, .done) :: mid) = [i] ∧ (∀ op ∈ (callsOf i mid).map Prod.fst, PlainCall op) ∧
      (w.step guess (.granted i)).2.txts i = some t := by
  induction k with
  | zero =>
    intro mid w' hlen h hmid
    obtain rfl := List.eq_nil_of_length_eq_zero hlen
    obtain ⟨w₀, h1, h2, h3, h4⟩ := h.last
    obtain rfl := h1.unique hw
    obtain ⟨t₀, t, g1, g2, g3, g4, g5, g6, g7, g8, g9, g10, g11⟩ := grant (books h1) h2 h3.symm
    exact ⟨t₀, t, g1, g4, g5, g6, g7, g8, g9, g10, rfl, by rw [h4]; exact g2, by rw [h4]; exact g3.trans g4.symm, g11, by simp [callsOf], g2⟩
  | succ k ih =>
    intro mid w' hlen h hmid
    have hne : mid ≠ [] := by intro e; rw [e] at hlen; simp at hlen
    obtain ⟨init, x, rfl⟩ : ∃ init x, mid = init ++ [x] := ⟨mid.dropLast, mid.getLast hne, (List.dropLast_concat_getLast hne).symm⟩
    rw [show tr ++ (.granted i, .done) :: (init ++ [x]) = (tr ++ (.granted i, .done) :: init) ++ [x] by simp] at h ⊢
    obtain ⟨w₁, h1, h2, h3, h4⟩ := h.last
    obtain ⟨t₀, t, g1, g2, g3, g4, g5, g6, g7, g8, g9, g10, g11, g12, g13, g14⟩ := ih init w₁ (by simpa using hlen) h1
      fun y hy => hmid y (by simp [hy])
    refine ⟨t₀, t, g1, g2, g3, g4, g5, g6, g7, g8, ?_⟩
    obtain ⟨it, out⟩ := x
    obtain ⟨hx1, hx2⟩ := hmid (it, out) (by simp)
    dsimp only at h2 h3 h4 hx1 hx2
    by_cases hs : TextItem.stream it = some i
    · obtain ⟨op, rfl⟩ := hx1 hs
      have hstep : w₁.step guess (.did i op) = (((Txt.run guess t ((callsOf i init).map Prod.fst)).2.step guess op).1,
          w₁.keep i ((Txt.run guess t ((callsOf i init).map Prod.fst)).2.step guess op).2) := by
        simp only [step]
        rw [on_some g10, load_same g11.symm]
      rw [hstep] at h3 h4
      have hc : callsOf i (init ++ [(TextItem.did i op, out)]) = callsOf i init ++ [(op, out)] := by
        rw [callsOf_snoc]; simp [callsOf]
      rw [hc, List.map_append, List.map_append, run_append]
      refine ⟨?_, ?_, ?_, ?_, ?_, g14⟩
      · rw [g9]; simp [Txt.run, h3]
      · rw [h4]; simp [keep, Txt.run]
      · rw [h4]; simp [keep, Txt.run]
      · rw [lockers_snoc, g12]; rfl
      · intro op' hop'
        rcases List.mem_append.1 hop' with h' | h'
        · exact g13 op' h'
        · simp at h'; subst h'; exact h2.2
    · obtain ⟨q1, q2, q3⟩ := others_wait guess (books h1) g12 h2 hs hx2
      have hc : callsOf i (init ++ [(it, out)]) = callsOf i init := by
        rw [callsOf_snoc]
        cases it with
        | did j op =>
          have : ¬ j = i := fun e => hs (by rw [e]; rfl)
          simp [callsOf, this]
        | _ => simp [callsOf]
      rw [hc]
      refine ⟨g9, by rw [h4, q1]; exact g10, by rw [h4, q2]; exact g11, ?_, g13, g14⟩
      rw [h3]
      exact q3

/-- The newlines of a stream are chosen when it is opened. -/
theorem on_style {w : TextTogether C} {i j : Sid} {t : Txt C} {m : Txt C → Txt.Out × Txt C} (hm : ∀ u, OnText C Held u (m u).2)
    (h : (w.on i m).2.txts j = some t) : ∃ t₀, w.txts j = some t₀ ∧ t.newline = t₀.newline ∧ t.linesep = t₀.linesep := by
  cases hc : w.txts i with
  | none => rw [on_none hc] at h; exact ⟨t, h, rfl, rfl⟩
  | some u =>
    rw [on_some hc] at h
    simp only [keep] at h
    split at h
    · rename_i e
      subst e
      cases h
      exact ⟨u, hc, (hm (load u w.file)).newline, (hm (load u w.file)).linesep⟩
    · exact ⟨t, h, rfl, rfl⟩

theorem step_style {guess : Nat × Nat → Nat → Nat} {tr : TextTrace C} {w : TextTogether C} {it : TextItem C} (hp : TextProper tr it)
    {j : Sid} {t : Txt C} (h : (w.step guess it).2.txts j = some t) :
    it = .opened j t ∨ ∃ t₀, w.txts j = some t₀ ∧ t.newline = t₀.newline ∧ t.linesep = t₀.linesep := by
  cases it with
  | opened i u =>
    simp only [step] at h
    split at h
    · rename_i e
      subst e
      cases h
      exact .inl rfl
    · exact .inr ⟨t, h, rfl, rfl⟩
  | ask i => exact .inr (on_style (fun u => by rw [of_snd]; exact prepare_held guess u) h)
  | granted i =>
    exact .inr (on_style (fun u => by
      rw [of_snd]; exact Held.steps.onBuf (Held.onRaw (Fixed.lockFile _) (Calmer.lockFile _)) u) h)
  | did i op => exact .inr (on_style (fun u => step_held guess (by rintro rfl; exact hp.2) u) h)
  | unlock i => exact .inr (on_style (fun u => step_held guess (op := .unlock) nofun u) h)
  | exit i =>
    exact .inr (on_style (fun u => by rw [of_snd]; exact Held.steps.onBuf (Held.onRaw Fixed.unlockFile Calmer.unlockFile) u) h)
  | close i =>
    simp only [step] at h
    split at h
    · cases h
    · rename_i hji
      cases hc : w.txts i with
      | none => rw [on_none hc] at h; exact .inr ⟨t, h, rfl, rfl⟩
      | some u =>
        rw [on_some hc] at h
        simp only [keep, if_neg hji] at h
        exact .inr ⟨t, h, rfl, rfl⟩
  | gone p =>
    simp only [step] at h
    split at h
    · cases h
    · exact .inr ⟨t, h, rfl, rfl⟩

theorem style {guess : Nat × Nat → Nat → Nat} {d : Bytes} {tr : TextTrace C} {w : TextTogether C} (h : TextHistory guess d tr w) :
    ∀ {j : Sid} {t : Txt C}, w.txts j = some t →
      ∃ t₀ o, (.opened j t₀, o) ∈ tr ∧ t.newline = t₀.newline ∧ t.linesep = t₀.linesep := by
  induction h with
  | start => intro j t h; cases h
  | item hh hp ih =>
    intro j t h
    rcases step_style hp h with rfl | ⟨t₀, h1, h2, h3⟩
    · exact ⟨t, _, List.mem_append_right _ (List.mem_singleton.2 rfl), rfl, rfl⟩
    · obtain ⟨t₁, o, g1, g2, g3⟩ := ih h1
      exact ⟨t₁, o, List.mem_append_left _ g1, h2.trans g2, h3.trans g3⟩

end TextTogether

end Verif
