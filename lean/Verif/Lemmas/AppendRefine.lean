import Verif.Lemmas.Ported
import Verif.Lemmas.BufferedRefine
import Verif.Spec.AppendStream

/-!
# Streams in append mode against other streams

What does not write does the same whether the file was opened for appending or not.
-/

set_option autoImplicit false

namespace Verif

open Verif.Spec

/-! ## Raw streams -/

namespace Raw

/-- The same stream, not in append mode. -/
def plain (s : Raw) : Raw := { s with append := false }

/-- A stream of unix in append mode. -/
def Unix (s : Raw) : Prop := s.platform = .unix ∧ s.append = true

theorem nextAns_plain (s : Raw) (n : Nat) : s.plain.nextAns n = ((s.nextAns n).1, (s.nextAns n).2.plain) := by
  unfold nextAns
  cases h : s.sched <;> simp [plain, h]

theorem Unix.nextAns {s : Raw} (h : s.Unix) (n : Nat) : (s.nextAns n).2.Unix := by
  unfold Raw.nextAns
  split <;> exact h

theorem checkClosed_flag : Ports Unix plain checkClosed := by
  intro s h
  unfold checkClosed
  by_cases hc : s.closed <;> simp [plain, hc, h]

theorem checkReadable_flag : Ports Unix plain checkReadable := by
  intro s h
  unfold checkReadable
  by_cases hc : s.closed <;> by_cases hr : s.readable <;> simp [plain, hc, hr, h]

theorem checkWritable_flag : Ports Unix plain checkWritable := by
  intro s h
  unfold checkWritable
  by_cases hc : s.closed <;> by_cases hr : s.writable <;> simp [plain, hc, hr, h]

theorem checkSeekable_flag : Ports Unix plain checkSeekable := by
  intro s h
  unfold checkSeekable
  by_cases hc : s.closed <;> by_cases hr : s.seekable <;> simp [plain, hc, hr, h]

theorem innerSize_flag : Ports Unix plain innerSize := fun _ h => ⟨rfl, h⟩

theorem innerTell_flag : Ports Unix plain innerTell := by
  intro s h
  unfold innerTell
  by_cases hr : s.seekable <;> simp [plain, hr, h]

theorem innerSeek_flag (o : Int) (w : Whence) : Ports Unix plain (innerSeek o w) := by
  intro s h
  unfold innerSeek
  rw [show s.plain.seekable = s.seekable from rfl]
  split
  · dsimp only
    rw [show s.plain.pos = s.pos from rfl, show s.plain.data = s.data from rfl]
    cases w <;> dsimp only <;> split <;> exact ⟨rfl, h⟩
  · exact ⟨rfl, h⟩

theorem innerRead_flag (n : Nat) : Ports Unix plain (innerRead n) := by
  intro s h
  unfold innerRead
  rw [nextAns_plain]
  have h2 := h.nextAns n
  generalize s.nextAns n = r at *
  obtain ⟨a, s'⟩ := r
  cases a with
  | count k => exact ⟨rfl, h2⟩
  | again => exact ⟨rfl, h2⟩
  | pipe => exact ⟨rfl, h2⟩
  | fail e => exact ⟨rfl, h2⟩

theorem size_flag : Ports Unix plain size := checkClosed_flag.bind fun _ => innerSize_flag

theorem tell_flag : Ports Unix plain tell := checkClosed_flag.bind fun _ => innerTell_flag

theorem seek_flag (o : Int) (w : Whence) : Ports Unix plain (seek o w) := checkClosed_flag.bind fun _ => innerSeek_flag o w

theorem readN_flag (n : Nat) : Ports Unix plain (readN n) :=
  checkClosed_flag.bind fun _ => checkReadable_flag.bind fun _ => innerRead_flag n

theorem readallLoop_flag : ∀ (fuel : Nat) (chunks : Bytes), Ports Unix plain (readallLoop fuel chunks)
  | 0, _ => Ports.raise _
  | fuel + 1, chunks => by
    refine (readN_flag chunkSize).bind fun d => ?_
    match d with
    | none => exact Ports.pure _
    | some [] => exact Ports.pure _
    | some (b :: bs) => exact readallLoop_flag fuel _

theorem readall_flag : Ports Unix plain readall :=
  Ports.self (P := Unix) (u := plain) (f := fun s => readallLoop (s.data.length - s.pos + 1) []) (fun _ => rfl) fun _ _ => readallLoop_flag _ _

theorem read_flag (n : Option Int) : Ports Unix plain (read n) := by
  refine checkClosed_flag.bind fun _ => checkReadable_flag.bind fun _ => ?_
  cases n with
  | none => exact readall_flag
  | some n => exact Ports.ite readall_flag (innerRead_flag _)

theorem readinto_flag (buffer : Bytes) : Ports Unix plain (readinto buffer) := by
  refine checkClosed_flag.bind fun _ => checkReadable_flag.bind fun _ => (innerRead_flag _).bind fun r => ?_
  cases r with
  | none => exact Ports.raise _
  | some got => exact Ports.pure _

theorem osTruncate_flag (n : Nat) : Ports Unix plain (osTruncate n) := by
  intro s h
  unfold osTruncate
  rw [nextAns_plain]
  have h2 := h.nextAns 1
  generalize s.nextAns 1 = r at *
  obtain ⟨a, s'⟩ := r
  cases a <;> exact ⟨rfl, h2⟩

/-- On unix the file is resized by one system call. -/
theorem resize_call {s : Raw} (hp : s.platform = .unix) (n : Nat) (z : Bool) :
    resize n z s = (do let cur ← size; if n = cur then pure () else osTruncate n : PyM Raw Unit) s := by
  unfold resize
  cases hc : s.closed with
  | true =>
    have hs : size s = (.error .valueError, s) := by
      unfold size
      exact PyM.bind_error (by unfold checkClosed; rw [hc]; rfl)
    rw [PyM.bind_error hs, PyM.bind_error hs]
  | false =>
    rw [PyM.bind_ok (size_open hc), PyM.bind_ok (size_open hc)]
    by_cases h1 : n = s.data.length
    · rw [if_pos h1, if_pos h1]
    rw [if_neg h1, if_neg h1]
    by_cases h2 : n < s.data.length
    · rw [if_pos h2]
      unfold innerReduce
      rw [hp]
    · rw [if_neg h2, PyM.bind_apply]
      have he : innerExtend n z s = osTruncate n s := by unfold innerExtend; rw [hp]
      rw [he]
      have key : ∀ s1 : Raw, s1.closed = false → s1.data.length = n → fillZeros n s1 = (.ok (), s1) := by
        intro s1 g1 g2
        unfold fillZeros
        rw [PyM.bind_ok (size_open g1), if_pos g2]
        rfl
      have hn : ∀ k, (s.nextAns k).2.closed = false := by
        intro k
        unfold Raw.nextAns
        split <;> exact hc
      have hn1 := hn 1
      unfold osTruncate
      generalize s.nextAns 1 = r at *
      obtain ⟨a, s'⟩ := r
      cases a <;> first | rfl | exact key _ hn1 (length_truncated _ _ _)

theorem resize_flag (n : Nat) (z : Bool) : Ports Unix plain (resize n z) := by
  intro s h
  rw [resize_call h.1, resize_call (s := s.plain) h.1]
  exact (size_flag.bind fun _ => Ports.ite (Ports.pure _) (osTruncate_flag n)) s h

theorem truncate_flag (a : Option Int) (z : Bool) : Ports Unix plain (truncate a z) := by
  refine checkSeekable_flag.bind fun _ => checkWritable_flag.bind fun _ => Ports.bind ?_ fun _ =>
    (resize_flag _ _).bind fun _ => size_flag
  cases a with
  | none => exact tell_flag
  | some z => exact Ports.ite (Ports.raise _) (Ports.pure _)

theorem flush_flag : Ports Unix plain flush := checkClosed_flag

theorem lockFile_flag (others : Bytes) : Ports Unix plain (lockFile others) :=
  checkSeekable_flag.bind fun _ => Ports.modify (P := Unix) (u := plain) (fun _ => rfl) fun _ h => h

theorem unlockFile_flag : Ports Unix plain unlockFile :=
  checkSeekable_flag.bind fun _ => Ports.modify (P := Unix) (u := plain) (fun _ => rfl) fun _ h => h

end Raw

/-! ## Buffered streams -/

namespace Buf

/-- The same stream, not in append mode. -/
def plain (b : Buf) : Buf := { b with raw := b.raw.plain }

/-- A stream in append mode with nothing to write. -/
def Idle (b : Buf) : Prop := b.raw.Unix ∧ b.writeBuf = []

variable {α : Type}

theorem onRaw_flag {m : PyM Raw α} (h : Ports Raw.Unix Raw.plain m) : Ports Idle plain (onRaw m) := by
  intro b hb
  obtain ⟨h1, h2⟩ := h b.raw hb.1
  unfold onRaw
  rw [show b.plain.raw = b.raw.plain from rfl, h1]
  generalize m b.raw = r at *
  obtain ⟨r, s'⟩ := r
  exact ⟨rfl, h2, hb.2⟩

theorem checkClosed_flag : Ports Idle plain checkClosed := by
  intro s h
  unfold checkClosed
  by_cases hc : s.raw.closed <;> simp [plain, Raw.plain, hc, h]

theorem resetReadBuf_flag : Ports Idle plain resetReadBuf := Ports.modify (P := Idle) (u := plain) (fun _ => rfl) fun _ h => h

theorem flushUnlocked_flag : Ports Idle plain flushUnlocked :=
  checkClosed_flag.bind fun _ => Ports.get (P := Idle) (u := plain) (f := fun b => flushLoop b.writeBuf.length) (fun _ => rfl) fun b hb => by
    rw [hb.2]; exact Ports.pure _

theorem flush_flag : Ports Idle plain flush := by
  intro b h
  unfold flush
  rw [show b.plain.kind = b.kind from rfl]
  cases b.kind with
  | reader => exact (checkClosed_flag.bind fun _ => onRaw_flag Raw.flush_flag) b h
  | writer => exact flushUnlocked_flag b h
  | random => exact flushUnlocked_flag b h

theorem readRest_flag : Ports Idle plain readRest := by
  intro b h
  unfold readRest
  exact (resetReadBuf_flag.bind fun _ => (onRaw_flag Raw.readall_flag).bind fun _ => Ports.pure _) b h

theorem fillLoop_flag (wanted n : Nat) : ∀ fuel out, Ports Idle plain (fillLoop wanted n fuel out)
  | 0, _ => Ports.pure _
  | fuel + 1, out => by
    refine Ports.ite ((onRaw_flag (Raw.read_flag _)).bind fun chunk => ?_) (Ports.pure _)
    match chunk with
    | none => exact Ports.pure _
    | some [] => exact Ports.pure _
    | some (c :: cs) => exact fillLoop_flag wanted n fuel _

theorem keepExtra_flag (n : Nat) (r : Bytes × Option Bytes) : Ports Idle plain (keepExtra n r) :=
  (Ports.modify (P := Idle) (u := plain)
    (f := fun b : Buf => { b with readBuf := r.1.drop (min n r.1.length), readPos := 0 }) (fun _ => rfl) fun _ h => h).bind
    fun _ => Ports.pure _

theorem readSome_flag (n : Nat) : Ports Idle plain (readSome n) := by
  intro b h
  unfold readSome
  have h0 : b.plain.readBuf = b.readBuf ∧ b.plain.readPos = b.readPos ∧ b.plain.bufferSize = b.bufferSize := ⟨rfl, rfl, rfl⟩
  rw [h0.1, h0.2.1, h0.2.2]
  split
  · exact ⟨rfl, h⟩
  · exact ((fillLoop_flag _ _ _ _).bind fun r => keepExtra_flag n r) b h

theorem readerRead_flag : ∀ n, Ports Idle plain (readerRead n)
  | none => readRest_flag
  | some _ => Ports.ite (Ports.raise _) (Ports.ite readRest_flag (readSome_flag _))

theorem read_flag (n : Option Int) : Ports Idle plain (read n) := by
  intro b h
  unfold read
  rw [show b.plain.kind = b.kind from rfl]
  cases b.kind with
  | writer => exact ⟨rfl, h⟩
  | reader => exact readerRead_flag n b h
  | random => exact (flush_flag.bind fun _ => readerRead_flag _) b h

theorem refill_flag (n : Int) : Ports Idle plain (refill n) := by
  refine (onRaw_flag (Raw.read_flag _)).bind fun r => ?_
  match r with
  | none => exact Ports.pure _
  | some [] => exact Ports.pure _
  | some (c :: cs) => exact Ports.modify (P := Idle) (u := plain) (fun _ => rfl) fun _ h => h

theorem peekUnlocked_flag (n : Int) : Ports Idle plain (peekUnlocked n) :=
  Ports.self (P := Idle) (u := plain) (f := fun b => (do
    PyM.when (decide ((b.readBuf.length : Int) - b.readPos < min n b.bufferSize ∨ (b.readBuf.length : Int) - b.readPos ≤ 0))
      (refill (b.bufferSize - ((b.readBuf.length : Int) - b.readPos)))
    let b ← PyM.get
    pure (b.readBuf.drop b.readPos))) (fun _ => rfl)
    fun _ _ => (Ports.when (refill_flag _)).bind fun _ =>
      Ports.get (P := Idle) (u := plain) (f := fun b => pure (b.readBuf.drop b.readPos)) (fun _ => rfl) fun _ _ => Ports.pure _

theorem peek_flag (n : Int) : Ports Idle plain (peek n) := by
  intro b h
  unfold peek
  rw [show b.plain.kind = b.kind from rfl]
  cases b.kind with
  | writer => exact ⟨rfl, h⟩
  | reader => exact (checkClosed_flag.bind fun _ => peekUnlocked_flag n) b h
  | random => exact (flush_flag.bind fun _ => checkClosed_flag.bind fun _ => peekUnlocked_flag n) b h

theorem read1Unlocked_flag (n : Int) : Ports Idle plain (read1Unlocked n) :=
  (peekUnlocked_flag 1).bind fun _ =>
    Ports.get (P := Idle) (u := plain) (f := fun b => readSome (min n ((b.readBuf.length : Int) - b.readPos)).toNat) (fun _ => rfl) fun _ _ => readSome_flag _

theorem readerRead1_flag (n : Int) : Ports Idle plain (readerRead1 n) :=
  Ports.self (P := Idle) (u := plain) (f := fun b => (do
    checkClosed
    if n = 0 then pure (some [])
    else read1Unlocked (if n < 0 then b.bufferSize else n))) (fun _ => rfl)
    fun _ _ => checkClosed_flag.bind fun _ => Ports.ite (Ports.pure _) (read1Unlocked_flag _)

theorem read1_flag (n : Int) : Ports Idle plain (read1 n) := by
  intro b h
  unfold read1
  rw [show b.plain.kind = b.kind from rfl]
  cases b.kind with
  | writer => exact ⟨rfl, h⟩
  | reader => exact readerRead1_flag n b h
  | random => exact (flush_flag.bind fun _ => readerRead1_flag _) b h

theorem nreadahead_flag (n : Int) : Ports Idle plain (nreadahead n) := by
  intro b h
  unfold nreadahead
  rw [show b.plain.kind = b.kind from rfl]
  cases b.kind with
  | writer => exact ⟨rfl, h⟩
  | reader => exact ((peek_flag 1).bind fun _ => Ports.pure _) b h
  | random => exact ((peek_flag 1).bind fun _ => Ports.pure _) b h

theorem readlineLoop_flag (size : Int) : ∀ fuel res, Ports Idle plain (readlineLoop size fuel res)
  | 0, _ => Ports.pure _
  | fuel + 1, res => by
    refine Ports.ite ((nreadahead_flag size).bind fun n => (read_flag _).bind fun chunk => ?_) (Ports.pure _)
    match chunk with
    | none => exact Ports.pure _
    | some [] => exact Ports.pure _
    | some (c :: cs) => exact Ports.ite (Ports.pure _) (readlineLoop_flag size fuel _)

theorem readline_flag (size : Int) : Ports Idle plain (readline size) :=
  Ports.self (P := Idle) (u := plain) (f := fun b => readlineLoop size (b.raw.data.length + b.readBuf.length + 1) []) (fun _ => rfl)
    fun _ _ => readlineLoop_flag _ _ _

theorem tell_flag : Ports Idle plain tell := by
  intro b h
  unfold tell
  exact ((onRaw_flag Raw.tell_flag).bind fun _ => Ports.pure _) b h

theorem writerSeek_flag (o : Int) (w : Whence) : Ports Idle plain (writerSeek o w) :=
  flushUnlocked_flag.bind fun _ => onRaw_flag (Raw.seek_flag o w)

theorem seekBack_flag : Ports Idle plain seekBack := by
  intro b h
  unfold seekBack
  have h0 : b.plain.readBuf = b.readBuf ∧ b.plain.readPos = b.readPos := ⟨rfl, rfl⟩
  rw [h0.1, h0.2]
  split
  · exact ⟨rfl, h⟩
  · exact ((onRaw_flag (Raw.seek_flag _ _)).bind fun _ => Ports.pure _) b h

theorem randomSeek_flag (o : Int) (w : Whence) : Ports Idle plain (randomSeek o w) :=
  flush_flag.bind fun _ => seekBack_flag.bind fun _ => (onRaw_flag (Raw.seek_flag o w)).bind fun _ =>
    resetReadBuf_flag.bind fun _ => Ports.pure _

theorem undoReadAhead_flag : Ports Idle plain undoReadAhead := by
  intro b h
  unfold undoReadAhead
  have h0 : b.plain.readBuf = b.readBuf ∧ b.plain.readPos = b.readPos := ⟨rfl, rfl⟩
  rw [h0.1, h0.2]
  split
  · exact ⟨rfl, h⟩
  · exact ((onRaw_flag (Raw.seek_flag _ _)).bind fun _ => resetReadBuf_flag) b h

theorem seek_flag (o : Int) (w : Whence) {b : Buf} (h : Idle b) (hk : b.kind ≠ .reader) :
    seek o w b.plain = ((seek o w b).1, (seek o w b).2.plain) ∧ Idle (seek o w b).2 := by
  unfold seek
  rw [show b.plain.kind = b.kind from rfl]
  cases hk' : b.kind with
  | writer => exact writerSeek_flag o w b h
  | reader => exact absurd hk' hk
  | random => exact randomSeek_flag o w b h

theorem writerTruncate_flag (a : Option Int) : Ports Idle plain (writerTruncate a) := by
  refine flushUnlocked_flag.bind fun _ => ?_
  cases a with
  | none => exact (onRaw_flag Raw.tell_flag).bind fun _ => onRaw_flag (Raw.truncate_flag _ _)
  | some n => exact onRaw_flag (Raw.truncate_flag _ _)

theorem truncate_flag (a : Option Int) : Ports Idle plain (truncate a) := by
  intro b h
  unfold truncate
  rw [show b.plain.kind = b.kind from rfl]
  cases b.kind with
  | reader => exact (checkClosed_flag.bind fun _ => Ports.raise _) b h
  | writer => exact writerTruncate_flag a b h
  | random =>
    cases a with
    | none => exact (tell_flag.bind fun _ => writerTruncate_flag _) b h
    | some n => exact writerTruncate_flag _ b h

theorem size_flag : Ports Idle plain size := flush_flag.bind fun _ => onRaw_flag Raw.size_flag

theorem reset_flag {α : Type} {m : PyM Raw α} (hm : Ports Raw.Unix Raw.plain m) {b : Buf} (h : Idle b) (hk : b.kind ≠ .reader) :
    (do resetBuffers; onRaw m : PyM Buf α) b.plain = (((do resetBuffers; onRaw m : PyM Buf α) b).1,
      ((do resetBuffers; onRaw m : PyM Buf α) b).2.plain) ∧ Idle ((do resetBuffers; onRaw m : PyM Buf α) b).2 := by
  obtain ⟨h1, h2⟩ := seek_flag 0 .cur h hk
  have key : ∀ b : Buf, (do resetBuffers; onRaw m : PyM Buf α) b = match seek 0 .cur b with
      | (.ok _, b) => onRaw m b
      | (.error e, b) => (.error e, b) := by
    intro b
    unfold resetBuffers
    rw [PyM.bind_apply, PyM.bind_apply]
    generalize seek 0 .cur b = r
    obtain ⟨r, b'⟩ := r
    cases r <;> rfl
  rw [key, key, h1]
  generalize seek 0 .cur b = r at *
  obtain ⟨r, b'⟩ := r
  cases r with
  | ok p => exact onRaw_flag hm b' h2
  | error e => exact ⟨rfl, h2⟩

/-- A stream with nothing to write does the same in append mode, unless it writes. -/
theorem step_flag {b : Buf} (h : Idle b) (hk : b.kind ≠ .reader) (op : StreamOp) (hop : ∀ d, op ≠ .write d) :
    b.plain.step op = ((b.step op).1, (b.step op).2.plain) ∧ Idle (b.step op).2 := by
  have key : ∀ {α : Type} {f : Except Exn α → StreamOut} {m : PyM Buf α},
      (m b.plain = ((m b).1, (m b).2.plain) ∧ Idle (m b).2) →
      (f (m b.plain).1, (m b.plain).2) = (f (m b).1, (m b).2.plain) ∧ Idle (m b).2 := by
    intro α f m hm
    rw [hm.1]
    exact ⟨rfl, hm.2⟩
  cases op with
  | write d => exact absurd rfl (hop d)
  | read n => exact key (read_flag n b h)
  | read1 n => exact key (read1_flag n b h)
  | peek n => exact key (peek_flag n b h)
  | readline n => exact key (readline_flag n b h)
  | seek o w => exact key (seek_flag o w h hk)
  | tell => exact key (tell_flag b h)
  | flush => exact key (flush_flag b h)
  | truncate a => exact key (truncate_flag a b h)
  | size => exact key (size_flag b h)
  | lock o => exact key (reset_flag (Raw.lockFile_flag o) h hk)
  | unlock => exact key (reset_flag Raw.unlockFile_flag h hk)

/-! ## Writing at the end -/

theorem _root_.Verif.Raw.write_tail {s s' : Raw} {buf : Bytes} {k : Nat} (ho : s.closed = false) (hw : s.writable = true)
    (hp : s.platform = .unix) (ha : s.append = true) (hk : 1 ≤ k) (h : Raw.write buf s = (.ok (some k), s')) :
    s'.pos = s'.data.length := by
  rw [Raw.write_unix buf ho hw hp, ha] at h
  unfold Raw.osWrite at h
  generalize hr : s.nextAns buf.length = r at h
  obtain ⟨a, s0⟩ := r
  cases a with
  | count j =>
    dsimp only at h
    split at h
    · cases h
    · simp only [Prod.mk.injEq, Except.ok.injEq, Option.some.injEq] at h
      obtain ⟨h1, rfl⟩ := h
      have : buf.take j ≠ [] := by intro h0; rw [h0] at h1; simp at h1; omega
      simp only [if_true, if_neg this, writeAt_end, List.length_append]
  | again => cases h
  | pipe => cases h
  | fail e => cases h

theorem flushLoop_tail (fuel : Nat) : ∀ b : Buf, b.raw.closed = false → b.raw.writable = true → b.raw.platform = .unix →
    b.raw.append = true → Blocking b.raw.sched → b.writeBuf.length ≤ fuel → b.writeBuf ≠ [] ∨ b.raw.pos = b.raw.data.length →
    (flushLoop fuel b).2.raw.pos = (flushLoop fuel b).2.raw.data.length := by
  induction fuel with
  | zero =>
    intro b ho hw hp ha hb hf ht
    exact ht.resolve_left (by simp [List.length_eq_zero_iff.1 (Nat.le_zero.1 hf)])
  | succ fuel ih =>
    intro b ho hw hp ha hb hf ht
    unfold flushLoop
    by_cases hne : b.writeBuf = []
    · rw [if_pos hne]
      exact ht.resolve_left (by simp [hne])
    · rw [if_neg hne]
      rcases Raw.write_cases ho hw hp hne with ⟨k, s', hk1, hk2, h, hd, hde, hpo, hfr, hev, hbl, hnb⟩ |
        ⟨r, s', h, hr, hd, hpo, hfr, hev, hnbl, hnb⟩
      · rw [PyM.bind_ok (onRaw_eq h)]
        have hdw : dropWritten (some k) { b with raw := s' } = (.ok (), { b with raw := s', writeBuf := b.writeBuf.drop k }) := by
          unfold dropWritten
          dsimp only
          rw [if_neg (by omega)]
        rw [PyM.bind_ok hdw]
        exact ih _ (hfr.closed.trans ho) (hfr.writable.trans hw) (hfr.platform.trans hp) (hfr.append.trans ha) (hbl hb)
          (by simp; omega) (.inr (Raw.write_tail ho hw hp ha hk1 h))
      · exact absurd hb hnbl

/-! ## The relation -/

/-- The stream as one that is not in append mode, and is where its bytes will go. -/
def placed (b : Buf) : Buf :=
  if b.writeBuf = [] then b.plain else { b.plain with raw := { b.plain.raw with pos := b.raw.data.length } }

/-- The stream in append mode represents the file. -/
structure Appends (b : Buf) (f : AppendFile) : Prop where
  append : b.raw.append = true
  kind : b.kind ≠ .reader
  rel : R b.placed f.file
  tail : f.late = false → b.writeBuf ≠ [] → b.raw.pos = b.raw.data.length

theorem placed_idle {b : Buf} (h : b.writeBuf = []) : b.placed = b.plain := by unfold placed; rw [if_pos h]

theorem placed_pending {b : Buf} (h : b.writeBuf ≠ []) :
    b.placed = { b.plain with raw := { b.plain.raw with pos := b.raw.data.length } } := by unfold placed; rw [if_neg h]

/-- Everything but the raw position is the same. -/
theorem placed_same (b : Buf) : b.placed.kind = b.kind ∧ b.placed.bufferSize = b.bufferSize ∧ b.placed.readBuf = b.readBuf ∧
    b.placed.readPos = b.readPos ∧ b.placed.writeBuf = b.writeBuf ∧ b.placed.raw.data = b.raw.data ∧
    b.placed.raw.events = b.raw.events ∧ b.placed.raw.closed = b.raw.closed ∧ b.placed.raw.platform = b.raw.platform ∧
    b.placed.raw.seekable = b.raw.seekable ∧ b.placed.raw.readable = b.raw.readable ∧ b.placed.raw.writable = b.raw.writable ∧
    b.placed.raw.sched = b.raw.sched := by
  unfold placed
  split <;> exact ⟨rfl, rfl, rfl, rfl, rfl, rfl, rfl, rfl, rfl, rfl, rfl, rfl, rfl⟩

/-- The content: what is in the file and what waits. -/
theorem Appends.data {b : Buf} {f : AppendFile} (h : Appends b f) : f.file.data = b.raw.data ++ b.writeBuf := by
  have := h.rel.data
  by_cases hw : b.writeBuf = []
  · rw [placed_idle hw] at this
    rw [this, show b.plain.writeBuf = b.writeBuf from rfl, hw, writeAt_nil, List.append_nil]
    rfl
  · rw [placed_pending hw] at this
    rw [this]
    exact writeAt_end _ _ _

theorem Appends.log {b : Buf} {f : AppendFile} (h : Appends b f) : b.raw.events = f.file.log := by
  have := h.rel.log
  unfold placed at this
  split at this <;> exact this.symm

theorem Appends.of_plain {b : Buf} {f : AppendFile} (ha : b.raw.append = true) (hk : b.kind ≠ .reader) (hw : b.writeBuf = [])
    (h : R b.plain f.file) : Appends b f :=
  ⟨ha, hk, by rw [placed_idle hw]; exact h, fun _ h0 => absurd hw h0⟩

theorem Appends.flushUnlocked {b : Buf} {f : AppendFile} (h : Appends b f) :
    ∃ b', Buf.flushUnlocked b = (.ok (), b') ∧ b'.writeBuf = [] ∧ b'.readBuf = b.readBuf ∧ b'.kind = b.kind ∧ b'.raw.append = true ∧
      R b'.plain f.file ∧ (b.writeBuf ≠ [] → b'.raw.pos = b'.raw.data.length) := by
  obtain ⟨c1, c2, c3, c4, c5, c6, c7, c8, c9, c10, c11, c12, c13⟩ := placed_same b
  have hl := h.rel.live
  have ho := c8.symm.trans hl.opened
  have hw := c12.symm.trans (hl.writable (by rw [c1]; exact h.kind))
  have hp := c9.symm.trans hl.unix
  have hb : Blocking b.raw.sched := by rw [← c13]; exact hl.blocking
  obtain ⟨r, b', j, h1, h2⟩ := flushUnlocked_spec ho hw hp
  obtain ⟨rfl, hb'⟩ := h2.blocking hb
  have hj : j = b.writeBuf.length := by
    rcases h2.result with ⟨_, h⟩ | h | ⟨e, h, _⟩
    · exact h
    · cases h
    · cases h
  have hleft : b'.writeBuf = [] := by rw [h2.left, hj]; simp
  have hd : b'.raw.data = f.file.data := by
    rw [h2.data, hj, List.take_length, h.data, Raw.dest, if_pos h.append, writeAt_end]
  have htail : b.writeBuf ≠ [] → b'.raw.pos = b'.raw.data.length := by
    intro hne
    have := flushLoop_tail b.writeBuf.length b ho hw hp h.append hb (Nat.le_refl _) (.inl hne)
    unfold Buf.flushUnlocked at h1
    rw [PyM.bind_ok (checkClosed_ok ho), PyM.bind_ok (PyM.get_apply b)] at h1
    rw [h1] at this
    exact this
  have hfr := h2.frame
  refine ⟨b', h1, hleft, hfr.readBuf, hfr.kind, hfr.raw.append.trans h.append, ?_, htail⟩
  have hex : b'.plain.extra = b.placed.extra := by
    unfold extra
    rw [c3, c4, ← hfr.readBuf, ← hfr.readPos]; rfl
  refine ⟨⟨hfr.raw.closed.trans ho, hfr.raw.platform.trans hp, rfl, hfr.raw.seekable.trans (c10.symm.trans hl.seekable), ?_, ?_, hb', ?_⟩,
    ?_, ?_, .inr hleft, fun _ => hleft, ?_, ?_, ?_, ?_, ?_⟩
  · exact fun hk => hfr.raw.readable.trans (c11.symm.trans (hl.readable (by rw [c1]; exact fun h0 => hk (hfr.kind.trans h0))))
  · exact fun _ => hfr.raw.writable.trans hw
  · show 0 < b'.bufferSize
    rw [hfr.bufferSize, ← c2]; exact hl.bufferSize
  · show b'.readPos ≤ b'.readBuf.length
    rw [hfr.readBuf, hfr.readPos, ← c3, ← c4]; exact h.rel.inside
  · rw [hex]
    show b'.readBuf.drop b'.readPos = _
    rw [hfr.readBuf, hfr.readPos, ← c3, ← c4]; exact h.rel.unread
  · intro hk
    show b'.readBuf = []
    rw [hfr.readBuf, ← c3]
    exact h.rel.writer (by rw [c1]; exact hfr.kind.symm.trans hk)
  · rw [show b'.plain.writeBuf = [] from hleft, writeAt_nil]; exact hd.symm
  · rw [hex, show b'.plain.writeBuf = [] from hleft]
    show _ = b'.raw.pos + 0
    have hpos := h.rel.pos
    by_cases hne : b.writeBuf = []
    · have hb0 : b' = b := by
        unfold Buf.flushUnlocked at h1
        rw [PyM.bind_ok (checkClosed_ok ho), PyM.bind_ok (PyM.get_apply b), hne] at h1
        exact (congrArg Prod.snd h1).symm
      rw [hb0]
      rw [placed_idle hne] at hpos ⊢
      rw [hpos, show b.plain.writeBuf = [] from hne]
      rfl
    · rw [htail hne, hd, h.data, List.length_append]
      rw [placed_pending hne] at hpos ⊢
      exact hpos
  · intro hah
    show b'.readBuf = []
    rw [hfr.readBuf, ← c3]; exact h.rel.ahead hah
  · rw [h.rel.log, c7]; exact hfr.events.symm

theorem Appends.flush {b : Buf} {f : AppendFile} (h : Appends b f) :
    ∃ b', Buf.flush b = (.ok (), b') ∧ b'.writeBuf = [] ∧ b'.readBuf = b.readBuf ∧ b'.kind = b.kind ∧ b'.raw.append = true ∧
      R b'.plain f.file ∧ (b.writeBuf ≠ [] → b'.raw.pos = b'.raw.data.length) := by
  have : Buf.flush b = Buf.flushUnlocked b := by
    unfold Buf.flush
    split
    · rename_i hr; exact absurd hr h.kind
    · rfl
  rw [this]
  exact h.flushUnlocked

/-! ## Writing -/

theorem Appends.undo {b : Buf} {f : AppendFile} (h : Appends b f) :
    ∃ b', undoReadAhead b = (.ok (), b') ∧ Appends b' ⟨{ f.file with ahead := false }, f.late⟩ ∧ b'.kind = b.kind ∧ b'.readBuf = [] := by
  by_cases hr : b.readBuf = []
  · refine ⟨b, by unfold undoReadAhead; rw [if_pos hr], ⟨h.append, h.kind, ?_, h.tail⟩, rfl, hr⟩
    exact h.rel.settled (by rw [(placed_same b).2.2.1]; exact hr) false
  · have hw : b.writeBuf = [] := by
      have := h.rel.excl
      rw [(placed_same b).2.2.1, (placed_same b).2.2.2.2.1] at this
      exact this.resolve_left hr
    have hrel := h.rel
    rw [placed_idle hw] at hrel
    have hi : Idle b := ⟨⟨hrel.live.unix, h.append⟩, hw⟩
    obtain ⟨b', g1, g2, g3, g4⟩ := undoReadAhead_R hrel
    obtain ⟨e1, e2⟩ := undoReadAhead_flag b hi
    rw [g1] at e1
    have e3 := congrArg Prod.fst e1
    have e4 := congrArg Prod.snd e1
    generalize undoReadAhead b = q at *
    obtain ⟨q, b1⟩ := q
    dsimp only at e3 e4 e2
    subst e3 e4
    exact ⟨b1, rfl, Appends.of_plain e2.1.2 (fun h0 => h.kind (g3.symm.trans h0)) e2.2 g2, g3, g4⟩

theorem Appends.put {b : Buf} {f : AppendFile} (h : Appends b f) (hr : b.readBuf = []) (d : Bytes) (hd : d ≠ []) {l : Bool}
    (hl : l = false → f.late = false ∧ f.file.pos = f.file.data.length) :
    Appends { b with writeBuf := b.writeBuf ++ d }
      ⟨{ f.file with data := f.file.data ++ d, pos := f.file.data.length + d.length, ahead := false }, l⟩ := by
  obtain ⟨c1, c2, c3, c4, c5, c6, c7, c8, c9, c10, c11, c12, c13⟩ := placed_same b
  have hne : b.writeBuf ++ d ≠ [] := by simp [hd]
  have hlive := h.rel.live
  have hin : b.readPos = 0 := by
    have := h.rel.inside
    rw [c3, c4, hr] at this
    simpa using this
  refine ⟨h.append, h.kind, ?_, fun h0 _ => ?_⟩
  · rw [placed_pending (b := { b with writeBuf := b.writeBuf ++ d }) hne]
    refine ⟨⟨c8.symm.trans hlive.opened, c9.symm.trans hlive.unix, rfl, c10.symm.trans hlive.seekable, ?_, ?_, ?_, ?_⟩,
      ?_, ?_, .inl hr, fun h0 => absurd h0 h.kind, fun _ => hr, ?_, ?_, fun _ => hr, ?_⟩
    · exact fun hk => c11.symm.trans (hlive.readable (by rw [c1]; exact hk))
    · exact fun hk => c12.symm.trans (hlive.writable (by rw [c1]; exact hk))
    · show Blocking b.raw.sched
      rw [← c13]; exact hlive.blocking
    · show 0 < b.bufferSize
      rw [← c2]; exact hlive.bufferSize
    · show b.readPos ≤ b.readBuf.length
      rw [hin]; omega
    · show b.readBuf.drop b.readPos = _
      simp only [extra, plain, hr]
      simp
    · dsimp only
      rw [h.data]
      show _ = writeAt _ b.raw.data b.raw.data.length (b.writeBuf ++ d)
      rw [writeAt_end, List.append_assoc]
    · simp only [extra, plain, Raw.plain, hr, h.data, List.length_append, List.length_nil]
      omega
    · dsimp only
      rw [h.rel.log, c7]; rfl
  · obtain ⟨g1, g2⟩ := hl h0
    show b.raw.pos = b.raw.data.length
    by_cases hw : b.writeBuf = []
    · have hp := h.rel.pos
      rw [placed_idle hw, show b.plain.writeBuf = [] from hw] at hp
      have hd := h.data
      rw [hw, List.append_nil] at hd
      rw [← hd, ← g2]
      simp only [extra, plain, Raw.plain, hr, List.length_nil] at hp
      omega
    · exact h.tail g1 hw

theorem Appends.overflow {b : Buf} {f : AppendFile} (h : Appends b f) (n : Nat) :
    ∃ b', overflowFlush n b = (.ok n, b') ∧ Appends b' f ∧ b'.kind = b.kind := by
  unfold overflowFlush
  split
  · obtain ⟨b', h1, h2, _, h3, h4, h5, _⟩ := h.flushUnlocked
    rw [h1]
    exact ⟨b', rfl, .of_plain h4 (by rw [h3]; exact h.kind) h2 h5, h3⟩
  · exact ⟨b, rfl, h, rfl⟩

theorem Appends.preFlush {b : Buf} {f : AppendFile} (h : Appends b f) :
    ∃ b', Buf.preFlush b = (.ok (), b') ∧ Appends b' f ∧ b'.kind = b.kind ∧ b'.readBuf = b.readBuf := by
  unfold Buf.preFlush
  split
  · obtain ⟨b', h1, h2, h6, h3, h4, h5, _⟩ := h.flushUnlocked
    exact ⟨b', h1, .of_plain h4 (by rw [h3]; exact h.kind) h2 h5, h3, h6⟩
  · exact ⟨b, rfl, h, rfl, rfl⟩

theorem Appends.writerWrite {b : Buf} {f : AppendFile} (h : Appends b f) (hr : b.readBuf = []) (hah : f.file.ahead = false) (d : Bytes) :
    ∃ b' f', Buf.writerWrite d b = (.ok d.length, b') ∧ AppendAllowed b.kind f (.write d) (.num d.length) f' ∧ Appends b' f' ∧
      b'.kind = b.kind := by
  unfold Buf.writerWrite
  have ho : b.raw.closed = false := (placed_same b).2.2.2.2.2.2.2.1.symm.trans h.rel.live.opened
  rw [PyM.bind_ok (checkClosed_ok ho)]
  obtain ⟨b1, h1, h2, h3, h4⟩ := h.preFlush
  rw [PyM.bind_ok h1, PyM.bind_ok (PyM.modify_apply _ _)]
  by_cases hd : d = []
  · subst hd
    rw [List.append_nil]
    obtain ⟨b2, g1, g2, g3⟩ := h2.overflow ([] : Bytes).length
    refine ⟨b2, f, g1, ⟨rfl, fun _ => ?_, fun h0 => absurd rfl h0⟩, g2, g3.trans h3⟩
    obtain ⟨⟨fd, fp, fa, fl⟩, fl'⟩ := f
    dsimp only at hah
    subst hah
    rfl
  · have hput := h2.put (h4.trans hr) d hd (l := f.late || decide (f.file.pos ≠ f.file.data.length)) (by
      intro h0
      simp only [Bool.or_eq_false_iff, decide_eq_false_iff_not, ne_eq, Decidable.not_not] at h0
      exact h0)
    obtain ⟨b2, g1, g2, g3⟩ := hput.overflow d.length
    exact ⟨b2, _, g1, ⟨rfl, fun h0 => absurd h0 hd, fun _ => ⟨rfl, by simp⟩⟩, g2, g3.trans h3⟩

theorem Appends.write {b : Buf} {f : AppendFile} (h : Appends b f) (d : Bytes) :
    ∃ b' f', Buf.write d b = (.ok d.length, b') ∧ AppendAllowed b.kind f (.write d) (.num d.length) f' ∧ Appends b' f' := by
  have hall : ∀ {k k' : BufKind} {f' : AppendFile},
      AppendAllowed k ⟨{ f.file with ahead := false }, f.late⟩ (.write d) (.num d.length) f' →
      AppendAllowed k' f (.write d) (.num d.length) f' := fun ha => ha
  unfold Buf.write
  cases hk : b.kind with
  | reader => exact absurd hk h.kind
  | writer =>
    have hr : b.readBuf = [] := by
      have := h.rel.writer (by rw [(placed_same b).1]; exact hk)
      rw [(placed_same b).2.2.1] at this
      exact this
    have h' : Appends b ⟨{ f.file with ahead := false }, f.late⟩ :=
      ⟨h.append, h.kind, h.rel.settled (by rw [(placed_same b).2.2.1]; exact hr) false, h.tail⟩
    obtain ⟨b', f', g1, g2, g3, _⟩ := h'.writerWrite hr rfl d
    exact ⟨b', f', g1, hall g2, g3⟩
  | random =>
    obtain ⟨b1, e1, e2, e3, e4⟩ := h.undo
    obtain ⟨b', f', g1, g2, g3, _⟩ := e2.writerWrite e4 rfl d
    dsimp only
    rw [PyM.bind_ok e1]
    exact ⟨b', f', g1, hall g2, g3⟩

/-! ## The other calls -/

theorem flushUnlocked_idle {b : Buf} (ho : b.raw.closed = false) (hw : b.writeBuf = []) : Buf.flushUnlocked b = (.ok (), b) := by
  unfold Buf.flushUnlocked
  rw [PyM.bind_ok (checkClosed_ok ho), PyM.bind_ok (PyM.get_apply b), hw]
  rfl

theorem flush_idle {b : Buf} (hk : b.kind ≠ .reader) (ho : b.raw.closed = false) (hw : b.writeBuf = []) : Buf.flush b = (.ok (), b) := by
  unfold Buf.flush
  split
  · rename_i hr; exact absurd hr hk
  · exact flushUnlocked_idle ho hw

theorem seek_flushes {b b' : Buf} (hk : b.kind ≠ .reader) (o : Int) (w : Whence) (e1 : Buf.flush b = (.ok (), b'))
    (e1' : Buf.flushUnlocked b = (.ok (), b')) (e2 : Buf.flush b' = (.ok (), b')) (e2' : Buf.flushUnlocked b' = (.ok (), b'))
    (e3 : b'.kind = b.kind) : Buf.seek o w b = Buf.seek o w b' := by
  unfold Buf.seek
  rw [e3]
  cases hb : b.kind with
  | reader => exact absurd hb hk
  | writer =>
    dsimp only
    unfold writerSeek
    rw [PyM.bind_ok e1', PyM.bind_ok e2']
  | random =>
    dsimp only
    unfold randomSeek
    rw [PyM.bind_ok e1, PyM.bind_ok e2]

/-- A call that begins by storing what was written. -/
theorem Appends.flushing {b : Buf} {f : AppendFile} {op : StreamOp} (h : Appends b f) (hop : ¬ Idles b.kind op) (hnw : ∀ d, op ≠ .write d)
    (hu : ¬ Unsafe b.kind f.file op)
    (hs : ∀ b', Buf.flush b = (.ok (), b') → Buf.flushUnlocked b = (.ok (), b') → Buf.flush b' = (.ok (), b') →
      Buf.flushUnlocked b' = (.ok (), b') → b'.kind = b.kind → R b'.plain f.file → b.step op = b'.step op) :
    ∃ f', AppendAllowed b.kind f op (b.step op).1 f' ∧ Appends (b.step op).2 f' := by
  obtain ⟨b', h1, h2, h3, h4, h5, h6, h7⟩ := h.flush
  obtain ⟨b2, g1, g2, g3, g4, g5, g6, g7⟩ := h.flushUnlocked
  have he : Buf.flush b = Buf.flushUnlocked b := by
    unfold Buf.flush
    split
    · rename_i hr; exact absurd hr h.kind
    · rfl
  have ho : b'.raw.closed = false := h6.live.opened
  have hk' : b'.kind ≠ .reader := by rw [h4]; exact h.kind
  rw [hs b' h1 (by rw [← he]; exact h1) (flush_idle hk' ho h2) (flushUnlocked_idle ho h2) h4 h6]
  have hi : Idle b' := ⟨⟨h6.live.unix, h5⟩, h2⟩
  obtain ⟨e1, e2⟩ := step_flag hi hk' op hnw
  obtain ⟨f1, k1, k2⟩ := step_R h6 op (by rw [show b'.plain.kind = b.kind from h4]; exact hu)
  rw [e1] at k1 k2
  rw [show b'.plain.kind = b.kind from h4] at k1
  have hk2 := (step_keeps b' op).1
  refine ⟨⟨f1, false⟩, ?_, .of_plain e2.1.2 (by rw [hk2]; exact hk') e2.2 k2⟩
  have : Allowed b.kind f.file op (b'.step op).1 f1 ∧ (false = true ↔ f.late = true ∧ Idles b.kind op) :=
    ⟨k1, nofun, fun h0 => absurd h0.2 hop⟩
  cases op <;> first | exact this | exact absurd rfl (hnw _)

/-- A call that does nothing. -/
theorem Appends.idling {b : Buf} {f : AppendFile} {op : StreamOp} {out : StreamOut} (h : Appends b f) (hop : Idles b.kind op)
    (hs : b.step op = (out, b)) (ha : Allowed b.kind f.file op out f.file) :
    ∃ f', AppendAllowed b.kind f op (b.step op).1 f' ∧ Appends (b.step op).2 f' := by
  rw [hs]
  refine ⟨f, ?_, h⟩
  have : Allowed b.kind f.file op out f.file ∧ (f.late = true ↔ f.late = true ∧ Idles b.kind op) := ⟨ha, fun h0 => ⟨h0, hop⟩, fun h0 => h0.1⟩
  cases op <;> first | exact this | exact hop.elim

theorem Appends.tell {b : Buf} {f : AppendFile} (h : Appends b f) (hl : f.late = false) : Buf.tell b = (.ok f.file.pos, b) := by
  have ht := tell_R h.rel
  obtain ⟨c1, c2, c3, c4, c5, c6, c7, c8, c9, c10, c11, c12, c13⟩ := placed_same b
  have hpos : b.placed.raw.pos = b.raw.pos := by
    unfold placed
    split
    · rfl
    · rename_i hw
      exact (h.tail hl hw).symm
  have ho := c8.symm.trans h.rel.live.opened
  have hse := c10.symm.trans h.rel.live.seekable
  unfold Buf.tell at ht ⊢
  rw [PyM.bind_ok (onRaw_eq (Raw.tell_ok h.rel.live.opened h.rel.live.seekable))] at ht
  rw [PyM.bind_ok (onRaw_eq (Raw.tell_ok ho hse))]
  have := congrArg Prod.fst ht
  rw [c1, c3, c4, c5, hpos] at this
  exact Prod.ext this rfl

theorem Appends.readline {b : Buf} {f : AppendFile} (h : Appends b f) (n : Int) :
    ∃ f', AppendAllowed b.kind f (.readline n) (b.step (.readline n)).1 f' ∧ Appends (b.step (.readline n)).2 f' := by
  obtain ⟨c1, c2, c3, c4, c5, c6, c7, c8, c9, c10, c11, c12, c13⟩ := placed_same b
  by_cases h0 : n = 0
  · refine h.idling (out := .bytes []) (.inr h0) ?_ (by simp [Allowed, h0])
    simp [Buf.step, Buf.readline, readlineLoop, h0, StreamOut.ofBytes]
  by_cases hk : b.kind = .writer
  · refine h.idling (out := .error .unsupported) (.inl hk) ?_ (by simp [Allowed, h0, hk])
    have : Buf.readline n b = (.error .unsupported, b) := by
      unfold Buf.readline readlineLoop
      rw [if_pos (by simp; omega)]
      have h1 : nreadahead n b = (.ok 1, b) := by unfold nreadahead; rw [hk]
      rw [PyM.bind_ok h1]
      have h2 : Buf.read (some 1) b = (.error .unsupported, b) := by unfold Buf.read; rw [hk]
      exact PyM.bind_error h2
    simp [Buf.step, this, StreamOut.ofBytes]
  have hkr : b.kind = .random := by
    cases hb : b.kind with
    | reader => exact absurd hb h.kind
    | writer => exact absurd hb hk
    | random => rfl
  obtain ⟨b', h1, h2, h3, h4, h5, h6, h7⟩ := h.flush
  have hk' : b'.kind ≠ .reader := by rw [h4]; exact h.kind
  have hf' := flush_idle hk' h6.live.opened h2
  have hlen : f.file.rest.length < b.raw.data.length + b.readBuf.length + 1 := by
    have hp := h.rel.pos
    have hd := h.data
    unfold File.rest
    rw [List.length_drop, hd, List.length_append]
    by_cases hw : b.writeBuf = []
    · rw [hw]; simp; omega
    · rw [placed_pending hw] at hp
      have hr : b.readBuf = [] := by
        have := h.rel.excl
        rw [c3, c5] at this
        exact this.resolve_right hw
      simp only [extra, plain, Raw.plain, hr, List.length_nil] at hp
      omega
  have hloop : ∀ fuel, readlineLoop n (fuel + 1) [] b = readlineLoop n (fuel + 1) [] b' := by
    intro fuel
    have hn : nreadahead n b = nreadahead n b' := by
      unfold nreadahead
      rw [h4, hkr]
      dsimp only
      have : peek 1 b = peek 1 b' := by
        unfold peek
        rw [h4, hkr]
        dsimp only
        rw [PyM.bind_ok h1, PyM.bind_ok hf']
      rw [PyM.bind_apply, PyM.bind_apply, this]
    unfold readlineLoop
    rw [if_pos (by simp; omega), PyM.bind_apply, PyM.bind_apply, hn]
  have hi : Idle b' := ⟨⟨h6.live.unix, h5⟩, h2⟩
  obtain ⟨e1, e2⟩ := readlineLoop_flag n (b.raw.data.length + b.readBuf.length + 1) [] b' hi
  obtain ⟨line, b2, g1, g2, g3, g4, g5, g6⟩ := readlineLoop_R n (b.raw.data.length + b.readBuf.length + 1) b'.plain f.file [] h6
    (by rw [show b'.plain.kind = b.kind from h4]; exact hk) hlen (by simp) (by omega)
  have hkeep := (Keeps.readlineLoop n (b.raw.data.length + b.readBuf.length + 1) [] b').1
  have hstep : b.step (.readline n) = (.ofBytes (readlineLoop n (b.raw.data.length + b.readBuf.length + 1) [] b').1,
      (readlineLoop n (b.raw.data.length + b.readBuf.length + 1) [] b').2) := by
    simp only [Buf.step, Buf.readline, hloop]
  rw [hstep]
  rw [g1] at e1
  generalize readlineLoop n (b.raw.data.length + b.readBuf.length + 1) [] b' = q at *
  obtain ⟨q, b3⟩ := q
  have e3 := congrArg Prod.fst e1
  have e4 := congrArg Prod.snd e1
  dsimp only at e3 e4 e2 hkeep
  subst e3 e4
  refine ⟨⟨_, false⟩, ⟨?_, nofun, fun hx => ?_⟩, .of_plain e2.1.2 (by rw [hkeep]; exact hk') e2.2 g6⟩
  · simp only [Allowed, h0, hk, if_false]
    exact ⟨line, ⟨g2, g3, g4, fun hx => g5 hx (by simp; omega)⟩, rfl, rfl⟩
  · rcases hx.2 with hx | hx
    · exact absurd hx hk
    · exact absurd hx h0

/-- Each call does what the reference allows. -/
theorem Appends.step {b : Buf} {f : AppendFile} (h : Appends b f) (op : StreamOp) (hu : ¬ AppendUnsafe b.kind f op) :
    ∃ f', AppendAllowed b.kind f op (b.step op).1 f' ∧ Appends (b.step op).2 f' := by
  have hu1 : ¬ Unsafe b.kind f.file op := fun h0 => hu (.inl h0)
  have hkind : b.kind = .writer ∨ b.kind = .random := by
    cases hb : b.kind with
    | reader => exact absurd hb h.kind
    | writer => exact .inl rfl
    | random => exact .inr rfl
  cases op with
  | write d =>
    obtain ⟨b', f', g1, g2, g3⟩ := h.write d
    simp only [Buf.step, g1]
    exact ⟨f', g2, g3⟩
  | readline n => exact h.readline n
  | read n =>
    rcases hkind with hk | hk
    · exact h.idling (out := .error .unsupported) hk (by simp [Buf.step, Buf.read, hk, StreamOut.ofOption]) (by simp [Allowed, hk])
    · refine h.flushing (by rw [hk]; simp [Idles]) nofun hu1 fun b' e1 _ e2 _ e3 _ => ?_
      have : Buf.read n b = Buf.read n b' := by
        unfold Buf.read
        rw [e3, hk]
        dsimp only
        rw [PyM.bind_ok e1, PyM.bind_ok e2]
      simp only [Buf.step, this]
  | read1 n =>
    rcases hkind with hk | hk
    · exact h.idling (out := .error .unsupported) hk (by simp [Buf.step, Buf.read1, hk, StreamOut.ofOption]) (by simp [Allowed, hk])
    · refine h.flushing (by rw [hk]; simp [Idles]) nofun hu1 fun b' e1 _ e2 _ e3 _ => ?_
      have : Buf.read1 n b = Buf.read1 n b' := by
        unfold Buf.read1
        rw [e3, hk]
        dsimp only
        rw [PyM.bind_ok e1, PyM.bind_ok e2]
      simp only [Buf.step, this]
  | peek n =>
    rcases hkind with hk | hk
    · exact h.idling (out := .error .attributeError) hk (by simp [Buf.step, Buf.peek, hk, StreamOut.ofBytes]) (by simp [Allowed, hk])
    · refine h.flushing (by rw [hk]; simp [Idles]) nofun hu1 fun b' e1 _ e2 _ e3 _ => ?_
      have : Buf.peek n b = Buf.peek n b' := by
        unfold Buf.peek
        rw [e3, hk]
        dsimp only
        rw [PyM.bind_ok e1, PyM.bind_ok e2]
      simp only [Buf.step, this]
  | tell =>
    have hl : f.late = false := by
      cases hl : f.late with
      | false => rfl
      | true => exact absurd (.inr ⟨hl, .inl rfl⟩) hu
    exact h.idling (out := .num f.file.pos) trivial (by simp only [Buf.step, h.tell hl]; rfl) ⟨rfl, rfl⟩
  | flush =>
    refine h.flushing (fun h0 => h0) nofun hu1 fun b' e1 _ e2 _ _ _ => ?_
    simp only [Buf.step, e1, e2]
  | size =>
    refine h.flushing (fun h0 => h0) nofun hu1 fun b' e1 _ e2 _ _ _ => ?_
    have : Buf.size b = Buf.size b' := by unfold Buf.size; rw [PyM.bind_ok e1, PyM.bind_ok e2]
    simp only [Buf.step, this]
  | seek o w =>
    refine h.flushing (fun h0 => h0) nofun hu1 fun b' e1 e1' e2 e2' e3 _ => ?_
    simp only [Buf.step, seek_flushes h.kind o w e1 e1' e2 e2' e3]
  | lock o =>
    refine h.flushing (fun h0 => h0) nofun hu1 fun b' e1 e1' e2 e2' e3 _ => ?_
    have : Buf.lockFile o b = Buf.lockFile o b' := by
      unfold Buf.lockFile resetBuffers
      rw [PyM.bind_apply, PyM.bind_apply, PyM.bind_apply, PyM.bind_apply, seek_flushes h.kind 0 .cur e1 e1' e2 e2' e3]
    simp only [Buf.step, this]
  | unlock =>
    refine h.flushing (fun h0 => h0) nofun hu1 fun b' e1 e1' e2 e2' e3 _ => ?_
    have : Buf.unlockFile b = Buf.unlockFile b' := by
      unfold Buf.unlockFile resetBuffers
      rw [PyM.bind_apply, PyM.bind_apply, PyM.bind_apply, PyM.bind_apply, seek_flushes h.kind 0 .cur e1 e1' e2 e2' e3]
    simp only [Buf.step, this]
  | truncate a =>
    refine h.flushing (fun h0 => h0) nofun hu1 fun b' e1 e1' e2 e2' e3 e4 => ?_
    have hw : ∀ a, Buf.writerTruncate a b = Buf.writerTruncate a b' := by
      intro a
      unfold Buf.writerTruncate
      rw [PyM.bind_ok e1', PyM.bind_ok e2']
    have : Buf.truncate a b = Buf.truncate a b' := by
      unfold Buf.truncate
      rw [e3]
      rcases hkind with hk | hk
      · rw [hk]; exact hw a
      · rw [hk]
        cases a with
        | some z => exact hw _
        | none =>
          dsimp only
          have hl : f.late = false := by
            cases hl : f.late with
            | false => rfl
            | true => exact absurd (.inr ⟨hl, .inr ⟨hk, rfl⟩⟩) hu
          have ht' : Buf.tell b' = (.ok f.file.pos, b') := by
            have h1 := tell_R e4
            unfold Buf.tell at h1 ⊢
            rw [PyM.bind_ok (onRaw_eq (Raw.tell_ok e4.live.opened e4.live.seekable))] at h1
            have ho : b'.raw.closed = false := e4.live.opened
            have hse : b'.raw.seekable = true := e4.live.seekable
            rw [PyM.bind_ok (onRaw_eq (Raw.tell_ok ho hse))]
            have h2 := congrArg Prod.fst h1
            exact Prod.ext h2 rfl
          rw [PyM.bind_ok (h.tell hl), PyM.bind_ok ht', hw]
    simp only [Buf.step, this]

/-- A history, up to the first unsafe call. -/
theorem Appends.run (ops : List StreamOp) : ∀ (b : Buf) (f : AppendFile), Appends b f →
    ∃ pre post f', ops = pre ++ post ∧ AppendConforms b.kind f (pre.zip (b.run pre).1) f' ∧ Appends (b.run pre).2 f' ∧
      (post = [] ∨ ∃ op rest, post = op :: rest ∧ AppendUnsafe b.kind f' op) := by
  induction ops with
  | nil => intro b f h; exact ⟨[], [], f, rfl, .nil f, h, .inl rfl⟩
  | cons op ops ih =>
    intro b f h
    by_cases hu : AppendUnsafe b.kind f op
    · exact ⟨[], op :: ops, f, rfl, .nil f, h, .inr ⟨op, ops, rfl, hu⟩⟩
    · obtain ⟨f1, h1, h2⟩ := h.step op hu
      have hk := (step_keeps b op).1
      obtain ⟨pre, post, f', e1, e2, e3, e5⟩ := ih _ f1 h2
      rw [hk] at e2 e5
      exact ⟨op :: pre, post, f', by rw [e1]; rfl, .cons h1 e2, e3, e5⟩

end Buf

end Verif
