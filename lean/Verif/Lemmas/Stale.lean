import Verif.Lemmas.Ported
import Verif.Lemmas.Together

/-!
# Reading does not depend on what comes before the position of the descriptor

A stream that has read ahead does the same, whatever the file now has in the place of what it read.
-/

set_option autoImplicit false

namespace Verif

open Verif.Spec

namespace Raw

/-- The stream is open, the file is `d`, and `v` has the same bytes from the position on. -/
structure Past (d v : Bytes) (s : Raw) : Prop where
  opened : s.closed = false
  data : s.data = d
  size : d.length = v.length
  rest : d.drop s.pos = v.drop s.pos

/-- The same stream, with another content of the file. -/
def seeing (v : Bytes) (s : Raw) : Raw := { s with data := v }

theorem Past.on {d v : Bytes} {s : Raw} (h : s.Past d v) (n : Nat) : Past d v { s with pos := s.pos + n } := by
  refine ⟨h.opened, h.data, h.size, ?_⟩
  have := congrArg (List.drop n) h.rest
  simpa [List.drop_drop] using this

variable {α : Type} {d v : Bytes}

theorem checkClosed_stale : Ports (Past d v) (seeing v) checkClosed := by
  intro s h
  unfold checkClosed
  simp [seeing, h.opened, h]

theorem checkReadable_stale : Ports (Past d v) (seeing v) checkReadable := by
  intro s h
  unfold checkReadable
  by_cases hr : s.readable <;> simp [seeing, h.opened, hr, h]

theorem innerSize_stale : Ports (Past d v) (seeing v) innerSize := by
  intro s h
  refine ⟨?_, h⟩
  simp [innerSize, seeing, h.data, h.size]

theorem innerTell_stale : Ports (Past d v) (seeing v) innerTell := by
  intro s h
  unfold innerTell
  by_cases hr : s.seekable <;> simp [seeing, hr, h]

theorem innerRead_stale (n : Nat) : Ports (Past d v) (seeing v) (innerRead n) := by
  intro s h
  unfold innerRead
  have e : (seeing v s).nextAns n = ((s.nextAns n).1, seeing v (s.nextAns n).2) := by
    unfold nextAns
    cases hs : s.sched <;> simp [seeing, hs]
  have hp : Past d v (s.nextAns n).2 := by
    unfold nextAns
    split
    · exact h
    · exact ⟨h.opened, h.data, h.size, h.rest⟩
  rw [e]
  generalize s.nextAns n = r at *
  obtain ⟨a, s'⟩ := r
  cases a with
  | count k =>
    have : (seeing v s').data.drop (seeing v s').pos = s'.data.drop s'.pos := by
      rw [hp.data, hp.rest]; rfl
    dsimp only
    rw [this]
    exact ⟨rfl, hp.on _⟩
  | again => exact ⟨rfl, hp⟩
  | pipe => exact ⟨rfl, hp⟩
  | fail e => exact ⟨rfl, hp⟩

theorem size_stale : Ports (Past d v) (seeing v) size := checkClosed_stale.bind fun _ => innerSize_stale

theorem tell_stale : Ports (Past d v) (seeing v) tell := checkClosed_stale.bind fun _ => innerTell_stale

theorem readN_stale (n : Nat) : Ports (Past d v) (seeing v) (readN n) :=
  checkClosed_stale.bind fun _ => checkReadable_stale.bind fun _ => innerRead_stale n

theorem readallLoop_stale : ∀ (fuel : Nat) (chunks : Bytes), Ports (Past d v) (seeing v) (readallLoop fuel chunks)
  | 0, _ => Ports.raise _
  | fuel + 1, chunks => by
    refine (readN_stale chunkSize).bind fun d => ?_
    match d with
    | none => exact Ports.pure _
    | some [] => exact Ports.pure _
    | some (b :: bs) => exact readallLoop_stale fuel _

theorem readall_stale : Ports (Past d v) (seeing v) readall := by
  intro s h
  have := readallLoop_stale (d := d) (v := v) (s.data.length - s.pos + 1) [] s h
  unfold readall
  rw [show (seeing v s).data.length - (seeing v s).pos = s.data.length - s.pos from by rw [h.data, h.size]; rfl]
  exact this

theorem read_stale (n : Option Int) : Ports (Past d v) (seeing v) (read n) := by
  refine checkClosed_stale.bind fun _ => checkReadable_stale.bind fun _ => ?_
  cases n with
  | none => exact readall_stale
  | some n => exact Ports.ite readall_stale (innerRead_stale _)

end Raw

namespace Buf

/-- The same for a buffered stream with nothing to write. -/
structure Past (d v : Bytes) (b : Buf) : Prop where
  raw : b.raw.Past d v
  empty : b.writeBuf = []

/-- The same stream, with another content of the file. -/
def seeing (v : Bytes) (b : Buf) : Buf := { b with raw := b.raw.seeing v }

variable {α : Type} {d v : Bytes}

theorem onRaw_stale {m : PyM Raw α} (h : Ports (Raw.Past d v) (Raw.seeing v) m) : Ports (Past d v) (seeing v) (onRaw m) := by
  intro b hb
  obtain ⟨h1, h2⟩ := h b.raw hb.raw
  unfold onRaw
  rw [show (seeing v b).raw = b.raw.seeing v from rfl, h1]
  have he := hb.empty
  generalize m b.raw = r at *
  obtain ⟨r, s'⟩ := r
  exact ⟨rfl, h2, he⟩

theorem checkClosed_stale : Ports (Past d v) (seeing v) checkClosed := by
  intro s h
  unfold checkClosed
  simp [seeing, Raw.seeing, h.raw.opened, h]

theorem resetReadBuf_stale : Ports (Past d v) (seeing v) resetReadBuf :=
  Ports.modify (P := Past d v) (u := seeing v) (fun _ => rfl) fun _ h => ⟨h.raw, h.empty⟩

theorem flush_stale : Ports (Past d v) (seeing v) flush := by
  have key : ∀ b : Buf, b.raw.closed = false → b.writeBuf = [] → flush b = (.ok (), b) := by
    intro b ho he
    unfold flush
    split
    · rw [PyM.bind_ok (checkClosed_ok ho)]
      have : Raw.flush b.raw = (.ok (), b.raw) := by unfold Raw.flush Raw.checkClosed; simp [ho]
      rw [onRaw_eq this]
    · unfold flushUnlocked
      rw [PyM.bind_ok (checkClosed_ok ho)]
      change flushLoop b.writeBuf.length b = _
      rw [he]; rfl
  intro b h
  rw [key b h.raw.opened h.empty, key (seeing v b) h.raw.opened h.empty]
  exact ⟨rfl, h⟩

theorem readRest_stale : Ports (Past d v) (seeing v) readRest := by
  intro b h
  unfold readRest
  exact (resetReadBuf_stale.bind fun _ => (onRaw_stale Raw.readall_stale).bind fun _ => Ports.pure _) b h

theorem fillLoop_stale (wanted n : Nat) : ∀ fuel out, Ports (Past d v) (seeing v) (fillLoop wanted n fuel out)
  | 0, _ => Ports.pure _
  | fuel + 1, out => by
    refine Ports.ite ((onRaw_stale (Raw.read_stale _)).bind fun chunk => ?_) (Ports.pure _)
    match chunk with
    | none => exact Ports.pure _
    | some [] => exact Ports.pure _
    | some (c :: cs) => exact fillLoop_stale wanted n fuel _

theorem keepExtra_stale (n : Nat) (r : Bytes × Option Bytes) : Ports (Past d v) (seeing v) (keepExtra n r) :=
  (Ports.modify (P := Past d v) (u := seeing v)
    (f := fun b : Buf => { b with readBuf := r.1.drop (min n r.1.length), readPos := 0 }) (fun _ => rfl)
    fun _ h => ⟨h.raw, h.empty⟩).bind fun _ => Ports.pure _

theorem readSome_stale (n : Nat) : Ports (Past d v) (seeing v) (readSome n) := by
  intro b h
  unfold readSome
  have h0 : (seeing v b).readBuf = b.readBuf ∧ (seeing v b).readPos = b.readPos ∧ (seeing v b).bufferSize = b.bufferSize :=
    ⟨rfl, rfl, rfl⟩
  rw [h0.1, h0.2.1, h0.2.2]
  split
  · exact ⟨rfl, h.raw, h.empty⟩
  · exact ((fillLoop_stale _ _ _ _).bind fun r => keepExtra_stale n r) b h

theorem readerRead_stale : ∀ n, Ports (Past d v) (seeing v) (readerRead n)
  | none => readRest_stale
  | some _ => Ports.ite (Ports.raise _) (Ports.ite readRest_stale (readSome_stale _))

theorem read_stale (n : Option Int) : Ports (Past d v) (seeing v) (read n) := by
  intro b h
  unfold read
  rw [show (seeing v b).kind = b.kind from rfl]
  cases b.kind with
  | writer => exact ⟨rfl, h⟩
  | reader => exact readerRead_stale n b h
  | random => exact (flush_stale.bind fun _ => readerRead_stale _) b h

theorem refill_stale (n : Int) : Ports (Past d v) (seeing v) (refill n) := by
  refine (onRaw_stale (Raw.read_stale _)).bind fun r => ?_
  match r with
  | none => exact Ports.pure _
  | some [] => exact Ports.pure _
  | some (c :: cs) => exact Ports.modify (P := Past d v) (u := seeing v) (fun _ => rfl) fun _ h => ⟨h.raw, h.empty⟩

theorem peekUnlocked_stale (n : Int) : Ports (Past d v) (seeing v) (peekUnlocked n) :=
  Ports.self (P := Past d v) (u := seeing v) (f := fun b => (do
    PyM.when (decide ((b.readBuf.length : Int) - b.readPos < min n b.bufferSize ∨ (b.readBuf.length : Int) - b.readPos ≤ 0))
      (refill (b.bufferSize - ((b.readBuf.length : Int) - b.readPos)))
    let b ← PyM.get
    pure (b.readBuf.drop b.readPos))) (fun _ => rfl)
    fun _ _ => (Ports.when (refill_stale _)).bind fun _ =>
      Ports.get (P := Past d v) (u := seeing v) (f := fun b => pure (b.readBuf.drop b.readPos)) (fun _ => rfl) fun _ _ => Ports.pure _

theorem peek_stale (n : Int) : Ports (Past d v) (seeing v) (peek n) := by
  intro b h
  unfold peek
  rw [show (seeing v b).kind = b.kind from rfl]
  cases b.kind with
  | writer => exact ⟨rfl, h⟩
  | reader => exact (checkClosed_stale.bind fun _ => peekUnlocked_stale n) b h
  | random => exact (flush_stale.bind fun _ => checkClosed_stale.bind fun _ => peekUnlocked_stale n) b h

theorem read1Unlocked_stale (n : Int) : Ports (Past d v) (seeing v) (read1Unlocked n) :=
  (peekUnlocked_stale 1).bind fun _ =>
    Ports.get (P := Past d v) (u := seeing v) (f := fun b => readSome (min n ((b.readBuf.length : Int) - b.readPos)).toNat)
      (fun _ => rfl) fun _ _ => readSome_stale _

theorem readerRead1_stale (n : Int) : Ports (Past d v) (seeing v) (readerRead1 n) :=
  Ports.self (P := Past d v) (u := seeing v) (f := fun b => (do
    checkClosed
    if n = 0 then pure (some [])
    else read1Unlocked (if n < 0 then b.bufferSize else n))) (fun _ => rfl)
    fun _ _ => checkClosed_stale.bind fun _ => Ports.ite (Ports.pure _) (read1Unlocked_stale _)

theorem read1_stale (n : Int) : Ports (Past d v) (seeing v) (read1 n) := by
  intro b h
  unfold read1
  rw [show (seeing v b).kind = b.kind from rfl]
  cases b.kind with
  | writer => exact ⟨rfl, h⟩
  | reader => exact readerRead1_stale n b h
  | random => exact (flush_stale.bind fun _ => readerRead1_stale _) b h

theorem nreadahead_stale (n : Int) : Ports (Past d v) (seeing v) (nreadahead n) := by
  intro b h
  unfold nreadahead
  rw [show (seeing v b).kind = b.kind from rfl]
  cases b.kind with
  | writer => exact ⟨rfl, h⟩
  | reader => exact ((peek_stale 1).bind fun _ => Ports.pure _) b h
  | random => exact ((peek_stale 1).bind fun _ => Ports.pure _) b h

theorem readlineLoop_stale (size : Int) : ∀ fuel res, Ports (Past d v) (seeing v) (readlineLoop size fuel res)
  | 0, _ => Ports.pure _
  | fuel + 1, res => by
    refine Ports.ite ((nreadahead_stale size).bind fun n => (read_stale _).bind fun chunk => ?_) (Ports.pure _)
    match chunk with
    | none => exact Ports.pure _
    | some [] => exact Ports.pure _
    | some (c :: cs) => exact Ports.ite (Ports.pure _) (readlineLoop_stale size fuel _)

theorem readline_stale (size : Int) : Ports (Past d v) (seeing v) (readline size) := by
  intro b h
  have := readlineLoop_stale (d := d) (v := v) size (b.raw.data.length + b.readBuf.length + 1) [] b h
  unfold readline
  rw [show (seeing v b).raw.data.length = b.raw.data.length from by rw [h.raw.data, h.raw.size]; rfl]
  exact this

theorem tell_stale : Ports (Past d v) (seeing v) tell := by
  intro b h
  unfold tell
  exact ((onRaw_stale Raw.tell_stale).bind fun _ => Ports.pure _) b h

theorem size_stale : Ports (Past d v) (seeing v) size := flush_stale.bind fun _ => onRaw_stale Raw.size_stale

/-- A call that neither writes nor moves the position elsewhere. -/
def Looks : StreamOp → Prop
  | .read _ => True
  | .read1 _ => True
  | .peek _ => True
  | .readline _ => True
  | .tell => True
  | .flush => True
  | .size => True
  | _ => False

theorem step_stale {op : StreamOp} (hop : Looks op) {b : Buf} (h : Past d v b) :
    (seeing v b).step op = ((b.step op).1, seeing v (b.step op).2) ∧ Past d v (b.step op).2 := by
  cases op with
  | read n => obtain ⟨h1, h2⟩ := read_stale n b h; exact ⟨by simp only [step, h1], h2⟩
  | read1 n => obtain ⟨h1, h2⟩ := read1_stale n b h; exact ⟨by simp only [step, h1], h2⟩
  | peek n => obtain ⟨h1, h2⟩ := peek_stale n b h; exact ⟨by simp only [step, h1], h2⟩
  | readline n => obtain ⟨h1, h2⟩ := readline_stale n b h; exact ⟨by simp only [step, h1], h2⟩
  | tell => obtain ⟨h1, h2⟩ := tell_stale b h; exact ⟨by simp only [step, h1], h2⟩
  | flush => obtain ⟨h1, h2⟩ := flush_stale b h; exact ⟨by simp only [step, h1], h2⟩
  | size => obtain ⟨h1, h2⟩ := size_stale b h; exact ⟨by simp only [step, h1], h2⟩
  | _ => exact hop.elim

end Buf

end Verif
