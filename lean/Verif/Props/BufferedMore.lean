import Verif.Props.Buffered

/-!
# C33 on buffered streams, C63, C64 and C65
-/

namespace Verif.Props

open Verif Verif.Spec

/-! ## C33: closed buffered streams -/

/-- The exceptions that a method of a closed stream may raise.  `UnsupportedOperation` is a `ValueError`; a method that
the class does not have raises `AttributeError`. -/
def Refused (k : BufKind) : StreamOp → StreamOut → Prop
  | .peek _, out => out = .error .valueError ∨ (k = .writer ∧ out = .error .attributeError)
  | _, out => out = .error .valueError ∨ out = .error .unsupported

/-- The calls that a closed stream serves from its buffer: `read(n)` of a reader with at least `n` bytes read ahead, and
`readline(0)`. -/
def ServedFromBuffer (b : Buf) : StreamOp → Prop
  | .read (some n) => b.kind = .reader ∧ 0 ≤ n ∧ n ≤ (b.readBuf.length - b.readPos : Nat)
  | .readline n => n = 0
  | _ => False

/-- C33 on buffered streams: every other method of a closed stream raises and leaves the raw stream, thus the file,
unchanged.  Missing: the calls in `ServedFromBuffer`, for which it is false (`C33_buffered_refuted`). -/
theorem C33_buffered_partial (b : Buf) (hc : b.raw.closed = true) (op : StreamOp) (hs : ¬ ServedFromBuffer b op) :
    Refused b.kind op (b.step op).1 ∧ (b.step op).2.raw = b.raw := by
  obtain ⟨r1, r2, r3, r4, r5, r6, r7, r8, r9, r10, r11, r12⟩ := C33_raw_closed b.raw hc
  have hck : Buf.checkClosed b = (.error .valueError, b) := by simp [Buf.checkClosed, hc]
  have hfu : Buf.flushUnlocked b = (.error .valueError, b) := PyM.bind_error hck
  have hfl : Buf.flush b = (.error .valueError, b) := by
    unfold Buf.flush
    split
    · exact PyM.bind_error hck
    · exact hfu
  have hseek : ∀ o w, Buf.seek o w b = (.error .valueError, b) := by
    intro o w
    unfold Buf.seek
    split
    · exact PyM.bind_error hck
    · exact PyM.bind_error hfu
    · exact PyM.bind_error hfl
  have hreset : Buf.resetBuffers b = (.error .valueError, b) := PyM.bind_error (hseek _ _)
  have hpeek : ∀ n, b.kind ≠ .writer → Buf.peek n b = (.error .valueError, b) := by
    intro n hk
    unfold Buf.peek
    split
    · rename_i h; exact absurd h hk
    · exact PyM.bind_error hck
    · exact PyM.bind_error hfl
  have htell : Buf.tell b = (.error .valueError, b) := PyM.bind_error (Buf.onRaw_eq r6)
  cases op with
  | read n =>
    have hrest : ∃ c, Buf.readRest b = (.error .valueError, c) ∧ c.raw = b.raw := by
      refine ⟨{ b with readBuf := [], readPos := 0 }, ?_, rfl⟩
      unfold Buf.readRest
      have : Buf.resetReadBuf b = (.ok (), { b with readBuf := [], readPos := 0 }) := rfl
      rw [PyM.bind_ok this]
      exact PyM.bind_error (Buf.onRaw_eq (b := { b with readBuf := [], readPos := 0 }) r2)
    suffices ∃ e c, Buf.read n b = (.error e, c) ∧ (e = .valueError ∨ e = .unsupported) ∧ c.raw = b.raw by
      obtain ⟨e, c, h1, h2, h3⟩ := this
      refine ⟨?_, by simp only [Buf.step, h1]; exact h3⟩
      simp only [Buf.step, h1, Refused, StreamOut.ofOption]
      rcases h2 with rfl | rfl
      · exact Or.inl rfl
      · exact Or.inr rfl
    unfold Buf.read
    split
    · exact ⟨_, b, rfl, Or.inr rfl, rfl⟩
    · rename_i hk
      cases n with
      | none =>
        obtain ⟨c, h1, h2⟩ := hrest
        exact ⟨_, c, h1, Or.inl rfl, h2⟩
      | some z =>
        unfold Buf.readerRead
        by_cases hz : z < -1
        · simp only [hz, if_true]
          exact ⟨_, b, rfl, Or.inl rfl, rfl⟩
        · by_cases hz' : z = -1
          · subst hz'
            obtain ⟨c, h1, h2⟩ := hrest
            exact ⟨_, c, h1, Or.inl rfl, h2⟩
          · dsimp only
            rw [if_neg hz, if_neg hz']
            have hbig : ¬ z.toNat ≤ b.readBuf.length - b.readPos := by
              intro hle
              exact hs ⟨hk, by omega, by omega⟩
            unfold Buf.readSome
            rw [if_neg hbig]
            obtain ⟨m, hm⟩ : ∃ m, z.toNat = m + 1 := ⟨z.toNat - 1, by omega⟩
            have hloop : Buf.fillLoop (max b.bufferSize z.toNat) z.toNat z.toNat (b.readBuf.drop b.readPos) b =
                (.error .valueError, b) := by
              conv => lhs; rw [show Buf.fillLoop (max b.bufferSize z.toNat) z.toNat z.toNat =
                Buf.fillLoop (max b.bufferSize z.toNat) z.toNat (m + 1) by rw [← hm]]
              unfold Buf.fillLoop
              rw [if_pos (by rw [List.length_drop]; omega)]
              exact PyM.bind_error (Buf.onRaw_eq (r1 _))
            exact ⟨_, b, PyM.bind_error hloop, Or.inl rfl, rfl⟩
    · exact ⟨_, b, PyM.bind_error hfl, Or.inl rfl, rfl⟩
  | read1 n =>
    have : ∃ e, Buf.read1 n b = (.error e, b) ∧ (e = .valueError ∨ e = .unsupported) := by
      unfold Buf.read1
      split
      · exact ⟨_, rfl, Or.inr rfl⟩
      · exact ⟨_, PyM.bind_error hck, Or.inl rfl⟩
      · exact ⟨_, PyM.bind_error hfl, Or.inl rfl⟩
    obtain ⟨e, h1, h2⟩ := this
    refine ⟨?_, by simp only [Buf.step, h1]⟩
    simp only [Buf.step, h1, Refused, StreamOut.ofOption]
    rcases h2 with rfl | rfl
    · exact Or.inl rfl
    · exact Or.inr rfl
  | peek n =>
    by_cases hk : b.kind = .writer
    · have : Buf.peek n b = (.error .attributeError, b) := by unfold Buf.peek; rw [hk]
      exact ⟨Or.inr ⟨hk, by simp only [Buf.step, this]; rfl⟩, by simp only [Buf.step, this]⟩
    · have := hpeek n hk
      exact ⟨Or.inl (by simp only [Buf.step, this]; rfl), by simp only [Buf.step, this]⟩
  | readline n =>
    have hn : n ≠ 0 := hs
    have : ∃ e, Buf.readline n b = (.error e, b) ∧ (e = .valueError ∨ e = .unsupported) := by
      unfold Buf.readline Buf.readlineLoop
      rw [if_pos (by simp; omega)]
      by_cases hk : b.kind = .writer
      · have h1 : Buf.nreadahead n b = (.ok 1, b) := by unfold Buf.nreadahead; rw [hk]
        have h2 : Buf.read (some 1) b = (.error .unsupported, b) := by unfold Buf.read; rw [hk]
        rw [PyM.bind_ok h1]
        exact ⟨_, PyM.bind_error h2, Or.inr rfl⟩
      · have h1 : Buf.nreadahead n b = (.error .valueError, b) := by
          unfold Buf.nreadahead
          split
          · rename_i h; exact absurd h hk
          · exact PyM.bind_error (hpeek 1 hk)
        exact ⟨_, PyM.bind_error h1, Or.inl rfl⟩
    obtain ⟨e, h1, h2⟩ := this
    refine ⟨?_, by simp only [Buf.step, h1]⟩
    simp only [Buf.step, h1, Refused, StreamOut.ofBytes]
    rcases h2 with rfl | rfl
    · exact Or.inl rfl
    · exact Or.inr rfl
  | write d =>
    have hww : Buf.writerWrite d b = (.error .valueError, b) := PyM.bind_error hck
    have : ∃ e, Buf.write d b = (.error e, b) ∧ (e = .valueError ∨ e = .unsupported) := by
      unfold Buf.write
      split
      · exact ⟨_, rfl, Or.inr rfl⟩
      · exact ⟨_, hww, Or.inl rfl⟩
      · by_cases hr : b.readBuf = []
        · have : Buf.undoReadAhead b = (.ok (), b) := by unfold Buf.undoReadAhead; rw [if_pos hr]
          rw [PyM.bind_ok this]
          exact ⟨_, hww, Or.inl rfl⟩
        · have : Buf.undoReadAhead b = (.error .valueError, b) := by
            unfold Buf.undoReadAhead; rw [if_neg hr]
            exact PyM.bind_error (Buf.onRaw_eq (r5 _ _))
          exact ⟨_, PyM.bind_error this, Or.inl rfl⟩
    obtain ⟨e, h1, h2⟩ := this
    refine ⟨?_, by simp only [Buf.step, h1]⟩
    simp only [Buf.step, h1, Refused, StreamOut.ofNat]
    rcases h2 with rfl | rfl
    · exact Or.inl rfl
    · exact Or.inr rfl
  | seek o w => exact ⟨Or.inl (by simp only [Buf.step, hseek]; rfl), by simp only [Buf.step, hseek]⟩
  | tell => exact ⟨Or.inl (by simp only [Buf.step, htell]; rfl), by simp only [Buf.step, htell]⟩
  | flush => exact ⟨Or.inl (by simp only [Buf.step, hfl]; rfl), by simp only [Buf.step, hfl]⟩
  | truncate n =>
    have : Buf.truncate n b = (.error .valueError, b) := by
      unfold Buf.truncate
      split
      · exact PyM.bind_error hck
      · exact PyM.bind_error hfu
      · split
        · exact PyM.bind_error htell
        · exact PyM.bind_error hfu
    exact ⟨Or.inl (by simp only [Buf.step, this]; rfl), by simp only [Buf.step, this]⟩
  | size =>
    have : Buf.size b = (.error .valueError, b) := PyM.bind_error hfl
    exact ⟨Or.inl (by simp only [Buf.step, this]; rfl), by simp only [Buf.step, this]⟩
  | lock o =>
    have : Buf.lockFile o b = (.error .valueError, b) := PyM.bind_error hreset
    exact ⟨Or.inl (by simp only [Buf.step, this]; rfl), by simp only [Buf.step, this]⟩
  | unlock =>
    have : Buf.unlockFile b = (.error .valueError, b) := PyM.bind_error hreset
    exact ⟨Or.inl (by simp only [Buf.step, this]; rfl), by simp only [Buf.step, this]⟩

/-- C33: closing again has no effect. -/
theorem C33_close_again (b : Buf) (hc : b.raw.closed = true) : Buf.close b = (.ok (), b) := by
  unfold Buf.close; rw [if_pos hc]

/-- A reader that read one byte and was closed. -/
def closedReader : Buf := (Buf.close ((opened .reader 8 digits []).run [.read (some 1)]).2).2

example : closedReader.raw.closed = true ∧ ¬ ServedFromBuffer closedReader (.read (some 8)) ∧
    ¬ ServedFromBuffer closedReader .tell ∧ (closedReader.step (.read (some 8))).1 = .error .valueError :=
  ⟨by decide +kernel, by simp [ServedFromBuffer, show closedReader.readBuf.length - closedReader.readPos = 7 by decide +kernel],
    id, by decide +kernel⟩

/-- C33 is false: a reader goes on returning bytes after `close()`. -/
theorem C33_buffered_refuted : closedReader.raw.closed = true ∧
    (closedReader.run [.read (some 2), .read (some 3)]).1 = [.bytes [49, 50], .bytes [51, 52, 53]] := by
  constructor <;> decide +kernel

/-! ## C63: writes on a non-blocking file -/

/-- The bytes that the caller knows to be accepted. -/
def acceptedBytes : StreamOp × StreamOut → Bytes
  | (.write d, .num n) => d.take n
  | (.write d, .error (.blockingIO n)) => d.take n
  | _ => []

/-- The calls considered. -/
def IsOutput : StreamOp → Prop
  | .write _ => True
  | .flush => True
  | _ => False

/-- What those calls may return. -/
def OutputResult : StreamOp × StreamOut → Prop
  | (.write d, .num n) => n = d.length
  | (.write d, .error (.blockingIO n)) => n ≤ d.length
  | (.flush, .done) => True
  | (.flush, .error (.blockingIO n)) => n = 0
  | _ => False

/-- A stream for writing on a file that may answer "would block". -/
structure Sink (b : Buf) : Prop where
  usable : Usable b
  kind : b.kind = .writer
  bounded : b.writeBuf.length ≤ b.bufferSize
  nonBlocking : NonBlocking b.raw.sched

private theorem zero_writeAt {b : Buf} (h : Usable b) (X : Bytes) :
    put b.raw.data (landing b.raw) X = writeAt b.raw.fill b.raw.data b.raw.dest X := by
  rw [put_eq, fill_unix h.unix, landing_eq]

theorem Flushed.combine {b b' : Buf} {r : Except Exn Unit} {j : Nat} (h : Usable b) (hf : Buf.Flushed b r b' j) (X : Bytes) :
    put b'.raw.data (landing b'.raw) X = put b.raw.data (landing b.raw) (b.writeBuf.take j ++ X) := by
  have hle := hf.le
  rw [put_eq, put_eq, landing_eq, landing_eq, hf.dest, hf.data, fill_unix h.unix, ← writeAt_append]
  rw [show (b.writeBuf.take j).length = j by rw [List.length_take]; omega]

theorem Sink.flushed {b b' : Buf} {r : Except Exn Unit} {j : Nat} (h : Sink b) (hf : Buf.Flushed b r b' j)
    (w : Bytes) (hw : w.length ≤ b.bufferSize) : Sink { b' with writeBuf := w } :=
  ⟨⟨hf.frame.raw.closed.trans h.usable.opened, hf.frame.raw.platform.trans h.usable.unix,
    fun hk => hf.frame.raw.writable.trans (h.usable.writable (hf.frame.kind ▸ hk)),
    fun hk => by
      have := hf.frame.kind.trans h.kind
      dsimp only at hk
      rw [hk] at this; cases this⟩,
    hf.frame.kind.trans h.kind, by dsimp only; rw [hf.frame.bufferSize]; exact hw, (hf.nonBlocking h.nonBlocking).2⟩

/-- One write. -/
theorem write_nonBlocking {b : Buf} (h : Sink b) (d : Bytes) :
    ∃ k b', ((Buf.write d b = (.ok d.length, b') ∧ k = d.length) ∨ Buf.write d b = (.error (.blockingIO k), b')) ∧
      k ≤ d.length ∧ Sink b' ∧
      put b'.raw.data (landing b'.raw) b'.writeBuf = put b.raw.data (landing b.raw) (b.writeBuf ++ d.take k) ∧
      landing b'.raw + b'.writeBuf.length = landing b.raw + b.writeBuf.length + k := by
  have hb := h.bounded
  have hu := h.usable
  have e0 : Buf.write d b = Buf.overflowFlush d.length { b with writeBuf := b.writeBuf ++ d } := by
    have hw : Buf.write d b = Buf.writerWrite d b := by unfold Buf.write; rw [h.kind]
    rw [hw]
    unfold Buf.writerWrite
    have hp : Buf.preFlush b = (.ok (), b) := by unfold Buf.preFlush; rw [if_neg (by omega)]
    rw [PyM.bind_ok (Buf.checkClosed_ok hu.opened), PyM.bind_ok hp, PyM.bind_ok (PyM.modify_apply _ _)]
  have hu1 : Usable { b with writeBuf := b.writeBuf ++ d } :=
    ⟨hu.opened, hu.unix, hu.writable, fun hk => by have := h.kind; dsimp only at hk; rw [hk] at this; cases this⟩
  rw [e0]
  unfold Buf.overflowFlush
  by_cases hover : b.bufferSize < (b.writeBuf ++ d).length
  · rw [if_pos hover]
    obtain ⟨r, b', j, g1, g2⟩ := Buf.flushUnlocked_spec (b := { b with writeBuf := b.writeBuf ++ d }) hu.opened
      (hu.writable (by rw [h.kind]; nofun)) hu.unix
    have hle := g2.le
    have hleft := g2.left
    dsimp only at hle hleft
    rw [List.length_append] at hle
    have hlen : b'.writeBuf.length = b.writeBuf.length + d.length - j := by
      rw [hleft, List.length_drop, List.length_append]
    have hsink : ∀ w : Bytes, w.length ≤ b.bufferSize → Sink { b' with writeBuf := w } := by
      intro w hw
      exact ⟨⟨g2.frame.raw.closed.trans hu.opened, g2.frame.raw.platform.trans hu.unix,
        fun hk => g2.frame.raw.writable.trans (hu.writable (by
          have := g2.frame.kind; dsimp only at hk this; rw [this] at hk; exact hk)),
        fun hk => by
          have := g2.frame.kind.trans h.kind
          dsimp only at hk
          rw [hk] at this; cases this⟩,
        g2.frame.kind.trans h.kind, by dsimp only; rw [g2.frame.bufferSize]; exact hw, (g2.nonBlocking h.nonBlocking).2⟩
    have hcomb := Flushed.combine hu1 g2
    have hdest : landing b'.raw = landing b.raw + j := g2.dest
    rw [g1]
    rcases (g2.nonBlocking h.nonBlocking).1 with rfl | rfl
    · have hj : j = b.writeBuf.length + d.length := by
        rcases g2.result with ⟨_, hj⟩ | hj | ⟨e, hj, _⟩
        · dsimp only at hj; rw [List.length_append] at hj; exact hj
        · cases hj
        · cases hj
      have hnil : b'.writeBuf = [] := List.length_eq_zero_iff.1 (by omega)
      refine ⟨d.length, b', Or.inl ⟨rfl, rfl⟩, Nat.le_refl _, ?_, ?_, ?_⟩
      · have := hsink [] (by simp)
        rw [← hnil] at this; exact this
      · rw [hcomb, hnil, List.append_nil, List.take_length]
        dsimp only
        rw [List.take_of_length_le (by rw [List.length_append]; omega)]
      · rw [hdest, hnil]; simp only [List.length_nil]; omega
    · dsimp only
      by_cases hbig : b'.bufferSize < b'.writeBuf.length
      · rw [if_pos hbig]
        have hbs : b'.bufferSize = b.bufferSize := g2.frame.bufferSize
        refine ⟨d.length - (b'.writeBuf.length - b'.bufferSize), { b' with writeBuf := b'.writeBuf.take b'.bufferSize },
          Or.inr rfl, by omega, hsink _ (by rw [List.length_take]; omega), ?_, ?_⟩
        · dsimp only
          rw [hcomb]
          dsimp only
          congr 1
          rw [hleft, List.length_drop, List.length_append, ← List.take_add, List.take_append,
            List.take_of_length_le (l := b.writeBuf) (by omega)]
          congr 2
          omega
        · dsimp only; rw [hdest, List.length_take]; omega
      · rw [if_neg hbig]
        have hbs : b'.bufferSize = b.bufferSize := g2.frame.bufferSize
        refine ⟨d.length, b', Or.inl ⟨rfl, rfl⟩, Nat.le_refl _, hsink b'.writeBuf (by omega), ?_, ?_⟩
        · rw [hcomb, hleft]
          dsimp only
          rw [List.take_append_drop, List.take_length]
        · rw [hdest]; omega
  · rw [if_neg hover]
    refine ⟨d.length, _, Or.inl ⟨rfl, rfl⟩, Nat.le_refl _, ⟨hu1, h.kind, by dsimp only; omega, h.nonBlocking⟩, ?_, ?_⟩
    · rw [List.take_length]
    · dsimp only; rw [List.length_append]; omega

/-- One flush. -/
theorem flush_nonBlocking {b : Buf} (h : Sink b) :
    ∃ r b', Buf.flush b = (r, b') ∧ (r = .ok () ∧ b'.writeBuf = [] ∨ r = .error (.blockingIO 0)) ∧ Sink b' ∧
      put b'.raw.data (landing b'.raw) b'.writeBuf = put b.raw.data (landing b.raw) b.writeBuf ∧
      landing b'.raw + b'.writeBuf.length = landing b.raw + b.writeBuf.length := by
  obtain ⟨r, b', j, g1, g2⟩ := flush_usable h.usable
  have hle := g2.le
  have hlen : b'.writeBuf.length = b.writeBuf.length - j := by rw [g2.left, List.length_drop]
  have hdest : landing b'.raw = landing b.raw + j := g2.dest
  have hbd := h.bounded
  refine ⟨r, b', g1, ?_, ?_, ?_, ?_⟩
  · rcases g2.result with ⟨hr, hj⟩ | hr | ⟨e, hr, he⟩
    · exact Or.inl ⟨hr, List.length_eq_zero_iff.1 (by omega)⟩
    · exact Or.inr hr
    · rcases (g2.nonBlocking h.nonBlocking).1 with hr' | hr'
      · rw [hr] at hr'; cases hr'
      · exact Or.inr hr'
  · exact h.flushed g2 b'.writeBuf (by omega)
  · rw [Flushed.combine h.usable g2, g2.left, List.take_append_drop]
  · rw [hdest]; omega

private theorem put_put {b : Buf} {d0 : Bytes} {l0 : Nat} {acc : Bytes}
    (h1 : put b.raw.data (landing b.raw) b.writeBuf = put d0 l0 acc)
    (h2 : landing b.raw + b.writeBuf.length = l0 + acc.length) (x : Bytes) :
    put b.raw.data (landing b.raw) (b.writeBuf ++ x) = put d0 l0 (acc ++ x) := by
  rw [put_eq, put_eq] at *
  rw [← writeAt_append, ← writeAt_append, h1, h2]

private theorem sink_run (ops : List StreamOp) (d0 : Bytes) (l0 : Nat) : ∀ (b : Buf) (acc : Bytes), Sink b →
    (∀ op ∈ ops, IsOutput op) → put b.raw.data (landing b.raw) b.writeBuf = put d0 l0 acc →
    landing b.raw + b.writeBuf.length = l0 + acc.length →
    (∀ p ∈ ops.zip (b.run ops).1, OutputResult p) ∧
    put (b.run ops).2.raw.data (landing (b.run ops).2.raw) (b.run ops).2.writeBuf =
      put d0 l0 (acc ++ ((ops.zip (b.run ops).1).map acceptedBytes).flatten) ∧ Sink (b.run ops).2 := by
  induction ops with
  | nil =>
    intro b acc h _ h1 _
    exact ⟨by simp [Buf.run], by simpa [Buf.run] using h1, h⟩
  | cons op ops ih =>
    intro b acc h hops h1 h2
    have hop := hops op (List.mem_cons_self ..)
    have hops' : ∀ op ∈ ops, IsOutput op := fun o ho => hops o (List.mem_cons_of_mem _ ho)
    obtain ⟨acc1, g1, g2, g3, g4, g5⟩ : ∃ acc1, acceptedBytes (op, (b.step op).1) = acc1 ∧ OutputResult (op, (b.step op).1) ∧
        Sink (b.step op).2 ∧
        put (b.step op).2.raw.data (landing (b.step op).2.raw) (b.step op).2.writeBuf =
          put b.raw.data (landing b.raw) (b.writeBuf ++ acc1) ∧
        landing (b.step op).2.raw + (b.step op).2.writeBuf.length = landing b.raw + b.writeBuf.length + acc1.length := by
      cases op with
      | write d =>
        obtain ⟨k, b', e1, e2, e3, e4, e5⟩ := write_nonBlocking h d
        refine ⟨d.take k, ?_⟩
        have hlen : (d.take k).length = k := by rw [List.length_take]; omega
        rw [hlen]
        rcases e1 with ⟨e1, rfl⟩ | e1
        · simp only [Buf.step, e1]
          exact ⟨rfl, rfl, e3, e4, e5⟩
        · simp only [Buf.step, e1]
          exact ⟨rfl, e2, e3, e4, e5⟩
      | flush =>
        obtain ⟨r, b', e1, e2, e3, e4, e5⟩ := flush_nonBlocking h
        refine ⟨[], ?_⟩
        rw [List.append_nil]
        rcases e2 with ⟨rfl, _⟩ | rfl
        · simp only [Buf.step, e1]
          exact ⟨rfl, trivial, e3, e4, e5⟩
        · simp only [Buf.step, e1]
          exact ⟨rfl, rfl, e3, e4, e5⟩
      | _ => exact hop.elim
    obtain ⟨i1, i2, i3⟩ := ih (b.step op).2 (acc ++ acc1) g3 hops' (by rw [g4]; exact put_put h1 h2 acc1)
      (by rw [g5, List.length_append]; omega)
    simp only [Buf.run, List.zip_cons_cons, List.map_cons, List.flatten_cons]
    rw [g1, ← List.append_assoc]
    refine ⟨?_, i2, i3⟩
    intro p hp
    rcases List.mem_cons.1 hp with rfl | hp
    · exact g2
    · exact i1 p hp

/-- C63: for every sequence of writes and flushes on a file that accepts any part of the data or answers "would block",
in append mode or not, the pending bytes and the file together contain exactly the bytes that were reported as accepted,
in their order; what `write` reports is its return value or `characters_written` of `BlockingIOError`. -/
theorem C63_accounting {n : Int} {raw : Raw} {b : Buf} (hc : Buf.create .writer n raw = .ok b) (hp : raw.platform = .unix)
    (hs : NonBlocking raw.sched) (ops : List StreamOp) (hops : ∀ op ∈ ops, IsOutput op) :
    (∀ p ∈ ops.zip (b.run ops).1, OutputResult p) ∧
    pendingData (b.run ops).2 = put raw.data (landing raw) ((ops.zip (b.run ops).1).map acceptedBytes).flatten ∧
    (b.run ops).2.writeBuf.length ≤ b.bufferSize := by
  obtain ⟨rfl, h2, h3, h4, h5⟩ := create_ok hc
  have hsink : Sink ⟨.writer, n.toNat, raw, [], 0, []⟩ := ⟨⟨h3, hp, h5, nofun⟩, rfl, by simp, hs⟩
  obtain ⟨i1, i2, i3⟩ := sink_run ops raw.data (landing raw) _ [] hsink hops rfl (by simp)
  refine ⟨i1, by rw [List.nil_append] at i2; exact i2, ?_⟩
  have hbs : ∀ (ops : List StreamOp) (c : Buf), (c.run ops).2.bufferSize = c.bufferSize := by
    intro ops
    induction ops with
    | nil => intro c; rfl
    | cons op ops ih => intro c; exact (ih _).trans (Buf.step_keeps c op).2
  have := i3.bounded
  rw [hbs] at this
  exact this

/-- C63: after a flush that returns, exactly the accepted bytes are in the file. -/
theorem C63_flushed {n : Int} {raw : Raw} {b : Buf} (hc : Buf.create .writer n raw = .ok b) (hp : raw.platform = .unix)
    (hs : NonBlocking raw.sched) (ops : List StreamOp) (hops : ∀ op ∈ ops, IsOutput op)
    (hf : (Buf.flush (b.run ops).2).1 = .ok ()) :
    (Buf.flush (b.run ops).2).2.raw.data = put raw.data (landing raw) ((ops.zip (b.run ops).1).map acceptedBytes).flatten := by
  obtain ⟨rfl, h2, h3, h4, h5⟩ := create_ok hc
  have hsink : Sink ⟨.writer, n.toNat, raw, [], 0, []⟩ := ⟨⟨h3, hp, h5, nofun⟩, rfl, by simp, hs⟩
  obtain ⟨i1, i2, i3⟩ := sink_run ops raw.data (landing raw) _ [] hsink hops rfl (by simp)
  rw [List.nil_append] at i2
  rw [← i2]
  exact (flush_done (b' := (Buf.flush _).2) i3.usable (by rw [← hf])).1

-- two bytes fit, one is stored, then the file would block
example : ((opened .writer 2 [] [.count 1, .again]).run [.write [1, 2], .write [3, 4], .flush]).1 =
      [.num 2, .error (.blockingIO 1), .done] ∧
    ((opened .writer 2 [] [.count 1, .again]).run [.write [1, 2], .write [3, 4], .flush]).2.raw.data = [1, 2, 3] := by
  constructor <;> decide +kernel

/-- After another error the accounting fails: `write` raises, but its bytes stay in the buffer and are written later. -/
theorem C63_error_refuted : ((opened .writer 2 [] [.fail 5]).run [.write [1, 2, 3], .write [1, 2, 3], .flush]).1 =
      [.error (.ioError 5), .num 3, .done] ∧
    ((opened .writer 2 [] [.fail 5]).run [.write [1, 2, 3], .write [1, 2, 3], .flush]).2.raw.data = [1, 2, 3, 1, 2, 3] := by
  constructor <;> decide +kernel

end Verif.Props
