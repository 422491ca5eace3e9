import Verif.Lemmas.AppendRefine
import Verif.Lemmas.TextWrite
import Verif.Spec.AppendText

/-!
# Text streams in append mode
-/

set_option autoImplicit false

namespace Verif

open Verif.Spec

namespace Raw

theorem osFlush_flag (k : FlushKind) : Ports Unix plain (osFlush k) := by
  intro s h
  unfold osFlush
  rw [nextAns_plain]
  have h2 := h.nextAns 0
  generalize s.nextAns 0 = r at *
  obtain ⟨a, s'⟩ := r
  cases a with
  | fail e =>
    dsimp only
    split <;> exact ⟨rfl, h2⟩
  | _ => exact ⟨rfl, h2⟩

theorem orElse_flag {m m' : PyM Raw Unit} (hm : Ports Unix plain m) (hm' : Ports Unix plain m') : Ports Unix plain (orElse m m') := by
  intro s h
  obtain ⟨h1, h2⟩ := hm s h
  unfold orElse
  rw [h1]
  generalize m s = r at *
  obtain ⟨r, s'⟩ := r
  cases r with
  | ok u => exact ⟨rfl, h2⟩
  | error e => cases e <;> first | exact hm' s' h2 | exact ⟨rfl, h2⟩

theorem sync_flag (fd m fl : Bool) : Ports Unix plain (sync fd m fl) := by
  refine checkClosed_flag.bind fun _ => ?_
  intro s h
  unfold innerSync
  rw [show s.plain.platform = s.platform from rfl, h.1]
  dsimp only
  have h2 : Ports Unix plain (if (!m && fd) = true then orElse (osFlush .data) (osFlush .metadata) else osFlush .metadata) :=
    Ports.ite (orElse_flag (osFlush_flag _) (osFlush_flag _)) (osFlush_flag _)
  exact (Ports.ite (orElse_flag (osFlush_flag _) h2) h2) s h

end Raw

namespace Buf

variable {α : Type}

/-- A stream for writing in append mode with nothing to write. -/
def Resting (b : Buf) : Prop := Idle b ∧ b.kind ≠ .reader

theorem Resting.of {m : PyM Buf α} (h : Ports Idle plain m) (hk : Keeps m) : Ports Resting plain m :=
  fun b hb => ⟨(h b hb.1).1, (h b hb.1).2, by rw [(hk b).1]; exact hb.2⟩

theorem checkClosed_rest : Ports Resting plain checkClosed := Resting.of checkClosed_flag Keeps.checkClosed
theorem flush_rest : Ports Resting plain flush := Resting.of flush_flag Keeps.flush
theorem read_rest (n : Option Int) : Ports Resting plain (read n) := Resting.of (read_flag n) (Keeps.read n)
theorem read1_rest (n : Int) : Ports Resting plain (read1 n) := Resting.of (read1_flag n) (Keeps.read1 n)
theorem tell_rest : Ports Resting plain tell := Resting.of tell_flag Keeps.tell
theorem size_rest : Ports Resting plain size := Resting.of size_flag Keeps.size
theorem truncate_rest (a : Option Int) : Ports Resting plain (truncate a) := Resting.of (truncate_flag a) (Keeps.truncate a)
theorem seek_rest (o : Int) (w : Whence) : Ports Resting plain (seek o w) :=
  fun b hb => ⟨(seek_flag o w hb.1 hb.2).1, (seek_flag o w hb.1 hb.2).2, by rw [(Keeps.seek o w b).1]; exact hb.2⟩
theorem lockFile_rest (o : Bytes) : Ports Resting plain (lockFile o) :=
  fun b hb => ⟨(reset_flag (Raw.lockFile_flag o) hb.1 hb.2).1, (reset_flag (Raw.lockFile_flag o) hb.1 hb.2).2,
    by rw [(Keeps.lockFile o b).1]; exact hb.2⟩
theorem unlockFile_rest : Ports Resting plain unlockFile :=
  fun b hb => ⟨(reset_flag Raw.unlockFile_flag hb.1 hb.2).1, (reset_flag Raw.unlockFile_flag hb.1 hb.2).2,
    by rw [(Keeps.unlockFile b).1]; exact hb.2⟩
theorem sync_rest (fd m fl : Bool) : Ports Resting plain (sync fd m fl) :=
  flush_rest.bind fun _ => Resting.of (onRaw_flag (Raw.sync_flag fd m fl)) (Keeps.onRaw _)

end Buf

namespace Txt

open Verif.Props (outgoing newlines_eq when_run)

variable {C : Codec} {α : Type}

/-- The same stream, not in append mode. -/
def plain (t : Txt C) : Txt C := { t with buf := t.buf.plain }

/-- A stream in append mode with nothing to write. -/
def Resting (t : Txt C) : Prop := t.buf.Resting

/-- A function of a text stream that does not see the append mode. -/
abbrev Blind (m : PyM (Txt C) α) : Prop := Ports Resting plain m

theorem onBuf_flag {m : PyM Buf α} (h : Ports Buf.Resting Buf.plain m) : Blind (C := C) (onBuf m) := by
  intro t ht
  obtain ⟨h1, h2⟩ := h t.buf ht
  unfold onBuf
  rw [show t.plain.buf = t.buf.plain from rfl, h1]
  generalize m t.buf = r at *
  obtain ⟨r, s'⟩ := r
  exact ⟨rfl, h2⟩

/-- An assignment that does not concern the buffered stream. -/
theorem modify_flag {f : Txt C → Txt C} (h : ∀ t, f t.plain = (f t).plain) (hb : ∀ t, (f t).buf = t.buf) :
    Blind (PyM.modify f) :=
  Ports.modify (P := Resting) (u := plain) h fun t ht => by
    show (f t).buf.Resting
    rw [hb]; exact ht

theorem readable_flag : Blind (C := C) readable := by
  intro t h
  unfold readable
  rw [show t.plain.buf.kind = t.buf.kind from rfl, show t.plain.buf.raw.closed = t.buf.raw.closed from rfl]
  cases t.buf.kind <;> dsimp only <;> first | exact ⟨rfl, h⟩ | (split <;> exact ⟨rfl, h⟩)

theorem writable_flag : Blind (C := C) writable := by
  intro t h
  unfold writable
  rw [show t.plain.buf.kind = t.buf.kind from rfl, show t.plain.buf.raw.closed = t.buf.raw.closed from rfl]
  cases t.buf.kind <;> dsimp only <;> first | exact ⟨rfl, h⟩ | (split <;> exact ⟨rfl, h⟩)

theorem setEncoder_flag (mid : Bool) : Blind (C := C) (setEncoder mid) := modify_flag (fun _ => rfl) fun _ => rfl

theorem configure_flag : Blind (C := C) configure := by
  intro t h
  unfold configure
  rw [show t.plain.seekable = t.seekable from rfl]
  split
  · exact (writable_flag.bind fun _ => Ports.ite ((onBuf_flag Buf.tell_rest).bind fun _ => Ports.when (setEncoder_flag true))
      (Ports.pure _)) t h
  · exact ⟨rfl, h⟩

theorem getDecoder_flag : Blind (C := C) getDecoder := modify_flag (fun _ => rfl) fun _ => rfl

theorem resetDecoder_flag : Blind (C := C) resetDecoder := modify_flag (fun _ => rfl) fun _ => rfl

theorem decode_flag (input : Option Bytes) (final : Bool) : Blind (C := C) (decode input final) := by
  intro t h
  unfold decode
  rw [show t.plain.decoder = t.decoder from rfl, show t.plain.newline = t.newline from rfl]
  cases t.decoder with
  | none => exact ⟨rfl, h⟩
  | some d =>
    cases input with
    | none => exact ⟨rfl, h⟩
    | some input =>
      dsimp only
      split <;> exact ⟨rfl, h⟩

theorem setChars_flag (s : Text) : Blind (C := C) (setChars s) := modify_flag (fun _ => rfl) fun _ => rfl

theorem getChars_flag (n : Option Nat) : Blind (C := C) (getChars n) := fun _ h => ⟨rfl, h⟩

theorem dropSnapshot_flag : Blind (C := C) dropSnapshot := by
  refine modify_flag (fun t => ?_) fun t => ?_
  · rw [show t.plain.snapshot = t.snapshot from rfl]
    split <;> rfl
  · split <;> rfl

theorem flush_flag : Blind (C := C) flush :=
  (onBuf_flag Buf.flush_rest).bind fun _ => modify_flag (fun _ => rfl) fun _ => rfl

theorem checkClosed_flag : Blind (C := C) checkClosed := onBuf_flag Buf.checkClosed_rest

theorem readChunk_flag : Blind (C := C) readChunk := by
  intro t h
  unfold readChunk
  rw [show t.plain.decoder = t.decoder from rfl]
  cases t.decoder with
  | none => exact ⟨rfl, h⟩
  | some d =>
    exact ((onBuf_flag (Buf.read1_rest _)).bind fun chunk => (decode_flag _ _).bind fun s => (setChars_flag s).bind fun _ =>
      (modify_flag (f := fun t' => { t' with
        ratio := if s = [] then (0, 0) else ((chunk.getD []).length, s.length)
        snapshot := if t.telling then
          some ((getstateWith C t.newline d).2, (getstateWith C t.newline d).1 ++ chunk.getD []) else t'.snapshot })
        (fun _ => rfl) fun _ => rfl).bind fun _ => Ports.pure _) t h

theorem checkReadable_flag : Blind (C := C) checkReadable :=
  readable_flag.bind fun _ => Ports.ite (Ports.pure _) (Ports.raise _)

theorem readLoop_flag (size : Nat) : ∀ fuel result, Blind (C := C) (readLoop size fuel result)
  | 0, _ => Ports.pure _
  | fuel + 1, _ => Ports.ite (readChunk_flag.bind fun _ => (getChars_flag _).bind fun _ =>
      Ports.ite (readLoop_flag size fuel _) (Ports.pure _)) (Ports.pure _)

theorem readAll_flag : Blind (C := C) readAll :=
  (getChars_flag _).bind fun _ => (onBuf_flag (Buf.read_rest _)).bind fun _ => (decode_flag _ _).bind fun _ =>
    dropSnapshot_flag.bind fun _ => Ports.pure _

theorem read_flag (size : Option Int) : Blind (C := C) (read size) := by
  intro t h
  unfold read
  rw [show t.plain.rounds = t.rounds from rfl]
  refine (checkReadable_flag.bind fun _ => getDecoder_flag.bind fun _ => ?_) t h
  cases size with
  | none => exact readAll_flag
  | some n => exact Ports.ite readAll_flag ((getChars_flag _).bind fun _ => readLoop_flag _ _ _)

theorem moreChars_flag : ∀ fuel, Blind (C := C) (moreChars fuel)
  | 0 => Ports.pure _
  | fuel + 1 => readChunk_flag.bind fun more =>
      Ports.get (P := Resting) (u := plain) (f := fun t => if more && decide (t.chars = []) then moreChars fuel else pure ())
        (fun _ => rfl) fun _ _ => Ports.ite (moreChars_flag fuel) (Ports.pure _)

theorem rewind_flag (n : Nat) : Blind (C := C) (rewind n) := by
  intro t h
  unfold rewind
  rw [show t.plain.used = t.used from rfl]
  split <;> exact ⟨rfl, h⟩

theorem finishLine_flag (size : Int) (line : Text) (endpos : Nat) : Blind (C := C) (finishLine size line endpos) :=
  (rewind_flag _).bind fun _ => Ports.pure _

theorem readlineLoop_flag (size : Int) : ∀ fuel line, Blind (C := C) (readlineLoop size fuel line)
  | 0, _ => Ports.pure _
  | fuel + 1, line => by
    intro t h
    unfold readlineLoop
    rw [show t.plain.newline = t.newline from rfl, show t.plain.rounds = t.rounds from rfl]
    cases lineEnd t.newline line with
    | some e => exact finishLine_flag size line e t h
    | none =>
      dsimp only
      split
      · exact finishLine_flag size line _ t h
      · exact ((moreChars_flag _).bind fun _ =>
          Ports.get (P := Resting) (u := plain) (f := fun t => if t.chars ≠ [] then do
              let s ← getChars none
              readlineLoop size fuel (line ++ s)
            else do
              setChars []
              PyM.modify fun t => { t with snapshot := none }
              pure line) (fun _ => rfl) fun _ _ =>
            Ports.ite ((getChars_flag _).bind fun _ => readlineLoop_flag size fuel _)
              ((setChars_flag _).bind fun _ =>
                (modify_flag (f := fun t => { t with snapshot := none }) (fun _ => rfl) fun _ => rfl).bind fun _ => Ports.pure _)) t h

theorem readline_flag (size : Int) : Blind (C := C) (readline size) := by
  intro t h
  unfold readline
  rw [show t.plain.rounds = t.rounds from rfl]
  exact (checkClosed_flag.bind fun _ => (getChars_flag _).bind fun _ => getDecoder_flag.bind fun _ =>
    readlineLoop_flag _ _ _) t h

theorem next_flag : Blind (C := C) next :=
  (modify_flag (f := fun t => { t with telling := false }) (fun _ => rfl) fun _ => rfl).bind fun _ =>
    (readline_flag _).bind fun _ =>
      (Ports.when (modify_flag (f := fun t => { t with snapshot := none, telling := t.seekable }) (fun _ => rfl) fun _ => rfl)).bind
        fun _ => Ports.pure _

theorem locate_plain (guess : Nat × Nat → Nat → Nat) (position : Nat) (t : Txt C) :
    locate guess position t.plain = locate guess position t := rfl

theorem tell_flag (guess : Nat × Nat → Nat → Nat) : Blind (C := C) (tell guess) := by
  intro t h
  unfold tell
  rw [show t.plain.seekable = t.seekable from rfl, show t.plain.telling = t.telling from rfl]
  split
  · exact ⟨rfl, h⟩
  · split
    · exact ⟨rfl, h⟩
    · exact (flush_flag.bind fun _ => (onBuf_flag Buf.tell_rest).bind fun _ => fun _ h => ⟨rfl, h⟩) t h

theorem resetEncoder_flag (a : Bool) : Blind (C := C) (resetEncoder a) := setEncoder_flag _

theorem restoreDecoder_flag (c : Cookie) : Blind (C := C) (restoreDecoder c) := by
  intro t h
  unfold restoreDecoder
  rw [show t.plain.decoder = t.decoder from rfl, show t.plain.newline = t.newline from rfl]
  split
  · exact resetDecoder_flag t h
  · split <;> exact ⟨rfl, h⟩

theorem skipChars_flag (c : Cookie) : Blind (C := C) (skipChars c) :=
  (onBuf_flag (Buf.read_rest _)).bind fun chunk => (decode_flag _ _).bind fun _ => (setChars_flag _).bind fun _ =>
    (modify_flag (f := fun t => { t with snapshot := some (c.flags, chunk.getD []) }) (fun _ => rfl) fun _ => rfl).bind fun _ =>
      Ports.ite (Ports.raise _) (modify_flag (f := fun t => { t with used := c.skip }) (fun _ => rfl) fun _ => rfl)

theorem seekTo_flag (c : Cookie) : Blind (C := C) (seekTo c) :=
  flush_flag.bind fun _ => (onBuf_flag (Buf.seek_rest _ _)).bind fun _ =>
    (modify_flag (f := fun t => { t with chars := [], used := 0, snapshot := none }) (fun _ => rfl) fun _ => rfl).bind fun _ =>
      (restoreDecoder_flag c).bind fun _ => (Ports.when (skipChars_flag c)).bind fun _ => (resetEncoder_flag _).bind fun _ =>
        Ports.pure _

theorem seek_flag (guess : Nat × Nat → Nat → Nat) (m : Movement) : Blind (C := C) (seek guess m) := by
  intro t h
  unfold seek
  rw [show t.plain.seekable = t.seekable from rfl]
  refine (checkClosed_flag.bind fun _ => Ports.ite (Ports.raise _) ?_) t h
  match m with
  | .relative => exact Ports.raise _
  | .badWhence => exact Ports.raise _
  | .to none => exact Ports.raise _
  | .to (some c) => exact seekTo_flag c
  | .here => exact (tell_flag guess).bind fun c => seekTo_flag c
  | .toEnd =>
    exact flush_flag.bind fun _ => (onBuf_flag (Buf.seek_rest _ _)).bind fun _ => (setChars_flag _).bind fun _ =>
      (modify_flag (f := fun t => { t with snapshot := none }) (fun _ => rfl) fun _ => rfl).bind fun _ =>
        resetDecoder_flag.bind fun _ => (resetEncoder_flag _).bind fun _ => Ports.pure _

theorem size_flag : Blind (C := C) size := flush_flag.bind fun _ => onBuf_flag Buf.size_rest

theorem resetBuffers_flag (guess : Nat × Nat → Nat → Nat) : Blind (C := C) (resetBuffers guess) :=
  (seek_flag guess _).bind fun _ => Ports.pure _

theorem lockFile_flag (guess : Nat × Nat → Nat → Nat) (others : Bytes) : Blind (C := C) (lockFile guess others) :=
  (resetBuffers_flag guess).bind fun _ => onBuf_flag (Buf.lockFile_rest others)

theorem unlockFile_flag (guess : Nat × Nat → Nat → Nat) : Blind (C := C) (unlockFile guess) :=
  (resetBuffers_flag guess).bind fun _ => onBuf_flag Buf.unlockFile_rest

theorem readinto_flag : Blind (C := C) readinto := checkClosed_flag.bind fun _ => Ports.raise _

theorem of_flag {m : PyM (Txt C) α} (h : Blind m) (f : α → Out) {t : Txt C} (ht : t.Resting) :
    Out.of f (m t.plain) = ((Out.of f (m t)).1, (Out.of f (m t)).2.plain) ∧ (Out.of f (m t)).2.Resting := by
  obtain ⟨h1, h2⟩ := h t ht
  rw [h1]
  generalize m t = r at *
  obtain ⟨r, t'⟩ := r
  cases r <;> exact ⟨rfl, h2⟩

theorem truncate_flag (guess : Nat × Nat → Nat → Nat) (a : Option Int) : Blind (C := C) (truncate guess a) := by
  refine flush_flag.bind fun _ => ?_
  cases a with
  | some n => exact onBuf_flag (Buf.truncate_rest _)
  | none => exact (tell_flag guess).bind fun _ => onBuf_flag (Buf.truncate_rest _)

theorem sync_flag (fd m fl : Bool) : Blind (C := C) (sync fd m fl) := flush_flag.bind fun _ => onBuf_flag (Buf.sync_rest fd m fl)

/-- A stream with nothing to write does the same in append mode, unless it writes. -/
theorem step_flag (guess : Nat × Nat → Nat → Nat) {t : Txt C} (h : t.Resting) {op : Op} (hw : ∀ s, op ≠ .write s) (hc : op ≠ .close) :
    step guess t.plain op = ((step guess t op).1, (step guess t op).2.plain) ∧ (step guess t op).2.Resting := by
  cases op with
  | read n => exact of_flag (read_flag n) _ h
  | readline n => exact of_flag (readline_flag n) _ h
  | next => exact of_flag next_flag _ h
  | write s => exact absurd rfl (hw s)
  | flush => exact of_flag flush_flag _ h
  | seek m => exact of_flag (seek_flag guess m) _ h
  | tell => exact of_flag (tell_flag guess) _ h
  | truncate a => exact of_flag (truncate_flag guess a) _ h
  | size => exact of_flag size_flag _ h
  | sync a m f => exact of_flag (sync_flag a m f) _ h
  | lock o => exact of_flag (lockFile_flag guess o) _ h
  | unlock => exact of_flag (unlockFile_flag guess) _ h
  | readinto => exact of_flag readinto_flag _ h
  | close => exact absurd rfl hc

variable {nl : Newline} {ls : Text} {k : BufKind}

/-- The stream in append mode represents the file `f`. -/
structure Logbook (C : Codec) (nl : Newline) (ls : Text) (k : BufKind) (t : Txt C) (f : Sink) : Prop where
  buf : ∃ late, Buf.Appends t.buf ⟨⟨f.data, f.pos, false, f.log⟩, late⟩
  kind : t.buf.kind = k
  notReader : k ≠ .reader
  newline : t.newline = nl
  linesep : t.linesep = ls
  seekable : t.seekable = true
  telling : t.telling = true
  chars : t.chars = []
  snapshot : t.snapshot = none ∨ (t.snapshot = some (0, []) ∧ t.used = 0)
  encoder : t.encoder.getD C.encInit = if f.pos = 0 then C.encInit else C.encMid

namespace Logbook

theorem of_plain {t : Txt C} {f : Sink} (hr : t.Resting) (h : Outlet C nl ls k t.plain f) : Logbook C nl ls k t f :=
  ⟨⟨false, .of_plain hr.1.1.2 hr.2 hr.1.2 h.buf⟩, h.kind, h.notReader, h.newline, h.linesep, h.seekable, h.telling, h.chars, h.snapshot,
    h.encoder⟩

theorem opened {t : Txt C} {f : Sink} (h : Logbook C nl ls k t f) : t.buf.raw.closed = false := by
  obtain ⟨late, hb⟩ := h.buf
  exact (Buf.placed_same t.buf).2.2.2.2.2.2.2.1.symm.trans hb.rel.live.opened

theorem checkClosed {t : Txt C} {f : Sink} (h : Logbook C nl ls k t f) : Txt.checkClosed t = (.ok (), t) :=
  onBuf_eq (Buf.checkClosed_ok h.opened)

/-- A flush stores what was written; then the stream does what one does that is not in append mode. -/
theorem flush {t : Txt C} {f : Sink} (h : Logbook C nl ls k t f) :
    ∃ t', Txt.flush t = (.ok (), t') ∧ Txt.flush t' = (.ok (), t') ∧ t'.Resting ∧ Outlet C nl ls k t'.plain f := by
  obtain ⟨late, hb⟩ := h.buf
  obtain ⟨b', h1, h2, h3, h4, h5, h6, h7⟩ := hb.flush
  have hk : b'.kind ≠ .reader := by rw [h4]; exact hb.kind
  have h8 : Buf.flush b' = (.ok (), b') := Buf.flush_idle hk h6.live.opened h2
  refine ⟨{ t with buf := b', telling := t.seekable }, ?_, ?_, ⟨⟨⟨h6.live.unix, h5⟩, h2⟩, hk⟩, ?_⟩
  · unfold Txt.flush
    rw [PyM.bind_ok (onBuf_eq h1)]
    rfl
  · unfold Txt.flush
    rw [PyM.bind_ok (onBuf_eq (t := { t with buf := b', telling := t.seekable }) h8)]
    rfl
  · exact ⟨h6, h4.trans h.kind, h.notReader, h.newline, h.linesep, h.seekable, h.seekable, h.chars, h.snapshot, h.encoder⟩

/-- A call that begins with a flush. -/
theorem flushing {t : Txt C} {f : Sink} (h : Logbook C nl ls k t f) (hC : LawfulEncoder C) (guess : Nat × Nat → Nat → Nat) {op : Op}
    (hop : SinkCall k op) (hw : ∀ s, op ≠ .write s)
    (hs : ∀ t', Txt.flush t = (.ok (), t') → Txt.flush t' = (.ok (), t') → Txt.checkClosed t' = (.ok (), t') → t'.seekable = true →
      t'.telling = true → Txt.step guess t op = Txt.step guess t' op) :
    ∃ f', AppendTextAllowed C (outgoing ls nl) k f op (Txt.step guess t op).1 f' ∧ Logbook C nl ls k (Txt.step guess t op).2 f' := by
  obtain ⟨t', h1, h2, h3, h4⟩ := h.flush
  rw [hs t' h1 h2 (onBuf_eq (Buf.checkClosed_ok h4.buf.live.opened)) h4.seekable h4.telling]
  have hc : op ≠ .close := by rintro rfl; exact hop
  obtain ⟨e1, e2⟩ := step_flag guess h3 hw hc
  obtain ⟨f', g1, g2⟩ := h4.step hC guess hop
  rw [e1] at g1 g2
  refine ⟨f', ?_, of_plain e2 g2⟩
  cases op <;> first | exact g1 | exact absurd rfl (hw _)

/-- A call that is refused. -/
theorem refused {t : Txt C} {f : Sink} (h : Logbook C nl ls k t f) (guess : Nat × Nat → Nat → Nat) {op : Op} {e : Exn}
    (hs : Txt.step guess t op = (.error e, t)) (ha : AppendTextAllowed C (outgoing ls nl) k f op (.error e) f) :
    ∃ f', AppendTextAllowed C (outgoing ls nl) k f op (Txt.step guess t op).1 f' ∧ Logbook C nl ls k (Txt.step guess t op).2 f' := by
  rw [hs]; exact ⟨f, ha, h⟩

theorem encoded_same {f : Sink} {s : Text} (hu : ¬ AppendTextUnsafe C f (.write s)) (x : Text) :
    encoded C f.pos x = encoded C f.data.length x := by
  unfold encoded
  by_cases he : C.encInit = C.encMid
  · rw [he]; simp
  · have hp : f.pos = 0 ↔ f.data = [] := by
      by_cases hp : f.pos = 0 ↔ f.data = []
      · exact hp
      · exact absurd ⟨⟨s, rfl⟩, he, hp⟩ hu
    by_cases h0 : f.data = []
    · rw [if_pos (hp.2 h0), if_pos (by rw [h0]; rfl)]
    · rw [if_neg (fun h1 => h0 (hp.1 h1)), if_neg (fun h1 => h0 (List.length_eq_zero_iff.1 h1))]

theorem write {t : Txt C} {f : Sink} (h : Logbook C nl ls k t f) (hC : LawfulEncoder C) (s : Text) :
    ∃ r t', Txt.write s t = (r, t') ∧
      match encoded C f.pos (outgoing ls nl s) with
      | .error e => r = .error e ∧ Logbook C nl ls k t' f
      | .ok b => r = .ok s.length ∧
          Logbook C nl ls k t' { f with data := f.data ++ b, pos := if b = [] then f.pos else f.data.length + b.length } := by
  unfold Txt.write
  rw [PyM.bind_ok h.checkClosed, newlines_eq, h.newline, h.linesep]
  generalize outgoing ls nl s = x
  have hs : (if f.pos = 0 then C.encInit else C.encMid) = C.encInit ∨ (if f.pos = 0 then C.encInit else C.encMid) = C.encMid := by
    split
    · exact .inl rfl
    · exact .inr rfl
  cases he : C.encode (if f.pos = 0 then C.encInit else C.encMid) x with
  | error e =>
    have h1 : Txt.encode x t = (.error e, { t with encoder := some (t.encoder.getD C.encInit) }) := by
      unfold Txt.encode; rw [h.encoder, he]
    have h2 : encoded C f.pos x = .error e := by unfold encoded; rw [he]; rfl
    rw [PyM.bind_error h1, h2]
    exact ⟨_, _, rfl, rfl, h.buf, h.kind, h.notReader, h.newline, h.linesep, h.seekable, h.telling, h.chars, h.snapshot, h.encoder⟩
  | ok p =>
    obtain ⟨b, enc⟩ := p
    have h1 : Txt.encode x t = (.ok b, { t with encoder := some enc }) := by
      unfold Txt.encode; rw [h.encoder, he]
    have h2 : encoded C f.pos x = .ok b := by unfold encoded; rw [he]; rfl
    rw [PyM.bind_ok h1, h2]
    dsimp only
    obtain ⟨late, hb⟩ := h.buf
    obtain ⟨b', f1, g1, ⟨_, g2, g3⟩, g4⟩ := hb.write b
    have hk := (Buf.Keeps.write b t.buf).1
    rw [g1] at hk
    have key : Logbook C nl ls k { t with buf := b', encoder := some enc }
        { f with data := f.data ++ b, pos := if b = [] then f.pos else f.data.length + b.length } := by
      refine ⟨?_, hk.trans h.kind, h.notReader, h.newline, h.linesep, h.seekable, h.telling, h.chars, h.snapshot, ?_⟩
      · by_cases hn : b = []
        · have := g2 hn
          subst this
          exact ⟨late, by simpa [hn] using g4⟩
        · obtain ⟨e1, _⟩ := g3 hn
          refine ⟨f1.late, ?_⟩
          rw [if_neg hn]
          obtain ⟨ff, fl⟩ := f1
          dsimp only at e1
          subst e1
          exact g4
      · dsimp only
        show enc = _
        rcases hC.state _ _ _ _ hs he with ⟨hn, e1⟩ | ⟨hn, e1⟩
        · rw [e1, if_pos hn]
        · have := List.length_pos_iff.2 hn
          rw [e1, if_neg hn, if_neg (by omega)]
    rw [PyM.bind_ok (onBuf_eq (t := { t with encoder := some enc }) g1)]
    generalize ({ f with data := f.data ++ b, pos := if b = [] then f.pos else f.data.length + b.length } : Sink) = f2 at key ⊢
    have tail : ∀ t1 : Txt C, Logbook C nl ls k t1 f2 →
        ∃ t', ((do dropSnapshot; resetDecoder; pure s.length) : PyM (Txt C) Nat) t1 = (.ok s.length, t') ∧ Logbook C nl ls k t' f2 := by
      intro t1 h1
      refine ⟨_, rfl, ?_⟩
      dsimp only
      rcases h1.snapshot with hs | ⟨hs, hu⟩
      · rw [hs]
        exact ⟨h1.buf, h1.kind, h1.notReader, h1.newline, h1.linesep, h1.seekable, h1.telling, h1.chars, .inl hs, h1.encoder⟩
      · rw [hs]
        exact ⟨h1.buf, h1.kind, h1.notReader, h1.newline, h1.linesep, h1.seekable, h1.telling, rfl, .inl rfl, h1.encoder⟩
    generalize (t.lineBuffering && _ : Bool) = c
    cases c with
    | false =>
      rw [PyM.bind_ok (show PyM.when false Txt.flush _ = (.ok (), _) from rfl)]
      obtain ⟨t', k1, k2⟩ := tail _ key
      exact ⟨_, t', k1, rfl, k2⟩
    | true =>
      obtain ⟨t1, k1, _, k2, k3⟩ := key.flush
      rw [PyM.bind_ok (when_run k1)]
      obtain ⟨t', k4, k5⟩ := tail _ (of_plain k2 k3)
      exact ⟨_, t', k4, rfl, k5⟩

theorem step {t : Txt C} {f : Sink} (h : Logbook C nl ls k t f) (hC : LawfulEncoder C) (guess : Nat × Nat → Nat → Nat) {op : Op}
    (hop : SinkCall k op) (hu : ¬ AppendTextUnsafe C f op) :
    ∃ f', AppendTextAllowed C (outgoing ls nl) k f op (Txt.step guess t op).1 f' ∧ Logbook C nl ls k (Txt.step guess t op).2 f' := by
  have htell : ∀ t', Txt.flush t = (.ok (), t') → Txt.flush t' = (.ok (), t') → t'.seekable = true → t'.telling = true →
      Txt.tell guess t = Txt.tell guess t' := by
    intro t' h1 h2 h3 h4
    unfold Txt.tell
    rw [h.seekable, h.telling, h3, h4]
    simp only [Bool.not_true, Bool.false_eq_true, if_false]
    rw [PyM.bind_ok h1, PyM.bind_ok h2]
  have hseek : ∀ t', Txt.flush t = (.ok (), t') → Txt.flush t' = (.ok (), t') → Txt.checkClosed t' = (.ok (), t') →
      t'.seekable = true → t'.telling = true → ∀ m : Movement, (m = .here ∨ m = .toEnd ∨ ∃ c, m = .to (some c)) →
      Txt.seek guess m t = Txt.seek guess m t' := by
    intro t' h1 h2 h3 h4 h5 m hm
    unfold Txt.seek
    rw [PyM.bind_ok h.checkClosed, PyM.bind_ok h3, h.seekable, h4]
    simp only [Bool.not_true, Bool.false_eq_true, if_false]
    rcases hm with rfl | rfl | ⟨c, rfl⟩
    · dsimp only
      rw [PyM.bind_apply, PyM.bind_apply, htell t' h1 h2 h4 h5]
    · dsimp only
      rw [PyM.bind_ok h1, PyM.bind_ok h2]
    · dsimp only
      unfold Txt.seekTo
      rw [PyM.bind_ok h1, PyM.bind_ok h2]
  have hreset : ∀ t', Txt.flush t = (.ok (), t') → Txt.flush t' = (.ok (), t') → Txt.checkClosed t' = (.ok (), t') →
      t'.seekable = true → t'.telling = true → Txt.resetBuffers guess t = Txt.resetBuffers guess t' := by
    intro t' h1 h2 h3 h4 h5
    unfold Txt.resetBuffers
    rw [PyM.bind_apply, PyM.bind_apply, hseek t' h1 h2 h3 h4 h5 .here (.inl rfl)]
  cases op with
  | write s =>
    obtain ⟨r, t', h1, h2⟩ := h.write hC s
    simp only [Txt.step, h1, AppendTextAllowed]
    rw [encoded_same hu] at h2
    cases he : encoded C f.data.length (outgoing ls nl s) with
    | error e =>
      rw [he] at h2
      obtain ⟨rfl, h2⟩ := h2
      exact ⟨f, ⟨rfl, rfl⟩, h2⟩
    | ok b =>
      rw [he] at h2
      obtain ⟨rfl, h2⟩ := h2
      exact ⟨_, ⟨rfl, rfl⟩, h2⟩
  | read n =>
    have hr : Txt.read n t = (.error .unsupported, t) := by
      have hk : t.buf.kind = .writer := h.kind.trans hop
      have hc : checkReadable t = (.error .unsupported, t) := by
        unfold checkReadable readable
        simp only [PyM.bind_apply, hk]
        rfl
      unfold Txt.read
      rw [PyM.bind_error hc]
    exact h.refused guess (e := .unsupported) (by simp only [Txt.step, hr]; rfl) ⟨hop, rfl, rfl⟩
  | readline n => exact hop.elim
  | next => exact hop.elim
  | close => exact hop.elim
  | readinto =>
    have hr : Txt.readinto t = (.error .badValueType, t) := by
      unfold Txt.readinto; rw [PyM.bind_ok h.checkClosed]; rfl
    exact h.refused guess (e := .badValueType) (by simp only [Txt.step, hr]; rfl) ⟨rfl, rfl⟩
  | flush => exact h.flushing hC guess hop nofun fun t' h1 h2 _ _ _ => by simp only [Txt.step, h1, h2]
  | sync a m fl =>
    exact h.flushing hC guess hop nofun fun t' h1 h2 _ _ _ => by
      have : Txt.sync a m fl t = Txt.sync a m fl t' := by unfold Txt.sync; rw [PyM.bind_ok h1, PyM.bind_ok h2]
      simp only [Txt.step, this]
  | size =>
    exact h.flushing hC guess hop nofun fun t' h1 h2 _ _ _ => by
      have : Txt.size t = Txt.size t' := by unfold Txt.size; rw [PyM.bind_ok h1, PyM.bind_ok h2]
      simp only [Txt.step, this]
  | truncate a =>
    exact h.flushing hC guess hop nofun fun t' h1 h2 _ _ _ => by
      have : Txt.truncate guess a t = Txt.truncate guess a t' := by unfold Txt.truncate; rw [PyM.bind_ok h1, PyM.bind_ok h2]
      simp only [Txt.step, this]
  | tell => exact h.flushing hC guess hop nofun fun t' h1 h2 _ h4 h5 => by simp only [Txt.step, htell t' h1 h2 h4 h5]
  | lock o =>
    exact h.flushing hC guess hop nofun fun t' h1 h2 h3 h4 h5 => by
      have : Txt.lockFile guess o t = Txt.lockFile guess o t' := by
        unfold Txt.lockFile
        rw [PyM.bind_apply, PyM.bind_apply, hreset t' h1 h2 h3 h4 h5]
      simp only [Txt.step, this]
  | unlock =>
    exact h.flushing hC guess hop nofun fun t' h1 h2 h3 h4 h5 => by
      have : Txt.unlockFile guess t = Txt.unlockFile guess t' := by
        unfold Txt.unlockFile
        rw [PyM.bind_apply, PyM.bind_apply, hreset t' h1 h2 h3 h4 h5]
      simp only [Txt.step, this]
  | seek m =>
    have hraise : ∀ e : Exn, (Txt.seek guess m t = (.error e, t)) → Txt.step guess t (.seek m) = (.error e, t) := by
      intro e he; simp only [Txt.step, he]; rfl
    have hmove : (m = .here ∨ m = .toEnd ∨ ∃ c, m = .to (some c)) →
        ∃ f', AppendTextAllowed C (outgoing ls nl) k f (.seek m) (Txt.step guess t (.seek m)).1 f' ∧
          Logbook C nl ls k (Txt.step guess t (.seek m)).2 f' := fun hm =>
      h.flushing hC guess hop nofun fun t' h1 h2 h3 h4 h5 => by simp only [Txt.step, hseek t' h1 h2 h3 h4 h5 m hm]
    match m with
    | .here => exact hmove (.inl rfl)
    | .toEnd => exact hmove (.inr (.inl rfl))
    | .to (some c) => exact hmove (.inr (.inr ⟨c, rfl⟩))
    | .relative =>
      refine h.refused guess (e := .unsupported) (hraise _ ?_) ⟨rfl, rfl⟩
      unfold Txt.seek; rw [PyM.bind_ok h.checkClosed]
      simp only [h.seekable, Bool.not_true, Bool.false_eq_true, if_false]; rfl
    | .badWhence =>
      refine h.refused guess (e := .valueError) (hraise _ ?_) ⟨rfl, rfl⟩
      unfold Txt.seek; rw [PyM.bind_ok h.checkClosed]
      simp only [h.seekable, Bool.not_true, Bool.false_eq_true, if_false]; rfl
    | .to none =>
      refine h.refused guess (e := .valueError) (hraise _ ?_) ⟨rfl, rfl⟩
      unfold Txt.seek; rw [PyM.bind_ok h.checkClosed]
      simp only [h.seekable, Bool.not_true, Bool.false_eq_true, if_false]; rfl

theorem run {t : Txt C} {f : Sink} (h : Logbook C nl ls k t f) (hC : LawfulEncoder C) (guess : Nat × Nat → Nat → Nat) {ops : List Op}
    (hops : ∀ op ∈ ops, SinkCall k op) :
    ∃ pre post f', ops = pre ++ post ∧ AppendTextConforms C (outgoing ls nl) k f (pre.zip (Txt.run guess t pre).1) f' ∧
      Logbook C nl ls k (Txt.run guess t pre).2 f' ∧ (post = [] ∨ ∃ op rest, post = op :: rest ∧ AppendTextUnsafe C f' op) := by
  induction ops generalizing t f with
  | nil => exact ⟨[], [], f, rfl, .nil f, h, .inl rfl⟩
  | cons op ops ih =>
    by_cases hu : AppendTextUnsafe C f op
    · exact ⟨[], op :: ops, f, rfl, .nil f, h, .inr ⟨op, ops, rfl, hu⟩⟩
    · obtain ⟨f1, h1, h2⟩ := h.step hC guess (hops op (by simp)) hu
      obtain ⟨pre, post, f2, e1, e2, e3, e4⟩ := ih h2 fun o ho => hops o (List.mem_cons_of_mem _ ho)
      exact ⟨op :: pre, post, f2, by rw [e1]; rfl, .cons h1 e2, e3, e4⟩

/-- A stream before its first call. -/
theorem create {b : Buf} {f : Sink} (hr : b.Resting) (h : Buf.R b.plain ⟨f.data, f.pos, false, f.log⟩) (hk : b.kind = k) (lb : Bool)
    {t : Txt C} (ht : Txt.create nl lb ls b = (.ok (), t)) : Logbook C nl ls k t f := by
  have key : Txt.create (C := C) nl lb ls b.plain = ((Txt.create (C := C) nl lb ls b).1, (Txt.create (C := C) nl lb ls b).2.plain) ∧
      (Txt.create (C := C) nl lb ls b).2.Resting := by
    unfold Txt.create
    rw [show b.plain.raw.closed = b.raw.closed from rfl]
    split
    · exact ⟨rfl, hr⟩
    · exact configure_flag (C := C) ⟨b, nl, lb, ls, b.raw.seekable, b.raw.seekable, none, none, [], 0, none, (0, 0)⟩ hr
  rw [ht] at key
  exact of_plain key.2 (Outlet.create h hk (by rw [← hk]; exact hr.2) lb key.1)

end Logbook

end Txt

end Verif
