import Verif.Lemmas.TextRead
import Verif.Lemmas.UtilitiesReturn
import Verif.Spec.TextSink
import Verif.Props.Utilities

/-!
# Each call on a text stream that is not read refines the call on the reference
-/

set_option autoImplicit false

namespace Verif.Buf

open Verif.Spec

/-- `sync()` succeeds and changes nothing that the stream represents. -/
theorem sync_R {b : Buf} {f : File} (h : R b f) (fd m fl : Bool) :
    ∃ b', sync fd m fl b = (.ok (), b') ∧ R b' f ∧ b'.kind = b.kind := by
  obtain ⟨b1, h1, h2, h3, h4, _⟩ := flush_R h
  have hl := h2.live
  -- what the calls of the system leave alone
  let K : Raw → Prop := fun s => Blocking s.sched ∧ s.closed = b1.raw.closed ∧ s.platform = b1.raw.platform ∧
    s.append = b1.raw.append ∧ s.seekable = b1.raw.seekable ∧ s.readable = b1.raw.readable ∧ s.writable = b1.raw.writable ∧
    s.data = b1.raw.data ∧ s.pos = b1.raw.pos ∧ s.events = b1.raw.events
  have hos : ∀ k, Props.Succeeds K (Raw.osFlush k) := by
    intro k s h
    unfold Raw.osFlush Raw.nextAns
    cases hs : s.sched with
    | nil => exact ⟨(), _, rfl, ⟨h.1, h.2⟩⟩
    | cons a rest =>
      have hb := h.1
      rw [hs] at hb
      obtain ⟨j, rfl, _⟩ := hb a (by simp)
      exact ⟨(), _, rfl, ⟨fun a ha => hb a (List.mem_cons_of_mem _ ha), h.2⟩⟩
  have hor : ∀ {m m' : PyM Raw Unit}, Props.Succeeds K m → Props.Succeeds K (Raw.orElse m m') := by
    intro m m' hm s h
    obtain ⟨x, s', h1, h2⟩ := hm s h
    exact ⟨x, s', by unfold Raw.orElse; rw [h1], h2⟩
  have hsync : ∃ s', Raw.sync fd m fl b1.raw = (.ok (), s') ∧ K s' := by
    unfold Raw.sync
    rw [PyM.bind_ok (Raw.checkClosed_ok hl.opened)]
    have hk : K b1.raw := ⟨hl.blocking, rfl, rfl, rfl, rfl, rfl, rfl, rfl, rfl, rfl⟩
    unfold Raw.innerSync
    rw [hl.unix]
    dsimp only
    have done : ∀ {m : PyM Raw Unit}, Props.Succeeds K m → ∃ s', m b1.raw = (.ok (), s') ∧ K s' := by
      intro m hm
      obtain ⟨u, s', h1, h2⟩ := hm _ hk
      exact ⟨s', h1, h2⟩
    cases fl
    · rw [if_neg (by simp)]
      split
      · exact done (hor (hos _))
      · exact done (hos _)
    · rw [if_pos rfl]
      exact done (hor (hos _))
  obtain ⟨s', g1, g2⟩ := hsync
  obtain ⟨e0, e1, e2, e3, e4, e5, e6, e7, e8, e9⟩ := g2
  unfold sync
  rw [PyM.bind_ok h1]
  refine ⟨_, onRaw_eq g1, ⟨⟨e1.trans hl.opened, e2.trans hl.unix, e3.trans hl.noAppend, e4.trans hl.seekable,
    fun h => e5.trans (hl.readable h), fun h => e6.trans (hl.writable h), e0, hl.bufferSize⟩, h2.inside, h2.unread, h2.excl, h2.reader,
    h2.writer, ?_, ?_, h2.ahead, ?_⟩, h4⟩
  · dsimp only; rw [e7, e8]; exact h2.data
  · dsimp only; rw [e8]; exact h2.pos
  · dsimp only; rw [e9]; exact h2.log

end Verif.Buf

namespace Verif.Txt

open Verif.Spec Verif.Props

variable {C : Codec} {nl : Newline} {ls : Text} {k : BufKind}

/-- The stream represents the file `f`. -/
structure Outlet (C : Codec) (nl : Newline) (ls : Text) (k : BufKind) (t : Txt C) (f : Sink) : Prop where
  buf : Buf.R t.buf ⟨f.data, f.pos, false, f.log⟩
  kind : t.buf.kind = k
  notReader : k ≠ .reader
  newline : t.newline = nl
  linesep : t.linesep = ls
  seekable : t.seekable = true
  telling : t.telling = true
  chars : t.chars = []
  snapshot : t.snapshot = none ∨ (t.snapshot = some (0, []) ∧ t.used = 0)
  encoder : t.encoder.getD C.encInit = if f.pos = 0 then C.encInit else C.encMid

/-- The stream is in any state; the buffered stream represents `f`. -/
structure Ready (nl : Newline) (ls : Text) (k : BufKind) (t : Txt C) (f : File) : Prop where
  buf : Buf.R t.buf f
  kind : t.buf.kind = k
  notReader : k ≠ .reader
  newline : t.newline = nl
  linesep : t.linesep = ls
  seekable : t.seekable = true

theorem Ready.flush {t : Txt C} {f : File} (h : Ready nl ls k t f) :
    ∃ t', Txt.flush t = (.ok (), t') ∧ Ready nl ls k t' f ∧ t'.telling = true := by
  obtain ⟨b', h1, h2, _, h3, _⟩ := Buf.flush_R h.buf
  unfold Txt.flush
  rw [PyM.bind_ok (onBuf_eq h1)]
  exact ⟨_, rfl, ⟨h2, h3.trans h.kind, h.notReader, h.newline, h.linesep, h.seekable⟩, h.seekable⟩

theorem Ready.checkClosed {t : Txt C} {f : File} (h : Ready nl ls k t f) : Txt.checkClosed t = (.ok (), t) :=
  onBuf_eq (Buf.checkClosed_ok h.buf.live.opened)

namespace Outlet

theorem ready {t : Txt C} {f : Sink} (h : Outlet C nl ls k t f) : Ready nl ls k t ⟨f.data, f.pos, false, f.log⟩ :=
  ⟨h.buf, h.kind, h.notReader, h.newline, h.linesep, h.seekable⟩

/-- The buffered stream is replaced. -/
theorem withBuf {t : Txt C} {f : Sink} (h : Outlet C nl ls k t f) {b : Buf} {d : Bytes} {l : List RawEv}
    (hb : Buf.R b ⟨d, f.pos, false, l⟩) (hk : b.kind = t.buf.kind) :
    Outlet C nl ls k { t with buf := b } ⟨d, f.pos, l⟩ :=
  ⟨hb, hk.trans h.kind, h.notReader, h.newline, h.linesep, h.seekable, h.telling, h.chars, h.snapshot, h.encoder⟩

theorem flush {t : Txt C} {f : Sink} (h : Outlet C nl ls k t f) : ∃ t', Txt.flush t = (.ok (), t') ∧ Outlet C nl ls k t' f := by
  obtain ⟨b', h1, h2, _, h3, _⟩ := Buf.flush_R h.buf
  have h' := h.withBuf h2 h3
  unfold Txt.flush
  rw [PyM.bind_ok (onBuf_eq h1)]
  exact ⟨_, rfl, h'.buf, h'.kind, h'.notReader, h'.newline, h'.linesep, h'.seekable, h'.seekable, h'.chars,
    h'.snapshot, h'.encoder⟩

theorem checkClosed {t : Txt C} {f : Sink} (h : Outlet C nl ls k t f) : Txt.checkClosed t = (.ok (), t) :=
  onBuf_eq (Buf.checkClosed_ok h.buf.live.opened)

theorem encodes {t : Txt C} {f : Sink} (h : Outlet C nl ls k t f) (hC : LawfulEncoder C) (s : Text) :
    (∃ e t', encoded C f.pos s = .error e ∧ Txt.encode s t = (.error e, t') ∧ Outlet C nl ls k t' f) ∨
    ∃ b enc, encoded C f.pos s = .ok b ∧ Txt.encode s t = (.ok b, { t with encoder := some enc }) ∧
      enc = if f.pos + b.length = 0 then C.encInit else C.encMid := by
  unfold Txt.encode encoded
  rw [h.encoder]
  cases he : C.encode (if f.pos = 0 then C.encInit else C.encMid) s with
  | error e =>
    refine .inl ⟨e, _, rfl, rfl, h.buf, h.kind, h.notReader, h.newline, h.linesep, h.seekable, h.telling, h.chars,
      h.snapshot, ?_⟩
    rfl
  | ok p =>
    obtain ⟨b, enc⟩ := p
    refine .inr ⟨b, enc, rfl, rfl, ?_⟩
    have hs : (if f.pos = 0 then C.encInit else C.encMid) = C.encInit ∨ (if f.pos = 0 then C.encInit else C.encMid) = C.encMid := by
      split
      · exact .inl rfl
      · exact .inr rfl
    rcases hC.state _ _ _ _ hs he with ⟨hb, he'⟩ | ⟨hb, he'⟩
    · rw [he', hb]; rfl
    · have := List.length_pos_iff.2 hb
      rw [he', if_neg (by omega)]

theorem write {t : Txt C} {f : Sink} (h : Outlet C nl ls k t f) (hC : LawfulEncoder C) (s : Text) :
    ∃ r t', Txt.write s t = (r, t') ∧
      match encoded C f.pos (outgoing ls nl s) with
      | .error e => r = .error e ∧ Outlet C nl ls k t' f
      | .ok b => r = .ok s.length ∧ Outlet C nl ls k t' { f with data := put f.data f.pos b, pos := f.pos + b.length } := by
  unfold Txt.write
  rw [PyM.bind_ok h.checkClosed, newlines_eq, h.newline, h.linesep]
  rcases h.encodes hC (outgoing ls nl s) with ⟨e, t', h1, h2, h3⟩ | ⟨b, enc, h1, h2, h3⟩
  · rw [PyM.bind_error h2, h1]
    exact ⟨_, _, rfl, rfl, h3⟩
  rw [PyM.bind_ok h2, h1]
  obtain ⟨f', h4, h5⟩ := Buf.write_R h.buf b
  have hk : t.buf.kind ≠ .reader := by rw [h.kind]; exact h.notReader
  have h6 := (Buf.Keeps.write b t.buf).1
  simp only [Allowed, if_neg hk] at h4
  obtain ⟨h7, rfl⟩ := h4
  generalize hq : Buf.write b t.buf = q at h5 h6 h7
  obtain ⟨r, b'⟩ := q
  cases r with
  | error e => cases h7
  | ok n =>
    cases h7
    have h8 : Outlet C nl ls k { t with buf := b', encoder := some enc }
        { f with data := put f.data f.pos b, pos := f.pos + b.length } :=
      ⟨h5, h6.trans h.kind, h.notReader, h.newline, h.linesep, h.seekable, h.telling, h.chars, h.snapshot, h3⟩
    rw [PyM.bind_ok (onBuf_eq (t := { t with encoder := some enc }) hq)]
    have tail : ∀ t1 : Txt C, Outlet C nl ls k t1 { f with data := put f.data f.pos b, pos := f.pos + b.length } →
        ∃ t', ((do dropSnapshot; resetDecoder; pure s.length) : PyM (Txt C) Nat) t1 = (.ok s.length, t') ∧
          Outlet C nl ls k t' { f with data := put f.data f.pos b, pos := f.pos + b.length } := by
      intro t1 h1
      refine ⟨_, rfl, ?_⟩
      dsimp only
      rcases h1.snapshot with hs | ⟨hs, hu⟩
      · rw [hs]
        exact ⟨h1.buf, h1.kind, h1.notReader, h1.newline, h1.linesep, h1.seekable, h1.telling, h1.chars, .inl hs, h1.encoder⟩
      · rw [hs]
        exact ⟨h1.buf, h1.kind, h1.notReader, h1.newline, h1.linesep, h1.seekable, h1.telling, rfl, .inl rfl, h1.encoder⟩
    generalize (t.lineBuffering && _ : Bool) = c
    cases c with
    | false =>
      rw [PyM.bind_ok (show PyM.when false Txt.flush _ = (.ok (), _) from rfl)]
      obtain ⟨t', g1, g2⟩ := tail _ h8
      exact ⟨_, t', g1, rfl, g2⟩
    | true =>
      obtain ⟨t1, g1, g2⟩ := h8.flush
      rw [PyM.bind_ok (when_run g1)]
      obtain ⟨t', g3, g4⟩ := tail _ g2
      exact ⟨_, t', g3, rfl, g4⟩

theorem tell {t : Txt C} {f : Sink} (h : Outlet C nl ls k t f) (guess : Nat × Nat → Nat → Nat) :
    ∃ t', Txt.tell guess t = (.ok (offset f.pos), t') ∧ Outlet C nl ls k t' f := by
  obtain ⟨t1, h1, h2⟩ := h.flush
  unfold Txt.tell
  rw [h.seekable, h.telling]
  simp only [Bool.not_true, Bool.false_eq_true, if_false]
  rw [PyM.bind_ok h1, PyM.bind_ok (onBuf_eq (Buf.tell_R h2.buf))]
  have hl : locate guess f.pos { t1 with buf := t1.buf } = .ok (offset f.pos) := by
    have hc : (if t1.chars = [] then .ok ⟨f.pos, 0, 0, false, 0⟩ else .error .assertionError : Except Exn Cookie) =
        .ok (offset f.pos) := by rw [if_pos h2.chars]; rfl
    unfold locate
    rcases h2.snapshot with hs | ⟨hs, hu⟩
    · rw [hs]
      cases t1.decoder <;> exact hc
    · rw [hs, hu]
      cases t1.decoder with
      | none => exact hc
      | some d => rfl
  refine ⟨t1, ?_, h2⟩
  dsimp only at hl ⊢
  rw [hl]

/-- A stream in any state that is moved to `p`. -/
theorem seekTo' {t : Txt C} {f : File} (h : Ready nl ls k t f) (p : Nat) :
    ∃ t', Txt.seekTo (offset p) t = (.ok (offset p), t') ∧ Outlet C nl ls k t' ⟨f.data, p, f.log⟩ ∧ t'.buf.writeBuf = [] := by
  obtain ⟨t1, h1, h2, h6⟩ := h.flush
  unfold Txt.seekTo
  obtain ⟨b', h3, h4, hw, _, h5⟩ := Buf.seek_ok h2.buf (p : Int) .set (by simp [File.target])
  rw [PyM.bind_ok h1]
  change ∃ t', (onBuf (Buf.seek (p : Int) .set) >>= _) t1 = _ ∧ _
  rw [PyM.bind_ok (onBuf_eq h3)]
  have hz : (offset p).isZero = decide (p = 0) := by simp [Cookie.isZero, offset]
  have hr : ∀ t2 : Txt C, t2.chars = [] → t2.used = 0 → t2.snapshot = none → ∃ t3, restoreDecoder (offset p) t2 = (.ok (), t3) ∧
      t3.buf = t2.buf ∧ t3.newline = t2.newline ∧ t3.linesep = t2.linesep ∧ t3.seekable = t2.seekable ∧ t3.telling = t2.telling ∧
      t3.chars = [] ∧ (t3.snapshot = none ∨ (t3.snapshot = some (0, []) ∧ t3.used = 0)) := by
    intro t2 hc hu hs
    unfold restoreDecoder
    split
    · exact ⟨_, rfl, rfl, rfl, rfl, rfl, rfl, hc, .inl hs⟩
    · split
      · exact ⟨_, rfl, rfl, rfl, rfl, rfl, rfl, hc, .inr ⟨rfl, hu⟩⟩
      · exact ⟨_, rfl, rfl, rfl, rfl, rfl, rfl, hc, .inl hs⟩
  rw [PyM.bind_ok (show PyM.modify _ _ = (.ok (), _) from rfl)]
  dsimp only
  obtain ⟨t3, g0, g1, g2, g3, g4, g5, g6, g7⟩ := hr { t1 with buf := b', chars := [], used := 0, snapshot := none } rfl rfl rfl
  rw [PyM.bind_ok g0,
    PyM.bind_ok (show PyM.when (decide ((offset p).skip ≠ 0)) (skipChars (offset p)) _ = (.ok (), _) from rfl),
    PyM.bind_ok (show resetEncoder (offset p).isZero _ = (.ok (), _) from rfl)]
  refine ⟨_, rfl, ⟨?_, ?_, h.notReader, g2.trans h2.newline, g3.trans h2.linesep, g4.trans h2.seekable, g5.trans h6, g6, g7, ?_⟩, ?_⟩
  · dsimp only
    rw [g1]
    have : (File.target f (p : Int) .set).toNat = p := by simp [File.target]
    rw [this] at h4
    exact h4
  · dsimp only; rw [g1]; exact h5.trans h2.kind
  · rw [hz]
    by_cases hp : p = 0 <;> simp [hp]
  · dsimp only; rw [g1]; exact hw

theorem seekTo {t : Txt C} {f : Sink} (h : Outlet C nl ls k t f) (p : Nat) :
    ∃ t', Txt.seekTo (offset p) t = (.ok (offset p), t') ∧ Outlet C nl ls k t' { f with pos := p } := by
  obtain ⟨t', h1, h2, _⟩ := seekTo' h.ready p
  exact ⟨t', h1, h2⟩

/-- A stream in any state that is moved to the end. -/
theorem seekEnd' {t : Txt C} {f : File} (h : Ready nl ls k t f) (guess : Nat × Nat → Nat → Nat) :
    ∃ t', Txt.seek guess .toEnd t = (.ok (offset f.data.length), t') ∧ Outlet C nl ls k t' ⟨f.data, f.data.length, f.log⟩ ∧
      t'.buf.writeBuf = [] := by
  obtain ⟨t1, h1, h2, h6⟩ := h.flush
  unfold Txt.seek
  rw [PyM.bind_ok h.checkClosed]
  simp only [h.seekable, Bool.not_true, Bool.false_eq_true, if_false]
  have hn : (File.target f 0 .fin).toNat = f.data.length := by simp [File.target]
  obtain ⟨b', h3, h4, hw, _, h5⟩ := Buf.seek_ok h2.buf 0 .fin (by simp [File.target])
  rw [hn] at h3 h4
  rw [PyM.bind_ok h1, PyM.bind_ok (onBuf_eq h3)]
  refine ⟨_, rfl, ⟨h4, h5.trans h2.kind, h.notReader, h2.newline, h2.linesep, h2.seekable, h6, rfl, .inl rfl, ?_⟩, hw⟩
  · dsimp only
    by_cases hp : f.data.length = 0 <;> simp [hp]

theorem seekEnd {t : Txt C} {f : Sink} (h : Outlet C nl ls k t f) (guess : Nat × Nat → Nat → Nat) :
    ∃ t', Txt.seek guess .toEnd t = (.ok (offset f.data.length), t') ∧ Outlet C nl ls k t' { f with pos := f.data.length } := by
  obtain ⟨t', h1, h2, _⟩ := seekEnd' h.ready guess
  exact ⟨t', h1, h2⟩

theorem seekHere {t : Txt C} {f : Sink} (h : Outlet C nl ls k t f) (guess : Nat × Nat → Nat → Nat) :
    ∃ t', Txt.seek guess .here t = (.ok (offset f.pos), t') ∧ Outlet C nl ls k t' f := by
  obtain ⟨t1, h1, h2⟩ := h.tell guess
  obtain ⟨t2, h3, h4⟩ := h2.seekTo f.pos
  unfold Txt.seek
  rw [PyM.bind_ok h.checkClosed]
  simp only [h.seekable, Bool.not_true, Bool.false_eq_true, if_false]
  rw [PyM.bind_ok h1]
  exact ⟨t2, h3, h4⟩

theorem resize {t : Txt C} {f : Sink} (h : Outlet C nl ls k t f) (z : Int) :
    ∃ r t', Txt.onBuf (Buf.truncate (some z)) t = (r, t') ∧
      ((z < 0 ∧ r = .error (.ioError 22) ∧ Outlet C nl ls k t' f) ∨
        (0 ≤ z ∧ r = .ok z.toNat ∧ Outlet C nl ls k t' { f with data := resizeTo f.data z.toNat })) := by
  obtain ⟨f', h1, h2⟩ := Buf.truncate_R h.buf (some z) (by simp [Unsafe])
  have hk : t.buf.kind ≠ .reader := by rw [h.kind]; exact h.notReader
  have h3 := (Buf.Keeps.truncate (some z) t.buf).1
  simp only [Allowed, if_neg hk] at h1
  generalize hq : Buf.truncate (some z) t.buf = q at h1 h2 h3
  obtain ⟨r, b'⟩ := q
  by_cases hz : z < 0
  · rw [if_pos hz] at h1
    obtain ⟨g1, rfl⟩ := h1
    cases r with
    | ok n => cases g1
    | error e => cases g1; exact ⟨_, _, onBuf_eq hq, .inl ⟨hz, rfl, h.withBuf h2 h3⟩⟩
  · rw [if_neg hz] at h1
    obtain ⟨g1, rfl⟩ := h1
    cases r with
    | error e => cases g1
    | ok n => cases g1; exact ⟨_, _, onBuf_eq hq, .inr ⟨by omega, rfl, h.withBuf h2 h3⟩⟩

theorem truncate {t : Txt C} {f : Sink} (h : Outlet C nl ls k t f) (guess : Nat × Nat → Nat → Nat) (n : Option Int) :
    ∃ r t', Txt.truncate guess n t = (r, t') ∧
      (((n.getD f.pos : Int) < 0 ∧ r = .error (.ioError 22) ∧ Outlet C nl ls k t' f) ∨
        (0 ≤ n.getD f.pos ∧ r = .ok (n.getD f.pos).toNat ∧ Outlet C nl ls k t' { f with data := resizeTo f.data (n.getD f.pos).toNat })) := by
  obtain ⟨t1, h1, h2⟩ := h.flush
  unfold Txt.truncate
  rw [PyM.bind_ok h1]
  cases n with
  | some z => exact h2.resize z
  | none =>
    obtain ⟨t2, h3, h4⟩ := h2.tell guess
    dsimp only
    rw [PyM.bind_ok h3]
    have := h4.resize (f.pos : Int)
    simpa [offset] using this

theorem size {t : Txt C} {f : Sink} (h : Outlet C nl ls k t f) :
    ∃ t', Txt.size t = (.ok f.data.length, t') ∧ Outlet C nl ls k t' f := by
  obtain ⟨t1, h1, h2⟩ := h.flush
  obtain ⟨b', h3, h4, _⟩ := Buf.size_R h2.buf
  have h5 := (Buf.Keeps.size t1.buf).1
  rw [h3] at h5
  unfold Txt.size
  rw [PyM.bind_ok h1]
  exact ⟨_, onBuf_eq h3, h2.withBuf h4 h5⟩

theorem lockFile {t : Txt C} {f : Sink} (h : Outlet C nl ls k t f) (guess : Nat × Nat → Nat → Nat) (others : Bytes) :
    ∃ t', Txt.lockFile guess others t = (.ok (), t') ∧
      Outlet C nl ls k t' { f with data := others, log := f.log ++ [.lock others] } := by
  obtain ⟨t1, h1, h2⟩ := h.seekHere guess
  obtain ⟨b', h3, h4⟩ := Buf.lockFile_R h2.buf others
  have h5 := (Buf.Keeps.lockFile others t1.buf).1
  rw [h3] at h5
  unfold Txt.lockFile resetBuffers
  rw [PyM.bind_ok (show ((do let _ ← Txt.seek guess .here; pure ()) : PyM (Txt C) Unit) t = (.ok (), t1) by
    rw [PyM.bind_ok h1]; rfl)]
  exact ⟨_, onBuf_eq h3, h2.withBuf h4 h5⟩

theorem unlockFile {t : Txt C} {f : Sink} (h : Outlet C nl ls k t f) (guess : Nat × Nat → Nat → Nat) :
    ∃ t', Txt.unlockFile guess t = (.ok (), t') ∧ Outlet C nl ls k t' { f with log := f.log ++ [.unlock f.data] } := by
  obtain ⟨t1, h1, h2⟩ := h.seekHere guess
  obtain ⟨b', h3, h4⟩ := Buf.unlockFile_R h2.buf
  have h5 := (Buf.Keeps.unlockFile t1.buf).1
  rw [h3] at h5
  unfold Txt.unlockFile resetBuffers
  rw [PyM.bind_ok (show ((do let _ ← Txt.seek guess .here; pure ()) : PyM (Txt C) Unit) t = (.ok (), t1) by
    rw [PyM.bind_ok h1]; rfl)]
  exact ⟨_, onBuf_eq h3, h2.withBuf h4 h5⟩

theorem sync {t : Txt C} {f : Sink} (h : Outlet C nl ls k t f) (fd m fl : Bool) :
    ∃ t', Txt.sync fd m fl t = (.ok (), t') ∧ Outlet C nl ls k t' f := by
  obtain ⟨t1, h1, h2⟩ := h.flush
  obtain ⟨b', h3, h4⟩ := Buf.sync_R h2.buf fd m fl
  unfold Txt.sync
  rw [PyM.bind_ok h1]
  exact ⟨_, onBuf_eq h3, h2.withBuf h4.1 h4.2⟩

theorem step {t : Txt C} {f : Sink} (h : Outlet C nl ls k t f) (hC : LawfulEncoder C) (guess : Nat × Nat → Nat → Nat) {op : Op}
    (hop : SinkCall k op) :
    ∃ f', SinkAllowed C (outgoing ls nl) k f op (Txt.step guess t op).1 f' ∧ Outlet C nl ls k (Txt.step guess t op).2 f' := by
  cases op with
  | read n =>
    have hr : Txt.read n t = (.error .unsupported, t) := by
      have hk : t.buf.kind = .writer := h.kind.trans hop
      have hc : checkReadable t = (.error .unsupported, t) := by
        unfold checkReadable readable
        simp only [PyM.bind_apply, hk]
        rfl
      unfold Txt.read
      rw [PyM.bind_error hc]
    simp only [Txt.step, hr]
    exact ⟨f, ⟨hop, rfl, rfl⟩, h⟩
  | readline n => exact hop.elim
  | next => exact hop.elim
  | close => exact hop.elim
  | write s =>
    obtain ⟨r, t', h1, h2⟩ := h.write hC s
    simp only [Txt.step, h1, SinkAllowed]
    cases he : encoded C f.pos (outgoing ls nl s) with
    | error e =>
      rw [he] at h2
      obtain ⟨rfl, h2⟩ := h2
      exact ⟨f, ⟨rfl, rfl⟩, h2⟩
    | ok b =>
      rw [he] at h2
      obtain ⟨rfl, h2⟩ := h2
      exact ⟨_, ⟨rfl, rfl⟩, h2⟩
  | flush =>
    obtain ⟨t', h1, h2⟩ := h.flush
    simp only [Txt.step, h1]
    exact ⟨f, ⟨rfl, rfl⟩, h2⟩
  | sync a m fl =>
    obtain ⟨t', h1, h2⟩ := h.sync a m fl
    simp only [Txt.step, h1]
    exact ⟨f, ⟨rfl, rfl⟩, h2⟩
  | tell =>
    obtain ⟨t', h1, h2⟩ := h.tell guess
    simp only [Txt.step, h1]
    exact ⟨f, ⟨rfl, rfl⟩, h2⟩
  | size =>
    obtain ⟨t', h1, h2⟩ := h.size
    simp only [Txt.step, h1]
    exact ⟨f, ⟨rfl, rfl⟩, h2⟩
  | lock others =>
    obtain ⟨t', h1, h2⟩ := h.lockFile guess others
    simp only [Txt.step, h1]
    exact ⟨_, ⟨rfl, rfl⟩, h2⟩
  | unlock =>
    obtain ⟨t', h1, h2⟩ := h.unlockFile guess
    simp only [Txt.step, h1]
    exact ⟨_, ⟨rfl, rfl⟩, h2⟩
  | readinto =>
    have hr : Txt.readinto t = (.error .badValueType, t) := by
      unfold Txt.readinto; rw [PyM.bind_ok h.checkClosed]; rfl
    simp only [Txt.step, hr]
    exact ⟨f, ⟨rfl, rfl⟩, h⟩
  | truncate n =>
    obtain ⟨r, t', h1, h2⟩ := h.truncate guess n
    simp only [Txt.step, h1]
    rcases h2 with ⟨hz, rfl, h2⟩ | ⟨hz, rfl, h2⟩
    · refine ⟨f, ?_, h2⟩
      cases n with
      | none => simp only [Option.getD_none] at hz; omega
      | some z => simp only [SinkAllowed]; rw [if_pos (by exact hz)]; exact ⟨rfl, trivial⟩
    · refine ⟨_, ?_, h2⟩
      cases n with
      | none => exact ⟨rfl, rfl⟩
      | some z => simp only [SinkAllowed]; rw [if_neg (by simp only [Option.getD_some] at hz; omega)]; exact ⟨rfl, rfl⟩
  | seek m =>
    have hraise : ∀ e : Exn, (Txt.seek guess m t = (.error e, t)) → Txt.step guess t (.seek m) = (.error e, t) := by
      intro e he; simp only [Txt.step, he]; rfl
    cases m with
    | here =>
      obtain ⟨t', h1, h2⟩ := h.seekHere guess
      simp only [Txt.step, h1]
      exact ⟨f, ⟨rfl, rfl⟩, h2⟩
    | toEnd =>
      obtain ⟨t', h1, h2⟩ := h.seekEnd guess
      simp only [Txt.step, h1]
      exact ⟨_, ⟨rfl, rfl⟩, h2⟩
    | relative =>
      rw [hraise .unsupported (by
        unfold Txt.seek; rw [PyM.bind_ok h.checkClosed]
        simp only [h.seekable, Bool.not_true, Bool.false_eq_true, if_false]; rfl)]
      exact ⟨f, ⟨rfl, rfl⟩, h⟩
    | badWhence =>
      rw [hraise .valueError (by
        unfold Txt.seek; rw [PyM.bind_ok h.checkClosed]
        simp only [h.seekable, Bool.not_true, Bool.false_eq_true, if_false]; rfl)]
      exact ⟨f, ⟨rfl, rfl⟩, h⟩
    | to c =>
      cases c with
      | none =>
        rw [hraise .valueError (by
          unfold Txt.seek; rw [PyM.bind_ok h.checkClosed]
          simp only [h.seekable, Bool.not_true, Bool.false_eq_true, if_false]; rfl)]
        exact ⟨f, ⟨rfl, rfl⟩, h⟩
      | some c =>
        have hc : c = offset c.position := hop
        obtain ⟨t', h1, h2⟩ := h.seekTo c.position
        rw [← hc] at h1
        have hs : Txt.seek guess (.to (some c)) t = (.ok c, t') := by
          unfold Txt.seek
          rw [PyM.bind_ok h.checkClosed]
          simp only [h.seekable, Bool.not_true, Bool.false_eq_true, if_false]
          exact h1
        simp only [Txt.step, hs]
        exact ⟨_, ⟨hc, rfl, rfl⟩, h2⟩

theorem run {t : Txt C} {f : Sink} (h : Outlet C nl ls k t f) (hC : LawfulEncoder C) (guess : Nat × Nat → Nat → Nat) {ops : List Op}
    (hops : ∀ op ∈ ops, SinkCall k op) :
    ∃ f', SinkConforms C (outgoing ls nl) k f (ops.zip (Txt.run guess t ops).1) f' ∧ Outlet C nl ls k (Txt.run guess t ops).2 f' := by
  induction ops generalizing t f with
  | nil => exact ⟨f, .nil f, h⟩
  | cons op ops ih =>
    obtain ⟨f1, h1, h2⟩ := h.step hC guess (hops op (by simp))
    obtain ⟨f2, h3, h4⟩ := ih h2 fun o ho => hops o (List.mem_cons_of_mem _ ho)
    exact ⟨f2, .cons h1 h3, h4⟩

/-- A stream before its first call. -/
theorem create {b : Buf} {f : Sink} (h : Buf.R b ⟨f.data, f.pos, false, f.log⟩) (hk : b.kind = k) (hr : k ≠ .reader) (lb : Bool)
    {t : Txt C} (ht : Txt.create nl lb ls b = (.ok (), t)) : Outlet C nl ls k t f := by
  have hl := h.live
  unfold Txt.create at ht
  rw [if_neg (by rw [hl.opened]; simp)] at ht
  unfold configure at ht
  dsimp only at ht
  rw [if_pos hl.seekable] at ht
  have hw : ∀ t0 : Txt C, t0.buf = b → Txt.writable t0 = (.ok true, t0) := by
    intro t0 h0
    unfold Txt.writable
    rw [h0]
    split
    · rename_i hq; exact absurd (hk.symm.trans hq) hr
    · rw [if_neg (by rw [hl.opened]; simp), hl.writable (by rw [hk]; exact hr)]
  rw [PyM.bind_ok (hw _ rfl)] at ht
  simp only [if_true] at ht
  rw [PyM.bind_ok (onBuf_eq (Buf.tell_R h))] at ht
  dsimp only at ht
  by_cases hp : f.pos = 0
  · simp only [hp, ne_eq, not_true_eq_false, decide_false] at ht
    have : PyM.when false (setEncoder true) (⟨b, nl, lb, ls, b.raw.seekable, b.raw.seekable, none, none, [], 0, none, (0, 0)⟩ : Txt C) =
      (.ok (), ⟨b, nl, lb, ls, b.raw.seekable, b.raw.seekable, none, none, [], 0, none, (0, 0)⟩) := rfl
    rw [this] at ht
    cases ht
    exact ⟨h, hk, hr, rfl, rfl, hl.seekable, hl.seekable, rfl, .inl rfl, by rw [hp]; rfl⟩
  · simp only [hp, ne_eq, not_false_eq_true, decide_true] at ht
    have : PyM.when true (setEncoder true) (⟨b, nl, lb, ls, b.raw.seekable, b.raw.seekable, none, none, [], 0, none, (0, 0)⟩ : Txt C) =
      (.ok (), ⟨b, nl, lb, ls, b.raw.seekable, b.raw.seekable, some C.encMid, none, [], 0, none, (0, 0)⟩) := rfl
    rw [this] at ht
    cases ht
    exact ⟨h, hk, hr, rfl, rfl, hl.seekable, hl.seekable, rfl, .inl rfl, by rw [if_neg hp]; rfl⟩

end Outlet

end Verif.Txt
