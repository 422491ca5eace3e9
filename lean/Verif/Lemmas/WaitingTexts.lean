import Verif.Lemmas.PortedAppendTexts

/-!
# A text stream that waits for the lock needs no transfer
-/

set_option autoImplicit false

namespace Verif

open Verif.Spec
open Verif.Txt (Op Out)

variable {C : Codec}

namespace Buf

/-- A stream without buffered bytes, over an open file. -/
structure Vacant (b : Buf) : Prop where
  opened : b.raw.closed = false
  seekable : b.raw.seekable = true
  kind : b.kind ≠ .reader
  unread : b.readBuf = []
  unwritten : b.writeBuf = []

/-- A movement to a position that exists. -/
theorem Vacant.seek {b : Buf} (h : Vacant b) (o : Int) (w : Whence)
    (hp : 0 ≤ (match w with | .set => o | .cur => (b.raw.pos : Int) + o | .fin => (b.raw.data.length : Int) + o)) :
    ∃ p b', Buf.seek o w b = (.ok p, b') ∧ Vacant b' := by
  have hraw : ∃ p, Raw.seek o w b.raw = (.ok p, { b.raw with pos := p }) := by
    unfold Raw.seek
    rw [PyM.bind_ok (show Raw.checkClosed b.raw = (.ok (), b.raw) by simp [Raw.checkClosed, h.opened])]
    unfold Raw.innerSeek
    rw [if_pos h.seekable]
    cases w <;> dsimp only at hp ⊢ <;> rw [if_pos hp] <;> exact ⟨_, rfl⟩
  obtain ⟨p, hraw⟩ := hraw
  have hs : Vacant { b with raw := { b.raw with pos := p } } := ⟨h.opened, h.seekable, h.kind, h.unread, h.unwritten⟩
  unfold Buf.seek
  split
  · rename_i hk; exact absurd hk h.kind
  · unfold writerSeek
    rw [PyM.bind_ok (flushUnlocked_idle h.opened h.unwritten)]
    exact ⟨p, _, onRaw_eq hraw, hs⟩
  · unfold randomSeek
    rw [PyM.bind_ok (flush_idle h.kind h.opened h.unwritten), PyM.bind_ok (show seekBack b = (.ok (), b) by simp [seekBack, h.unread]),
      PyM.bind_ok (onRaw_eq hraw)]
    exact ⟨p, { b with raw := { b.raw with pos := p }, readBuf := [], readPos := 0 }, rfl,
      ⟨h.opened, h.seekable, h.kind, rfl, h.unwritten⟩⟩

theorem Vacant.resetBuffers {b : Buf} (h : Vacant b) : ∃ b', Buf.resetBuffers b = (.ok (), b') := by
  obtain ⟨p, b', h1, _⟩ := h.seek 0 .cur (by simp)
  unfold Buf.resetBuffers
  rw [PyM.bind_ok h1]
  exact ⟨_, rfl⟩

theorem Vacant.tell {b : Buf} (h : Vacant b) : ∃ p, Buf.tell b = (.ok p, b) := by
  unfold Buf.tell
  rw [PyM.bind_ok (onRaw_eq (Raw.tell_ok h.opened h.seekable))]
  exact ⟨_, rfl⟩

end Buf

namespace Txt

/-- A stream without buffered bytes and characters, over an open file. -/
structure Vacant (t : Txt C) : Prop where
  buf : t.buf.Vacant
  seekable : t.seekable = true
  telling : t.telling = true
  chars : t.chars = []
  snapshot : t.snapshot = none ∨ (t.snapshot = some (0, []) ∧ t.used = 0)

theorem Vacant.flush {t : Txt C} (h : Vacant t) : Txt.flush t = (.ok (), t) := by
  unfold Txt.flush
  rw [PyM.bind_ok (onBuf_eq (Buf.flush_idle h.buf.kind h.buf.opened h.buf.unwritten))]
  obtain ⟨_, h1, h2, _, _⟩ := h
  cases t
  dsimp only at h1 h2
  subst h1 h2
  rfl

theorem Vacant.locate {t : Txt C} (h : Vacant t) (guess : Nat × Nat → Nat → Nat) (p : Nat) : locate guess p t = .ok (offset p) := by
  unfold Txt.locate
  rcases h.snapshot with h' | ⟨h', h''⟩
  · rw [h']
    cases t.decoder <;> simp [h.chars, offset]
  · rw [h']
    cases t.decoder <;> simp [h.chars, h'', offset]

theorem Vacant.tell {t : Txt C} (h : Vacant t) (guess : Nat × Nat → Nat → Nat) : ∃ p, Txt.tell guess t = (.ok (offset p), t) := by
  obtain ⟨p, hp⟩ := h.buf.tell
  refine ⟨p, ?_⟩
  unfold Txt.tell
  rw [h.seekable, h.telling]
  simp only [Bool.not_true, Bool.false_eq_true, if_false]
  rw [PyM.bind_ok h.flush, PyM.bind_ok (onBuf_eq hp), h.locate guess p]

theorem Vacant.seekTo {t : Txt C} (h : Vacant t) (p : Nat) : ∃ c t', Txt.seekTo (offset p) t = (.ok c, t') ∧ t'.buf.Vacant := by
  obtain ⟨q, b', h1, h2⟩ := h.buf.seek (p : Int) .set (by simp)
  unfold Txt.seekTo
  rw [PyM.bind_ok h.flush]
  change ∃ c t', (onBuf (Buf.seek (p : Int) .set) >>= _) t = _ ∧ _
  rw [PyM.bind_ok (onBuf_eq h1), PyM.bind_ok (show PyM.modify _ _ = (.ok (), _) from rfl)]
  have hr : ∀ t2 : Txt C, ∃ t3, restoreDecoder (offset p) t2 = (.ok (), t3) ∧ t3.buf = t2.buf := by
    intro t2
    unfold restoreDecoder
    split
    · exact ⟨_, rfl, rfl⟩
    · split <;> exact ⟨_, rfl, rfl⟩
  obtain ⟨t3, g0, g1⟩ := hr { t with buf := b', chars := [], used := 0, snapshot := none }
  rw [PyM.bind_ok g0,
    PyM.bind_ok (show PyM.when (decide ((offset p).skip ≠ 0)) (skipChars (offset p)) _ = (.ok (), _) from rfl),
    PyM.bind_ok (show resetEncoder (offset p).isZero _ = (.ok (), _) from rfl)]
  refine ⟨_, _, rfl, ?_⟩
  show t3.buf.Vacant
  rw [g1]; exact h2

/-- Preparing for the lock succeeds, whatever the system answers. -/
theorem Vacant.prepare {t : Txt C} (h : Vacant t) (guess : Nat × Nat → Nat → Nat) : (TextTogether.prepare guess t).1 = .ok () := by
  obtain ⟨p, h1⟩ := h.tell guess
  obtain ⟨c, t', h2, h3⟩ := h.seekTo p
  obtain ⟨b', h4⟩ := h3.resetBuffers
  have hs : Txt.seek guess .here t = (.ok c, t') := by
    unfold Txt.seek
    rw [PyM.bind_ok (show Txt.checkClosed t = (.ok (), t) from onBuf_eq (Buf.checkClosed_ok h.buf.opened)), h.seekable]
    simp only [Bool.not_true, Bool.false_eq_true, if_false]
    rw [PyM.bind_ok h1]
    exact h2
  unfold TextTogether.prepare Txt.resetBuffers
  rw [PyM.bind_ok (show ((do let _ ← Txt.seek guess .here; pure ()) : PyM (Txt C) Unit) t = (.ok (), t') by
      rw [PyM.bind_ok hs]; rfl), onBuf_eq h4]

end Txt

/-- A parked stream on windows, when transfers are refused. -/
theorem Txt.Parked.vacant {nl : Newline} {ls : Text} {k : BufKind} {t : Txt C} {p : Nat} (h : Txt.Parked C nl ls k t.ported p) :
    (refused t).Vacant := by
  obtain ⟨log, ho⟩ := h.outlet
  exact ⟨⟨ho.buf.live.opened, ho.buf.live.seekable, h.rest.2, ho.buf.ahead rfl, h.rest.1.2⟩, ho.seekable, ho.telling, ho.chars, ho.snapshot⟩

end Verif
