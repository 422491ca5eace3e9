import Verif.Lemmas.WaitingTexts
import Verif.Props.TextTogether

/-!
# Text streams that are left empty
-/

set_option autoImplicit false

namespace Verif

open Verif.Spec
open Verif.Txt (Op Out)
open Verif.Props (bind_inv)

variable {C : Codec} {nl : Newline} {ls : Text}

namespace Txt

/-- No characters wait to be read. -/
structure Bare (t : Txt C) : Prop where
  telling : t.telling = true
  chars : t.chars = []
  snapshot : t.snapshot = none ∨ (t.snapshot = some (0, []) ∧ t.used = 0)

theorem Bare.locate {t : Txt C} (h : Bare t) (guess : Nat × Nat → Nat → Nat) (p : Nat) : locate guess p t = .ok (offset p) := by
  unfold Txt.locate
  rcases h.snapshot with h' | ⟨h', h''⟩
  · rw [h']
    cases t.decoder <;> simp [h.chars, offset]
  · rw [h']
    cases t.decoder <;> simp [h.chars, h'', offset]

/-- `unlock_file` leaves such a stream without buffered bytes and characters. -/
theorem Bare.unlock {t : Txt C} {f : File} (hb : Bare t) (h : Ready nl ls .random t f) (guess : Nat × Nat → Nat → Nat) :
    ∃ t', Txt.step guess t .unlock = (.done, t') ∧ t'.Vacant := by
  obtain ⟨b', h1, h2, _, h3, _⟩ := Buf.flush_R h.buf
  have hf : Txt.flush t = (.ok (), { t with buf := b', telling := t.seekable }) := by
    unfold Txt.flush
    rw [PyM.bind_ok (onBuf_eq h1)]
    rfl
  have hR : Ready nl ls .random { t with buf := b', telling := t.seekable } f :=
    ⟨h2, h3.trans h.kind, h.notReader, h.newline, h.linesep, h.seekable⟩
  have hbare : Bare { t with buf := b', telling := t.seekable } := ⟨h.seekable, hb.chars, hb.snapshot⟩
  have htell : Txt.tell guess t = (.ok (offset f.pos), { t with buf := b', telling := t.seekable }) := by
    unfold Txt.tell
    rw [h.seekable, hb.telling]
    simp only [Bool.not_true, Bool.false_eq_true, if_false]
    rw [← h.seekable, PyM.bind_ok hf, PyM.bind_ok (onBuf_eq (Buf.tell_R h2)), ← hbare.locate guess f.pos]
  obtain ⟨t2, e1, e2, e3⟩ := Outlet.seekTo' hR f.pos
  have hs : Txt.seek guess .here t = (.ok (offset f.pos), t2) := by
    unfold Txt.seek
    rw [PyM.bind_ok h.checkClosed, h.seekable]
    simp only [Bool.not_true, Bool.false_eq_true, if_false]
    rw [PyM.bind_ok htell]
    exact e1
  obtain ⟨b3, g1, g2, g3, g4, g5⟩ := Buf.resetBuffers_R e2.buf
  have hu : Raw.unlockFile b3.raw = (.ok (), { b3.raw with events := b3.raw.events ++ [.unlock b3.raw.data] }) := by
    unfold Raw.unlockFile
    rw [PyM.bind_ok (show Raw.checkSeekable b3.raw = (.ok (), b3.raw) by
      simp [Raw.checkSeekable, g2.live.seekable, g2.live.opened])]
    rfl
  have hb3 : Buf.unlockFile t2.buf = (.ok (), { b3 with raw := { b3.raw with events := b3.raw.events ++ [.unlock b3.raw.data] } }) := by
    unfold Buf.unlockFile
    rw [PyM.bind_ok g1]
    exact Buf.onRaw_eq hu
  have hun : Txt.unlockFile guess t = (.ok (), { t2 with buf := { b3 with raw := { b3.raw with events := b3.raw.events ++ [.unlock b3.raw.data] } } }) := by
    unfold Txt.unlockFile Txt.resetBuffers
    rw [PyM.bind_ok (show ((do let _ ← Txt.seek guess .here; pure ()) : PyM (Txt C) Unit) t = (.ok (), t2) by
      rw [PyM.bind_ok hs]; rfl)]
    exact onBuf_eq hb3
  refine ⟨{ t2 with buf := { b3 with raw := { b3.raw with events := b3.raw.events ++ [.unlock b3.raw.data] } } },
    by simp only [Txt.step, hun]; rfl, ⟨⟨g2.live.opened, g2.live.seekable, ?_, g4, g3⟩, e2.seekable, e2.telling, e2.chars,
    e2.snapshot⟩⟩
  show b3.kind ≠ .reader
  rw [g5, e2.kind]
  simp

/-- `read()` leaves no characters. -/
theorem read_bare {t t' : Txt C} {s : Text} (h : Txt.read none t = (.ok s, t')) (hc : t.chars = []) :
    t'.chars = [] ∧ t'.snapshot = none ∧ t'.telling = t.telling := by
  unfold Txt.read at h
  obtain ⟨_, t1, h1, h⟩ := bind_inv h
  obtain ⟨_, t2, h2, h⟩ := bind_inv h
  cases h2
  dsimp only at h
  unfold readAll at h
  obtain ⟨_, t3, h3, h⟩ := bind_inv h
  cases h3
  obtain ⟨_, t4, h4, h⟩ := bind_inv h
  obtain ⟨_, t5, h5, h⟩ := bind_inv h
  obtain ⟨_, t6, h6, h⟩ := bind_inv h
  cases h
  cases h6
  have k1 : t1.chars = t.chars ∧ t1.telling = t.telling := by
    unfold checkReadable at h1
    obtain ⟨r, t0, h0, h1'⟩ := bind_inv h1
    clear h1
    have : t0 = t := by
      unfold Txt.readable at h0
      repeat' split at h0
      all_goals first | (cases h0; rfl) | cases congrArg Prod.fst h0
    subst this
    split at h1'
    · cases h1'; exact ⟨rfl, rfl⟩
    · cases h1'
  have k4 : t4.chars = t1.chars ∧ t4.telling = t1.telling := by
    unfold onBuf at h4
    generalize Buf.read _ _ = q at h4
    obtain ⟨q, b⟩ := q
    cases h4
    exact ⟨rfl, rfl⟩
  have k5 : t5.chars = t4.chars ∧ t5.telling = t4.telling := by
    unfold decode at h5
    repeat' split at h5
    all_goals first | (cases h5; exact ⟨rfl, rfl⟩) | (cases h5; done) | skip
  have hc5 : t5.chars = [] := by rw [k5.1, k4.1, k1.1, hc]
  have ht5 : t5.telling = t.telling := by rw [k5.2, k4.2, k1.2]
  cases hq : t5.snapshot with
  | none => simp [hq, hc5, ht5]
  | some x => simp [hq, ht5]

/-- Preparing for the lock leaves the stream empty. -/
theorem Vacant.prepared {t : Txt C} (h : Vacant t) (guess : Nat × Nat → Nat → Nat) :
    ∃ t', TextTogether.prepare guess t = (.ok (), t') ∧ t'.Vacant := by
  obtain ⟨p, h1⟩ := h.tell guess
  have hsk : ∃ t', Txt.seekTo (offset p) t = (.ok (offset p), t') ∧ t'.Vacant := by
    obtain ⟨q, b', h1, h2⟩ := h.buf.seek (p : Int) .set (by simp)
    unfold Txt.seekTo
    rw [PyM.bind_ok h.flush]
    change ∃ t', (onBuf (Buf.seek (p : Int) .set) >>= _) t = _ ∧ _
    rw [PyM.bind_ok (onBuf_eq h1), PyM.bind_ok (show PyM.modify _ _ = (.ok (), _) from rfl)]
    have hr : ∀ t2 : Txt C, t2.chars = [] → t2.snapshot = none → t2.used = 0 → ∃ t3, restoreDecoder (offset p) t2 = (.ok (), t3) ∧
        t3.buf = t2.buf ∧ t3.seekable = t2.seekable ∧ t3.telling = t2.telling ∧ t3.chars = [] ∧
        (t3.snapshot = none ∨ (t3.snapshot = some (0, []) ∧ t3.used = 0)) := by
      intro t2 hc hs hu
      unfold restoreDecoder
      split
      · exact ⟨_, rfl, rfl, rfl, rfl, hc, .inl hs⟩
      · split
        · exact ⟨_, rfl, rfl, rfl, rfl, hc, .inr ⟨rfl, hu⟩⟩
        · exact ⟨_, rfl, rfl, rfl, rfl, hc, .inl hs⟩
    obtain ⟨t3, g0, g1, g2, g3, g4, g5⟩ := hr { t with buf := b', chars := [], used := 0, snapshot := none } rfl rfl rfl
    rw [PyM.bind_ok g0,
      PyM.bind_ok (show PyM.when (decide ((offset p).skip ≠ 0)) (skipChars (offset p)) _ = (.ok (), _) from rfl),
      PyM.bind_ok (show resetEncoder (offset p).isZero _ = (.ok (), _) from rfl)]
    refine ⟨_, rfl, ⟨?_, g2.trans h.seekable, g3.trans h.telling, g4, g5⟩⟩
    show t3.buf.Vacant
    rw [g1]; exact h2
  obtain ⟨t', h2, h3⟩ := hsk
  have hb : ∃ b', Buf.resetBuffers t'.buf = (.ok (), b') ∧ b'.Vacant := by
    obtain ⟨p, b', h1, h2⟩ := h3.buf.seek 0 .cur (by simp)
    unfold Buf.resetBuffers
    rw [PyM.bind_ok h1]
    exact ⟨_, rfl, h2⟩
  obtain ⟨b', h4, h5⟩ := hb
  have hs : Txt.seek guess .here t = (.ok (offset p), t') := by
    unfold Txt.seek
    rw [PyM.bind_ok (show Txt.checkClosed t = (.ok (), t) from onBuf_eq (Buf.checkClosed_ok h.buf.opened)), h.seekable]
    simp only [Bool.not_true, Bool.false_eq_true, if_false]
    rw [PyM.bind_ok h1]
    exact h2
  refine ⟨{ t' with buf := b' }, ?_, ⟨h5, h3.seekable, h3.telling, h3.chars, h3.snapshot⟩⟩
  unfold TextTogether.prepare Txt.resetBuffers
  rw [PyM.bind_ok (show ((do let _ ← Txt.seek guess .here; pure ()) : PyM (Txt C) Unit) t = (.ok (), t') by
      rw [PyM.bind_ok hs]; rfl), onBuf_eq h4]

theorem Vacant.load {t : Txt C} (h : Vacant t) (d : Bytes) : (TextTogether.load t d).Vacant :=
  ⟨⟨h.buf.opened, h.buf.seekable, h.buf.kind, h.buf.unread, h.buf.unwritten⟩, h.seekable, h.telling, h.chars, h.snapshot⟩

theorem Vacant.refused {t : Txt C} (h : Vacant t) : (Spec.refused t).Vacant :=
  ⟨⟨h.buf.opened, h.buf.seekable, h.buf.kind, h.buf.unread, h.buf.unwritten⟩, h.seekable, h.telling, h.chars, h.snapshot⟩

theorem Vacant.of_ported {t : Txt C} (h : t.ported.Vacant) : t.Vacant :=
  ⟨⟨h.buf.opened, h.buf.seekable, h.buf.kind, h.buf.unread, h.buf.unwritten⟩, h.seekable, h.telling, h.chars, h.snapshot⟩

theorem Vacant.granted {t : Txt C} (h : Vacant t) (d : Bytes) :
    (onBuf (Buf.onRaw (Raw.lockFile d)) t).2.Vacant := by
  have hu : Raw.lockFile d t.buf.raw = (.ok (), { t.buf.raw with
      data := d, events := t.buf.raw.events ++ [.lock d], disk := t.buf.raw.disk ++ [.content d] }) := by
    unfold Raw.lockFile
    rw [PyM.bind_ok (show Raw.checkSeekable t.buf.raw = (.ok (), t.buf.raw) by
      simp [Raw.checkSeekable, h.buf.seekable, h.buf.opened])]
    rfl
  rw [onBuf_eq (Buf.onRaw_eq hu)]
  exact ⟨⟨h.buf.opened, h.buf.seekable, h.buf.kind, h.buf.unread, h.buf.unwritten⟩, h.seekable, h.telling, h.chars, h.snapshot⟩

/-- A stream that has just been opened. -/
theorem Vacant.created {b : Buf} (h : b.Vacant) (lb : Bool) {t : Txt C} (ht : Txt.create nl lb ls b = (.ok (), t)) : t.Vacant := by
  unfold Txt.create at ht
  rw [if_neg (by rw [h.opened]; simp)] at ht
  unfold configure at ht
  dsimp only at ht
  rw [if_pos h.seekable] at ht
  obtain ⟨r, t1, h1, ht⟩ := bind_inv ht
  have e1 : t1 = ⟨b, nl, lb, ls, b.raw.seekable, b.raw.seekable, none, none, [], 0, none, (0, 0)⟩ := by
    unfold Txt.writable at h1
    repeat' split at h1
    all_goals first | (cases h1; rfl) | cases congrArg Prod.fst h1
  subst e1
  split at ht
  · obtain ⟨p, hp⟩ := h.tell
    rw [PyM.bind_ok (onBuf_eq hp)] at ht
    unfold PyM.when at ht
    split at ht
    · cases ht; exact ⟨h, h.seekable, h.seekable, rfl, .inl rfl⟩
    · cases ht; exact ⟨h, h.seekable, h.seekable, rfl, .inl rfl⟩
  · cases ht; exact ⟨h, h.seekable, h.seekable, rfl, .inl rfl⟩

end Txt

end Verif
