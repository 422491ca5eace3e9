import Verif.Spec.AppendTexts
import Verif.Lemmas.TextTogether

/-!
# Invariants of text streams in append mode that take turns
-/

set_option autoImplicit false

namespace Verif

open Verif.Spec Verif.TextTogether

variable {C : Codec} {nl : Newline} {ls : Text} {k : BufKind}

namespace Txt

/-- The stream at offset `p`, with nothing to write. -/
structure Parked (C : Codec) (nl : Newline) (ls : Text) (k : BufKind) (t : Txt C) (p : Nat) : Prop where
  rest : t.Resting
  outlet : ∃ log, Outlet C nl ls k t.plain ⟨t.buf.raw.data, p, log⟩

namespace Parked

theorem of {t : Txt C} {f : Sink} (hr : t.Resting) (h : Outlet C nl ls k t.plain f) :
    Parked C nl ls k t f.pos ∧ t.buf.raw.data = f.data := by
  have hd : t.buf.raw.data = f.data := h.buf.data' hr.1.2
  refine ⟨⟨hr, f.log, ?_⟩, hd⟩
  rw [hd]; exact h

theorem logbook {t : Txt C} {p : Nat} (h : Parked C nl ls k t p) : ∃ log, Logbook C nl ls k t ⟨t.buf.raw.data, p, log⟩ := by
  obtain ⟨log, ho⟩ := h.outlet
  exact ⟨log, .of_plain h.rest ho⟩

/-- The file is replaced. -/
theorem load {t : Txt C} {p : Nat} (h : Parked C nl ls k t p) (d : Bytes) : Parked C nl ls k (TextTogether.load t d) p := by
  obtain ⟨log, ho⟩ := h.outlet
  have hl := ho.buf.live
  have hrd : t.buf.readBuf = [] := ho.buf.ahead rfl
  have hw : t.buf.writeBuf = [] := h.rest.1.2
  refine ⟨h.rest, log, ⟨⟨⟨hl.1, hl.2, hl.3, hl.4, hl.5, hl.6, hl.7, hl.8⟩, ho.buf.inside, ?_, ho.buf.excl, ho.buf.reader,
    ho.buf.writer, ?_, ho.buf.pos, ho.buf.ahead, ho.buf.log⟩, ho.kind, ho.notReader, ho.newline, ho.linesep, ho.seekable, ho.telling,
    ho.chars, ho.snapshot, ho.encoder⟩⟩
  · show t.buf.readBuf.drop t.buf.readPos = List.take (t.buf.readBuf.length - t.buf.readPos) _
    rw [hrd]; simp
  · show d = writeAt (fun _ => 0) d t.buf.raw.pos t.buf.writeBuf
    rw [hw, writeAt_nil]

/-- Both layers reset their buffers. -/
theorem prepare {t : Txt C} {p : Nat} (h : Parked C nl ls k t p) (guess : Nat × Nat → Nat → Nat) :
    ∃ t', TextTogether.prepare guess t = (.ok (), t') ∧ Parked C nl ls k t' p ∧ t'.buf.raw.data = t.buf.raw.data := by
  obtain ⟨log, ho⟩ := h.outlet
  have hb : Blind (C := C) (TextTogether.prepare guess) :=
    (resetBuffers_flag guess).bind fun _ => onBuf_flag ((Buf.seek_rest 0 .cur).bind fun _ => Ports.pure _)
  obtain ⟨e1, e2⟩ := hb t h.rest
  obtain ⟨t1, h1, h2⟩ := ho.seekHere guess
  obtain ⟨b', h3, h4, _, _, h5⟩ := Buf.resetBuffers_R h2.buf
  have hp : TextTogether.prepare guess t.plain = (.ok (), { t1 with buf := b' }) := by
    unfold TextTogether.prepare resetBuffers
    rw [PyM.bind_ok (show ((do let _ ← Txt.seek guess .here; pure ()) : PyM (Txt C) Unit) t.plain = (.ok (), t1) by
      rw [PyM.bind_ok h1]; rfl)]
    exact onBuf_eq h3
  rw [hp] at e1
  obtain ⟨e3, e4⟩ := Prod.mk.inj e1
  have h6 := h2.withBuf h4 h5
  rw [e4] at h6
  obtain ⟨g1, g2⟩ := of e2 h6
  exact ⟨_, Prod.ext e3.symm rfl, g1, g2⟩

/-- The lock is granted. -/
theorem granted {t : Txt C} {p : Nat} (h : Parked C nl ls k t p) :
    ∃ t', onBuf (Buf.onRaw (Raw.lockFile t.buf.raw.data)) t = (.ok (), t') ∧ Parked C nl ls k t' p ∧
      t'.buf.raw.data = t.buf.raw.data := by
  obtain ⟨log, ho⟩ := h.outlet
  have hl := ho.buf.live
  have hlock : Raw.lockFile t.buf.raw.data t.buf.raw = (.ok (), { t.buf.raw with
      data := t.buf.raw.data
      events := t.buf.raw.events ++ [.lock t.buf.raw.data]
      disk := t.buf.raw.disk ++ [.content t.buf.raw.data] }) := by
    unfold Raw.lockFile
    rw [PyM.bind_ok (Raw.checkSeekable_ok (show t.buf.raw.closed = false from hl.opened) hl.seekable)]; rfl
  refine ⟨_, onBuf_eq (Buf.onRaw_eq hlock), ⟨h.rest, log ++ [.lock t.buf.raw.data], ⟨⟨⟨hl.1, hl.2, hl.3, hl.4, hl.5, hl.6, hl.7, hl.8⟩,
    ho.buf.inside, ho.buf.unread, ho.buf.excl, ho.buf.reader, ho.buf.writer, ho.buf.data, ho.buf.pos, ho.buf.ahead, ?_⟩, ho.kind,
    ho.notReader, ho.newline, ho.linesep, ho.seekable, ho.telling, ho.chars, ho.snapshot, ho.encoder⟩⟩, rfl⟩
  show log ++ _ = t.buf.raw.events ++ _
  rw [show t.buf.raw.events = log from ho.buf.log.symm]

/-- The lock is released by the raw stream. -/
theorem exit {t : Txt C} {p : Nat} (h : Parked C nl ls k t p) :
    ∃ t', onBuf Buf.exitLock t = (.ok (), t') ∧ Parked C nl ls k t' p ∧ t'.buf.raw.data = t.buf.raw.data := by
  obtain ⟨log, ho⟩ := h.outlet
  have hl := ho.buf.live
  have hunlock : Raw.unlockFile t.buf.raw = (.ok (), { t.buf.raw with events := t.buf.raw.events ++ [.unlock t.buf.raw.data] }) := by
    unfold Raw.unlockFile
    rw [PyM.bind_ok (Raw.checkSeekable_ok (show t.buf.raw.closed = false from hl.opened) hl.seekable)]; rfl
  refine ⟨_, onBuf_eq (Buf.onRaw_eq hunlock), ⟨h.rest, log ++ [.unlock t.buf.raw.data], ⟨⟨⟨hl.1, hl.2, hl.3, hl.4, hl.5, hl.6, hl.7,
    hl.8⟩, ho.buf.inside, ho.buf.unread, ho.buf.excl, ho.buf.reader, ho.buf.writer, ho.buf.data, ho.buf.pos, ho.buf.ahead, ?_⟩, ho.kind,
    ho.notReader, ho.newline, ho.linesep, ho.seekable, ho.telling, ho.chars, ho.snapshot, ho.encoder⟩⟩, rfl⟩
  show log ++ _ = t.buf.raw.events ++ _
  rw [show t.buf.raw.events = log from ho.buf.log.symm]

end Parked

namespace Logbook

/-- A stream with nothing to write. -/
theorem parked {t : Txt C} {f : Sink} (h : Logbook C nl ls k t f) (hw : t.buf.writeBuf = []) :
    Parked C nl ls k t f.pos ∧ t.buf.raw.data = f.data := by
  obtain ⟨late, hb⟩ := h.buf
  have hr := hb.rel
  rw [Buf.placed_idle hw] at hr
  exact Parked.of ⟨⟨⟨hr.live.unix, hb.append⟩, hw⟩, hb.kind⟩
    ⟨hr, h.kind, h.notReader, h.newline, h.linesep, h.seekable, h.telling, h.chars, h.snapshot, h.encoder⟩

/-- `unlock_file` stores what was written. -/
theorem unlock {t : Txt C} {f : Sink} (h : Logbook C nl ls k t f) (hC : LawfulEncoder C) (guess : Nat × Nat → Nat → Nat) :
    ∃ t', Txt.step guess t .unlock = (.done, t') ∧ Parked C nl ls k t' f.pos ∧ t'.buf.raw.data = f.data := by
  obtain ⟨t', h1, h2, h3, h4⟩ := h.flush
  have hc : Txt.checkClosed t' = (.ok (), t') := onBuf_eq (Buf.checkClosed_ok h4.buf.live.opened)
  have h5 : t'.seekable = true := h4.seekable
  have h6 : t'.telling = true := h4.telling
  have htell : Txt.tell guess t = Txt.tell guess t' := by
    unfold Txt.tell
    rw [h.seekable, h.telling, h5, h6]
    simp only [Bool.not_true, Bool.false_eq_true, if_false]
    rw [PyM.bind_ok h1, PyM.bind_ok h2]
  have hseek : Txt.seek guess .here t = Txt.seek guess .here t' := by
    unfold Txt.seek
    rw [PyM.bind_ok h.checkClosed, PyM.bind_ok hc, h.seekable, h5]
    simp only [Bool.not_true, Bool.false_eq_true, if_false]
    rw [PyM.bind_apply, PyM.bind_apply, htell]
  have hun : Txt.unlockFile guess t = Txt.unlockFile guess t' := by
    unfold Txt.unlockFile Txt.resetBuffers
    rw [PyM.bind_apply, PyM.bind_apply, PyM.bind_apply, PyM.bind_apply, hseek]
  have hst : Txt.step guess t .unlock = Txt.step guess t' .unlock := by simp only [Txt.step, hun]
  rw [hst]
  obtain ⟨e1, e2⟩ := step_flag guess h3 (op := .unlock) nofun nofun
  obtain ⟨f', g1, g2⟩ := h4.step hC guess (op := .unlock) trivial
  rw [e1] at g1 g2
  obtain ⟨g3, rfl⟩ := g1
  obtain ⟨k1, k2⟩ := Parked.of e2 g2
  exact ⟨_, Prod.ext g3 rfl, k1, k2⟩

/-- `close` stores what was written. -/
theorem close {t : Txt C} {f : Sink} (h : Logbook C nl ls k t f) (guess : Nat × Nat → Nat → Nat) :
    ∃ t', Txt.step guess t .close = (.done, t') ∧ t'.buf.raw.data = f.data := by
  obtain ⟨t', h1, h2, h3, h4⟩ := h.flush
  have hd : t'.buf.raw.data = f.data := h4.buf.data' h3.1.2
  have ho : t'.buf.raw.closed = false := h4.buf.live.opened
  have hf : Buf.flush t'.buf = (.ok (), t'.buf) := Buf.flush_idle h3.2 ho h3.1.2
  have hc : Buf.close t'.buf = (.ok (), { t'.buf with raw := { t'.buf.raw with
      closed := true, events := t'.buf.raw.events ++ [.close t'.buf.raw.data] } }) := by
    unfold Buf.close
    rw [if_neg (by simp [ho]), PyM.tryFinally_apply, hf]
    simp [Buf.onRaw, Raw.close, ho]
  have key : Txt.close t = (.ok (), { t' with buf := { t'.buf with raw := { t'.buf.raw with
      closed := true, events := t'.buf.raw.events ++ [.close t'.buf.raw.data] } } }) := by
    unfold Txt.close
    rw [if_neg (by simp [h.opened]), PyM.tryFinally_apply, h1]
    simp [onBuf, hc]
  refine ⟨{ t' with buf := { t'.buf with raw := { t'.buf.raw with
      closed := true, events := t'.buf.raw.events ++ [.close t'.buf.raw.data] } } }, ?_, hd⟩
  simp only [Txt.step, key]; rfl

/-- `flush` leaves nothing to write. -/
theorem flushed {t : Txt C} {f : Sink} (h : Logbook C nl ls k t f) (guess : Nat × Nat → Nat → Nat) :
    (Txt.step guess t .flush).2.buf.writeBuf = [] := by
  obtain ⟨t', h1, _, h3, _⟩ := h.flush
  simp only [Txt.step, h1]
  exact h3.1.2

/-- A stream before its first call has nothing to write. -/
theorem _root_.Verif.Props.TextLogOpened.clean {raw : Raw} {t : Txt C} (h : Props.TextLogOpened C nl ls k raw t) :
    t.buf.writeBuf = [] ∧ t.buf.raw.pos = raw.pos := by
  have hlog := h.logbook
  obtain ⟨n, b, lb, h1, h2⟩ := h.built
  obtain ⟨rfl, _⟩ := Props.create_ok h1.created
  have hr : (⟨k, n.toNat, raw, [], 0, []⟩ : Buf).Resting := ⟨⟨⟨h1.unix, h1.append⟩, rfl⟩, h1.writes⟩
  have key : (Txt.create (C := C) nl lb ls ⟨k, n.toNat, raw, [], 0, []⟩).2.Resting := by
    unfold Txt.create
    split
    · exact hr
    · exact (configure_flag (C := C) ⟨⟨k, n.toNat, raw, [], 0, []⟩, nl, lb, ls, raw.seekable, raw.seekable, none, none, [], 0, none, (0, 0)⟩ hr).2
  rw [h2] at key
  refine ⟨key.1.2, ?_⟩
  obtain ⟨log, ho⟩ := (hlog.parked key.1.2).1.outlet
  have hp := ho.buf.pos
  have hrd : t.plain.buf.readBuf = [] := ho.buf.ahead rfl
  have hw : t.plain.buf.writeBuf = [] := key.1.2
  have hx : t.plain.buf.extra = 0 := by simp [Buf.extra, hrd]
  rw [hx, hw] at hp
  exact hp.symm

end Logbook

end Txt

namespace TextTogether

open Verif.Txt

/-! ## The desks -/

/-- What is true of all streams after a history. -/
structure Desks (tr : TextTrace C) (w : TextTogether C) (s : TextPool) : Prop where
  named : ∀ i t, w.txts i = some t → ∃ x ∈ tr, TextItem.stream x.1 = some i
  absent : ∀ i, w.txts i = none → s.pens i = none
  /-- at most one stream holds the lock, and it is open -/
  solo : (lockers tr = [] ∧ w.file = s.data) ∨ ∃ i t, lockers tr = [i] ∧ w.txts i = some t ∧ t.buf.raw.data = w.file
  /-- a stream with the lock, and the others -/
  pens : ∀ i t, w.txts i = some t → ∃ v nl ls, s.pens i = some v ∧ v.ends = Props.outgoing ls nl ∧
    (i ∉ lockers tr → Parked C nl ls v.kind t v.pos) ∧ (i ∈ lockers tr → ∃ log, Logbook C nl ls v.kind t ⟨s.data, v.pos, log⟩)
  flushed : ∀ i t, w.txts i = some t → lastCall tr i = some (.did i .flush, .done) → i ∈ lockers tr → t.buf.writeBuf = []

namespace Desks

variable {tr : TextTrace C} {w : TextTogether C} {s : TextPool}

theorem locker (hb : Desks tr w s) {i : Sid} (h : i ∈ lockers tr) :
    lockers tr = [i] ∧ ∃ t, w.txts i = some t ∧ t.buf.raw.data = w.file := by
  rcases hb.solo with ⟨h', _⟩ | ⟨j, t, h1, h2, h3⟩
  · rw [h'] at h; cases h
  · rw [h1] at h
    obtain rfl := List.mem_singleton.1 h
    exact ⟨h1, t, h2, h3⟩

theorem turn_none (hb : Desks tr w s) {i : Sid} (h : w.txts i = none) : s.turn i = .error .attributeError := by
  unfold TextPool.turn; rw [hb.absent i h]; rfl

theorem turn_some (hb : Desks tr w s) {i : Sid} {t : Txt C} (h : w.txts i = some t) : s.turn i = .done := by
  obtain ⟨v, _, _, hv, _⟩ := hb.pens i t h
  unfold TextPool.turn; rw [hv]; rfl

/-- A method of a stream that is not open. -/
theorem missing (hb : Desks tr w s) {i : Sid} (hi : w.txts i = none) {x : TextItem C × Txt.Out} (hx : TextItem.stream x.1 = some i)
    (hl : lockers (tr ++ [x]) = lockers tr) : Desks (tr ++ [x]) w s := by
  refine ⟨fun j t ht => ?_, hb.absent, by rw [hl]; exact hb.solo, by rw [hl]; exact hb.pens, fun j t ht hc hm => ?_⟩
  · obtain ⟨y, h1, h2⟩ := hb.named j t ht
    exact ⟨y, by simp [h1], h2⟩
  · rw [lastCall_snoc, if_neg] at hc
    · exact hb.flushed j t ht hc (hl ▸ hm)
    · rw [hx]
      intro e
      rw [Option.some.inj e, ht] at hi
      cases hi

/-- A method of stream `i`, which is now `t'`; the array is now `s'`. -/
theorem call (hb : Desks tr w s) {i : Sid} {t' : Txt C} {x : TextItem C × Txt.Out} {s' : TextPool} {v : Pen} {nl : Newline} {ls : Text}
    (hx : TextItem.stream x.1 = some i) (hi : s'.pens i = some v) (hj : ∀ j, j ≠ i → s'.pens j = s.pens j)
    (hends : v.ends = Props.outgoing ls nl)
    (hsolo : (lockers (tr ++ [x]) = [] ∧ t'.buf.raw.data = s'.data) ∨ lockers (tr ++ [x]) = [i] ∨
      (lockers (tr ++ [x]) = lockers tr ∧ i ∉ lockers tr ∧ t'.buf.raw.data = w.file ∧ s'.data = s.data))
    (hout : i ∉ lockers (tr ++ [x]) → Parked C nl ls v.kind t' v.pos)
    (hin : i ∈ lockers (tr ++ [x]) → ∃ log, Logbook C nl ls v.kind t' ⟨s'.data, v.pos, log⟩)
    (hothers : ∀ j, j ≠ i → (j ∈ lockers tr ↔ j ∈ lockers (tr ++ [x])))
    (hflushed : x = (.did i .flush, .done) → t'.buf.writeBuf = []) : Desks (tr ++ [x]) (w.keep i t') s' := by
  have ki : (w.keep i t').txts i = some t' := by simp [keep]
  have kj : ∀ j, j ≠ i → (w.keep i t').txts j = w.txts j := fun j h => by simp [keep, h]
  have hl : ∀ j, j ≠ i → lastCall (tr ++ [x]) j = lastCall tr j := fun j h => by
    rw [lastCall_snoc, if_neg]
    rw [hx]; exact fun e => h (Option.some.inj e).symm
  have hli : lastCall (tr ++ [x]) i = some x := by rw [lastCall_snoc, if_pos hx]
  have hsame : ∀ j, j ≠ i → j ∈ lockers (tr ++ [x]) → s'.data = s.data := fun j hne hm => by
    rcases hsolo with ⟨h, _⟩ | h | ⟨_, _, _, h⟩
    · rw [h] at hm; cases hm
    · rw [h] at hm; exact absurd (List.mem_singleton.1 hm) hne
    · exact h
  refine ⟨fun j t ht => ?_, fun j hn => ?_, ?_, fun j t ht => ?_, fun j t ht hc hm => ?_⟩
  · by_cases h : j = i
    · subst h; exact ⟨x, by simp, hx⟩
    · rw [kj j h] at ht
      obtain ⟨y, h1, h2⟩ := hb.named j t ht
      exact ⟨y, by simp [h1], h2⟩
  · by_cases h : j = i
    · subst h; rw [ki] at hn; cases hn
    · rw [kj j h] at hn; rw [hj j h]; exact hb.absent j hn
  · rcases hsolo with ⟨h, hd⟩ | h | ⟨h, hni, hd, hs⟩
    · exact .inl ⟨h, hd⟩
    · exact .inr ⟨i, t', h, ki, rfl⟩
    · rcases hb.solo with ⟨g, gd⟩ | ⟨j, t, g1, g2, g3⟩
      · exact .inl ⟨h.trans g, hd.trans (gd.trans hs.symm)⟩
      · have hne : j ≠ i := fun e => hni (by rw [g1, e]; simp)
        exact .inr ⟨j, t, h.trans g1, (kj j hne).trans g2, g3.trans hd.symm⟩
  · by_cases h : j = i
    · subst h; rw [ki] at ht; cases ht; exact ⟨v, nl, ls, hi, hends, hout, hin⟩
    · rw [kj j h] at ht
      obtain ⟨v', nl', ls', p1, p2, p3, p4⟩ := hb.pens j t ht
      refine ⟨v', nl', ls', (hj j h).trans p1, p2, fun hn => p3 fun hm => hn ((hothers j h).1 hm), fun hm => ?_⟩
      rw [hsame j h hm]
      exact p4 ((hothers j h).2 hm)
  · by_cases h : j = i
    · subst h; rw [ki] at ht; cases ht; rw [hli] at hc; exact hflushed (Option.some.inj hc)
    · rw [kj j h] at ht; rw [hl j h] at hc; exact hb.flushed j t ht hc ((hothers j h).2 hm)

/-- Streams go away. -/
theorem away (hb : Desks tr w s) {w' : TextTogether C} {P : Sid → Bool} {x : TextItem C × Txt.Out} {s' : TextPool}
    (hx : ∀ j, TextItem.stream x.1 = some j → P j = true) (hl : lockers (tr ++ [x]) = (lockers tr).filter (fun j => !P j))
    (hw : ∀ j, w'.txts j = if P j then none else w.txts j) (hs : ∀ j, s'.pens j = if P j then none else s.pens j)
    (hd : s'.data = s.data)
    (hf : (∀ j ∈ lockers tr, P j = true) → w'.file = s.data) (hf' : ∀ j ∈ lockers tr, P j = false → w'.file = w.file) :
    Desks (tr ++ [x]) w' s' := by
  have key : ∀ j t, w'.txts j = some t → P j = false ∧ w.txts j = some t ∧ lastCall (tr ++ [x]) j = lastCall tr j ∧
      (j ∈ lockers (tr ++ [x]) ↔ j ∈ lockers tr) := fun j t ht => by
    rw [hw] at ht
    cases hP : P j with
    | true => rw [hP] at ht; cases ht
    | false =>
      rw [hP] at ht
      refine ⟨rfl, ht, ?_, ?_⟩
      · rw [lastCall_snoc, if_neg]
        intro e
        rw [hx j e] at hP
        cases hP
      · rw [hl, List.mem_filter]
        simp [hP]
  refine ⟨fun j t ht => ?_, fun j hn => ?_, ?_, fun j t ht => ?_, fun j t ht hc hm => ?_⟩
  · obtain ⟨y, h1, h2⟩ := hb.named j t (key j t ht).2.1
    exact ⟨y, by simp [h1], h2⟩
  · rw [hs]
    rw [hw] at hn
    split
    · rfl
    · rename_i h
      rw [if_neg h] at hn
      exact hb.absent j hn
  · rcases hb.solo with ⟨h, h0⟩ | ⟨j, t, h1, h2, h3⟩
    · exact .inl ⟨by rw [hl, h]; rfl, by rw [hd]; exact hf (by rw [h]; nofun)⟩
    · cases hP : P j with
      | true =>
        refine .inl ⟨by rw [hl, h1]; simp [hP], ?_⟩
        rw [hd]
        exact hf fun i hi => by rw [h1] at hi; rw [List.mem_singleton.1 hi]; exact hP
      | false =>
        refine .inr ⟨j, t, by rw [hl, h1]; simp [hP], ?_, ?_⟩
        · rw [hw, hP]; exact h2
        · rw [h3]; exact (hf' j (by rw [h1]; simp) hP).symm
  · obtain ⟨k1, k2, k3, k4⟩ := key j t ht
    obtain ⟨v, nl, ls, p1, p2, p3, p4⟩ := hb.pens j t k2
    refine ⟨v, nl, ls, by rw [hs, k1]; exact p1, p2, fun hn => p3 fun hm => hn (k4.2 hm), fun hm => ?_⟩
    rw [hd]
    exact p4 (k4.1 hm)
  · obtain ⟨k1, k2, k3, k4⟩ := key j t ht
    rw [k3] at hc
    exact hb.flushed j t k2 hc (k4.1 hm)

end Desks

theorem sinkCall_any {op : Op} (h : SinkCall .random op) (k : BufKind) : SinkCall k op := by
  cases op with
  | read n => cases h
  | seek m =>
    rcases m with c | _ | _ | _ | _
    · cases c <;> exact h
    all_goals trivial
  | _ => exact h

theorem plainCall_keeps {op : Op} (i : Sid) (out : Txt.Out) (H : List Sid) : lockStep (C := C) H (.did i op, out) = H := by
  cases out <;> rfl

/-- One item. -/
theorem step_desks (hC : LawfulEncoder C) (guess : Nat × Nat → Nat → Nat) {tr : TextTrace C} {w : TextTogether C} {s : TextPool}
    (hb : Desks tr w s) {it : TextItem C} (hp : LogProper tr it) (hu : ¬ s.Unsafe C it) :
    ∃ s', s.Step C it (w.step guess it).1 s' ∧ Desks (tr ++ [(it, (w.step guess it).1)]) (w.step guess it).2 s' := by
  cases it with
  | opened i t =>
    obtain ⟨hnew, nl, ls, k, raw, ho⟩ := hp
    have hlog := ho.logbook
    have hnone : w.txts i = none := by
      cases hc : w.txts i with
      | none => rfl
      | some t' =>
        obtain ⟨x, h1, h2⟩ := hb.named i t' hc
        exact absurd h2 (hnew x h1)
    have hni : i ∉ lockers tr := fun hm => by
      obtain ⟨_, t', h, _⟩ := hb.locker hm
      rw [hnone] at h; cases h
    obtain ⟨hwb, hpos⟩ := ho.clean
    have hl : lockers (tr ++ [((.opened i t : TextItem C), (Txt.Out.done))]) = lockers tr := lockers_other fun _ => rfl
    have hx : TextItem.stream (.opened i t : TextItem C) = some i := rfl
    have hj : ∀ j, j ≠ i → lastCall (tr ++ [((.opened i t : TextItem C), (Txt.Out.done))]) j = lastCall tr j := fun j h => by
      rw [lastCall_snoc, if_neg]
      exact fun e => h (Option.some.inj e).symm
    have hli : lastCall (tr ++ [((.opened i t : TextItem C), (Txt.Out.done))]) i = some (.opened i t, .done) := by
      rw [lastCall_snoc, if_pos hx]
    refine ⟨_, ⟨rfl, rfl⟩, ?_⟩
    change Desks (tr ++ [(.opened i t, .done)]) ⟨w.file, fun j => if j = i then some t else w.txts j⟩ _
    refine ⟨fun j u hu' => ?_, fun j hn => ?_, ?_, fun j u hu' => ?_, fun j u hu' hc hm => ?_⟩
    · by_cases h : j = i
      · subst h; exact ⟨(.opened j t, .done), by simp, hx⟩
      · simp only [if_neg h] at hu'
        obtain ⟨y, h1, h2⟩ := hb.named j u hu'
        exact ⟨y, by simp [h1], h2⟩
    · by_cases h : j = i
      · simp only [if_pos h] at hn; cases hn
      · simp only [if_neg h] at hn ⊢; exact hb.absent j hn
    · rw [hl]
      rcases hb.solo with h | ⟨j, u, h1, h2, h3⟩
      · exact .inl h
      · refine .inr ⟨j, u, h1, ?_, h3⟩
        have : j ≠ i := fun e => by rw [e, hnone] at h2; cases h2
        simp only [if_neg this]; exact h2
    · rw [hl]
      by_cases h : j = i
      · simp only [if_pos h] at hu' ⊢
        cases hu'
        refine ⟨_, nl, ls, rfl, by rw [hlog.newline, hlog.linesep], fun _ => ?_, fun hm => absurd (h ▸ hm) hni⟩
        have := (hlog.parked hwb).1
        dsimp only at this ⊢
        rw [hlog.kind, hpos]
        exact this
      · simp only [if_neg h] at hu' ⊢
        exact hb.pens j u hu'
    · rw [hl] at hm
      by_cases h : j = i
      · subst h; exact absurd hm hni
      · simp only [if_neg h] at hu'; rw [hj j h] at hc; exact hb.flushed j u hu' hc hm
  | ask i =>
    have hn : i ∉ lockers tr := hp
    simp only [step]
    have hl : ∀ o, lockers (tr ++ [((.ask i : TextItem C), o)]) = lockers tr := fun o => lockers_other fun _ => by cases o <;> rfl
    cases hc : w.txts i with
    | none =>
      rw [on_none hc]
      exact ⟨s, ⟨(hb.turn_none hc).symm, rfl⟩, hb.missing hc rfl (hl _)⟩
    | some t =>
      rw [on_some hc]
      dsimp only
      obtain ⟨v, nl, ls, p1, p2, p3, _⟩ := hb.pens i t hc
      obtain ⟨t', q1, q2, q3⟩ := ((p3 hn).load w.file).prepare guess
      rw [q1]
      refine ⟨s, ⟨(hb.turn_some hc).symm, rfl⟩, hb.call rfl p1 (fun _ _ => rfl) p2 (.inr (.inr ⟨hl _, hn, q3, rfl⟩)) (fun _ => q2)
        (fun hm => absurd (hl _ ▸ hm) hn) (fun j _ => by rw [hl]) nofun⟩
  | granted i =>
    obtain ⟨hlast, hfree⟩ := hp
    have hn : i ∉ lockers tr := by rw [hfree]; nofun
    simp only [step]
    cases hc : w.txts i with
    | none =>
      rw [on_none hc]
      exact ⟨s, ⟨(hb.turn_none hc).symm, rfl⟩, hb.missing hc rfl (lockers_other fun _ => rfl)⟩
    | some t =>
      rw [on_some hc]
      dsimp only
      obtain ⟨v, nl, ls, p1, p2, p3, _⟩ := hb.pens i t hc
      obtain ⟨t', q1, q2, q3⟩ := ((p3 hn).load w.file).granted
      rw [q1]
      have hf : w.file = s.data := by
        rcases hb.solo with ⟨_, h⟩ | ⟨j, _, h, _⟩
        · exact h
        · rw [hfree] at h; cases h
      have hl : lockers (tr ++ [((.granted i : TextItem C), (Txt.Out.done))]) = [i] := by rw [lockers_snoc, hfree]; rfl
      refine ⟨s, ⟨(hb.turn_some hc).symm, rfl⟩, hb.call rfl p1 (fun _ _ => rfl) p2 (.inr (.inl hl))
        (fun h => absurd (by show i ∈ lockers (tr ++ [((.granted i : TextItem C), (Txt.Out.done))]); rw [hl]; simp) h) (fun _ => ?_) (fun j hj => ?_) nofun⟩
      · obtain ⟨log, h⟩ := q2.logbook
        rw [q3] at h
        have e : (load t w.file).buf.raw.data = s.data := hf
        rw [e] at h
        exact ⟨log, h⟩
      · show j ∈ lockers tr ↔ j ∈ lockers (tr ++ [((.granted i : TextItem C), (Txt.Out.done))])
        rw [hl, hfree]; simp [hj]
  | did i op =>
    obtain ⟨hm, hop, hsink⟩ := hp
    obtain ⟨hl, t, hc, hd⟩ := hb.locker hm
    obtain ⟨v, nl, ls, p1, p2, _, p4⟩ := hb.pens i t hc
    obtain ⟨log, hlog⟩ := p4 hm
    simp only [step]
    rw [on_some hc, load_same hd]
    dsimp only
    have hsafe : ¬ AppendTextUnsafe C ⟨s.data, v.pos, log⟩ op := fun h => hu ⟨v, p1, h⟩
    obtain ⟨f', g1, g2⟩ := hlog.step hC guess (sinkCall_any hsink _) hsafe
    have hh : lockers (tr ++ [(.did i op, (t.step guess op).1)]) = lockers tr := lockers_other fun _ => plainCall_keeps i _ _
    refine ⟨⟨f'.data, fun j => if j = i then some { v with pos := f'.pos } else s.pens j⟩, ⟨v, log, f', p1, by rw [p2]; exact g1, rfl⟩,
      hb.call (v := { v with pos := f'.pos }) rfl (by simp) (fun j hj => by simp [hj]) p2 (.inr (.inl (hh.trans hl)))
        (fun hn => absurd (hh ▸ hm) hn) (fun _ => ⟨f'.log, g2⟩) (fun j _ => by rw [hh]) fun hx => ?_⟩
    obtain ⟨hx1, _⟩ := Prod.mk.inj hx
    cases hx1
    exact hlog.flushed guess
  | unlock i =>
    have hm : i ∈ lockers tr := hp
    obtain ⟨hl, t, hc, hd⟩ := hb.locker hm
    obtain ⟨v, nl, ls, p1, p2, _, p4⟩ := hb.pens i t hc
    obtain ⟨log, hlog⟩ := p4 hm
    obtain ⟨t', q1, q2, q3⟩ := hlog.unlock hC guess
    simp only [step]
    rw [on_some hc, load_same hd, q1]
    dsimp only
    have hh : lockers (tr ++ [((.unlock i : TextItem C), (Txt.Out.done))]) = [] := by rw [lockers_snoc, hl]; simp [lockStep]
    refine ⟨s, ⟨(hb.turn_some hc).symm, rfl⟩, hb.call rfl p1 (fun _ _ => rfl) p2 (.inl ⟨hh, q3⟩) (fun _ => q2)
      (fun h => by rw [hh] at h; cases h) (fun j hj => ?_) nofun⟩
    rw [hh, hl]; simp [hj]
  | exit i =>
    obtain ⟨hm, hlast⟩ := hp
    obtain ⟨hl, t, hc, hd⟩ := hb.locker hm
    obtain ⟨v, nl, ls, p1, p2, _, p4⟩ := hb.pens i t hc
    obtain ⟨log, hlog⟩ := p4 hm
    obtain ⟨r1, r2⟩ := hlog.parked (hb.flushed i t hc hlast hm)
    obtain ⟨t', q1, q2, q3⟩ := r1.exit
    simp only [step]
    rw [on_some hc, load_same hd, q1]
    have hh : lockers (tr ++ [((.exit i : TextItem C), (Txt.Out.done))]) = [] := by rw [lockers_snoc, hl]; simp [lockStep]
    refine ⟨s, ⟨(hb.turn_some hc).symm, rfl⟩, hb.call rfl p1 (fun _ _ => rfl) p2 (.inl ⟨hh, q3.trans r2⟩) (fun _ => q2)
      (fun h => ?_) (fun j hj => ?_) nofun⟩
    · have h : i ∈ lockers (tr ++ [((.exit i : TextItem C), (Txt.Out.done))]) := h
      rw [hh] at h; cases h
    · show j ∈ lockers tr ↔ j ∈ lockers (tr ++ [((.exit i : TextItem C), (Txt.Out.done))])
      rw [hh, hl]; simp [hj]
  | close i =>
    simp only [step]
    cases hc : w.txts i with
    | none =>
      rw [on_none hc]
      have hni : i ∉ lockers tr := fun hm => by
        obtain ⟨_, t, h, _⟩ := hb.locker hm
        rw [hc] at h; cases h
      refine ⟨_, ⟨(hb.turn_none hc).symm, rfl⟩, hb.away (P := fun j => decide (j = i)) (fun j hj => ?_) ?_ (fun j => ?_) (fun j => ?_) rfl
        (fun h => ?_) fun _ _ _ => rfl⟩
      · cases hj; simp
      · rw [lockers_snoc]; simp [lockStep]
      · simp
      · simp
      · rcases hb.solo with ⟨_, h'⟩ | ⟨j, t, h1, h2, _⟩
        · exact h'
        · have := h j (by rw [h1]; simp)
          simp only [decide_eq_true_eq] at this
          rw [this, hc] at h2; cases h2
    | some t =>
      rw [on_some hc]
      dsimp only
      obtain ⟨v, nl, ls, p1, p2, p3, p4⟩ := hb.pens i t hc
      have key : ∃ t', (load t w.file).step guess .close = (.done, t') ∧ (i ∉ lockers tr → t'.buf.raw.data = w.file) ∧
          (i ∈ lockers tr → t'.buf.raw.data = s.data) := by
        by_cases hm : i ∈ lockers tr
        · obtain ⟨_, t₀, hc', hd⟩ := hb.locker hm
          rw [hc] at hc'; cases hc'
          obtain ⟨log, hlog⟩ := p4 hm
          obtain ⟨t', q1, q2⟩ := hlog.close guess
          rw [load_same hd]
          exact ⟨t', q1, fun h => absurd hm h, fun _ => q2⟩
        · obtain ⟨log, hlog⟩ := ((p3 hm).load w.file).logbook
          obtain ⟨t', q1, q2⟩ := hlog.close guess
          exact ⟨t', q1, fun _ => q2, fun h => absurd h hm⟩
      obtain ⟨t', q1, q2, q3⟩ := key
      rw [q1]
      refine ⟨_, ⟨(hb.turn_some hc).symm, rfl⟩, hb.away (P := fun j => decide (j = i)) (fun j hj => ?_) ?_ (fun j => ?_) (fun j => ?_) rfl
        (fun h => ?_) fun j hj hP => ?_⟩
      · cases hj; simp
      · rw [lockers_snoc]; simp [lockStep]
      · simp only [keep]
        by_cases h : j = i <;> simp [h]
      · simp
      · by_cases hm : i ∈ lockers tr
        · exact q3 hm
        · refine (q2 hm).trans ?_
          rcases hb.solo with ⟨_, h'⟩ | ⟨j, t, h1, h2, _⟩
          · exact h'
          · have := h j (by rw [h1]; simp)
            simp only [decide_eq_true_eq] at this
            rw [this] at h1
            exact absurd (by rw [h1]; simp) hm
      · refine q2 fun hm => ?_
        rw [(hb.locker hm).1] at hj
        simp [List.mem_singleton.1 hj] at hP
  | gone p =>
    have hp : ∀ i ∈ lockers tr, i.1 ≠ p := hp
    simp only [step]
    refine ⟨_, ⟨rfl, rfl⟩, hb.away (P := fun j => decide (j.1 = p)) nofun ?_ (fun j => ?_) (fun j => ?_) rfl (fun h => ?_)
      fun _ _ _ => rfl⟩
    · rw [lockers_snoc]; simp [lockStep]
    · simp
    · simp
    · rcases hb.solo with ⟨_, h'⟩ | ⟨j, t, h1, h2, _⟩
      · exact h'
      · have := h j (by rw [h1]; simp)
        exact absurd (by simpa using this) (hp j (by rw [h1]; simp))

/-- A history is one of the array, up to the first call that the code gets wrong. -/
theorem desks (hC : LawfulEncoder C) {guess : Nat × Nat → Nat → Nat} {d : Bytes} {tr : TextTrace C} {w : TextTogether C}
    (h : LogHistory guess d tr w) :
    ∃ pre post s, tr = pre ++ post ∧ TextPooled C (.start d) pre s ∧ (post = [] → Desks tr w s) ∧
      (post = [] ∨ ∃ x rest, post = x :: rest ∧ s.Unsafe C x.1) := by
  induction h with
  | start =>
    have hn : ∀ (i : Sid) (t : Txt C), (⟨d, fun _ => none⟩ : TextTogether C).txts i = some t → False := fun i t h => by cases h
    refine ⟨[], [], _, rfl, .nil _, fun _ => ?_, .inl rfl⟩
    exact ⟨fun i t h => (hn i t h).elim, fun _ _ => rfl, .inl ⟨rfl, rfl⟩, fun i t h => (hn i t h).elim, fun i t h => (hn i t h).elim⟩
  | @item tr w it _ hp ih =>
    obtain ⟨pre, post, s, e1, e2, e3, e4⟩ := ih
    rcases e4 with rfl | ⟨x, rest, rfl, hu⟩
    · rw [List.append_nil] at e1
      subst e1
      by_cases hu : s.Unsafe C it
      · exact ⟨tr, [(it, (w.step guess it).1)], s, rfl, e2, nofun, .inr ⟨_, [], rfl, hu⟩⟩
      · obtain ⟨s', g1, g2⟩ := step_desks hC guess (e3 rfl) hp hu
        exact ⟨tr ++ [(it, (w.step guess it).1)], [], s', by simp, .snoc e2 g1, fun _ => g2, .inl rfl⟩
    · exact ⟨pre, x :: (rest ++ [(it, (w.step guess it).1)]), s, by rw [e1]; simp, e2, nofun, .inr ⟨x, _, rfl, hu⟩⟩

end TextTogether

end Verif
