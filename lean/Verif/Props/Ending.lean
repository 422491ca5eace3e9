import Verif.Model.Ending
import Verif.Props.Settled
import Verif.Props.TextWriting

/-!
# C103: leaving a `with` block or forgetting a stream closes it
-/

set_option autoImplicit false

namespace Verif.Props

open Verif Verif.Spec Verif.Txt

variable {C : Codec} {nl : Newline} {ls : Text} {k : BufKind}

/-- What is left of a stream that is over: it is closed, once, and the file had, when the locks went away, its old content with a
prefix of the pending bytes; with all of them if `complete`. -/
structure Over (b b' : Buf) (complete : Prop) : Prop where
  closed : b'.raw.closed = true
  part : ∃ j, j ≤ b.writeBuf.length ∧ b'.raw.data = put b.raw.data (landing b.raw) (b.writeBuf.take j)
  once : b'.raw.events = b.raw.events ++ [.close b'.raw.data]
  all : complete → b'.raw.data = pendingData b

theorem close_over (t : Txt C) (h : Usable t.buf) : Over t.buf (Txt.close t).2.buf ((Txt.close t).1 = .ok ()) := by
  obtain ⟨r, t', j, e1, e2, e3, e4, e5, e6, _⟩ := C22_text t h
  rw [e1]
  exact ⟨e2, ⟨j, e3, e4⟩, e5, e6⟩

theorem buf_close_over (t : Txt C) (h : Usable t.buf) :
    Over t.buf (Txt.onBuf Buf.close t).2.buf ((Buf.close t.buf).1 = .ok ()) := by
  obtain ⟨r, b', j, e1, e2, e3, e4, e5, _, e6⟩ := C22_close t.buf h
  unfold Txt.onBuf
  rw [e1]
  exact ⟨e2, ⟨j, e3, e4⟩, e5, e6⟩

theorem raw_close_over (t : Txt C) (h : Usable t.buf) :
    Over t.buf (Txt.onBuf (Buf.onRaw Raw.close) t).2.buf (t.buf.writeBuf = []) := by
  have : Txt.onBuf (C := C) (Buf.onRaw Raw.close) t =
      (.ok (), { t with buf := { t.buf with raw := { t.buf.raw with closed := true, events := t.buf.raw.events ++ [.close t.buf.raw.data] } } }) := by
    simp [Txt.onBuf, Buf.onRaw, Raw.close, h.opened]
  rw [this]
  refine ⟨rfl, ⟨0, Nat.zero_le _, by simp [put]⟩, rfl, ?_⟩
  intro hw
  simp [pendingData, hw, put]

/-- Whether the finaliser of this object writes all pending bytes. -/
def HandsOver (l : Level) (t : Txt C) : Prop :=
  match l with
  | .text => (Txt.close t).1 = .ok ()
  | .buffered => (Buf.close t.buf).1 = .ok ()
  | .raw => t.buf.writeBuf = []

theorem finaliser_over (l : Level) (t : Txt C) (h : Usable t.buf) : Over t.buf (finaliser l t).buf (HandsOver l t) := by
  unfold finaliser
  rw [if_neg (by simp [h.opened])]
  cases l with
  | text => exact close_over t h
  | buffered => exact buf_close_over t h
  | raw => exact raw_close_over t h

theorem forget_closed (order : List Level) (t : Txt C) (h : t.buf.raw.closed = true) : forget order t = t := by
  unfold forget
  induction order with
  | nil => rfl
  | cons l order ih => rw [List.foldl_cons, show finaliser l t = t by simp [finaliser, h], ih]

/-- C103: a stream that is forgotten is closed, whatever the order in which its objects are finalised and whatever the system
answers: its locks and its descriptor are released exactly once, and only pending bytes were added to the file. -/
theorem C103_forgotten (l : Level) (order : List Level) (t : Txt C) (h : Usable t.buf) :
    Over t.buf (forget (l :: order) t).buf (HandsOver l t) := by
  have := finaliser_over l t h
  unfold forget
  rw [List.foldl_cons]
  have hf : List.foldl (fun t l => finaliser l t) (finaliser l t) order = finaliser l t := forget_closed order _ this.closed
  rw [hf]
  exact this

/-- C103: a stream that was closed is not touched. -/
theorem C103_closed (order : List Level) (t : Txt C) (h : t.buf.raw.closed = true) : forget order t = t := forget_closed order t h

theorem text_close_blocking (t : Txt C) (h : Usable t.buf) (hb : Blocking t.buf.raw.sched) : (Txt.close t).1 = .ok () := by
  obtain ⟨r1, b1, j1, g1, g2⟩ := flush_usable h
  have hr := (g2.blocking hb).1
  subst hr
  have hf : Txt.flush t = (.ok (), { t with buf := b1, telling := t.seekable }) := by
    unfold Txt.flush
    rw [PyM.bind_ok (onBuf_eq g1)]
    rfl
  have hs := text_flush_settled h hf
  have h2 := C22_close_blocking _ hs.usable (g2.blocking hb).2
  unfold Txt.close
  rw [if_neg (by simp [h.opened]), PyM.tryFinally_apply, hf]
  unfold Txt.onBuf
  generalize hq : Buf.close b1 = q at h2 ⊢
  obtain ⟨r, b'⟩ := q
  dsimp only at h2 ⊢
  rw [hq, h2.1]

/-- C103: on a file that does not fail, all pending bytes are in the file when the locks are released, if the raw object is not
finalised first.  Missing: that order, see `C103_cycle_refuted`. -/
theorem C103_data_partial (l : Level) (order : List Level) (hl : l ≠ .raw) (t : Txt C) (h : Usable t.buf)
    (hb : Blocking t.buf.raw.sched) :
    (forget (l :: order) t).buf.raw.data = pendingData t.buf ∧
      (forget (l :: order) t).buf.raw.events = t.buf.raw.events ++ [.close (pendingData t.buf)] := by
  have ho := C103_forgotten l order t h
  have hw : HandsOver l t := by
    cases l with
    | text => exact text_close_blocking t h hb
    | buffered => exact (C22_close_blocking _ h hb).1
    | raw => exact absurd rfl hl
  exact ⟨ho.all hw, by rw [ho.once, ho.all hw]⟩

theorem R_usable {b : Buf} {f : File} (h : Buf.R b f) : Usable b :=
  ⟨h.live.opened, h.live.unix, h.live.writable, h.reader⟩

/-- C103: a text that was written is in the file after the stream is forgotten. -/
theorem C103_written_partial (hC : LawfulEncoder C) {raw : Raw} {t : Txt C} (h : WriterOpened C nl ls k raw t)
    (guess : Nat × Nat → Nat → Nat) (ops : List Op) (ss : List Text) (ht : texts ops = some ss) (hss : ss ≠ []) (b : Bytes)
    (hb : encoded C raw.pos (outgoing ls nl ss.flatten) = .ok b) (l : Level) (order : List Level) (hl : l ≠ .raw) :
    (forget (l :: order) (Txt.run guess t ops).2).buf.raw.data = put raw.data raw.pos b ∧
      (forget (l :: order) (Txt.run guess t ops).2).buf.raw.closed = true := by
  obtain ⟨f, h1, h2⟩ := h.outlet.run hC guess (sinkCall_of_texts ht)
  have hu := R_usable h2.buf
  have hc := C103_data_partial l order hl _ hu h2.buf.live.blocking
  have hfl := C71_written hC h guess ops ss ht hss b hb
  refine ⟨?_, (C103_forgotten l order _ hu).closed⟩
  rw [hc.1, ← hfl.2]
  obtain ⟨b', g1, g2, g3, _⟩ := Buf.flush_R h2.buf
  have := (flush_done hu g1).1
  rw [← this]
  unfold Txt.flush
  rw [PyM.bind_ok (onBuf_eq g1)]
  rfl

/-- C103 refuted for streams in a reference cycle: the raw object is finalised first; the two bytes that `write` had accepted
never reach the file, and no exception is raised anywhere. -/
theorem C103_cycle_refuted :
    let t := textWriter latin1 .raw .writer 4 [] 0 []
    let t1 := (Txt.write [65, 66] t).2
    (Txt.write [65, 66] t).1 = .ok 2 ∧ Usable t1.buf ∧ pendingData t1.buf = [65, 66] ∧
      (forget [.raw, .buffered, .text] t1).buf.raw.data = [] ∧ (forget [.raw, .buffered, .text] t1).buf.raw.events = [.close []] ∧
      (forget [.text, .buffered, .raw] t1).buf.raw.data = [65, 66] ∧
      (closeLevel .raw t1).1 = .ok () ∧ (closeLevel .buffered (closeLevel .raw t1).2).1 = .ok () ∧
      (closeLevel .text (closeLevel .raw t1).2).1 = .ok () :=
  ⟨by decide +kernel, ⟨by decide +kernel, by decide +kernel, fun _ => by decide +kernel, fun h => absurd h (by decide +kernel)⟩,
    by decide +kernel, by decide +kernel, by decide +kernel, by decide +kernel, by decide +kernel, by decide +kernel,
    by decide +kernel⟩

/-! ## `with` -/

/-- C103: a `with` block on an open stream.  Whatever the block does and raises and whatever the system answers: the stream is
closed afterwards.  If the block left it open, the pending bytes, or a part of them, are in the file, and all of them if the
statement ends without an exception, or with the exception of the block and `close()` raised none; an exception of `close()` is
raised instead of that of the block. -/
theorem C103_with {α : Type} (body : PyM (Txt C) α) (t : Txt C) (ho : t.buf.raw.closed = false)
    (hb : (body t).2.buf.raw.closed = true ∨ Usable (body t).2.buf) :
    (withBlock body t).2.buf.raw.closed = true ∧
    ((body t).2.buf.raw.closed = true → withBlock body t = body t) ∧
    (Usable (body t).2.buf → Over (body t).2.buf (withBlock body t).2.buf ((withBlock body t).1 = (body t).1 ∧ (Txt.close (body t).2).1 = .ok ()) ∧
      ((∃ a, (withBlock body t).1 = .ok a) → (withBlock body t).2.buf.raw.data = pendingData (body t).2.buf) ∧
      (∀ e, (Txt.close (body t).2).1 = .error e → (withBlock body t).1 = .error e) ∧
      ((Txt.close (body t).2).1 = .ok () → (withBlock body t).1 = (body t).1)) := by
  have hck : Txt.checkClosed t = (.ok (), t) := by simp [Txt.checkClosed, Txt.onBuf, Buf.checkClosed, ho]
  have hw : withBlock body t = PyM.tryFinally body close t := by unfold withBlock; rw [PyM.bind_ok hck]
  rw [hw, PyM.tryFinally_apply]
  generalize body t = q at hb ⊢
  obtain ⟨r, t1⟩ := q
  dsimp only at hb ⊢
  have hcl : t1.buf.raw.closed = true → Txt.close t1 = (.ok (), t1) := by intro h; unfold Txt.close; rw [if_pos h]
  by_cases hc : t1.buf.raw.closed = true
  · rw [hcl hc]
    exact ⟨hc, fun _ => rfl, fun h => absurd hc (by simp [h.opened])⟩
  · have hu : Usable t1.buf := hb.resolve_left hc
    have hov := close_over t1 hu
    generalize Txt.close t1 = x at hov ⊢
    obtain ⟨rc, t2⟩ := x
    dsimp only at hov ⊢
    cases rc with
    | ok u =>
      refine ⟨hov.closed, fun h => absurd h hc, fun _ => ⟨⟨hov.closed, hov.part, hov.once, fun _ => hov.all rfl⟩, fun _ => hov.all rfl, nofun, fun _ => rfl⟩⟩
    | error e =>
      refine ⟨hov.closed, fun h => absurd h hc, fun _ => ⟨⟨hov.closed, hov.part, hov.once, ?_⟩, ?_, ?_, nofun⟩⟩
      · rintro ⟨_, h⟩; cases h
      · rintro ⟨a, h⟩; cases h
      · intro e' h; cases h; rfl

/-- A closed stream does not enter the block. -/
theorem C103_with_closed {α : Type} (body : PyM (Txt C) α) (t : Txt C) (ho : t.buf.raw.closed = true) :
    withBlock body t = (.error .valueError, t) := by
  have hck : Txt.checkClosed t = (.error .valueError, t) := by simp [Txt.checkClosed, Txt.onBuf, Buf.checkClosed, ho]
  unfold withBlock
  rw [PyM.bind_error hck]

/-! ## Instances -/

-- a block that writes and then fails: the text is in the file
example : let t := textWriter latin1 .raw .writer 4 [] 0 []
    let r := withBlock (do let _ ← Txt.write [65, 66]; PyM.raise (α := Unit) .keyError) t
    r.1 = .error .keyError ∧ r.2.buf.raw.data = [65, 66] ∧ r.2.buf.raw.closed = true := by
  refine ⟨?_, ?_, ?_⟩ <;> decide +kernel

-- the disk is full: the stream is closed, the exception is that of `close()`
example : let t := textWriter latin1 .raw .writer 4 [] 0 [.count 1, .fail 28, .fail 28]
    let r := withBlock (do let _ ← Txt.write [65, 66]; PyM.raise (α := Unit) .keyError) t
    r.1 = .error (.ioError 28) ∧ r.2.buf.raw.data = [65] ∧ r.2.buf.raw.closed = true := by
  refine ⟨?_, ?_, ?_⟩ <;> decide +kernel

example : (forget [.text, .buffered, .raw] (Txt.run quotient (textWriter latin1 .raw .writer 4 digits 2 []) [.write [88], .write [89, 90]]).2).buf.raw.data =
    [48, 49, 88, 89, 90, 53, 54, 55, 56, 57] :=
  (C103_written_partial latin1_encoder (textWriter_opened _ _ (by nofun) 4 (by decide) digits 2 [] blocking_nil) quotient
    [.write [88], .write [89, 90]] [[88], [89, 90]] rfl (by simp) [88, 89, 90] rfl .text _ nofun).1.trans (by decide +kernel)

end Verif.Props
