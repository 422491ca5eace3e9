import Verif.Model.Forward
import Verif.Lemmas.Along
import Verif.Props.TextResume

/-!
# C106: methods of an inner stream that are reached through the outer one
-/

set_option autoImplicit false

namespace Verif.Props

open Verif Verif.Spec Verif.Buf

/-! ## What is expected -/

/-- What a call may return and leave: `readall` is to return all bytes from the position of the stream to the end of its
content, and to move the position there. -/
def AllowedCall (k : BufKind) (f : File) : Call → StreamOut → File → Prop
  | .own op, out, f' => Allowed k f op out f'
  | .readall, out, f' => out = .bytes f.rest ∧ f' = { f with pos := f.pos + f.rest.length }

/-- A history of calls with their results. -/
inductive CallsConform (k : BufKind) : File → List (Call × StreamOut) → File → Prop
  | nil (f : File) : CallsConform k f [] f
  | cons {f f' f'' : File} {c : Call} {out : StreamOut} {rest : List (Call × StreamOut)} :
      AllowedCall k f c out f' → CallsConform k f' rest f'' → CallsConform k f ((c, out) :: rest) f''

/-- The calls after which nothing waits to be written. -/
def settles : Call → Bool
  | .readall => true
  | .own (.seek _ _) => true
  | .own .flush => true
  | .own (.lock _) => true
  | .own .unlock => true
  | .own _ => false

/-- Whether nothing waits to be written after the calls. -/
def settledAfter : Bool → List Call → Bool
  | c, [] => c
  | _, x :: xs => settledAfter (settles x) xs

/-- The calls that go wrong: those of C23, and `readall` when bytes were read ahead or wait to be written. -/
def UnsafeCall (k : BufKind) (f : File) (settled : Bool) : Call → Prop
  | .own op => Unsafe k f op
  | .readall => f.ahead = true ∨ settled = false

/-! ## Nothing waits to be written -/

/-- What waits to be written is the same. -/
def SamePending (b b' : Buf) : Prop := b'.writeBuf = b.writeBuf

theorem samePending_pre : Pre SamePending := ⟨fun _ => rfl, fun h1 h2 => Eq.trans h2 h1⟩

theorem samePending_onRaw {α : Type} (m : PyM Raw α) : Along SamePending (Buf.onRaw m) := by
  intro b
  unfold Buf.onRaw
  exact rfl

theorem samePending_reset : Along SamePending Buf.resetReadBuf := fun _ => rfl

theorem seek_flushed {b : Buf} {f : File} (h : Buf.R b f) (o : Int) (w : Whence) : (Buf.seek o w b).2.writeBuf = [] := by
  unfold Buf.seek
  cases hk : b.kind with
  | reader =>
    dsimp only
    have : Along SamePending (Buf.readerSeek o w) := by
      intro b
      unfold Buf.readerSeek
      exact Along.bind samePending_pre (fun s => by unfold Buf.checkClosed; split <;> rfl)
        (fun _ => (samePending_onRaw _).bind samePending_pre fun _ => samePending_reset.bind samePending_pre fun _ => .pure samePending_pre _) b
    exact (this b).trans (h.reader hk)
  | writer =>
    obtain ⟨b1, h1, _, h3, _⟩ := Buf.flushUnlocked_R h (by rw [hk]; nofun)
    dsimp only
    unfold Buf.writerSeek
    rw [PyM.bind_ok h1]
    exact (samePending_onRaw _ b1).trans h3
  | random =>
    obtain ⟨b1, h1, _, h3, _⟩ := Buf.flush_R h
    dsimp only
    unfold Buf.randomSeek
    rw [PyM.bind_ok h1]
    have hback : Along SamePending Buf.seekBack := by
      intro b
      unfold Buf.seekBack
      split
      · rfl
      · exact (samePending_onRaw _).bind samePending_pre (fun _ => .pure samePending_pre _) b
    exact (hback.bind samePending_pre (fun _ => (samePending_onRaw _).bind samePending_pre fun _ =>
      samePending_reset.bind samePending_pre fun _ => .pure samePending_pre _) b1).trans h3

theorem settles_empties {b : Buf} {f : File} (h : Buf.R b f) (op : StreamOp) (hs : settles (.own op) = true) :
    (b.step op).2.writeBuf = [] := by
  cases op with
  | seek o w => exact seek_flushed h o w
  | flush =>
    obtain ⟨b', h1, _, h3, _⟩ := Buf.flush_R h
    change (Buf.flush b).2.writeBuf = _
    rw [h1]; exact h3
  | lock o =>
    obtain ⟨b', h1, _, h3, _⟩ := Buf.resetBuffers_R h
    change (Buf.lockFile o b).2.writeBuf = _
    unfold Buf.lockFile
    rw [PyM.bind_ok h1]
    exact (samePending_onRaw _ b').trans h3
  | unlock =>
    obtain ⟨b', h1, _, h3, _⟩ := Buf.resetBuffers_R h
    change (Buf.unlockFile b).2.writeBuf = _
    unfold Buf.unlockFile
    rw [PyM.bind_ok h1]
    exact (samePending_onRaw _ b').trans h3
  | _ => cases hs

/-! ## The refinement -/

/-- `readall()` when nothing is buffered. -/
theorem readall_R {b : Buf} {f : File} (h : Buf.R b f) (hk : b.kind ≠ .writer) (hr : b.readBuf = []) (hw : b.writeBuf = []) :
    ∃ b', Buf.readall b = (.ok (some f.rest), b') ∧ Buf.R b' { f with pos := f.pos + f.rest.length } ∧ b'.readBuf = [] ∧
      b'.writeBuf = [] ∧ b'.kind = b.kind := by
  have hl := h.live
  obtain ⟨s', h1, h2, h3, h4, h5, h6⟩ := Raw.readall_blocking (s := b.raw) hl.opened (hl.readable hk) hl.blocking
  have hex : b.extra = 0 := by simp [Buf.extra, hr]
  have hp : b.raw.pos = f.pos := by rw [h.pos' hw, hex]; rfl
  have hdrop : b.raw.data.drop b.raw.pos = f.rest := by rw [h.data' hw, hp]; rfl
  have h0 : b.readPos = 0 := by have := h.inside; rw [hr] at this; simpa using this
  refine ⟨{ b with raw := s' }, ?_, ⟨hl.frame rfl rfl h5 h4, h.inside, ?_, h.excl, h.reader, h.writer, ?_, ?_, h.ahead, ?_⟩, hr, hw, rfl⟩
  · unfold Buf.readall
    rw [Buf.onRaw_eq h1, hdrop]
  · change b.readBuf.drop b.readPos = List.take b.extra _
    rw [hex, hr]; simp
  · dsimp only; rw [hw, writeAt_nil, h2, h.data' hw]
  · change f.pos + f.rest.length + b.extra = _
    dsimp only
    rw [h3, hdrop, hp, hw, hex]; rfl
  · exact h.log.trans h6.symm

theorem calls_R {k : BufKind} (hk : k ≠ .writer) (cs : List Call) : ∀ (b : Buf) (f : File) (s : Bool), Buf.R b f → b.kind = k →
    (s = true → b.writeBuf = []) →
    ∃ pre post f', cs = pre ++ post ∧ CallsConform k f (pre.zip (b.calls pre).1) f' ∧ Buf.R (b.calls pre).2 f' ∧
      (post = [] ∨ ∃ c rest, post = c :: rest ∧ UnsafeCall k f' (settledAfter s pre) c) := by
  induction cs with
  | nil => intro b f s h _ _; exact ⟨[], [], f, rfl, .nil f, h, .inl rfl⟩
  | cons c cs ih =>
    intro b f s h hbk hs
    by_cases hu : UnsafeCall k f s c
    · exact ⟨[], c :: cs, f, rfl, .nil f, h, .inr ⟨c, cs, rfl, hu⟩⟩
    · have key : ∃ f', AllowedCall k f c (b.call c).1 f' ∧ Buf.R (b.call c).2 f' ∧ (b.call c).2.kind = k ∧
          (settles c = true → (b.call c).2.writeBuf = []) := by
        cases c with
        | own op =>
          obtain ⟨f', h1, h2⟩ := Buf.step_R h op (by rw [hbk]; exact hu)
          rw [hbk] at h1
          exact ⟨f', h1, h2, (Buf.step_keeps b op).1.trans hbk, settles_empties h op⟩
        | readall =>
          have ha : f.ahead = false := by
            cases ha : f.ahead
            · rfl
            · exact absurd (.inl ha) hu
          have hs' : s = true := by
            cases s
            · exact absurd (.inr rfl) hu
            · rfl
          obtain ⟨b', h1, h2, h3, h4, h5⟩ := readall_R h (by rw [hbk]; exact hk) (h.ahead ha) (hs hs')
          have h6 : b.call .readall = (.bytes f.rest, b') := by unfold Buf.call; rw [h1]; rfl
          rw [h6]
          exact ⟨_, ⟨rfl, rfl⟩, h2, h5.trans hbk, fun _ => h4⟩
      obtain ⟨f', h1, h2, h3, h4⟩ := key
      obtain ⟨pre, post, f'', e1, e2, e3, e4⟩ := ih _ f' (settles c) h2 h3 h4
      refine ⟨c :: pre, post, f'', by rw [e1]; rfl, ?_, e3, e4⟩
      exact .cons h1 e2

/-- C106.  For all histories of calls, among them `readall()`, which a buffered stream has only because the name is looked up on
the raw stream: the results are those of a byte array with a position, until `readall` is called while bytes have been read
ahead or wait to be written, or one of the calls of C23 comes.  Directly after `seek`, `lock_file` or `unlock_file` that is
not the case, nor is it when the stream was just opened.
Missing: it is false in the other cases (`C106_readall_refuted`, `C106_write_refuted`). -/
theorem C106_readall_partial {k : BufKind} {n : Int} {raw : Raw} {b : Buf} (h : Opened k n raw b) (hb : Blocking raw.sched)
    (hk : k ≠ .writer) (cs : List Call) :
    ∃ pre post f, cs = pre ++ post ∧ CallsConform k (fileOf raw) (pre.zip (b.calls pre).1) f ∧
      (post = [] ∨ ∃ c rest, post = c :: rest ∧ UnsafeCall k f (settledAfter true pre) c) ∧
      (Buf.flush (b.calls pre).2).1 = .ok () ∧ (Buf.flush (b.calls pre).2).2.raw.data = f.data := by
  obtain ⟨pre, post, f, e1, e2, e3, e4⟩ := calls_R hk cs b _ true (h.R hb) h.kind (by rw [(create_ok h.created).1]; exact fun _ => rfl)
  obtain ⟨b', g1, g2, g3, _⟩ := Buf.flush_R e3
  exact ⟨pre, post, f, e1, e2, e4, by rw [g1], by rw [g1]; exact g2.data' g3⟩

-- the whole history is covered when a seek precedes `readall`
example : ((opened .random 4 digits [.count 2, .count 1, .count 3]).calls
    [.own (.read (some 3)), .own (.write [65, 66]), .own (.seek 0 .cur), .readall, .own .tell, .own (.seek 0 .set), .readall]).1 =
    [.bytes [48, 49, 50], .num 2, .num 5, .bytes [53, 54, 55, 56, 57], .num 10, .num 0, .bytes [48, 49, 50, 65, 66, 53, 54, 55, 56, 57]] := by
  decide +kernel

/-- C106 for streams opened for reading only: if a seek that returned precedes it directly, `readall()` returns everything from the position on, whatever was called before. -/
theorem C106_reader {k : BufKind} {n : Int} {raw : Raw} {b : Buf} (h : Opened k n raw b) (hb : Blocking raw.sched)
    (hk : k = .reader) (ops : List StreamOp) (o : Int) (w : Whence) {p : Nat} (hs : ((b.run ops).2.step (.seek o w)).1 = .num p) :
    ∃ f, Conforms k (fileOf raw) (ops.zip (b.run ops).1) f ∧ (p : Int) = f.target o w ∧
      (((b.run ops).2.step (.seek o w)).2.call .readall).1 = .bytes (f.data.drop p) ∧
      (((((b.run ops).2.step (.seek o w)).2.call .readall).2).step .tell).1 = .num (max p f.data.length) := by
  obtain ⟨pre, post, f, e1, e2, e3, e4, e5⟩ := Buf.run_R ops b _ (h.R hb)
  rw [h.kind] at e2 e5
  have hpost : post = [] := by
    rcases e5 with e5 | ⟨op, rest, _, hu⟩
    · exact e5
    · exact absurd (Unsafe.random hu) (by rw [hk]; nofun)
  rw [hpost, List.append_nil] at e1
  subst e1
  refine ⟨f, e2, ?_⟩
  have hkind : (b.run ops).2.kind = k := e4.trans h.kind
  have ht : 0 ≤ f.target o w := by
    rcases Int.lt_or_le (f.target o w) 0 with hn | hn
    · obtain ⟨b', g1, _⟩ := Buf.seek_fail e3 o w hn (by rw [hkind, hk]; nofun)
      simp only [Buf.step, g1] at hs
      cases hs
    · exact hn
  obtain ⟨b', g1, g2, g3, g4, g5⟩ := Buf.seek_ok e3 o w ht
  simp only [Buf.step, g1, StreamOut.ofNat] at hs ⊢
  cases hs
  obtain ⟨b'', k1, k2, _⟩ := readall_R g2 (by rw [g5, hkind, hk]; nofun) g4 g3
  have hcall : Buf.call b' .readall = (StreamOut.bytes (f.data.drop (f.target o w).toNat), b'') := by unfold Buf.call; rw [k1]; rfl
  rw [hcall]
  refine ⟨by omega, rfl, ?_⟩
  dsimp only
  rw [Buf.tell_R k2]
  simp only [File.rest, List.length_drop]
  congr 1
  omega

-- the hypotheses are met
example : (((opened .reader 4 digits []).run [.read (some 1)]).2.step (.seek 0 .cur)).1 = .num 1 := by decide +kernel

/-- C106: a stream opened for writing only rejects `readall()`, and nothing changes. -/
theorem C106_writer {b : Buf} (ho : b.raw.closed = false) (hr : b.raw.readable = false) : b.readall = (.error .unsupported, b) := by
  have : Raw.readall b.raw = (.error .unsupported, b.raw) := by
    unfold Raw.readall Raw.readallLoop Raw.readN
    rw [PyM.bind_error]
    rw [PyM.bind_ok (Raw.checkClosed_ok ho)]
    exact PyM.bind_error (by simp [Raw.checkReadable, ho, hr])
  unfold Buf.readall
  exact Buf.onRaw_eq this

/-! ## Refutations -/

/-- C106 is false when bytes were read ahead: `readall()` skips them.  A file of ten bytes, one of which was read. -/
theorem C106_readall_refuted : ∃ (k : BufKind) (n : Int) (raw : Raw) (b : Buf), Opened k n raw b ∧ Blocking raw.sched ∧
    (b.calls [.own (.read (some 1)), .readall, .own (.read none)]).1 = [.bytes [48], .bytes [56, 57], .bytes [49, 50, 51, 52, 53, 54, 55]] ∧
    ¬ ∃ f, CallsConform k (fileOf raw) ([.own (.read (some 1)), .readall].zip (b.calls [.own (.read (some 1)), .readall]).1) f := by
  refine ⟨.reader, 8, _, _, opened_ok .reader 8 (by decide) digits [], by simp [Blocking, rawOf], by decide +kernel, ?_⟩
  rintro ⟨f, hf⟩
  have hrun : ((opened .reader 8 digits []).calls [.own (.read (some 1)), .readall]).1 = [.bytes [48], .bytes [56, 57]] := by decide +kernel
  rw [hrun] at hf
  cases hf with
  | cons h1 hf =>
    cases hf with
    | cons h2 hf =>
      simp only [AllowedCall, Allowed, reduceCtorEq, if_false] at h1 h2
      obtain ⟨_, rfl⟩ := h1
      exact absurd h2.1 (by decide +kernel)

/-- C106 is false when bytes wait to be written: `readall()` moves the raw stream, so that they are stored at the end of the file
and not where they were written.  A byte is written at the start of a file of ten. -/
theorem C106_write_refuted : ∃ (k : BufKind) (n : Int) (raw : Raw) (b : Buf), Opened k n raw b ∧ Blocking raw.sched ∧
    (Buf.close (b.calls [.own (.write [88]), .readall]).2).1 = .ok () ∧
    (Buf.close (b.calls [.own (.write [88]), .readall]).2).2.raw.data = raw.data ++ [88] ∧
    raw.data ++ [88] ≠ put raw.data 0 [88] ∧
    ∀ f, CallsConform k (fileOf raw) ([.own (.write [88])].zip (b.calls [.own (.write [88])]).1) f → f.data = put raw.data 0 [88] := by
  refine ⟨.random, 8, _, _, opened_ok .random 8 (by decide) digits [], by simp [Blocking, rawOf], by decide +kernel, by decide +kernel,
    by decide +kernel, ?_⟩
  intro f hf
  have hrun : ((opened .random 8 digits []).calls [.own (.write [88])]).1 = [.num 1] := by decide +kernel
  rw [hrun] at hf
  cases hf with
  | cons h1 hf =>
    cases hf with
    | nil =>
      simp only [AllowedCall, Allowed, reduceCtorEq, if_false] at h1
      obtain ⟨_, rfl⟩ := h1
      rfl

/-! ## Text streams -/

variable {C : Codec} {nl : Newline} {ls : Text}

/-- C106 for text streams opened for reading and writing: whatever was called before, `read1(n)` returns bytes that follow the
position of the buffered stream, and neither the content nor anything that was decoded changes.
Missing: that is not the position of the text stream when text has been decoded ahead (`C106_text_refuted`); it is after a
`write` (`C105_resumes_partial`). -/
theorem C106_text_partial {guess : Nat × Nat → Nat → Nat} {raw : Raw} {t : Txt C} (h : WriterOpened C nl ls .random raw t)
    (before : List Txt.Op) (hclose : .close ∉ before) (htrunc : ∀ a, .truncate a ∉ before) (n : Int) (hn : n ≠ 0) :
    ∃ t1 p got b, (Txt.run guess t before).2 = t1 ∧ placeOf t1 = .ok p ∧ Txt.read1 n t1 = (.ok (some got), { t1 with buf := b }) ∧
      got <+: (contentOf t1).drop p ∧ (got = [] → (contentOf t1).length ≤ p) ∧ (0 ≤ n → (got.length : Int) ≤ n) ∧
      placeOf { t1 with buf := b } = .ok (p + got.length) ∧ contentOf { t1 with buf := b } = contentOf t1 := by
  obtain ⟨f, hf⟩ := h.ready guess hclose fun _ => htrunc
  obtain ⟨f', h1, h2⟩ := Buf.read1_R hf.buf n
  have hk := (Buf.Keeps.read1 n (Txt.run guess t before).2.buf).1
  simp only [Allowed, hf.kind, reduceCtorEq, if_false, if_neg hn] at h1
  obtain ⟨got, g1, g2, g3, g4, rfl⟩ := h1
  generalize (Txt.run guess t before).2 = t1 at *
  generalize hq : Buf.read1 n t1.buf = q at *
  obtain ⟨r, b⟩ := q
  have hr : r = .ok (some got) := by
    cases r with
    | error e => cases g4
    | ok o => cases o with
      | none => cases g4
      | some x => cases g4; rfl
  subst hr
  have hready : Txt.Ready nl ls .random { t1 with buf := b } { f with pos := f.pos + got.length, ahead := true } :=
    ⟨h2, hk.trans hf.kind, hf.notReader, hf.newline, hf.linesep, hf.seekable⟩
  refine ⟨t1, f.pos, got, b, rfl, hf.place, Txt.onBuf_eq hq, ?_, ?_, g3, hready.place, ?_⟩
  · rw [hf.content]; exact g1
  · rw [hf.content]
    intro h0
    exact List.drop_eq_nil_iff.1 (g2 h0)
  · rw [hready.content, hf.content]

/-- C106 for text streams opened for reading and writing: whatever was called before, `peek(n)` returns bytes that follow the
position of the buffered stream, at least one unless the content ends there, and moves nothing.
Missing: as for `read1` (`C106_text_refuted`). -/
theorem C106_peek_partial {guess : Nat × Nat → Nat → Nat} {raw : Raw} {t : Txt C} (h : WriterOpened C nl ls .random raw t)
    (before : List Txt.Op) (hclose : .close ∉ before) (htrunc : ∀ a, .truncate a ∉ before) (n : Int) :
    ∃ t1 p got b, (Txt.run guess t before).2 = t1 ∧ placeOf t1 = .ok p ∧ Txt.peek n t1 = (.ok got, { t1 with buf := b }) ∧
      got <+: (contentOf t1).drop p ∧ (got = [] → (contentOf t1).length ≤ p) ∧
      placeOf { t1 with buf := b } = .ok p ∧ contentOf { t1 with buf := b } = contentOf t1 := by
  obtain ⟨f, hf⟩ := h.ready guess hclose fun _ => htrunc
  obtain ⟨b, h1, h2, _, h4, h5, h6⟩ := Buf.peek_R hf.buf (by rw [hf.kind]; nofun) n
  generalize (Txt.run guess t before).2 = t1 at *
  have hready : Txt.Ready nl ls .random { t1 with buf := b } { f with ahead := true } :=
    ⟨h2, h4.trans hf.kind, hf.notReader, hf.newline, hf.linesep, hf.seekable⟩
  refine ⟨t1, f.pos, _, b, rfl, hf.place, Txt.onBuf_eq h1, ?_, ?_, hready.place, ?_⟩
  · rw [hf.content]; exact h5
  · rw [hf.content]
    intro h0
    exact List.drop_eq_nil_iff.1 (h6 h0)
  · rw [hready.content, hf.content]

/-- For an encoding with one byte for each character: after `read(n)` on a new stream, `peek(1)` shows the bytes that follow those
`n` characters. -/
def PeekFollows : Prop := ∀ (raw : Raw) (t : Txt latin1) (n : Nat), WriterOpened latin1 .lf [10] .random raw t → raw.pos = 0 →
  n < raw.data.length → ∃ got, (Txt.peek 1 (Txt.step quotient t (.read (some (n : Int)))).2).1 = .ok got ∧ got ≠ [] ∧ got <+: raw.data.drop n

/-- C106 is false for text streams: what was decoded ahead is skipped. -/
theorem C106_text_refuted : ¬ PeekFollows := by
  intro h
  have hw : WriterOpened latin1 .lf [10] .random (rawOf [65, 10, 66, 10] []) twoLines :=
    ⟨⟨4, _, false, ⟨rfl, rfl, rfl, rfl⟩, rfl⟩, by simp, by nofun⟩
  obtain ⟨got, h1, h2, _⟩ := h _ twoLines 1 hw rfl (by decide)
  have h3 : (Txt.peek 1 (Txt.step quotient twoLines (.read (some ((1 : Nat) : Int)))).2).1 = .ok [] := by decide +kernel
  rw [h3] at h1
  cases h1
  exact h2 rfl

end Verif.Props
