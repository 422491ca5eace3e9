import Verif.Lemmas.TextWrite
import Verif.Lemmas.TextSteps
import Verif.Lemmas.BufferedReading
import Verif.Props.Buffered
import Verif.Props.TextReading

/-!
# C71: what is written to text streams
-/

set_option autoImplicit false

namespace Verif.Props

open Verif Verif.Spec Verif.Txt

/-! ## The encodings of the model satisfy the laws -/

theorem encodeAll_append (char : Nat → Option Bytes) (s s' : Text) : encodeAll char (s ++ s') =
    match encodeAll char s with
    | .error x => .error x
    | .ok b =>
      match encodeAll char s' with
      | .error x => .error x
      | .ok b' => .ok (b ++ b') := by
  have herr : ∀ s x, encodeAll char s = .error x → x = .valueError := by
    intro s
    induction s with
    | nil => intro x h; cases h
    | cons c cs ih =>
      intro x h
      unfold encodeAll at h
      split at h <;> cases h
      rfl
  induction s with
  | nil =>
    simp only [List.nil_append, encodeAll]
    cases encodeAll char s' <;> rfl
  | cons c cs ih =>
    simp only [List.cons_append, encodeAll, ih]
    cases char c with
    | none => rfl
    | some b =>
      cases h1 : encodeAll char cs with
      | error x => rfl
      | ok b1 =>
        dsimp only
        cases h2 : encodeAll char s' with
        | error x => rw [herr _ _ h2]
        | ok b2 => simp

theorem plain_encoder {C : Codec} {char : Nat → Option Bytes}
    (he : ∀ e s, C.encode e s = (encodeAll char s).map fun b => (b, C.encMid)) (hm : ∀ e : C.Enc, e = C.encMid) : LawfulEncoder C where
  state e s b e' _ _ := by
    by_cases hb : b = []
    · exact .inl ⟨hb, (hm e').trans (hm e).symm⟩
    · exact .inr ⟨hb, hm e'⟩
  append e s s' _ := by
    simp only [he, encodeAll_append]
    cases encodeAll char s with
    | error x => rfl
    | ok b =>
      simp only [Except.map]
      cases encodeAll char s' <;> rfl

theorem latin1_encoder : LawfulEncoder latin1 :=
  plain_encoder (char := latin1Char) (fun _ _ => rfl) fun _ => rfl

theorem utf8_encoder : LawfulEncoder utf8 :=
  plain_encoder (char := utf8Char) (fun _ _ => rfl) fun _ => rfl

/-- The byte order mark, if it is to be written. -/
def bomOf : utf16.Enc → Bytes := fun (e : Bool) => if e then [0xFF, 0xFE] else []

theorem utf16_encoder : LawfulEncoder utf16 where
  state e s b e' _ h := by
    change (encodeAll utf16Char s).map _ = _ at h
    cases h1 : encodeAll utf16Char s with
    | error x => rw [h1] at h; cases h
    | ok b0 =>
      rw [h1] at h
      obtain ⟨hb, he⟩ := Prod.mk.inj (Except.ok.inj h)
      subst he
      cases e with
      | true => exact .inr ⟨by rw [← hb]; simp, rfl⟩
      | false =>
        by_cases hn : b = []
        · exact .inl ⟨hn, rfl⟩
        · exact .inr ⟨hn, rfl⟩
  append e s s' _ := by
    have he : ∀ (e : utf16.Enc) s, utf16.encode e s = (encodeAll utf16Char s).map fun b => (bomOf e ++ b, utf16.encMid) :=
      fun _ _ => rfl
    rw [he, he, encodeAll_append]
    cases encodeAll utf16Char s with
    | error x => rfl
    | ok b =>
      simp only [Except.map, he]
      cases encodeAll utf16Char s' with
      | error x => rfl
      | ok b' => simp [bomOf, utf16]

/-! ## Histories -/

/-- A text stream for writing, or for reading and writing, before its first call. -/
structure WriterOpened (C : Codec) (nl : Newline) (ls : Text) (k : BufKind) (raw : Raw) (t : Txt C) : Prop where
  built : ∃ n b lineBuffering, Opened k n raw b ∧ Txt.create nl lineBuffering ls b = (.ok (), t)
  notReader : k ≠ .reader
  blocking : Blocking raw.sched

variable {C : Codec} {nl : Newline} {ls : Text} {k : BufKind}

theorem WriterOpened.outlet {raw : Raw} {t : Txt C} (h : WriterOpened C nl ls k raw t) :
    Outlet C nl ls k t ⟨raw.data, raw.pos, raw.events⟩ := by
  obtain ⟨n, b, lb, h1, h2⟩ := h.built
  exact Outlet.create (h1.R h.blocking) h1.kind h.notReader lb h2

theorem outlet_flushed {t : Txt C} {f : Spec.Sink} (h : Outlet C nl ls k t f) :
    (Txt.flush t).1 = .ok () ∧ (Txt.flush t).2.buf.raw.data = f.data := by
  obtain ⟨b', h1, h2, h3, _⟩ := Buf.flush_R h.buf
  unfold Txt.flush
  rw [PyM.bind_ok (onBuf_eq h1)]
  exact ⟨rfl, h2.data' h3⟩

/-- C71.  For all histories of calls that do not read, the results are those of the reference, in which the encoded text is
stored at the offset of the stream; if the stream is flushed there, the file has the bytes of the reference.
Missing: writing after reading without a `seek` in between, for which it is false (`C71_refuted`). -/
theorem C71_history_partial (hC : LawfulEncoder C) {raw : Raw} {t : Txt C} (h : WriterOpened C nl ls k raw t)
    (guess : Nat × Nat → Nat → Nat) (ops : List Op) (hops : ∀ op ∈ ops, SinkCall k op) :
    ∃ f, SinkConforms C (outgoing ls nl) k ⟨raw.data, raw.pos, raw.events⟩ (ops.zip (Txt.run guess t ops).1) f ∧
      (Txt.flush (Txt.run guess t ops).2).1 = .ok () ∧ (Txt.flush (Txt.run guess t ops).2).2.buf.raw.data = f.data := by
  obtain ⟨f, h1, h2⟩ := h.outlet.run hC guess hops
  exact ⟨f, h1, outlet_flushed h2⟩

/-! ### Streams that were read before -/

/-- The buffered stream still represents a file. -/
def Represents (k : BufKind) (b b' : Buf) : Prop := (b.kind = k ∧ ∃ f, Buf.R b f) → b'.kind = k ∧ ∃ f, Buf.R b' f

theorem represents_op {α : Type} {m : PyM Buf α} (hk : Buf.Keeps m) (h : ∀ b f, b.kind = k → Buf.R b f → ∃ f', Buf.R (m b).2 f') :
    Along (Represents k) m := by
  rintro b ⟨h1, f, h2⟩
  exact ⟨(hk b).1.trans h1, h b f h1 h2⟩

theorem represents_steps (k : BufKind) : BufSteps (Represents k) where
  pre := ⟨fun _ h => h, fun h1 h2 h => h2 (h1 h)⟩
  checkClosed := represents_op Buf.Keeps.checkClosed fun b f _ h => by
    rw [Buf.checkClosed_ok h.live.opened]; exact ⟨f, h⟩
  flush := represents_op Buf.Keeps.flush fun b f _ h => by
    obtain ⟨b', h1, h2, _⟩ := Buf.flush_R h
    rw [h1]; exact ⟨f, h2⟩
  write d := represents_op (Buf.Keeps.write d) fun b f _ h => by
    obtain ⟨f', _, h2⟩ := Buf.write_R h d
    exact ⟨f', h2⟩
  read n := represents_op (Buf.Keeps.read n) fun b f _ h => by
    obtain ⟨f', _, h2⟩ := Buf.read_R h n
    exact ⟨f', h2⟩
  read1 n := represents_op (Buf.Keeps.read1 n) fun b f _ h => by
    obtain ⟨f', _, h2⟩ := Buf.read1_R h n
    exact ⟨f', h2⟩
  tell := represents_op Buf.Keeps.tell fun b f _ h => by
    rw [Buf.tell_R h]; exact ⟨f, h⟩
  seekSet p := represents_op (Buf.Keeps.seek _ _) fun b f _ h => by
    obtain ⟨b', h1, h2, _⟩ := Buf.seek_ok h (p : Int) .set (by simp [File.target])
    rw [h1]; exact ⟨_, h2⟩
  seekEnd := represents_op (Buf.Keeps.seek _ _) fun b f _ h => by
    obtain ⟨b', h1, h2, _⟩ := Buf.seek_ok h 0 .fin (by simp [File.target])
    rw [h1]; exact ⟨_, h2⟩
  size := represents_op Buf.Keeps.size fun b f _ h => by
    obtain ⟨b', h1, h2, _⟩ := Buf.size_R h
    rw [h1]; exact ⟨f, h2⟩
  sync a m fl := by
    rintro b ⟨h1, f, h2⟩
    obtain ⟨b', h3, h4, h5⟩ := Buf.sync_R h2 a m fl
    rw [h3]; exact ⟨h5.trans h1, f, h4⟩
  lockFile o := represents_op (Buf.Keeps.lockFile o) fun b f _ h => by
    obtain ⟨b', h1, h2⟩ := Buf.lockFile_R h o
    rw [h1]; exact ⟨_, h2⟩
  unlockFile := represents_op Buf.Keeps.unlockFile fun b f _ h => by
    obtain ⟨b', h1, h2⟩ := Buf.unlockFile_R h
    rw [h1]; exact ⟨_, h2⟩

theorem represents_truncate (z : Int) : Along (Represents .writer) (Buf.truncate (some z)) :=
  represents_op (Buf.Keeps.truncate _) fun b f hk h => by
    obtain ⟨f', _, h2⟩ := Buf.truncate_R h (some z) (by rw [hk]; simp [Unsafe])
    exact ⟨f', h2⟩

/-- A stream after any calls. -/
theorem WriterOpened.ready {raw : Raw} {t : Txt C} (h : WriterOpened C nl ls k raw t) (guess : Nat × Nat → Nat → Nat) {ops : List Op}
    (hc : .close ∉ ops) (ht : k = .random → ∀ a, .truncate a ∉ ops) : ∃ f, Txt.Ready nl ls k (Txt.run guess t ops).2 f := by
  have h0 := h.outlet
  have hrun := (represents_steps k).tRun guess (ops := ops)
    (by
      rintro ⟨a, ha⟩
      have hk : k = .writer := by
        cases hk : k with
        | writer => rfl
        | reader => exact absurd hk h.notReader
        | random => exact absurd ha (ht hk a)
      subst hk
      exact represents_truncate) (fun h => absurd h hc) t
  obtain ⟨h1, f, h2⟩ := hrun.buf ⟨h0.kind, _, h0.buf⟩
  exact ⟨f, h2, h1, h.notReader, hrun.newline.trans h0.newline, hrun.linesep.trans h0.linesep, hrun.seekable.trans h0.seekable⟩

/-- C71: a `seek` to an offset or to the end makes writing correct again, whatever was called before: reads, iterations, reads
that failed, writes in wrong places. -/
theorem C71_after_seek (hC : LawfulEncoder C) {raw : Raw} {t : Txt C} (h : WriterOpened C nl ls k raw t)
    (guess : Nat × Nat → Nat → Nat) (before : List Op) (hclose : .close ∉ before) (htrunc : k = .random → ∀ a, .truncate a ∉ before)
    (m : Movement) (hm : m = .toEnd ∨ ∃ p, m = .to (some (offset p))) (ops : List Op) (hops : ∀ op ∈ ops, SinkCall k op) :
    ∃ p t' f, Txt.step guess (Txt.run guess t before).2 (.seek m) = (.cookie (offset p), t') ∧
      (m = .toEnd → p = t'.buf.raw.data.length) ∧ (∀ q, m = .to (some (offset q)) → p = q) ∧
      SinkConforms C (outgoing ls nl) k ⟨t'.buf.raw.data, p, t'.buf.raw.events⟩ (ops.zip (Txt.run guess t' ops).1) f ∧
      (Txt.flush (Txt.run guess t' ops).2).1 = .ok () ∧ (Txt.flush (Txt.run guess t' ops).2).2.buf.raw.data = f.data := by
  obtain ⟨f, hf⟩ := h.ready guess hclose htrunc
  generalize (Txt.run guess t before).2 = t0 at hf
  have key : ∃ p t', Txt.seek guess m t0 = (.ok (offset p), t') ∧ (m = .toEnd → p = f.data.length) ∧
      (∀ q, m = .to (some (offset q)) → p = q) ∧ Outlet C nl ls k t' ⟨f.data, p, f.log⟩ ∧ t'.buf.writeBuf = [] := by
    rcases hm with rfl | ⟨p, rfl⟩
    · obtain ⟨t', h1, h2, h3⟩ := Outlet.seekEnd' hf guess
      exact ⟨_, t', h1, fun _ => rfl, nofun, h2, h3⟩
    · obtain ⟨t', h1, h2, h3⟩ := Outlet.seekTo' hf p
      refine ⟨p, t', ?_, nofun, fun q hq => ?_, h2, h3⟩
      · unfold Txt.seek
        rw [PyM.bind_ok hf.checkClosed]
        simp only [hf.seekable, Bool.not_true, Bool.false_eq_true, if_false]
        exact h1
      · have := congrArg (fun m => match m with | .to (some c) => c.position | _ => 0) hq
        exact this
  obtain ⟨p, t', h1, h2, h3, h4, h5⟩ := key
  have hd : t'.buf.raw.data = f.data := h4.buf.data' h5
  have hl : t'.buf.raw.events = f.log := h4.buf.log.symm
  obtain ⟨f', g1, g2⟩ := h4.run hC guess hops
  refine ⟨p, t', f', ?_, by rw [hd]; exact h2, h3, by rw [hd, hl]; exact g1, outlet_flushed g2⟩
  simp only [Txt.step, h1]
  rfl

/-! ### Several writes -/

/-- Calls that do not move the stream, and what they write. -/
def texts : List Op → Option (List Text)
  | [] => some []
  | .write s :: ops => (texts ops).map (s :: ·)
  | .flush :: ops | .sync _ _ _ :: ops | .tell :: ops | .size :: ops | .unlock :: ops | .seek .here :: ops => texts ops
  | _ :: _ => none

theorem put_put (d : Bytes) (p : Nat) (a b : Bytes) : put (put d p a) (p + a.length) b = put d p (a ++ b) := by
  rw [put_eq, put_eq, put_eq, writeAt_append]

theorem encoded_append (hC : LawfulEncoder C) {p : Nat} {s s' : Text} {b : Bytes} (h : encoded C p (s ++ s') = .ok b) :
    ∃ b1 b2, encoded C p s = .ok b1 ∧ encoded C (p + b1.length) s' = .ok b2 ∧ b = b1 ++ b2 := by
  have hs : (if p = 0 then C.encInit else C.encMid) = C.encInit ∨ (if p = 0 then C.encInit else C.encMid) = C.encMid := by
    split
    · exact .inl rfl
    · exact .inr rfl
  unfold encoded at h ⊢
  rw [hC.append _ _ _ hs] at h
  cases h1 : C.encode (if p = 0 then C.encInit else C.encMid) s with
  | error x => rw [h1] at h; cases h
  | ok q =>
    obtain ⟨b1, e1⟩ := q
    rw [h1] at h
    dsimp only at h
    cases h2 : C.encode e1 s' with
    | error x => rw [h2] at h; cases h
    | ok q2 =>
      obtain ⟨b2, e2⟩ := q2
      rw [h2] at h
      have he : e1 = if p + b1.length = 0 then C.encInit else C.encMid := by
        rcases hC.state _ _ _ _ hs h1 with ⟨hb, he'⟩ | ⟨hb, he'⟩
        · rw [he', hb]; rfl
        · have := List.length_pos_iff.2 hb
          rw [he', if_neg (by omega)]
      refine ⟨b1, b2, rfl, ?_, ?_⟩
      · rw [← he, h2]; rfl
      · exact (Except.ok.inj h).symm

theorem SinkConforms.nothing {f f' : Spec.Sink} {ops : List Op} {outs : List Out} (hl : outs.length = ops.length)
    (h : SinkConforms C (outgoing ls nl) k f (ops.zip outs) f') (ht : texts ops = some []) : f'.data = f.data ∧ f'.pos = f.pos := by
  induction ops generalizing f outs with
  | nil => cases h; exact ⟨rfl, rfl⟩
  | cons op ops ih =>
    cases outs with
    | nil => cases hl
    | cons out outs =>
      cases h with
      | cons h1 h2 =>
        have hl' : outs.length = ops.length := by simpa using hl
        cases op with
        | write s => simp [texts] at ht
        | flush => obtain ⟨_, rfl⟩ := h1; exact ih hl' h2 ht
        | sync a m fl => obtain ⟨_, rfl⟩ := h1; exact ih hl' h2 ht
        | tell => obtain ⟨_, rfl⟩ := h1; exact ih hl' h2 ht
        | size => obtain ⟨_, rfl⟩ := h1; exact ih hl' h2 ht
        | unlock =>
          obtain ⟨_, rfl⟩ := h1
          have := ih hl' h2 ht
          exact this
        | seek m =>
          cases m with
          | here => obtain ⟨_, rfl⟩ := h1; exact ih hl' h2 ht
          | to c => cases ht
          | toEnd => cases ht
          | relative => cases ht
          | badWhence => cases ht
        | _ => cases ht

theorem SinkConforms.texts (hC : LawfulEncoder C) {f f' : Spec.Sink} {ops : List Op} {outs : List Out} (hl : outs.length = ops.length)
    (h : SinkConforms C (outgoing ls nl) k f (ops.zip outs) f') {ss : List Text} (ht : texts ops = some ss) (hss : ss ≠ []) {b : Bytes}
    (hb : encoded C f.pos (outgoing ls nl ss.flatten) = .ok b) : f'.data = put f.data f.pos b ∧ f'.pos = f.pos + b.length := by
  induction ops generalizing f outs ss b with
  | nil => cases ht; exact absurd rfl hss
  | cons op ops ih =>
    cases outs with
    | nil => cases hl
    | cons out outs =>
      cases h with
      | cons h1 h2 =>
        have hl' : outs.length = ops.length := by simpa using hl
        cases op with
        | write s =>
          simp only [Props.texts, Option.map_eq_some_iff] at ht
          obtain ⟨ss', ht, rfl⟩ := ht
          simp only [SinkAllowed] at h1
          by_cases hn : ss' = []
          · subst hn
            simp only [List.flatten_cons, List.flatten_nil, List.append_nil] at hb
            rw [hb] at h1
            obtain ⟨_, rfl⟩ := h1
            exact SinkConforms.nothing hl' h2 ht
          · have : outgoing ls nl (s :: ss').flatten = outgoing ls nl s ++ outgoing ls nl ss'.flatten := by
              simp [outgoing]
            rw [this] at hb
            obtain ⟨b1, b2, e1, e2, rfl⟩ := encoded_append hC hb
            rw [e1] at h1
            obtain ⟨_, rfl⟩ := h1
            have := ih hl' h2 ht hn e2
            dsimp only at this
            rw [put_put] at this
            refine ⟨this.1, ?_⟩
            rw [this.2, List.length_append]; omega
        | flush => obtain ⟨_, rfl⟩ := h1; exact ih hl' h2 ht hss hb
        | sync a m fl => obtain ⟨_, rfl⟩ := h1; exact ih hl' h2 ht hss hb
        | tell => obtain ⟨_, rfl⟩ := h1; exact ih hl' h2 ht hss hb
        | size => obtain ⟨_, rfl⟩ := h1; exact ih hl' h2 ht hss hb
        | unlock => obtain ⟨_, rfl⟩ := h1; exact ih hl' h2 ht hss hb
        | seek m =>
          cases m with
          | here => obtain ⟨_, rfl⟩ := h1; exact ih hl' h2 ht hss hb
          | to c => cases ht
          | toEnd => cases ht
          | relative => cases ht
          | badWhence => cases ht
        | _ => cases ht

theorem run_length (guess : Nat × Nat → Nat → Nat) (t : Txt C) (ops : List Op) : (Txt.run guess t ops).1.length = ops.length := by
  induction ops generalizing t with
  | nil => rfl
  | cons op ops ih => simp [Txt.run, ih]

theorem sinkCall_of_texts {ops : List Op} {ss : List Text} (h : texts ops = some ss) : ∀ op ∈ ops, SinkCall k op := by
  induction ops generalizing ss with
  | nil => intro op h; cases h
  | cons o ops ih =>
    intro op hop
    have key : (∃ ss', texts ops = some ss') ∧ SinkCall k o := by
      cases o with
      | write s =>
        simp only [texts, Option.map_eq_some_iff] at h
        obtain ⟨ss', h, _⟩ := h
        exact ⟨⟨ss', h⟩, trivial⟩
      | flush => exact ⟨⟨ss, h⟩, trivial⟩
      | sync a m fl => exact ⟨⟨ss, h⟩, trivial⟩
      | tell => exact ⟨⟨ss, h⟩, trivial⟩
      | size => exact ⟨⟨ss, h⟩, trivial⟩
      | unlock => exact ⟨⟨ss, h⟩, trivial⟩
      | seek m =>
        cases m with
        | here => exact ⟨⟨ss, h⟩, trivial⟩
        | _ => cases h
      | _ => cases h
    obtain ⟨⟨ss', h1⟩, h2⟩ := key
    rcases List.mem_cons.1 hop with rfl | hop
    · exact h2
    · exact ih h1 op hop

/-- C71: texts that are written one after the other stand in the file like one text, with one byte order mark if it is written at
the start of the file. -/
theorem C71_written (hC : LawfulEncoder C) {raw : Raw} {t : Txt C} (h : WriterOpened C nl ls k raw t) (guess : Nat × Nat → Nat → Nat)
    (ops : List Op) (ss : List Text) (ht : texts ops = some ss) (hss : ss ≠ []) (b : Bytes)
    (hb : encoded C raw.pos (outgoing ls nl ss.flatten) = .ok b) :
    (Txt.flush (Txt.run guess t ops).2).1 = .ok () ∧
      (Txt.flush (Txt.run guess t ops).2).2.buf.raw.data = put raw.data raw.pos b := by
  obtain ⟨f, h1, h2, h3⟩ := C71_history_partial hC h guess ops (sinkCall_of_texts ht)
  refine ⟨h2, ?_⟩
  rw [h3]
  exact (SinkConforms.texts hC (run_length guess t ops) h1 ht hss hb).1

/-! ### Examples and a refutation -/

/-- A stream for writing on a file with the given content, at offset `p`. -/
def textWriter (C : Codec) (nl : Newline) (k : BufKind) (n : Nat) (data : Bytes) (p : Nat) (sched : List OsAns) : Txt C :=
  (Txt.create nl false [13, 10] ⟨k, n, { rawOf data sched with pos := p }, [], 0, []⟩).2

theorem textWriter_opened (C : Codec) (nl : Newline) {k : BufKind} (hk : k ≠ .reader) (n : Nat) (hn : 0 < n) (data : Bytes) (p : Nat)
    (sched : List OsAns) (hb : Blocking sched) :
    WriterOpened C nl [13, 10] k { rawOf data sched with pos := p } (textWriter C nl k n data p sched) := by
  have hn' : ¬ n = 0 := by omega
  refine ⟨⟨n, ⟨k, n, { rawOf data sched with pos := p }, [], 0, []⟩, false, ⟨?_, rfl, rfl, rfl⟩, ?_⟩, hk, hb⟩
  · simp [Buf.create, rawOf, hn']
  · cases k with
    | reader => exact absurd rfl hk
    | writer => cases p <;> rfl
    | random => cases p <;> rfl

-- several writes with short counts, newlines translated, one byte order mark
example : (Txt.flush (Txt.run quotient (textWriter utf16 .auto .writer 4 [] 0 [.count 1, .count 3]) [.write [65], .size, .write [10, 66]]).2).2.buf.raw.data =
    [0xFF, 0xFE, 65, 0, 13, 0, 10, 0, 66, 0] := by decide +kernel

-- the hypotheses of `C71_written` for it
example : texts [.write [65], .size, .write [10, 66]] = some [[65], [10, 66]] ∧
    encoded utf16 0 (outgoing [13, 10] .auto [65, 10, 66]) = .ok [0xFF, 0xFE, 65, 0, 13, 0, 10, 0, 66, 0] := ⟨rfl, rfl⟩

-- in the middle of a file there is no byte order mark
example : (Txt.flush (Txt.run quotient (textWriter utf16 .raw .random 4 [1, 2, 3, 4, 5, 6] 2 []) [.write [65]]).2).2.buf.raw.data =
    [1, 2, 65, 0, 5, 6] := by decide +kernel

-- a text that cannot be encoded
example : (Txt.run quotient (textWriter latin1 .raw .writer 4 [] 0 []) [.write [65], .write [66, 300], .tell]).1 =
    [.num 1, .error .valueError, .cookie (offset 1)] := by decide +kernel

-- reading, failing, and then moving to the end
example : (Txt.run quotient (textWriter utf8 .raw .random 4 [65, 66, 67] 0 []) [.read (some 1), .next, .tell, .seek .toEnd, .write [68], .size]).1 =
    [.text [65], .text [66, 67], .error (.ioError 0), .cookie (offset 3), .num 1, .num 4] := by decide +kernel

/-- The claim of C71 for streams that are read and written: when `tell()` returns an offset, a text that is written is stored
there. -/
def WritesWhereItTells : Prop :=
  ∀ (C : Codec) (nl : Newline) (ls : Text) (raw : Raw) (t : Txt C) (ops : List Op) (p : Nat) (s : Text) (b : Bytes), LawfulEncoder C →
    WriterOpened C nl ls .random raw t → .close ∉ ops → (∀ a, .truncate a ∉ ops) → (Txt.flush (Txt.run quotient t ops).2).1 = .ok () →
    (Txt.run quotient t (ops ++ [.tell])).1.getLast? = some (.cookie (offset p)) → encoded C p (outgoing ls nl s) = .ok b →
    (Txt.flush (Txt.run quotient t (ops ++ [.write s])).2).2.buf.raw.data =
      put (Txt.flush (Txt.run quotient t ops).2).2.buf.raw.data p b

/-- C71 is false after a read: the text goes behind everything that was read ahead (here: to the offset 4), although
`tell()` says 2. -/
theorem C71_refuted : ¬ WritesWhereItTells := by
  intro h
  have := h latin1 .raw [13, 10] _ (textWriter latin1 .raw .random 4 digits 0 []) [.read (some 2)] 2 [88] [88] latin1_encoder
    (textWriter_opened _ _ (by nofun) 4 (by decide) digits 0 [] blocking_nil) (by simp) (by simp) (by decide +kernel) (by decide +kernel) rfl
  revert this
  decide +kernel

example : (Txt.run quotient (textWriter latin1 .raw .random 4 digits 0 []) [.read (some 2), .tell, .write [88], .seek (.to (some (offset 0))), .read none]).1 =
    [.text [48, 49], .cookie (offset 2), .num 1, .cookie (offset 0), .text [48, 49, 50, 51, 88, 53, 54, 55, 56, 57]] := by decide +kernel

end Verif.Props
