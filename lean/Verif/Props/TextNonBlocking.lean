import Verif.Props.BufferedMore
import Verif.Props.TextWriting
import Verif.Spec.TextPosting

/-!
# C101: writing text to a file that may not accept it
-/

set_option autoImplicit false

namespace Verif.Props

open Verif Verif.Spec Verif.Txt

variable {C : Codec} {nl : Newline} {ls : Text} {lb : Bool}

/-- One call; `flush` returns nothing, here 0. -/
def textWriteStep (C : Codec) (t : Txt C) : TextWriteCall → Except Exn Nat × Txt C
  | .write s => Txt.write s t
  | .flush =>
    match Txt.flush t with
    | (.ok (), t') => (.ok 0, t')
    | (.error e, t') => (.error e, t')

/-- The calls in their order. -/
def textWriteRun (C : Codec) : List TextWriteCall → Txt C → List (Except Exn Nat) × Txt C
  | [], t => ([], t)
  | c :: cs, t =>
    let r := textWriteStep C t c
    let rest := textWriteRun C cs r.2
    (r.1 :: rest.1, rest.2)

/-- A text stream for writing on any unix file whose answers are "would block" or a part of the data. -/
def TextTo (nl : Newline) (lb : Bool) (ls : Text) (raw : Raw) (t : Txt C) : Prop :=
  ∃ n b, Buf.create .writer n raw = .ok b ∧ Txt.create nl lb ls b = (.ok (), t) ∧ raw.platform = .unix ∧ NonBlocking raw.sched

/-- No byte order mark in the middle of a file. -/
def firstState (C : Codec) (raw : Raw) : C.Enc := if raw.seekable = true ∧ raw.pos ≠ 0 then C.encMid else C.encInit

/-- The state of a stream that is written. -/
structure Posting (nl : Newline) (lb : Bool) (ls : Text) (t : Txt C) (e : C.Enc) (d0 : Bytes) (l0 : Nat) (acc : Bytes) : Prop where
  sink : Sink t.buf
  newline : t.newline = nl
  lineBuffering : t.lineBuffering = lb
  linesep : t.linesep = ls
  encoder : t.encoder.getD C.encInit = e
  content : put t.buf.raw.data (landing t.buf.raw) t.buf.writeBuf = put d0 l0 acc
  extent : landing t.buf.raw + t.buf.writeBuf.length = l0 + acc.length

theorem TextTo.posting {raw : Raw} {t : Txt C} (h : TextTo nl lb ls raw t) :
    Posting nl lb ls t (firstState C raw) raw.data (landing raw) [] := by
  obtain ⟨n, b, hc, ht, hp, hs⟩ := h
  obtain ⟨rfl, h2, h3, h4, h5⟩ := create_ok hc
  have hsink : Sink ⟨.writer, n.toNat, raw, [], 0, []⟩ := ⟨⟨h3, hp, h5, nofun⟩, rfl, by simp, hs⟩
  have mk : ∀ enc : Option C.Enc, enc.getD C.encInit = firstState C raw →
      t = ⟨⟨.writer, n.toNat, raw, [], 0, []⟩, nl, lb, ls, raw.seekable, raw.seekable, enc, none, [], 0, none, (0, 0)⟩ →
      Posting nl lb ls t (firstState C raw) raw.data (landing raw) [] := by
    intro enc he ht
    subst ht
    exact ⟨hsink, rfl, rfl, rfl, he, rfl, by simp⟩
  unfold Txt.create at ht
  rw [if_neg (by rw [h3]; simp)] at ht
  unfold configure at ht
  dsimp only at ht
  unfold firstState at mk ⊢
  cases hk : raw.seekable with
  | false =>
    rw [hk] at ht mk
    simp only [Bool.false_eq_true, if_false] at ht
    cases ht
    exact mk none (by simp) rfl
  | true =>
    rw [hk] at ht mk
    simp only [if_true] at ht
    have hw : ∀ t0 : Txt C, t0.buf = ⟨.writer, n.toNat, raw, [], 0, []⟩ → Txt.writable t0 = (.ok true, t0) := by
      intro t0 h0
      unfold Txt.writable
      rw [h0]
      dsimp only
      rw [h3, h5 (by simp)]
      rfl
    have htell : Buf.tell ⟨.writer, n.toNat, raw, [], 0, []⟩ = (.ok raw.pos, ⟨.writer, n.toNat, raw, [], 0, []⟩) := by
      unfold Buf.tell
      rw [PyM.bind_ok (Buf.onRaw_eq (Raw.tell_ok h3 hk))]
      rfl
    rw [PyM.bind_ok (hw _ rfl)] at ht
    simp only [if_true] at ht
    rw [PyM.bind_ok (onBuf_eq htell)] at ht
    dsimp only at ht
    by_cases hz : raw.pos = 0
    · simp only [hz, ne_eq, not_true_eq_false, decide_false] at ht
      cases ht
      exact mk none (by simp [hz]) rfl
    · simp only [hz, ne_eq, not_false_eq_true, decide_true] at ht
      cases ht
      exact mk (some C.encMid) (by simp [hz]) rfl

/-- The buffered stream is replaced. -/
private theorem Posting.append {b : Buf} {d0 : Bytes} {l0 : Nat} {acc : Bytes}
    (h1 : put b.raw.data (landing b.raw) b.writeBuf = put d0 l0 acc)
    (h2 : landing b.raw + b.writeBuf.length = l0 + acc.length) (x : Bytes) :
    put b.raw.data (landing b.raw) (b.writeBuf ++ x) = put d0 l0 (acc ++ x) := by
  rw [put_eq, put_eq] at *
  rw [← writeAt_append, ← writeAt_append, h1, h2]

theorem Posting.flush {t : Txt C} {e : C.Enc} {d0 : Bytes} {l0 : Nat} {acc : Bytes} (h : Posting nl lb ls t e d0 l0 acc) :
    ∃ r t', Txt.flush t = (r, t') ∧ (r = .ok () ∨ r = .error (.blockingIO 0)) ∧ Posting nl lb ls t' e d0 l0 acc := by
  obtain ⟨r, b', e1, e2, e3, e4, e5⟩ := flush_nonBlocking h.sink
  unfold Txt.flush
  rcases e2 with ⟨rfl, _⟩ | rfl
  · rw [PyM.bind_ok (onBuf_eq e1)]
    exact ⟨_, _, rfl, .inl rfl, e3, h.newline, h.lineBuffering, h.linesep, h.encoder, e4.trans h.content, e5.trans h.extent⟩
  · rw [PyM.bind_error (onBuf_eq e1)]
    exact ⟨_, _, rfl, .inr rfl, e3, h.newline, h.lineBuffering, h.linesep, h.encoder, e4.trans h.content, e5.trans h.extent⟩

/-- One write. -/
theorem Posting.write {t : Txt C} {e : C.Enc} {d0 : Bytes} {l0 : Nat} {acc : Bytes} (h : Posting nl lb ls t e d0 l0 acc)
    (s : Text) : ∃ r t', Txt.write s t = (r, t') ∧
      match C.encode e (outgoing ls nl s) with
      | .error x => r = .error x ∧ Posting nl lb ls t' e d0 l0 acc
      | .ok (b, e') =>
        (r = .ok s.length ∧ Posting nl lb ls t' e' d0 l0 (acc ++ b)) ∨
        (∃ n, n ≤ b.length ∧ r = .error (.blockingIO n) ∧ Posting nl lb ls t' e' d0 l0 (acc ++ b.take n)) ∨
        (lb = true ∧ (10 ∈ s ∨ 13 ∈ outgoing ls nl s) ∧ r = .error (.blockingIO 0) ∧ Posting nl lb ls t' e' d0 l0 (acc ++ b)) := by
  unfold Txt.write
  rw [PyM.bind_ok (show Txt.checkClosed t = (.ok (), t) from onBuf_eq (Buf.checkClosed_ok h.sink.usable.opened)), newlines_eq,
    h.newline, h.linesep]
  cases he : C.encode e (outgoing ls nl s) with
  | error x =>
    have h1 : Txt.encode (outgoing ls nl s) t = (.error x, { t with encoder := some e }) := by
      unfold Txt.encode
      rw [h.encoder, he]
    rw [PyM.bind_error h1]
    exact ⟨_, _, rfl, rfl, h.sink, h.newline, h.lineBuffering, h.linesep, rfl, h.content, h.extent⟩
  | ok p =>
    obtain ⟨b, e'⟩ := p
    have h1 : Txt.encode (outgoing ls nl s) t = (.ok b, { t with encoder := some e' }) := by
      unfold Txt.encode
      rw [h.encoder, he]
    rw [PyM.bind_ok h1]
    obtain ⟨k, b', g1, g2, g3, g4, g5⟩ := write_nonBlocking h.sink b
    have hlen : (b.take k).length = k := by rw [List.length_take]; omega
    have h8 : Posting nl lb ls { t with buf := b', encoder := some e' } e' d0 l0 (acc ++ b.take k) :=
      ⟨g3, h.newline, h.lineBuffering, h.linesep, rfl, g4.trans (Posting.append h.content h.extent _), by
        have := h.extent
        dsimp only
        rw [g5, List.length_append, hlen]
        omega⟩
    rcases g1 with ⟨g1, rfl⟩ | g1
    · rw [List.take_length] at h8
      rw [PyM.bind_ok (onBuf_eq (t := { t with encoder := some e' }) g1)]
      have tail : ∀ t1 : Txt C, Posting nl lb ls t1 e' d0 l0 (acc ++ b) →
          ∃ t', ((do dropSnapshot; resetDecoder; pure s.length) : PyM (Txt C) Nat) t1 = (.ok s.length, t') ∧
            Posting nl lb ls t' e' d0 l0 (acc ++ b) := by
        intro t1 h1
        refine ⟨_, rfl, ?_⟩
        dsimp only
        split
        · exact ⟨h1.sink, h1.newline, h1.lineBuffering, h1.linesep, h1.encoder, h1.content, h1.extent⟩
        · exact ⟨h1.sink, h1.newline, h1.lineBuffering, h1.linesep, h1.encoder, h1.content, h1.extent⟩
      have hcond : (t.lineBuffering && ((nl.writeTranslate || t.lineBuffering) && s.contains 10 ||
          (outgoing ls nl s).contains 13)) = true → lb = true ∧ (10 ∈ s ∨ 13 ∈ outgoing ls nl s) := by
        rw [h.lineBuffering]
        intro hq
        simp only [Bool.and_eq_true, Bool.or_eq_true, List.contains_iff_mem] at hq
        exact ⟨hq.1, hq.2.imp (fun x => x.2) id⟩
      generalize (t.lineBuffering && _ : Bool) = c at hcond ⊢
      cases c with
      | false =>
        rw [PyM.bind_ok (show PyM.when false Txt.flush _ = (.ok (), _) from rfl)]
        obtain ⟨t', k1, k2⟩ := tail _ h8
        exact ⟨_, t', k1, .inl ⟨rfl, k2⟩⟩
      | true =>
        obtain ⟨r, t1, k1, k2, k3⟩ := h8.flush
        rcases k2 with rfl | rfl
        · rw [PyM.bind_ok (when_run k1)]
          obtain ⟨t', k4, k5⟩ := tail _ k3
          exact ⟨_, t', k4, .inl ⟨rfl, k5⟩⟩
        · rw [PyM.bind_error (show PyM.when true Txt.flush _ = (.error (.blockingIO 0), t1) by simp [PyM.when, k1])]
          obtain ⟨hl, hn⟩ := hcond rfl
          exact ⟨_, t1, rfl, .inr (.inr ⟨hl, hn, rfl, k3⟩)⟩
    · rw [PyM.bind_error (onBuf_eq (t := { t with encoder := some e' }) g1)]
      exact ⟨_, _, rfl, .inr (.inl ⟨k, g2, rfl, h8⟩)⟩

/-- All histories. -/
theorem Posting.run {d0 : Bytes} {l0 : Nat} (cs : List TextWriteCall) : ∀ {t : Txt C} {e : C.Enc} {acc : Bytes},
    Posting nl lb ls t e d0 l0 acc → ∃ x e', Accounts C (outgoing ls nl) lb e (cs.zip (textWriteRun C cs t).1) x ∧
      Posting nl lb ls (textWriteRun C cs t).2 e' d0 l0 (acc ++ x) := by
  induction cs with
  | nil => intro t e acc h; exact ⟨[], e, .nil e, by rw [List.append_nil]; exact h⟩
  | cons c cs ih =>
    intro t e acc h
    simp only [textWriteRun, List.zip_cons_cons]
    cases c with
    | flush =>
      obtain ⟨r, t', h1, h2, h3⟩ := h.flush
      obtain ⟨x, e', i1, i2⟩ := ih h3
      rcases h2 with rfl | rfl
      · simp only [textWriteStep, h1]
        exact ⟨x, e', .flushed i1, i2⟩
      · simp only [textWriteStep, h1]
        exact ⟨x, e', .notFlushed i1, i2⟩
    | write s =>
      obtain ⟨r, t', h1, h2⟩ := h.write s
      simp only [textWriteStep, h1]
      cases he : C.encode e (outgoing ls nl s) with
      | error err =>
        rw [he] at h2
        obtain ⟨rfl, h2⟩ := h2
        obtain ⟨x, e', i1, i2⟩ := ih h2
        exact ⟨x, e', .refused he i1, i2⟩
      | ok p =>
        obtain ⟨b, e1⟩ := p
        rw [he] at h2
        dsimp only at h2
        rcases h2 with ⟨rfl, h2⟩ | ⟨n, hn, rfl, h2⟩ | ⟨hl, hm, rfl, h2⟩
        · obtain ⟨x, e', i1, i2⟩ := ih h2
          exact ⟨b ++ x, e', .written he i1, by rw [← List.append_assoc]; exact i2⟩
        · obtain ⟨x, e', i1, i2⟩ := ih h2
          exact ⟨b.take n ++ x, e', .part he hn i1, by rw [← List.append_assoc]; exact i2⟩
        · obtain ⟨x, e', i1, i2⟩ := ih h2
          exact ⟨b ++ x, e', .late hl hm he i1, by rw [← List.append_assoc]; exact i2⟩

theorem Posting.flushed {t : Txt C} {e : C.Enc} {d0 : Bytes} {l0 : Nat} {acc : Bytes} (h : Posting nl lb ls t e d0 l0 acc)
    (hf : (Txt.flush t).1 = .ok ()) : (Txt.flush t).2.buf.raw.data = put d0 l0 acc := by
  obtain ⟨r, b', e1, e2, _⟩ := flush_nonBlocking h.sink
  unfold Txt.flush at hf ⊢
  rcases e2 with ⟨rfl, _⟩ | rfl
  · rw [PyM.bind_ok (onBuf_eq e1)]
    exact (flush_done h.sink.usable e1).1.trans h.content
  · rw [PyM.bind_error (onBuf_eq e1)] at hf
    cases hf

/-! ## The theorems -/

/-- C101.  For every encoding, every newline mode, line buffering or not, append mode or not, all texts and all answers of the
system: the file and the pending bytes together are the old content with the bytes that belong to the history, and a flush that
returns has put exactly them into the file.  Missing: `characters_written` of BlockingIOError is a number of bytes, and 0 if a
complete line cannot be flushed; as a number of characters it is wrong (`C101_bytes_refuted`, `C101_newline_refuted`,
`C101_line_refuted`). -/
theorem C101_history_partial {raw : Raw} {t : Txt C} (h : TextTo nl lb ls raw t) (cs : List TextWriteCall) :
    ∃ x, Accounts C (outgoing ls nl) lb (firstState C raw) (cs.zip (textWriteRun C cs t).1) x ∧
      pendingData (textWriteRun C cs t).2.buf = put raw.data (landing raw) x ∧
      ((Txt.flush (textWriteRun C cs t).2).1 = .ok () →
        (Txt.flush (textWriteRun C cs t).2).2.buf.raw.data = put raw.data (landing raw) x) := by
  obtain ⟨x, e', h1, h2⟩ := h.posting.run cs
  exact ⟨x, h1, h2.content, h2.flushed⟩

theorem firstState_cases (raw : Raw) : firstState C raw = C.encInit ∨ firstState C raw = C.encMid := by
  unfold firstState
  split
  · exact .inr rfl
  · exact .inl rfl

/-- Every character is one byte, thus counting bytes is counting characters. -/
theorem accounts_single (hC : LawfulEncoder C) (h1 : SingleBytes C) {out : Text → Text} {e : C.Enc}
    {l : List (TextWriteCall × Except Exn Nat)} {x : Bytes} (h : Accounts C out false e l x)
    (hout : ∀ s r, (TextWriteCall.write s, r) ∈ l → out s = s) :
    ∀ e0, (e0 = C.encInit ∨ e0 = C.encMid) → ∃ e', C.encode e0 (l.map acceptedText).flatten = .ok (x, e') := by
  have step : ∀ {e e' : C.Enc} {s : Text} {b x : Bytes} {l : List (TextWriteCall × Except Exn Nat)} (n : Nat),
      C.encode e s = .ok (b, e') →
      (∀ e0, (e0 = C.encInit ∨ e0 = C.encMid) → ∃ e', C.encode e0 (l.map acceptedText).flatten = .ok (x, e')) →
      ∀ e0, (e0 = C.encInit ∨ e0 = C.encMid) →
        ∃ e', C.encode e0 (s.take n ++ (l.map acceptedText).flatten) = .ok (b.take n ++ x, e') := by
    intro e e' s b x l n he ih e0 h0
    obtain ⟨e1, g1⟩ := h1.part _ _ _ _ he e0 n
    have g2 : e1 = C.encInit ∨ e1 = C.encMid := by
      rcases hC.state _ _ _ _ h0 g1 with ⟨_, rfl⟩ | ⟨_, rfl⟩
      · exact h0
      · exact .inr rfl
    obtain ⟨e2, g3⟩ := ih e1 g2
    exact ⟨e2, by rw [hC.append _ _ _ h0, g1]; dsimp only; rw [g3]⟩
  induction h with
  | nil e => intro e0 _; exact h1.empty e0
  | @written e e' s b x l he _ ih =>
    rw [hout s _ (List.mem_cons_self ..)] at he
    have := step s.length he (ih fun s r hm => hout s r (List.mem_cons_of_mem _ hm))
    rw [← h1.size _ _ _ _ he, List.take_length] at this
    intro e0 h0
    simpa [acceptedText, h1.size _ _ _ _ he] using this e0 h0
  | @part e e' s b x n l he hn _ ih =>
    rw [hout s _ (List.mem_cons_self ..)] at he
    exact step n he (ih fun s r hm => hout s r (List.mem_cons_of_mem _ hm))
  | late hl => cases hl
  | @refused e s err x l he _ ih =>
    have := ih fun s r hm => hout s r (List.mem_cons_of_mem _ hm)
    have ha : acceptedText (.write s, .error err) = [] := by
      unfold acceptedText
      split
      · rename_i heq; cases heq
      · rename_i heq; cases heq; exact absurd rfl (h1.errors _ _ _ he _)
      · rfl
    simpa [ha] using this
  | flushed _ ih =>
    have := ih fun s r hm => hout s r (List.mem_cons_of_mem _ hm)
    simpa [acceptedText] using this
  | notFlushed _ ih =>
    have := ih fun s r hm => hout s r (List.mem_cons_of_mem _ hm)
    simpa [acceptedText] using this

theorem outgoing_same {s : Text} (h : newlineText ls nl = [10] ∨ 10 ∉ s) : outgoing ls nl s = s := by
  unfold outgoing
  rcases h with h | h
  · rw [h]; exact flatMap_same s
  · exact flatMap_none _ _ h

/-- The content of the file and of the buffer is the old content with the encoded text that was reported as accepted. -/
def Reported (C : Codec) (raw : Raw) (t : Txt C) (s : Text) : Prop :=
  ∃ b e, C.encode (firstState C raw) s = .ok (b, e) ∧ pendingData t.buf = put raw.data (landing raw) b ∧
    ((Txt.flush t).1 = .ok () → (Txt.flush t).2.buf.raw.data = put raw.data (landing raw) b)

/-- C101 for encodings in which every character is one byte, without line buffering, for texts whose newlines are not
replaced: exactly the characters that are reported as accepted are in the file or pending, in their order. -/
theorem C101_characters_partial (hC : LawfulEncoder C) (h1 : SingleBytes C) {raw : Raw} {t : Txt C}
    (h : TextTo nl false ls raw t) (cs : List TextWriteCall)
    (hn : ∀ s, TextWriteCall.write s ∈ cs → newlineText ls nl = [10] ∨ 10 ∉ s) :
    Reported C raw (textWriteRun C cs t).2 ((cs.zip (textWriteRun C cs t).1).map acceptedText).flatten := by
  obtain ⟨x, g1, g2, g3⟩ := C101_history_partial h cs
  obtain ⟨e, g4⟩ := accounts_single hC h1 g1 (fun s r hm => outgoing_same (hn s (List.of_mem_zip hm).1)) _ (firstState_cases raw)
  exact ⟨x, e, g4, g2, g3⟩

/-- The program that writes a text and continues after BlockingIOError; `k` bounds its rounds. -/
def persist (C : Codec) : Nat → Text → Txt C → Bool × Txt C
  | 0, _, t => (false, t)
  | k + 1, s, t =>
    match Txt.write s t with
    | (.ok _, t') => (true, t')
    | (.error (.blockingIO n), t') => persist C k (s.drop n) t'
    | (.error _, t') => (false, t')

theorem persist_calls {d0 : Bytes} {l0 : Nat} (k : Nat) : ∀ (s : Text) {t : Txt C} {e : C.Enc} {acc : Bytes},
    Posting nl lb ls t e d0 l0 acc → (persist C k s t).1 = true →
    ∃ cs, (∀ s', TextWriteCall.write s' ∈ cs → ∃ n, s' = s.drop n) ∧ (textWriteRun C cs t).2 = (persist C k s t).2 ∧
      ((cs.zip (textWriteRun C cs t).1).map acceptedText).flatten = s := by
  induction k with
  | zero => intro s t e acc _ h; cases h
  | succ k ih =>
    intro s t e acc hp h
    unfold persist at h ⊢
    obtain ⟨r, t', g1, g2⟩ := hp.write s
    rw [g1] at h ⊢
    have hok : ∀ n, r = .ok n → n = s.length := by
      rintro n rfl
      cases he : C.encode e (outgoing ls nl s) with
      | error x => rw [he] at g2; exact absurd g2.1 (by simp)
      | ok p =>
        rw [he] at g2
        rcases g2 with ⟨g2, _⟩ | ⟨_, _, g2, _⟩ | ⟨_, _, g2, _⟩ <;> cases g2
        rfl
    cases r with
    | ok n =>
      have := hok n rfl
      subst this
      refine ⟨[.write s], ?_, ?_, ?_⟩
      · intro s' hs'
        rw [List.mem_singleton] at hs'
        cases hs'
        exact ⟨0, rfl⟩
      · simp only [textWriteRun, textWriteStep, g1]
      · simp [textWriteRun, textWriteStep, g1, acceptedText]
    | error x =>
      cases x with
      | blockingIO n =>
        dsimp only at h ⊢
        obtain ⟨e', acc', hp'⟩ : ∃ e' acc', Posting nl lb ls t' e' d0 l0 acc' := by
          cases he : C.encode e (outgoing ls nl s) with
          | error x => rw [he] at g2; exact ⟨_, _, g2.2⟩
          | ok p =>
            rw [he] at g2
            rcases g2 with ⟨_, g2⟩ | ⟨_, _, _, g2⟩ | ⟨_, _, _, g2⟩ <;> exact ⟨_, _, g2⟩
        obtain ⟨cs, i1, i2, i3⟩ := ih (s.drop n) hp' h
        refine ⟨.write s :: cs, ?_, ?_, ?_⟩
        · intro s' hs'
          rcases List.mem_cons.1 hs' with hs' | hs'
          · cases hs'
            exact ⟨0, rfl⟩
          · obtain ⟨m, rfl⟩ := i1 s' hs'
            exact ⟨n + m, by rw [List.drop_drop]⟩
        · simp only [textWriteRun, textWriteStep, g1]
          exact i2
        · simp only [textWriteRun, textWriteStep, g1, List.zip_cons_cons, List.map_cons, List.flatten_cons]
          rw [i3]
          exact List.take_append_drop n s
      | _ => cases h

/-- C101: thus a program that continues with the rest after BlockingIOError writes its text once and completely. -/
theorem C101_continued_partial (hC : LawfulEncoder C) (h1 : SingleBytes C) {raw : Raw} {t : Txt C}
    (h : TextTo nl false ls raw t) (k : Nat) (s : Text) (hn : newlineText ls nl = [10] ∨ 10 ∉ s)
    (hd : (persist C k s t).1 = true) : Reported C raw (persist C k s t).2 s := by
  obtain ⟨cs, g1, g2, g3⟩ := persist_calls k s h.posting hd
  have := C101_characters_partial hC h1 h cs (by
    intro s' hs'
    obtain ⟨n, rfl⟩ := g1 s' hs'
    exact hn.imp id fun hn hm => hn (List.mem_of_mem_drop hm))
  rwa [g2, g3] at this

/-! ## The encodings of the model -/

theorem encodeAll_take {char : Nat → Option Bytes} (h1 : ∀ c b, char c = some b → b.length = 1) (s : Text) : ∀ (b : Bytes) (n : Nat),
    encodeAll char s = .ok b → encodeAll char (s.take n) = .ok (b.take n) ∧ b.length = s.length := by
  induction s with
  | nil => intro b n h; cases h; simp [encodeAll]
  | cons c cs ih =>
    intro b n h
    unfold encodeAll at h
    cases hc : char c with
    | none => rw [hc] at h; cases h
    | some b1 =>
      rw [hc] at h
      cases hr : encodeAll char cs with
      | error x => rw [hr] at h; cases h
      | ok b2 =>
        rw [hr] at h
        cases h
        have hl := h1 c b1 hc
        obtain ⟨x, rfl⟩ : ∃ x, b1 = [x] := by
          match b1, hl with
          | [x], _ => exact ⟨x, rfl⟩
        refine ⟨?_, by simp [(ih b2 0 hr).2]⟩
        cases n with
        | zero => rfl
        | succ n => simp [encodeAll, hc, (ih b2 n hr).1]

theorem encodeAll_error {char : Nat → Option Bytes} (s : Text) : ∀ x, encodeAll char s = .error x → x = .valueError := by
  induction s with
  | nil => intro x h; cases h
  | cons c cs ih =>
    intro x h
    unfold encodeAll at h
    split at h <;> cases h
    rfl

theorem latin1_single : SingleBytes latin1 := by
  have he : ∀ (e : latin1.Enc) s, latin1.encode e s = (encodeAll latin1Char s).map fun b => (b, latin1.encMid) := fun _ _ => rfl
  have hc : ∀ c b, latin1Char c = some b → b.length = 1 := by
    intro c b h
    unfold latin1Char at h
    split at h
    · cases h; rfl
    · cases h
  refine ⟨fun e => ⟨_, rfl⟩, ?_, ?_, ?_⟩
  · intro e s b e' h
    rw [he] at h
    cases hr : encodeAll latin1Char s with
    | error x => rw [hr] at h; cases h
    | ok b2 =>
      rw [hr] at h
      cases h
      exact (encodeAll_take hc s _ 0 hr).2
  · intro e s b e' h e0 n
    rw [he] at h
    cases hr : encodeAll latin1Char s with
    | error x => rw [hr] at h; cases h
    | ok b2 =>
      rw [hr] at h
      cases h
      exact ⟨_, by rw [he, (encodeAll_take hc s _ n hr).1]; rfl⟩
  · intro e s x h n hx
    rw [he] at h
    cases hr : encodeAll latin1Char s with
    | error y =>
      rw [hr] at h
      cases h
      rw [encodeAll_error s _ hr] at hx
      cases hx
    | ok b2 => rw [hr] at h; cases h

/-! ## The counterexamples -/

/-- A text stream on an empty pipe-like file. -/
def textSink (C : Codec) (nl : Newline) (lb : Bool) (n : Nat) (sched : List OsAns) : Txt C :=
  ⟨⟨.writer, n, rawOf [] sched, [], 0, []⟩, nl, lb, [10], true, true, none, none, [], 0, none, (0, 0)⟩

theorem nonBlocking_of {sched : List OsAns}
    (h : sched.all (fun a => match a with | .again => true | .count k => decide (1 ≤ k) | _ => false) = true) :
    NonBlocking sched := by
  intro a ha
  have := List.all_eq_true.1 h a ha
  cases a with
  | again => exact .inl rfl
  | count k => exact .inr ⟨k, rfl, by simpa using this⟩
  | _ => cases this

/-- The full claim: the reported characters are those in the file and the buffer. -/
def Resumable (C : Codec) (lb : Bool) : Prop :=
  ∀ (nl : Newline) (ls : Text) (raw : Raw) (t : Txt C) (cs : List TextWriteCall), TextTo nl lb ls raw t →
    Reported C raw (textWriteRun C cs t).2
      (outgoing ls nl ((cs.zip (textWriteRun C cs t).1).map acceptedText).flatten)

/-- The content that would have to be there. -/
private theorem resumable_data {lb : Bool} (h : Resumable C lb) (nl : Newline) (n : Nat) (sched : List OsAns)
    (cs : List TextWriteCall) (ht : TextTo nl lb [10] (rawOf [] sched) (textSink C nl lb n sched)) :
    (C.encode C.encInit (outgoing [10] nl
        ((cs.zip (textWriteRun C cs (textSink C nl lb n sched)).1).map acceptedText).flatten)).map
      (fun p => put [] 0 p.1) = .ok (pendingData (textWriteRun C cs (textSink C nl lb n sched)).2.buf) := by
  obtain ⟨b, e, h1, h2, _⟩ := h nl [10] _ _ cs ht
  have : firstState C (rawOf [] sched) = C.encInit := rfl
  rw [this] at h1
  rw [h1, h2]
  rfl

/-- False for characters of several bytes: two of the six bytes of "ééé" fit, `characters_written` is 2, although one
character is accepted; a program that continues loses a character. -/
theorem C101_bytes_refuted : ¬ Resumable utf8 false := by
  intro h
  have := resumable_data h .lf 2 [.again] [.write [233, 233, 233]] ⟨2, _, rfl, rfl, rfl, nonBlocking_of rfl⟩
  revert this
  decide +kernel

/-- False for newlines that are replaced: two of the six bytes of "\r\n\r\n\r\n" fit, that is one newline. -/
theorem C101_newline_refuted : ¬ Resumable latin1 false := by
  intro h
  have := resumable_data h .crlf 2 [.again] [.write [10, 10, 10]] ⟨2, _, rfl, rfl, rfl, nonBlocking_of rfl⟩
  revert this
  decide +kernel

/-- False with line buffering: the line is in the buffer and will be written, but `characters_written` is 0. -/
theorem C101_line_refuted : ¬ Resumable latin1 true := by
  intro h
  have := resumable_data h .lf 8 [.again] [.write [97, 10]] ⟨8, _, rfl, rfl, rfl, nonBlocking_of rfl⟩
  revert this
  decide +kernel

-- "ab" fits, "cd" does not; the program continues with "d"
example : (persist latin1 3 [97, 98, 99, 100] (textSink latin1 .lf false 3 [.again])).1 = true ∧
    pendingData (persist latin1 3 [97, 98, 99, 100] (textSink latin1 .lf false 3 [.again])).2.buf = [97, 98, 99, 100] := by
  decide +kernel

example : TextTo .lf false [10] (rawOf [] [.again]) (textSink latin1 .lf false 3 [.again]) :=
  ⟨3, _, rfl, rfl, rfl, nonBlocking_of rfl⟩

-- one byte is stored, then nothing: the half of a character is accepted
example : (textWriteRun utf8 [.write [97, 98], .write [233, 233], .flush] (textSink utf8 .lf false 2 [.count 1, .again])).1 =
    [.ok 2, .error (.blockingIO 1), .ok 0] := by decide +kernel

-- a line with line buffering: the text is written twice by a program that tries again
example : (textWriteRun latin1 [.write [97, 10], .write [97, 10]] (textSink latin1 .lf true 8 [.again])).1 =
      [.error (.blockingIO 0), .ok 2] ∧
    (textWriteRun latin1 [.write [97, 10], .write [97, 10]] (textSink latin1 .lf true 8 [.again])).2.buf.raw.data =
      [97, 10, 97, 10] := by decide +kernel

end Verif.Props
