import Verif.Lemmas.Utilities

/-!
# Lemmas about `read_from_file`
-/

set_option autoImplicit false

namespace Verif.Props

open Verif Verif.Spec Host OpenArgs

/-- The answers of a regular file: some bytes, or an error. -/
def FileAnswers (sched : List OsAns) : Prop := ∀ a ∈ sched, (∃ k, a = .count k ∧ 1 ≤ k) ∨ ∃ e, a = .fail e

theorem FileAnswers.tail {a : OsAns} {l : List OsAns} (h : FileAnswers (a :: l)) : FileAnswers l :=
  fun b hb => h b (List.mem_cons_of_mem _ hb)

theorem Blocking.fileAnswers {l : List OsAns} (h : Blocking l) : FileAnswers l := fun a ha => .inl (h a ha)

/-- An open raw stream with `rest` to read. -/
structure Ready (s : Raw) (rest : Bytes) : Prop where
  opened : s.closed = false
  readable : s.readable = true
  answers : FileAnswers s.sched
  rest : s.data.drop s.pos = rest

/-- An outcome of reading: everything, or an error that the system reported. -/
def Took {α : Type} (s : Raw) (r : Except Exn α) (all : α) (s' : Raw) : Prop :=
  s'.data = s.data ∧ (∀ a ∈ s'.sched, a ∈ s.sched) ∧
    ((r = .ok all ∧ Ready s' []) ∨ ∃ e, r = .error (.ioError e) ∧ .fail e ∈ s.sched ∧ s'.closed = false)

theorem readallLoop_took (fuel : Nat) : ∀ (chunks rest : Bytes) (s : Raw), Ready s rest → rest.length < fuel →
    ∃ r s', Raw.readallLoop fuel chunks s = (r, s') ∧ Took s r (some (chunks ++ rest)) s' := by
  induction fuel with
  | zero => intro _ _ _ _ h; omega
  | succ fuel ih =>
    intro chunks rest s h hf
    have hcn : Raw.chunkSize = 2048 ∨ 1 ≤ Raw.chunkSize := .inr (by decide)
    unfold Raw.readallLoop
    rcases Raw.innerRead_cases Raw.chunkSize s with ⟨k, sched', h1, hk, hs⟩ | ⟨sched', h1, hs⟩ | ⟨sched', h1, hs⟩ |
      ⟨e, sched', h1, hs⟩
    · have hk1 : 1 ≤ k := by
        rcases hs with ⟨_, h2, _⟩ | ⟨j, hj, h2⟩
        · have : 1 ≤ Raw.chunkSize := by decide
          omega
        · have : 1 ≤ Raw.chunkSize := by decide
          rcases h.answers (.count j) (by simp [hj]) with ⟨j', e, hj'⟩ | ⟨e, he⟩
          · cases e; omega
          · cases he
      have hmem : ∀ a ∈ sched', a ∈ s.sched := by
        rcases hs with ⟨_, _, h2⟩ | ⟨j, hj, _⟩
        · rw [h2]; intro a ha; simp at ha
        · intro a ha; rw [hj]; exact List.mem_cons_of_mem _ ha
      rw [PyM.bind_ok ((Raw.readN_eq _ h.opened h.readable).trans h1), h.rest]
      cases hrest : rest with
      | nil =>
        rw [List.take_nil, List.append_nil]
        refine ⟨_, _, rfl, rfl, hmem, .inl ⟨?_, ⟨h.opened, h.readable, fun a ha => h.answers a (hmem a ha), ?_⟩⟩⟩
        · by_cases hc : chunks = [] <;> simp [hc]
        · change s.data.drop (s.pos + 0) = []
          rw [Nat.add_zero, h.rest, hrest]
      | cons c cs =>
        obtain ⟨k', rfl⟩ : ∃ k', k = k' + 1 := ⟨k - 1, by omega⟩
        rw [List.take_succ_cons]
        dsimp only
        obtain ⟨r, s', g1, g2⟩ := ih (chunks ++ c :: cs.take k') (cs.drop k')
          { s with pos := s.pos + (c :: cs.take k').length, sched := sched' }
          ⟨h.opened, h.readable, fun a ha => h.answers a (hmem a ha), by
            dsimp only
            rw [← List.drop_drop, h.rest, hrest]
            simp only [List.length_cons, List.drop_succ_cons, List.length_take]
            by_cases hl : k' ≤ cs.length
            · rw [Nat.min_eq_left hl]
            · rw [Nat.min_eq_right (by omega), List.drop_length, List.drop_eq_nil_of_le (by omega)]⟩
          (by rw [hrest] at hf; simp only [List.length_cons] at hf; rw [List.length_drop]; omega)
        refine ⟨r, s', g1, g2.1, fun a ha => hmem a (g2.2.1 a ha), ?_⟩
        rcases g2.2.2 with ⟨e1, e2⟩ | ⟨e, e1, e2, e3⟩
        · left
          refine ⟨?_, e2⟩
          rw [e1, List.append_assoc, List.cons_append, List.take_append_drop]
        · exact .inr ⟨e, e1, hmem _ e2, e3⟩
    · rcases h.answers .again (by simp [hs]) with ⟨_, e, _⟩ | ⟨_, e⟩ <;> cases e
    · rcases h.answers .pipe (by simp [hs]) with ⟨_, e, _⟩ | ⟨_, e⟩ <;> cases e
    · rw [PyM.bind_error ((Raw.readN_eq _ h.opened h.readable).trans h1)]
      exact ⟨_, _, rfl, rfl, fun a ha => by rw [hs]; exact List.mem_cons_of_mem _ ha, .inr ⟨e, rfl, by simp [hs], h.opened⟩⟩

theorem readall_took {s : Raw} {rest : Bytes} (h : Ready s rest) :
    ∃ r s', Raw.readall s = (r, s') ∧ Took s r (some rest) s' := by
  have := readallLoop_took (s.data.length - s.pos + 1) [] rest s h (by rw [← h.rest, List.length_drop]; omega)
  simpa [Raw.readall] using this

theorem rawRead_took {s : Raw} {rest : Bytes} (h : Ready s rest) :
    ∃ r s', Raw.read none s = (r, s') ∧ Took s r (some rest) s' := by
  unfold Raw.read
  rw [PyM.bind_ok (Raw.checkClosed_ok h.opened), PyM.bind_ok (Raw.checkReadable_ok h.opened h.readable)]
  exact readall_took h

theorem bufRead_took {b : Buf} {rest : Bytes} (hk : b.kind = .reader) (he : b.readBuf.drop b.readPos = [])
    (h : Ready b.raw rest) : ∃ r b', Buf.read none b = (r, b') ∧ Took b.raw r (some rest) b'.raw ∧ b'.kind = .reader ∧
      b'.readBuf.drop b'.readPos = [] := by
  unfold Buf.read
  rw [hk]
  dsimp only
  unfold Buf.readerRead Buf.readRest
  dsimp only
  obtain ⟨r, s', h1, h2⟩ := readall_took h
  have h0 : Buf.resetReadBuf b = (.ok (), { b with readBuf := [], readPos := 0 }) := rfl
  rw [PyM.bind_ok h0]
  have h3 : Buf.onRaw Raw.readall { b with readBuf := [], readPos := 0 } = (r, { b with readBuf := [], readPos := 0, raw := s' }) := by
    unfold Buf.onRaw
    dsimp only
    rw [h1]
  cases r with
  | error e =>
    rw [PyM.bind_error h3]
    refine ⟨_, _, rfl, ⟨h2.1, h2.2.1, .inr ?_⟩, hk, rfl⟩
    rcases h2.2.2 with ⟨e1, _⟩ | ⟨e', e1, e2⟩
    · cases e1
    · cases e1; exact ⟨e', rfl, e2⟩
  | ok x =>
    rw [PyM.bind_ok h3]
    refine ⟨_, _, rfl, ⟨h2.1, h2.2.1, .inl ?_⟩, hk, rfl⟩
    rcases h2.2.2 with ⟨e1, e2⟩ | ⟨e', e1, e2⟩
    · cases e1
      exact ⟨by rw [he]; rfl, e2⟩
    · cases e1

/-! ## Binary streams -/

/-- A stream without text layer, with `rest` to read. -/
inductive ReadyBinary {C : Codec} : AnyStream C → Bytes → Prop
  | raw {s : Raw} {rest : Bytes} (h : Ready s rest) : ReadyBinary (.raw s) rest
  | buf {b : Buf} {rest : Bytes} (hk : b.kind = .reader) (he : b.readBuf.drop b.readPos = []) (h : Ready b.raw rest) :
    ReadyBinary (.buf b) rest

/-- The stream can be closed, which does nothing else. -/
inductive Closable {C : Codec} : AnyStream C → Prop
  | raw {s : Raw} (h : s.closed = false) : Closable (.raw s)
  | buf {b : Buf} (hk : b.kind = .reader) (h : b.raw.closed = false) : Closable (.buf b)
  | txt {t : Txt C} (hk : t.buf.kind = .reader) (h : t.buf.raw.closed = false) : Closable (.txt t)

theorem bufClose_reader {b : Buf} (hk : b.kind = .reader) (h : b.raw.closed = false) :
    Buf.close b = (.ok (), closedBuf b) := by
  unfold Buf.close
  have hc : Raw.close b.raw = (.ok (), { b.raw with closed := true, events := b.raw.events ++ [.close b.raw.data] }) := by
    simp [Raw.close, h]
  have hf : Buf.flush b = (.ok (), b) := by
    unfold Buf.flush
    rw [hk]
    dsimp only
    rw [PyM.bind_ok (Buf.checkClosed_ok h), Buf.onRaw_eq (show Raw.flush b.raw = (.ok (), b.raw) from Raw.checkClosed_ok h)]
  rw [if_neg (by rw [h]; simp), PyM.tryFinally_apply, hf]
  dsimp only
  rw [Buf.onRaw_eq hc]
  rfl

theorem Closable.close {C : Codec} {s : AnyStream C} (h : Closable s) :
    ∃ s', AnyStream.close s = (.ok (), s') ∧ s'.theRaw.data = s.theRaw.data ∧ s'.theRaw.closed = true ∧
      s'.theRaw.sched = s.theRaw.sched := by
  unfold AnyStream.close AnyStream.call
  cases h with
  | raw h =>
    dsimp only
    unfold Raw.close
    rw [if_neg (by rw [h]; simp)]
    exact ⟨_, rfl, rfl, rfl, rfl⟩
  | buf hk h =>
    dsimp only
    rw [bufClose_reader hk h]
    exact ⟨_, rfl, rfl, rfl, rfl⟩
  | @txt t hk h =>
    dsimp only
    unfold Txt.close
    have hf : Buf.flush t.buf = (.ok (), t.buf) := by
      unfold Buf.flush
      rw [hk]
      dsimp only
      rw [PyM.bind_ok (Buf.checkClosed_ok h),
        Buf.onRaw_eq (show Raw.flush t.buf.raw = (.ok (), t.buf.raw) from Raw.checkClosed_ok h)]
    rw [if_neg (by rw [h]; simp), PyM.tryFinally_apply]
    have hf' : Txt.flush t = (.ok (), { t with telling := t.seekable }) := by
      unfold Txt.flush
      have : Txt.onBuf Buf.flush t = (.ok (), t) := by unfold Txt.onBuf; rw [hf]
      rw [PyM.bind_ok this]
      rfl
    rw [hf']
    dsimp only
    unfold Txt.onBuf
    dsimp only
    rw [bufClose_reader hk h]
    exact ⟨_, rfl, rfl, rfl, rfl⟩

theorem ReadyBinary.read {C : Codec} {s : AnyStream C} {rest : Bytes} (h : ReadyBinary s rest) :
    ∃ r s', AnyStream.read s = (r, s') ∧ s'.theRaw.data = s.theRaw.data ∧ Closable s' ∧
      (∀ a ∈ s'.theRaw.sched, a ∈ s.theRaw.sched) ∧
      ((r = .ok (some (.bytes rest)) ∧ ReadyBinary s' []) ∨ ∃ e, r = .error (.ioError e) ∧ .fail e ∈ s.theRaw.sched) := by
  unfold AnyStream.read AnyStream.call
  cases h with
  | raw h =>
    dsimp only
    obtain ⟨r, s', h1, h2, h3, h4⟩ := rawRead_took h
    rcases h4 with ⟨rfl, h4⟩ | ⟨e, rfl, h4, h5⟩
    · rw [PyM.bind_ok h1]
      exact ⟨_, _, rfl, h2, .raw h4.opened, h3, .inl ⟨rfl, .raw h4⟩⟩
    · rw [PyM.bind_error h1]
      exact ⟨_, _, rfl, h2, .raw h5, h3, .inr ⟨e, rfl, h4⟩⟩
  | buf hk he h =>
    dsimp only
    obtain ⟨r, b', h1, ⟨h2, h3, h4⟩, hk', he'⟩ := bufRead_took hk he h
    rcases h4 with ⟨rfl, h4⟩ | ⟨e, rfl, h4, h5⟩
    · rw [PyM.bind_ok h1]
      exact ⟨_, _, rfl, h2, .buf hk' h4.opened, h3, .inl ⟨rfl, .buf hk' he' h4⟩⟩
    · rw [PyM.bind_error h1]
      exact ⟨_, _, rfl, h2, .buf hk' h5, h3, .inr ⟨e, rfl, h4⟩⟩

/-- The outcome of reading a file and closing it. -/
structure Loaded {C : Codec} (s : AnyStream C) (r : Except Exn Chunk) (all : Except Exn Chunk) (s' : AnyStream C) : Prop where
  data : s'.theRaw.data = s.theRaw.data
  closed : s'.theRaw.closed = true
  result : r = all ∨ ∃ e, r = .error (.ioError e) ∧ .fail e ∈ s.theRaw.sched

/-- Closing after the reads. -/
theorem Loaded.close {C : Codec} {m : PyM (AnyStream C) Chunk} {s s1 : AnyStream C} {r all : Except Exn Chunk}
    (h : m s = (r, s1)) (hd : s1.theRaw.data = s.theRaw.data) (hc : Closable s1)
    (hr : r = all ∨ ∃ e, r = .error (.ioError e) ∧ .fail e ∈ s.theRaw.sched) :
    ∃ r s', PyM.tryFinally m AnyStream.close s = (r, s') ∧ Loaded s r all s' := by
  obtain ⟨s', g1, g2, g3, _⟩ := hc.close
  refine ⟨r, s', ?_, g2.trans hd, g3, hr⟩
  rw [PyM.tryFinally_apply, h]
  dsimp only
  rw [g1]

theorem loaded_binary {C : Codec} {s : AnyStream C} {rest : Bytes} (h : ReadyBinary s rest) :
    ∃ r s', PyM.tryFinally (Site.readBody true) AnyStream.close s = (r, s') ∧ Loaded s r (.ok (.bytes rest)) s' := by
  obtain ⟨r, s1, h1, h2, h3, h4, h5⟩ := h.read
  have hfuel : s.theRaw.data.length + 2 = (s.theRaw.data.length + 1) + 1 := rfl
  rcases h5 with ⟨rfl, h5⟩ | ⟨e, rfl, h5⟩
  · by_cases hr : rest = []
    · have hb : Site.readBlocks (s.theRaw.data.length + 2) s = (.ok [], s1) := by
        rw [hfuel]
        unfold Site.readBlocks
        rw [PyM.bind_ok h1, hr]
        rfl
      refine Loaded.close (r := .ok (.bytes rest)) ?_ h2 h3 (.inl rfl)
      unfold Site.readBody
      rw [PyM.bind_ok hb, hr]
      rfl
    · obtain ⟨r, s2, g1, g2, g3, g4, g5⟩ := h5.read
      have hfalsy : (Chunk.bytes rest).falsy = false := by simp [Chunk.falsy, hr]
      rcases g5 with ⟨rfl, g5⟩ | ⟨e, rfl, g5⟩
      · have hb : Site.readBlocks (s.theRaw.data.length + 2) s = (.ok [.bytes rest], s2) := by
          have hb1 : Site.readBlocks (s.theRaw.data.length + 1) s1 = (.ok [], s2) := by
            unfold Site.readBlocks
            rw [PyM.bind_ok g1]
            rfl
          rw [hfuel]
          unfold Site.readBlocks
          rw [PyM.bind_ok h1]
          dsimp only
          rw [if_neg (by rw [hfalsy]; simp), PyM.bind_ok hb1]
          rfl
        refine Loaded.close (r := .ok (.bytes rest)) ?_ (g2.trans h2) g3 (.inl rfl)
        unfold Site.readBody
        rw [PyM.bind_ok hb]
        simp [Chunk.join]
      · have hb : Site.readBlocks (s.theRaw.data.length + 2) s = (.error (.ioError e), s2) := by
          have hb1 : Site.readBlocks (s.theRaw.data.length + 1) s1 = (.error (.ioError e), s2) := by
            unfold Site.readBlocks
            rw [PyM.bind_error g1]
          rw [hfuel]
          unfold Site.readBlocks
          rw [PyM.bind_ok h1]
          dsimp only
          rw [if_neg (by rw [hfalsy]; simp), PyM.bind_error hb1]
        refine Loaded.close (r := .error (.ioError e)) ?_ (g2.trans h2) g3 (.inr ⟨e, rfl, h4 _ g5⟩)
        unfold Site.readBody
        rw [PyM.bind_error hb]
  · have hb : Site.readBlocks (s.theRaw.data.length + 2) s = (.error (.ioError e), s1) := by
      rw [hfuel]
      unfold Site.readBlocks
      rw [PyM.bind_error h1]
    refine Loaded.close (r := .error (.ioError e)) ?_ h2 h3 (.inr ⟨e, rfl, h5⟩)
    unfold Site.readBody
    rw [PyM.bind_error hb]

/-! ## Text streams -/

/-- A text stream with `rest` to read and nothing decoded. -/
structure ReadyText {C : Codec} (t : Txt C) (rest : Bytes) : Prop where
  kind : t.buf.kind = .reader
  empty : t.buf.readBuf.drop t.buf.readPos = []
  chars : t.chars.drop t.used = []
  ready : Ready t.buf.raw rest

theorem ReadyText.read {C : Codec} {t : Txt C} {rest : Bytes} (h : ReadyText t rest) :
    ∃ r t', Txt.read none t = (r, t') ∧ t'.buf.raw.data = t.buf.raw.data ∧ t'.buf.kind = .reader ∧
      t'.buf.raw.closed = false ∧ t'.newline = t.newline ∧ (∀ a ∈ t'.buf.raw.sched, a ∈ t.buf.raw.sched) ∧
      ((∃ x d, Txt.decodeWith C t.newline (t.decoder.getD (C.decInit, false)) rest true = .ok (x, d) ∧ r = .ok x ∧
          ReadyText t' [] ∧ t'.decoder = some d) ∨
        (∃ e, Txt.decodeWith C t.newline (t.decoder.getD (C.decInit, false)) rest true = .error e ∧ r = .error e) ∨
        ∃ e, r = .error (.ioError e) ∧ .fail e ∈ t.buf.raw.sched) := by
  unfold Txt.read
  have h1 : Txt.checkReadable t = (.ok (), t) := by
    unfold Txt.checkReadable
    have : Txt.readable t = (.ok true, t) := by
      unfold Txt.readable
      rw [h.kind]
      dsimp only
      rw [if_neg (by rw [h.ready.opened]; simp), h.ready.readable]
    rw [PyM.bind_ok this]
    rfl
  rw [PyM.bind_ok h1]
  have h2 : Txt.getDecoder t = (.ok (), { t with decoder := some (t.decoder.getD (C.decInit, false)) }) := rfl
  rw [PyM.bind_ok h2]
  generalize t.decoder.getD (C.decInit, false) = d
  dsimp only
  unfold Txt.readAll
  have h3 : Txt.getChars none ({ t with decoder := some d } : Txt C) = (.ok [], { t with decoder := some d }) := by
    unfold Txt.getChars
    dsimp only
    rw [h.chars]
    rfl
  rw [PyM.bind_ok h3]
  obtain ⟨r, b', g1, ⟨g2, g3, g4⟩, gk, ge⟩ := bufRead_took h.kind h.empty h.ready
  have h4 : Txt.onBuf (Buf.read none) ({ t with decoder := some d } : Txt C) = (r, { t with decoder := some d, buf := b' }) := by
    unfold Txt.onBuf
    dsimp only
    rw [g1]
  rcases g4 with ⟨rfl, g4⟩ | ⟨e, rfl, g4, g5⟩
  · rw [PyM.bind_ok h4]
    cases hd : Txt.decodeWith C t.newline d rest true with
    | error e =>
      have h5 : Txt.decode (some rest) true ({ t with decoder := some d, buf := b' } : Txt C) =
          (.error e, { t with decoder := some d, buf := b' }) := by
        unfold Txt.decode
        dsimp only
        rw [hd]
      rw [PyM.bind_error h5]
      exact ⟨_, _, rfl, g2, gk, g4.opened, rfl, g3, .inr (.inl ⟨e, rfl, rfl⟩)⟩
    | ok xd =>
      obtain ⟨x, d'⟩ := xd
      have h5 : Txt.decode (some rest) true ({ t with decoder := some d, buf := b' } : Txt C) =
          (.ok x, { t with decoder := some d', buf := b' }) := by
        unfold Txt.decode
        dsimp only
        rw [hd]
      rw [PyM.bind_ok h5]
      by_cases hs : t.snapshot.isSome = true
      · have h6 : Txt.dropSnapshot ({ t with decoder := some d', buf := b' } : Txt C) =
            (.ok (), { t with decoder := some d', buf := b', chars := [], used := 0, snapshot := none }) := by
          unfold Txt.dropSnapshot
          rw [PyM.modify_apply, if_pos hs]
        rw [PyM.bind_ok h6]
        exact ⟨_, _, rfl, g2, gk, g4.opened, rfl, g3, .inl ⟨x, d', rfl, by simp, ⟨gk, ge, rfl, g4⟩, rfl⟩⟩
      · have h6 : Txt.dropSnapshot ({ t with decoder := some d', buf := b' } : Txt C) =
            (.ok (), { t with decoder := some d', buf := b' }) := by
          unfold Txt.dropSnapshot
          rw [PyM.modify_apply, if_neg hs]
        rw [PyM.bind_ok h6]
        exact ⟨_, _, rfl, g2, gk, g4.opened, rfl, g3, .inl ⟨x, d', rfl, by simp, ⟨gk, ge, h.chars, g4⟩, rfl⟩⟩
  · rw [PyM.bind_error h4]
    exact ⟨_, _, rfl, g2, gk, g5, rfl, g3, .inr (.inr ⟨e, rfl, g4⟩)⟩

/-- `AnyStream.read` on a text stream. -/
theorem ReadyText.anyRead {C : Codec} {t : Txt C} {rest : Bytes} (h : ReadyText t rest) :
    ∃ r t', AnyStream.read (.txt t) = (r, .txt t') ∧ t'.buf.raw.data = t.buf.raw.data ∧ Closable (.txt t') ∧
      t'.newline = t.newline ∧ (∀ a ∈ t'.buf.raw.sched, a ∈ t.buf.raw.sched) ∧
      ((∃ x d, Txt.decodeWith C t.newline (t.decoder.getD (C.decInit, false)) rest true = .ok (x, d) ∧
          r = .ok (some (.text x)) ∧ ReadyText t' [] ∧ t'.decoder = some d) ∨
        (∃ e, Txt.decodeWith C t.newline (t.decoder.getD (C.decInit, false)) rest true = .error e ∧ r = .error e) ∨
        ∃ e, r = .error (.ioError e) ∧ .fail e ∈ t.buf.raw.sched) := by
  obtain ⟨r, t', h1, h2, h3, h4, h5, h6, h7⟩ := h.read
  unfold AnyStream.read AnyStream.call
  dsimp only
  rcases h7 with ⟨x, d, e1, rfl, e3⟩ | ⟨e, e1, rfl⟩ | ⟨e, rfl, e1⟩
  · rw [PyM.bind_ok h1]
    exact ⟨_, _, rfl, h2, .txt h3 h4, h5, h6, .inl ⟨x, d, e1, rfl, e3⟩⟩
  · rw [PyM.bind_error h1]
    exact ⟨_, _, rfl, h2, .txt h3 h4, h5, h6, .inr (.inl ⟨e, e1, rfl⟩)⟩
  · rw [PyM.bind_error h1]
    exact ⟨_, _, rfl, h2, .txt h3 h4, h5, h6, .inr (.inr ⟨e, rfl, e1⟩)⟩

/-- Reading a whole text. -/
theorem loaded_text {C : Codec} {t : Txt C} {rest : Bytes} (h : ReadyText t rest) {x : Text} {d d' : C.Dec × Bool}
    (h1 : Txt.decodeWith C t.newline (t.decoder.getD (C.decInit, false)) rest true = .ok (x, d))
    (h2 : Txt.decodeWith C t.newline d [] true = .ok ([], d')) :
    ∃ r s', PyM.tryFinally (Site.readBody false) AnyStream.close (.txt t) = (r, s') ∧
      Loaded (.txt t) r (.ok (.text x)) s' := by
  obtain ⟨r, t1, g1, g2, g3, g4, g5, g6⟩ := h.anyRead
  have hfuel : t.buf.raw.data.length + 2 = (t.buf.raw.data.length + 1) + 1 := rfl
  rcases g6 with ⟨x', d1, e1, rfl, e3, e4⟩ | ⟨e, e1, rfl⟩ | ⟨e, rfl, e1⟩
  · rw [h1] at e1
    cases e1
    by_cases hx : x = []
    · have hb : Site.readBlocks (t.buf.raw.data.length + 2) (.txt t) = (.ok [], .txt t1) := by
        rw [hfuel]
        unfold Site.readBlocks
        rw [PyM.bind_ok g1, hx]
        rfl
      refine Loaded.close (r := .ok (.text x)) (s1 := .txt t1) ?_ g2 g3 (.inl rfl)
      unfold Site.readBody AnyStream.theRaw
      rw [PyM.bind_ok hb, hx]
      rfl
    · have hfalsy : (Chunk.text x).falsy = false := by simp [Chunk.falsy, hx]
      obtain ⟨r, t2, k1, k2, k3, k4, k5, k6⟩ := e3.anyRead
      rw [e4, g4, Option.getD_some, h2] at k6
      rcases k6 with ⟨x', d2, f1, rfl, f3, f4⟩ | ⟨e, f1, rfl⟩ | ⟨e, rfl, f1⟩
      · cases f1
        have hb : Site.readBlocks (t.buf.raw.data.length + 2) (.txt t) = (.ok [.text x], .txt t2) := by
          have hb1 : Site.readBlocks (t.buf.raw.data.length + 1) (.txt t1) = (.ok [], .txt t2) := by
            unfold Site.readBlocks
            rw [PyM.bind_ok k1]
            rfl
          rw [hfuel]
          unfold Site.readBlocks
          rw [PyM.bind_ok g1]
          dsimp only
          rw [if_neg (by rw [hfalsy]; simp), PyM.bind_ok hb1]
          rfl
        refine Loaded.close (r := .ok (.text x)) (s1 := .txt t2) ?_ (k2.trans g2) k3 (.inl rfl)
        unfold Site.readBody AnyStream.theRaw
        rw [PyM.bind_ok hb]
        simp [Chunk.join]
      · cases f1
      · have hb : Site.readBlocks (t.buf.raw.data.length + 2) (.txt t) = (.error (.ioError e), .txt t2) := by
          have hb1 : Site.readBlocks (t.buf.raw.data.length + 1) (.txt t1) = (.error (.ioError e), .txt t2) := by
            unfold Site.readBlocks
            rw [PyM.bind_error k1]
          rw [hfuel]
          unfold Site.readBlocks
          rw [PyM.bind_ok g1]
          dsimp only
          rw [if_neg (by rw [hfalsy]; simp), PyM.bind_error hb1]
        refine Loaded.close (r := .error (.ioError e)) (s1 := .txt t2) ?_ (k2.trans g2) k3 (.inr ⟨e, rfl, g5 _ f1⟩)
        unfold Site.readBody AnyStream.theRaw
        rw [PyM.bind_error hb]
  · rw [h1] at e1; cases e1
  · have hb : Site.readBlocks (t.buf.raw.data.length + 2) (.txt t) = (.error (.ioError e), .txt t1) := by
      rw [hfuel]
      unfold Site.readBlocks
      rw [PyM.bind_error g1]
    refine Loaded.close (r := .error (.ioError e)) (s1 := .txt t1) ?_ g2 g3 (.inr ⟨e, rfl, e1⟩)
    unfold Site.readBody AnyStream.theRaw
    rw [PyM.bind_error hb]

/-! ## The opened stream -/

/-- The mode string of `read_from_file`. -/
def readMode (binary : Bool) : List Char := ['R', '+'] ++ if binary then ['B'] else []

theorem readMode_facts (binary : Bool) : Reads (readMode binary) ∧ ¬ Writes (readMode binary) ∧
    (Binary (readMode binary) ↔ binary = true) ∧ ¬ Erases (readMode binary) ∧ ¬ MustCreate (readMode binary) ∧
    MustExist (readMode binary) ∧ ¬ ('a' ∈ readMode binary ∨ 'A' ∈ readMode binary) := by
  unfold readMode Writes Reads Binary Erases MustCreate MustExist Advanced
  cases binary <;> simp

/-- The layers of a stream for reading a regular file. -/
theorem reader_layers {S : Setting} {a : FileArgs} {binary : Bool} {p : Bytes} {w : Site} {v : Host} {o : Verif.Opened}
    (ho : rsopen S.py (Site.openArgs a (readMode binary)) w.host = (.ok o, v))
    (hof : OpenedFile (Site.openArgs a (readMode binary)) p w.host v o) (hio : FileAnswers w.io) :
    ∃ s, Site.layers S a.newline o (Site.rawOf { w with host := v } o.raw) = .ok s ∧ s.theRaw = Site.rawOf { w with host := v } o.raw ∧
      (binary = true → ReadyBinary s ((content w.host p).getD [])) ∧
      (binary = false → ∃ t, s = .txt t ∧ ReadyText t ((content w.host p).getD []) ∧ t.newline = a.newline.getD .auto ∧
        t.decoder = none) := by
  obtain ⟨f1, f2, f3, f4, f5, f6, f7⟩ := readMode_facts binary
  have hdata := (rawOf_data hof { w with host := v } rfl).2 f4
  obtain ⟨ha1, _, ha3⟩ := opened_access ho
  have hready : Ready (Site.rawOf { w with host := v } o.raw) ((content w.host p).getD []) := by
    refine ⟨rfl, ha1.2 f1, hio, ?_⟩
    rw [hdata]
    have : o.raw.append = false := by
      cases h : o.raw.append with
      | false => rfl
      | true => exact absurd (ha3.1 h) f7
    simp [Site.rawOf, this]
  have hseek : (Site.rawOf { w with host := v } o.raw).seekable = true := hof.seekable
  generalize Site.rawOf { w with host := v } o.raw = raw at hready hseek
  unfold Site.layers
  have ht := (C44_text ho).1
  have htb : o.text = none ↔ binary = true := ht.trans f3
  cases hb : o.buffer with
  | none =>
    refine ⟨.raw raw, rfl, rfl, fun _ => .raw hready, fun h => ?_⟩
    have := htb.1 ((C44_bare ho).2 hb)
    rw [this] at h; cases h
  | some kn =>
    obtain ⟨k, n⟩ := kn
    have hk : k = .reader := ((C44_kind ho hb).1).2 ⟨f1, f2⟩
    subst hk
    have hn := hof.size _ _ hb
    have hc : Buf.create .reader n raw = .ok ⟨.reader, n, raw, [], 0, []⟩ := by
      unfold Buf.create
      have : n ≠ 0 := by omega
      simp [hready.opened, hready.readable, this]
    dsimp only
    rw [hc]
    dsimp only
    cases hx : o.text with
    | none =>
      refine ⟨_, rfl, rfl, fun _ => .buf rfl rfl hready, fun h => ?_⟩
      rw [htb.1 hx] at h; cases h
    | some line =>
      obtain ⟨t, e1, e2⟩ := txt_create (C := S.codec) (nl := a.newline.getD .auto) (line := line) (linesep := S.linesep) hc hseek
      dsimp only
      rw [e1]
      refine ⟨.txt t, rfl, ?_, fun h => ?_, fun _ => ⟨t, rfl, ⟨?_, ?_, ?_, ?_⟩, e2.newline, e2.decoder⟩⟩
      · change t.buf.raw = raw
        rw [e2.buf]
      · rw [htb.2 h] at hx; cases hx
      · rw [e2.buf]
      · rw [e2.buf]; rfl
      · rw [e2.chars, List.drop_nil]
      · rw [e2.buf]; exact hready

/-- Reading changes no file. -/
theorem store_same {a : OpenArgs} {p : Bytes} {w v : Host} {o : Verif.Opened} (hf : OpenedFile a p w v o)
    (hex : w.names.lookup p = some o.raw.ino) (x : Site) (hx : x.host = v) {s : Raw}
    (hs : s.data = (content w p).getD []) (q : Bytes) (c : Bytes) (hc : content w q = some c) :
    content (Site.store x o.raw s).host q = some c := by
  obtain ⟨h1, h2⟩ := store_content hf x hx s
  by_cases hq : w.names.lookup q = w.names.lookup p
  · have e1 : content w q = content w p := by unfold content; rw [hq]
    have e2 : content (Site.store x o.raw s).host q = content (Site.store x o.raw s).host p := by
      have hn : (Site.store x o.raw s).host.names = v.names := by
        unfold Site.store
        dsimp only
        split
        · exact (closeRaw_same _ _ _ _).2.1.trans (by rw [hx])
        · rw [hx]
      unfold content
      rw [hn]
      by_cases hqp : q = p
      · rw [hqp]
      · rw [hf.otherNames q hqp, hq, hf.name, hex]
    rw [e2, h1, hs, ← e1, hc]
    rfl
  · exact h2 q c hq hc

end Verif.Props
