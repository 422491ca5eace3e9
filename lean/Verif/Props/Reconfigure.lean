import Verif.Lemmas.Decoding
import Verif.Lemmas.Reconfigure
import Verif.Lemmas.Together
import Verif.Props.LineBuffering

/-!
# C115: `reconfigure` changes the settings of a text stream and nothing else
-/

set_option autoImplicit false

namespace Verif.Props

open Verif Verif.Spec Verif.Txt

variable {C : Codec}

/-! ## Streams that write -/

/-- Stages of the life of a stream: a call of `reconfigure`, and then a history of calls.  Every `reconfigure` returns, leaves the
file with the bytes written so far, and from there on the calls return and do what the reference says, with the new settings;
in the end, a `flush` leaves the file with the bytes of the reference. -/
def Stages (guess : Nat × Nat → Nat → Nat) (ls : Text) (k : BufKind) : {C : Codec} → Newline → Txt C → Spec.Sink →
    List (Settings × List Op) → Prop
  | _, _, t, f, [] => (Txt.flush t).1 = .ok () ∧ (Txt.flush t).2.buf.raw.data = f.data
  | C, nl, t, f, (a, ops) :: rest => ∃ (t' : Txt (a.encoding.getD C)) (f' : Spec.Sink),
      reconfigure a t = (.ok (), .inr t') ∧ t'.buf.raw.data = f.data ∧
      SinkConforms (a.encoding.getD C) (outgoing ls (a.newline.getD nl)) k f (ops.zip (Txt.run guess t' ops).1) f' ∧
      Stages guess ls k (a.newline.getD nl) (Txt.run guess t' ops).2 f' rest

theorem getD_encoder {a : Settings} (hC : LawfulEncoder C) (h : ∀ C', a.encoding = some C' → LawfulEncoder C') :
    LawfulEncoder (a.encoding.getD C) := by
  cases ha : a.encoding with
  | none => exact hC
  | some C' => exact h C' ha

theorem reconfigure_outlet {nl : Newline} {ls : Text} {k : BufKind} {t : Txt C} {f : Spec.Sink} (h : Outlet C nl ls k t f)
    (hd : t.decoder = none) (a : Settings) :
    ∃ t' : Txt (a.encoding.getD C), reconfigure a t = (.ok (), .inr t') ∧ Outlet (a.encoding.getD C) (a.newline.getD nl) ls k t' f ∧
      t'.buf.raw.data = f.data ∧ t'.lineBuffering = a.lineBuffering.getD t.lineBuffering ∧ t'.decoder = none := by
  obtain ⟨b', g1, g2, g3, g4, _⟩ := Buf.flush_R h.buf
  have hf : Txt.flush t = (.ok (), { t with buf := b', telling := t.seekable }) := by
    unfold Txt.flush
    rw [PyM.bind_ok (onBuf_eq g1)]; rfl
  have h2 : Outlet C nl ls k { t with buf := b', telling := t.seekable } f :=
    ⟨g2, g4.trans h.kind, h.notReader, h.newline, h.linesep, h.seekable, h.seekable, h.chars, h.snapshot, h.encoder⟩
  obtain ⟨t', c1, c2, c3, c4, c5⟩ := h2.configured (a.encoding.getD C) (a.newline.getD t.newline) (a.lineBuffering.getD t.lineBuffering)
  refine ⟨t', ?_, by rw [← h.newline]; exact c2, ?_, c3, c4⟩
  · unfold reconfigure
    rw [if_neg (by rw [hd]; simp), hf]
    dsimp only at c1 ⊢
    rw [c1]
  · rw [c5]; exact g2.data' g3

theorem stages (guess : Nat × Nat → Nat → Nat) {ls : Text} {k : BufKind} (rest : List (Settings × List Op)) :
    ∀ {C : Codec} {nl : Newline} {t : Txt C} {f : Spec.Sink}, LawfulEncoder C → Outlet C nl ls k t f → t.decoder = none →
      (∀ x ∈ rest, ∀ C', x.1.encoding = some C' → LawfulEncoder C') → (∀ x ∈ rest, ∀ op ∈ x.2, SinkCall k op) →
      Stages guess ls k nl t f rest := by
  induction rest with
  | nil => intro C nl t f _ h _ _ _; exact outlet_flushed h
  | cons x rest ih =>
    intro C nl t f hC h hd he ho
    obtain ⟨a, ops⟩ := x
    obtain ⟨t', h1, h2, h3, _, h5⟩ := reconfigure_outlet h hd a
    have hC' := getD_encoder hC (he (a, ops) (by simp))
    have hops := ho (a, ops) (by simp)
    obtain ⟨f', h6, h7⟩ := h2.run hC' guess hops
    exact ⟨t', f', h1, h3, h6, ih hC' h7 (h2.unreadRun hC' guess hops h5) (fun x hx => he x (List.mem_cons_of_mem _ hx))
      fun x hx => ho x (List.mem_cons_of_mem _ hx)⟩

theorem WriterOpened.unread {nl : Newline} {ls : Text} {k : BufKind} {raw : Raw} {t : Txt C} (h : WriterOpened C nl ls k raw t) :
    t.decoder = none := by
  obtain ⟨n, b, lb, _, h2⟩ := h.built
  unfold Txt.create at h2
  split at h2
  · cases h2
  · have := Unread.configure (C := C) ⟨b, nl, lb, ls, b.raw.seekable, b.raw.seekable, none, none, [], 0, none, (0, 0)⟩ rfl
    rw [h2] at this
    exact this

/-- C115, for streams that are not read: `reconfigure()` is never refused, whatever it is asked to change and however often; it
flushes the stream; what was written before stays, what is written afterwards is encoded as the new settings say, without a
byte order mark in the middle of the file.
Missing: streams that were read, see below. -/
theorem C115_written_partial (hC : LawfulEncoder C) {nl : Newline} {ls : Text} {k : BufKind} {raw : Raw} {t : Txt C}
    (h : WriterOpened C nl ls k raw t) (guess : Nat × Nat → Nat → Nat) (ops : List Op) (hops : ∀ op ∈ ops, SinkCall k op)
    (rest : List (Settings × List Op)) (he : ∀ x ∈ rest, ∀ C', x.1.encoding = some C' → LawfulEncoder C')
    (ho : ∀ x ∈ rest, ∀ op ∈ x.2, SinkCall k op) :
    ∃ f, SinkConforms C (outgoing ls nl) k ⟨raw.data, raw.pos, raw.events⟩ (ops.zip (Txt.run guess t ops).1) f ∧
      Stages guess ls k nl (Txt.run guess t ops).2 f rest := by
  obtain ⟨f, h1, h2⟩ := h.outlet.run hC guess hops
  exact ⟨f, h1, stages guess rest hC h2 (h.outlet.unreadRun hC guess hops h.unread) he ho⟩

/-- C115: once line buffering is asked for, a text that ends a line is in the file when `write()` returns, with everything that
was written before. -/
theorem C115_lines (hC : LawfulEncoder C) {nl : Newline} {ls : Text} {k : BufKind} {raw : Raw} {t : Txt C}
    (h : WriterOpened C nl ls k raw t) (guess : Nat × Nat → Nat → Nat) (ops : List Op) (hops : ∀ op ∈ ops, SinkCall k op)
    (a : Settings) (he : ∀ C', a.encoding = some C' → LawfulEncoder C') (ha : a.lineBuffering = some true)
    (ops' : List Op) (hops' : ∀ op ∈ ops', SinkCall k op) (s : Text) (hs : 10 ∈ s) :
    ∃ t' f, reconfigure a (Txt.run guess t ops).2 = (.ok (), .inr t') ∧
      SinkConforms C (outgoing ls nl) k ⟨raw.data, raw.pos, raw.events⟩ (ops.zip (Txt.run guess t ops).1) f ∧
      ∀ n t'', Txt.write s (Txt.run guess t' ops').2 = (.ok n, t'') →
        ∃ f', SinkConforms (a.encoding.getD C) (outgoing ls (a.newline.getD nl)) k f
          ((ops' ++ [Op.write s]).zip (Txt.run guess t' (ops' ++ [Op.write s])).1) f' ∧ t''.buf.raw.data = f'.data := by
  obtain ⟨f, h1, h2⟩ := h.outlet.run hC guess hops
  obtain ⟨t', g1, g2, _, g4, _⟩ := reconfigure_outlet h2 (h.outlet.unreadRun hC guess hops h.unread) a
  refine ⟨t', f, g1, h1, fun n t'' hw => ?_⟩
  exact outlet_lines (getD_encoder hC he) g2 (by rw [g4, ha]; rfl) guess ops' hops' s (.inl hs) n t'' hw

/-! ## Streams that read -/

/-- C115: once a call has returned text, `reconfigure()` refuses to change the encoding or the newlines, whatever is called in
between, and changes nothing. -/
theorem C115_refused (guess : Nat × Nat → Nat → Nat) (t : Txt C) (op : Op) (s : Text) (h : (Txt.step guess t op).1 = .text s)
    (later : List Op) (a : Settings) (ha : a.encoding.isSome = true ∨ a.newline.isSome = true) :
    reconfigure a (Txt.run guess (Txt.step guess t op).2 later).2 =
      (.error .unsupported, .inl (Txt.run guess (Txt.step guess t op).2 later).2) := by
  unfold reconfigure
  rw [if_pos ⟨Decoding.run guess later _ (Decodes.step h), ha⟩]

/-- `_configure` changes the encoder at most, and not at the beginning of the file. -/
theorem configure_eq {t : Txt C} {f : File} (h : Buf.R t.buf f) :
    ∃ e, configure t = (.ok (), { t with encoder := e }) ∧ (f.pos = 0 → e = t.encoder) := by
  have hw : ∃ w, Txt.writable t = (.ok w, t) := by
    unfold Txt.writable
    split
    · exact ⟨_, rfl⟩
    · rw [if_neg (by rw [h.live.opened]; simp)]; exact ⟨_, rfl⟩
  obtain ⟨w, hw⟩ := hw
  unfold configure
  split
  · rw [PyM.bind_ok hw]
    cases w with
    | false => rw [if_neg (by simp)]; exact ⟨_, rfl, fun _ => rfl⟩
    | true =>
      rw [if_pos rfl, PyM.bind_ok (onBuf_eq (Buf.tell_R h))]
      by_cases hp : f.pos = 0
      · rw [hp]; exact ⟨t.encoder, rfl, fun _ => rfl⟩
      · rw [show decide (f.pos ≠ 0) = true by simpa using hp]
        exact ⟨some C.encMid, rfl, fun h0 => absurd h0 hp⟩
  · exact ⟨_, rfl, fun _ => rfl⟩

/-- C115: a stream that is reconfigured before its first call is a stream that was opened with these settings. -/
theorem C115_opened {k : BufKind} {n : Int} {raw : Raw} {b : Buf} (h : Opened k n raw b) (hb : Blocking raw.sched) (nl : Newline) (lb : Bool)
    (ls : Text) {t : Txt C} (ht : Txt.create nl lb ls b = (.ok (), t)) (a : Settings) :
    ∃ t', reconfigure a t = (.ok (), .inr t') ∧
      Txt.create (C := a.encoding.getD C) (a.newline.getD nl) (a.lineBuffering.getD lb) ls b = (.ok (), t') := by
  obtain ⟨hbe, _, hcl, _, _⟩ := create_ok h.created
  have hR := h.R hb
  have hcl' : b.raw.closed = false := by rw [hbe]; exact hcl
  have hfl : Buf.flush b = (.ok (), b) := (Idle.of_R hR (by rw [hbe])).flush
  unfold Txt.create at ht ⊢
  rw [if_neg (by rw [hcl']; simp)] at ht ⊢
  obtain ⟨e, he, _⟩ := configure_eq
    (t := (⟨b, nl, lb, ls, b.raw.seekable, b.raw.seekable, none, none, [], 0, none, (0, 0)⟩ : Txt C)) hR
  rw [he] at ht
  obtain rfl := (Prod.mk.inj ht).2
  obtain ⟨e', he', _⟩ := configure_eq
    (t := (⟨b, a.newline.getD nl, a.lineBuffering.getD lb, ls, b.raw.seekable, b.raw.seekable, none, none, [], 0, none, (0, 0)⟩ :
      Txt (a.encoding.getD C))) hR
  refine ⟨_, ?_, he'⟩
  unfold reconfigure
  rw [if_neg (by simp)]
  have hf : Txt.flush (⟨b, nl, lb, ls, b.raw.seekable, b.raw.seekable, e, none, [], 0, none, (0, 0)⟩ : Txt C) =
      (.ok (), ⟨b, nl, lb, ls, b.raw.seekable, b.raw.seekable, e, none, [], 0, none, (0, 0)⟩) := by
    unfold Txt.flush
    rw [PyM.bind_ok (onBuf_eq hfl)]; rfl
  dsimp only at hf ⊢
  rw [hf]
  dsimp only
  rw [he']

/-- C115: a stream that was read, and is moved to the beginning and then reconfigured, delivers the whole text again, and the
history of calls that follows is that of a stream that was just opened.
Missing: streams that are not moved in between, for which it is false (`C115_lost_refuted`, `C115_position_refuted`). -/
theorem C115_rewound_partial (hC : LawfulCodec C) {guess : Nat × Nat → Nat → Nat} (hg : Moderate guess) {nl : Newline} {raw : Raw} {t : Txt C}
    (h : TextOpened nl raw t) {text : Text} {d : C.Dec} (hd : C.decode C.decInit raw.data true = .ok (text, d)) (before : List Op)
    (hb : ∀ op ∈ before, Always op) (lb : Option Bool) :
    ∃ (t₁ t₂ : Txt C) (log : List RawEv), Txt.step guess (Txt.run guess t before).2 (.seek (.to (some origin))) = (.cookie origin, t₁) ∧
      reconfigure { lineBuffering := lb } t₁ = (.ok (), .inr t₂) ∧
      ∀ ops, ∃ pre post f, ops = pre ++ post ∧
        TextConforms nl ⟨raw.data, incoming nl text, [(origin, incoming nl text)], false, false, log⟩ (pre.zip (t₂.run guess pre).1) f ∧
        (post = [] ∨ ∃ op rest, post = op :: rest ∧ ¬ TextCall f op) := by
  obtain ⟨Ok, L, d', hs⟩ := whole (nl := nl) hC hd
  obtain ⟨x, h1, _, h3⟩ := run_always hg L before hb t _ (h.stands L hs)
  obtain ⟨f, hr, hfd, hfl⟩ := h1.reading
  generalize Txt.run guess t before = q at h1 hr
  obtain ⟨outs, u⟩ := q
  dsimp only at h1 hr ⊢
  -- `seek(0)`
  obtain ⟨b1, f1, f2⟩ := hr.holds.buf.flush
  obtain ⟨b2, g1, g2⟩ := f2.seekTo 0
  have hfl1 : Txt.flush u = (.ok (), { u with buf := b1, telling := u.seekable }) := by
    unfold Txt.flush
    rw [PyM.bind_ok (onBuf_eq f1)]; rfl
  have hseek : ∃ dec, Txt.seek guess (.to (some origin)) u = (.ok origin,
      { u with buf := b2, telling := u.seekable, chars := [], used := 0, snapshot := none, decoder := dec, encoder := some C.encInit }) := by
    unfold Txt.seek
    rw [PyM.bind_ok hr.holds.checkClosed]
    rw [if_neg (by rw [hr.holds.seekable]; simp)]
    dsimp only
    unfold Txt.seekTo
    rw [PyM.bind_ok hfl1, PyM.bind_ok (onBuf_eq (t := { u with buf := b1, telling := u.seekable })
      (m := Buf.seek ((origin.position : Nat) : Int) .set) g1)]
    obtain ⟨v0, v1, v2, v3, v4, v5, v6, v7, v8, v9, v10, v11⟩ := u
    cases v7 with
    | none => exact ⟨none, rfl⟩
    | some x => exact ⟨some (C.decInit, false), rfl⟩
  obtain ⟨dec, hseek⟩ := hseek
  obtain ⟨b3, k1, k2⟩ := g2.flush
  refine ⟨_, untouched C nl (lb.getD u.lineBuffering) u.linesep none b3, f.log, by unfold Txt.step; dsimp only; rw [hseek]; rfl, ?_, ?_⟩
  · have hfl2 : ∀ e, Txt.flush ({ u with buf := b2, telling := u.seekable, chars := [], used := 0, snapshot := none, decoder := dec, encoder := e } : Txt C) =
        (.ok (), { u with buf := b3, telling := u.seekable, chars := [], used := 0, snapshot := none, decoder := dec, encoder := e }) := by
      intro e
      unfold Txt.flush
      rw [PyM.bind_ok (onBuf_eq k1)]; rfl
    unfold reconfigure
    rw [if_neg (by simp), hfl2]
    dsimp only [Option.getD]
    have hR : Buf.R b3 { f with pos := 0, ahead := false } := k2.rep
    obtain ⟨e, he, he0⟩ := configure_eq (t := (⟨b3, u.newline, lb.getD u.lineBuffering, u.linesep, u.seekable, u.seekable, none, none, [], 0,
      none, (0, 0)⟩ : Txt C)) hR
    rw [he0 rfl] at he
    rw [hr.holds.newline, hr.holds.seekable] at he
    rw [hr.holds.newline, hr.holds.seekable]
    change (match configure (C := C) ⟨b3, nl, lb.getD u.lineBuffering, u.linesep, true, true, none, none, [], 0, none, (0, 0)⟩ with
      | (r, t') => (r, Sum.inr t')) = _
    rw [he]
    rfl
  · intro ops
    have hdat : f.data = raw.data := hfd.trans h3
    have hst := untouched_stands L (lb.getD u.lineBuffering) u.linesep none k2 rfl (s := incoming nl text) (d := d') (by
      dsimp only; rw [hdat]; exact hs)
    dsimp only at hst
    rw [hdat] at hst
    obtain ⟨pre, post, x', e1, e2, _, e4⟩ := run_spec L hg ops _ _ hst
    exact ⟨pre, post, x', e1, e2, e4⟩

/-! ## What is false -/

/-- The stream after `reconfigure(line_buffering=b)`. -/
def relined (t : Txt C) (b : Bool) : Txt C :=
  match reconfigure { lineBuffering := some b } t with
  | (_, .inl t) => t
  | (_, .inr t) => t

/-- The claim of C115 for streams that were read: a call of `reconfigure` that only sets the line buffering does not change what
the next call returns. -/
def SameAnswer (op : Op) : Prop :=
  ∀ (C : Codec) (nl : Newline) (raw : Raw) (t : Txt C) (text : Text) (d : C.Dec) (before : List Op) (b : Bool), LawfulCodec C → TextOpened nl raw t →
    C.decode C.decInit raw.data true = .ok (text, d) → (∀ op ∈ before, Always op) →
    (Txt.step quotient (relined (Txt.run quotient t before).2 b) op).1 = (Txt.step quotient (Txt.run quotient t before).2 op).1

/-- `"a\rb"`, of which a first read delivers two bytes. -/
def splitStream : Txt latin1 := textStream latin1 .auto 8 [97, 13, 98] [.count 2]

theorem splitStream_opened : TextOpened .auto { rawOf [97, 13, 98] [.count 2] with writable := false } splitStream :=
  textStream_opened latin1 .auto 8 (by decide) _ _ (by intro a ha; rw [List.mem_singleton.1 ha]; exact ⟨2, rfl, by decide⟩)

theorem splitStream_reads : ∀ op ∈ [Op.read (some 1)], Always op := by
  intro op hop
  rw [List.mem_singleton.1 hop]
  exact fun _ => trivial

/-- C115 is false for streams that were read: what the decoder has not delivered yet is lost.  Here it is the end of a line. -/
theorem C115_lost_refuted : ¬ SameAnswer (.read none) := by
  intro h
  have := h latin1 .auto _ splitStream [97, 13, 98] () [.read (some 1)] true latin1_lawful splitStream_opened rfl splitStream_reads
  revert this
  decide +kernel

/-- C115 is false for the position: `tell()` raises `AssertionError` after `reconfigure()`. -/
theorem C115_position_refuted : ¬ SameAnswer .tell := by
  intro h
  have := h latin1 .auto _ (textStream latin1 .auto 8 [97, 98] []) [97, 98] () [.read (some 1)] true latin1_lawful
    (textStream_opened latin1 .auto 8 (by decide) _ _ blocking_nil) rfl splitStream_reads
  revert this
  decide +kernel

/-- C115 is false for locking: `lock_file()` raises `AssertionError` after `reconfigure()`. -/
theorem C115_lock_refuted : ¬ SameAnswer (.lock [97, 98]) := by
  intro h
  have := h latin1 .auto _ (textStream latin1 .auto 8 [97, 98] []) [97, 98] () [.read (some 1)] true latin1_lawful
    (textStream_opened latin1 .auto 8 (by decide) _ _ blocking_nil) rfl splitStream_reads
  revert this
  decide +kernel

example : (Txt.step quotient (relined (Txt.run quotient splitStream [.read (some 1)]).2 true) (.read none)).1 = .text [98] ∧
    (Txt.step quotient (Txt.run quotient splitStream [.read (some 1)]).2 (.read none)).1 = .text [10, 98] ∧
    (Txt.step quotient (relined (Txt.run quotient splitStream [.read (some 2)]).2 true) .tell).1 = .error .assertionError := by
  decide +kernel

/-- The claim that the encoding and the newlines are fixed once text was read, with calls of `reconfigure` in between. -/
def FixedOnceRead : Prop :=
  ∀ (C : Codec) (t : Txt C) (op : Op) (s : Text) (b : Bool) (a : Settings), (Txt.step quotient t op).1 = .text s → a.newline.isSome = true →
    (reconfigure a (relined (Txt.step quotient t op).2 b)).1 = .error .unsupported

/-- False: a first `reconfigure(line_buffering=True)` lets a second one change the newlines in the middle of the text. -/
theorem C115_fixed_refuted : ¬ FixedOnceRead := by
  intro h
  have := h latin1 splitStream (.read (some 1)) [97] true { newline := some .lf } (by decide +kernel) rfl
  have h2 : (match (reconfigure { newline := some .lf } (relined (Txt.step quotient splitStream (.read (some 1))).2 true)).1 with
      | .ok _ => true
      | .error _ => false) = true := by decide +kernel
  rw [this] at h2
  cases h2

/-- A writer of UTF-16 on a pipe: a stream that has no position. -/
def pipeWriter : Txt utf16 := (Txt.create .auto false [10] ⟨.writer, 4, { rawOf [] [] with seekable := false }, [], 0, []⟩).2

/-- The claim that `reconfigure(line_buffering=b)` does not change what is written, for all streams. -/
def SameBytes : Prop :=
  ∀ (C : Codec) (nl : Newline) (ls : Text) (n : Int) (raw : Raw) (b : Buf) (t : Txt C) (s s' : Text) (lb lb' : Bool), LawfulEncoder C →
    Buf.create .writer n raw = .ok b → Txt.create nl lb ls b = (.ok (), t) →
    (Txt.flush (Txt.run quotient (relined (Txt.run quotient t [.write s]).2 lb') [.write s']).2).2.buf.raw.data =
      (Txt.flush (Txt.run quotient t [.write s, .write s']).2).2.buf.raw.data

/-- False for pipes: the next text begins with another byte order mark. -/
theorem C115_bom_refuted : ¬ SameBytes := by
  intro h
  have := h utf16 .auto [10] 4 { rawOf [] [] with seekable := false } ⟨.writer, 4, { rawOf [] [] with seekable := false }, [], 0, []⟩ pipeWriter
    [65] [66] false true utf16_encoder rfl rfl
  revert this
  decide +kernel

example : (Txt.flush (Txt.run quotient (relined (Txt.run quotient pipeWriter [.write [65]]).2 true) [.write [66]]).2).2.buf.raw.data =
    [0xFF, 0xFE, 65, 0, 0xFF, 0xFE, 66, 0] := by decide +kernel

/-! ## Examples -/

/-- A stream for writing UTF-16 that is not at rest: something is in its buffer. -/
def exWide : Txt utf16 := textWriter utf16 .auto .writer 4 [] 0 []

theorem exWide_opened : WriterOpened utf16 .auto [13, 10] .writer { rawOf [] [] with pos := 0 } exWide :=
  textWriter_opened utf16 .auto (by nofun) 4 (by decide) [] 0 [] blocking_nil

-- the hypotheses of `C115_written_partial`: another encoding, and then other newlines; one byte order mark
example : ∃ f, SinkConforms utf16 (outgoing [13, 10] .auto) .writer ⟨[], 0, []⟩ [(.write [65], .num 1)] f ∧
    Stages quotient [13, 10] .writer .auto (Txt.run quotient exWide [.write [65]]).2 f
      [({ encoding := some latin1 }, [.write [66, 10]]), ({ newline := some .lf, lineBuffering := some true }, [.write [67, 10], .tell])] :=
  C115_written_partial utf16_encoder exWide_opened quotient [.write [65]] (by intro op h; rw [List.mem_singleton.1 h]; trivial) _
    (by
      intro x hx C' hC'
      rcases List.mem_cons.1 hx with rfl | hx
      · cases hC'; exact latin1_encoder
      · rw [List.mem_singleton.1 hx] at hC'; cases hC')
    (by
      intro x hx op hop
      rcases List.mem_cons.1 hx with rfl | hx
      · rw [List.mem_singleton.1 hop]; trivial
      · rw [List.mem_singleton.1 hx] at hop
        rcases List.mem_cons.1 hop with rfl | hop
        · trivial
        · rw [List.mem_singleton.1 hop]; trivial)

example : (Txt.flush (Txt.run quotient (relined (Txt.run quotient exWide [.write [65]]).2 true) [.write [66, 10]]).2).2.buf.raw.data =
    [0xFF, 0xFE, 65, 0, 66, 0, 13, 0, 10, 0] := by decide +kernel

-- the hypotheses of `C115_lines`
example : (Txt.run quotient (relined (Txt.run quotient exWide [.write [65]]).2 true) [.write [10]]).2.buf.raw.data =
    [0xFF, 0xFE, 65, 0, 13, 0, 10, 0] ∧ (relined exWide true).lineBuffering = true := by decide +kernel

-- the hypothesis of `C115_refused`
example : (Txt.step quotient splitStream (.read (some 1))).1 = .text [97] := by decide +kernel

-- the hypotheses of `C115_rewound_partial`, and what follows the movement
example : (Txt.run quotient (relined (Txt.run quotient splitStream [.read (some 1), .seek (.to (some origin))]).2 true) [.tell, .read none]).1 =
    [.cookie origin, .text [97, 10, 98]] ∧ Always (.read (some 1)) := ⟨by decide +kernel, fun _ => trivial⟩

end Verif.Props
