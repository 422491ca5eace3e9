import Verif.Props.Detach
import Verif.Props.TextWriting
import Verif.Model.TextDetach

/-!
# C120: `detach()` of text streams
-/

set_option autoImplicit false

namespace Verif.Props

open Verif Verif.Spec Verif.Txt

variable {C D : Codec}

/-- The file of the reference for texts, as the reference for bytes sees it. -/
def asFile (f : Spec.Sink) : File := ⟨f.data, f.pos, false, f.log⟩

/-- The file of the reference for bytes, as the reference for texts sees it. -/
def asSink (f : File) : Spec.Sink := ⟨f.data, f.pos, f.log⟩

theorem sink_snoc {tl : Text → Text} {k : BufKind} {f f' f'' : Spec.Sink} {h : List (Op × Out)} {op : Op} {out : Out}
    (h1 : SinkConforms C tl k f h f') (h2 : SinkAllowed C tl k f' op out f'') : SinkConforms C tl k f (h ++ [(op, out)]) f'' := by
  induction h1 with
  | nil f => exact .cons h2 (.nil _)
  | cons ha _ ih => exact .cons ha (ih h2)

theorem outlet_self {nl : Newline} {ls : Text} {k : BufKind} {u : Txt D} {f : Spec.Sink} (h : Outlet D nl ls k u f) :
    Outlet D u.newline u.linesep k u f := by
  have h1 := h.newline
  have h2 := h.linesep
  subst h1 h2
  exact h

/-- What the calls of the buffered stream and of the new text stream have made of the file. -/
structure Continued (k : BufKind) (f : Spec.Sink) (hb : List (StreamOp × StreamOut)) (h2 : List (Op × Out)) (w : TextHanded C D)
    (g : File) : Prop where
  bytes : Conforms k (asFile f) hb g
  waiting : w.new = none → h2 = [] ∧ Buf.R w.buf g ∧ (hb = [] → w.buf.writeBuf = []) ∧ w.buf.kind = k
  texts : g.ahead = false → ∀ u, w.new = some u → ∃ g', SinkConforms D (outgoing u.linesep u.newline) k (asSink g) h2 g' ∧
    Outlet D u.newline u.linesep k { u with buf := w.buf } g'

/-- What the calls so far have made of the file. -/
structure TextPassed (C D : Codec) (nl : Newline) (ls : Text) (k : BufKind) (f0 : Spec.Sink) (h1 : List (Op × Out))
    (hb : List (StreamOp × StreamOut)) (h2 : List (Op × Out)) (w : TextHanded C D) (f : Spec.Sink) : Prop where
  before : SinkConforms C (outgoing ls nl) k f0 h1 f
  attached : w.attached = true → hb = [] ∧ h2 = [] ∧ w.new = none ∧ Outlet C nl ls k { w.old with buf := w.buf } f
  after : w.attached = false → (∃ g, Continued k f hb h2 w g) ∨ Excluded k (asFile f) hb

theorem text_detach_done {nl : Newline} {ls : Text} {k : BufKind} {w : TextHanded C D} {f : Spec.Sink} (ha : w.attached = true)
    (h : Outlet C nl ls k { w.old with buf := w.buf } f) :
    ∃ t, w.detach = (.ok (), { w with buf := t.buf, old := t, attached := false }) ∧ Buf.R t.buf (asFile f) ∧ t.buf.kind = k ∧
      t.buf.writeBuf = [] := by
  obtain ⟨b', h1, h2, h3, h4, _⟩ := Buf.flush_R h.buf
  have hf : Txt.flush ({ w.old with buf := w.buf } : Txt C) = (.ok (), { w.old with buf := b', telling := w.old.seekable }) := by
    unfold Txt.flush
    rw [PyM.bind_ok (onBuf_eq h1)]; rfl
  refine ⟨{ w.old with buf := b', telling := w.old.seekable }, ?_, h2, h4.trans h.kind, h3⟩
  unfold TextHanded.detach
  rw [if_pos ha, hf]

theorem text_passed (hC : LawfulEncoder C) (hD : LawfulEncoder D) {guess : Nat × Nat → Nat → Nat} {nl : Newline} {ls : Text}
    {k : BufKind} {raw : Raw} {t : Txt C} (ht : WriterOpened C nl ls k raw t) {h1 h2 : List (Op × Out)}
    {hb : List (StreamOp × StreamOut)} {w : TextHanded C D} (hr : TextHanded.Ran guess (TextHanded.start t) h1 hb h2 w) :
    (∀ x ∈ h1, SinkCall k x.1) → (∀ x ∈ h2, SinkCall k x.1) →
      ∃ f, TextPassed C D nl ls k ⟨raw.data, raw.pos, raw.events⟩ h1 hb h2 w f := by
  induction hr with
  | start => exact fun _ _ => ⟨_, .nil _, fun _ => ⟨rfl, rfl, rfl, ht.outlet⟩, nofun⟩
  | @old h1 h2 hb w op _ ha ih =>
    intro c1 c2
    obtain ⟨f, hp⟩ := ih (fun x hx => c1 x (List.mem_append_left _ hx)) c2
    obtain ⟨e1, e2, e3, e4⟩ := hp.attached ha
    obtain ⟨f', g1, g2⟩ := e4.step hC guess (c1 (op, _) (List.mem_append_right _ (List.mem_singleton.2 rfl)))
    refine ⟨f', ?_⟩
    unfold TextHanded.callOld
    rw [if_pos ha]
    dsimp only
    generalize ({ w.old with buf := w.buf } : Txt C).step guess op = q at g1 g2
    refine ⟨sink_snoc hp.before g1, fun _ => ⟨e1, e2, e3, g2⟩, ?_⟩
    dsimp only; rw [ha]; nofun
  | @detach h1 h2 hb w _ ih =>
    intro c1 c2
    obtain ⟨f, hp⟩ := ih c1 c2
    refine ⟨f, ?_⟩
    by_cases ha : w.attached = true
    · obtain ⟨e1, e2, e3, e4⟩ := hp.attached ha
      obtain ⟨u, g1, g2, g3, g4⟩ := text_detach_done ha e4
      rw [g1]
      dsimp only
      refine ⟨hp.before, nofun, fun _ => .inl ⟨asFile f, by rw [e1]; exact .nil _, fun _ => ⟨e2, g2, fun _ => g4, g3⟩, fun _ u hu => ?_⟩⟩
      dsimp only at hu; rw [e3] at hu; cases hu
    · have : w.detach.2 = w := by unfold TextHanded.detach; rw [if_neg ha]
      rw [this]
      exact hp
  | @orphan h1 h2 hb w op _ ha ih =>
    intro c1 c2
    obtain ⟨f, hp⟩ := ih c1 c2
    refine ⟨f, ?_⟩
    unfold TextHanded.callOld
    rw [if_neg (by rw [ha]; decide)]
    refine ⟨hp.before, fun h => absurd (ha.symm.trans h) (by decide), fun _ => ?_⟩
    rcases hp.after ha with ⟨g, hg⟩ | h
    · exact .inl ⟨g, hg.bytes, hg.waiting, hg.texts⟩
    · exact .inr h
  | @buf h1 h2 hb w op _ ha hn ih =>
    intro c1 c2
    obtain ⟨f, hp⟩ := ih c1 c2
    refine ⟨f, hp.before, fun h => absurd (ha.symm.trans h) (by decide), fun _ => ?_⟩
    rcases hp.after ha with ⟨g, hg⟩ | ⟨pre, o, out, rest, f', k1, k2⟩
    · obtain ⟨e1, e2, _, e3⟩ := hg.waiting hn
      by_cases hu : Unsafe k g op
      · exact .inr ⟨_, op, _, [], g, rfl, hg.bytes, hu⟩
      · obtain ⟨g', g1, g2⟩ := Buf.step_R e2 op (by rw [e3]; exact hu)
        have g3 := (Buf.step_keeps w.buf op).1
        rw [e3] at g1 g3
        refine .inl ⟨g', conforms_snoc hg.bytes g1, fun _ => ⟨e1, g2, fun h => by simp at h, g3⟩, fun _ u hu => ?_⟩
        exact absurd (hn.symm.trans hu) nofun
    · exact .inr ⟨pre, o, out, _, f', by rw [k1, List.append_assoc]; rfl, k2⟩
  | @wrap h1 h2 hb w nl' lb' ls' u _ ha hn hc ih =>
    intro c1 c2
    obtain ⟨f, hp⟩ := ih c1 c2
    refine ⟨f, hp.before, fun h => absurd (ha.symm.trans h) (by decide), fun _ => ?_⟩
    rcases hp.after ha with ⟨g, hg⟩ | h
    · obtain ⟨e1, e2, _, e3⟩ := hg.waiting hn
      refine .inl ⟨g, hg.bytes, nofun, fun hah v hv => ?_⟩
      cases hv
      have hgf : (⟨(asSink g).data, (asSink g).pos, false, (asSink g).log⟩ : File) = g := by rw [← hah]; rfl
      have ho : Outlet D nl' ls' k u (asSink g) := Outlet.create (by rw [hgf]; exact e2) e3 ht.notReader lb' hc
      exact ⟨asSink g, by rw [e1]; exact .nil _, outlet_self ho⟩
    · exact .inr h
  | @new h1 h2 hb w u op _ hn ih =>
    intro c1 c2
    obtain ⟨f, hp⟩ := ih c1 (fun x hx => c2 x (List.mem_append_left _ hx))
    refine ⟨f, hp.before, fun h => ?_, fun ha => ?_⟩
    · have := (hp.attached h).2.2.1; rw [hn] at this; cases this
    · rcases hp.after ha with ⟨g, hg⟩ | h
      · refine .inl ⟨g, hg.bytes, nofun, fun hah v hv => ?_⟩
        obtain ⟨g', k1, k2⟩ := hg.texts hah u hn
        obtain ⟨g2, k3, k4⟩ := k2.step hD guess (c2 (op, _) (List.mem_append_right _ (List.mem_singleton.2 rfl)))
        unfold TextHanded.callNew at hv ⊢
        dsimp only at hv ⊢
        generalize ({ u with buf := w.buf } : Txt D).step guess op = q at k3 k4 hv
        cases hv
        refine ⟨g2, ?_, ?_⟩
        · rw [k4.newline, k4.linesep]; exact sink_snoc k1 k3
        · exact outlet_self k4
      · exact .inr h

/-- C120: `detach()` succeeds; then all texts that were written are in the file, the locks are as before, and the buffered stream, which
is open, is where the text stream was: whatever is done with the first stream, calls of the buffered stream, and of a new text stream
that is made from it, with any encoding and newlines, go on there.  (Up to the first call of the buffered stream that C23 excludes,
and if the buffered stream was not read immediately before the new text stream was made.)
Missing: streams that were read, for which it is false (`C120_refuted`) without a movement before the detach (`C120_moved`). -/
theorem C120_handover_partial (hC : LawfulEncoder C) (hD : LawfulEncoder D) {guess : Nat × Nat → Nat → Nat} {nl : Newline} {ls : Text}
    {k : BufKind} {raw : Raw} {t : Txt C} (ht : WriterOpened C nl ls k raw t) {h1 h2 : List (Op × Out)}
    {hb : List (StreamOp × StreamOut)} {w : TextHanded C D} (hr : TextHanded.Ran guess (TextHanded.start t) h1 hb h2 w)
    (c1 : ∀ x ∈ h1, SinkCall k x.1) (c2 : ∀ x ∈ h2, SinkCall k x.1) :
    ∃ f, SinkConforms C (outgoing ls nl) k ⟨raw.data, raw.pos, raw.events⟩ h1 f ∧
      (w.attached = true → w.detach.1 = .ok () ∧ w.detach.2.attached = false ∧ w.detach.2.buf.raw.data = f.data ∧
        w.detach.2.buf.raw.pos = f.pos ∧ w.detach.2.buf.raw.events = f.log ∧ w.detach.2.buf.raw.closed = false) ∧
      (w.attached = false → Excluded k (asFile f) hb ∨ ∃ g, Conforms k (asFile f) hb g ∧
        (w.new = none → (Buf.flush w.buf).1 = .ok () ∧ (Buf.flush w.buf).2.raw.data = g.data ∧ (hb = [] → w.buf.raw.data = f.data)) ∧
        (g.ahead = false → ∀ u, w.new = some u → ∃ g', SinkConforms D (outgoing u.linesep u.newline) k (asSink g) h2 g' ∧
          (Txt.flush ({ u with buf := w.buf } : Txt D)).1 = .ok () ∧
          (Txt.flush ({ u with buf := w.buf } : Txt D)).2.buf.raw.data = g'.data)) := by
  obtain ⟨f, hp⟩ := text_passed hC hD ht hr c1 c2
  refine ⟨f, hp.before, fun ha => ?_, fun ha => ?_⟩
  · obtain ⟨_, _, _, e4⟩ := hp.attached ha
    obtain ⟨u, g1, g2, _, g4⟩ := text_detach_done ha e4
    rw [g1]
    refine ⟨rfl, rfl, g2.data' g4, ?_, g2.log.symm, g2.live.opened⟩
    dsimp only
    rw [show u.buf.raw.pos = _ from g2.pos' g4, Buf.extra, g2.ahead rfl]
    simp [asFile]
  · rcases hp.after ha with ⟨g, hg⟩ | h
    · refine .inr ⟨g, hg.bytes, fun hn => ?_, fun hah u hu => ?_⟩
      · obtain ⟨_, e2, e3, _⟩ := hg.waiting hn
        obtain ⟨b', k1, k2, k3, _⟩ := Buf.flush_R e2
        refine ⟨by rw [k1], by rw [k1]; exact k2.data' k3, fun hb0 => ?_⟩
        have hby := hg.bytes
        rw [hb0] at hby
        cases hby
        exact e2.data' (e3 hb0)
      · obtain ⟨g', k1, k2⟩ := hg.texts hah u hu
        exact ⟨g', k1, outlet_flushed k2⟩
    · exact .inl h

/-- C120: a stream that was read, and written in wrong places, or whose reads failed, is handed over correctly after a movement to an
offset or to the end. -/
theorem C120_moved {guess : Nat × Nat → Nat → Nat} {nl : Newline} {ls : Text} {k : BufKind} {raw : Raw} {t : Txt C}
    (ht : WriterOpened C nl ls k raw t) (before : List Op) (hclose : .close ∉ before) (htrunc : k = .random → ∀ a, .truncate a ∉ before)
    (m : Movement) (hm : m = .toEnd ∨ ∃ p, m = .to (some (offset p))) (ops : List StreamOp) :
    ∃ p t', Txt.step guess (Txt.run guess t before).2 (.seek m) = (.cookie (offset p), t') ∧
      (m = .toEnd → p = t'.buf.raw.data.length) ∧ (∀ q, m = .to (some (offset q)) → p = q) ∧
      (TextHanded.start (D := D) t').detach.1 = .ok () ∧
      let b := (TextHanded.start (D := D) t').detach.2.buf
      b.raw.data = t'.buf.raw.data ∧ b.raw.pos = p ∧
      ∃ pre post f, ops = pre ++ post ∧ Conforms k ⟨t'.buf.raw.data, p, false, t'.buf.raw.events⟩ (pre.zip (b.run pre).1) f ∧
        (post = [] ∨ ∃ op rest, post = op :: rest ∧ Unsafe k f op) := by
  obtain ⟨f, hf⟩ := ht.ready guess hclose htrunc
  generalize (Txt.run guess t before).2 = t0 at hf
  have key : ∃ p t', Txt.seek guess m t0 = (.ok (offset p), t') ∧ (m = .toEnd → p = f.data.length) ∧
      (∀ q, m = .to (some (offset q)) → p = q) ∧ Outlet C nl ls k t' ⟨f.data, p, f.log⟩ ∧ t'.buf.writeBuf = [] := by
    rcases hm with rfl | ⟨p, rfl⟩
    · obtain ⟨t', h1, h2, h3⟩ := Outlet.seekEnd' hf guess
      exact ⟨_, t', h1, fun _ => rfl, nofun, h2, h3⟩
    · obtain ⟨t', h1, h2, h3⟩ := Outlet.seekTo' hf p
      refine ⟨p, t', ?_, nofun, fun q hq => ?_, h2, h3⟩
      · unfold Txt.seek
        rw [PyM.bind_ok hf.checkClosed]
        simp only [hf.seekable, Bool.not_true, Bool.false_eq_true, if_false]
        exact h1
      · have := congrArg (fun m => match m with | .to (some c) => c.position | _ => 0) hq
        exact this
  obtain ⟨p, t', h1, h2, h3, h4, h5⟩ := key
  have hd : t'.buf.raw.data = f.data := h4.buf.data' h5
  have hl : t'.buf.raw.events = f.log := h4.buf.log.symm
  obtain ⟨u, g1, g2, g3, g4⟩ := text_detach_done (D := D) (w := TextHanded.start t') rfl h4
  refine ⟨p, t', by simp only [Txt.step, h1]; rfl, by rw [hd]; exact h2, h3, by rw [g1], ?_⟩
  rw [g1]
  dsimp only
  refine ⟨(g2.data' g4).trans hd.symm, ?_, ?_⟩
  · rw [show u.buf.raw.pos = _ from g2.pos' g4, Buf.extra, g2.ahead rfl]
    simp [asFile]
  · obtain ⟨pre, post, f', e1, e2, _, _, e3⟩ := Buf.run_R ops u.buf _ g2
    rw [g3] at e2 e3
    rw [hd, hl]
    exact ⟨pre, post, f', e1, e2, e3⟩

/-- C120: nothing is lost, whatever the system answers: `detach()` either returns, with all pending bytes in the file, or it raises, and
the stream keeps the buffered stream, with the bytes that are not yet in the file. -/
theorem C120_nothing_lost (w : TextHanded C D) (ha : w.attached = true) (hu : Usable w.buf) :
    (w.detach.1 = .ok () ∧ w.detach.2.attached = false ∧ w.detach.2.buf.raw.data = pendingData w.buf ∧ w.detach.2.buf.writeBuf = []) ∨
      ∃ e, w.detach.1 = .error e ∧ w.detach.2.attached = true ∧ pendingData w.detach.2.buf = pendingData w.buf := by
  obtain ⟨r, b', j, h1, h2⟩ := flush_usable hu
  unfold TextHanded.detach
  rw [if_pos ha]
  cases r with
  | ok u =>
    have hf : Txt.flush ({ w.old with buf := w.buf } : Txt C) = (.ok (), { w.old with buf := b', telling := w.old.seekable }) := by
      unfold Txt.flush
      rw [PyM.bind_ok (onBuf_eq h1)]; rfl
    rw [hf]
    exact .inl ⟨rfl, rfl, (flush_done hu h1).1, (flush_done hu h1).2.1⟩
  | error e =>
    have hf : Txt.flush ({ w.old with buf := w.buf } : Txt C) = (.error e, { w.old with buf := b' }) := by
      unfold Txt.flush
      exact PyM.bind_error (onBuf_eq h1)
    rw [hf]
    exact .inr ⟨e, rfl, ha, pending_left hu h2⟩

/-- C120: a second `detach()` raises `ValueError`; every other call of the first stream raises, except `close()`, which does nothing; none
has an effect on the buffered stream or on the new one. -/
theorem C120_orphan (guess : Nat × Nat → Nat → Nat) (w : TextHanded C D) (ha : w.attached = false) :
    w.detach = (.error .valueError, w) ∧ w.callOld guess .close = (.done, w) ∧
      ∀ op, (op ≠ .close → ∃ e, (w.callOld guess op).1 = .error e) ∧ (w.callOld guess op).2.buf = w.buf ∧
        (w.callOld guess op).2.new = w.new ∧ (w.callOld guess op).2.attached = false := by
  refine ⟨?_, ?_, fun op => ?_⟩
  · unfold TextHanded.detach; rw [ha]; rfl
  · unfold TextHanded.callOld; rw [if_neg (by rw [ha]; decide)]; rfl
  · unfold TextHanded.callOld
    rw [if_neg (by rw [ha]; decide)]
    refine ⟨fun hc => ?_, rfl, rfl, ha⟩
    cases op <;> first | exact ⟨_, rfl⟩ | exact absurd rfl hc

/-! ## Examples -/

/-- What is written, before and after. -/
def exTextOld : Txt utf16 := textWriter utf16 .auto .writer 4 [] 0 [.count 1]

-- the first stream writes in utf-16; then bytes are written; a stream in utf-8 goes on; the first one is closed meanwhile
example : ∃ h1 hb h2, ∃ w : TextHanded utf16 utf8, TextHanded.Ran quotient (TextHanded.start exTextOld) h1 hb h2 w ∧
    h1.map (·.2) = [.num 1] ∧ hb.map (·.2) = [.num 4, .num 1] ∧ h2.map (·.2) = [.num 2, .cookie (offset 10)] ∧
    w.buf.raw.data = [0xFF, 0xFE, 65, 0, 1, 0xE2, 0x82, 0xAC, 13, 10] := by
  refine ⟨_, _, _, _, .new .tell (.orphan .close (.new (.write [8364, 10]) (.wrap (nl := .auto) (lb := false) (ls := [13, 10])
    (.buf (.write [1]) (.buf .tell (.detach (.old (.write [65]) .start rfl)) rfl rfl) rfl rfl) rfl rfl rfl) rfl) rfl) rfl, ?_, ?_, ?_, ?_⟩
  all_goals decide +kernel

example : WriterOpened utf16 .auto [13, 10] .writer { rawOf [] [.count 1] with pos := 0 } exTextOld :=
  textWriter_opened utf16 .auto (by nofun) 4 (by decide) [] 0 _ (by
    intro a ha
    rcases List.mem_cons.1 ha with rfl | ha
    · exact ⟨_, rfl, by omega⟩
    · cases ha)

-- a stream that was read, and then moved
example : (TextHanded.start (D := utf8) (Txt.run quotient (textWriter utf8 .auto .random 4 digits 0 []) [.read (some 1),
    .seek (.to (some (offset 3)))]).2).detach.2.buf.raw.pos = 3 := by decide +kernel

-- a `detach()` that fails, and is repeated
example :
    let w : TextHanded utf8 utf8 := TextHanded.start (textWriter utf8 .auto .writer 4 [] 0 [.count 1, .fail 28])
    let w' := (w.callOld quotient (.write [65, 66, 67])).2
    (match w'.detach.1 with | .error (.ioError n) => some n | _ => none) = some 28 ∧ w'.detach.2.buf.raw.data = [65] ∧
      w'.detach.2.attached = true ∧ w'.detach.2.detach.2.buf.raw.data = [65, 66, 67] ∧ w'.detach.2.detach.2.attached = false := by
  decide +kernel

/-! ## What goes wrong -/

/-- The claim of C120 for reading: the next stream, `u`, reads on where the first one was. -/
def TextReadsOn : Prop :=
  ∀ (guess : Nat × Nat → Nat → Nat), Moderate guess → ∀ (ls : Text) (raw : Raw) (t : Txt latin1), WriterOpened latin1 .lf ls .random raw t →
    ∀ (n : Nat) (a b : Text), let r := (TextHanded.start (D := latin1) t).callOld guess (.read (some n))
      let w := r.2.detach.2
      let u : Txt latin1 := (Txt.create .lf false ls w.buf).2
      r.1 = .text a → r.2.detach.1.isOk = true → ((w.wrap u).callNew guess u (.read none)).1 = .text b →
        a ++ b = (raw.data.drop raw.pos).map UInt8.toNat

/-- A file with three characters. -/
def exTextRead : Txt latin1 := textWriter latin1 .lf .random 4 [97, 98, 99] 0 []

/-- C120, refuted for reading: after the first stream read one character, the next stream reads nothing, as `detach()` drops the chunk
that was read ahead. -/
theorem C120_refuted : ¬ TextReadsOn := by
  intro h
  have := h quotient quotient_moderate _ _ exTextRead (textWriter_opened latin1 .lf (by nofun) 4 (by decide) [97, 98, 99] 0 [] blocking_nil)
    1 [97] [] (by decide +kernel) (by decide +kernel) (by decide +kernel)
  exact absurd this (by decide)

end Verif.Props
