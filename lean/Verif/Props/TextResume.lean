import Verif.Lemmas.TextResume
import Verif.Props.TextBoth

/-!
# C105: reading after writing
-/

set_option autoImplicit false

namespace Verif.Props

open Verif Verif.Spec Verif.Txt

variable {C : Codec} {nl : Newline} {ls : Text}

/-- A write that returned. -/
theorem write_ready {t t' : Txt C} {f : File} (h : Txt.Ready nl ls .random t f) (hs : Snapped t) {s : Text} {n : Nat}
    (hw : Txt.write s t = (.ok n, t')) :
    n = s.length ∧ ∃ b enc a, C.encode (t.encoder.getD C.encInit) (outgoing ls nl s) = .ok (b, enc) ∧
      Txt.Ready nl ls .random t' ⟨put f.data f.pos b, f.pos + b.length, a, f.log⟩ ∧ Snapped t' ∧ t'.snapshot = none ∧ t'.dec = (C.decInit, false) := by
  obtain ⟨hs1, hs2, hs3⟩ := StaysSnapped.write s t hs
  rw [hw] at hs1 hs2 hs3
  unfold Txt.write at hw
  rw [PyM.bind_ok h.checkClosed, newlines_eq, h.newline, h.linesep] at hw
  cases he : C.encode (t.encoder.getD C.encInit) (outgoing ls nl s) with
  | error e =>
    have : Txt.encode (outgoing ls nl s) t = (.error e, { t with encoder := some (t.encoder.getD C.encInit) }) := by
      unfold Txt.encode; rw [he]
    rw [PyM.bind_error this] at hw
    cases hw
  | ok p =>
    obtain ⟨b, enc⟩ := p
    have h1 : Txt.encode (outgoing ls nl s) t = (.ok b, { t with encoder := some enc }) := by
      unfold Txt.encode; rw [he]
    rw [PyM.bind_ok h1] at hw
    obtain ⟨f', h4, h5⟩ := Buf.write_R h.buf b
    have h6 := (Buf.Keeps.write b t.buf).1
    simp only [Allowed, if_neg (show t.buf.kind ≠ .reader by rw [h.kind]; simp)] at h4
    obtain ⟨h7, rfl⟩ := h4
    generalize hq : Buf.write b t.buf = q at h5 h6 h7
    obtain ⟨r, b'⟩ := q
    cases r with
    | error e => cases h7
    | ok m =>
      rw [PyM.bind_ok (onBuf_eq (t := { t with encoder := some enc }) hq)] at hw
      have h8 : Txt.Ready nl ls .random { t with buf := b', encoder := some enc } _ :=
        ⟨h5, h6.trans h.kind, h.notReader, h.newline, h.linesep, h.seekable⟩
      have hs8 : Snapped { t with buf := b', encoder := some enc } := ⟨hs.seekable, hs.telling, hs.chars⟩
      have tail : ∀ t1 : Txt C, Txt.Ready nl ls .random t1 { f with data := put f.data f.pos b, pos := f.pos + b.length, ahead := false } →
          ((do dropSnapshot; resetDecoder; pure s.length) : PyM (Txt C) Nat) t1 = (.ok n, t') →
          n = s.length ∧ Txt.Ready nl ls .random t' ⟨put f.data f.pos b, f.pos + b.length, false, f.log⟩ ∧ t'.snapshot = none ∧
            t'.dec = (C.decInit, false) := by
        intro t1 h1 hw
        have h2 : dropSnapshot t1 = (.ok (), if t1.snapshot.isSome then { t1 with chars := [], used := 0, snapshot := none } else t1) := rfl
        rw [PyM.bind_ok h2] at hw
        cases hw
        cases hsn : t1.snapshot with
        | none =>
          simp only [Option.isSome_none, Bool.false_eq_true, if_false]
          refine ⟨trivial, ⟨h1.buf, h1.kind, h1.notReader, h1.newline, h1.linesep, h1.seekable⟩, hsn, ?_⟩
          unfold Txt.dec
          cases t1.decoder <;> rfl
        | some x =>
          simp only [Option.isSome_some, if_true]
          refine ⟨trivial, ⟨h1.buf, h1.kind, h1.notReader, h1.newline, h1.linesep, h1.seekable⟩, trivial, ?_⟩
          unfold Txt.dec
          cases t1.decoder <;> rfl
      generalize (t.lineBuffering && _ : Bool) = c at hw
      cases c with
      | false =>
        rw [PyM.bind_ok (show PyM.when false Txt.flush _ = (.ok (), _) from rfl)] at hw
        obtain ⟨g1, g2, g3, g4⟩ := tail _ h8 hw
        exact ⟨g1, b, enc, false, rfl, g2, ⟨hs1, hs2, hs3⟩, g3, g4⟩
      | true =>
        obtain ⟨t1, k1, k2, _⟩ := h8.flush
        rw [PyM.bind_ok (when_run k1)] at hw
        obtain ⟨g1, g2, g3, g4⟩ := tail _ k2 hw
        exact ⟨g1, b, enc, false, rfl, g2, ⟨hs1, hs2, hs3⟩, g3, g4⟩

/-- Nothing was decoded, and the decoder is a new one: the stream stands where its buffered stream does. -/
theorem resumes_of {Ok : C.Dec × Bool → Prop} (L : Laws C nl Ok) {t : Txt C} {f : File} (h : Txt.Ready nl ls .random t f) (hs : Snapped t)
    (hn : t.snapshot = none) (hd : t.dec = (C.decInit, false)) {r : Text} (hr : TextFrom C (incoming nl) f.data f.pos r) :
    Resumes nl Ok t ⟨f.data, r, [], false, false, f.log⟩ := by
  obtain ⟨b, h1, h2⟩ := h.flushes
  have hi : f.pos ≤ f.data.length := by
    rcases hr with ⟨hp, _⟩ | ⟨_, hp, _⟩
    · omega
    · exact hp
  obtain ⟨hc, hu⟩ := hs.chars hn
  have hrest : f.rest = f.data.drop f.pos := rfl
  have key : ∃ d, decodeWith C nl (C.decInit, false) f.rest true = .ok (r, d) ∧
      (AtEnd nl { t with buf := b } f ∨ ((f.pos = 0 ∨ Plain C nl) ∧ Txt.dec { t with buf := b } = (C.decInit, false))) := by
    rcases hr with ⟨hp, rfl⟩ | ⟨hp, _, text, d, hd', rfl⟩
    · have : f.rest = [] := by rw [hrest, hp]; exact List.drop_of_length_le (Nat.le_refl _)
      refine ⟨_, by rw [this]; exact L.text.firstEnd, .inl ⟨this, ?_⟩⟩
      have hdd : Txt.dec { t with buf := b } = (C.decInit, false) := hd
      rw [hdd]; exact L.text.firstEnd
    · obtain ⟨d', hw⟩ := L.whole hd'
      exact ⟨d', hw, .inr ⟨hp.imp id plain_of, hd⟩⟩
  obtain ⟨d', hd', hplace⟩ := key
  have hdd : Txt.dec { t with buf := b } = (C.decInit, false) := hd
  refine ⟨⟨b, f, ⟨h.buf, h.kind, h1⟩, ⟨⟨h2, h.newline, h.seekable, hi, ?_, by dsimp only; rw [hu]; exact Nat.zero_le _, ?_, ?_, r, d', ?_, ?_, ?_⟩,
    fun _ => .none hn hc hplace⟩, rfl, rfl⟩, hc, hs.telling, rfl, nofun, nofun⟩
  · rw [hdd]; exact L.text.first
  · rw [hdd, L.text.firstFresh]; exact List.nil_suffix
  · rw [hdd]; exact fun _ => resume_fresh L.text L.text.first L.text.firstFresh
  · rw [hdd]; exact hd'
  · dsimp only; rw [hc]; simp
  · dsimp only; rw [hc]; nofun

theorem WriterOpened.snapped {raw : Raw} {t : Txt C} (h : WriterOpened C nl ls .random raw t) : Snapped t := by
  obtain ⟨lb, enc, b, _, rfl⟩ := h.shape
  exact ⟨rfl, rfl, fun _ => ⟨rfl, rfl⟩⟩

/-! ## What a write does -/

/-- What the file contains once the stream is flushed. -/
def contentOf (t : Txt C) : Bytes := (Txt.flush t).2.buf.raw.data

/-- Where the buffered stream stands: behind all that was read ahead, or behind what was written. -/
def placeOf (t : Txt C) : Except Exn Nat := (Buf.tell t.buf).1

theorem _root_.Verif.Txt.Ready.content {t : Txt C} {f : File} (h : Txt.Ready nl ls .random t f) : contentOf t = f.data := by
  obtain ⟨b', h1, h2, h3, _⟩ := Buf.flush_R h.buf
  unfold contentOf Txt.flush
  rw [PyM.bind_ok (onBuf_eq h1)]
  exact h2.data' h3

theorem _root_.Verif.Txt.Ready.place {t : Txt C} {f : File} (h : Txt.Ready nl ls .random t f) : placeOf t = .ok f.pos := by
  unfold placeOf; rw [Buf.tell_R h.buf]

theorem step_write {guess : Nat × Nat → Nat → Nat} {t t' : Txt C} {s : Text} {n : Nat} (h : Txt.step guess t (.write s) = (.num n, t')) :
    Txt.write s t = (.ok n, t') := by
  simp only [Txt.step] at h
  generalize Txt.write s t = q at h ⊢
  obtain ⟨r, t1⟩ := q
  cases r with
  | error e => cases h
  | ok m => cases h; rfl

/-- C105.  Whatever was called before, except for an iteration: after a `write` that returned, the characters that had been decoded
before are forgotten, and the stream goes on reading directly behind the bytes that the write stored, be they flushed or not.
The results of all further calls that do not write are those of a text with a position (`TextConforms`, as in C68), if what
follows can be decoded.
Missing: after `next` it is false (`C105_refuted`); encodings for which the decoder must have seen the start of the file
(`TextFrom`), unless the write ended at the end of the file; `truncate` before. -/
theorem C105_resumes_partial (hC : LawfulCodec C) {guess : Nat × Nat → Nat → Nat} (hg : Moderate guess) {raw : Raw} {t : Txt C}
    (h : WriterOpened C nl ls .random raw t) (before : List Op) (hnext : .next ∉ before) (hclose : .close ∉ before)
    (htrunc : ∀ a, .truncate a ∉ before) {s : Text} {n : Nat} {t' : Txt C}
    (hw : Txt.step guess (Txt.run guess t before).2 (.write s) = (.num n, t')) :
    n = s.length ∧ ∃ p b enc, C.encode ((Txt.run guess t before).2.encoder.getD C.encInit) (outgoing ls nl s) = .ok (b, enc) ∧
      placeOf (Txt.run guess t before).2 = .ok p ∧ placeOf t' = .ok (p + b.length) ∧
      contentOf t' = put (contentOf (Txt.run guess t before).2) p b ∧
      ∀ r, TextFrom C (incoming nl) (contentOf t') (p + b.length) r → ∀ ops, ∃ pre post x, ops = pre ++ post ∧
        TextConforms nl ⟨contentOf t', r, [], false, false, t'.buf.raw.events⟩ (pre.zip (Txt.run guess t' pre).1) x ∧
        (post = [] ∨ ∃ op rest, post = op :: rest ∧ ¬ TextCall x op) := by
  obtain ⟨f, hf⟩ := h.ready guess hclose fun _ => htrunc
  obtain ⟨rfl, b, enc, a, h1, h2, h3, h4, h5⟩ := write_ready hf (StaysSnapped.run guess before hnext hclose h.snapped) (step_write hw)
  obtain ⟨Ok, L⟩ := laws hC nl
  refine ⟨rfl, f.pos, b, enc, h1, hf.place, h2.place, by rw [h2.content, hf.content], fun r hr ops => ?_⟩
  rw [h2.content] at hr
  have hl : t'.buf.raw.events = f.log := h2.buf.log.symm
  rw [h2.content, hl]
  exact Resumes.run L.text hg ops t' _ (.inr (resumes_of L h2 h3 h4 h5 hr))

/-- Reads that follow deliver the pieces of the text. -/
theorem conforms_pieces (nl : Newline) (sizes : List Int) : ∀ (x x' : TextFile) (outs : List Out), outs.length = sizes.length →
    TextConforms nl x ((sizes.map fun n => Op.read (some n)).zip outs) x' → outs = (pieces x.rest sizes).map .text := by
  induction sizes with
  | nil => intro x x' outs hl _; exact List.eq_nil_of_length_eq_zero hl
  | cons n ns ih =>
    intro x x' outs hl h
    cases outs with
    | nil => cases hl
    | cons o outs =>
      cases h with
      | cons h1 h2 =>
        obtain ⟨rfl, rfl⟩ := h1
        rw [ih _ _ outs (Nat.succ.inj hl) h2]
        rfl

/-- C105: reads after a write deliver the text behind what it stored, and nothing that had been decoded before. -/
theorem C105_reads_partial (hC : LawfulCodec C) {guess : Nat × Nat → Nat → Nat} (hg : Moderate guess) {raw : Raw} {t : Txt C}
    (h : WriterOpened C nl ls .random raw t) (before : List Op) (hnext : .next ∉ before) (hclose : .close ∉ before)
    (htrunc : ∀ a, .truncate a ∉ before) {s : Text} {n : Nat} {t' : Txt C}
    (hw : Txt.step guess (Txt.run guess t before).2 (.write s) = (.num n, t')) {p : Nat} (hp : placeOf t' = .ok p) {r : Text}
    (hr : TextFrom C (incoming nl) (contentOf t') p r) (sizes : List Int) :
    (Txt.run guess t' (sizes.map fun n => .read (some n))).1 = (pieces r sizes).map .text := by
  obtain ⟨_, q, b, enc, _, _, h3, _, h5⟩ := C105_resumes_partial hC hg h before hnext hclose htrunc hw
  rw [hp] at h3
  cases h3
  obtain ⟨pre, post, x, e1, e2, e3⟩ := h5 r hr (sizes.map fun n => .read (some n))
  have hpost : post = [] := by
    rcases e3 with e3 | ⟨op, rest, e3, e4⟩
    · exact e3
    · exfalso
      have hm : op ∈ sizes.map fun n => Op.read (some n) := by rw [e1, e3]; simp
      obtain ⟨m, _, rfl⟩ := List.mem_map.1 hm
      exact e4 trivial
  rw [hpost, List.append_nil] at e1
  rw [← e1] at e2
  exact conforms_pieces nl sizes _ _ _ (by rw [run_length, List.length_map]) e2

/-! ## Examples and a refutation -/

-- one character is read, then a text is written, which goes behind the chunk that was read (`C71_refuted`); the rest of the chunk is not read any more
example : (Txt.run quotient (textWriter utf8 .auto .random 4 [65, 10, 66] 0 [.count 1, .count 1, .count 1]) [.read (some 1), .write [88], .read none,
    .seek (.to (some (offset 0))), .read none]).1 = [.text [65], .num 1, .text [66], .cookie (offset 0), .text [65, 88, 66]] := by decide +kernel

-- the hypotheses of the theorems for it
example : placeOf (Txt.run quotient (textWriter utf8 .auto .random 4 [65, 10, 66] 0 [.count 1, .count 1, .count 1]) [.read (some 1), .write [88]]).2 = .ok 2 ∧
    contentOf (Txt.run quotient (textWriter utf8 .auto .random 4 [65, 10, 66] 0 [.count 1, .count 1, .count 1]) [.read (some 1), .write [88]]).2 =
      [65, 88, 66] := by decide +kernel

example : TextFrom utf8 (incoming .auto) [65, 88, 66] 2 [66] := .inr ⟨.inr rfl, by decide, [66], _, rfl, rfl⟩

/-- After a write nothing is returned that had been read before it. -/
def ResumesBehind (C : Codec) : Prop := ∀ (raw : Raw) (t : Txt C) (guess : Nat × Nat → Nat → Nat), Moderate guess →
  WriterOpened C .lf [10] .random raw t → ∀ (before : List Op), .close ∉ before → (∀ a, .truncate a ∉ before) → ∀ (s : Text) (n : Nat) (t' : Txt C),
    Txt.step guess (Txt.run guess t before).2 (.write s) = (.num n, t') → ∀ (p : Nat), placeOf t' = .ok p → ∀ r : Text,
    TextFrom C (incoming .lf) (contentOf t') p r → (Txt.step guess t' (.read none)).1 = .text r

/-- A stream on a file with two lines, all of which the first read brings. -/
def twoLines : Txt latin1 := (Txt.create .lf false [10] ⟨.random, 4, rawOf [65, 10, 66, 10] [], [], 0, []⟩).2

/-- C105 is false after `next`: as no snapshot was taken, `write` does not drop the characters that were decoded.  The file has two
lines; one is read by iteration, then a text is written (at the end, behind all that was read ahead); `read` returns the
second line, which is before the text written, though the stream stands at the end. -/
theorem C105_refuted : ¬ ResumesBehind latin1 := by
  intro h
  have hw : WriterOpened latin1 .lf [10] .random (rawOf [65, 10, 66, 10] []) twoLines :=
    ⟨⟨4, _, false, ⟨rfl, rfl, rfl, rfl⟩, rfl⟩, by simp, by nofun⟩
  have h1 : (Txt.step quotient (Txt.run quotient twoLines [.next]).2 (.write [88])).1 = .num 1 := by decide +kernel
  have h2 : placeOf (Txt.step quotient (Txt.run quotient twoLines [.next]).2 (.write [88])).2 = .ok 5 := by decide +kernel
  have h3 : 5 = (contentOf (Txt.step quotient (Txt.run quotient twoLines [.next]).2 (.write [88])).2).length := by decide +kernel
  have h4 : (Txt.step quotient (Txt.step quotient (Txt.run quotient twoLines [.next]).2 (.write [88])).2 (.read none)).1 ≠ .text [] := by decide +kernel
  generalize hq : Txt.step quotient (Txt.run quotient twoLines [.next]).2 (.write [88]) = q at h1 h2 h3 h4
  obtain ⟨o, t'⟩ := q
  dsimp only at h1 h2 h3 h4
  subst h1
  exact h4 (h _ twoLines quotient quotient_moderate hw [.next] (by simp) (by simp) [88] 1 t' hq 5 h2 [] (.inl ⟨h3, rfl⟩))

end Verif.Props
