import Verif.Props.Utilities

/-!
# C49: texts that are written are read again
-/

set_option autoImplicit false

namespace Verif.Props

open Verif Verif.Spec Host OpenArgs

/-- Universal newlines: each of `\r\n`, `\r` and `\n` becomes `\n`. -/
def universalText : Text → Text
  | [] => []
  | 13 :: 10 :: cs => 10 :: universalText cs
  | 13 :: cs => 10 :: universalText cs
  | c :: cs => c :: universalText cs

/-- The text that is read. -/
def incoming : Newline → Text → Text
  | .auto, t => universalText t
  | _, t => t

/-- The newline mode keeps the text. -/
def Lossless : Newline → Text → Prop
  | .auto, s => 13 ∉ s
  | .raw, _ => True
  | .lf, _ => True
  | .cr, s => 10 ∉ s
  | .crlf, s => 10 ∉ s

/-- The values of `os.linesep`. -/
def Linesep (l : Text) : Prop := l = [10] ∨ l = [13, 10] ∨ l = [13]

theorem universalText_eq (t : Text) : replaceCr (replaceCrlf t) = universalText t := by
  induction t using universalText.induct with
  | case1 => rfl
  | case2 cs ih => simp only [replaceCrlf, universalText, ← ih]; rfl
  | case3 cs h ih =>
    cases cs with
    | nil => rfl
    | cons d cs =>
      have hd : d ≠ 10 := fun e => h cs (by rw [e])
      simp only [universalText, replaceCrlf, hd, and_false, if_false, ← ih]
      rfl
  | case4 c cs h1 h2 ih =>
    have hc : c ≠ 13 := fun e => h2 e
    have e2 : universalText (c :: cs) = c :: universalText cs := by
      rw [universalText]
      · exact h1
      · exact h2
    rw [e2, ← ih]
    cases cs with
    | nil => simp [replaceCrlf, replaceCr, hc]
    | cons d cs => simp [replaceCrlf, replaceCr, hc]

theorem universalText_no_cr (t : Text) : 13 ∉ universalText t := by
  induction t using universalText.induct with
  | case1 => simp [universalText]
  | case2 cs ih => simp [universalText, ih]
  | case3 cs h ih =>
    rw [universalText]
    · simp [ih]
    · exact h
  | case4 c cs h1 h2 ih =>
    rw [universalText]
    · simp [ih]; exact fun e => h2 e.symm
    · exact h1
    · exact h2

theorem universalText_cons {c : Nat} (h : c ≠ 13) (t : Text) : universalText (c :: t) = c :: universalText t := by
  rw [universalText]
  · exact fun _ e _ => h e
  · exact h

theorem universal_outgoing {linesep : Text} (hl : Linesep linesep) (s : Text) (h : 13 ∉ s) :
    universalText (outgoing linesep .auto s) = s := by
  induction s with
  | nil => rfl
  | cons c cs ih =>
    simp only [List.mem_cons, not_or] at h
    have ih := ih h.2
    unfold outgoing at ih ⊢
    rw [List.flatMap_cons]
    by_cases hc : c = 10
    · subst hc
      rw [if_pos rfl]
      unfold newlineText at ih ⊢
      dsimp only at ih ⊢
      rcases hl with rfl | rfl | rfl
      · rw [List.cons_append, List.nil_append, universalText_cons (by decide), ih]
      · simp only [List.cons_append, List.nil_append, universalText]
        rw [ih]
      · rw [List.cons_append, List.nil_append, universalText, ih]
        intro cs' e
        cases cs with
        | nil => cases e
        | cons d ds =>
          rw [List.flatMap_cons] at e
          by_cases hd : d = 10
          · rw [if_pos hd] at e; simp at e
          · rw [if_neg hd] at e
            simp at e
            exact hd e.1
    · rw [if_neg hc, List.cons_append, List.nil_append, universalText_cons (fun e => h.1 e.symm), ih]

/-- The newline modes lose nothing exactly in these cases. -/
theorem lossless_iff {linesep : Text} (hl : Linesep linesep) (nl : Newline) (s : Text) :
    incoming nl (outgoing linesep nl s) = s ↔ Lossless nl s := by
  cases nl with
  | auto =>
    refine ⟨fun h h13 => ?_, fun h => universal_outgoing hl s h⟩
    rw [← h] at h13
    exact universalText_no_cr _ h13
  | raw => exact ⟨fun _ => trivial, fun _ => flatMap_same s⟩
  | lf => exact ⟨fun _ => trivial, fun _ => flatMap_same s⟩
  | cr =>
    refine ⟨fun h h10 => ?_, fun h => flatMap_none _ s h⟩
    unfold incoming outgoing at h
    rw [← h] at h10
    obtain ⟨c, _, hc⟩ := List.mem_flatMap.1 h10
    by_cases h : c = 10
    · rw [if_pos h] at hc; simp [newlineText] at hc
    · rw [if_neg h] at hc; simp at hc; exact h hc.symm
  | crlf =>
    refine ⟨fun h h10 => ?_, fun h => flatMap_none _ s h⟩
    have hlen : ∀ s : Text, s.length ≤ (outgoing linesep .crlf s).length ∧
        (10 ∈ s → s.length < (outgoing linesep .crlf s).length) := by
      intro s
      induction s with
      | nil => simp [outgoing]
      | cons c cs ih =>
        unfold outgoing at ih ⊢
        rw [List.flatMap_cons, List.length_append, List.length_cons]
        by_cases hc : c = 10
        · rw [if_pos hc]
          simp only [newlineText, List.length_cons, List.length_nil] at ih ⊢
          exact ⟨by omega, fun _ => by omega⟩
        · rw [if_neg hc]
          simp only [List.length_cons, List.length_nil]
          refine ⟨by omega, fun h => ?_⟩
          have := ih.2 (by simpa [Ne.symm hc] using h)
          omega
    have := (hlen s).2 h10
    change outgoing linesep .crlf s = s at h
    rw [h] at this
    omega

theorem decodeWith_whole {C : Codec} {nl : Newline} {b : Bytes} {t : Text} {d d' : C.Dec} (h : C.decode C.decInit b true = .ok (t, d))
    (h' : C.decode d [] true = .ok ([], d')) :
    Txt.decodeWith C nl (C.decInit, false) b true = .ok (incoming nl t, (d, false)) ∧
      Txt.decodeWith C nl (d, false) [] true = .ok ([], (d', false)) := by
  unfold Txt.decodeWith
  rw [h, h']
  dsimp only
  cases nl <;> simp [Newline.universal, Newline.translate, Txt.splitCr, incoming, universalText_eq, universalText]

/-- The course of `read_from_file` for a text, on a regular file that the codec can decode. -/
theorem C49_read {S : Setting} {a : FileArgs} {w w' : Site} {p : Bytes} {r : Except Exn Chunk} {c : Bytes} {t : Text}
    {d d' : S.codec.Dec} (hp : a.filename = .path p) (hreg : RegularOrAbsent w.host p) (hio : FileAnswers w.io)
    (hc : content w.host p = some c) (hd : S.codec.decode S.codec.decInit c true = .ok (t, d))
    (hd' : S.codec.decode d [] true = .ok ([], d')) (h : Site.readFromFile S a false w = (r, w')) :
    (∃ e v, rsopen S.py (Site.openArgs a (readMode false)) w.host = (.error e, v) ∧ r = .error e ∧ w' = { w with host := v }) ∨
    ((r = .ok (.text (incoming (a.newline.getD .auto) t)) ∨ (∃ e, r = .error (.ioError e) ∧ .fail e ∈ w.io) ∨
        (r = .error .assertionError ∧ w.host.freeFd = 0)) ∧
      ∀ q c, content w.host q = some c → content w'.host q = some c) := by
  change Site.withOpen S a (readMode false) (Site.readBody false) w = _ at h
  unfold Site.withOpen at h
  generalize hq : rsopen S.py (Site.openArgs a (readMode false)) w.host = q at h
  obtain ⟨x, v⟩ := q
  cases x with
  | error e => cases h; exact .inl ⟨e, v, rfl, rfl, rfl⟩
  | ok o =>
    have hof := opened_file (a := Site.openArgs a (readMode false)) ⟨hp, rfl, rfl, rfl⟩ hreg hq
    obtain ⟨s, h1, h2, _, h3⟩ := reader_layers hq hof hio
    dsimp only at h
    rw [h1] at h
    dsimp only at h
    obtain ⟨tx, rfl, hrd, hnl, hdec⟩ := h3 rfl
    obtain ⟨g1, g2⟩ := decodeWith_whole (nl := tx.newline) hd hd'
    rw [hc] at hrd
    obtain ⟨x, s', h4, h5⟩ := loaded_text hrd (by rw [hdec]; exact g1) g2
    rw [h4] at h
    cases h
    have hex := (C37_must_exist (a := Site.openArgs a (readMode false)) ⟨hp, rfl, rfl, rfl⟩ (readMode_facts false).2.2.2.2.2.1 hq).1
    have hs : s'.theRaw.data = (content w.host p).getD [] := by
      rw [h5.data, h2]
      exact (rawOf_data hof { w with host := v } rfl).2 (readMode_facts false).2.2.2.1
    refine .inr ⟨?_, fun q c hq => store_same hof hex { w with host := v } rfl hs q c hq⟩
    rcases closing_cases o.raw.closefd o.raw.fd x s'.theRaw.closed with h | ⟨h, _, h0⟩
    · dsimp only
      rw [h]
      rcases h5.result with h | ⟨e, h, h'⟩
      · rw [hnl] at h; exact .inl h
      · exact .inr (.inl ⟨e, h, by rw [h2] at h'; exact h'⟩)
    · exact .inr (.inr ⟨h, by rw [← opened_fd (a := Site.openArgs a (readMode false)) ⟨hp, rfl, rfl, rfl⟩ hq]; exact h0⟩)

/-- C49: a text that was written is read again, with the same encoding and newline arguments, for every codec that decodes
what it encodes; what comes back is the text with the newlines changed as the documentation of `newline` says, which is the
text itself exactly if the newline mode is lossless for it.  In between, other programs may do anything but change this file.
If reading fails, the file could not be opened, the system reported an error, or the descriptor of the file was 0. -/
theorem C49_round_trip {S : Setting} {a a' : FileArgs} {s : Text} {sync mc mn : Bool} {w w1 w2 w' : Site} {p : Bytes}
    {r : Except Exn Chunk} (hl : Linesep S.linesep) (hp : a.filename = .path p) (hp' : a'.filename = .path p)
    (hnl : a'.newline = a.newline) (hreg : RegularOrAbsent w.host p)
    (h : Site.writeToFile S a (.text s) sync mc mn w = (.ok (), w1))
    (same : content w2.host p = content w1.host p) (hreg2 : RegularOrAbsent w2.host p) (hio : FileAnswers w2.io)
    (hrt : RoundTrips S.codec (outgoing S.linesep (a.newline.getD .auto) s))
    (h' : Site.readFromFile S a' false w2 = (r, w')) :
    (∃ x, r = .ok (.text x) ∧ x = incoming (a.newline.getD .auto) (outgoing S.linesep (a.newline.getD .auto) s) ∧
        (x = s ↔ Lossless (a.newline.getD .auto) s)) ∨
      (∃ e, r = .error (.ioError e) ∧ .fail e ∈ w2.io) ∨ (r = .error .assertionError ∧ w2.host.freeFd = 0) ∨
      ∃ e v, rsopen S.py (Site.openArgs a' (readMode false)) w2.host = (.error e, v) ∧ r = .error e := by
  obtain ⟨⟨d, ⟨e, enc, he, henc⟩, k, h1, h2⟩, _⟩ := C46_partial hp hreg h
  rw [List.take_of_length_le (h2 fun _ b hb => by cases hb), ← same] at h1
  have he : e = S.codec.encInit := (he.resolve_right fun h => h.1 trivial).2
  subst he
  obtain ⟨d1, d2, hd1, hd2⟩ := hrt _ _ henc
  rcases C49_read hp' hreg2 hio h1 hd1 hd2 h' with ⟨e, v, g1, g2, _⟩ | ⟨g | g | g, _⟩
  · exact .inr (.inr (.inr ⟨e, v, g1, g2⟩))
  · rw [hnl] at g
    exact .inl ⟨_, g, rfl, lossless_iff hl _ s⟩
  · exact .inr (.inl g)
  · exact .inr (.inr (.inl g))

/-- `read_from_file` returns the text, if system calls succeed. -/
theorem C49_read_returns {S : Setting} (hS : S.py.hasU = false) {a : FileArgs} {w : Site} {p : Bytes} {c : Bytes} {t : Text}
    {d d' : S.codec.Dec} (ha : SoundArgs a p True) (hall : Allows (Site.openArgs a (readMode false)) p w.host)
    (h0 : w.host.freeFd ≠ 0) (hio : Blocking w.io) (hc : content w.host p = some c)
    (hd : S.codec.decode S.codec.decInit c true = .ok (t, d)) (hd' : S.codec.decode d [] true = .ok ([], d')) :
    (Site.readFromFile S a false w).1 = .ok (.text (incoming (a.newline.getD .auto) t)) := by
  obtain ⟨f1, f2, f3, f4, f5, f6, f7⟩ := readMode_facts false
  obtain ⟨g1, g2⟩ := readMode_sound false
  obtain ⟨o, v, h1, _⟩ := C66_partial hS (ha.call g1 (.inl f1) (fun h => f5 h.1) (fun h => absurd h f4) (by rw [f3]; simp) g2) hall (.inl h0)
  rcases C49_read ha.name hall.regular (Blocking.fileAnswers hio) hc hd hd' (Prod.ext rfl rfl) with
    ⟨e, v', h, _⟩ | ⟨h | ⟨e, _, h⟩ | ⟨_, h⟩, _⟩
  · rw [h1] at h; cases h
  · exact h
  · obtain ⟨k, h, _⟩ := hio _ h; cases h
  · exact absurd h h0

/-- A text with newlines and a character of two bytes, written and read in pieces, with `newline='\r\n'`. -/
example : let S : Setting := { setting with codec := utf8 }
    let a : FileArgs := { plain .absent with newline := some .crlf }
    let w := Site.writeToFile S a (.text [233, 10, 65]) false false false (site [.count 1, .count 2, .count 2])
    w.1 = .ok () ∧ content w.2.host [102] = some [195, 169, 13, 10, 65] ∧
      (Site.readFromFile S a false { w.2 with io := [.count 1, .count 3] }).1 = .ok (.text [233, 13, 10, 65]) := by
  decide +kernel

/-- C49 is false for the descriptor 0: `read_from_file` fails although all system calls succeed. -/
theorem C49_zero_refuted : ∃ (S : Setting) (a : FileArgs) (w : Site), S.py.hasU = false ∧ SoundArgs a [102] True ∧
    Allows (Site.openArgs a (readMode false)) [102] w.host ∧ Blocking w.io ∧ w.host.freeFd = 0 ∧
    content w.host [102] = some [1, 2, 3] ∧ (Site.readFromFile S a false w).1 = .error .assertionError := by
  refine ⟨setting, plain (.given 2), zeroSite, rfl, ⟨rfl, by decide, by decide, by nofun, by nofun, by nofun,
    fun h => absurd trivial h, by nofun⟩, ⟨by decide, by decide, fun h => ?_, fun _ => by decide, machine_regular⟩,
    by nofun, by decide +kernel, by decide +kernel, by decide +kernel⟩
  exact absurd h (by simp only [MustCreate]; decide)

/-- The three encodings of `Spec.Codecs` decode what they encode. -/
theorem C49_codecs (s : Text) : RoundTrips latin1 s ∧ RoundTrips utf8 s ∧ RoundTrips utf16 s :=
  ⟨latin1_roundTrips s, utf8_roundTrips s, utf16_roundTrips s⟩

end Verif.Props
