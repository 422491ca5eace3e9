import Verif.Lemmas.Decoders
import Verif.Lemmas.TextLines
import Verif.Lemmas.BufferedReading

/-!
# Reading from a text stream: the invariant
-/

set_option autoImplicit false

namespace Verif.Txt

open Verif.Spec

variable {C : Codec} {nl : Newline} {Ok : C.Dec × Bool → Prop} {α : Type}

/-- The laws for the decoder of a text stream. -/
abbrev LawfulText (C : Codec) (nl : Newline) (Ok : C.Dec × Bool → Prop) : Prop :=
  Lawful (C.decInit, false) (decodeWith C nl) (getstateWith C nl) (setstateWith C nl) Ok

/-- The decoder, which is created when it is needed. -/
def dec (t : Txt C) : C.Dec × Bool := t.decoder.getD (C.decInit, false)

/-- The stream, with its decoder and its decoded characters, stands in the file `f` where the text `r` follows. -/
structure Holds (nl : Newline) (Ok : C.Dec × Bool → Prop) (t : Txt C) (f : File) (r : Text) : Prop where
  buf : Buf.Reads t.buf f
  newline : t.newline = nl
  seekable : t.seekable = true
  inside : f.pos ≤ f.data.length
  ok : Ok t.dec
  used : t.used ≤ t.chars.length
  behind : (getstateWith C nl t.dec).1 <:+ f.data.take f.pos
  start : (getstateWith C nl t.dec).1.length = f.pos →
    setstateWith C nl ([], (getstateWith C nl t.dec).2) = (C.decInit, false)
  rest : ∃ s d', decodeWith C nl t.dec f.rest true = .ok (s, d') ∧ r = t.chars.drop t.used ++ s ∧
    (nl.universal = true → t.chars.getLast? = some 13 → s.head? ≠ some 10)

/-- Nothing follows. -/
def AtEnd (nl : Newline) (t : Txt C) (f : File) : Prop :=
  f.rest = [] ∧ decodeWith C nl t.dec [] true = .ok ([], t.dec)

/-- The decoder that `seek` restores for an offset is a new one: true for most encodings, not for those with a byte order mark. -/
def Plain (C : Codec) (nl : Newline) : Prop := setstateWith C nl ([], 0) = (C.decInit, false)

/-- The snapshot tells how the decoded characters came from the file. -/
inductive Snap (nl : Newline) (Ok : C.Dec × Bool → Prop) (t : Txt C) (f : File) (sought : Bool) : Prop
  | none (h : t.snapshot = Option.none) (chars : t.chars = [])
      (place : AtEnd nl t f ∨ ((f.pos = 0 ∨ Plain C nl) ∧ t.dec = (C.decInit, false)))
  | some (flags : Nat) (input : Bytes) (final : Bool) (h : t.snapshot = Option.some (flags, input))
      (decoder : t.decoder.isSome = true) (ok : Ok (setstateWith C nl ([], flags)))
      (fresh : (getstateWith C nl (setstateWith C nl ([], flags))).1 = [])
      (decoded : decodeWith C nl (setstateWith C nl ([], flags)) input final = .ok (t.chars, t.dec))
      (last : final = true → f.rest = []) (behind : input <:+ f.data.take f.pos)
      (start : input.length = f.pos → setstateWith C nl ([], flags) = (C.decInit, false))
      (ratio : sought = false → t.chars = [] ∨ (t.ratio.2 = t.chars.length ∧ t.ratio.1 ≤ input.length))

/-- The file is the same; the position may be later. -/
structure Onward (f f' : File) : Prop where
  data : f'.data = f.data
  log : f'.log = f.log
  le : f'.rest.length ≤ f.rest.length

theorem Onward.refl (f : File) : Onward f f := ⟨rfl, rfl, Nat.le_refl _⟩

theorem Onward.trans {f f' f'' : File} (h : Onward f f') (h' : Onward f' f'') : Onward f f'' :=
  ⟨h'.data.trans h.data, h'.log.trans h.log, Nat.le_trans h'.le h.le⟩

theorem onBuf_eq {m : PyM Buf α} {t : Txt C} {r : Except Exn α} {b : Buf} (h : m t.buf = (r, b)) :
    onBuf m t = (r, { t with buf := b }) := by
  unfold onBuf; rw [h]

theorem Holds.rounds {t : Txt C} {f : File} {r : Text} (h : Holds nl Ok t f r) : f.rest.length < t.rounds := by
  unfold Txt.rounds
  rw [h.buf.data]
  unfold File.rest
  rw [List.length_drop]
  omega

theorem take_move {f : File} {got : Bytes} (h : got <+: f.rest) (hi : f.pos ≤ f.data.length) :
    f.data.take (f.pos + got.length) = f.data.take f.pos ++ got ∧ f.pos + got.length ≤ f.data.length := by
  obtain ⟨z, hz⟩ := h
  have hd : f.data = f.data.take f.pos ++ (got ++ z) := by
    rw [hz]; unfold File.rest; rw [List.take_append_drop]
  have hl : (f.data.take f.pos).length = f.pos := by rw [List.length_take]; omega
  constructor
  · conv => lhs; rw [hd, ← List.append_assoc]
    rw [List.take_append_of_le_length (by rw [List.length_append, hl]; exact Nat.le_refl _),
      List.take_of_length_le (by rw [List.length_append, hl]; exact Nat.le_refl _)]
  · rw [hd, List.length_append, List.length_append, hl]; omega

theorem rest_prefix {f : File} {got z : Bytes} (h : got ++ z = f.rest) (a : Bool) :
    ({ f with pos := f.pos + got.length, ahead := a } : File).rest = z := by
  rw [Buf.rest_move, ← h]; simp

theorem resume_fresh (L : LawfulText C nl Ok) {d : C.Dec × Bool} (hd : Ok d) (hp : (getstateWith C nl d).1 = []) :
    setstateWith C nl ([], (getstateWith C nl d).2) = d := by
  have hr := L.resume hd
  rw [hp, L.nothing (L.restart hd)] at hr
  exact (Prod.mk.inj (Except.ok.inj hr)).2

/-- The invariant of the decoder is kept when it decodes what follows. -/
theorem advance (L : LawfulText C nl Ok) {d d' : C.Dec × Bool} {f : File} {got : Bytes} {s : Text} (final : Bool)
    (hd : Ok d) (hi : f.pos ≤ f.data.length) (hg : got <+: f.rest)
    (h : decodeWith C nl d got final = .ok (s, d'))
    (behind : (getstateWith C nl d).1 <:+ f.data.take f.pos)
    (start : (getstateWith C nl d).1.length = f.pos → setstateWith C nl ([], (getstateWith C nl d).2) = (C.decInit, false)) :
    (getstateWith C nl d').1 <:+ f.data.take (f.pos + got.length) ∧
      ((getstateWith C nl d').1.length = f.pos + got.length →
        setstateWith C nl ([], (getstateWith C nl d').2) = (C.decInit, false)) := by
  obtain ⟨e1, e2⟩ := take_move hg hi
  have hk := L.kept hd h
  rw [e1]
  have hb : (getstateWith C nl d).1.length ≤ f.pos := by
    have := behind.length_le
    rw [List.length_take] at this
    omega
  refine ⟨hk.trans ?_, ?_⟩
  · obtain ⟨z, hz⟩ := behind
    exact ⟨z, by rw [← List.append_assoc, hz]⟩
  · intro hl
    cases final with
    | false =>
      have he : (getstateWith C nl d').1 = (getstateWith C nl d).1 ++ got := by
        refine hk.eq_of_length ?_
        have := hk.length_le
        rw [List.length_append] at this ⊢
        omega
      obtain ⟨_, h2⟩ := L.hold hd h he
      rw [h2]
      refine start ?_
      have := congrArg List.length he
      rw [List.length_append] at this
      omega
    | true =>
      rw [L.ended hd h, List.length_nil] at hl
      have hg : got = [] := List.eq_nil_of_length_eq_zero (by omega)
      subst hg
      simp only [List.length_nil, Nat.add_zero] at hl
      have hp : (getstateWith C nl d).1 = [] := List.eq_nil_of_length_eq_zero (by omega)
      have hs := start (by rw [hp]; exact hl)
      rw [resume_fresh L hd hp] at hs
      rw [hs, L.firstEnd] at h
      have : d' = (C.decInit, false) := (Prod.mk.inj (Except.ok.inj h)).2.symm
      rw [this, resume_fresh L L.first L.firstFresh]

/-- `_read_chunk`, when all characters have been used. -/
theorem readChunk_spec (L : LawfulText C nl Ok) {t : Txt C} {f : File} {r : Text} (h : Holds nl Ok t f r)
    (hd : t.decoder.isSome = true) (hu : t.chars.drop t.used = []) :
    ∃ more t' f', readChunk t = (.ok more, t') ∧ Holds nl Ok t' f' r ∧ t'.used = 0 ∧ t'.decoder.isSome = true ∧
      Onward f f' ∧ (more = true → f'.rest.length < f.rest.length) ∧ (more = false → AtEnd nl t' f') ∧
      t'.telling = t.telling ∧ (t.telling = true → Snap nl Ok t' f' false) := by
  obtain ⟨d, hd⟩ := Option.isSome_iff_exists.1 hd
  have hdec : t.dec = d := by unfold dec; rw [hd]; rfl
  obtain ⟨got, b', g1, g2, g3, g4⟩ := h.buf.read1 (n := (chunkSize : Int)) (by decide)
  obtain ⟨z, hz⟩ := g2
  obtain ⟨s, d', h1, h2, h3⟩ := h.rest
  have hok := h.ok
  have hbeh := h.behind
  have hsta := h.start
  rw [hdec] at h1 hok hbeh hsta
  have hz' := rest_prefix hz true
  -- the decoding of the chunk and of what follows
  have hchunk : ∃ s1 d1, decodeWith C nl d got (decide (got = [])) = .ok (s1, d1) ∧
      ∃ s2 d2, decodeWith C nl d1 z true = .ok (s2, d2) ∧ s = s1 ++ s2 ∧
        (nl.universal = true → s1.getLast? = some 13 → s2.head? ≠ some 10) ∧
        (got = [] → z = [] ∧ decodeWith C nl d1 [] true = .ok ([], d1)) := by
    by_cases hg : got = []
    · have hr := g3 hg
      subst hg
      rw [List.nil_append] at hz
      subst hz
      rw [hr] at h1
      have := L.again hok h1
      refine ⟨s, d', by simpa using h1, [], d', ?_, by simp, by simp, fun _ => ⟨hr, this⟩⟩
      rw [hr]; exact this
    · rw [← hz, L.split got z true hok] at h1
      cases h4 : decodeWith C nl d got false with
      | error e => rw [h4] at h1; cases h1
      | ok q =>
        obtain ⟨s1, d1⟩ := q
        rw [h4] at h1
        dsimp only at h1
        cases h5 : decodeWith C nl d1 z true with
        | error e => rw [h5] at h1; cases h1
        | ok q =>
          obtain ⟨s2, d2⟩ := q
          rw [h5] at h1
          cases h1
          refine ⟨s1, d1, by simpa [hg] using h4, s2, _, h5, rfl, fun hu hl => decodeWith_cr hu h4 h5 hl, fun h => absurd h hg⟩
  obtain ⟨s1, d1, k1, s2, d2, k2, k3, k4, k5⟩ := hchunk
  have hadv := advance L (f := f) (decide (got = [])) hok h.inside ⟨z, hz⟩ k1 hbeh hsta
  refine ⟨!decide (got = []), { t with
      buf := b', decoder := some d1, chars := s1, used := 0
      ratio := if s1 = [] then (0, 0) else (got.length, s1.length)
      snapshot := if t.telling then
        some ((getstateWith C nl d).2, (getstateWith C nl d).1 ++ got) else t.snapshot },
    { f with pos := f.pos + got.length, ahead := true }, ?_, ?_, rfl, rfl, ?_, ?_, ?_, rfl, ?_⟩
  · unfold readChunk
    rw [hd]
    dsimp only
    rw [PyM.bind_ok (onBuf_eq g1)]
    have hdecode : decode (some got) (decide ((some got).getD [] = [])) { t with buf := b' } =
        (.ok s1, { t with buf := b', decoder := some d1 }) := by
      unfold decode
      dsimp only
      rw [hd, h.newline]
      dsimp only
      rw [show (Option.getD (some got) []) = got from rfl, k1]
    rw [PyM.bind_ok hdecode]
    rw [h.newline]
    rfl
  · refine ⟨g4, h.newline, h.seekable, (take_move ⟨z, hz⟩ h.inside).2, L.next hok k1, Nat.zero_le _, hadv.1, hadv.2, ?_⟩
    refine ⟨s2, d2, ?_, ?_, ?_⟩
    · rw [hz']; exact k2
    · rw [h2, hu, k3]; simp
    · exact k4
  · refine ⟨rfl, rfl, ?_⟩
    rw [hz', ← hz, List.length_append]; omega
  · intro hm
    have hg : got ≠ [] := by simpa using hm
    rw [hz', ← hz, List.length_append]
    have := List.length_pos_iff.2 hg
    omega
  · intro hm
    have hg : got = [] := by simpa using hm
    obtain ⟨k6, k7⟩ := k5 hg
    exact ⟨by rw [hz', k6], k7⟩
  · intro ht
    have hsnap : decodeWith C nl (setstateWith C nl ([], (getstateWith C nl d).2)) ((getstateWith C nl d).1 ++ got)
        (decide (got = [])) = .ok (s1, d1) := by
      rw [L.split _ _ _ (L.restart hok), L.resume hok]
      dsimp only
      rw [k1]; rfl
    refine .some (getstateWith C nl d).2 ((getstateWith C nl d).1 ++ got) (decide (got = [])) (by simp [ht]) rfl
      (L.restart hok) (L.fresh hok) hsnap ?_ ?_ ?_ ?_
    · intro hg
      have hg : got = [] := by simpa using hg
      rw [hz', (k5 hg).1]
    · rw [(take_move ⟨z, hz⟩ h.inside).1]
      obtain ⟨y, hy⟩ := hbeh
      exact ⟨y, by rw [← List.append_assoc, hy]⟩
    · intro hl
      refine hsta ?_
      rw [List.length_append] at hl
      dsimp only at hl
      omega
    · intro _
      dsimp only
      by_cases hs : s1 = []
      · exact .inl hs
      · right
        rw [if_neg hs]
        exact ⟨rfl, by rw [List.length_append]; omega⟩

/-- The invariant of a stream that is read. -/
structure Reading (nl : Newline) (Ok : C.Dec × Bool → Prop) (t : Txt C) (f : File) (r : Text) (sought : Bool) : Prop where
  holds : Holds nl Ok t f r
  snap : t.telling = true → Snap nl Ok t f sought

theorem Snap.weaken {t : Txt C} {f : File} (h : Snap nl Ok t f false) (sought : Bool) : Snap nl Ok t f sought := by
  cases h with
  | none h1 h2 h3 => exact .none h1 h2 h3
  | some fl i fin h1 h2 h3 h4 h5 h6 h7 h8 h9 => exact .some fl i fin h1 h2 h3 h4 h5 h6 h7 h8 fun _ => h9 rfl

theorem Snap.use {t : Txt C} {f : File} {b : Bool} (h : Snap nl Ok t f b) (n : Nat) :
    Snap nl Ok { t with used := n } f b := by
  cases h with
  | none h1 h2 h3 => exact .none h1 h2 h3
  | some fl i fin h1 h2 h3 h4 h5 h6 h7 h8 h9 => exact .some fl i fin h1 h2 h3 h4 h5 h6 h7 h8 h9

/-- Going forward or back within the decoded characters. -/
theorem Reading.use {t : Txt C} {f : File} {r : Text} {b : Bool} (h : Reading nl Ok t f r b) {n : Nat} (hn : n ≤ t.chars.length)
    {r' : Text} (hr : ∀ s, r = t.chars.drop t.used ++ s → r' = t.chars.drop n ++ s) :
    Reading nl Ok { t with used := n } f r' b := by
  obtain ⟨⟨h1, h2, h3, h4, h5, h6, h7, h8, s, d', h9, h10, h11⟩, hs⟩ := h
  exact ⟨⟨h1, h2, h3, h4, h5, hn, h7, h8, s, d', h9, hr s h10, h11⟩, fun ht => (hs ht).use n⟩

theorem getChars_spec {t : Txt C} {f : File} {r : Text} {b : Bool} (h : Reading nl Ok t f r b) (k : Nat) :
    ∃ t', getChars (some k) t = (.ok ((t.chars.drop t.used).take k), t') ∧
      t' = { t with used := t.used + ((t.chars.drop t.used).take k).length } ∧
      (t.chars.drop t.used).take k <+: r ∧ Reading nl Ok t' f (r.drop ((t.chars.drop t.used).take k).length) b := by
  refine ⟨_, rfl, rfl, ?_, ?_⟩
  · obtain ⟨s, _, _, h1, _⟩ := h.holds.rest
    exact ((List.take_prefix _ _).trans ⟨s, h1.symm⟩)
  · have hl : ((t.chars.drop t.used).take k).length ≤ (t.chars.drop t.used).length := by
      rw [List.length_take]; omega
    refine h.use ?_ ?_
    · rw [List.length_drop] at hl
      have := h.holds.used
      change t.used + ((t.chars.drop t.used).take k).length ≤ t.chars.length
      omega
    · intro s hs
      rw [hs, List.drop_append_of_le_length hl, List.drop_drop]

theorem getAll_spec {t : Txt C} {f : File} {r : Text} {b : Bool} (h : Reading nl Ok t f r b) :
    ∃ t', getChars none t = (.ok (t.chars.drop t.used), t') ∧
      t' = { t with used := t.used + (t.chars.drop t.used).length } ∧ t'.used = t'.chars.length ∧
      t.chars.drop t.used <+: r ∧ Reading nl Ok t' f (r.drop (t.chars.drop t.used).length) b := by
  refine ⟨_, rfl, rfl, ?_, ?_, ?_⟩
  · have := h.holds.used
    dsimp only
    rw [List.length_drop]
    omega
  · obtain ⟨s, _, _, h1, _⟩ := h.holds.rest
    exact ⟨s, h1.symm⟩
  · refine h.use ?_ ?_
    · rw [List.length_drop]
      have := h.holds.used
      omega
    · intro s hs
      rw [hs, List.drop_append_of_le_length (Nat.le_refl _), List.drop_drop]

/-- At the end there is only what has been decoded. -/
theorem AtEnd.rest {t : Txt C} {f : File} {r : Text} (h : AtEnd nl t f) (hh : Holds nl Ok t f r) : r = t.chars.drop t.used := by
  obtain ⟨s, d', h1, h2, _⟩ := hh.rest
  rw [h.1, h.2] at h1
  cases h1
  rw [h2, List.append_nil]

theorem readLoop_spec (L : LawfulText C nl Ok) (size : Nat) (fuel : Nat) : ∀ (t : Txt C) (f : File) (r result : Text) (b : Bool),
    Reading nl Ok t f r b → t.decoder.isSome = true → result.length ≤ size →
    (result.length < size → t.chars.drop t.used = []) → f.rest.length < fuel →
    ∃ t' f', readLoop size fuel result t = (.ok (result ++ r.take (size - result.length)), t') ∧
      Reading nl Ok t' f' (r.drop (size - result.length)) b ∧ Onward f f' ∧ t'.telling = t.telling ∧
      t'.decoder.isSome = true := by
  induction fuel with
  | zero => intro t f r result b _ _ _ _ h; omega
  | succ fuel ih =>
    intro t f r result b h hd hle hc hf
    unfold readLoop
    by_cases hlt : result.length < size
    · rw [if_pos hlt]
      obtain ⟨more, t1, f1, g1, g2, g3, g4, g5, g6, g7, g8, g9⟩ := readChunk_spec L h.holds hd (hc hlt)
      have hr1 : Reading nl Ok t1 f1 r b := ⟨g2, fun ht => (g9 (g8 ▸ ht)).weaken b⟩
      obtain ⟨t2, k1, k2, k3, k4⟩ := getChars_spec hr1 (size - result.length)
      rw [PyM.bind_ok g1, PyM.bind_ok k1]
      have hdrop : t1.chars.drop t1.used = t1.chars := by rw [g3]; rfl
      rw [hdrop] at k1 k2 k3 k4
      rw [hdrop]
      generalize hs : t1.chars.take (size - result.length) = s at *
      have hsl : s.length = min (size - result.length) t1.chars.length := by rw [← hs, List.length_take]
      obtain ⟨z, rfl⟩ := k3
      have ht2 : t2.telling = t.telling := by rw [k2]; exact g8
      have hd2 : t2.decoder.isSome = true := by rw [k2]; exact g4
      cases more with
      | true =>
        rw [if_pos rfl]
        obtain ⟨t', f', e1, e2, e3, e4, e5⟩ := ih t2 f1 ((s ++ z).drop s.length) (result ++ s) b k4 hd2
          (by rw [List.length_append]; omega) (by
            intro hlt'
            rw [List.length_append] at hlt'
            rw [k2]
            dsimp only
            rw [g3, Nat.zero_add]
            exact List.drop_of_length_le (by omega)) (by have := g6 rfl; omega)
        have hsub : size - (result ++ s).length = size - result.length - s.length := by
          rw [List.length_append]; omega
        rw [hsub] at e1 e2
        refine ⟨t', f', ?_, ?_, g5.trans e3, e4.trans ht2, e5⟩
        · rw [e1, List.drop_left, List.append_assoc, List.take_append]
          rw [List.take_of_length_le (by omega : s.length ≤ size - result.length)]
        · rw [List.drop_drop] at e2
          have : s.length + (size - result.length - s.length) = size - result.length := by omega
          rwa [this] at e2
      | false =>
        rw [if_neg (by simp)]
        have hz : s ++ z = t1.chars := by rw [← hdrop]; exact (g7 rfl).rest g2
        refine ⟨t2, f1, ?_, ?_, g5, ht2, hd2⟩
        · rw [PyM.pure_apply, hz, hs]
        · have : (s ++ z).drop (size - result.length) = (s ++ z).drop s.length := by
            rw [hz, hsl]
            by_cases hx : size - result.length ≤ t1.chars.length
            · rw [Nat.min_eq_left hx]
            · rw [Nat.min_eq_right (by omega), List.drop_of_length_le (Nat.le_refl _), List.drop_of_length_le (by omega)]
          rw [this]; exact k4
    · rw [if_neg hlt]
      have : size - result.length = 0 := by omega
      rw [this]
      refine ⟨t, f, ?_, h, Onward.refl f, rfl, hd⟩
      rw [PyM.pure_apply]; simp

theorem readAll_spec (L : LawfulText C nl Ok) {t : Txt C} {f : File} {r : Text} {b : Bool} (h : Reading nl Ok t f r b)
    (hd : t.decoder.isSome = true) :
    ∃ t' f', readAll t = (.ok r, t') ∧ Reading nl Ok t' f' [] false ∧ Onward f f' ∧ t'.telling = t.telling ∧
      t'.decoder.isSome = true := by
  obtain ⟨d, hd⟩ := Option.isSome_iff_exists.1 hd
  have hdec : t.dec = d := by unfold dec; rw [hd]; rfl
  obtain ⟨t1, k1, k2, k3, _, k4⟩ := getAll_spec h
  obtain ⟨s, d', h1, h2, h3⟩ := h.holds.rest
  have hok := h.holds.ok
  have hbeh := h.holds.behind
  have hsta := h.holds.start
  rw [hdec] at h1 hok hbeh hsta
  obtain ⟨b', g1, g2⟩ := h.holds.buf.readAll
  have hadv := advance L (f := f) true hok h.holds.inside (List.prefix_refl _) h1 hbeh hsta
  have hend := L.again hok h1
  have hrest : ({ f with pos := f.pos + f.rest.length, ahead := true } : File).rest = [] :=
    rest_prefix (f := f) (got := f.rest) (z := []) (List.append_nil _) true
  have hdecode : decode (some f.rest) true { t1 with buf := b' } =
      (.ok s, { t1 with buf := b', decoder := some d' }) := by
    rw [k2]
    unfold decode
    dsimp only
    rw [hd, h.holds.newline]
    dsimp only
    rw [h1]
  refine ⟨if t.snapshot.isSome then { t1 with buf := b', decoder := some d', chars := [], used := 0, snapshot := none }
      else { t1 with buf := b', decoder := some d' }, { f with pos := f.pos + f.rest.length, ahead := true }, ?_, ?_, ?_, ?_, ?_⟩
  · unfold readAll
    rw [PyM.bind_ok k1, PyM.bind_ok (onBuf_eq (t := t1) (by rw [k2]; exact g1)), PyM.bind_ok hdecode]
    have hds : dropSnapshot { t1 with buf := b', decoder := some d' } =
        (.ok (), if t.snapshot.isSome then { t1 with buf := b', decoder := some d', chars := [], used := 0, snapshot := none }
          else { t1 with buf := b', decoder := some d' }) := by
      rw [k2]; rfl
    rw [PyM.bind_ok hds, PyM.pure_apply, h2]
  · have hin : f.pos + f.rest.length ≤ f.data.length := by
      have := h.holds.inside
      unfold File.rest
      rw [List.length_drop]; omega
    have mk : ∀ u : Txt C, u.buf = b' → u.newline = nl → u.seekable = true → u.decoder = some d' → u.used = u.chars.length →
        (u.telling = true → u.chars = [] ∧ u.snapshot = none) →
        Reading nl Ok u { f with pos := f.pos + f.rest.length, ahead := true } [] false := by
      intro u e1 e2 e3 e4 e5 e6
      have hu : u.dec = d' := by unfold dec; rw [e4]; rfl
      refine ⟨⟨by rw [e1]; exact g2, e2, e3, hin, by rw [hu]; exact L.next hok h1, by omega, ?_, ?_, ?_⟩, ?_⟩
      · rw [hu]; exact hadv.1
      · rw [hu]; exact hadv.2
      · refine ⟨[], d', by rw [hu, hrest]; exact hend, ?_, by simp⟩
        rw [e5, List.drop_of_length_le (Nat.le_refl _)]; rfl
      · intro ht
        obtain ⟨e7, e8⟩ := e6 ht
        exact .none e8 e7 (.inl ⟨hrest, by rw [hu]; exact hend⟩)
    have e2 : t1.newline = nl := by rw [k2]; exact h.holds.newline
    have e3 : t1.seekable = true := by rw [k2]; exact h.holds.seekable
    split
    · exact mk _ rfl e2 e3 rfl rfl fun _ => ⟨rfl, rfl⟩
    · rename_i hsn
      refine mk _ rfl e2 e3 rfl k3 fun ht => ?_
      have ht : t.telling = true := by rw [k2] at ht; exact ht
      cases h.snap ht with
      | none q1 q2 _ => rw [k2]; exact ⟨q2, q1⟩
      | some fl i fin q1 => rw [q1] at hsn; exact absurd rfl hsn
  · refine ⟨rfl, rfl, ?_⟩
    rw [hrest]; exact Nat.zero_le _
  · split <;> (rw [k2])
  · split <;> rfl

theorem Reading.getDecoder {t : Txt C} {f : File} {r : Text} {b : Bool} (h : Reading nl Ok t f r b) :
    Reading nl Ok { t with decoder := some t.dec } f r b := by
  obtain ⟨⟨h1, h2, h3, h4, h5, h6, h7, h8, h9⟩, hs⟩ := h
  refine ⟨⟨h1, h2, h3, h4, h5, h6, h7, h8, h9⟩, fun ht => ?_⟩
  cases hs ht with
  | none q1 q2 q3 => exact .none q1 q2 q3
  | some fl i fin q1 q2 q3 q4 q5 q6 q7 q8 q9 => exact .some fl i fin q1 rfl q3 q4 q5 q6 q7 q8 q9

theorem Holds.checkReadable {t : Txt C} {f : File} {r : Text} (h : Holds nl Ok t f r) : checkReadable t = (.ok (), t) := by
  have hr : readable t = (.ok true, t) := by
    unfold readable
    have h1 := h.buf.opened
    have h2 := h.buf.rep.live.readable h.buf.kind
    split
    · rename_i hk; exact absurd hk h.buf.kind
    · rw [h1, h2]; rfl
  unfold Txt.checkReadable
  rw [PyM.bind_ok hr]; rfl

theorem Holds.checkClosed {t : Txt C} {f : File} {r : Text} (h : Holds nl Ok t f r) : checkClosed t = (.ok (), t) := by
  have : Buf.checkClosed t.buf = (.ok (), t.buf) := by simp [Buf.checkClosed, h.buf.opened]
  unfold Txt.checkClosed
  rw [onBuf_eq this]

theorem drop_take (n : Nat) (r : Text) : r.drop (r.take n).length = r.drop n := by
  rw [List.length_take]
  by_cases h : n ≤ r.length
  · rw [Nat.min_eq_left h]
  · rw [Nat.min_eq_right (by omega), List.drop_of_length_le (Nat.le_refl _), List.drop_of_length_le (by omega)]

/-- `read(size)`. -/
theorem read_spec (L : LawfulText C nl Ok) {t : Txt C} {f : File} {r : Text} {b : Bool} (h : Reading nl Ok t f r b)
    (n : Option Int) :
    ∃ t' f', read n t = (.ok (limit (n.getD (-1)) r), t') ∧
      Reading nl Ok t' f' (r.drop (limit (n.getD (-1)) r).length) b ∧ Onward f f' ∧ t'.telling = t.telling ∧
      t'.decoder.isSome = true := by
  have hg : getDecoder t = (.ok (), { t with decoder := some t.dec }) := rfl
  have h1 := h.getDecoder
  have hall : ∃ t' f', readAll { t with decoder := some t.dec } = (.ok r, t') ∧
      Reading nl Ok t' f' (r.drop r.length) b ∧ Onward f f' ∧ t'.telling = t.telling ∧ t'.decoder.isSome = true := by
    obtain ⟨t', f', e1, e2, e3, e4, e5⟩ := readAll_spec L h1 rfl
    refine ⟨t', f', e1, ⟨?_, fun ht => (e2.snap ht).weaken b⟩, e3, e4, e5⟩
    rw [List.drop_of_length_le (Nat.le_refl _)]; exact e2.holds
  unfold read
  rw [PyM.bind_ok h.holds.checkReadable, PyM.bind_ok hg]
  cases n with
  | none =>
    have : limit ((none : Option Int).getD (-1)) r = r := rfl
    rw [this]; exact hall
  | some n =>
    dsimp only [Option.getD_some]
    by_cases hn : n < 0
    · have : limit n r = r := by unfold limit; rw [if_pos hn]
      rw [this, if_pos hn]; exact hall
    · have : limit n r = r.take n.toNat := by unfold limit; rw [if_neg hn]
      rw [this, if_neg hn, drop_take]
      obtain ⟨t1, k1, k2, k3, k4⟩ := getChars_spec h1 n.toNat
      rw [PyM.bind_ok k1]
      dsimp only at k1 k2 k3 k4 ⊢
      generalize hs : (t.chars.drop t.used).take n.toNat = s at *
      have hsl : s.length = min n.toNat (t.chars.length - t.used) := by rw [← hs, List.length_take, List.length_drop]
      obtain ⟨z, rfl⟩ := k3
      obtain ⟨t', f', e1, e2, e3, e4, e5⟩ := readLoop_spec L n.toNat t.rounds t1 f _ s b k4 (by rw [k2]; rfl) (by omega)
        (by
          intro hlt
          rw [k2]
          exact List.drop_of_length_le (by dsimp only; omega)) h.holds.rounds
      refine ⟨t', f', ?_, ?_, e3, by rw [e4, k2], e5⟩
      · rw [e1, List.drop_left, List.take_append, List.take_of_length_le (by omega : s.length ≤ n.toNat)]
      · rw [List.drop_drop] at e2
        have : s.length + (n.toNat - s.length) = n.toNat := by omega
        rwa [this] at e2

end Verif.Txt
