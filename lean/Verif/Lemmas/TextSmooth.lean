import Verif.Lemmas.Smooth
import Verif.Lemmas.TextReadline
import Verif.Spec.TextCalls

/-!
# Reading text when no system call fails
-/

set_option autoImplicit false

namespace Verif.Txt

open Verif.Spec Verif.Props

variable {C : Codec} {nl : Newline} {Ok : C.Dec → Prop} {data : Bytes} {p : Nat}

/-- The laws of the codec. -/
abbrev LawfulDec (C : Codec) (Ok : C.Dec → Prop) : Prop := Lawful C.decInit C.decode C.getstate C.setstate Ok

/-- The decoder `d` will turn the bytes `rest` into `s`.  (Where newlines are translated, there are no carriage returns.) -/
structure Ahead (nl : Newline) (Ok : C.Dec → Prop) (d : C.Dec × Bool) (rest : Bytes) (s : Text) : Prop where
  ok : Ok d.1
  pend : nl.universal = false → d.2 = false
  text : ∃ o d', C.decode d.1 rest true = .ok (o, d') ∧ (nl = .auto → d.2 = false ∧ 13 ∉ o) ∧ s = withCr d.2 o

theorem universalText_id {s : Text} (h : 13 ∉ s) : universalText s = s := by
  induction s with
  | nil => rfl
  | cons c cs ih =>
    have h1 : c ≠ 13 := fun e => h (by rw [e]; exact List.mem_cons_self ..)
    rw [universalText_cons h1, ih fun hm => h (List.mem_cons_of_mem _ hm)]

/-- Decoding a piece. -/
theorem Ahead.decode (L : LawfulDec C Ok) (E : Early C) {d : C.Dec × Bool} {x y : Bytes} {s : Text}
    (h : Ahead nl Ok d (x ++ y) s) (final : Bool) :
    (∃ s1 d1 s2, decodeWith C nl d x final = .ok (s1, d1) ∧ Ahead nl Ok d1 y s2 ∧ s = s1 ++ s2 ∧
      (final = true → y = [] → s2 = []) ∧ (final = true → x = [] → s1 = [] ∨ (nl = .raw ∧ s1 = [13]))) ∨
    (final = true ∧ y ≠ [] ∧ ∃ e, decodeWith C nl d x final = .error e ∧ C.decode d.1 x true = .error e) := by
  obtain ⟨o, d', h1, h2, h3⟩ := h.text
  rw [L.split x y true h.ok] at h1
  cases hx : C.decode d.1 x false with
  | error e => rw [hx] at h1; cases h1
  | ok q =>
    obtain ⟨ox, e⟩ := q
    rw [hx] at h1
    dsimp only at h1
    cases hy : C.decode e y true with
    | error e => rw [hy] at h1; cases h1
    | ok q =>
      obtain ⟨oy, e'⟩ := q
      rw [hy] at h1
      cases h1
      have go : C.decode d.1 x final = .ok (ox, e) → (final = true → y = [] → oy = []) →
          ∃ s1 d1 s2, decodeWith C nl d x final = .ok (s1, d1) ∧ Ahead nl Ok d1 y s2 ∧ s = s1 ++ s2 ∧
            (final = true → y = [] → s2 = []) ∧ (final = true → x = [] → s1 = [] ∨ (nl = .raw ∧ s1 = [13])) := by
        intro hf hlast
        have hnone : x = [] → ox = [] := by
          rintro rfl
          rw [L.nothing h.ok] at hx
          exact (Prod.mk.inj (Except.ok.inj hx)).1.symm
        have hok : Ok e := L.next h.ok hx
        unfold decodeWith
        rw [hf]
        dsimp only
        by_cases hu : nl.universal = true
        · rw [if_pos hu]
          -- no translation takes place
          have hconv : ∀ z : Text, (nl = .auto → 13 ∉ z) → convert nl.translate z = z := by
            intro z hz
            unfold convert
            split
            · rename_i ht
              have : nl = .auto := by cases nl <;> first | rfl | cases ht
              exact universalText_id (hz this)
            · rfl
          have hauto : nl = .auto → d.2 = false ∧ 13 ∉ ox ∧ 13 ∉ oy := by
            intro ha
            obtain ⟨q1, q2⟩ := h2 ha
            exact ⟨q1, fun hm => q2 (List.mem_append_left _ hm), fun hm => q2 (List.mem_append_right _ hm)⟩
          have hwx : nl = .auto → 13 ∉ withCr d.2 ox := by
            intro ha
            obtain ⟨q1, q2, _⟩ := hauto ha
            rw [q1]; exact q2
          rw [splitCr_eq]
          have hcat : withCr d.2 (ox ++ oy) = withCr d.2 ox ++ oy := by unfold withCr; split <;> rfl
          by_cases hk : (withCr d.2 ox).getLast? = some 13 ∧ final = false
          · rw [if_pos hk]
            have hna : nl ≠ .auto := fun ha => hwx ha (List.mem_of_getLast? hk.1)
            have hp1 : nl.universal = false → true = false := fun hn => by rw [hu] at hn; cases hn
            refine ⟨_, _, withCr true oy, rfl, ⟨hok, hp1, oy, d', hy, fun ha => absurd ha hna, rfl⟩, ?_, fun hf' => ?_, fun hf' => ?_⟩
            · rw [hconv _ fun ha => absurd ha hna, h3, hcat]
              obtain ⟨m, hm⟩ := List.getLast?_eq_some_iff.1 hk.1
              rw [hm]
              simp [withCr]
            · rw [hk.2] at hf'; cases hf'
            · rw [hk.2] at hf'; cases hf'
          · rw [if_neg hk]
            refine ⟨_, _, withCr false oy, rfl, ⟨hok, fun _ => rfl, oy, d', hy, fun ha => ⟨rfl, (hauto ha).2.2⟩, rfl⟩, ?_,
              fun hf' h0 => hlast hf' h0, fun _ h0 => ?_⟩
            · rw [hconv _ hwx, h3, hcat]; rfl
            · rw [hconv _ hwx, hnone h0]
              cases hd2 : d.2 with
              | false => exact .inl rfl
              | true =>
                refine .inr ⟨?_, rfl⟩
                cases nl with
                | auto => rw [(h2 rfl).1] at hd2; cases hd2
                | raw => rfl
                | _ => cases hu
        · rw [if_neg hu]
          have hp := h.pend (by simpa using hu)
          refine ⟨_, _, oy, rfl, ⟨hok, fun _ => hp, oy, d', hy, fun ha => ?_, by rw [hp]; rfl⟩, ?_, hlast, fun _ h0 => .inl (hnone h0)⟩
          · rw [ha] at hu; exact absurd rfl hu
          · rw [h3, hp]; rfl
      cases final with
      | false => exact .inl (go hx nofun)
      | true =>
        cases hxt : C.decode d.1 x true with
        | ok q =>
          obtain ⟨ox', e1⟩ := q
          have hE := E _ _ _ _ hxt
          rw [hx] at hE
          cases hE
          refine .inl (go hxt fun _ h0 => ?_)
          subst h0
          have := L.again h.ok hxt
          rw [hy] at this
          exact (Prod.mk.inj (Except.ok.inj this)).1
        | error er =>
          refine .inr ⟨rfl, ?_, er, ?_, rfl⟩
          · rintro rfl
            have := L.split (d := d.1) x [] true h.ok
            rw [List.append_nil, hxt, hx] at this
            dsimp only at this
            rw [hy] at this
            cases this
          · unfold decodeWith; rw [hxt]

/-- A stream that reads the file `data`, from `p` on; no system call fails; the text to come is `r`. -/
structure Calm (nl : Newline) (Ok : C.Dec → Prop) (data : Bytes) (p : Nat) (t : Txt C) (r : Text) : Prop where
  buf : t.buf.Smooth data p
  newline : t.newline = nl
  used : t.used ≤ t.chars.length
  rest : ∃ s, Ahead nl Ok t.dec (data.drop p) s ∧ r = t.chars.drop t.used ++ s

variable {t : Txt C} {r : Text}

theorem Calm.rounds (h : Calm nl Ok data p t r) : (data.drop p).length < t.rounds := by
  unfold Txt.rounds
  rw [h.buf.raw.data, List.length_drop]
  omega

/-- The error of the decoder at an end of the input that is not the end of the file, or that of `decode(None)`. -/
def DecodeError (C : Codec) (e : Exn) : Prop := ∃ d x, C.decode d x true = .error e

theorem read1_some {b b' : Buf} {n : Int} {x : Option Bytes} (h : b.Smooth data p) (h' : Buf.read1 n b = (.ok x, b')) :
    x.isSome = true := by
  have key : ∀ {b : Buf}, b.Smooth data p → ∀ {b' : Buf}, Buf.readerRead1 n b = (.ok x, b') → x.isSome = true := by
    intro b h b' h'
    unfold Buf.readerRead1 at h'
    rw [PyM.bind_ok (Buf.checkClosed_ok h.raw.opened)] at h'
    by_cases hn : n = 0
    · rw [if_pos hn] at h'
      rw [← Except.ok.inj (Prod.mk.inj h').1]; rfl
    · rw [if_neg hn] at h'
      unfold Buf.read1Unlocked at h'
      obtain ⟨y, b₁, u, h1, h2, _⟩ := Buf.peekUnlocked_smooth h 1
      rw [PyM.bind_ok h1, PyM.bind_ok (PyM.get_apply b₁)] at h'
      unfold Buf.readSome at h'
      have := h2.inside
      rw [if_pos (by omega)] at h'
      rw [← Except.ok.inj (Prod.mk.inj h').1]; rfl
  unfold Buf.read1 at h'
  split at h'
  · rename_i hk; exact absurd hk h.kind
  · exact key h h'
  · rename_i hk
    rw [PyM.bind_ok (Buf.flush_smooth h hk)] at h'
    exact key h h'

/-- `_read_chunk`. -/
theorem readChunk_calm (L : LawfulDec C Ok) (E : Early C) (h : Calm nl Ok data p t r) (hd : t.decoder.isSome = true)
    (hu : t.chars.drop t.used = []) :
    ∃ used, t.buf.raw.sched = used ++ (readChunk t).2.buf.raw.sched ∧
      ((∃ more p', (readChunk t).1 = .ok more ∧ Calm nl Ok data p' (readChunk t).2 r ∧ (readChunk t).2.used = 0 ∧
          (readChunk t).2.decoder.isSome = true ∧ (data.drop p').length ≤ (data.drop p).length ∧
          (more = true → (data.drop p').length < (data.drop p).length) ∧
          (more = false → (readChunk t).2.chars = r ∨
            (Stopped used ∧ ((readChunk t).2.chars = [] ∨ (nl = .raw ∧ (readChunk t).2.chars = [13]))))) ∨
        ∃ e, (readChunk t).1 = .error e ∧ Stopped used ∧ DecodeError C e) := by
  obtain ⟨d, hd⟩ := Option.isSome_iff_exists.1 hd
  have hdec : t.dec = d := by unfold dec; rw [hd]; rfl
  obtain ⟨x, b', used, h1, h2, h3, h4⟩ := Buf.read1_smooth h.buf (chunkSize : Int)
  obtain ⟨got, rfl⟩ := Option.isSome_iff_exists.1 (read1_some h.buf h1)
  have hb := h2.bytes
  have hcalm := h2.calm
  rw [Option.getD_some] at hb hcalm h4
  obtain ⟨y, hy⟩ := hb
  have hy' : data.drop (p + got.length) = y := by rw [← List.drop_drop, ← hy, List.drop_left]
  obtain ⟨s, ha, hr⟩ := h.rest
  rw [hu, List.nil_append] at hr
  subst hr
  rw [hdec, ← hy] at ha
  have hbuf : onBuf (Buf.read1 (chunkSize : Int)) t = (.ok (some got), { t with buf := b' }) := onBuf_eq h1
  have hstop : got = [] → data.length ≤ p ∨ Stopped used := by
    intro hg
    rcases h4 with h4 | h4 | h4
    · exact absurd h4 (by decide)
    · exact absurd hg h4
    · exact h4
  have hde : decode (some got) (decide (got = [])) { t with buf := b' } =
      (match decodeWith C t.newline d got (decide (got = [])) with
        | .error e => (.error e, { t with buf := b' })
        | .ok (s, d) => (.ok s, { t with buf := b', decoder := some d })) := by
    unfold decode; dsimp only; rw [hd]; rfl
  rcases ha.decode L E (decide (got = [])) with ⟨s1, d1, s2, k1, k2, k3, k4, k5⟩ | ⟨k1, k2, e, k3, k4⟩
  · have k1' : decodeWith C t.newline d got (decide (got = [])) = .ok (s1, d1) := by rw [h.newline]; exact k1
    rw [k1'] at hde
    have hrun : readChunk t = (.ok (!decide (got = [])), { t with
        buf := b', decoder := some d1, chars := s1, used := 0
        ratio := if s1 = [] then (0, 0) else (got.length, s1.length)
        snapshot := if t.telling then
          some ((getstateWith C t.newline d).2, (getstateWith C t.newline d).1 ++ got) else t.snapshot }) := by
      unfold readChunk
      rw [hd]
      dsimp only
      rw [PyM.bind_ok hbuf]
      dsimp only [Option.getD_some]
      rw [PyM.bind_ok hde]
      rfl
    rw [hrun]
    refine ⟨used, h2.after.sched, .inl ⟨_, p + got.length, rfl, ⟨hcalm, h.newline, Nat.zero_le _, s2, ?_, k3⟩, rfl, rfl, ?_, ?_, ?_⟩⟩
    · rw [hy']; exact k2
    · rw [hy', ← hy, List.length_append]; omega
    · intro hm
      have hg : got ≠ [] := by simpa using hm
      rw [hy', ← hy, List.length_append]
      have := List.length_pos_iff.2 hg
      omega
    · intro hm
      have hg : got = [] := by simpa using hm
      refine (hstop hg).imp (fun hp => ?_) fun hp => ⟨hp, k5 (by simp [hg]) hg⟩
      have hy0 : y = [] := by
        rw [hg, List.nil_append] at hy
        rw [hy]; exact List.drop_of_length_le hp
      rw [k3, k4 (by simp [hg]) hy0, List.append_nil]
  · have k3' : decodeWith C t.newline d got (decide (got = [])) = .error e := by rw [h.newline]; exact k3
    rw [k3'] at hde
    have hg : got = [] := by simpa using k1
    have hrun : readChunk t = (.error e, { t with buf := b' }) := by
      unfold readChunk
      rw [hd]
      dsimp only
      rw [PyM.bind_ok hbuf]
      dsimp only [Option.getD_some]
      rw [PyM.bind_error hde, ← hd]
    rw [hrun]
    refine ⟨used, h2.after.sched, .inr ⟨e, rfl, (hstop hg).resolve_left fun hp => k2 ?_, _, _, k4⟩⟩
    rw [hg, List.nil_append] at hy
    rw [hy]; exact List.drop_of_length_le hp

/-- A call that took the beginning of `whole`, where `ref` was expected, if `Q`. -/
def Gave (nl : Newline) (Ok : C.Dec → Prop) (data : Bytes) (sched : List OsAns) (whole ref : Text) (Q : Prop) (Bad : Exn → Prop)
    (x : Except Exn Text × Txt C) : Prop :=
  ∃ used, sched = used ++ x.2.buf.raw.sched ∧
    ((∃ out p', x.1 = .ok out ∧ out <+: whole ∧ Calm nl Ok data p' x.2 (whole.drop out.length) ∧ (Q → out = ref ∨ Stopped used)) ∨
      ∃ e, x.1 = .error e ∧ Stopped used ∧ Bad e)

theorem Gave.after {u sched sched' : List OsAns} {whole ref : Text} {Q : Prop} {Bad : Exn → Prop} {x : Except Exn Text × Txt C}
    (h : Gave nl Ok data sched' whole ref Q Bad x) (hs : sched = u ++ sched') : Gave nl Ok data sched whole ref Q Bad x := by
  obtain ⟨v, h1, h2⟩ := h
  refine ⟨u ++ v, by rw [hs, h1, List.append_assoc], ?_⟩
  rcases h2 with ⟨out, p', g1, g2, g3, g4⟩ | ⟨e, g1, g2, g3⟩
  · exact .inl ⟨out, p', g1, g2, g3, fun q => (g4 q).imp_right stopped_append⟩
  · exact .inr ⟨e, g1, stopped_append g2, g3⟩

theorem Calm.use (h : Calm nl Ok data p t r) {n : Nat} (hn : n ≤ t.chars.length) {r' : Text}
    (hr : ∀ s, r = t.chars.drop t.used ++ s → r' = t.chars.drop n ++ s) : Calm nl Ok data p { t with used := n } r' := by
  obtain ⟨h1, h2, h3, s, h4, h5⟩ := h
  exact ⟨h1, h2, hn, s, h4, hr s h5⟩

theorem getChars_calm (h : Calm nl Ok data p t r) (k : Nat) :
    ∃ t', getChars (some k) t = (.ok ((t.chars.drop t.used).take k), t') ∧
      t' = { t with used := t.used + ((t.chars.drop t.used).take k).length } ∧
      (t.chars.drop t.used).take k <+: r ∧ Calm nl Ok data p t' (r.drop ((t.chars.drop t.used).take k).length) := by
  refine ⟨_, rfl, rfl, ?_, ?_⟩
  · obtain ⟨s, _, h1⟩ := h.rest
    exact ((List.take_prefix _ _).trans ⟨s, h1.symm⟩)
  · have hl : ((t.chars.drop t.used).take k).length ≤ (t.chars.drop t.used).length := by
      rw [List.length_take]; omega
    refine h.use ?_ ?_
    · rw [List.length_drop] at hl
      have := h.used
      change t.used + ((t.chars.drop t.used).take k).length ≤ t.chars.length
      omega
    · intro s hs
      rw [hs, List.drop_append_of_le_length hl, List.drop_drop]

theorem getAll_calm (h : Calm nl Ok data p t r) :
    ∃ t', getChars none t = (.ok (t.chars.drop t.used), t') ∧
      t' = { t with used := t.used + (t.chars.drop t.used).length } ∧ t'.used = t'.chars.length ∧
      t.chars.drop t.used <+: r ∧ Calm nl Ok data p t' (r.drop (t.chars.drop t.used).length) := by
  refine ⟨_, rfl, rfl, ?_, ?_, ?_⟩
  · have := h.used
    dsimp only
    rw [List.length_drop]
    omega
  · obtain ⟨s, _, h1⟩ := h.rest
    exact ⟨s, h1.symm⟩
  · refine h.use ?_ ?_
    · rw [List.length_drop]
      have := h.used
      omega
    · intro s hs
      rw [hs, List.drop_append_of_le_length (Nat.le_refl _), List.drop_drop]

theorem readLoop_calm (L : LawfulDec C Ok) (E : Early C) (size : Nat) (fuel : Nat) : ∀ (t : Txt C) (p : Nat) (r result : Text),
    Calm nl Ok data p t r → t.decoder.isSome = true → result.length ≤ size →
    (result.length < size → t.chars.drop t.used = []) → (data.drop p).length < fuel →
    Gave nl Ok data t.buf.raw.sched (result ++ r) ((result ++ r).take size) True (DecodeError C) (readLoop size fuel result t) := by
  induction fuel with
  | zero => intro t p r result _ _ _ _ h; omega
  | succ fuel ih =>
    intro t p r result h hd hle hc hf
    unfold readLoop
    by_cases hlt : result.length < size
    · rw [if_pos hlt]
      obtain ⟨used, hs, hch⟩ := readChunk_calm L E h hd (hc hlt)
      generalize hrc : readChunk t = rc at hs hch
      obtain ⟨res, t1⟩ := rc
      rcases hch with ⟨more, p1, g1, g2, g3, g4, _, g5, g6⟩ | ⟨e, g1, g2, g3⟩
      · dsimp only at g1 g2 g3 g4 g6 hs
        subst g1
        obtain ⟨t2, k1, k2, k3, k4⟩ := getChars_calm g2 (size - result.length)
        rw [PyM.bind_ok hrc, PyM.bind_ok k1]
        have hdrop : t1.chars.drop t1.used = t1.chars := by rw [g3]; rfl
        rw [hdrop] at k1 k2 k3 k4
        rw [hdrop]
        generalize hs' : t1.chars.take (size - result.length) = s at *
        have hsl : s.length = min (size - result.length) t1.chars.length := by rw [← hs', List.length_take]
        obtain ⟨z, rfl⟩ := k3
        have hsch : t2.buf.raw.sched = t1.buf.raw.sched := by rw [k2]
        have hz : (s ++ z).drop s.length = z := List.drop_left
        rw [hz] at k4
        cases more with
        | true =>
          rw [if_pos rfl]
          have := ih t2 p1 z (result ++ s) k4 (by rw [k2]; exact g4)
            (by rw [List.length_append]; omega) (by
              intro hlt'
              rw [List.length_append] at hlt'
              rw [k2]
              dsimp only
              rw [g3, Nat.zero_add]
              exact List.drop_of_length_le (by omega)) (by have := g5 rfl; omega)
          rw [List.append_assoc] at this
          exact this.after (u := used) (by rw [hs, hsch])
        | false =>
          rw [if_neg (by simp)]
          refine ⟨used, by rw [hs]; exact congrArg _ hsch.symm, .inl ⟨result ++ s, p1, rfl, ⟨z, by simp⟩, ?_, fun _ => ?_⟩⟩
          · rw [← List.append_assoc, List.drop_left]; exact k4
          · refine (g6 rfl).imp (fun hch => ?_) And.left
            rw [← hch, List.take_append, List.take_of_length_le hle, hs']
      · dsimp only at g1 hs
        subst g1
        rw [PyM.bind_error hrc]
        exact ⟨used, hs, .inr ⟨e, rfl, g2, g3⟩⟩
    · rw [if_neg hlt]
      have hsz : result.length = size := by omega
      refine ⟨[], rfl, .inl ⟨result, p, rfl, List.prefix_append _ _, ?_, fun _ => .inl ?_⟩⟩
      · rw [List.drop_left]; exact h
      · rw [← hsz, List.take_left]

theorem readAll_calm (L : LawfulDec C Ok) (E : Early C) (h : Calm nl Ok data p t r) (hd : t.decoder.isSome = true) :
    Gave nl Ok data t.buf.raw.sched r r True (fun e => e = .typeError ∨ DecodeError C e) (readAll t) := by
  obtain ⟨d, hd⟩ := Option.isSome_iff_exists.1 hd
  have hdec : t.dec = d := by unfold dec; rw [hd]; rfl
  obtain ⟨t1, k1, k2, k3, _, k4⟩ := getAll_calm h
  obtain ⟨s, ha, hr⟩ := h.rest
  rw [hdec] at ha
  unfold readAll
  rw [PyM.bind_ok k1]
  rcases Buf.read_smooth h.buf none with ⟨_, z, hz, _⟩ | ⟨_, x, b', used, h1, h2, _, h3⟩
  · cases hz
  have hb1 : t1.buf = t.buf := by rw [k2]
  have hbuf : onBuf (Buf.read none) t1 = (.ok x, { t1 with buf := b' }) := onBuf_eq (by rw [hb1]; exact h1)
  rw [PyM.bind_ok hbuf]
  have h3' : data.length ≤ p + (x.getD []).length ∨ Stopped used := h3.resolve_left nofun
  have hd1 : ({ t1 with buf := b' } : Txt C).decoder = some d := by rw [k2]; exact hd
  cases x with
  | none =>
    have hde : decode none true { t1 with buf := b' } = (.error .typeError, { t1 with buf := b' }) := by
      unfold decode; rw [hd1]
    rw [PyM.bind_error hde]
    exact ⟨used, h2.after.sched, .inr ⟨_, rfl, ⟨.again, h2.nothing rfl, .inl rfl⟩, .inl rfl⟩⟩
  | some got =>
    have hb := h2.bytes
    have hcalm := h2.calm
    rw [Option.getD_some] at hb hcalm h3'
    obtain ⟨y, hy⟩ := hb
    have hy' : data.drop (p + got.length) = y := by rw [← List.drop_drop, ← hy, List.drop_left]
    rw [← hy] at ha
    have hde : decode (some got) true { t1 with buf := b' } =
        (match decodeWith C nl d got true with
          | .error e => (.error e, { t1 with buf := b' })
          | .ok (s, d) => (.ok s, { t1 with buf := b', decoder := some d })) := by
      have hn2 : t1.newline = nl := by rw [k2]; exact h.newline
      unfold decode; dsimp only; rw [show t1.decoder = some d from hd1, ← hn2]; rfl
    have hn1 : t1.newline = nl := by rw [k2]; exact h.newline
    have hy0 : data.length ≤ p + got.length → y = [] := fun hp => by rw [← hy']; exact List.drop_of_length_le hp
    rcases ha.decode L E true with ⟨s1, d1, s2, q1, q2, q3, q4, _⟩ | ⟨_, q2, e, q3, q4⟩
    · rw [q1] at hde
      rw [PyM.bind_ok hde]
      have hcons : ∀ u : Txt C, u.buf = b' → u.newline = nl → u.decoder = some d1 → u.used = u.chars.length →
          Calm nl Ok data (p + got.length) u (r.drop (t.chars.drop t.used ++ s1).length) := by
        intro u e1 e2 e3 e4
        have hu : u.dec = d1 := by unfold dec; rw [e3]; rfl
        refine ⟨by rw [e1]; exact hcalm, e2, by omega, s2, by rw [hu, hy']; exact q2, ?_⟩
        rw [hr, q3, ← List.append_assoc, List.drop_left, e4, List.drop_of_length_le (Nat.le_refl _)]; rfl
      have hpre : t.chars.drop t.used ++ s1 <+: r := ⟨s2, by rw [hr, q3, List.append_assoc]⟩
      have href : True → t.chars.drop t.used ++ s1 = r ∨ Stopped used := fun _ =>
        h3'.imp_left fun hp => by rw [hr, q3, q4 rfl (hy0 hp), List.append_nil]
      unfold dropSnapshot
      rw [PyM.bind_ok (PyM.modify_apply _ _), PyM.pure_apply]
      have hnl1 : t1.newline = nl := hn1
      split
      · exact ⟨used, h2.after.sched, .inl ⟨_, _, rfl, hpre, hcons _ rfl hnl1 rfl rfl, href⟩⟩
      · exact ⟨used, h2.after.sched, .inl ⟨_, _, rfl, hpre, hcons _ rfl hnl1 rfl k3, href⟩⟩
    · rw [q3] at hde
      rw [PyM.bind_error hde]
      exact ⟨used, h2.after.sched, .inr ⟨_, rfl, h3'.resolve_left fun hp => q2 (hy0 hp), .inr ⟨_, _, q4⟩⟩⟩

theorem Calm.getDecoder (h : Calm nl Ok data p t r) : Calm nl Ok data p { t with decoder := some t.dec } r := by
  obtain ⟨h1, h2, h3, h4⟩ := h
  exact ⟨h1, h2, h3, h4⟩

theorem Calm.checkReadable (h : Calm nl Ok data p t r) : checkReadable t = (.ok (), t) := by
  have hr : readable t = (.ok true, t) := by
    unfold readable
    have h1 := h.buf.raw.opened
    have h2 := h.buf.raw.readable
    split
    · rename_i hk; exact absurd hk h.buf.kind
    · rw [h1, h2]; rfl
  unfold Txt.checkReadable
  rw [PyM.bind_ok hr]; rfl

theorem Calm.checkClosed (h : Calm nl Ok data p t r) : checkClosed t = (.ok (), t) := by
  have : Buf.checkClosed t.buf = (.ok (), t.buf) := Buf.checkClosed_ok h.buf.raw.opened
  unfold Txt.checkClosed
  rw [onBuf_eq this]

theorem Gave.imp {sched : List OsAns} {whole ref : Text} {Q Q' : Prop} {Bad Bad' : Exn → Prop} {x : Except Exn Text × Txt C}
    (h : Gave nl Ok data sched whole ref Q Bad x) (hQ : Q' → Q) (hB : ∀ e, Bad e → Bad' e) :
    Gave nl Ok data sched whole ref Q' Bad' x := by
  obtain ⟨v, h1, h2⟩ := h
  refine ⟨v, h1, ?_⟩
  rcases h2 with ⟨out, p', g1, g2, g3, g4⟩ | ⟨e, g1, g2, g3⟩
  · exact .inl ⟨out, p', g1, g2, g3, fun q => g4 (hQ q)⟩
  · exact .inr ⟨e, g1, g2, hB e g3⟩

/-- `read(size)`. -/
theorem read_calm (L : LawfulDec C Ok) (E : Early C) (h : Calm nl Ok data p t r) (n : Option Int) :
    Gave nl Ok data t.buf.raw.sched r (expected nl r (.read n)) True
      (fun e => (e = .typeError ∧ ∀ z, n = some z → z < 0) ∨ DecodeError C e) (Txt.read n t) := by
  have hg : Txt.getDecoder t = (.ok (), { t with decoder := some t.dec }) := rfl
  have hall : ∀ ref, ref = r → (∀ z, n = some z → z < 0) → Gave nl Ok data t.buf.raw.sched r ref True
      (fun e => (e = .typeError ∧ ∀ z, n = some z → z < 0) ∨ DecodeError C e) (readAll { t with decoder := some t.dec }) := by
    rintro _ rfl hn
    exact (readAll_calm L E h.getDecoder rfl).imp id fun e he => he.imp_left fun h => ⟨h, hn⟩
  unfold Txt.read
  rw [PyM.bind_ok h.checkReadable, PyM.bind_ok hg]
  match n with
  | none => exact hall _ rfl nofun
  | some z =>
    dsimp only
    by_cases hz : z < 0
    · rw [if_pos hz]
      exact hall _ (by simp [expected, limit, hz]) fun z' h => by cases h; exact hz
    · rw [if_neg hz]
      obtain ⟨t2, k1, k2, ⟨w, hw⟩, k4⟩ := getChars_calm h.getDecoder z.toNat
      rw [PyM.bind_ok k1]
      have hlen : ((t.chars.drop t.used).take z.toNat).length ≤ z.toNat := by rw [List.length_take]; omega
      have := readLoop_calm L E z.toNat t.rounds t2 p _ ((t.chars.drop t.used).take z.toNat) k4
        (by rw [k2]; rfl) hlen (by
          intro hlt
          rw [k2]
          dsimp only
          rw [List.length_take] at hlt
          refine List.drop_of_length_le ?_
          rw [List.length_take]
          rw [List.length_drop] at *
          omega) h.rounds
      have hcat : (t.chars.drop t.used).take z.toNat ++ r.drop ((t.chars.drop t.used).take z.toNat).length = r := by
        conv => lhs; rhs; rw [← hw]
        rw [List.drop_left]; exact hw
      rw [hcat] at this
      have hs2 : t2.buf.raw.sched = t.buf.raw.sched := by rw [k2]
      rw [hs2] at this
      simp only [expected, limit, hz, if_false]
      exact this.imp id fun e he => .inr he

/-! ## Lines -/

theorem moreChars_calm (L : LawfulDec C Ok) (E : Early C) (fuel : Nat) : ∀ (t : Txt C) (p : Nat) (r : Text),
    Calm nl Ok data p t r → t.decoder.isSome = true → t.chars.drop t.used = [] → (data.drop p).length < fuel →
    ∃ used, t.buf.raw.sched = used ++ (moreChars fuel t).2.buf.raw.sched ∧
      ((∃ p', (moreChars fuel t).1 = .ok () ∧ Calm nl Ok data p' (moreChars fuel t).2 r ∧ (moreChars fuel t).2.used = 0 ∧
          (moreChars fuel t).2.decoder.isSome = true ∧ (data.drop p').length ≤ (data.drop p).length ∧
          ((moreChars fuel t).2.chars = r ∨
            (Stopped used ∧ ((moreChars fuel t).2.chars = [] ∨ (nl = .raw ∧ (moreChars fuel t).2.chars = [13]))) ∨
            ((moreChars fuel t).2.chars ≠ [] ∧ (data.drop p').length < (data.drop p).length))) ∨
        ∃ e, (moreChars fuel t).1 = .error e ∧ Stopped used ∧ DecodeError C e) := by
  induction fuel with
  | zero => intro t p r _ _ _ h; omega
  | succ fuel ih =>
    intro t p r h hd hc hf
    obtain ⟨used, hs, hch⟩ := readChunk_calm L E h hd hc
    generalize hrc : readChunk t = rc at hs hch
    obtain ⟨res, t1⟩ := rc
    unfold moreChars
    rcases hch with ⟨more, p1, g1, g2, g3, g4, hle, g5, g6⟩ | ⟨e, g1, g2, g3⟩
    · dsimp only at g1 g2 g3 g4 g6 hs
      subst g1
      rw [PyM.bind_ok hrc, PyM.bind_ok (PyM.get_apply t1)]
      cases more with
      | false =>
        rw [if_neg (by simp)]
        exact ⟨used, hs, .inl ⟨p1, rfl, g2, g3, g4, hle, (g6 rfl).imp_right .inl⟩⟩
      | true =>
        by_cases hch : t1.chars = []
        · rw [if_pos (by simp [hch])]
          have hlt := g5 rfl
          obtain ⟨u, e1, e2⟩ := ih t1 p1 r g2 g4 (by simp [hch]) (by omega)
          refine ⟨used ++ u, by rw [hs, List.append_assoc]; exact congrArg _ e1, ?_⟩
          rcases e2 with ⟨p', q1, q2, q3, q4, q5, q6⟩ | ⟨e, q1, q2, q3⟩
          · exact .inl ⟨p', q1, q2, q3, q4, by omega, q6.imp_right (Or.imp (And.imp_left stopped_append) fun ⟨a, b⟩ => ⟨a, by omega⟩)⟩
          · exact .inr ⟨e, q1, stopped_append q2, q3⟩
        · rw [if_neg (by simp [hch])]
          exact ⟨used, hs, .inl ⟨p1, rfl, g2, g3, g4, hle, .inr (.inr ⟨hch, g5 rfl⟩)⟩⟩
    · dsimp only at g1 hs
      subst g1
      rw [PyM.bind_error hrc]
      exact ⟨used, hs, .inr ⟨e, rfl, g2, g3⟩⟩

theorem lineEnd_raw : ∀ {line : Text}, lineEnd .raw line = none → 13 ∉ line := by
  intro line
  induction line with
  | nil => exact fun _ => List.not_mem_nil
  | cons c cs ih =>
    intro h
    rw [lineEnd_cons] at h
    by_cases h0 : terminator .raw (c :: cs) = 0
    · rw [if_pos h0] at h
      have h1 := ih (by simpa using h)
      intro hm
      rcases List.mem_cons.1 hm with hc | hm
      · subst hc
        revert h0
        cases cs with
        | nil => simp [terminator]
        | cons a as =>
          intro h0
          unfold terminator at h0
          split at h0 <;> simp_all
      · exact h1 hm
    · rw [if_neg h0] at h; cases h

/-- The end of `readline`: the characters after the line are given back. -/
theorem finishLine_calm (h : Calm nl Ok data p t r) (hu : t.used = t.chars.length) {size : Int} {line pre suf : Text} {e : Nat}
    (hl : line = pre ++ suf) (hs : suf <:+ t.chars) (he : e ≤ line.length)
    (hp : pre.length ≤ (if 0 ≤ size ∧ size < e then size.toNat else e)) :
    ∃ t', finishLine size line e t = (.ok (limit size (line.take e)), t') ∧ t'.buf = t.buf ∧
      Calm nl Ok data p t' ((line ++ r).drop (limit size (line.take e)).length) := by
  have hlim : limit size (line.take e) = line.take (if 0 ≤ size ∧ size < e then size.toNat else e) := by
    unfold limit
    by_cases h0 : size < 0
    · rw [if_pos h0, if_neg (by omega)]
    · rw [if_neg h0, List.take_take]
      by_cases h1 : size < e
      · rw [if_pos ⟨by omega, h1⟩, Nat.min_eq_left (by omega)]
      · rw [if_neg (fun hh => h1 hh.2), Nat.min_eq_right (by omega)]
  have he' : (if 0 ≤ size ∧ size < e then size.toNat else e) ≤ line.length := by
    split <;> omega
  rw [hlim]
  generalize hk : (if 0 ≤ size ∧ size < (e : Int) then size.toNat else e) = k at hp he' ⊢
  have hsl := hs.length_le
  have hll : line.length = pre.length + suf.length := by rw [hl, List.length_append]
  have hrw : rewind (line.length - k) t = (.ok (), { t with used := t.used - (line.length - k) }) := by
    unfold rewind
    rw [if_neg (by omega)]
  refine ⟨{ t with used := t.used - (line.length - k) }, ?_, rfl, ?_⟩
  · unfold finishLine
    rw [hk, PyM.bind_ok hrw]
    rfl
  · have hlt : (line.take k).length = k := by rw [List.length_take]; omega
    rw [hlt, List.drop_append_of_le_length he']
    refine h.use (by omega) ?_
    intro s hs'
    have hr : r = s := by rw [hs', hu, List.drop_of_length_le (Nat.le_refl _)]; rfl
    obtain ⟨z, hz⟩ := hs
    have hc : t.chars.length = z.length + suf.length := by rw [← hz, List.length_append]
    rw [hr, hu]
    congr 1
    have hd1 : line.drop k = suf.drop (k - pre.length) := by
      rw [hl, List.drop_append, List.drop_of_length_le hp]; rfl
    have hd2 : t.chars.drop (t.chars.length - (line.length - k)) = suf.drop (k - pre.length) := by
      rw [← hz, List.drop_append]
      rw [List.drop_of_length_le (by rw [List.length_append]; omega), List.nil_append]
      congr 1
      rw [List.length_append]
      omega
    rw [hd1, hd2]

theorem readlineLoop_calm (L : LawfulDec C Ok) (E : Early C) (size : Int) (fuel : Nat) :
    ∀ (t : Txt C) (p : Nat) (r line pre suf : Text),
    Calm nl Ok data p t r → t.decoder.isSome = true → t.used = t.chars.length →
    line = pre ++ suf → suf <:+ t.chars → (lineEnd nl pre = none) → (0 ≤ size → pre.length ≤ size) →
    ((data.drop p).length + 1 < fuel ∨ (0 < fuel ∧ (r = [] ∨ ∃ e, lineEnd nl line = some e))) →
    Gave nl Ok data t.buf.raw.sched (line ++ r) (limit size (firstLine nl (line ++ r))) (nl = .raw → 13 ∉ line ++ r)
      (DecodeError C) (readlineLoop size fuel line t) := by
  induction fuel with
  | zero => intro t p r line pre suf _ _ _ _ _ _ _ h; omega
  | succ fuel ih =>
    intro t p r line pre suf h hd hu hl hs hpre hsz hf
    have hcons : t.chars.drop t.used = [] := by rw [hu]; exact List.drop_of_length_le (Nat.le_refl _)
    unfold readlineLoop
    rw [h.newline]
    have hpr : ∀ (e : Nat), limit size (line.take e) <+: line ++ r := fun e =>
      ((limit_prefix _ _).trans (List.take_prefix _ _)).trans (List.prefix_append _ _)
    cases hle : lineEnd nl line with
    | some e =>
      dsimp only
      obtain ⟨q1, q2⟩ := lineEnd_some hle (more := []) (fun _ _ => nofun)
      have hpe : pre.length ≤ e := by
        have := (lineEnd_none hpre (suf ++ [])).length_le
        rw [← List.append_assoc, ← hl, q2, List.length_take] at this
        omega
      obtain ⟨t', e1, e2, e3⟩ := finishLine_calm h hu (size := size) hl hs q1 (by
        split
        · have := hsz (by omega); omega
        · exact hpe)
      rw [e1]
      refine ⟨[], by rw [e2]; rfl, .inl ⟨_, p, rfl, hpr e, e3, fun hQ => .inl ?_⟩⟩
      rw [(lineEnd_some hle (more := r) fun hn hlast =>
        absurd (List.mem_append_left _ (List.mem_of_getLast? hlast)) (hQ hn)).2]
    | none =>
      dsimp only
      by_cases hsize : 0 ≤ size ∧ size ≤ line.length
      · rw [if_pos hsize]
        obtain ⟨t', e1, e2, e3⟩ := finishLine_calm h hu (size := size) (e := size.toNat) hl hs (by omega) (by
          have := hsz hsize.1
          split <;> omega)
        have hlim : limit size (firstLine nl (line ++ r)) = limit size (line.take size.toNat) := by
          obtain ⟨z, hz⟩ := lineEnd_none hle r
          unfold limit
          rw [if_neg (by omega), if_neg (by omega), ← hz, List.take_append_of_le_length (by omega), List.take_take,
            Nat.min_self]
        rw [e1]
        exact ⟨[], by rw [e2]; rfl, .inl ⟨_, p, rfl, hpr _, e3, fun _ => .inl hlim.symm⟩⟩
      · rw [if_neg hsize]
        obtain ⟨used, g0, gg⟩ := moreChars_calm L E t.rounds t p r h hd hcons h.rounds
        generalize hmc : moreChars t.rounds t = mc at g0 gg
        obtain ⟨res, t1⟩ := mc
        rcases gg with ⟨p1, g1, g2, g3, g4, g5, g6⟩ | ⟨e, g1, g2, g3⟩
        · dsimp only at g0 g1 g2 g3 g4 g6
          subst g1
          rw [PyM.bind_ok hmc, PyM.bind_ok (PyM.get_apply t1)]
          by_cases hch : t1.chars = []
          · rw [if_neg (by simp [hch])]
            have h1 : setChars [] t1 = (.ok (), { t1 with chars := [], used := 0 }) := rfl
            rw [PyM.bind_ok h1]
            refine ⟨used, g0, .inl ⟨line, p1, rfl, List.prefix_append _ _, ?_, fun _ => ?_⟩⟩
            · rw [List.drop_left]
              obtain ⟨c1, c2, _, s, c4, c5⟩ := g2
              rw [hch] at c5
              exact ⟨c1, c2, Nat.le_refl _, s, c4, by rw [List.drop_nil] at c5; exact c5⟩
            · rcases g6 with g6 | ⟨g6, _⟩ | ⟨g6, _⟩
              · left
                rw [← g6, hch, List.append_nil, lineEnd_last hle]
                unfold limit
                split
                · rfl
                · exact (List.take_of_length_le (by omega)).symm
              · exact .inr g6
              · exact absurd hch g6
          · rw [if_pos hch]
            obtain ⟨t2, k1, k2, k3, k4, k5⟩ := getAll_calm g2
            have hdrop : t1.chars.drop t1.used = t1.chars := by rw [g3]; rfl
            rw [hdrop] at k1 k2 k4 k5
            rw [PyM.bind_ok k1]
            obtain ⟨z, hz⟩ := k4
            have hc2 : t2.chars = t1.chars := by rw [k2]
            have hs2 : t2.buf.raw.sched = t1.buf.raw.sched := by rw [k2]
            have := ih t2 p1 (r.drop t1.chars.length) (line ++ t1.chars) line t1.chars k5
              (by rw [k2]; exact g4) k3 rfl (by rw [hc2]; exact List.suffix_refl _) hle
              (by omega) (by
                rcases hf with hf | ⟨_, hf | ⟨e, hf⟩⟩
                · rcases g6 with g6 | ⟨_, g6 | ⟨g6, g7⟩⟩ | ⟨_, g6⟩
                  · exact .inr ⟨by omega, .inl (by rw [g6]; exact List.drop_of_length_le (Nat.le_refl _))⟩
                  · exact absurd g6 hch
                  · refine .inr ⟨by omega, .inr ?_⟩
                    cases hx : lineEnd nl (line ++ t1.chars) with
                    | some e => exact ⟨e, rfl⟩
                    | none =>
                      rw [g6] at hx
                      exact absurd (List.mem_append_right _ (by rw [g7]; exact List.mem_singleton.2 rfl)) (lineEnd_raw hx)
                  · left; omega
                · exfalso
                  rw [hf] at hz
                  exact hch (List.append_eq_nil_iff.1 hz).1
                · rw [hle] at hf; cases hf)
            have hrr : line ++ t1.chars ++ r.drop t1.chars.length = line ++ r := by
              rw [← hz, List.drop_left, List.append_assoc]
            rw [hrr, hs2] at this
            exact this.after g0
        · dsimp only at g0 g1
          subst g1
          rw [PyM.bind_error hmc]
          exact ⟨used, g0, .inr ⟨e, rfl, g2, g3⟩⟩

/-- `readline(size)`. -/
theorem readline_calm (L : LawfulDec C Ok) (E : Early C) (h : Calm nl Ok data p t r) (size : Int) :
    Gave nl Ok data t.buf.raw.sched r (expected nl r (.readline size)) (nl = .raw → 13 ∉ r) (DecodeError C) (readline size t) := by
  obtain ⟨t1, k1, k2, k3, ⟨z, hz⟩, k5⟩ := getAll_calm h
  have hg : getDecoder t1 = (.ok (), { t1 with decoder := some t1.dec }) := rfl
  unfold readline
  rw [PyM.bind_ok h.checkClosed, PyM.bind_ok k1, PyM.bind_ok hg]
  have hsuf : t.chars.drop t.used <:+ t1.chars := by rw [k2]; exact List.drop_suffix _ _
  have := readlineLoop_calm L E size (t.rounds + 1) { t1 with decoder := some t1.dec } p
    (r.drop (t.chars.drop t.used).length) (t.chars.drop t.used) [] (t.chars.drop t.used) k5.getDecoder rfl k3 rfl hsuf
    (lineEnd_nil nl) (fun _ => by simp only [List.length_nil]; omega) (.inl (by have := h.rounds; omega))
  have hrr : t.chars.drop t.used ++ r.drop (t.chars.drop t.used).length = r := by
    conv => lhs; rhs; rw [← hz]
    rw [List.drop_left, hz]
  have hs1 : t1.buf.raw.sched = t.buf.raw.sched := by rw [k2]
  rw [hrr] at this
  dsimp only at this
  rw [hs1] at this
  exact this

/-- `next(stream)`. -/
theorem next_calm (L : LawfulDec C Ok) (E : Early C) (h : Calm nl Ok data p t r) :
    Gave nl Ok data t.buf.raw.sched r (expected nl r .next) (nl = .raw → 13 ∉ r) (DecodeError C) (next t) := by
  have h0 : Calm nl Ok data p { t with telling := false } r := by
    obtain ⟨h1, h2, h3, h4⟩ := h
    exact ⟨h1, h2, h3, h4⟩
  obtain ⟨used, g0, gg⟩ := readline_calm L E h0 (-1)
  have hm : (PyM.modify fun t => { t with telling := false } : PyM (Txt C) Unit) t = (.ok (), { t with telling := false }) := rfl
  unfold next
  rw [PyM.bind_ok hm]
  generalize hrl : readline (-1) { t with telling := false } = rl at g0 gg
  obtain ⟨res, t1⟩ := rl
  rcases gg with ⟨out, p1, g1, g2, g3, g4⟩ | ⟨e, g1, g2, g3⟩
  · dsimp only at g0 g1 g2 g3
    subst g1
    rw [PyM.bind_ok hrl]
    by_cases ho : out = []
    · subst ho
      have hw : (PyM.when (decide (([] : Text) = [])) (PyM.modify fun t => { t with snapshot := none, telling := t.seekable }) :
          PyM (Txt C) Unit) t1 = (.ok (), { t1 with snapshot := none, telling := t1.seekable }) := rfl
      rw [PyM.bind_ok hw]
      obtain ⟨h1, h2, h3, h4⟩ := g3
      exact ⟨used, g0, .inl ⟨[], p1, rfl, g2, ⟨h1, h2, h3, h4⟩, g4⟩⟩
    · have hw : (PyM.when (decide (out = [])) (PyM.modify fun t => { t with snapshot := none, telling := t.seekable }) :
          PyM (Txt C) Unit) t1 = (.ok (), t1) := by
        rw [decide_eq_false ho]; rfl
      rw [PyM.bind_ok hw]
      exact ⟨used, g0, .inl ⟨out, p1, rfl, g2, g3, g4⟩⟩
  · dsimp only at g0 g1
    subst g1
    rw [PyM.bind_error hrl]
    exact ⟨used, g0, .inr ⟨e, rfl, g2, g3⟩⟩

end Verif.Txt
