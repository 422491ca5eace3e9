import Verif.Lemmas.TextSmooth
import Verif.Props.Reading
import Verif.Props.TextReading

/-!
# C100: reading text, whatever the system answers
-/

set_option autoImplicit false

namespace Verif.Props

open Verif Verif.Spec Verif.Txt

variable {C : Codec}

/-- A call on a stream. -/
def textReadStep (C : Codec) : TextReadCall → Txt C → Except Exn Text × Txt C
  | .read n => Txt.read n
  | .readline n => Txt.readline n
  | .next => Txt.next

/-- Calls, one after the other: what each returned or raised. -/
def textReadRun (C : Codec) : List TextReadCall → Txt C → List (Except Exn Text) × Txt C
  | [], t => ([], t)
  | c :: cs, t =>
    ((textReadStep C c t).1 :: (textReadRun C cs (textReadStep C c t).2).1, (textReadRun C cs (textReadStep C c t).2).2)

/-- All the text that calls have returned. -/
def allText : List (Except Exn Text) → Text
  | [] => []
  | .ok s :: l => s ++ allText l
  | .error _ :: l => allText l

/-- What was returned before the first exception. -/
def beforeError : List (Except Exn Text) → List (Except Exn Text)
  | .ok s :: l => .ok s :: beforeError l
  | _ => []

/-- A text stream over a file or pipe that is read from where the descriptor stands; no answer of the system is an error. -/
def TextOn (nl : Newline) (raw : Raw) (t : Txt C) : Prop :=
  ∃ n b lb ls, Buf.create .reader n raw = .ok b ∧ Txt.create nl lb ls b = (.ok (), t) ∧ ∀ a ∈ raw.sched, ∀ e, a ≠ .fail e

theorem TextOn.calm {nl : Newline} {raw : Raw} {t : Txt C} (h : TextOn nl raw t) {Ok : C.Dec → Prop} (L : LawfulDec C Ok)
    {text : Text} {d : C.Dec} (hd : C.decode C.decInit (raw.data.drop raw.pos) true = .ok (text, d))
    (hcr : nl = .auto → 13 ∉ text) : Calm nl Ok raw.data raw.pos t text ∧ t.buf.raw = raw := by
  obtain ⟨n, b, lb, ls, h1, h2, h3⟩ := h
  obtain ⟨g1, g2⟩ := created_smooth h1 nofun h3
  have hk : b.kind = .reader := by
    unfold Buf.create at h1
    repeat' split at h1
    all_goals cases h1
    rfl
  have ht : t = ⟨b, nl, lb, ls, b.raw.seekable, b.raw.seekable, none, none, [], 0, none, (0, 0)⟩ := by
    unfold Txt.create at h2
    rw [g1.raw.opened] at h2
    simp only [Bool.false_eq_true, if_false] at h2
    unfold configure at h2
    split at h2
    · have hw : ∀ u : Txt C, u.buf.kind = .reader → writable u = (.ok false, u) := by
        intro u hu
        unfold writable; rw [hu]
      rw [PyM.bind_ok (hw _ hk)] at h2
      exact (Prod.mk.inj h2).2.symm
    · exact (Prod.mk.inj h2).2.symm
  subst ht
  exact ⟨⟨g1, rfl, Nat.le_refl _, text, ⟨L.first, fun _ => rfl, text, d, hd, fun ha => ⟨rfl, hcr ha⟩, rfl⟩, rfl⟩, g2⟩

/-- What a call does. -/
theorem textStep_calm {nl : Newline} {Ok : C.Dec → Prop} {data : Bytes} {p : Nat} {t : Txt C} {r : Text} (L : LawfulDec C Ok)
    (E : Early C) (h : Calm nl Ok data p t r) (c : TextReadCall) :
    Gave nl Ok data t.buf.raw.sched r (expected nl r c) (nl = .raw → 13 ∉ r)
      (fun e => (e = .typeError ∧ ∃ n, c = .read n ∧ ∀ z, n = some z → z < 0) ∨ DecodeError C e) (textReadStep C c t) := by
  cases c with
  | read n => exact (read_calm L E h n).imp (fun _ => trivial) fun e he => he.imp_left fun ⟨a, b⟩ => ⟨a, n, rfl, b⟩
  | readline n => exact (readline_calm L E h n).imp id fun e he => .inr he
  | next => exact (next_calm L E h).imp id fun e he => .inr he

theorem textRun_calm {nl : Newline} {Ok : C.Dec → Prop} {data : Bytes} (L : LawfulDec C Ok) (E : Early C) (cs : List TextReadCall) :
    ∀ {p : Nat} {t : Txt C} {r : Text}, Calm nl Ok data p t r →
    allText (beforeError (textReadRun C cs t).1) <+: r ∧
      ((∀ x ∈ (textReadRun C cs t).1, ∃ s, x = .ok s) →
        ∃ p', Calm nl Ok data p' (textReadRun C cs t).2 (r.drop (allText (textReadRun C cs t).1).length)) := by
  induction cs with
  | nil => exact fun {p t r} h => ⟨List.nil_prefix, fun _ => ⟨p, h⟩⟩
  | cons c cs ih =>
    intro p t r h
    obtain ⟨used, _, hg⟩ := textStep_calm L E h c
    unfold textReadRun
    dsimp only
    rcases hg with ⟨out, p', g1, g2, g3, _⟩ | ⟨e, g1, _, _⟩
    · rw [g1]
      obtain ⟨z, rfl⟩ := g2
      rw [List.drop_left] at g3
      obtain ⟨e1, e2⟩ := ih g3
      refine ⟨?_, fun hall => ?_⟩
      · simp only [beforeError, allText]
        exact (List.prefix_append_right_inj out).2 e1
      · simp only [allText, List.length_append]
        rw [← List.drop_drop, List.drop_left]
        exact e2 fun x hx => hall x (List.mem_cons_of_mem _ hx)
    · rw [g1]
      refine ⟨List.nil_prefix, fun hall => ?_⟩
      obtain ⟨s, hs⟩ := hall _ (List.mem_cons_self ..)
      cases hs

/-- C100, the order.  The content can be decoded, and the decoder can be asked at any point whether this is the end.
Whatever counts the system returns, and however often it says that there is nothing for now: the text that the calls return
before an exception is the beginning of the decoded content, nothing left out, nothing twice.
Missing: if newlines are translated and the text has carriage returns, it is false (`C100_newline_refuted`), and after an
exception too (`C100_character_refuted`, `C100_read_refuted`). -/
theorem C100_order_partial (hC : LawfulCodec C) (E : Early C) {nl : Newline} {raw : Raw} {t : Txt C} (h : TextOn nl raw t)
    {text : Text} {d : C.Dec} (hd : C.decode C.decInit (raw.data.drop raw.pos) true = .ok (text, d))
    (hcr : nl = .auto → 13 ∉ text) (cs : List TextReadCall) :
    allText (beforeError (textReadRun C cs t).1) <+: text :=
  have ⟨_, L⟩ := hC
  (textRun_calm L E cs (h.calm L hd hcr).1).1

/-- C100, the amount: after calls that returned text, a call returns just what it should, the line or the number of
characters asked for, or the last answer of the system was that there is nothing for now or any more; and it raises only in
the latter case.  (Where `newline=""`, lines may end with `\r`, or with `\r\n`, of which only the first may be there: this
is considered for texts without `\r`.) -/
theorem C100_amount_partial (hC : LawfulCodec C) (E : Early C) {nl : Newline} {raw : Raw} {t : Txt C} (h : TextOn nl raw t)
    {text : Text} {d : C.Dec} (hd : C.decode C.decInit (raw.data.drop raw.pos) true = .ok (text, d))
    (hcr : nl = .auto → 13 ∉ text) (cs : List TextReadCall) (hcs : ∀ x ∈ (textReadRun C cs t).1, ∃ s, x = .ok s)
    (c : TextReadCall) (hraw : nl = .raw → (∃ n, c = .read n) ∨ 13 ∉ text) :
    ∃ used, (textReadRun C cs t).2.buf.raw.sched = used ++ (textReadStep C c (textReadRun C cs t).2).2.buf.raw.sched ∧
      ((textReadStep C c (textReadRun C cs t).2).1 = .ok (expected nl (text.drop (allText (textReadRun C cs t).1).length) c) ∨
        Stopped used) := by
  obtain ⟨Ok, L⟩ := hC
  obtain ⟨p', hp⟩ := (textRun_calm L E cs (h.calm L hd hcr).1).2 hcs
  by_cases hread : ∃ n, c = .read n
  · obtain ⟨n, rfl⟩ := hread
    obtain ⟨used, g0, gg⟩ := read_calm L E hp n
    refine ⟨used, g0, ?_⟩
    rcases gg with ⟨out, _, g1, _, _, g4⟩ | ⟨_, _, g2, _⟩
    · exact (g4 trivial).imp_left fun e => by rw [← e]; exact g1
    · exact .inr g2
  · obtain ⟨used, g0, gg⟩ := textStep_calm L E hp c
    refine ⟨used, g0, ?_⟩
    rcases gg with ⟨out, _, g1, _, _, g4⟩ | ⟨_, _, g2, _⟩
    · refine (g4 fun hn hm => ?_).imp_left fun e => by rw [← e]; exact g1
      exact ((hraw hn).resolve_left hread) (List.mem_of_mem_drop hm)
    · exact .inr g2

/-- A call other than `read()`. -/
def bounded : TextReadCall → Bool
  | .read none => false
  | .read (some n) => decide (0 ≤ n)
  | _ => true

/-- C100: with an encoding that has one byte for each character, `read(n)`, `readline`, and iterations never raise, and lose
nothing: what they return, put together, is the beginning of the text. -/
theorem C100_single_bytes_partial (hC : LawfulCodec C) (E : Early C) (hT : Total C) {nl : Newline} {raw : Raw} {t : Txt C}
    (h : TextOn nl raw t) {text : Text} {d : C.Dec} (hd : C.decode C.decInit (raw.data.drop raw.pos) true = .ok (text, d))
    (hcr : nl = .auto → 13 ∉ text) (cs : List TextReadCall) (hcs : ∀ c ∈ cs, bounded c = true) :
    (∀ x ∈ (textReadRun C cs t).1, ∃ s, x = .ok s) ∧ allText (textReadRun C cs t).1 <+: text := by
  obtain ⟨Ok, L⟩ := hC
  have key : ∀ (cs : List TextReadCall), (∀ c ∈ cs, bounded c = true) → ∀ {p : Nat} {t : Txt C} {r : Text},
      Calm nl Ok raw.data p t r → (∀ x ∈ (textReadRun C cs t).1, ∃ s, x = .ok s) ∧ allText (textReadRun C cs t).1 <+: r := by
    intro cs
    induction cs with
    | nil => exact fun _ {p t r} _ => ⟨nofun, List.nil_prefix⟩
    | cons c cs ih =>
      intro hb p t r h
      obtain ⟨used, _, hg⟩ := textStep_calm L E h c
      unfold textReadRun
      dsimp only
      rcases hg with ⟨out, p', g1, ⟨z, g2⟩, g3, _⟩ | ⟨e, _, _, g3⟩
      · obtain ⟨e1, e2⟩ := ih (fun c hc => hb c (List.mem_cons_of_mem _ hc)) g3
        rw [g1]
        subst g2
        rw [List.drop_left] at e2
        refine ⟨fun x hx => ?_, (List.prefix_append_right_inj out).2 e2⟩
        rcases List.mem_cons.1 hx with rfl | hx
        · exact ⟨_, rfl⟩
        · exact e1 x hx
      · exfalso
        rcases g3 with ⟨_, n, rfl, hn⟩ | ⟨d, x, hdx⟩
        · have hb' := hb _ (List.mem_cons_self ..)
          cases n with
          | none => cases hb'
          | some z =>
            have h1 := hn z rfl
            have h2 : 0 ≤ z := of_decide_eq_true hb'
            omega
        · obtain ⟨r, hr⟩ := hT d x true
          rw [hdx] at hr; cases hr
  exact key cs hcs (h.calm L hd hcr).1

/-- C100: the file is not changed. -/
theorem C100_file (hC : LawfulCodec C) (E : Early C) {nl : Newline} {raw : Raw} {t : Txt C} (h : TextOn nl raw t)
    {text : Text} {d : C.Dec} (hd : C.decode C.decInit (raw.data.drop raw.pos) true = .ok (text, d))
    (hcr : nl = .auto → 13 ∉ text) (cs : List TextReadCall) (hcs : ∀ x ∈ (textReadRun C cs t).1, ∃ s, x = .ok s) :
    (textReadRun C cs t).2.buf.raw.data = raw.data :=
  have ⟨_, L⟩ := hC
  have ⟨_, hp⟩ := (textRun_calm L E cs (h.calm L hd hcr).1).2 hcs
  hp.buf.raw.data

/-! ## The codecs -/

theorem feedAll_early {σ : Type} {step : σ → Byte → Except Exn (Text × σ)} {pending : σ → Bool} {d : σ} {x : Bytes} {s : Text}
    {d' : σ} (h : feedAll step pending d x true = .ok (s, d')) : feedAll step pending d x false = .ok (s, d') := by
  unfold feedAll at h ⊢
  split at h
  · cases h
  · rename_i s1 d1 hf
    split at h
    · cases h
    · cases h; rfl

theorem latin1_early : Early latin1 := fun _ _ _ _ h => feedAll_early h
theorem utf8_early : Early utf8 := fun _ _ _ _ h => feedAll_early h
theorem utf16_early : Early utf16 := fun _ _ _ _ h => feedAll_early h

theorem latin1_total : Total latin1 := by
  have key : ∀ x : Bytes, ∃ r, feed latin1Step () x = .ok r := by
    intro x
    induction x with
    | nil => exact ⟨_, rfl⟩
    | cons b bs ih =>
      obtain ⟨⟨s, d'⟩, hr⟩ := ih
      exact ⟨(b.toNat :: s, d'), by simp [feed, latin1Step, hr]⟩
  intro d x f
  obtain ⟨r, hr⟩ := key x
  refine ⟨r, ?_⟩
  change feedAll latin1Step (fun _ => false) () x f = _
  unfold feedAll
  rw [hr]
  cases f <;> rfl

/-! ## What is false -/

/-- The stream over a pipe with the given content, with a buffer of 8 bytes. -/
def pipeStream (C : Codec) (nl : Newline) (data : Bytes) (sched : List OsAns) : Txt C :=
  ⟨⟨.reader, 8, { rawOf data sched with writable := false, seekable := false }, [], 0, []⟩, nl, false, [10], false, false, none, none, [], 0, none, (0, 0)⟩

theorem pipeStream_on (C : Codec) (nl : Newline) (data : Bytes) (sched : List OsAns) (h : ∀ a ∈ sched, ∀ e, a ≠ .fail e) :
    TextOn nl { rawOf data sched with writable := false, seekable := false } (pipeStream C nl data sched) :=
  ⟨8, _, false, [10], rfl, rfl, h⟩

theorem noFail {sched : List OsAns} (h : sched.all (fun a => match a with | .fail _ => false | _ => true) = true) :
    ∀ a ∈ sched, ∀ e, a ≠ .fail e := by
  intro a ha e he
  have := List.all_eq_true.1 h a ha
  rw [he] at this
  cases this

/-- The claim of C100 in full: whatever the calls raise in between, the text that they return is the beginning of the
text, with newlines as the mode says. -/
def TextInOrder (C : Codec) : Prop :=
  ∀ (nl : Newline) (raw : Raw) (t : Txt C) (text : Text) (d : C.Dec) (cs : List TextReadCall), TextOn nl raw t →
    C.decode C.decInit (raw.data.drop raw.pos) true = .ok (text, d) →
    allText (textReadRun C cs t).1 <+: incoming nl text

/-- False for newlines: if there is nothing for now after the `\r` of a `\r\n`, the stream takes it for the end, and
returns two newlines for one. -/
theorem C100_newline_refuted : ¬ TextInOrder latin1 := by
  intro h
  have := h .auto _ _ [97, 13, 10, 98] () [.read (some 5), .read (some 5)]
    (pipeStream_on latin1 .auto [97, 13, 10, 98] [.count 2, .again] (noFail rfl)) rfl
  revert this
  decide +kernel

/-- False for characters of several bytes: if there is nothing for now in the middle of one, `read(n)` raises
UnicodeDecodeError, and the characters that it had before are lost. -/
theorem C100_character_refuted : ¬ TextInOrder utf8 := by
  intro h
  have := h .lf _ _ [97, 233] [] [.read (some 5), .read (some 5)]
    (pipeStream_on utf8 .lf [97, 0xC3, 0xA9] [.count 2, .again] (noFail rfl)) rfl
  revert this
  decide +kernel

/-- The same for newlines that are not translated. -/
def TextInOrderNoCr (C : Codec) : Prop :=
  ∀ (nl : Newline) (raw : Raw) (t : Txt C) (text : Text) (d : C.Dec) (cs : List TextReadCall), TextOn nl raw t → 13 ∉ text →
    C.decode C.decInit (raw.data.drop raw.pos) true = .ok (text, d) →
    allText (textReadRun C cs t).1 <+: text

/-- False for `read()`: if there is nothing for now, it raises TypeError, and the characters that were decoded already are
lost. -/
theorem C100_read_refuted : ¬ TextInOrderNoCr latin1 := by
  intro h
  have := h .lf _ _ [97, 98, 99] () [.read (some 1), .read none, .read none]
    (pipeStream_on latin1 .lf [97, 98, 99] [.count 2, .again] (noFail rfl)) (by decide) rfl
  revert this
  decide +kernel

-- `\r` and `\n` apart: two newlines
example : (textReadRun latin1 [.read (some 5), .read (some 5)] (pipeStream latin1 .auto [97, 13, 10, 98] [.count 2, .again])).1 =
    [.ok [97, 10], .ok [10, 98]] := by decide +kernel
-- a character in two pieces: the "a" is lost
example : (textReadRun utf8 [.read (some 5), .read (some 5)] (pipeStream utf8 .lf [97, 0xC3, 0xA9] [.count 2, .again])).1 =
    [.error .valueError, .ok [233]] := by decide +kernel
-- `read()`: the "b" is lost
example : (textReadRun latin1 [.read (some 1), .read none, .read none] (pipeStream latin1 .lf [97, 98, 99] [.count 2, .again])).1 =
    [.ok [97], .error .typeError, .ok [99]] := by decide +kernel

-- short counts and would-block between characters: all the text, in pieces
example : (textReadRun utf8 [.readline (-1), .readline (-1), .read (some 2), .next]
      (pipeStream utf8 .auto [97, 0xC3, 0xA9, 10, 98, 10, 99] [.count 3, .again, .count 2, .again])).1 =
    [.ok [97, 233], .ok [10], .ok [98], .ok [10]] := by decide +kernel
example (cs : List TextReadCall) :
    allText (beforeError (textReadRun utf8 cs (pipeStream utf8 .auto [97, 0xC3, 0xA9, 10, 98, 10, 99] [.count 3, .again, .count 2, .again])).1) <+:
      [97, 233, 10, 98, 10, 99] :=
  C100_order_partial utf8_lawful utf8_early (pipeStream_on utf8 .auto _ _ (noFail rfl)) (d := []) rfl (fun _ => by decide) cs
example (cs : List TextReadCall) (hcs : ∀ c ∈ cs, bounded c = true) :
    allText (textReadRun latin1 cs (pipeStream latin1 .raw [97, 13, 10, 98] [.count 2, .again, .pipe, .count 1])).1 <+: [97, 13, 10, 98] :=
  (C100_single_bytes_partial latin1_lawful latin1_early latin1_total (pipeStream_on latin1 .raw _ _ (noFail rfl)) (d := ()) rfl nofun cs hcs).2
example : expected .auto [97, 10, 98] (.readline (-1)) = [97, 10] ∧ expected .auto [97, 10, 98] (.read (some 2)) = [97, 10] ∧
    expected .lf [97, 98] .next = [97, 98] := by decide

end Verif.Props
