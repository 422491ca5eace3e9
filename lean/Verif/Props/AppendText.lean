import Verif.Lemmas.AppendText
import Verif.Props.AppendStream
import Verif.Props.TextWriting

/-!
# C122: text streams in append mode
-/

set_option autoImplicit false

namespace Verif.Props

open Verif Verif.Spec Verif.Txt

variable {C : Codec} {nl : Newline} {ls : Text} {k : BufKind}

/-- A text stream in append mode before its first call. -/
structure TextLogOpened (C : Codec) (nl : Newline) (ls : Text) (k : BufKind) (raw : Raw) (t : Txt C) : Prop where
  built : ∃ n b lineBuffering, OpenedToAppend k n raw b ∧ Txt.create nl lineBuffering ls b = (.ok (), t)
  blocking : Blocking raw.sched

theorem TextLogOpened.logbook {raw : Raw} {t : Txt C} (h : TextLogOpened C nl ls k raw t) :
    Logbook C nl ls k t ⟨raw.data, raw.pos, raw.events⟩ := by
  obtain ⟨n, b, lb, h1, h2⟩ := h.built
  have h3 := h1.appends h.blocking
  have hk := h1.kind
  obtain ⟨rfl, _⟩ := create_ok h1.created
  have h4 := h3.rel
  rw [Buf.placed_idle rfl] at h4
  exact Logbook.create ⟨⟨⟨h1.unix, h1.append⟩, rfl⟩, h1.writes⟩ h4 rfl lb h2

theorem logbook_flushed {t : Txt C} {f : Spec.Sink} (h : Logbook C nl ls k t f) :
    (Txt.flush t).1 = .ok () ∧ (Txt.flush t).2.buf.raw.data = f.data := by
  obtain ⟨t', h1, _, h2, h3⟩ := h.flush
  rw [h1]
  exact ⟨rfl, h3.buf.data' h2.1.2⟩

/-- C122.  For all histories of calls that do not read, the results are those of the reference, in which the text is encoded for the
end of the file and stored there, up to the first write in `AppendTextUnsafe`; if the stream is flushed there, the file has the bytes of
the reference.
Missing: writes in `AppendTextUnsafe` (`C122_refuted`, `C122_missing_refuted`), and writing after reading (as for C71). -/
theorem C122_append_partial (hC : LawfulEncoder C) {raw : Raw} {t : Txt C} (h : TextLogOpened C nl ls k raw t)
    (guess : Nat × Nat → Nat → Nat) (ops : List Op) (hops : ∀ op ∈ ops, SinkCall k op) :
    ∃ pre post f, ops = pre ++ post ∧
      AppendTextConforms C (outgoing ls nl) k ⟨raw.data, raw.pos, raw.events⟩ (pre.zip (Txt.run guess t pre).1) f ∧
      (post = [] ∨ ∃ op rest, post = op :: rest ∧ AppendTextUnsafe C f op) ∧
      (Txt.flush (Txt.run guess t pre).2).1 = .ok () ∧ (Txt.flush (Txt.run guess t pre).2).2.buf.raw.data = f.data := by
  obtain ⟨pre, post, f, h1, h2, h3, h4⟩ := h.logbook.run hC guess hops
  exact ⟨pre, post, f, h1, h2, h4, logbook_flushed h3⟩

/-- C122 without restriction for encodings without a mark at the start of the file. -/
theorem C122_unmarked (hC : LawfulEncoder C) (he : C.encInit = C.encMid) {raw : Raw} {t : Txt C} (h : TextLogOpened C nl ls k raw t)
    (guess : Nat × Nat → Nat → Nat) (ops : List Op) (hops : ∀ op ∈ ops, SinkCall k op) :
    ∃ f, AppendTextConforms C (outgoing ls nl) k ⟨raw.data, raw.pos, raw.events⟩ (ops.zip (Txt.run guess t ops).1) f ∧
      (Txt.flush (Txt.run guess t ops).2).1 = .ok () ∧ (Txt.flush (Txt.run guess t ops).2).2.buf.raw.data = f.data := by
  obtain ⟨pre, post, f, rfl, e2, e3, e4, e5⟩ := C122_append_partial hC h guess ops hops
  rcases e3 with rfl | ⟨op, rest, rfl, hu⟩
  · rw [List.append_nil]; exact ⟨f, e2, e4, e5⟩
  · exact absurd he hu.2.1

example : utf8.encInit = utf8.encMid ∧ latin1.encInit = latin1.encMid := ⟨rfl, rfl⟩

/-! ### Logs -/

/-- What a history writes if it does not move the stream. -/
theorem logged (hC : LawfulEncoder C) {f f' : Spec.Sink} {ops : List Op} {outs : List Out} (hl : outs.length = ops.length)
    (h : AppendTextConforms C (outgoing ls nl) k f (ops.zip outs) f') (hp : f.pos = f.data.length) {ss : List Text}
    (ht : texts ops = some ss) {b : Bytes} (hss : ss = [] → b = [])
    (hb : ss ≠ [] → encoded C f.data.length (outgoing ls nl ss.flatten) = .ok b) :
    f'.data = f.data ++ b ∧ f'.pos = f'.data.length := by
  induction ops generalizing f outs ss b with
  | nil =>
    cases ht
    cases h
    rw [hss rfl]
    exact ⟨by simp, hp⟩
  | cons op ops ih =>
    cases outs with
    | nil => cases hl
    | cons out outs =>
      cases h with
      | cons h1 h2 =>
        have hl' : outs.length = ops.length := by simpa using hl
        cases op with
        | write s =>
          simp only [Props.texts, Option.map_eq_some_iff] at ht
          obtain ⟨ss', ht, rfl⟩ := ht
          have hb := hb (by simp)
          simp only [AppendTextAllowed] at h1
          have hflat : outgoing ls nl (s :: ss').flatten = outgoing ls nl s ++ outgoing ls nl ss'.flatten := by
            simp [outgoing]
          by_cases hn : ss' = []
          · subst hn
            simp only [List.flatten_cons, List.flatten_nil, List.append_nil] at hb
            rw [hb] at h1
            obtain ⟨_, rfl⟩ := h1
            have := ih hl' h2 (by dsimp only; by_cases hb0 : b = [] <;> simp [hb0, hp]) ht (b := []) (fun _ => rfl)
              (fun h0 => absurd rfl h0)
            simpa using this
          · rw [hflat] at hb
            obtain ⟨b1, b2, e1, e2, rfl⟩ := encoded_append hC hb
            rw [e1] at h1
            obtain ⟨_, rfl⟩ := h1
            have := ih hl' h2 (by dsimp only; by_cases hb0 : b1 = [] <;> simp [hb0, hp]) ht (b := b2) (fun h0 => absurd h0 hn)
              (fun _ => by dsimp only; rw [List.length_append]; exact e2)
            simpa using this
        | flush => obtain ⟨_, rfl⟩ := h1; exact ih hl' h2 hp ht hss hb
        | sync a m fl => obtain ⟨_, rfl⟩ := h1; exact ih hl' h2 hp ht hss hb
        | tell => obtain ⟨_, rfl⟩ := h1; exact ih hl' h2 hp ht hss hb
        | size => obtain ⟨_, rfl⟩ := h1; exact ih hl' h2 hp ht hss hb
        | unlock => obtain ⟨_, rfl⟩ := h1; exact ih hl' h2 hp ht hss hb
        | seek m =>
          cases m with
          | here => obtain ⟨_, rfl⟩ := h1; exact ih hl' h2 hp ht hss hb
          | to c => cases ht
          | toEnd => cases ht
          | relative => cases ht
          | badWhence => cases ht
        | _ => cases ht

theorem texts_prefix {pre post : List Op} {ss : List Text} (h : texts (pre ++ post) = some ss) : ∃ ss', texts pre = some ss' := by
  induction pre generalizing ss with
  | nil => exact ⟨[], rfl⟩
  | cons op pre ih =>
    cases op with
    | write s =>
      simp only [List.cons_append, Props.texts, Option.map_eq_some_iff] at h
      obtain ⟨ss', h, _⟩ := h
      obtain ⟨s2, h2⟩ := ih h
      exact ⟨s :: s2, by simp [Props.texts, h2]⟩
    | flush => exact ih (ss := ss) h
    | sync a m fl => exact ih (ss := ss) h
    | tell => exact ih (ss := ss) h
    | size => exact ih (ss := ss) h
    | unlock => exact ih (ss := ss) h
    | seek m =>
      cases m with
      | here => exact ih (ss := ss) h
      | _ => cases h
    | _ => cases h

/-- Calls that do not move a stream leave it at the end of the file. -/
theorem stays_at_end {f f' : Spec.Sink} {ops : List Op} {outs : List Out} (hl : outs.length = ops.length)
    (h : AppendTextConforms C (outgoing ls nl) k f (ops.zip outs) f') (hp : f.pos = f.data.length) {ss : List Text}
    (ht : texts ops = some ss) : f'.pos = f'.data.length := by
  induction ops generalizing f outs ss with
  | nil => cases h; exact hp
  | cons op ops ih =>
    cases outs with
    | nil => cases hl
    | cons out outs =>
      cases h with
      | cons h1 h2 =>
        have hl' : outs.length = ops.length := by simpa using hl
        cases op with
        | write s =>
          simp only [Props.texts, Option.map_eq_some_iff] at ht
          obtain ⟨ss', ht, rfl⟩ := ht
          simp only [AppendTextAllowed] at h1
          split at h1
          · obtain ⟨_, rfl⟩ := h1
            exact ih hl' h2 hp ht
          · rename_i b _
            obtain ⟨_, rfl⟩ := h1
            exact ih hl' h2 (by dsimp only; by_cases hb0 : b = [] <;> simp [hb0, hp]) ht
        | flush => obtain ⟨_, rfl⟩ := h1; exact ih hl' h2 hp ht
        | sync a m fl => obtain ⟨_, rfl⟩ := h1; exact ih hl' h2 hp ht
        | tell => obtain ⟨_, rfl⟩ := h1; exact ih hl' h2 hp ht
        | size => obtain ⟨_, rfl⟩ := h1; exact ih hl' h2 hp ht
        | unlock => obtain ⟨_, rfl⟩ := h1; exact ih hl' h2 hp ht
        | seek m =>
          cases m with
          | here => obtain ⟨_, rfl⟩ := h1; exact ih hl' h2 hp ht
          | to c => cases ht
          | toEnd => cases ht
          | relative => cases ht
          | badWhence => cases ht
        | _ => cases ht

/-- C122 for logs, with any encoding: a stream that was opened at the end and is not moved writes its texts, one after the other, behind
the old content, with one byte order mark at most, and knows its position. -/
theorem C122_logging (hC : LawfulEncoder C) {raw : Raw} {t : Txt C} (h : TextLogOpened C nl ls k raw t) (hp : raw.pos = raw.data.length)
    (guess : Nat × Nat → Nat → Nat) (ops : List Op) (ss : List Text) (ht : texts ops = some ss) :
    ∃ f, AppendTextConforms C (outgoing ls nl) k ⟨raw.data, raw.pos, raw.events⟩ (ops.zip (Txt.run guess t ops).1) f ∧
      f.pos = f.data.length ∧
      (∀ b, ss ≠ [] → encoded C raw.data.length (outgoing ls nl ss.flatten) = .ok b → f.data = raw.data ++ b) ∧
      (Txt.flush (Txt.run guess t ops).2).1 = .ok () ∧ (Txt.flush (Txt.run guess t ops).2).2.buf.raw.data = f.data := by
  obtain ⟨pre, post, f, e1, e2, e3, e4, e5⟩ := C122_append_partial hC h guess ops (sinkCall_of_texts ht)
  have hpost : post = [] := by
    rcases e3 with hpost | ⟨op, rest, rfl, _, _, hn⟩
    · exact hpost
    · rw [e1] at ht
      obtain ⟨ss', ht'⟩ := texts_prefix ht
      have := stays_at_end (run_length guess t pre) e2 hp ht'
      refine absurd ⟨fun h0 => ?_, fun h0 => ?_⟩ hn
      · exact List.length_eq_zero_iff.1 (this.symm.trans h0)
      · rw [this, h0]; rfl
  subst hpost
  rw [List.append_nil] at e1
  subst e1
  refine ⟨f, e2, stays_at_end (run_length guess t ops) e2 hp ht, fun b hss hb => ?_, e4, e5⟩
  exact (logged hC (run_length guess t ops) e2 hp ht (fun h0 => absurd h0 hss) fun _ => hb).1

/-! ### Windows -/

/-- A text stream in append mode on windows, before its first call. -/
structure WinTextLogOpened (C : Codec) (nl : Newline) (ls : Text) (k : BufKind) (raw : Raw) (t : Txt C) : Prop where
  built : ∃ n b lineBuffering, WinOpenedToAppend k n raw b ∧ Txt.create nl lineBuffering ls b = (.ok (), t)
  blocking : Blocking raw.sched

/-- C122 on windows, without `truncate` and `sync`. -/
theorem C122_windows_partial (hC : LawfulEncoder C) {raw : Raw} {t : Txt C} (h : WinTextLogOpened C nl ls k raw t)
    (guess : Nat × Nat → Nat → Nat) (ops : List Op) (hops : ∀ op ∈ ops, SinkCall k op) (htr : ∀ a, .truncate a ∉ ops)
    (hsync : ∀ a m f, .sync a m f ∉ ops) :
    ∃ pre post f, ops = pre ++ post ∧
      AppendTextConforms C (outgoing ls nl) k ⟨raw.data, raw.pos, raw.events⟩ (pre.zip (Txt.run guess t pre).1) f ∧
      (post = [] ∨ ∃ op rest, post = op :: rest ∧ AppendTextUnsafe C f op) ∧
      (Txt.flush (Txt.run guess t pre).2).1 = .ok () ∧ (Txt.flush (Txt.run guess t pre).2).2.buf.raw.data = f.data := by
  obtain ⟨n, b, lb, h1, h2⟩ := h.built
  obtain ⟨g1, g2⟩ := h1.ported h.blocking
  obtain ⟨g3, g4⟩ := Txt.create_ports (C := C) nl lb ls g2
  rw [h2] at g3 g4
  obtain ⟨pre, post, f, e1, e2, e3, e4, e5⟩ := C122_append_partial hC (raw := raw.ported) (t := t.ported) ⟨⟨n, _, lb, g1, g3⟩, h.blocking⟩
    guess ops hops
  obtain ⟨k1, k2⟩ := Txt.run_ports guess pre t g4 (by
    intro op ho hs
    have ho' : op ∈ ops := by rw [e1]; exact List.mem_append_left _ ho
    cases op with
    | truncate a => exact htr a ho'
    | sync a m f => exact hsync a m f ho'
    | _ => exact hs)
  obtain ⟨k3, _⟩ := Txt.flush_ports _ k2
  rw [k1] at e2 e4 e5
  dsimp only at e2 e4 e5
  rw [k3] at e4 e5
  exact ⟨pre, post, f, e1, e2, e3, e4, e5⟩

/-! ### Cases -/

/-- A text stream in append mode on a file with the given content, at offset `p`. -/
def textLog (C : Codec) (nl : Newline) (k : BufKind) (n : Nat) (data : Bytes) (p : Nat) (sched : List OsAns) : Txt C :=
  (Txt.create nl false [13, 10] (openedLog k n data p sched)).2

theorem textLog_opened (C : Codec) (nl : Newline) {k : BufKind} (hk : k ≠ .reader) (n : Nat) (hn : 0 < n) (data : Bytes) (p : Nat)
    (sched : List OsAns) (hb : Blocking sched) : TextLogOpened C nl [13, 10] k (logOf data p sched) (textLog C nl k n data p sched) := by
  refine ⟨⟨n, openedLog k n data p sched, false, openedLog_ok k n hn hk data p sched, ?_⟩, hb⟩
  cases k with
  | reader => exact absurd rfl hk
  | writer => cases p <;> rfl
  | random => cases p <;> rfl

theorem winTextLog_opened (C : Codec) (nl : Newline) {k : BufKind} (hk : k ≠ .reader) (n : Nat) (hn : 0 < n) (data : Bytes) (p : Nat)
    (sched : List OsAns) (hb : Blocking sched) : WinTextLogOpened C nl [13, 10] k (winLogOf data p sched)
      (Txt.create nl false [13, 10] ⟨k, n, winLogOf data p sched, [], 0, []⟩).2 := by
  refine ⟨⟨n, _, false, winLogOf_ok k n hn hk data p sched, ?_⟩, hb⟩
  cases k with
  | reader => exact absurd rfl hk
  | writer => cases p <;> rfl
  | random => cases p <;> rfl

-- texts are appended to a file with content, with translated newlines, short writes and no second mark
example : (Txt.flush (Txt.run quotient (textLog utf16 .auto .writer 4 [0xFF, 0xFE, 90, 0] 4 [.count 1, .count 3])
    [.write [65], .size, .write [10, 66]]).2).2.buf.raw.data = [0xFF, 0xFE, 90, 0, 65, 0, 13, 0, 10, 0, 66, 0] := by decide +kernel

-- the hypotheses of `C122_logging` for it
example : (logOf [0xFF, 0xFE, 90, 0] 4 [.count 1, .count 3]).pos = (logOf [0xFF, 0xFE, 90, 0] 4 [.count 1, .count 3]).data.length ∧
    texts [.write [65], .size, .write [10, 66]] = some [[65], [10, 66]] ∧
    encoded utf16 4 (outgoing [13, 10] .auto [65, 10, 66]) = .ok [65, 0, 13, 0, 10, 0, 66, 0] := ⟨rfl, rfl, rfl⟩

/-- The claim of C122 without the restriction, for histories that do not read. -/
def TextAppendsAlways : Prop :=
  ∀ {C : Codec} {nl : Newline} {ls : Text} {k : BufKind}, LawfulEncoder C → ∀ {raw : Raw} {t : Txt C}, TextLogOpened C nl ls k raw t →
    raw.pos = raw.data.length → ∀ (guess : Nat × Nat → Nat → Nat) (ops : List Op), (∀ op ∈ ops, SinkCall k op) →
    ∃ f, AppendTextConforms C (outgoing ls nl) k ⟨raw.data, raw.pos, raw.events⟩ (ops.zip (Txt.run guess t ops).1) f ∧
      (Txt.flush (Txt.run guess t ops).2).2.buf.raw.data = f.data

/-- Another process began the file while the stream waited for its lock. -/
def secondMark : List Op := [.lock [0xFF, 0xFE, 65, 0], .write [66]]

/-- C122 is false: a stream that was opened on an empty file writes a byte order mark into the middle of the file when another process
has written before it got the lock. -/
theorem C122_refuted : ¬ TextAppendsAlways := by
  intro hall
  obtain ⟨f, hf, hd⟩ := hall utf16_encoder (textLog_opened utf16 .lf (k := .writer) nofun 8 (by decide) [] 0 [] blocking_nil) rfl quotient
    secondMark (by intro op ho; simp only [secondMark, List.mem_cons, List.not_mem_nil, or_false] at ho; rcases ho with rfl | rfl <;> trivial)
  have hrun : (Txt.run quotient (textLog utf16 .lf .writer 8 [] 0 []) secondMark).1 = [.done, .num 1] := by decide +kernel
  have hdata : (Txt.flush (Txt.run quotient (textLog utf16 .lf .writer 8 [] 0 []) secondMark).2).2.buf.raw.data =
      [0xFF, 0xFE, 65, 0, 0xFF, 0xFE, 66, 0] := by decide +kernel
  rw [hrun] at hf
  rw [hdata] at hd
  unfold secondMark at hf
  cases hf with
  | cons h1 hf =>
    cases hf with
    | cons h2 hf =>
      cases hf
      obtain ⟨_, rfl⟩ := h1
      have he : encoded utf16 4 (outgoing [13, 10] .lf [66]) = .ok [66, 0] := rfl
      simp only [AppendTextAllowed, List.length_cons, List.length_nil, Nat.zero_add, Nat.reduceAdd] at h2
      rw [he] at h2
      obtain ⟨_, rfl⟩ := h2
      revert hd
      decide

/-- C122 is false: a stream that is moved behind the end of an empty file begins it without a byte order mark. -/
theorem C122_missing_refuted : ∃ (raw : Raw) (t : Txt utf16), TextLogOpened utf16 .lf [13, 10] .writer raw t ∧ raw.data = [] ∧
    (Txt.run quotient t [.seek (.to (some (offset 3))), .write [66], .flush]).1 = [.cookie (offset 3), .num 1, .done] ∧
    (Txt.run quotient t [.seek (.to (some (offset 3))), .write [66], .flush]).2.buf.raw.data = [66, 0] ∧
    encoded utf16 0 (outgoing [13, 10] .lf [66]) = .ok [0xFF, 0xFE, 66, 0] :=
  ⟨_, _, textLog_opened utf16 .lf (k := .writer) nofun 8 (by decide) [] 0 [] blocking_nil, rfl, by decide +kernel, by decide +kernel, rfl⟩

end Verif.Props
