import Verif.Model.RawLines
import Verif.Props.BufferedLines
import Verif.Props.RawIO

/-!
# C104: line operations of unbuffered streams
-/

set_option autoImplicit false

namespace Verif.Props

open Verif Verif.Spec Verif.Raw

/-- What is left to read. -/
def ahead (s : Raw) : Bytes := s.data.drop s.pos

/-- The next line of `rest`, or its first `size` bytes if it is longer and `size` is not negative. -/
def nextLine (size : Int) (rest : Bytes) : Bytes :=
  if size < 0 then (linesOf rest).headD [] else ((linesOf rest).headD []).take size.toNat

theorem headD_cons (c : Byte) (cs : Bytes) :
    (linesOf (c :: cs)).headD [] = if c = 10 then [c] else c :: (linesOf cs).headD [] := by
  rw [linesOf]
  split
  · rfl
  · cases linesOf cs <;> rfl

theorem nextLine_nil (size : Int) : nextLine size [] = [] := by simp [nextLine, linesOf]

theorem nextLine_zero (rest : Bytes) : nextLine 0 rest = [] := by simp [nextLine]

theorem nextLine_cons {size : Int} (hz : size ≠ 0) (c : Byte) (cs : Bytes) :
    nextLine size (c :: cs) = if c = 10 then [c] else c :: nextLine (size - 1) cs := by
  unfold nextLine
  rw [headD_cons]
  by_cases h : size < 0
  · rw [if_pos h, if_pos (by omega : size - 1 < 0)]
  · rw [if_neg h, if_neg (by omega : ¬ size - 1 < 0)]
    have : size.toNat = (size - 1).toNat + 1 := by omega
    rw [this]
    split <;> simp

/-- The next line is where the rest begins. -/
theorem headD_prefix (rest : Bytes) : (linesOf rest).headD [] <+: rest := by
  induction rest with
  | nil => simp [linesOf]
  | cons c cs ih =>
    rw [headD_cons]
    split
    · exact ⟨cs, rfl⟩
    · exact List.cons_prefix_cons.2 ⟨rfl, ih⟩

theorem nextLine_prefix (size : Int) (rest : Bytes) : nextLine size rest <+: rest := by
  unfold nextLine
  split
  · exact headD_prefix rest
  · exact (List.take_prefix _ _).trans (headD_prefix rest)

theorem headD_nil {rest : Bytes} (h : (linesOf rest).headD [] = []) : rest = [] := by
  cases rest with
  | nil => rfl
  | cons c cs =>
    rw [headD_cons] at h
    split at h <;> simp at h

theorem linesOf_head (rest : Bytes) (h : rest ≠ []) :
    linesOf rest = (linesOf rest).headD [] :: linesOf (rest.drop ((linesOf rest).headD []).length) := by
  induction rest with
  | nil => exact absurd rfl h
  | cons c cs ih =>
    rw [headD_cons, linesOf]
    split
    · simp
    · cases cs with
      | nil => simp [linesOf]
      | cons d ds =>
        have hi := ih (by simp)
        cases hl : linesOf (d :: ds) with
        | nil => rw [hl] at hi; simp at hi
        | cons l ls =>
          rw [hl] at hi
          simp only [List.headD_cons, List.cons.injEq, true_and] at hi
          simp only [List.headD_cons, List.length_cons, List.drop_succ_cons]
          rw [← hi]

/-- An answer of the operating system that looks like the end of the file. -/
def LooksLikeEnd (a : OsAns) : Prop := a = .again ∨ a = .pipe ∨ a = .count 0

theorem not_end {sched : List OsAns} (h : Blocking sched) {a : OsAns} (ha : a ∈ sched) : ¬ LooksLikeEnd a := by
  obtain ⟨k, rfl, hk⟩ := h a ha
  rintro (h | h | h)
  · cases h
  · cases h
  · cases h; omega

/-- What `readline` does: `i` bytes of the next line have been read. -/
def LineGot (want : Bytes) (s : Raw) (res : Bytes) (r : Except Exn Bytes × Raw) : Prop :=
  ∃ i sched', i ≤ want.length ∧ sched' <:+ s.sched ∧ r.2 = { s with pos := s.pos + i, sched := sched' } ∧
    ((r.1 = .ok (res ++ want.take i) ∧ (i = want.length ∨ ∃ a ∈ s.sched, LooksLikeEnd a)) ∨
      ∃ e, r.1 = .error (.ioError e) ∧ .fail e ∈ s.sched)

theorem lineLoop_got (size : Int) (fuel : Nat) : ∀ (res : Bytes) (room : Int) (s : Raw), s.closed = false → s.readable = true →
    (ahead s).length < fuel → (size < 0 ∧ room < 0 ∨ 0 ≤ room ∧ size = room + res.length) →
    LineGot (nextLine room (ahead s)) s res (lineLoop size fuel res s) := by
  induction fuel with
  | zero => intro _ _ _ _ _ h; omega
  | succ fuel ih =>
    intro res room s ho hr hf hroom
    unfold lineLoop
    by_cases hgo : size < 0 ∨ (res.length : Int) < size
    · rw [if_pos hgo]
      have hz : room ≠ 0 := by omega
      have hread : Raw.read (some 1) s = innerRead 1 s := readSome_eq 1 ho hr
      rcases innerRead_cases 1 s with ⟨k, sched', h, hk, hs⟩ | ⟨sched', h, hs⟩ | ⟨sched', h, hs⟩ | ⟨e, sched', h, hs⟩
      · rw [PyM.bind_ok (hread.trans h)]
        have hsuf : sched' <:+ s.sched := by
          rcases hs with ⟨h1, _, h2⟩ | ⟨j, h1, _⟩
          · rw [h1, h2]; exact List.suffix_refl _
          · rw [h1]; exact List.suffix_cons _ _
        by_cases hk0 : k = 0
        · subst hk0
          refine ⟨0, sched', Nat.zero_le _, hsuf, rfl, .inl ⟨by simp, ?_⟩⟩
          rcases hs with ⟨_, h2, _⟩ | ⟨j, h1, h2⟩
          · omega
          · exact .inr ⟨.count 0, by rw [h1, show j = 0 by omega]; simp, .inr (.inr rfl)⟩
        · have hk1 : k = 1 := by omega
          subst hk1
          cases hd : s.data.drop s.pos with
          | nil =>
            refine ⟨0, sched', Nat.zero_le _, hsuf, by simp, .inl ⟨by simp, .inl ?_⟩⟩
            simp [ahead, hd, nextLine_nil]
          | cons c cs =>
            have hah : ahead s = c :: cs := hd
            simp only [List.take_succ_cons, List.take_zero, List.getLast?_append, List.getLast?_singleton, Option.some_or,
              Option.some.injEq, List.length_cons, List.length_nil, Nat.zero_add]
            rw [hah, nextLine_cons hz]
            by_cases hc : c = 10
            · rw [if_pos hc, if_pos hc]
              exact ⟨1, sched', by simp, hsuf, rfl, .inl ⟨by simp, .inl rfl⟩⟩
            · rw [if_neg hc, if_neg hc]
              have hn : ahead { s with pos := s.pos + 1, sched := sched' } = cs := by
                show s.data.drop (s.pos + 1) = cs
                rw [← List.drop_drop, hd]; rfl
              have hroom' : size < 0 ∧ room - 1 < 0 ∨ 0 ≤ room - 1 ∧ size = room - 1 + ((res ++ [c]).length : Nat) := by
                clear hs
                rw [List.length_append, List.length_singleton]
                omega
              obtain ⟨i, sched'', h1, h2, h3, h4⟩ := ih (res ++ [c]) (room - 1) { s with pos := s.pos + 1, sched := sched' }
                ho hr (by rw [hn]; rw [hah] at hf; simpa using hf) hroom'
              rw [hn] at h1 h4
              refine ⟨i + 1, sched'', by simpa using h1, h2.trans hsuf, ?_, ?_⟩
              · rw [h3]; simp [Nat.add_assoc, Nat.add_comm 1 i]
              · rcases h4 with ⟨h4, h5⟩ | ⟨e, h4, h5⟩
                · refine .inl ⟨by rw [h4]; simp, ?_⟩
                  rcases h5 with h5 | ⟨a, h5, h6⟩
                  · exact .inl (by simp [h5])
                  · exact .inr ⟨a, hsuf.subset h5, h6⟩
                · exact .inr ⟨e, h4, hsuf.subset h5⟩
      · rw [PyM.bind_ok (hread.trans h)]
        refine ⟨0, sched', Nat.zero_le _, by rw [hs]; exact List.suffix_cons _ _, rfl, .inl ⟨by simp, .inr ?_⟩⟩
        exact ⟨.again, by rw [hs]; simp, .inl rfl⟩
      · rw [PyM.bind_ok (hread.trans h)]
        refine ⟨0, sched', Nat.zero_le _, by rw [hs]; exact List.suffix_cons _ _, rfl, .inl ⟨by simp, .inr ?_⟩⟩
        exact ⟨.pipe, by rw [hs]; simp, .inr (.inl rfl)⟩
      · rw [PyM.bind_error (hread.trans h)]
        exact ⟨0, sched', Nat.zero_le _, by rw [hs]; exact List.suffix_cons _ _, rfl, .inr ⟨e, rfl, by rw [hs]; simp⟩⟩
    · rw [if_neg hgo]
      have : room = 0 := by omega
      subst this
      exact ⟨0, s.sched, Nat.zero_le _, List.suffix_refl _, rfl, .inl ⟨by simp, .inl (by simp [nextLine_zero])⟩⟩

theorem readline_got {s : Raw} (ho : s.closed = false) (hr : s.readable = true) (size : Int) :
    LineGot (nextLine size (ahead s)) s [] (Raw.readline size s) := by
  refine lineLoop_got size _ [] size s ho hr ?_ ?_
  · simp only [ahead, List.length_drop]; omega
  · simp; omega

/-! ## `readline` -/

/-- C104: `readline(size)` on a blocking stream returns exactly the next line, or its first `size` bytes, and the position
advances by as much; nothing else changes. -/
theorem C104_readline {s : Raw} (ho : s.closed = false) (hr : s.readable = true) (hb : Blocking s.sched) (size : Int) :
    ∃ sched', Raw.readline size s = (.ok (nextLine size (ahead s)),
      { s with pos := s.pos + (nextLine size (ahead s)).length, sched := sched' }) ∧ Blocking sched' := by
  obtain ⟨i, sched', _, h2, h3, h4⟩ := readline_got ho hr size
  refine ⟨sched', ?_, fun a ha => hb a (h2.subset ha)⟩
  rcases h4 with ⟨h4, h5 | ⟨a, ha, he⟩⟩ | ⟨e, _, h5⟩
  · rw [h5, List.take_length] at h4
    rw [h5] at h3
    exact Prod.ext h4 h3
  · exact absurd he (not_end hb ha)
  · obtain ⟨k, hk, _⟩ := hb _ h5; cases hk

/-- C104: whatever the operating system answers, what `readline` returns is the beginning of the next line, at most `size`
bytes, and the position advances by as much; if the line is cut short, an answer looked like the end of the file; an
exception is one of the operating system. -/
theorem C104_answers {s : Raw} (ho : s.closed = false) (hr : s.readable = true) (size : Int) :
    (∀ line, (Raw.readline size s).1 = .ok line → line <+: nextLine size (ahead s) ∧ (0 ≤ size → (line.length : Int) ≤ size) ∧
      (Raw.readline size s).2.pos = s.pos + line.length ∧ (line = nextLine size (ahead s) ∨ ∃ a ∈ s.sched, LooksLikeEnd a)) ∧
    (∀ e, (Raw.readline size s).1 = .error e → ∃ n, e = .ioError n ∧ .fail n ∈ s.sched) ∧
    (Raw.readline size s).2.data = s.data := by
  obtain ⟨i, sched', h1, _, h3, h4⟩ := readline_got ho hr size
  refine ⟨fun line hl => ?_, fun e he => ?_, by rw [h3]⟩
  · rcases h4 with ⟨h4, h5⟩ | ⟨e, h4, _⟩
    · rw [hl] at h4
      have h6 : line = (nextLine size (ahead s)).take i := by simpa using Except.ok.inj h4
      have hlen : line.length = i := by rw [h6, List.length_take]; omega
      refine ⟨by rw [h6]; exact List.take_prefix _ _, fun hz => ?_, by rw [h3, hlen], ?_⟩
      · have : (nextLine size (ahead s)).length ≤ size.toNat := by
          unfold nextLine
          rw [if_neg (by omega), List.length_take]; omega
        omega
      · rcases h5 with h5 | h5
        · exact .inl (by rw [h6, h5, List.take_length])
        · exact .inr h5
    · rw [hl] at h4; cases h4
  · rcases h4 with ⟨h4, _⟩ | ⟨n, h4, h5⟩
    · rw [he] at h4; cases h4
    · rw [he] at h4; exact ⟨n, Except.error.inj h4, h5⟩

/-- The lines returned are complete: only the last line of the file lacks a newline. -/
def WholeLines : Prop := ∀ s : Raw, s.closed = false → s.readable = true → NonBlocking s.sched →
  ∀ line, (Raw.readline (-1) s).1 = .ok line → line = (linesOf (ahead s)).headD []

/-- C104 is false of non-blocking streams: `readline()` returns a part of a line, as if it were the last one ... -/
theorem C104_torn_refuted : ¬ WholeLines := by
  intro h
  have := h ⟨.unix, fun _ => 7, false, true, false, false, false, [97, 98, 10], 0, [.count 1, .again], [], []⟩ rfl rfl
    (by simp [NonBlocking]) [97] (by decide +kernel)
  exact absurd this (by decide)

/-- What `readline` has read is returned, by this call or by a later one. -/
def ReadIsReturned : Prop := ∀ (s : Raw) (e : Exn), s.closed = false → s.readable = true →
  (Raw.readline (-1) s).1 = .error e → (Raw.readline (-1) s).2.pos = s.pos

/-- ... and what was read before a failure is lost. -/
theorem C104_lost_refuted : ¬ ReadIsReturned := by
  intro h
  have := h ⟨.unix, fun _ => 7, false, true, false, false, false, [97, 98, 10], 0, [.count 1, .fail 5], [], []⟩ (.ioError 5) rfl rfl
    (by decide +kernel)
  exact absurd this (by decide +kernel)

/-- On a closed stream `readline` raises `ValueError` ... -/
theorem C104_closed_partial {s : Raw} (hc : s.closed = true) :
    (∀ size, size ≠ 0 → Raw.readline size s = (.error .valueError, s)) ∧
      (∀ hint, Raw.readlines hint s = (.error .valueError, s)) ∧ ∀ ls, Raw.writelines ls s = (.error .valueError, s) := by
  have h1 : Raw.checkClosed s = (.error .valueError, s) := by simp [Raw.checkClosed, hc]
  refine ⟨fun size hz => ?_, fun hint => PyM.bind_error h1, fun ls => PyM.bind_error h1⟩
  unfold Raw.readline lineLoop
  rw [if_pos (by simp; omega)]
  exact PyM.bind_error ((C33_raw_closed s hc).1 _)

/-- ... except `readline(0)`. -/
theorem C104_closed_refuted : ¬ ∀ (s : Raw) (size : Int), s.closed = true → (Raw.readline size s).1 = .error .valueError := by
  intro h
  have := h ⟨.unix, fun _ => 7, true, true, false, false, false, [97], 0, [], [], []⟩ 0 rfl
  exact absurd this (by decide +kernel)

/-! ## `readlines` and iteration -/

theorem readline_frame {s : Raw} (ho : s.closed = false) (hr : s.readable = true) :
    ∃ i sched', i ≤ ((linesOf (ahead s)).headD []).length ∧
      (Raw.readline (-1) s).2 = { s with pos := s.pos + i, sched := sched' } ∧
      ((Raw.readline (-1) s).1 = .ok ((ahead s).take i) ∨ ∃ n, (Raw.readline (-1) s).1 = .error (.ioError n) ∧ .fail n ∈ s.sched) ∧
      sched' <:+ s.sched := by
  obtain ⟨i, sched', h1, h2, h3, h4⟩ := readline_got ho hr (-1)
  refine ⟨i, sched', h1, h3, ?_, h2⟩
  rcases h4 with ⟨h4, _⟩ | h4
  · left
    rw [h4]
    obtain ⟨t, ht⟩ := nextLine_prefix (-1) (ahead s)
    rw [List.nil_append]
    conv => rhs; rw [← ht]
    rw [List.take_append_of_le_length h1]
  · exact .inr h4

theorem linesLoop_blocking (hint : Option Nat) (fuel : Nat) : ∀ (n : Nat) (s : Raw), s.closed = false → s.readable = true →
    Blocking s.sched → (ahead s).length < fuel →
    ∃ sched', Raw.linesLoop hint fuel n s = (.ok (upTo hint n (linesOf (ahead s))),
      { s with pos := s.pos + (upTo hint n (linesOf (ahead s))).flatten.length, sched := sched' }) ∧ Blocking sched' := by
  induction fuel with
  | zero => intro _ _ _ _ _ h; omega
  | succ fuel ih =>
    intro n s ho hr hb hf
    obtain ⟨sched', h1, h2⟩ := C104_readline ho hr hb (-1)
    unfold Raw.linesLoop
    rw [PyM.bind_ok h1]
    have hnl : nextLine (-1) (ahead s) = (linesOf (ahead s)).headD [] := by simp [nextLine]
    by_cases he : ahead s = []
    · have : nextLine (-1) (ahead s) = [] := by rw [he, nextLine_nil]
      rw [if_pos this, this, he]
      exact ⟨sched', rfl, h2⟩
    · have hne : nextLine (-1) (ahead s) ≠ [] := fun h => he (headD_nil (hnl ▸ h))
      rw [if_neg hne]
      have hl := linesOf_head _ he
      rw [← hnl] at hl
      have hah : ahead { s with pos := s.pos + (nextLine (-1) (ahead s)).length, sched := sched' } =
          (ahead s).drop (nextLine (-1) (ahead s)).length := by
        show s.data.drop _ = (s.data.drop s.pos).drop _
        rw [List.drop_drop]
      generalize nextLine (-1) (ahead s) = line at *
      rw [hl]
      unfold upTo
      by_cases hh : hint.any (· ≤ n + line.length) = true
      · rw [if_pos hh, if_pos hh]
        exact ⟨sched', by simp, h2⟩
      · rw [if_neg hh, if_neg hh]
        have hlp : 0 < line.length := List.length_pos_iff.2 hne
        obtain ⟨sched'', h3, h4⟩ := ih (n + line.length) { s with pos := s.pos + line.length, sched := sched' } ho hr h2
          (by rw [hah, List.length_drop]; have := List.length_pos_iff.2 he; omega)
        rw [hah] at h3
        rw [PyM.bind_ok h3]
        exact ⟨sched'', by simp [Nat.add_assoc], h4⟩

/-- C104: `readlines()` and an iteration on a blocking stream deliver all the lines of the rest of the file. -/
theorem C104_readlines {s : Raw} (ho : s.closed = false) (hr : s.readable = true) (hb : Blocking s.sched) (hint : Option Int)
    (hn : ∀ z, hint = some z → z ≤ 0) :
    ∃ sched', Raw.readlines hint s = (.ok (linesOf (ahead s)),
      { s with pos := s.pos + (ahead s).length, sched := sched' }) ∧ Blocking sched' := by
  obtain ⟨sched', h1, h2⟩ := linesLoop_blocking none (s.data.length - s.pos + 1) 0 s ho hr hb
    (by simp only [ahead, List.length_drop]; omega)
  rw [upTo_none, flatten_linesOf] at h1
  refine ⟨sched', ?_, h2⟩
  unfold Raw.readlines
  rw [PyM.bind_ok (checkClosed_ok ho)]
  have : hintOf hint = none := by
    cases hint with
    | none => rfl
    | some z => exact if_pos (hn z rfl)
  rw [this]
  exact h1

/-- C104: `readlines(hint)` delivers the lines up to the one that reaches the hint. -/
theorem C104_hint {s : Raw} (ho : s.closed = false) (hr : s.readable = true) (hb : Blocking s.sched) (hint : Nat)
    (hp : 0 < hint) :
    ∃ j sched', Raw.readlines (some hint) s = (.ok ((linesOf (ahead s)).take j),
        { s with pos := s.pos + ((linesOf (ahead s)).take j).flatten.length, sched := sched' }) ∧ Blocking sched' ∧
      (j < (linesOf (ahead s)).length → hint ≤ ((linesOf (ahead s)).take j).flatten.length) ∧
      ((linesOf (ahead s)).take (j - 1)).flatten.length < hint := by
  obtain ⟨sched', h1, h2⟩ := linesLoop_blocking (some hint) (s.data.length - s.pos + 1) 0 s ho hr hb
    (by simp only [ahead, List.length_drop]; omega)
  obtain ⟨j, e1, _, e3, e4⟩ := upTo_hint hint (linesOf (ahead s)) 0 hp
  rw [e1] at h1
  refine ⟨j, sched', ?_, h2, by simpa using e3, by simpa using e4⟩
  unfold Raw.readlines
  rw [PyM.bind_ok (checkClosed_ok ho)]
  have : hintOf (some (hint : Int)) = some hint := by
    unfold hintOf
    dsimp only
    rw [if_neg (by omega), Int.toNat_natCast]
  rw [this]
  exact h1

theorem linesLoop_answers (hint : Option Nat) (fuel : Nat) : ∀ (n : Nat) (s : Raw), s.closed = false → s.readable = true →
    (ahead s).length < fuel →
    ∃ i sched', i ≤ (ahead s).length ∧ (Raw.linesLoop hint fuel n s).2 = { s with pos := s.pos + i, sched := sched' } ∧
      ((∃ ls, (Raw.linesLoop hint fuel n s).1 = .ok ls ∧ ls.flatten = (ahead s).take i) ∨
        ∃ m, (Raw.linesLoop hint fuel n s).1 = .error (.ioError m) ∧ .fail m ∈ s.sched) ∧ sched' <:+ s.sched := by
  induction fuel with
  | zero => intro _ _ _ _ h; omega
  | succ fuel ih =>
    intro n s ho hr hf
    obtain ⟨i, sched', h1, h2, h3, h4⟩ := readline_frame ho hr
    have hle : i ≤ (ahead s).length := Nat.le_trans h1 (headD_prefix _).length_le
    unfold Raw.linesLoop
    rcases h3 with h3 | ⟨m, h3, h5⟩
    · rw [PyM.bind_ok (Prod.ext h3 h2)]
      by_cases hi : (ahead s).take i = []
      · rw [if_pos hi]
        exact ⟨i, sched', hle, rfl, .inl ⟨[], rfl, hi.symm⟩, h4⟩
      · rw [if_neg hi]
        split
        · exact ⟨i, sched', hle, rfl, .inl ⟨_, rfl, by simp⟩, h4⟩
        · have hip : 0 < i := Nat.pos_of_ne_zero fun h => hi (by simp [h])
          have hah : ahead { s with pos := s.pos + i, sched := sched' } = (ahead s).drop i := by
            show s.data.drop _ = (s.data.drop s.pos).drop _
            rw [List.drop_drop]
          obtain ⟨i', sched'', g1, g2, g3, g4⟩ := ih (n + ((ahead s).take i).length)
            { s with pos := s.pos + i, sched := sched' } ho hr (by rw [hah, List.length_drop]; omega)
          rw [hah, List.length_drop] at g1
          rcases g3 with ⟨ls, g3, g5⟩ | ⟨m, g3, g5⟩
          · rw [PyM.bind_ok (Prod.ext g3 g2)]
            refine ⟨i + i', sched'', by omega, by simp [Nat.add_assoc], .inl ⟨_, rfl, ?_⟩, g4.trans h4⟩
            rw [List.flatten_cons, g5, hah, List.take_add]
          · rw [PyM.bind_error (Prod.ext g3 g2)]
            exact ⟨i + i', sched'', by omega, by simp [Nat.add_assoc], .inr ⟨m, rfl, h4.subset g5⟩, g4.trans h4⟩
    · rw [PyM.bind_error (Prod.ext h3 h2)]
      exact ⟨i, sched', hle, rfl, .inr ⟨m, rfl, h5⟩, h4⟩

/-- C104: whatever the operating system answers, the lines that `readlines` returns are together the next bytes of the file, and
the position advances by their number. -/
theorem C104_readlines_answers {s : Raw} (ho : s.closed = false) (hr : s.readable = true) (hint : Option Int) {ls : List Bytes}
    (h : (Raw.readlines hint s).1 = .ok ls) :
    ls.flatten <+: ahead s ∧ (Raw.readlines hint s).2.pos = s.pos + ls.flatten.length ∧
      (Raw.readlines hint s).2.data = s.data := by
  unfold Raw.readlines at h ⊢
  rw [PyM.bind_ok (checkClosed_ok ho)] at h ⊢
  obtain ⟨i, sched', h1, h2, h3, _⟩ := linesLoop_answers
    (hintOf hint) (s.data.length - s.pos + 1) 0 s ho hr
    (by simp only [ahead, List.length_drop]; omega)
  rw [h2]
  rcases h3 with ⟨ls', h3, h4⟩ | ⟨m, h3, _⟩
  · cases h3.symm.trans h
    rw [h4]
    exact ⟨List.take_prefix _ _, by simp [Nat.min_eq_left h1], rfl⟩
  · cases h3.symm.trans h

/-! ## `writelines` -/

/-- Parts of the first lines: something from the start of each. -/
inductive Parts : List Bytes → List Bytes → Prop
  | nil (ls : List Bytes) : Parts [] ls
  | cons {p l : Bytes} {ps ls : List Bytes} : p <+: l → Parts ps ls → Parts (p :: ps) (l :: ls)

/-- What one `write` does to the stream. -/
theorem write_course (s : Raw) (buf : Bytes) (ho : s.closed = false) (hw : s.writable = true)
    (hk : s.platform = .windows → s.seekable = true) :
    ∃ k s', (write buf s).2 = s' ∧ k ≤ buf.length ∧ s'.data = writeAt s.fill s.data (landing s) (buf.take k) ∧
      (s.append = false → s'.pos = s.pos + k) ∧ s'.closed = false ∧ s'.writable = true ∧ s'.platform = s.platform ∧
      s'.seekable = s.seekable ∧ s'.append = s.append ∧ s'.fill = s.fill ∧
      (∀ e, (write buf s).1 = .error e → k = 0) ∧
      (s.sched = [] → s'.sched = [] ∧ k = buf.length ∧ ∃ r, (write buf s).1 = .ok r) := by
  have hland : s.append = false → landing s = s.pos := by intro h; simp [landing, h]
  cases hp : s.platform with
  | unix =>
    rw [write_unix buf ho hw hp]
    rcases osWrite_cases s.append buf s with ⟨k, sched', hle, h, hs⟩ | ⟨sched', h, hs⟩ | ⟨e, sched', h⟩
    · rw [h]
      dsimp only
      refine ⟨k, _, rfl, hle, ?_, ?_, ?_⟩
      · split <;> rfl
      · intro ha
        split <;> simp only [ha] <;> split <;> simp_all
      · have hz : ¬ (buf ≠ [] ∧ k = 0) → ∀ e, (Except.ok (some k) : Except Exn (Option Nat)) = .error e → k = 0 := by
          intro _ e he; cases he
        split
        · rename_i h0
          refine ⟨ho, hw, hp.symm ▸ rfl, rfl, rfl, rfl, fun _ _ => h0.2, fun hs0 => ?_⟩
          rcases hs with ⟨_, h1, _⟩ | ⟨j, h1, _⟩
          · exact absurd (List.length_eq_zero_iff.1 (h1 ▸ h0.2)) h0.1
          · rw [hs0] at h1; cases h1
        · refine ⟨ho, hw, hp.symm ▸ rfl, rfl, rfl, rfl, fun e he => (by cases he), fun hs0 => ?_⟩
          rcases hs with ⟨_, h1, h2⟩ | ⟨j, h1, _⟩
          · exact ⟨h2, h1, _, rfl⟩
          · rw [hs0] at h1; cases h1
    · rw [h]
      exact ⟨0, _, rfl, Nat.zero_le _, by simp, fun _ => rfl, ho, hw, hp.symm ▸ rfl, rfl, rfl, rfl, fun _ _ => rfl,
        fun hs0 => (by rw [hs0] at hs; cases hs)⟩
    · rw [h]
      refine ⟨0, _, rfl, Nat.zero_le _, by simp, fun _ => rfl, ho, hw, hp.symm ▸ rfl, rfl, rfl, rfl, fun _ _ => rfl,
        fun hs0 => ?_⟩
      simp [osWrite, nextAns, hs0] at h
  | windows =>
    have hseek := hk hp
    unfold write
    rw [PyM.bind_ok (checkClosed_ok ho), PyM.bind_ok (checkWritable_ok ho hw), PyM.bind_apply,
      innerWrite_windows buf hseek hp]
    rcases osWrite_cases false buf { s with pos := landing s } with ⟨k, sched', hle, h, hs⟩ | ⟨sched', h, hs⟩ | ⟨e, sched', h⟩
    · rw [h]
      match k, hle with
      | 0, _ =>
        refine ⟨0, _, rfl, Nat.zero_le _, ?_, ?_, ?_⟩
        · simp
        · intro ha; simp [hland ha]
        · refine ⟨(by simpa using ho), (by simpa using hw), (by simp [hp]), (by simp), (by simp), ?_, fun _ _ => rfl, fun hs0 => ?_⟩
          · simp; rfl
          · rcases hs with ⟨_, h1, h2⟩ | ⟨j, h1, _⟩
            · exact ⟨(by simpa using h2), h1, (by simp)⟩
            · simp [hs0] at h1
      | k + 1, hle =>
        have : ¬ buf.length < k + 1 := by omega
        simp only [Option.some.injEq, PyM.ite_apply, this, if_false, PyM.pure_apply, Nat.succ_ne_zero, and_false,
          Bool.false_eq_true]
        refine ⟨k + 1, _, rfl, hle, rfl, fun ha => by simp [hland ha], ho, hw, hp.symm ▸ rfl, rfl, rfl, rfl,
          fun e he => (by cases he), fun hs0 => ?_⟩
        rcases hs with ⟨_, h1, h2⟩ | ⟨j, h1, _⟩
        · exact ⟨h2, h1, _, rfl⟩
        · simp [hs0] at h1
    · rw [h]
      refine ⟨0, _, rfl, Nat.zero_le _, by simp, fun ha => by simp [hland ha], (by simpa using ho), (by simpa using hw),
        (by simp [hp]), (by simp), (by simp), (by simp; rfl), fun _ _ => rfl, fun hs0 => ?_⟩
      simp [hs0] at hs
    · rw [h]
      refine ⟨0, _, rfl, Nat.zero_le _, by simp, fun ha => by simp [hland ha], (by simpa using ho), (by simpa using hw),
        (by simp [hp]), (by simp), (by simp), (by simp; rfl), fun _ _ => rfl, fun hs0 => ?_⟩
      simp [osWrite, nextAns, hs0] at h

theorem writeAll_course (ls : List Bytes) : ∀ (s : Raw), s.closed = false → s.writable = true →
    (s.platform = .windows → s.seekable = true) →
    ∃ ps s', (Raw.writeAll ls s).2 = s' ∧ Parts ps ls ∧ s'.data = writeAt s.fill s.data (landing s) ps.flatten ∧
      (s.append = false → s'.pos = s.pos + ps.flatten.length) ∧
      ((Raw.writeAll ls s).1 = .ok () → ps.length = ls.length) ∧
      (s.sched = [] → (Raw.writeAll ls s).1 = .ok () ∧ ps = ls ∧ s'.sched = []) := by
  induction ls with
  | nil =>
    intro s ho hw hk
    exact ⟨[], s, rfl, .nil _, by simp, fun _ => rfl, fun _ => rfl, fun h => ⟨rfl, rfl, h⟩⟩
  | cons l ls ih =>
    intro s ho hw hk
    obtain ⟨k, s', h1, h2, h3, h4, h5, h6, h7, h8, h9, h10, h11, h12⟩ := write_course s l ho hw hk
    unfold Raw.writeAll
    cases hr : (write l s).1 with
    | error e =>
      have := h11 e hr
      subst this
      rw [PyM.bind_error (Prod.ext hr h1)]
      refine ⟨[], s', rfl, .nil _, by simpa using h3, fun ha => by simpa using h4 ha, fun h => (by cases h), fun hs => ?_⟩
      obtain ⟨_, _, r, hr'⟩ := h12 hs
      rw [hr] at hr'; cases hr'
    | ok r =>
      rw [PyM.bind_ok (Prod.ext hr h1)]
      obtain ⟨ps, s'', g1, g2, g3, g4, g5, g6⟩ := ih s' h5 h6 (by rw [h7, h8]; exact hk)
      refine ⟨l.take k :: ps, s'', g1, .cons (List.take_prefix _ _) g2, ?_, ?_, fun h => by simp [g5 h], fun hs => ?_⟩
      · rw [g3, h10, h3, List.flatten_cons]
        cases ha : s.append with
        | false =>
          have e1 : landing s' = s.pos + (l.take k).length := by
            simp [landing, h9, ha, h4 ha]; omega
          have e2 : landing s = s.pos := by simp [landing, ha]
          rw [e1, e2, writeAt_append]
        | true =>
          have e1 : landing s' = s'.data.length := by simp [landing, h9, ha]
          have e2 : landing s = s.data.length := by simp [landing, ha]
          rw [e1, h3, writeAt_end, e2, writeAt_end, writeAt_end, List.append_assoc]
      · intro ha
        rw [g4 (h9 ▸ ha), h4 ha]
        simp only [List.flatten_cons, List.length_append, List.length_take]; omega
      · obtain ⟨q1, q2, _⟩ := h12 hs
        obtain ⟨q3, q4, q5⟩ := g6 q1
        exact ⟨q3, by rw [q4, q2, List.take_length], q5⟩

theorem writelines_open {s : Raw} (ho : s.closed = false) (ls : List Bytes) : Raw.writelines ls s = Raw.writeAll ls s := by
  unfold Raw.writelines
  rw [PyM.bind_ok (checkClosed_ok ho)]

/-- C104 (partial): `writelines(lines)` stores the lines one after the other at the position, or at the end of the file in append
mode, if every system call transfers all bytes.  Missing: short transfers (`C104_writelines_refuted`). -/
theorem C104_writelines_partial {s : Raw} (ho : s.closed = false) (hw : s.writable = true)
    (hk : s.platform = .windows → s.seekable = true) (hf : Full s.sched) (ls : List Bytes) :
    (Raw.writelines ls s).1 = .ok () ∧ Stored s.fill s.data (landing s) ls.flatten (Raw.writelines ls s).2.data ∧
      (s.append = false → (Raw.writelines ls s).2.pos = s.pos + ls.flatten.length) := by
  rw [writelines_open ho]
  obtain ⟨ps, s', h1, _, h3, h4, _, h6⟩ := writeAll_course ls s ho hw hk
  obtain ⟨g1, rfl, _⟩ := h6 hf
  rw [h1]
  exact ⟨g1, by rw [h3]; exact stored_writeAt _ _ _ _, h4⟩

/-- C104: whatever the operating system answers, what `writelines` stores are beginnings of the first lines, in order, and the
position advances by as much; every line was tried if it returns. -/
theorem C104_writelines_answers {s : Raw} (ho : s.closed = false) (hw : s.writable = true)
    (hk : s.platform = .windows → s.seekable = true) (ls : List Bytes) :
    ∃ ps, Parts ps ls ∧ Stored s.fill s.data (landing s) ps.flatten (Raw.writelines ls s).2.data ∧
      (s.append = false → (Raw.writelines ls s).2.pos = s.pos + ps.flatten.length) ∧
      ((Raw.writelines ls s).1 = .ok () → ps.length = ls.length) := by
  rw [writelines_open ho]
  obtain ⟨ps, s', h1, h2, h3, h4, h5, _⟩ := writeAll_course ls s ho hw hk
  rw [h1]
  exact ⟨ps, h2, by rw [h3]; exact stored_writeAt _ _ _ _, h4, h5⟩

/-- If `writelines` returns, everything was written. -/
def AllWritten (ok : List OsAns → Prop) : Prop := ∀ (s : Raw) (ls : List Bytes), s.closed = false → s.writable = true → s.append = false →
  ok s.sched → (Raw.writelines ls s).1 = .ok () → Stored s.fill s.data s.pos ls.flatten (Raw.writelines ls s).2.data

/-- C104 is false when a system call transfers only a part of a line, as it may on a full device: the rest of the line is
skipped, and nothing tells. -/
theorem C104_writelines_refuted : ¬ AllWritten Blocking := by
  intro h
  have := h ⟨.unix, fun _ => 7, false, false, true, true, false, [], 0, [.count 1], [], []⟩ [[97, 10], [98, 10]] rfl rfl rfl
    (by simp [Blocking]) (by decide +kernel)
  exact absurd this.size (by decide +kernel)

/-- ... and on a non-blocking stream whole lines are skipped. -/
theorem C104_skipped_refuted : ∃ (s : Raw), s.closed = false ∧ s.writable = true ∧ s.sched = [.again] ∧
    (Raw.writelines [[97, 10], [98, 10]] s).1 = .ok () ∧ (Raw.writelines [[97, 10], [98, 10]] s).2.data = [98, 10] :=
  ⟨⟨.unix, fun _ => 7, false, false, true, true, false, [], 0, [.again], [], []⟩, rfl, rfl, rfl, by decide +kernel, by decide +kernel⟩

-- C104: lines of a file read with short answers, from the second byte on
example : (Raw.readlines none ⟨.unix, fun _ => 7, false, true, false, true, false, [97, 98, 10, 10, 99], 1, [.count 1, .count 3],
    [], []⟩).1 = .ok [[98, 10], [10], [99]] := by decide +kernel

example : Raw.readline 2 ⟨.unix, fun _ => 7, false, true, false, true, false, [97, 98, 99, 10], 0, [], [], []⟩ |>.1 |>
    (· = .ok [97, 98]) := by decide +kernel

example : (Raw.readlines (some 3) ⟨.unix, fun _ => 7, false, true, false, true, false, [97, 10, 98, 10, 99], 0, [], [], []⟩).1 =
    .ok [[97, 10], [98, 10]] := by decide +kernel

-- C104: writing past the end, and in append mode
example : (Raw.writelines [[97, 10], [], [98]] ⟨.unix, fun _ => 7, false, false, true, true, false, [1], 2, [], [], []⟩).2.data =
    [1, 0, 97, 10, 98] := by decide +kernel

example : (Raw.writelines [[97, 10], [98]] ⟨.windows, fun _ => 7, false, false, true, true, true, [1], 0, [], [], []⟩).2.data =
    [1, 97, 10, 98] := by decide +kernel

end Verif.Props
