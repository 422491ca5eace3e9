import Verif.Model.LockRange
import Verif.Props.Buffered
import Verif.Props.TextReading

/-!
# C112: lock ranges relative to the position or to the end of a stream
-/

set_option autoImplicit false

namespace Verif.Props

open Verif Verif.Spec Verif.Txt

/-- The constant `os.SEEK_SET`, `os.SEEK_CUR` or `os.SEEK_END`. -/
def seekConst : Whence → PyArg
  | .set => .int 0
  | .cur => .int 1
  | .fin => .int 2

/-- The length argument. -/
def lengthArg : Option Nat → PyArg
  | none => .none
  | some n => .int n

theorem lengthArg_good (len : Option Nat) : badNatural (lengthArg len) = false := by
  cases len with
  | none => rfl
  | some n => simp [lengthArg, badNatural, PyArg.int?]

theorem lengthArg_int (len : Option Nat) : (lengthArg len).int? = len.map Int.ofNat := by
  cases len <;> rfl

theorem seekConst_good (w : Whence) : badWhence (seekConst w) = false := by cases w <;> decide

theorem absOffset_eq (v : LockView) (o : Int) (w : Whence) : absOffset v (.int o) (seekConst w) =
    match w with
    | .set => o
    | .cur => v.pos + o
    | .fin => v.size + o := by
  cases w <;> simp [absOffset, seekConst, PyArg.eqInt, PyArg.num?, PyArg.int?]
  all_goals decide

theorem badShared_bool (sh : Bool) : badShared (.bool sh) = false := by cases sh <;> decide

theorem askedShared_bool (v : LockView) (sh : Bool) : askedShared v (.bool sh) = sh := by
  cases sh <;> simp [askedShared, PyArg.eqInt, PyArg.num?] <;> decide

theorem lockArgs_eq {s : Raw} (enforced : Option Num) (ho : s.closed = false) (hs : s.seekable = true) {sh : Bool}
    (len : Option Nat) (o : Int) (w : Whence) :
    lockArgs (s.lockView enforced) .none (lengthArg len) (.int o) (seekConst w) (.bool sh) =
      if (sh && !s.readable) || (!sh && !s.writable) then .error (.ioError 0)
      else .ok ⟨none, len.map Int.ofNat, absOffset (s.lockView enforced) (.int o) (seekConst w), sh, enforced.isNone⟩ := by
  unfold lockArgs
  have hc : (s.lockView enforced).checkSeekable = .ok () := by simp [LockView.checkSeekable, Raw.lockView, ho, hs]
  rw [hc]
  dsimp only
  rw [lengthArg_good, seekConst_good, badShared_bool, askedShared_bool, lengthArg_int]
  simp only [badTimeout, badInteger, PyArg.int?, Option.isNone_some, Bool.false_eq_true, if_false, PyArg.num?, Option.isNone_none,
    Bool.true_and, Raw.lockView]

/-- C112: after any history of a buffered stream, `lock_file` and `unlock_file` with an offset relative to the beginning,
to the position or to the end of the file concern the bytes that start there in the file as the program sees it,
whatever is read ahead or waits to be written.  (Missing: what comes after a call that the code gets wrong, see C23.) -/
theorem C112_buffered_partial {k : BufKind} {n : Int} {raw : Raw} {b : Buf} (h : Opened k n raw b) (hb : Blocking raw.sched)
    (ops : List StreamOp) :
    ∃ pre post f, ops = pre ++ post ∧ Conforms k (fileOf raw) (pre.zip (b.run pre).1) f ∧
      (post = [] ∨ ∃ op rest, post = op :: rest ∧ Unsafe k f op) ∧
      ∀ (enforced : Option Num) (len : Option Nat) (o : Int) (w : Whence) (sh : Bool),
        (sh = true → k ≠ .writer) → (sh = false → k ≠ .reader) →
        (Buf.lockPlan enforced .none (lengthArg len) (.int o) (seekConst w) (.bool sh) (b.run pre).2).1 =
          .ok ⟨none, len.map Int.ofNat, f.target o w, sh, enforced.isNone⟩ ∧
        (0 ≤ o → (Buf.unlockPlan enforced (lengthArg len) (.int o) (seekConst w) (b.run pre).2).1 =
          .ok (len.map Int.ofNat, f.target o w)) := by
  obtain ⟨pre, post, f, e1, e2, e3, e4, e5⟩ := Buf.run_R ops b _ (h.R hb)
  rw [h.kind] at e2 e5 e4
  refine ⟨pre, post, f, e1, e2, e5, ?_⟩
  intro enforced len o w sh hr hw
  obtain ⟨b', g1, g2, g3, g4, g5⟩ := Buf.resetBuffers_R e3
  have hl := g2.live
  have hpos := g2.pos' g3
  have hdata := g2.data' g3
  have hex : b'.extra = 0 := by simp [Buf.extra, g4]
  have habs : absOffset (b'.raw.lockView enforced) (.int o) (seekConst w) = f.target o w := by
    rw [absOffset_eq]
    cases w
    · rfl
    · change (b'.raw.pos : Int) + o = f.pos + o
      rw [hpos, hex]; rfl
    · change (b'.raw.data.length : Int) + o = f.data.length + o
      rw [hdata]
  constructor
  · unfold Buf.lockPlan
    rw [PyM.bind_ok g1]
    simp only [Buf.onRaw, Raw.lockPlan]
    rw [lockArgs_eq enforced hl.opened hl.seekable, habs, if_neg]
    have hk : b'.kind = k := g5.trans e4
    cases sh with
    | true => simp [hl.readable (by rw [hk]; exact hr rfl)]
    | false => simp [hl.writable (by rw [hk]; exact hw rfl)]
  · intro ho
    unfold Buf.unlockPlan
    rw [PyM.bind_ok g1]
    simp only [Buf.onRaw, Raw.unlockPlan, unlockArgs]
    have hc : (b'.raw.lockView enforced).checkSeekable = .ok () := by
      simp [LockView.checkSeekable, Raw.lockView, hl.opened, hl.seekable]
    rw [hc]
    dsimp only
    rw [lengthArg_good, seekConst_good, lengthArg_int, habs]
    have hbad : badNatural (.int o) = false := by simp [badNatural, PyArg.int?]; omega
    rw [hbad]
    rfl

/-- C112 without exception for streams opened for reading only or for writing only. -/
theorem C112_one_way {k : BufKind} {n : Int} {raw : Raw} {b : Buf} (h : Opened k n raw b) (hb : Blocking raw.sched)
    (hk : k ≠ .random) (ops : List StreamOp) (enforced : Option Num) (len : Option Nat) (o : Int) (w : Whence) :
    ∃ f, Conforms k (fileOf raw) (ops.zip (b.run ops).1) f ∧
      (Buf.lockPlan enforced .none (lengthArg len) (.int o) (seekConst w) (.bool (decide (k = .reader))) (b.run ops).2).1 =
          .ok ⟨none, len.map Int.ofNat, f.target o w, decide (k = .reader), enforced.isNone⟩ := by
  obtain ⟨pre, post, f, rfl, e2, e3, e4⟩ := C112_buffered_partial h hb ops
  rcases e3 with rfl | ⟨op, rest, rfl, hu⟩
  · rw [List.append_nil]
    refine ⟨f, e2, (e4 enforced len o w _ ?_ ?_).1⟩
    · intro hh; rw [of_decide_eq_true hh]; nofun
    · intro hh; exact of_decide_eq_false hh
  · exact absurd (Unsafe.random hu) hk

-- two bytes were read, eight are read ahead; three bytes wait to be written
example : ((opened .random 8 digits []).run [.read (some 2)]).2.raw.pos = 8 ∧
    (Buf.lockPlan none .none (.int 4) (.int 1) (.int 1) (.bool false) ((opened .random 8 digits []).run [.read (some 2)]).2).1 =
      .ok ⟨none, some 4, 3, false, true⟩ ∧
    ((opened .writer 8 digits []).run [.seek 9 .set, .write [1, 2, 3]]).2.raw.data.length = 10 ∧
    (Buf.lockPlan none .none .none (.int (-1)) (.int 2) (.bool false) ((opened .writer 8 digits []).run [.seek 9 .set, .write [1, 2, 3]]).2).1 =
      .ok ⟨none, none, 11, false, true⟩ := by
  refine ⟨by decide +kernel, ?_, by decide +kernel, ?_⟩ <;> rfl

variable {C : Codec}

/-- C112 for text streams (partial): when `tell()` returns an ordinary position (the offset of a byte, without characters to
skip), offsets relative to the position count from there.  Missing: other positions, for which it is false
(`C112_text_refuted`). -/
theorem C112_text_partial (hC : LawfulCodec C) {guess : Nat × Nat → Nat → Nat} (hg : Moderate guess) {nl : Newline} {raw : Raw} {t₀ t : Txt C}
    (h : TextOpened nl raw t₀) {text : Text} {d : C.Dec} (hd : C.decode C.decInit raw.data true = .ok (text, d))
    (before : List Txt.Op) (hb : ∀ op ∈ before, Always op) (ht : t = (t₀.run guess before).2)
    {c : Cookie} (hc : (t.step guess .tell).1 = .cookie c) (enforced : Option Num) (len : Option Nat) (o : Int) (w : Whence)
    (hskip : w = .cur → c.skip = 0) :
    (Txt.lockPlan guess enforced .none (lengthArg len) (.int o) (seekConst w) (.bool true) t).1 =
      .ok ⟨none, len.map Int.ofNat, match w with
        | .set => o
        | .cur => c.position + o
        | .fin => raw.data.length + o, true, enforced.isNone⟩ := by
  obtain ⟨Ok, L, d', hs⟩ := whole (nl := nl) hC hd
  obtain ⟨x, hx, _, hxd⟩ := run_always hg L before hb t₀ _ (h.stands L hs)
  rw [← ht] at hx
  obtain ⟨f, hread, hfd, hl⟩ := hx.reading
  have hti : t.telling = true := by
    cases hti : t.telling with
    | true => rfl
    | false => simp only [Txt.step, Txt.tell_iterating hread hti, Txt.Out.of] at hc; cases hc
  obtain ⟨res, t1, g1, g2, g3, g4, g5⟩ := Txt.tell_spec L hg hread hti
  have hres : res = .ok c ∧ Txt.Denotes nl Ok f.data c x.rest ∧ (t.decoder = none → Txt.Early C nl f.data c) := by
    simp only [Txt.step, g1] at hc
    rcases g5 with ⟨c', rfl, q1, q2⟩ | ⟨_, rfl⟩
    · cases hc; exact ⟨rfl, q1, q2⟩
    · cases hc
  obtain ⟨rfl, q1, q2⟩ := hres
  obtain ⟨t2, f2, k1, k2, k3, k4, k5, k6, k7⟩ := Txt.seekTo_spec L g2 q1 (fun hn => q2 (g4 ▸ hn))
  have hseek : Txt.seek guess .here t = (.ok c, t2) := by
    unfold Txt.seek
    rw [PyM.bind_ok hread.holds.checkClosed, hread.holds.seekable]
    simp only [Bool.not_true, Bool.false_eq_true, if_false]
    rw [PyM.bind_ok g1, k1]
  have hreset : Txt.resetBuffers guess t = (.ok (), t2) := by unfold Txt.resetBuffers; rw [PyM.bind_ok hseek]; rfl
  unfold Txt.lockPlan
  rw [PyM.bind_ok hreset]
  obtain ⟨hR, _, kw⟩ := k2.holds.buf
  obtain ⟨b', m1, m2, m3, m4, m5⟩ := Buf.resetBuffers_R hR
  have hpos := m2.pos' m3
  have hdata := m2.data' m3
  have hex : b'.extra = 0 := by simp [Buf.extra, m4]
  have hbl := m2.live
  have hplan : Buf.lockPlan enforced .none (lengthArg len) (.int o) (seekConst w) (.bool true) t2.buf =
      (lockArgs (b'.raw.lockView enforced) .none (lengthArg len) (.int o) (seekConst w) (.bool true), b') := by
    unfold Buf.lockPlan
    rw [PyM.bind_ok m1]
    rfl
  rw [Txt.onBuf_eq hplan]
  dsimp only
  rw [lockArgs_eq enforced hbl.opened hbl.seekable, if_neg (by simp [hbl.readable (by rw [m5]; exact kw)]), absOffset_eq]
  congr 2
  cases w
  · rfl
  · obtain ⟨p1, _⟩ := k7 (hskip rfl)
    change (b'.raw.pos : Int) + o = c.position + o
    rw [hpos, hex, ← p1]; rfl
  · change (b'.raw.data.length : Int) + o = raw.data.length + o
    rw [hdata]
    change (f2.data.length : Int) + o = _
    rw [k3, hfd, hxd]
    rfl

-- three of six characters were read, all six bytes were decoded; the position is an ordinary one
example : TextOpened .auto { rawOf [97, 10, 98, 99, 10, 100] [] with writable := false } (textStream latin1 .auto 8 [97, 10, 98, 99, 10, 100] []) ∧
    (((textStream latin1 .auto 8 [97, 10, 98, 99, 10, 100] []).run quotient [.read (some 3)]).2.step quotient .tell).1 =
      .cookie ⟨3, 0, 0, false, 0⟩ ∧
    ((Txt.lockPlan quotient none .none (.int 1) (.int 2) (.int 1) (.bool true)
      ((textStream latin1 .auto 8 [97, 10, 98, 99, 10, 100] []).run quotient [.read (some 3)]).2).1.toOption.map LockPlan.start) =
        some 5 := by
  refine ⟨textStream_opened latin1 .auto 8 (by decide) _ [] blocking_nil, by decide +kernel, by decide +kernel⟩

/-- C112 is false of text streams in general.  The first `n` bytes are the `n` characters that were read, so that the
position is `n`; but when the last of them is a carriage return, one more byte has been given to the decoder, and the lock
starts behind it. -/
theorem C112_text_refuted : ¬ ∀ (raw : Raw) (t : Txt latin1), TextOpened .auto raw t → ∀ n : Nat,
    (t.run quotient [.read (some n)]).1 = [.text (universalText ((raw.data.take n).map UInt8.toNat))] → n ≤ raw.data.length →
    ((Txt.lockPlan quotient none .none (.int 1) (.int 0) (.int 1) (.bool true) (t.run quotient [.read (some n)]).2).1.toOption.map
      LockPlan.start) = some (n : Int) := by
  intro h
  have := h _ _ (textStream_opened latin1 .auto 8 (by decide) [97, 13, 98] [] blocking_nil) 2 (by decide +kernel) (by decide)
  revert this
  decide +kernel

end Verif.Props
