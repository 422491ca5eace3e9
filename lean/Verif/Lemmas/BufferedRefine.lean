import Verif.Lemmas.Buffered

/-!
# Each call on a buffered stream refines the call on a byte array with a position
-/

namespace Verif.Buf

open Verif.Spec

/-- The stream is usable and its file behaves like a regular one. -/
structure Live (b : Buf) : Prop where
  opened : b.raw.closed = false
  unix : b.raw.platform = .unix
  noAppend : b.raw.append = false
  seekable : b.raw.seekable = true
  readable : b.kind ≠ .writer → b.raw.readable = true
  writable : b.kind ≠ .reader → b.raw.writable = true
  blocking : Blocking b.raw.sched
  bufferSize : 0 < b.bufferSize

/-- The number of bytes read ahead. -/
def extra (b : Buf) : Nat := b.readBuf.length - b.readPos

/-- The stream represents the file `f`. -/
structure R (b : Buf) (f : File) : Prop where
  live : Live b
  inside : b.readPos ≤ b.readBuf.length
  unread : b.readBuf.drop b.readPos = f.rest.take b.extra
  excl : b.readBuf = [] ∨ b.writeBuf = []
  reader : b.kind = .reader → b.writeBuf = []
  writer : b.kind = .writer → b.readBuf = []
  data : f.data = writeAt (fun _ => 0) b.raw.data b.raw.pos b.writeBuf
  pos : f.pos + b.extra = b.raw.pos + b.writeBuf.length
  ahead : f.ahead = false → b.readBuf = []
  log : f.log = b.raw.events

theorem Live.frame {b b' : Buf} (h : Live b) (hk : b'.kind = b.kind) (hs : b'.bufferSize = b.bufferSize)
    (hf : Raw.Frame b.raw b'.raw) (hb : Blocking b'.raw.sched) : Live b' :=
  ⟨hf.closed.trans h.opened, hf.platform.trans h.unix, hf.append.trans h.noAppend, hf.seekable.trans h.seekable,
    fun hw => hf.readable.trans (h.readable (hk ▸ hw)), fun hw => hf.writable.trans (h.writable (hk ▸ hw)), hb, hs ▸ h.bufferSize⟩

theorem Live.fill {b : Buf} (h : Live b) : b.raw.fill = fun _ => 0 := by
  funext i; simp [Raw.fill, h.unix]

theorem R.data' {b : Buf} {f : File} (h : R b f) (hw : b.writeBuf = []) : b.raw.data = f.data := by
  rw [h.data, hw, writeAt_nil]

theorem R.pos' {b : Buf} {f : File} (h : R b f) (hw : b.writeBuf = []) : b.raw.pos = f.pos + b.extra := by
  have := h.pos
  rw [hw] at this
  simpa using this.symm

theorem R.extra_le {b : Buf} {f : File} (h : R b f) : b.extra ≤ f.rest.length := by
  have := congrArg List.length h.unread
  rw [List.length_drop, List.length_take] at this
  unfold extra at *
  omega

theorem R.mono {b : Buf} {f : File} (h : R b f) : R b { f with ahead := true } :=
  ⟨h.live, h.inside, h.unread, h.excl, h.reader, h.writer, h.data, h.pos, nofun, h.log⟩

/-- `flush()` leaves the represented file unchanged and nothing pending. -/
theorem flush_R {b : Buf} {f : File} (h : R b f) :
    ∃ b', flush b = (.ok (), b') ∧ R b' f ∧ b'.writeBuf = [] ∧ b'.kind = b.kind ∧ b'.readBuf = b.readBuf ∧
      b'.readPos = b.readPos := by
  have hl := h.live
  unfold flush
  by_cases hk : b.kind = .reader
  · rw [hk]
    dsimp only
    rw [PyM.bind_ok (checkClosed_ok hl.opened)]
    have hr : Raw.flush b.raw = (.ok (), b.raw) := Raw.checkClosed_ok hl.opened
    exact ⟨b, onRaw_eq hr, h, h.reader hk, hk, rfl, rfl⟩
  · obtain ⟨r, b', j, h1, h2⟩ := flushUnlocked_spec hl.opened (hl.writable hk) hl.unix
    obtain ⟨hr, hb⟩ := h2.blocking hl.blocking
    subst hr
    have hj : j = b.writeBuf.length := by
      rcases h2.result with ⟨_, h⟩ | h | ⟨e, h, _⟩
      · exact h
      · cases h
      · cases h
    have hleft : b'.writeBuf = [] := by rw [h2.left, hj]; simp
    refine ⟨b', ?_, ?_, hleft, h2.frame.kind, h2.frame.readBuf, h2.frame.readPos⟩
    · split
      · rename_i hr; exact absurd hr hk
      · exact h1
    · have hex : b'.extra = b.extra := by unfold extra; rw [h2.frame.readBuf, h2.frame.readPos]
      refine ⟨hl.frame h2.frame.kind h2.frame.bufferSize h2.frame.raw hb, ?_, ?_, Or.inr hleft, fun _ => hleft, ?_, ?_, ?_,
        ?_, ?_⟩
      · rw [h2.frame.readBuf, h2.frame.readPos]; exact h.inside
      · rw [h2.frame.readBuf, h2.frame.readPos, hex]; exact h.unread
      · rw [h2.frame.kind, h2.frame.readBuf]; exact h.writer
      · rw [hleft, writeAt_nil, h2.data, hl.fill, hj, List.take_length, h.data]
        simp [Raw.dest, hl.noAppend]
      · rw [hleft, hex, h.pos, h2.pos hl.noAppend, hj]; simp
      · rw [h2.frame.readBuf]; exact h.ahead
      · rw [h2.frame.events]; exact h.log

/-! ## Reading -/

/-- The loop that fills the buffer. -/
theorem fillLoop_spec {f : File} (wanted n : Nat) (hw : 0 < wanted) (fuel : Nat) : ∀ (b : Buf) (out : Bytes), Live b →
    b.kind ≠ .writer → b.raw.data = f.data → out = f.rest.take out.length → b.raw.pos = f.pos + out.length →
    n - out.length ≤ fuel →
    ∃ out' b', fillLoop wanted n fuel out b = (.ok (out', some []), b') ∧ Live b' ∧ b'.kind = b.kind ∧
      b'.raw.data = f.data ∧ out' = f.rest.take out'.length ∧ b'.raw.pos = f.pos + out'.length ∧
      (n ≤ out'.length ∨ out' = f.rest) ∧ b'.raw.events = b.raw.events ∧ b'.writeBuf = b.writeBuf := by
  induction fuel with
  | zero =>
    intro b out hl hk hd ho hp hf
    exact ⟨out, b, rfl, hl, rfl, hd, ho, hp, Or.inl (by omega), rfl, rfl⟩
  | succ fuel ih =>
    intro b out hl hk hd ho hp hf
    unfold fillLoop
    by_cases hlt : out.length < n
    · rw [if_pos hlt]
      obtain ⟨k, s', h1, hk1, hk2, hd', hp', hb', hfr, hev, _⟩ :=
        Raw.read_blocking (n := wanted) hl.opened (hl.readable hk) hl.blocking hw
      rw [PyM.bind_ok (onRaw_eq h1)]
      have hdrop : b.raw.data.drop b.raw.pos = f.rest.drop out.length := by
        rw [hd, hp]; unfold File.rest; rw [List.drop_drop]
      rw [hdrop] at hp' ⊢
      have hl' : Live { b with raw := s' } := hl.frame rfl rfl hfr hb'
      cases hgot : (f.rest.drop out.length).take k with
      | nil =>
        dsimp only
        have hle : f.rest.length ≤ out.length := by
          rcases List.take_eq_nil_iff.1 hgot with h0 | h0
          · omega
          · exact List.drop_eq_nil_iff.1 h0
        refine ⟨out, { b with raw := s' }, rfl, hl', rfl, hd'.trans hd, ho, ?_, Or.inr ?_, hev, rfl⟩
        · dsimp only; rw [hp', hgot, hp]; rfl
        · rw [ho]; exact List.take_of_length_le hle
      | cons c cs =>
        dsimp only
        have hlen : (c :: cs).length = cs.length + 1 := rfl
        have hout : out ++ (c :: cs) = f.rest.take (out ++ (c :: cs)).length := by
          rw [List.length_append, List.take_add, ← ho]
          congr 1
          have : (c :: cs).length = min k (f.rest.length - out.length) := by
            rw [← hgot, List.length_take, List.length_drop]
          rw [this, ← hgot]
          by_cases hle : k ≤ f.rest.length - out.length
          · rw [Nat.min_eq_left hle]
          · rw [Nat.min_eq_right (by omega), List.take_of_length_le (by simp; omega), List.take_of_length_le (by simp)]
        obtain ⟨out', b', e1, e2, e3, e4, e5, e6, e7, e8, e9⟩ := ih { b with raw := s' } (out ++ (c :: cs)) hl' hk
          (hd'.trans hd) hout (by dsimp only; rw [hp', hgot, hp, List.length_append]; omega)
          (by rw [List.length_append]; omega)
        exact ⟨out', b', e1, e2, e3, e4, e5, e6, e7, e8.trans hev, e9⟩
    · rw [if_neg hlt]
      exact ⟨out, b, rfl, hl, rfl, hd, ho, hp, Or.inl (by omega), rfl, rfl⟩

theorem rest_move (f : File) (n : Nat) (a : Bool) : (File.rest { f with pos := f.pos + n, ahead := a }) = f.rest.drop n := by
  simp [File.rest, List.drop_drop]

/-- `_read_unlocked(n)`. -/
theorem readSome_R {b : Buf} {f : File} (h : R b f) (hw : b.writeBuf = []) (hk : b.kind ≠ .writer) (n : Nat) :
    ∃ b', readSome n b = (.ok (some (f.rest.take n)), b') ∧
      R b' { f with pos := f.pos + (f.rest.take n).length, ahead := true } ∧ b'.writeBuf = [] ∧ b'.kind = b.kind := by
  have hl := h.live
  have hle := h.extra_le
  have hin := h.inside
  unfold readSome
  by_cases hfast : n ≤ b.readBuf.length - b.readPos
  · rw [if_pos hfast]
    have hn : n ≤ b.extra := hfast
    have htk : (b.readBuf.drop b.readPos).take n = f.rest.take n := by
      rw [h.unread, List.take_take, Nat.min_eq_left hn]
    have hlen : (f.rest.take n).length = n := by rw [List.length_take]; omega
    rw [htk, hlen]
    refine ⟨_, rfl, ⟨⟨hl.1, hl.2, hl.3, hl.4, hl.5, hl.6, hl.7, hl.8⟩, ?_, ?_, Or.inr hw, fun _ => hw, h.writer,
      h.data, ?_, nofun, h.log⟩, hw, rfl⟩
    · dsimp only; omega
    · have hex : extra { b with readPos := b.readPos + n } = b.extra - n := by unfold extra; dsimp only; omega
      rw [hex, rest_move]
      dsimp only
      rw [← List.drop_drop, h.unread, List.drop_take]
    · have hex : extra { b with readPos := b.readPos + n } = b.extra - n := by unfold extra; dsimp only; omega
      rw [hex]
      have := h.pos
      dsimp only
      omega
  · rw [if_neg hfast]
    have hun : b.readBuf.drop b.readPos = f.rest.take (b.readBuf.drop b.readPos).length := by
      rw [List.length_drop]; exact h.unread
    obtain ⟨out, b', e1, e2, e3, e4, e5, e6, e7, e8, e9⟩ := fillLoop_spec (f := f) (max b.bufferSize n) n
      (by have := hl.bufferSize; omega) n b (b.readBuf.drop b.readPos) hl hk (h.data' hw) hun
      (by rw [List.length_drop]; exact h.pos' hw) (by omega)
    rw [PyM.bind_ok e1]
    have hlen : (f.rest.take n).length = min n out.length := by
      rw [List.length_take]
      have : out.length ≤ f.rest.length := by
        have := congrArg List.length e5
        rw [List.length_take] at this
        omega
      rcases e7 with e7 | e7
      · omega
      · rw [← e7]
    have hres : (if out = [] then some [] else some (out.take (min n out.length))) = some (f.rest.take n) := by
      have : out.take (min n out.length) = f.rest.take n := by
        rcases e7 with e7 | e7
        · rw [Nat.min_eq_left e7]
          conv => lhs; rw [e5, List.take_take, Nat.min_eq_left e7]
        · rw [e7]
          by_cases hc : n ≤ f.rest.length
          · rw [Nat.min_eq_left hc]
          · rw [Nat.min_eq_right (by omega), List.take_of_length_le (by omega), List.take_of_length_le (by omega)]
      split
      · rename_i h0
        rw [← this, h0]; simp
      · rw [this]
    unfold keepExtra
    refine ⟨{ b' with readBuf := out.drop (min n out.length), readPos := 0 }, ?_, ?_, e9.trans hw, e3⟩
    · rw [PyM.bind_ok (PyM.modify_apply _ _)]
      dsimp only
      rw [hres]; rfl
    · have hex : extra { b' with readBuf := out.drop (min n out.length), readPos := 0 } = out.length - min n out.length := by
        simp [extra]
      have hw' : b'.writeBuf = [] := e9.trans hw
      refine ⟨⟨e2.1, e2.2, e2.3, e2.4, e2.5, e2.6, e2.7, e2.8⟩, by simp, ?_, Or.inr hw', fun _ => hw', ?_, ?_, ?_, nofun, ?_⟩
      · rw [hex, rest_move, hlen]
        dsimp only
        have hdt : ∀ m, out.drop m = (f.rest.drop m).take (out.length - m) := by
          intro m
          conv => lhs; rw [e5, List.drop_take]
        rw [List.drop_zero, hdt]
      · intro hkw; exact absurd (e3.symm.trans hkw) hk
      · dsimp only
        rw [hw', writeAt_nil, e4]
      · rw [hex]
        dsimp only
        rw [e6, hw', hlen]
        simp; omega
      · exact h.log.trans e8.symm

/-- `_read_unlocked()` without a size. -/
theorem readRest_R {b : Buf} {f : File} (h : R b f) (hw : b.writeBuf = []) (hk : b.kind ≠ .writer) :
    ∃ b', readRest b = (.ok (some f.rest), b') ∧ R b' { f with pos := f.pos + f.rest.length, ahead := true } := by
  have hl := h.live
  have hle := h.extra_le
  unfold readRest
  have hreset : resetReadBuf b = (.ok (), { b with readBuf := [], readPos := 0 }) := rfl
  rw [PyM.bind_ok hreset]
  obtain ⟨s', h1, h2, h3, h4, h5, h6⟩ := Raw.readall_blocking (s := b.raw) hl.opened (hl.readable hk) hl.blocking
  have hraw : onRaw Raw.readall { b with readBuf := [], readPos := 0 } =
      (.ok (some (b.raw.data.drop b.raw.pos)), { b with raw := s', readBuf := [], readPos := 0 }) :=
    onRaw_eq (b := { b with readBuf := [], readPos := 0 }) h1
  rw [PyM.bind_ok hraw]
  have hdrop : b.raw.data.drop b.raw.pos = f.rest.drop b.extra := by
    rw [h.data' hw, h.pos' hw]; unfold File.rest; rw [List.drop_drop]
  refine ⟨{ b with raw := s', readBuf := [], readPos := 0 }, ?_, ⟨hl.frame rfl rfl h5 h4, by simp, by simp [extra], Or.inl rfl,
    h.reader, fun _ => rfl, ?_, ?_, nofun, ?_⟩⟩
  · dsimp only
    rw [h.unread, hdrop, List.take_append_drop]; rfl
  · dsimp only
    rw [h2, hw, writeAt_nil, h.data' hw]
  · dsimp only
    rw [h3, hdrop, h.pos' hw, hw]
    simp only [extra, List.length_drop, List.length_nil]
    unfold extra at hle
    omega
  · exact h.log.trans h6.symm

/-- `BufferedReader.read` against the reference. -/
theorem readerRead_R {b : Buf} {f : File} (h : R b f) (hw : b.writeBuf = []) (hk : b.kind ≠ .writer) (n : Option Int) :
    ∃ f', Allowed b.kind f (.read n) (.ofOption (readerRead n b).1) f' ∧ R (readerRead n b).2 f' := by
  cases n with
  | none =>
    obtain ⟨b', h1, h2⟩ := readRest_R h hw hk
    simp only [readerRead, h1, Allowed, hk, if_false]
    exact ⟨_, ⟨rfl, rfl⟩, h2⟩
  | some z =>
    simp only [readerRead, Allowed, hk, if_false, PyM.ite_apply]
    by_cases h1 : z < -1
    · simp only [h1, if_true, PyM.raise_apply]
      exact ⟨f, ⟨rfl, rfl⟩, h⟩
    · by_cases h2 : z = -1
      · obtain ⟨b', e1, e2⟩ := readRest_R h hw hk
        simp only [h2, if_true, e1]
        refine ⟨_, ⟨rfl, rfl⟩, e2⟩
      · obtain ⟨b', e1, e2, _⟩ := readSome_R h hw hk z.toNat
        simp only [h1, h2, if_false, e1]
        exact ⟨_, ⟨rfl, rfl⟩, e2⟩

theorem read_R {b : Buf} {f : File} (h : R b f) (n : Option Int) :
    ∃ f', Allowed b.kind f (.read n) (.ofOption (read n b).1) f' ∧ R (read n b).2 f' := by
  cases hk : b.kind with
  | writer =>
    have : read n b = (.error .unsupported, b) := by unfold read; rw [hk]
    rw [this]
    exact ⟨f, by simp [Allowed, StreamOut.ofOption], h⟩
  | reader =>
    have : read n b = readerRead n b := by unfold read; rw [hk]
    rw [this, ← hk]
    exact readerRead_R h (h.reader hk) (by rw [hk]; nofun) n
  | random =>
    obtain ⟨b', h1, h2, h3, h4, _⟩ := flush_R h
    have : read n b = readerRead (some (n.getD (-1))) b' := by
      unfold read; rw [hk]; dsimp only; rw [PyM.bind_ok h1]
    rw [this, ← hk, ← h4]
    have hkw : b'.kind ≠ .writer := by rw [h4, hk]; nofun
    cases n with
    | none =>
      have := readerRead_R h2 h3 hkw none
      have e : readerRead (some ((none : Option Int).getD (-1))) = readerRead none := by
        funext x; simp [readerRead]
      rw [e]; exact this
    | some z => exact readerRead_R h2 h3 hkw (some z)

theorem refill_R {b : Buf} {f : File} (h : R b f) (hw : b.writeBuf = []) (hk : b.kind ≠ .writer) (m : Nat) (hm : 0 < m) :
    ∃ b', refill (m : Int) b = (.ok (), b') ∧ R b' { f with ahead := true } ∧ b'.writeBuf = [] ∧ b'.kind = b.kind ∧
      (b'.readBuf.drop b'.readPos = [] → f.rest = []) ∧
      (b.raw.sched = [] → b'.raw.sched = [] ∧ b'.extra = min (b.extra + m) f.rest.length) := by
  have hl := h.live
  have hle := h.extra_le
  unfold refill
  obtain ⟨k, s', h1, hk1, hk2, hd, hp, hb, hfr, hev, hfull⟩ :=
    Raw.read_blocking (s := b.raw) (n := m) hl.opened (hl.readable hk) hl.blocking hm
  rw [PyM.bind_ok (onRaw_eq h1)]
  have hdrop : b.raw.data.drop b.raw.pos = f.rest.drop b.extra := by
    rw [h.data' hw, h.pos' hw]; unfold File.rest; rw [List.drop_drop]
  rw [hdrop] at hp ⊢
  have hl' : Live { b with raw := s' } := hl.frame rfl rfl hfr hb
  cases hgot : (f.rest.drop b.extra).take k with
  | nil =>
    have hnil : f.rest.drop b.extra = [] := by
      rcases List.take_eq_nil_iff.1 hgot with h0 | h0
      · omega
      · exact h0
    refine ⟨{ b with raw := s' }, rfl, ⟨hl', h.inside, h.unread, Or.inr hw, h.reader, h.writer, ?_, ?_, nofun, ?_⟩, hw, rfl,
      ?_, ?_⟩
    · dsimp only; rw [hw, writeAt_nil, hd, h.data' hw]
    · dsimp only; rw [hp, hgot]; exact h.pos
    · exact h.log.trans hev.symm
    · intro h0
      have h0' : b.readBuf.drop b.readPos = [] := h0
      rw [h.unread] at h0'
      have := List.drop_eq_nil_iff.1 hnil
      rcases List.take_eq_nil_iff.1 h0' with h1 | h1
      · rw [h1] at this
        exact List.length_eq_zero_iff.1 (by omega)
      · exact h1
    · intro h0
      refine ⟨(hfull h0).2, ?_⟩
      change b.extra = _
      have := List.drop_eq_nil_iff.1 hnil
      omega
  | cons c cs =>
    have hlen : (c :: cs).length = min k (f.rest.length - b.extra) := by
      rw [← hgot, List.length_take, List.length_drop]
    have hcat : b.readBuf.drop b.readPos ++ (c :: cs) = f.rest.take (b.extra + (c :: cs).length) := by
      rw [List.take_add, h.unread]
      congr 1
      rw [hlen, ← hgot]
      by_cases hle : k ≤ f.rest.length - b.extra
      · rw [Nat.min_eq_left hle]
      · rw [Nat.min_eq_right (by omega), List.take_of_length_le (by simp; omega), List.take_of_length_le (by simp)]
    have hex : extra { b with raw := s', readBuf := b.readBuf.drop b.readPos ++ (c :: cs), readPos := 0 } =
        b.extra + (c :: cs).length := by
      simp only [extra, List.length_append, List.length_drop]; omega
    refine ⟨{ b with raw := s', readBuf := b.readBuf.drop b.readPos ++ (c :: cs), readPos := 0 }, rfl,
      ⟨⟨hl'.1, hl'.2, hl'.3, hl'.4, hl'.5, hl'.6, hl'.7, hl'.8⟩, by simp, ?_, Or.inr hw, h.reader,
        fun hkw => absurd hkw hk, ?_, ?_, nofun, ?_⟩, hw, rfl, ?_, ?_⟩
    · rw [hex]; dsimp only; rw [List.drop_zero]; exact hcat
    · dsimp only; rw [hw, writeAt_nil, hd, h.data' hw]
    · rw [hex]; dsimp only; rw [hp, hgot, hw, h.pos' hw]; simp only [List.length_nil]; omega
    · exact h.log.trans hev.symm
    · intro h0
      simp at h0
    · intro h0
      refine ⟨(hfull h0).2, ?_⟩
      rw [hex, hlen, (hfull h0).1]
      omega

theorem peekUnlocked_R {b : Buf} {f : File} (h : R b f) (hw : b.writeBuf = []) (hk : b.kind ≠ .writer) (n : Int) :
    ∃ b', peekUnlocked n b = (.ok (b'.readBuf.drop b'.readPos), b') ∧ R b' { f with ahead := true } ∧ b'.writeBuf = [] ∧
      b'.kind = b.kind ∧ b'.readBuf.drop b'.readPos <+: f.rest ∧ (b'.readBuf.drop b'.readPos = [] → f.rest = []) ∧
      (b.raw.sched = [] → b.extra = 0 → b'.raw.sched = [] ∧ b'.extra = min b.bufferSize f.rest.length) := by
  have hl := h.live
  have hin := h.inside
  have hbs := hl.bufferSize
  unfold peekUnlocked
  dsimp only
  have fin : ∀ b' : Buf, R b' { f with ahead := true } → b'.readBuf.drop b'.readPos <+: f.rest := by
    intro b' hb'
    rw [hb'.unread]
    exact List.take_prefix _ _
  by_cases hc : (b.readBuf.length : Int) - b.readPos < min n b.bufferSize ∨ (b.readBuf.length : Int) - b.readPos ≤ 0
  · obtain ⟨b', e1, e2, e3, e4, e5, e6⟩ := refill_R h hw hk (b.bufferSize - b.extra) (by unfold extra; omega)
    have hcast : ((b.bufferSize - b.extra : Nat) : Int) = b.bufferSize - ((b.readBuf.length : Int) - b.readPos) := by
      unfold extra; omega
    rw [hcast] at e1
    have hwhen : PyM.when (decide ((b.readBuf.length : Int) - b.readPos < min n b.bufferSize ∨
        (b.readBuf.length : Int) - b.readPos ≤ 0))
        (refill (b.bufferSize - ((b.readBuf.length : Int) - b.readPos))) b = (.ok (), b') := by
      unfold PyM.when
      rw [if_pos (decide_eq_true hc), e1]
    rw [PyM.bind_ok hwhen, PyM.bind_ok (PyM.get_apply b')]
    exact ⟨b', rfl, e2, e3, e4, fin b' e2, e5, fun h0 h1 => ⟨(e6 h0).1, by rw [(e6 h0).2, h1]; omega⟩⟩
  · have hwhen : PyM.when (decide ((b.readBuf.length : Int) - b.readPos < min n b.bufferSize ∨
        (b.readBuf.length : Int) - b.readPos ≤ 0))
        (refill (b.bufferSize - ((b.readBuf.length : Int) - b.readPos))) b = (.ok (), b) := by
      unfold PyM.when
      rw [if_neg (by simpa using hc)]
    rw [PyM.bind_ok hwhen, PyM.bind_ok (PyM.get_apply b)]
    refine ⟨b, rfl, h.mono, hw, rfl, fin b h.mono, ?_, ?_⟩
    · intro h0
      have := congrArg List.length h0
      rw [List.length_drop, List.length_nil] at this
      omega
    · intro _ h1
      unfold extra at h1
      omega

theorem peek_R {b : Buf} {f : File} (h : R b f) (hk : b.kind ≠ .writer) (n : Int) :
    ∃ b', peek n b = (.ok (b'.readBuf.drop b'.readPos), b') ∧ R b' { f with ahead := true } ∧ b'.writeBuf = [] ∧
      b'.kind = b.kind ∧ b'.readBuf.drop b'.readPos <+: f.rest ∧ (b'.readBuf.drop b'.readPos = [] → f.rest = []) := by
  have hl := h.live
  cases hkk : b.kind with
  | writer => exact absurd hkk hk
  | reader =>
    have e : peek n b = peekUnlocked n b := by
      unfold peek; rw [hkk]; dsimp only; rw [PyM.bind_ok (checkClosed_ok hl.opened)]
    rw [e, ← hkk]
    obtain ⟨b', e1, e2, e3, e4, e5, e6, _⟩ := peekUnlocked_R h (h.reader hkk) hk n
    exact ⟨b', e1, e2, e3, e4, e5, e6⟩
  | random =>
    obtain ⟨b', h1, h2, h3, h4, _⟩ := flush_R h
    have e : peek n b = peekUnlocked n b' := by
      unfold peek; rw [hkk]; dsimp only
      rw [PyM.bind_ok h1, PyM.bind_ok (checkClosed_ok h2.live.opened)]
    rw [e, ← hkk, ← h4]
    obtain ⟨b', e1, e2, e3, e4, e5, e6, _⟩ := peekUnlocked_R h2 h3 (by rw [h4]; exact hk) n
    exact ⟨b', e1, e2, e3, e4, e5, e6⟩

theorem readerRead1_R {b : Buf} {f : File} (h : R b f) (hw : b.writeBuf = []) (hk : b.kind ≠ .writer) (n : Int) :
    ∃ f', Allowed b.kind f (.read1 n) (.ofOption (readerRead1 n b).1) f' ∧ R (readerRead1 n b).2 f' := by
  have hl := h.live
  unfold readerRead1
  rw [PyM.bind_ok (checkClosed_ok hl.opened)]
  simp only [Allowed, hk, if_false, PyM.ite_apply]
  by_cases h0 : n = 0
  · simp only [h0, if_true]
    exact ⟨f, ⟨rfl, rfl⟩, h⟩
  · simp only [h0, if_false]
    generalize hsz : (if n < 0 then (b.bufferSize : Int) else n) = size
    have hpos : 0 < size := by
      rw [← hsz]
      have := hl.bufferSize
      split <;> omega
    obtain ⟨b', e1, e2, e3, e4, e5, e6, _⟩ := peekUnlocked_R h hw hk 1
    obtain ⟨b'', e7, e8, _⟩ := readSome_R e2 e3 (by rw [e4]; exact hk) (min size ((b'.readBuf.length : Int) - b'.readPos)).toNat
    have heq : read1Unlocked size b = readSome (min size ((b'.readBuf.length : Int) - b'.readPos)).toNat b' := by
      unfold read1Unlocked
      rw [PyM.bind_ok e1, PyM.bind_ok (PyM.get_apply b')]
    rw [heq, e7]
    refine ⟨_, ⟨f.rest.take (min size ((b'.readBuf.length : Int) - b'.readPos)).toNat, List.take_prefix _ _, ?_, ?_, rfl,
      rfl⟩, e8⟩
    · intro hnil
      rcases List.take_eq_nil_iff.1 hnil with h1 | h1
      · apply e6
        apply List.drop_eq_nil_of_le
        have := e2.inside
        omega
      · exact h1
    · intro hn
      rw [List.length_take]
      have : size = n := by rw [← hsz, if_neg (by omega)]
      have := e2.inside
      omega

theorem read1_R {b : Buf} {f : File} (h : R b f) (n : Int) :
    ∃ f', Allowed b.kind f (.read1 n) (.ofOption (read1 n b).1) f' ∧ R (read1 n b).2 f' := by
  cases hk : b.kind with
  | writer =>
    have : read1 n b = (.error .unsupported, b) := by unfold read1; rw [hk]
    rw [this]
    exact ⟨f, by simp [Allowed, StreamOut.ofOption], h⟩
  | reader =>
    have : read1 n b = readerRead1 n b := by unfold read1; rw [hk]
    rw [this, ← hk]
    exact readerRead1_R h (h.reader hk) (by rw [hk]; nofun) n
  | random =>
    obtain ⟨b', h1, h2, h3, h4, _⟩ := flush_R h
    have : read1 n b = readerRead1 n b' := by
      unfold read1; rw [hk]; dsimp only; rw [PyM.bind_ok h1]
    rw [this, ← hk, ← h4]
    exact readerRead1_R h2 h3 (by rw [h4, hk]; nofun) n

/-! ## readline -/

theorem lineLength_le (l : Bytes) : lineLength l ≤ l.length := by
  induction l with
  | nil => simp [lineLength]
  | cons c cs ih => simp only [lineLength, List.length_cons]; split <;> omega

theorem lineLength_pos {l : Bytes} (h : l ≠ []) : 0 < lineLength l := by
  cases l with
  | nil => contradiction
  | cons c cs => simp only [lineLength]; split <;> omega

theorem lineLength_take (l : Bytes) (n : Nat) (hn : n ≤ lineLength l) : (10 : Byte) ∉ (l.take n).dropLast := by
  induction l generalizing n with
  | nil => simp
  | cons c cs ih =>
    cases n with
    | zero => simp
    | succ n =>
      simp only [lineLength] at hn
      rw [List.take_succ_cons]
      split at hn
      · have : n = 0 := by omega
        subst this; simp
      · rename_i hc
        have ih' := ih n (by omega)
        cases ht : cs.take n with
        | nil => simp
        | cons d ds =>
          rw [ht] at ih'
          rw [List.dropLast_cons_of_ne_nil (by simp)]
          simp only [List.mem_cons, not_or]
          exact ⟨fun e => hc e.symm, ih'⟩

theorem getLast?_append_ne_nil (l : Bytes) {m : Bytes} (h : m ≠ []) : (l ++ m).getLast? = m.getLast? := by
  rw [List.getLast?_append, List.getLast?_eq_some_getLast h]
  rfl

theorem readlineLoop_R (size : Int) (fuel : Nat) : ∀ (b : Buf) (f : File) (res : Bytes), R b f → b.kind ≠ .writer →
    f.rest.length < fuel → (10 : Byte) ∉ res →
    (size < 0 ∨ (res.length : Int) < size ∨ size ≤ res.length) →
    ∃ line b', readlineLoop size fuel res b = (.ok (res ++ line), b') ∧ line <+: f.rest ∧ (10 : Byte) ∉ line.dropLast ∧
      (line.getLast? = some 10 ∨ line = f.rest ∨ (0 ≤ size ∧ size ≤ (res ++ line).length)) ∧
      (0 < size → (res.length : Int) < 2 * size → ((res ++ line).length : Int) < 2 * size) ∧
      R b' { f with pos := f.pos + line.length, ahead := true } := by
  induction fuel with
  | zero => intro _ _ _ _ _ h; omega
  | succ fuel ih =>
    intro b f res h hk hf hno _
    unfold readlineLoop
    by_cases hc : size < 0 ∨ (res.length : Int) < size
    · rw [if_pos hc]
      obtain ⟨b1, e1, e2, e3, e4, e5, e6⟩ := peek_R h hk 1
      have hk1 : b1.kind ≠ .writer := by rw [e4]; exact hk
      generalize hah : b1.readBuf.drop b1.readPos = ah at e1 e5 e6
      -- the number of bytes asked for
      obtain ⟨n, hn, hn1, hnle, hnsz⟩ : ∃ n : Nat, nreadahead size b = (.ok (n : Int), b1) ∧ 1 ≤ n ∧
          (ah ≠ [] → n ≤ lineLength ah) ∧ (0 ≤ size → (n : Int) ≤ size) := by
        have hnr : nreadahead size b = (do
            let ahead ← peek 1
            pure (if ahead = [] then 1
              else if 0 ≤ size then min (lineLength ahead : Int) size else lineLength ahead) : PyM Buf Int) b := by
          unfold nreadahead
          cases hkk : b.kind with
          | writer => exact absurd hkk hk
          | _ => rfl
        rw [hnr, PyM.bind_ok e1]
        by_cases ha : ah = []
        · exact ⟨1, by simp [ha], Nat.le_refl _, fun hc => absurd ha hc, fun _ => by omega⟩
        · have hp := lineLength_pos ha
          by_cases hs : 0 ≤ size
          · refine ⟨min (lineLength ah) size.toNat, ?_, by omega, fun _ => by omega, fun _ => by omega⟩
            simp only [ha, hs, if_true, if_false, PyM.pure_apply]
            congr 2
            omega
          · refine ⟨lineLength ah, ?_, hp, fun _ => Nat.le_refl _, fun hc => absurd hc hs⟩
            simp only [ha, hs, if_false, PyM.pure_apply]
      rw [PyM.bind_ok hn]
      -- what is read
      obtain ⟨b2, e7, e8, e9⟩ : ∃ b2, read (some (n : Int)) b1 = (.ok (some (f.rest.take n)), b2) ∧
          R b2 { f with pos := f.pos + (f.rest.take n).length, ahead := true } ∧ b2.kind = b1.kind := by
        have hrd : readerRead (some (n : Int)) = readSome n := by
          funext x
          simp only [readerRead, PyM.ite_apply]
          rw [if_neg (by omega), if_neg (by omega), Int.toNat_natCast]
        cases hkk : b1.kind with
        | writer => exact absurd hkk hk1
        | reader =>
          obtain ⟨b2, g1, g2, _, g3⟩ := readSome_R e2 e3 hk1 n
          refine ⟨b2, ?_, g2, g3.trans hkk⟩
          unfold read; rw [hkk]; dsimp only; rw [hrd]; exact g1
        | random =>
          obtain ⟨b1', g1, g2, g3, g4, _⟩ := flush_R e2
          obtain ⟨b2, g5, g6, _, g7⟩ := readSome_R g2 g3 (by rw [g4]; exact hk1) n
          refine ⟨b2, ?_, g6, g7.trans (g4.trans hkk)⟩
          unfold read; rw [hkk]; dsimp only
          rw [PyM.bind_ok g1, Option.getD_some, hrd]; exact g5
      rw [PyM.bind_ok e7]
      cases hgot : f.rest.take n with
      | nil =>
        have hnil : f.rest = [] := by
          rcases List.take_eq_nil_iff.1 hgot with h0 | h0
          · omega
          · exact h0
        refine ⟨[], b2, by simp, List.nil_prefix, by simp, Or.inr (Or.inl hnil.symm), by simp, ?_⟩
        rw [hgot] at e8
        exact e8
      | cons c cs =>
        rw [hgot] at e8
        dsimp only
        have hah0 : ah ≠ [] := by
          intro h0
          have := e6 h0
          rw [this] at hgot; simp at hgot
        have hchunk : f.rest.take n = ah.take n := by
          obtain ⟨t, ht⟩ := e5
          have := lineLength_le ah
          have := hnle hah0
          rw [← ht, List.take_append_of_le_length (by omega)]
        have hclen : (c :: cs).length ≤ n := by rw [← hgot, List.length_take]; omega
        have hsingle : (10 : Byte) ∉ (c :: cs).dropLast := by
          rw [← hgot, hchunk]
          exact lineLength_take ah n (hnle hah0)
        have hpre : (c :: cs) <+: f.rest := by rw [← hgot]; exact List.take_prefix _ _
        by_cases hl : (res ++ (c :: cs)).getLast? = some 10
        · rw [if_pos hl]
          refine ⟨c :: cs, b2, rfl, hpre, hsingle, Or.inl ?_, fun h0 _ => by rw [List.length_append]; omega, e8⟩
          rw [getLast?_append_ne_nil _ (List.cons_ne_nil c cs)] at hl
          exact hl
        · rw [if_neg hl]
          have hno10 : (10 : Byte) ∉ (c :: cs) := by
            rw [getLast?_append_ne_nil _ (List.cons_ne_nil c cs)] at hl
            intro hmem
            rw [← List.dropLast_concat_getLast (List.cons_ne_nil c cs)] at hmem
            rcases List.mem_append.1 hmem with hm | hm
            · exact hsingle hm
            · apply hl
              rw [List.getLast?_eq_some_getLast (List.cons_ne_nil c cs)]
              simp only [List.mem_singleton] at hm
              rw [← hm]
          have hrest : File.rest { f with pos := f.pos + (c :: cs).length, ahead := true } = f.rest.drop (c :: cs).length :=
            rest_move f _ true
          have hlen1 : (c :: cs).length = cs.length + 1 := rfl
          obtain ⟨line, b3, g1, g2, g3, g4, g6, g5⟩ := ih b2 _ (res ++ (c :: cs)) e8 (by rw [e9]; exact hk1)
            (by
              rw [hrest, List.length_drop]
              have := List.length_take (i := n) (l := f.rest)
              rw [hgot] at this
              omega)
            (by simp only [List.mem_append, not_or]; exact ⟨hno, hno10⟩)
            (by omega)
          rw [hrest] at g2 g4
          have hcat : (c :: cs) ++ f.rest.drop (c :: cs).length = f.rest := by
            obtain ⟨t, ht⟩ := hpre
            conv => rhs; rw [← ht]
            rw [← ht, List.drop_left]
          refine ⟨(c :: cs) ++ line, b3, by rw [g1, List.append_assoc], ?_, ?_, ?_, ?_, ?_⟩
          · conv => rhs; rw [← hcat]
            exact (List.prefix_append_right_inj _).2 g2
          · intro hmem
            by_cases hl0 : line = []
            · rw [hl0, List.append_nil] at hmem
              exact hno10 (List.dropLast_subset _ hmem)
            · rw [List.dropLast_append_of_ne_nil hl0] at hmem
              rcases List.mem_append.1 hmem with hm | hm
              · exact hno10 hm
              · exact g3 hm
          · rcases g4 with g4 | g4 | g4
            · left
              rw [getLast?_append_ne_nil _ (fun h0 => by rw [h0] at g4; simp at g4)]
              exact g4
            · right; left
              rw [g4, hcat]
            · right; right
              rw [List.append_assoc] at g4; exact g4
          · intro h0 h1
            rw [← List.append_assoc]
            exact g6 h0 (by rw [List.length_append]; omega)
          · have : f.pos + ((c :: cs) ++ line).length = f.pos + (c :: cs).length + line.length := by
              rw [List.length_append]; omega
            rw [this]; exact g5
    · rw [if_neg hc]
      refine ⟨[], b, by simp, List.nil_prefix, by simp, Or.inr (Or.inr ⟨by omega, by simp; omega⟩),
        by simp, ?_⟩
      exact h.mono

theorem readline_R {b : Buf} {f : File} (h : R b f) (n : Int) :
    ∃ f', Allowed b.kind f (.readline n) (.ofBytes (readline n b).1) f' ∧ R (readline n b).2 f' := by
  unfold readline
  by_cases h0 : n = 0
  · have : readlineLoop n (b.raw.data.length + b.readBuf.length + 1) [] b = (.ok [], b) := by
      simp [readlineLoop, h0]
    rw [this]
    exact ⟨f, by simp [Allowed, h0, StreamOut.ofBytes], h⟩
  · by_cases hk : b.kind = .writer
    · have : readlineLoop n (b.raw.data.length + b.readBuf.length + 1) [] b = (.error .unsupported, b) := by
        unfold readlineLoop
        rw [if_pos (by simp; omega)]
        have h1 : nreadahead n b = (.ok 1, b) := by unfold nreadahead; rw [hk]
        rw [PyM.bind_ok h1]
        have h2 : read (some 1) b = (.error .unsupported, b) := by unfold read; rw [hk]
        exact PyM.bind_error h2
      rw [this]
      exact ⟨f, by simp [Allowed, h0, hk, StreamOut.ofBytes], h⟩
    · have hlen : f.rest.length < b.raw.data.length + b.readBuf.length + 1 := by
        unfold File.rest
        have hp := h.pos
        rw [List.length_drop, h.data]
        rcases h.excl with he | he
        · have : b.extra = 0 := by simp [extra, he]
          rw [length_writeAt]
          split <;> omega
        · rw [he, writeAt_nil]; omega
      obtain ⟨line, b', e1, e2, e3, e4, e6, e5⟩ := readlineLoop_R n _ b f [] h hk hlen (by simp) (by omega)
      rw [e1]
      simp only [List.nil_append, Allowed, h0, hk, if_false] at *
      exact ⟨_, ⟨line, ⟨e2, e3, e4, fun h0 => e6 h0 (by simp; omega)⟩, rfl, rfl⟩, e5⟩

/-! ## Writing -/

/-- The state after a movement, with empty buffers. -/
theorem R_at {b b' : Buf} {f : File} {p : Nat} {a : Bool} (h : R b f) (hw : b.writeBuf = [])
    (h1 : b'.raw = { b.raw with pos := p }) (h2 : b'.kind = b.kind) (h3 : b'.bufferSize = b.bufferSize)
    (h4 : b'.readBuf = []) (h5 : b'.readPos = 0) (h6 : b'.writeBuf = []) : R b' { f with pos := p, ahead := a } := by
  have hl := h.live
  have hex : b'.extra = 0 := by simp [extra, h4]
  refine ⟨hl.frame h2 h3 (by rw [h1]; exact ⟨rfl, rfl, rfl, rfl, rfl, rfl⟩) (by rw [h1]; exact hl.blocking), by omega, ?_,
    Or.inr h6, fun _ => h6, fun _ => h4, ?_, ?_, fun _ => h4, ?_⟩
  · rw [h4, hex]; simp
  · rw [h6, writeAt_nil, h1]; exact (h.data' hw).symm
  · rw [hex, h6, h1]; rfl
  · rw [h1]; exact h.log

theorem R.readPos_zero {b : Buf} {f : File} (h : R b f) (hr : b.readBuf = []) : b.readPos = 0 := by
  have := h.inside
  rw [hr] at this
  simpa using this

theorem R.settled {b : Buf} {f : File} (h : R b f) (hr : b.readBuf = []) (a : Bool) : R b { f with ahead := a } :=
  ⟨h.live, h.inside, h.unread, h.excl, h.reader, h.writer, h.data, h.pos, fun _ => hr, h.log⟩

theorem flushUnlocked_R {b : Buf} {f : File} (h : R b f) (hk : b.kind ≠ .reader) :
    ∃ b', flushUnlocked b = (.ok (), b') ∧ R b' f ∧ b'.writeBuf = [] ∧ b'.kind = b.kind ∧ b'.readBuf = b.readBuf ∧
      b'.readPos = b.readPos := by
  obtain ⟨b', h1, h2⟩ := flush_R h
  refine ⟨b', ?_, h2⟩
  rw [← h1]
  unfold flush
  split
  · rename_i hr; exact absurd hr hk
  · rfl

theorem undoReadAhead_R {b : Buf} {f : File} (h : R b f) :
    ∃ b', undoReadAhead b = (.ok (), b') ∧ R b' { f with ahead := false } ∧ b'.kind = b.kind ∧ b'.readBuf = [] := by
  have hl := h.live
  unfold undoReadAhead
  by_cases hr : b.readBuf = []
  · rw [if_pos hr]
    exact ⟨b, rfl, h.settled hr false, rfl, hr⟩
  · rw [if_neg hr]
    have hw : b.writeBuf = [] := h.excl.resolve_left hr
    have hs := Raw.seek_cases hl.opened hl.seekable (f.pos : Int) ((b.readPos : Int) - b.readBuf.length) .cur (by
      have := h.pos' hw
      have := h.inside
      unfold extra at *
      dsimp only
      omega)
    rw [if_pos (by omega), Int.toNat_natCast] at hs
    rw [PyM.bind_ok (onRaw_eq hs)]
    exact ⟨{ b with raw := { b.raw with pos := f.pos }, readBuf := [], readPos := 0 }, rfl,
      R_at (p := f.pos) h hw rfl rfl rfl rfl rfl hw, rfl, rfl⟩

theorem preFlush_R {b : Buf} {f : File} (h : R b f) (hk : b.kind ≠ .reader) :
    ∃ b', preFlush b = (.ok (), b') ∧ R b' f ∧ b'.kind = b.kind ∧ b'.readBuf = b.readBuf := by
  unfold preFlush
  split
  · obtain ⟨b', h1, h2, _, h3, h4, _⟩ := flushUnlocked_R h hk
    exact ⟨b', h1, h2, h3, h4⟩
  · exact ⟨b, rfl, h, rfl, rfl⟩

theorem overflowFlush_R {b : Buf} {f : File} (h : R b f) (hk : b.kind ≠ .reader) (n : Nat) :
    ∃ b', overflowFlush n b = (.ok n, b') ∧ R b' f ∧ b'.kind = b.kind := by
  unfold overflowFlush
  split
  · obtain ⟨b', h1, h2, _, h3, _, _⟩ := flushUnlocked_R h hk
    rw [h1]
    exact ⟨b', rfl, h2, h3⟩
  · exact ⟨b, rfl, h, rfl⟩

theorem writerWrite_R {b : Buf} {f : File} (h : R b f) (hk : b.kind ≠ .reader) (hr : b.readBuf = []) (d : Bytes) :
    ∃ b', writerWrite d b = (.ok d.length, b') ∧
      R b' { f with data := put f.data f.pos d, pos := f.pos + d.length, ahead := false } ∧ b'.kind = b.kind := by
  unfold writerWrite
  rw [PyM.bind_ok (checkClosed_ok h.live.opened)]
  obtain ⟨b1, h1, h2, h3, h4⟩ := preFlush_R h hk
  rw [PyM.bind_ok h1, PyM.bind_ok (PyM.modify_apply _ _)]
  have hr1 : b1.readBuf = [] := h4.trans hr
  have hex : b1.extra = 0 := by simp [extra, hr1]
  have hp := h2.pos
  have hl := h2.live
  have key : R { b1 with writeBuf := b1.writeBuf ++ d }
      { f with data := put f.data f.pos d, pos := f.pos + d.length, ahead := false } := by
    have hex' : extra { b1 with writeBuf := b1.writeBuf ++ d } = 0 := by simp [extra, hr1]
    refine ⟨⟨hl.1, hl.2, hl.3, hl.4, hl.5, hl.6, hl.7, hl.8⟩, h2.inside, ?_, Or.inl hr1,
      fun hk' => absurd (h3 ▸ hk') hk, h2.writer, ?_, ?_, fun _ => hr1, h2.log⟩
    · rw [hex']; dsimp only; rw [hr1]; simp
    · dsimp only
      rw [put_eq, h2.data, ← writeAt_append]
      congr 1
      omega
    · rw [hex']; dsimp only; rw [List.length_append]; omega
  obtain ⟨b2, g1, g2, g3⟩ := overflowFlush_R key (by rw [h3]; exact hk) d.length
  exact ⟨b2, g1, g2, g3.trans h3⟩

theorem write_R {b : Buf} {f : File} (h : R b f) (d : Bytes) :
    ∃ f', Allowed b.kind f (.write d) (.ofNat (write d b).1) f' ∧ R (write d b).2 f' := by
  cases hk : b.kind with
  | reader =>
    have : write d b = (.error .unsupported, b) := by unfold write; rw [hk]
    rw [this]
    exact ⟨f, by simp [Allowed, StreamOut.ofNat], h⟩
  | writer =>
    obtain ⟨b', h1, h2, _⟩ := writerWrite_R h (by rw [hk]; nofun) (h.writer hk) d
    have : write d b = (.ok d.length, b') := by unfold write; rw [hk]; exact h1
    rw [this]
    exact ⟨_, by simp [Allowed, StreamOut.ofNat], h2⟩
  | random =>
    obtain ⟨b1, g1, g2, g3, g4⟩ := undoReadAhead_R h
    obtain ⟨b', h1, h2, _⟩ := writerWrite_R g2 (by rw [g3, hk]; nofun) g4 d
    have : write d b = (.ok d.length, b') := by
      unfold write; rw [hk]; dsimp only; rw [PyM.bind_ok g1]; exact h1
    rw [this]
    exact ⟨_, by simp [Allowed, StreamOut.ofNat], h2⟩

/-! ## Positioning -/

theorem tell_R {b : Buf} {f : File} (h : R b f) : tell b = (.ok f.pos, b) := by
  have hl := h.live
  have hin := h.inside
  unfold tell
  rw [PyM.bind_ok (onRaw_eq (Raw.tell_ok hl.opened hl.seekable))]
  simp only [PyM.pure_apply]
  congr 2
  have hp := h.pos
  unfold extra at hp
  cases hk : b.kind with
  | reader =>
    dsimp only
    rw [h.reader hk] at hp
    simp only [List.length_nil] at hp
    omega
  | writer =>
    dsimp only
    rw [h.writer hk] at hp
    simp only [List.length_nil] at hp
    omega
  | random =>
    dsimp only
    split
    · rename_i hw
      rw [hw] at hp
      simp only [List.length_nil] at hp
      omega
    · rename_i hw
      rw [h.excl.resolve_right hw] at hp
      simp only [List.length_nil] at hp
      omega

/-- A seek to a valid position. -/
theorem seek_ok {b : Buf} {f : File} (h : R b f) (o : Int) (w : Whence) (ht : 0 ≤ f.target o w) :
    ∃ b', seek o w b = (.ok (f.target o w).toNat, b') ∧
      R b' { f with pos := (f.target o w).toNat, ahead := false } ∧ b'.writeBuf = [] ∧ b'.readBuf = [] ∧
      b'.kind = b.kind := by
  have hl := h.live
  unfold seek
  cases hk : b.kind with
  | reader =>
    have hw := h.reader hk
    have hs := Raw.seek_cases hl.opened hl.seekable (f.target o w)
      (if w = Whence.cur then o - ((b.readBuf.length : Int) - b.readPos) else o) w (by
        have := h.pos' hw
        have := h.inside
        rw [h.data' hw]
        unfold extra at *
        cases w
        · rfl
        · simp only [File.target, if_true]; omega
        · rfl)
    rw [if_pos ht] at hs
    dsimp only
    unfold readerSeek
    rw [PyM.bind_ok (checkClosed_ok hl.opened), PyM.bind_ok (onRaw_eq hs)]
    exact ⟨{ b with raw := { b.raw with pos := (f.target o w).toNat }, readBuf := [], readPos := 0 }, rfl,
      R_at h hw rfl rfl rfl rfl rfl hw, hw, rfl, hk⟩
  | writer =>
    obtain ⟨b1, h1, h2, h3, h4, h5, h6⟩ := flushUnlocked_R h (by rw [hk]; nofun)
    have hr : b1.readBuf = [] := h5.trans (h.writer hk)
    have hex : b1.extra = 0 := by simp [extra, hr]
    have hs := Raw.seek_cases h2.live.opened h2.live.seekable (f.target o w) o w (by
        have := h2.pos' h3
        rw [h2.data' h3]
        cases w
        · rfl
        · simp only [File.target]; omega
        · rfl)
    rw [if_pos ht] at hs
    dsimp only
    unfold writerSeek
    rw [PyM.bind_ok h1, onRaw_eq hs]
    exact ⟨_, rfl, R_at h2 h3 rfl rfl rfl hr (h2.readPos_zero hr) h3, h3, hr, h4.trans hk⟩
  | random =>
    obtain ⟨b1, h1, h2, h3, h4, h5, h6⟩ := flush_R h
    dsimp only
    unfold randomSeek
    rw [PyM.bind_ok h1]
    have hback : ∃ b2, seekBack b1 = (.ok (), b2) ∧ b2 = { b1 with raw := { b1.raw with pos := f.pos } } := by
      unfold seekBack
      by_cases hr : b1.readBuf = []
      · rw [if_pos hr]
        have := h2.pos' h3
        have hex : b1.extra = 0 := by simp [extra, hr]
        refine ⟨b1, rfl, ?_⟩
        rw [show f.pos = b1.raw.pos by omega]
      · rw [if_neg hr]
        have hs := Raw.seek_cases h2.live.opened h2.live.seekable (f.pos : Int) ((b1.readPos : Int) - b1.readBuf.length) .cur
          (by
            have := h2.pos' h3
            have := h2.inside
            unfold extra at *
            dsimp only
            omega)
        rw [if_pos (by omega), Int.toNat_natCast] at hs
        rw [PyM.bind_ok (onRaw_eq hs)]
        exact ⟨_, rfl, rfl⟩
    obtain ⟨b2, g1, rfl⟩ := hback
    rw [PyM.bind_ok g1]
    have hs := Raw.seek_cases (s := { b1.raw with pos := f.pos }) h2.live.opened h2.live.seekable (f.target o w) o w (by
        dsimp only
        rw [h2.data' h3]
        cases w <;> rfl)
    rw [if_pos ht] at hs
    rw [PyM.bind_ok (onRaw_eq hs)]
    exact ⟨{ b1 with raw := { b1.raw with pos := (f.target o w).toNat }, readBuf := [], readPos := 0 }, rfl,
      R_at h2 h3 rfl rfl rfl rfl rfl h3, h3, rfl, h4.trans hk⟩

theorem seek_fail {b : Buf} {f : File} (h : R b f) (o : Int) (w : Whence) (ht : f.target o w < 0)
    (hsafe : b.kind = .random → b.readBuf = []) :
    ∃ b', seek o w b = (.error (.ioError 22), b') ∧ R b' f := by
  have hl := h.live
  unfold seek
  cases hk : b.kind with
  | reader =>
    have hw := h.reader hk
    have hs := Raw.seek_cases hl.opened hl.seekable (f.target o w)
      (if w = Whence.cur then o - ((b.readBuf.length : Int) - b.readPos) else o) w (by
        have := h.pos' hw
        have := h.inside
        rw [h.data' hw]
        unfold extra at *
        cases w
        · rfl
        · simp only [File.target, if_true]; omega
        · rfl)
    rw [if_neg (Int.not_le.2 ht)] at hs
    dsimp only
    unfold readerSeek
    rw [PyM.bind_ok (checkClosed_ok hl.opened)]
    exact ⟨b, PyM.bind_error (onRaw_eq hs), h⟩
  | writer =>
    obtain ⟨b1, h1, h2, h3, h4, h5, h6⟩ := flushUnlocked_R h (by rw [hk]; nofun)
    have hr : b1.readBuf = [] := h5.trans (h.writer hk)
    have hex : b1.extra = 0 := by simp [extra, hr]
    have hs := Raw.seek_cases h2.live.opened h2.live.seekable (f.target o w) o w (by
        have := h2.pos' h3
        rw [h2.data' h3]
        cases w
        · rfl
        · simp only [File.target]; omega
        · rfl)
    rw [if_neg (Int.not_le.2 ht)] at hs
    dsimp only
    unfold writerSeek
    rw [PyM.bind_ok h1]
    exact ⟨b1, onRaw_eq hs, h2⟩
  | random =>
    obtain ⟨b1, h1, h2, h3, h4, h5, h6⟩ := flush_R h
    have hr : b1.readBuf = [] := h5.trans (hsafe hk)
    have hex : b1.extra = 0 := by simp [extra, hr]
    have hs := Raw.seek_cases h2.live.opened h2.live.seekable (f.target o w) o w (by
        have := h2.pos' h3
        rw [h2.data' h3]
        cases w
        · rfl
        · simp only [File.target]; omega
        · rfl)
    rw [if_neg (Int.not_le.2 ht)] at hs
    dsimp only
    unfold randomSeek
    rw [PyM.bind_ok h1]
    have hback : seekBack b1 = (.ok (), b1) := by unfold seekBack; rw [if_pos hr]
    rw [PyM.bind_ok hback]
    exact ⟨b1, PyM.bind_error (onRaw_eq hs), h2⟩

theorem seek_R {b : Buf} {f : File} (h : R b f) (o : Int) (w : Whence) (hu : ¬ Unsafe b.kind f (.seek o w)) :
    ∃ f', Allowed b.kind f (.seek o w) (.ofNat (seek o w b).1) f' ∧ R (seek o w b).2 f' := by
  by_cases ht : 0 ≤ f.target o w
  · obtain ⟨b', h1, h2, _⟩ := seek_ok h o w ht
    rw [h1]
    exact ⟨_, by simp [Allowed, ht, StreamOut.ofNat], h2⟩
  · obtain ⟨b', h1, h2⟩ := seek_fail h o w (by omega) (by
      intro hk
      apply h.ahead
      cases ha : f.ahead
      · rfl
      · exact absurd ⟨hk, ha, by omega⟩ hu)
    rw [h1]
    exact ⟨f, by simp [Allowed, ht, StreamOut.ofNat], h2⟩

/-! ## Truncating -/

theorem take_rest_resize (f : File) (n k : Nat) (hk : k ≤ f.rest.length) (hn : f.data.length ≤ n) :
    (File.rest { f with data := resizeTo f.data n }).take k = f.rest.take k := by
  unfold File.rest at *
  dsimp only
  rw [resizeTo_eq]
  apply List.ext_getElem?
  intro i
  rw [List.getElem?_take, List.getElem?_take]
  split
  · rw [List.getElem?_drop, List.getElem?_drop, getElem?_truncated]
    rw [List.length_drop] at hk
    rw [if_pos (by omega), if_pos (by omega)]
  · rfl

theorem writerTruncate_R {b : Buf} {f : File} (h : R b f) (hk : b.kind ≠ .reader) (n : Nat)
    (hn : b.readBuf = [] ∨ f.data.length ≤ n) :
    ∃ b', writerTruncate (some (n : Int)) b = (.ok n, b') ∧ R b' { f with data := resizeTo f.data n } := by
  obtain ⟨b1, h1, h2, h3, h4, h5, h6⟩ := flushUnlocked_R h hk
  have hl := h2.live
  obtain ⟨s', g1, g2, g3, g4, g5, g6⟩ := Raw.truncate_ok (n := n) hl.opened hl.seekable (hl.writable (h4 ▸ hk)) hl.unix
    hl.blocking
  unfold writerTruncate
  rw [PyM.bind_ok h1]
  refine ⟨{ b1 with raw := s' }, onRaw_eq g1, ⟨hl.frame rfl rfl g5 g4, h2.inside, ?_, h2.excl, h2.reader, h2.writer, ?_, ?_,
    h2.ahead, ?_⟩⟩
  · change b1.readBuf.drop b1.readPos = _
    change _ = List.take b1.extra _
    rcases hn with hr | hn
    · have hr1 : b1.readBuf = [] := h5.trans hr
      have : b1.extra = 0 := by simp [extra, hr1]
      rw [this, hr1]; simp
    · rw [take_rest_resize f n _ h2.extra_le hn]; exact h2.unread
  · dsimp only
    rw [h3, writeAt_nil, g2, h2.data' h3, resizeTo_eq]
  · change f.pos + b1.extra = _
    dsimp only
    rw [g3]; exact h2.pos
  · exact h2.log.trans g6.symm

theorem truncate_R {b : Buf} {f : File} (h : R b f) (n : Option Int) (hu : ¬ Unsafe b.kind f (.truncate n)) :
    ∃ f', Allowed b.kind f (.truncate n) (.ofNat (truncate n b).1) f' ∧ R (truncate n b).2 f' := by
  by_cases hk : b.kind = .reader
  · have : truncate n b = (.error .unsupported, b) := by
      unfold truncate; rw [hk]; dsimp only; rw [PyM.bind_ok (checkClosed_ok h.live.opened)]; rfl
    rw [this]
    exact ⟨f, by simp [Allowed, hk, StreamOut.ofNat], h⟩
  · by_cases hneg : ∃ z, n = some z ∧ z < 0
    · obtain ⟨z, rfl, hz⟩ := hneg
      obtain ⟨b1, h1, h2, h3, h4, h5, h6⟩ := flushUnlocked_R h hk
      have hl := h2.live
      have hraw : Raw.truncate (some z) true b1.raw = (.error (.ioError 22), b1.raw) := by
        rw [Raw.truncate_open _ true hl.opened (hl.writable (h4 ▸ hk)) hl.seekable]
        exact PyM.bind_error (by simp [Raw.truncateTarget, hz])
      have hwt : writerTruncate (some z) b = (.error (.ioError 22), b1) := by
        unfold writerTruncate
        rw [PyM.bind_ok h1]; exact onRaw_eq hraw
      have : truncate (some z) b = (.error (.ioError 22), b1) := by
        unfold truncate
        cases hkk : b.kind with
        | reader => exact absurd hkk hk
        | writer => exact hwt
        | random => exact hwt
      rw [this]
      exact ⟨f, by simp [Allowed, hk, hz, StreamOut.ofNat], h2⟩
    · -- the new size
      obtain ⟨m, hm⟩ : ∃ m : Nat, n = none ∧ m = f.pos ∨ n = some (m : Int) := by
        cases n with
        | none => exact ⟨f.pos, Or.inl ⟨rfl, rfl⟩⟩
        | some z =>
          refine ⟨z.toNat, Or.inr ?_⟩
          have : 0 ≤ z := by
            rcases Int.lt_or_le z 0 with hz | hz
            · exact absurd ⟨z, rfl, hz⟩ hneg
            · exact hz
          congr 1; omega
      have hsafe : b.readBuf = [] ∨ f.data.length ≤ m := by
        cases hkk : b.kind with
        | reader => exact absurd hkk hk
        | writer => exact Or.inl (h.writer hkk)
        | random =>
          cases ha : f.ahead with
          | false => exact Or.inl (h.ahead ha)
          | true =>
            right
            apply Decidable.byContradiction
            intro hc
            apply hu
            refine ⟨hkk, ha, ?_⟩
            rcases hm with ⟨rfl, rfl⟩ | rfl
            · simp only [Option.getD_none]; omega
            · simp only [Option.getD_some]; omega
      obtain ⟨b', e1, e2⟩ := writerTruncate_R h hk m hsafe
      have heq : truncate n b = (.ok m, b') := by
        unfold truncate
        cases hkk : b.kind with
        | reader => exact absurd hkk hk
        | random =>
          dsimp only
          rcases hm with ⟨rfl, rfl⟩ | rfl
          · dsimp only
            rw [PyM.bind_ok (tell_R h)]; exact e1
          · exact e1
        | writer =>
          dsimp only
          rcases hm with ⟨rfl, rfl⟩ | rfl
          · rw [← e1]
            unfold writerTruncate
            obtain ⟨b1, h1, h2, h3, h4, h5, h6⟩ := flushUnlocked_R h hk
            rw [PyM.bind_ok h1, PyM.bind_ok h1]
            dsimp only
            have hr1 : b1.readBuf = [] := h5.trans (h.writer hkk)
            have hex : b1.extra = 0 := by simp [extra, hr1]
            have hp := h2.pos' h3
            rw [PyM.bind_ok (onRaw_eq (Raw.tell_ok h2.live.opened h2.live.seekable))]
            rw [show b1.raw.pos = f.pos by omega]
          · exact e1
      rw [heq]
      rcases hm with ⟨rfl, rfl⟩ | rfl
      · exact ⟨_, by simp [Allowed, hk, StreamOut.ofNat], e2⟩
      · have hz : ¬ ((m : Int) < 0) := by omega
        exact ⟨_, by simp [Allowed, hk, hz, Int.toNat_natCast, StreamOut.ofNat], e2⟩

/-! ## Size and locks -/

theorem size_R {b : Buf} {f : File} (h : R b f) :
    ∃ b', size b = (.ok f.data.length, b') ∧ R b' f ∧ b'.writeBuf = [] := by
  obtain ⟨b', h1, h2, h3, _⟩ := flush_R h
  unfold size
  rw [PyM.bind_ok h1, onRaw_eq (Raw.size_open h2.live.opened), h2.data' h3]
  exact ⟨b', rfl, h2, h3⟩

theorem resetBuffers_R {b : Buf} {f : File} (h : R b f) :
    ∃ b', resetBuffers b = (.ok (), b') ∧ R b' { f with ahead := false } ∧ b'.writeBuf = [] ∧ b'.readBuf = [] ∧
      b'.kind = b.kind := by
  have ht : f.target 0 .cur = f.pos := by simp [File.target]
  obtain ⟨b', h1, h2, h3⟩ := seek_ok h 0 .cur (by omega)
  rw [ht, Int.toNat_natCast] at h2
  unfold resetBuffers
  rw [PyM.bind_ok h1]
  exact ⟨b', rfl, h2, h3⟩

theorem lockFile_R {b : Buf} {f : File} (h : R b f) (others : Bytes) :
    ∃ b', lockFile others b = (.ok (), b') ∧
      R b' { f with data := others, ahead := false, log := f.log ++ [.lock others] } := by
  obtain ⟨b1, h1, h2, h3, h4, h5⟩ := resetBuffers_R h
  unfold lockFile
  rw [PyM.bind_ok h1]
  have hl := h2.live
  have hlock : Raw.lockFile others b1.raw =
      (.ok (), { b1.raw with
        data := others, events := b1.raw.events ++ [.lock others], disk := b1.raw.disk ++ [.content others] }) := by
    unfold Raw.lockFile
    rw [PyM.bind_ok (Raw.checkSeekable_ok hl.opened hl.seekable)]; rfl
  have hex : b1.extra = 0 := by simp [extra, h4]
  refine ⟨_, onRaw_eq hlock, ⟨⟨hl.1, hl.2, hl.3, hl.4, hl.5, hl.6, hl.7, hl.8⟩, h2.inside, ?_, h2.excl, h2.reader, h2.writer,
    ?_, h2.pos, h2.ahead, ?_⟩⟩
  · change b1.readBuf.drop b1.readPos = List.take b1.extra _
    rw [hex, h4]; simp
  · dsimp only; rw [h3, writeAt_nil]
  · dsimp only; rw [← h2.log]

theorem unlockFile_R {b : Buf} {f : File} (h : R b f) :
    ∃ b', unlockFile b = (.ok (), b') ∧ R b' { f with ahead := false, log := f.log ++ [.unlock f.data] } := by
  obtain ⟨b1, h1, h2, h3, h4, h5⟩ := resetBuffers_R h
  unfold unlockFile
  rw [PyM.bind_ok h1]
  have hl := h2.live
  have hunlock : Raw.unlockFile b1.raw =
      (.ok (), { b1.raw with events := b1.raw.events ++ [.unlock b1.raw.data] }) := by
    unfold Raw.unlockFile
    rw [PyM.bind_ok (Raw.checkSeekable_ok hl.opened hl.seekable)]; rfl
  refine ⟨_, onRaw_eq hunlock, ⟨⟨hl.1, hl.2, hl.3, hl.4, hl.5, hl.6, hl.7, hl.8⟩, h2.inside, h2.unread, h2.excl, h2.reader,
    h2.writer, h2.data, h2.pos, h2.ahead, ?_⟩⟩
  dsimp only
  rw [← h2.log, h2.data' h3]

/-! ## All calls -/

theorem step_R {b : Buf} {f : File} (h : R b f) (op : StreamOp) (hu : ¬ Unsafe b.kind f op) :
    ∃ f', Allowed b.kind f op (b.step op).1 f' ∧ R (b.step op).2 f' := by
  cases op with
  | read n => exact read_R h n
  | read1 n => exact read1_R h n
  | peek n =>
    by_cases hk : b.kind = .writer
    · have : peek n b = (.error .attributeError, b) := by unfold peek; rw [hk]
      refine ⟨f, ?_, ?_⟩
      · simp [step, this, Allowed, hk, StreamOut.ofBytes]
      · simp only [step, this]; exact h
    · obtain ⟨b', e1, e2, _, _, e3, e4⟩ := peek_R h hk n
      refine ⟨{ f with ahead := true }, ?_, ?_⟩
      rotate_left
      · simp only [step, e1]; exact e2
      · simp only [step, e1, Allowed, hk, if_false]
        exact ⟨_, e3, e4, rfl, trivial⟩
  | readline n => exact readline_R h n
  | write d => exact write_R h d
  | seek o w => exact seek_R h o w hu
  | tell => exact ⟨f, by simp only [step, tell_R h]; exact ⟨rfl, rfl⟩, by simp only [step, tell_R h]; exact h⟩
  | flush =>
    obtain ⟨b', h1, h2, _⟩ := flush_R h
    exact ⟨f, by simp only [step, h1]; exact ⟨rfl, rfl⟩, by simp only [step, h1]; exact h2⟩
  | truncate n => exact truncate_R h n hu
  | size =>
    obtain ⟨b', h1, h2, _⟩ := size_R h
    exact ⟨f, by simp only [step, h1]; exact ⟨rfl, rfl⟩, by simp only [step, h1]; exact h2⟩
  | lock o =>
    obtain ⟨b', h1, h2⟩ := lockFile_R h o
    exact ⟨_, by simp only [step, h1]; exact ⟨rfl, rfl⟩, by simp only [step, h1]; exact h2⟩
  | unlock =>
    obtain ⟨b', h1, h2⟩ := unlockFile_R h
    exact ⟨_, by simp only [step, h1]; exact ⟨rfl, rfl⟩, by simp only [step, h1]; exact h2⟩

/-! ## The class and the size of the buffer never change -/

/-- No call changes the class of the stream or the size of its buffer. -/
def Keeps {α : Type} (m : PyM Buf α) : Prop := ∀ b, (m b).2.kind = b.kind ∧ (m b).2.bufferSize = b.bufferSize

namespace Keeps

variable {α β : Type}

theorem bind {m : PyM Buf α} {g : α → PyM Buf β} (hm : Keeps m) (hg : ∀ a, Keeps (g a)) : Keeps (m >>= g) := by
  intro b
  have h1 := hm b
  rw [PyM.bind_apply]
  generalize m b = p at *
  obtain ⟨r, b'⟩ := p
  cases r with
  | ok a =>
    have h2 := hg a b'
    exact ⟨h2.1.trans h1.1, h2.2.trans h1.2⟩
  | error e => exact h1

theorem pure (a : α) : Keeps (pure a) := fun _ => ⟨rfl, rfl⟩

theorem raise (e : Exn) : Keeps (PyM.raise e : PyM Buf α) := fun _ => ⟨rfl, rfl⟩

theorem onRaw (m : PyM Raw α) : Keeps (Buf.onRaw m) := fun _ => ⟨rfl, rfl⟩

theorem get : Keeps (PyM.get : PyM Buf Buf) := fun _ => ⟨rfl, rfl⟩

theorem ite {c : Prop} [Decidable c] {m m' : PyM Buf α} (h : Keeps m) (h' : Keeps m') : Keeps (if c then m else m') := by
  split
  · exact h
  · exact h'

theorem when {c : Bool} {m : PyM Buf α} (h : Keeps m) : Keeps (PyM.when c m) := by
  intro b
  have := h b
  unfold PyM.when
  split
  · generalize m b = p at *
    obtain ⟨r, b'⟩ := p
    cases r <;> exact this
  · exact ⟨rfl, rfl⟩

theorem checkClosed : Keeps Buf.checkClosed := by
  intro b; unfold Buf.checkClosed; split <;> exact ⟨rfl, rfl⟩

theorem resetReadBuf : Keeps Buf.resetReadBuf := fun _ => ⟨rfl, rfl⟩

theorem flushLoop (fuel : Nat) : Keeps (Buf.flushLoop fuel) := by
  induction fuel with
  | zero => exact pure ()
  | succ fuel ih =>
    intro b
    unfold Buf.flushLoop
    split
    · exact ⟨rfl, rfl⟩
    · refine (onRaw _).bind (fun n => bind ?_ fun _ => ih) b
      unfold dropWritten
      split
      · exact raise _
      · intro b; dsimp only; split <;> exact ⟨rfl, rfl⟩

theorem flushUnlocked : Keeps Buf.flushUnlocked := checkClosed.bind fun _ => get.bind fun _ => flushLoop _

theorem flush : Keeps Buf.flush := by
  intro b
  unfold Buf.flush
  split
  · exact checkClosed.bind (fun _ => onRaw _) b
  · exact flushUnlocked b

theorem writerWrite (d : Bytes) : Keeps (Buf.writerWrite d) := by
  refine checkClosed.bind fun _ => bind ?_ fun _ => bind (fun _ => ⟨rfl, rfl⟩) fun _ => ?_
  · intro b; unfold preFlush; split
    · exact flushUnlocked b
    · exact ⟨rfl, rfl⟩
  · intro b
    unfold overflowFlush
    have := flushUnlocked b
    split
    · split
      · rename_i h; rw [h] at this; exact this
      · rename_i h; rw [h] at this
        split <;> exact this
      · rename_i h; rw [h] at this; exact this
    · exact ⟨rfl, rfl⟩

theorem write (d : Bytes) : Keeps (Buf.write d) := by
  intro b
  unfold Buf.write
  split
  · exact ⟨rfl, rfl⟩
  · exact writerWrite d b
  · refine bind ?_ (fun _ => writerWrite d) b
    intro b
    unfold undoReadAhead
    split
    · exact ⟨rfl, rfl⟩
    · exact (onRaw _).bind (fun _ => resetReadBuf) b

theorem fillLoop (w n fuel : Nat) : ∀ out, Keeps (Buf.fillLoop w n fuel out) := by
  induction fuel with
  | zero => intro out; exact pure _
  | succ fuel ih =>
    intro out
    unfold Buf.fillLoop
    refine ite ((onRaw _).bind fun c => ?_) (pure _)
    split
    · exact pure _
    · exact pure _
    · exact ih _

theorem readSome (n : Nat) : Keeps (Buf.readSome n) := by
  intro b
  unfold Buf.readSome
  split
  · exact ⟨rfl, rfl⟩
  · exact (fillLoop _ _ _ _).bind (fun _ => bind (fun _ => ⟨rfl, rfl⟩) fun _ => pure _) b

theorem readRest : Keeps Buf.readRest := by
  intro b
  exact resetReadBuf.bind (fun _ => (onRaw _).bind fun _ => pure _) b

theorem readerRead (n : Option Int) : Keeps (Buf.readerRead n) := by
  unfold Buf.readerRead
  split
  · exact readRest
  · exact ite (raise _) (ite readRest (readSome _))

theorem read (n : Option Int) : Keeps (Buf.read n) := by
  intro b
  unfold Buf.read
  split
  · exact ⟨rfl, rfl⟩
  · exact readerRead n b
  · exact flush.bind (fun _ => readerRead _) b

theorem peekUnlocked (n : Int) : Keeps (Buf.peekUnlocked n) := by
  intro b
  unfold Buf.peekUnlocked
  refine bind (when ((onRaw _).bind fun c => ?_)) (fun _ => get.bind fun _ => pure _) b
  split
  · exact fun _ => ⟨rfl, rfl⟩
  · exact pure _

theorem peek (n : Int) : Keeps (Buf.peek n) := by
  intro b
  unfold Buf.peek
  split
  · exact ⟨rfl, rfl⟩
  · exact checkClosed.bind (fun _ => peekUnlocked n) b
  · exact flush.bind (fun _ => checkClosed.bind fun _ => peekUnlocked n) b

theorem readerRead1 (n : Int) : Keeps (Buf.readerRead1 n) := by
  intro b
  unfold Buf.readerRead1
  exact checkClosed.bind (fun _ => ite (pure _) ((peekUnlocked 1).bind fun _ => get.bind fun _ => readSome _)) b

theorem read1 (n : Int) : Keeps (Buf.read1 n) := by
  intro b
  unfold Buf.read1
  split
  · exact ⟨rfl, rfl⟩
  · exact readerRead1 n b
  · exact flush.bind (fun _ => readerRead1 n) b

theorem readlineLoop (size : Int) (fuel : Nat) : ∀ res, Keeps (Buf.readlineLoop size fuel res) := by
  induction fuel with
  | zero => intro res; exact pure _
  | succ fuel ih =>
    intro res
    unfold Buf.readlineLoop
    refine ite (bind ?_ fun n => (read _).bind fun c => ?_) (pure _)
    · intro b
      unfold nreadahead
      split
      · exact ⟨rfl, rfl⟩
      · exact (peek 1).bind (fun _ => pure _) b
    · split
      · exact pure _
      · exact pure _
      · exact ite (pure _) (ih _)

theorem readline (n : Int) : Keeps (Buf.readline n) := fun b => readlineLoop n _ _ b

theorem tell : Keeps Buf.tell := by
  intro b
  exact (onRaw _).bind (fun _ => pure _) b

theorem seek (o : Int) (w : Whence) : Keeps (Buf.seek o w) := by
  intro b
  unfold Buf.seek
  split
  · exact checkClosed.bind (fun _ => (onRaw _).bind fun _ => resetReadBuf.bind fun _ => pure _) b
  · exact flushUnlocked.bind (fun _ => onRaw _) b
  · refine flush.bind (fun _ => bind ?_ fun _ => (onRaw _).bind fun _ => resetReadBuf.bind fun _ => pure _) b
    intro b
    unfold seekBack
    split
    · exact ⟨rfl, rfl⟩
    · exact (onRaw _).bind (fun _ => pure _) b

theorem writerTruncate (n : Option Int) : Keeps (Buf.writerTruncate n) := by
  refine flushUnlocked.bind fun _ => ?_
  split
  · exact (onRaw _).bind fun _ => onRaw _
  · exact onRaw _

theorem truncate (n : Option Int) : Keeps (Buf.truncate n) := by
  intro b
  unfold Buf.truncate
  split
  · exact checkClosed.bind (fun _ => raise _) b
  · exact writerTruncate n b
  · split
    · exact tell.bind (fun _ => writerTruncate _) b
    · exact writerTruncate _ b

theorem size : Keeps Buf.size := flush.bind fun _ => onRaw _

theorem lockFile (o : Bytes) : Keeps (Buf.lockFile o) :=
  ((seek 0 .cur).bind fun _ => pure ()).bind fun _ => onRaw _

theorem unlockFile : Keeps Buf.unlockFile := ((seek 0 .cur).bind fun _ => pure ()).bind fun _ => onRaw _

end Keeps

theorem step_keeps (b : Buf) (op : StreamOp) : (b.step op).2.kind = b.kind ∧ (b.step op).2.bufferSize = b.bufferSize := by
  cases op with
  | read n => exact Keeps.read n b
  | read1 n => exact Keeps.read1 n b
  | peek n => exact Keeps.peek n b
  | readline n => exact Keeps.readline n b
  | write d => exact Keeps.write d b
  | seek o w => exact Keeps.seek o w b
  | tell => exact Keeps.tell b
  | flush => exact Keeps.flush b
  | truncate n => exact Keeps.truncate n b
  | size => exact Keeps.size b
  | lock o => exact Keeps.lockFile o b
  | unlock => exact Keeps.unlockFile b

/-- A history conforms to the reference up to the first call that the code gets wrong. -/
theorem run_R (ops : List StreamOp) : ∀ (b : Buf) (f : File), R b f →
    ∃ pre post f', ops = pre ++ post ∧ Conforms b.kind f (pre.zip (b.run pre).1) f' ∧ R (b.run pre).2 f' ∧
      (b.run pre).2.kind = b.kind ∧ (post = [] ∨ ∃ op rest, post = op :: rest ∧ Unsafe b.kind f' op) := by
  induction ops with
  | nil => intro b f h; exact ⟨[], [], f, rfl, .nil f, h, rfl, Or.inl rfl⟩
  | cons op ops ih =>
    intro b f h
    by_cases hu : Unsafe b.kind f op
    · exact ⟨[], op :: ops, f, rfl, .nil f, h, rfl, Or.inr ⟨op, ops, rfl, hu⟩⟩
    · obtain ⟨f1, h1, h2⟩ := step_R h op hu
      have hk := (step_keeps b op).1
      obtain ⟨pre, post, f', e1, e2, e3, e4, e5⟩ := ih _ f1 h2
      rw [hk] at e2 e4 e5
      exact ⟨op :: pre, post, f', by rw [e1]; rfl, .cons h1 e2, e3, e4, e5⟩

end Verif.Buf
