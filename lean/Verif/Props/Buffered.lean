import Verif.Lemmas.BufferedRefine
import Verif.Props.RawIO

/-!
# C20 to C25, C33 and C63: buffered streams
-/

namespace Verif.Props

open Verif Verif.Spec

/-! ## C23: refinement -/

/-- A stream that was just opened on a regular file, not in append mode. -/
structure Opened (kind : BufKind) (size : Int) (raw : Raw) (b : Buf) : Prop where
  created : Buf.create kind size raw = .ok b
  unix : raw.platform = .unix
  noAppend : raw.append = false
  seekable : raw.seekable = true

/-- The file as the reference sees it. -/
def fileOf (raw : Raw) : File := ⟨raw.data, raw.pos, false, raw.events⟩

theorem create_ok {kind : BufKind} {size : Int} {raw : Raw} {b : Buf} (h : Buf.create kind size raw = .ok b) :
    b = ⟨kind, size.toNat, raw, [], 0, []⟩ ∧ 0 < size ∧ raw.closed = false ∧ (kind ≠ .writer → raw.readable = true) ∧
      (kind ≠ .reader → raw.writable = true) := by
  unfold Buf.create at h
  repeat' split at h
  all_goals first | (cases h; done) | skip
  rename_i h1 h2 h3 h4 h5 h6 h7 h8
  cases h
  refine ⟨rfl, by omega, ?_, ?_, ?_⟩
  · cases kind with
    | reader => simpa using h3
    | writer => simpa using h6
    | random => simpa using h3
  · intro hk; simpa [hk] using h4
  · intro hk; simpa [hk] using h7

theorem Opened.kind {k : BufKind} {n : Int} {raw : Raw} {b : Buf} (h : Opened k n raw b) : b.kind = k := by
  rw [(create_ok h.created).1]

theorem Opened.R {k : BufKind} {n : Int} {raw : Raw} {b : Buf} (h : Opened k n raw b) (hb : Blocking raw.sched) :
    Buf.R b (fileOf raw) := by
  obtain ⟨rfl, h2, h3, h4, h5⟩ := create_ok h.created
  exact ⟨⟨h3, h.unix, h.noAppend, h.seekable, h4, h5, hb, by dsimp only; omega⟩, Nat.le_refl _, by simp [Buf.extra],
    Or.inl rfl, fun _ => rfl, fun _ => rfl, by simp [fileOf], by simp [Buf.extra, fileOf], fun _ => rfl, rfl⟩

/-- C23.  For all histories, buffer sizes and patterns of short reads and writes, the results are those of a byte array
with a position up to the first call in `Unsafe` (on a stream for reading and writing, after a read: cutting the file or
a failing seek); if the stream is flushed there, the file has the bytes of the array.
Missing: the calls in `Unsafe`, for which it is false (`C23_refuted`, `C23_seek_refuted`). -/
theorem C23_refines_partial {k : BufKind} {n : Int} {raw : Raw} {b : Buf} (h : Opened k n raw b) (hb : Blocking raw.sched)
    (ops : List StreamOp) :
    ∃ pre post f, ops = pre ++ post ∧ Conforms k (fileOf raw) (pre.zip (b.run pre).1) f ∧
      (post = [] ∨ ∃ op rest, post = op :: rest ∧ Unsafe k f op) ∧
      (Buf.flush (b.run pre).2).1 = .ok () ∧ (Buf.flush (b.run pre).2).2.raw.data = f.data := by
  obtain ⟨pre, post, f, e1, e2, e3, e4, e5⟩ := Buf.run_R ops b _ (h.R hb)
  rw [h.kind] at e2 e5
  obtain ⟨b', g1, g2, g3, _⟩ := Buf.flush_R e3
  exact ⟨pre, post, f, e1, e2, e5, by rw [g1], by rw [g1]; exact g2.data' g3⟩

theorem Unsafe.random {k : BufKind} {f : File} {op : StreamOp} (h : Unsafe k f op) : k = .random := by
  cases op <;> first | exact h.1 | exact h.elim

/-- C23 without restriction for streams opened for reading or for writing only. -/
theorem C23_one_way {k : BufKind} {n : Int} {raw : Raw} {b : Buf} (h : Opened k n raw b) (hb : Blocking raw.sched)
    (hk : k ≠ .random) (ops : List StreamOp) :
    ∃ f, Conforms k (fileOf raw) (ops.zip (b.run ops).1) f ∧
      (Buf.flush (b.run ops).2).1 = .ok () ∧ (Buf.flush (b.run ops).2).2.raw.data = f.data := by
  obtain ⟨pre, post, f, rfl, e2, e3, e4, e5⟩ := C23_refines_partial h hb ops
  rcases e3 with rfl | ⟨op, rest, rfl, hu⟩
  · rw [List.append_nil]; exact ⟨f, e2, e4, e5⟩
  · exact absurd (Unsafe.random hu) hk

/-- A ten byte file. -/
def digits : Bytes := [48, 49, 50, 51, 52, 53, 54, 55, 56, 57]

/-- A regular file opened for reading and writing. -/
def rawOf (data : Bytes) (sched : List OsAns) : Raw :=
  ⟨.unix, fun _ => 0, false, true, true, true, false, data, 0, sched, [], []⟩

def opened (k : BufKind) (n : Nat) (data : Bytes) (sched : List OsAns) : Buf := ⟨k, n, rawOf data sched, [], 0, []⟩

theorem opened_ok (k : BufKind) (n : Nat) (hn : 0 < n) (data : Bytes) (sched : List OsAns) :
    Opened k n (rawOf data sched) (opened k n data sched) := by
  refine ⟨?_, rfl, rfl, rfl⟩
  have hn' : ¬ n = 0 := by omega
  simp [Buf.create, rawOf, opened, hn']

example : Blocking [.count 2, .count 1, .count 3] := by
  intro a ha
  simp only [List.mem_cons, List.not_mem_nil, or_false] at ha
  rcases ha with rfl | rfl | rfl <;> exact ⟨_, rfl, by omega⟩

-- a history with short reads and writes
example : ((opened .random 4 digits [.count 2, .count 1, .count 3]).run
    [.read (some 3), .write [65, 66], .seek (-1) .cur, .read none, .size]).1 =
    [.bytes [48, 49, 50], .num 2, .num 4, .bytes [66, 53, 54, 55, 56, 57], .num 10] := by decide +kernel

/-- The claim of C23 without the restriction. -/
def RefinesAlways : Prop :=
  ∀ {k : BufKind} {n : Int} {raw : Raw} {b : Buf}, Opened k n raw b → Blocking raw.sched → ∀ ops : List StreamOp,
    ∃ f, Conforms k (fileOf raw) (ops.zip (b.run ops).1) f

/-- C23 is false: bytes that were read ahead are returned after the file was cut. -/
theorem C23_refuted : ¬ RefinesAlways := by
  intro hall
  obtain ⟨f, hf⟩ := hall (opened_ok .random 8 (by decide) digits []) (by simp [Blocking, rawOf])
    [.read (some 1), .truncate (some 2), .read (some 5)]
  have hrun : ((opened .random 8 digits []).run [.read (some 1), .truncate (some 2), .read (some 5)]).1 =
      [.bytes [48], .num 2, .bytes [49, 50, 51, 52, 53]] := by decide +kernel
  rw [hrun] at hf
  cases hf with
  | cons h1 hf =>
    cases hf with
    | cons h2 hf =>
      cases hf with
      | cons h3 hf =>
        simp only [Allowed, reduceCtorEq, if_false] at h1 h2 h3
        obtain ⟨_, rfl⟩ := h1
        obtain ⟨_, rfl⟩ := h2
        exact absurd h3.1 (by decide +kernel)

/-- C23 is false: a failing seek after a read moves the position. -/
theorem C23_seek_refuted : ∃ (k : BufKind) (n : Int) (raw : Raw) (b : Buf), Opened k n raw b ∧ Blocking raw.sched ∧
    ¬ ∃ f, Conforms k (fileOf raw) ([.read (some 1), .seek (-1) .set, .tell].zip
      (b.run [.read (some 1), .seek (-1) .set, .tell]).1) f := by
  refine ⟨.random, 4, _, _, opened_ok .random 4 (by decide) digits [], by simp [Blocking, rawOf], ?_⟩
  rintro ⟨f, hf⟩
  have hrun : ((opened .random 4 digits []).run [.read (some 1), .seek (-1) .set, .tell]).1 =
      [.bytes [48], .error (.ioError 22), .num 0] := by decide +kernel
  rw [hrun] at hf
  cases hf with
  | cons h1 hf =>
    cases hf with
    | cons h2 hf =>
      cases hf with
      | cons h3 hf =>
        simp only [Allowed, reduceCtorEq, if_false] at h1 h3
        obtain ⟨_, rfl⟩ := h1
        simp only [Allowed, File.target] at h2
        rw [if_neg (by decide)] at h2
        obtain ⟨_, rfl⟩ := h2
        exact absurd h3.1 (by decide +kernel)

/-! ## C24: size -/

/-- A stream on unix that is open; nothing is assumed about the answers of the system. -/
structure Usable (b : Buf) : Prop where
  opened : b.raw.closed = false
  unix : b.raw.platform = .unix
  writable : b.kind ≠ .reader → b.raw.writable = true
  reader : b.kind = .reader → b.writeBuf = []

/-- The content of the file once all pending bytes are in it. -/
def pendingData (b : Buf) : Bytes := put b.raw.data (landing b.raw) b.writeBuf

theorem landing_eq (s : Raw) : landing s = s.dest := rfl

theorem flush_usable {b : Buf} (h : Usable b) :
    ∃ r b' j, Buf.flush b = (r, b') ∧ Buf.Flushed b r b' j := by
  unfold Buf.flush
  split
  · rename_i hk
    refine ⟨.ok (), b, 0, ?_, ?_⟩
    · rw [PyM.bind_ok (Buf.checkClosed_ok h.opened)]
      exact Buf.onRaw_eq (Raw.checkClosed_ok h.opened)
    · exact ⟨by omega, by simp, by simp, by simp, by simp, Buf.Frame.refl b, Or.inl ⟨rfl, by simp [h.reader hk]⟩,
        fun hb => ⟨rfl, hb⟩, fun hb => ⟨Or.inl rfl, hb⟩⟩
  · rename_i hk
    exact Buf.flushUnlocked_spec h.opened (h.writable hk) h.unix

theorem fill_unix {s : Raw} (h : s.platform = .unix) : s.fill = fun _ => 0 := by
  funext i; simp [Raw.fill, h]

theorem flushed_data {b b' : Buf} {r : Except Exn Unit} {j : Nat} (h : Usable b) (hf : Buf.Flushed b r b' j) :
    b'.raw.data = put b.raw.data (landing b.raw) (b.writeBuf.take j) := by
  rw [hf.data, put_eq, fill_unix h.unix, landing_eq]

/-- What flushing guarantees when it returns. -/
theorem flush_done {b b' : Buf} (h : Usable b) (hf : Buf.flush b = (.ok (), b')) :
    b'.raw.data = pendingData b ∧ b'.writeBuf = [] ∧ Buf.Frame b b' ∧
      (b.raw.append = false → b'.raw.pos = b.raw.pos + b.writeBuf.length) := by
  obtain ⟨r, b'', j, h1, h2⟩ := flush_usable h
  rw [hf] at h1
  cases h1
  have hj : j = b.writeBuf.length := by
    rcases h2.result with ⟨_, h⟩ | h | ⟨e, h, _⟩
    · exact h
    · cases h
    · cases h
  refine ⟨?_, ?_, h2.frame, ?_⟩
  · rw [flushed_data h h2, hj, List.take_length]; rfl
  · rw [h2.left, hj, List.drop_length]
  · intro ha; rw [h2.pos ha, hj]

/-- C24: whatever the system answers, a size that is returned is the size of the file with all pending data in it. -/
theorem C24_size (b b' : Buf) (n : Nat) (h : Usable b) (hs : Buf.size b = (.ok n, b')) :
    n = (pendingData b).length ∧ b'.raw.data = pendingData b := by
  obtain ⟨r, b1, j, h1, h2⟩ := flush_usable h
  unfold Buf.size at hs
  cases r with
  | error e => rw [PyM.bind_error h1] at hs; cases hs
  | ok u =>
    rw [PyM.bind_ok h1, Buf.onRaw_eq (Raw.size_open (h2.frame.raw.closed.trans h.opened))] at hs
    cases hs
    have := (flush_done h h1).1
    exact ⟨by rw [this], this⟩

example : Usable { opened .writer 4 digits [] with writeBuf := [65, 66] } ∧
    (Buf.size { opened .writer 4 digits [] with writeBuf := [65, 66], raw := { rawOf digits [] with pos := 10 } }).1
      = .ok 12 := ⟨⟨rfl, rfl, fun _ => rfl, nofun⟩, by decide +kernel⟩

/-! ## C25: flush and the raw position -/

/-- C25: when `flush()` returns, all pending bytes are in the file, and the raw position is the logical position unless
bytes were read ahead.  Missing: the position when bytes were read ahead, for which it is false (`C25_refuted`). -/
theorem C25_flush_partial (b b' : Buf) (h : Usable b) (ha : b.raw.append = false) (hk : b.raw.seekable = true)
    (hr : b.readBuf = []) (hp : b.readPos = 0) (hf : Buf.flush b = (.ok (), b')) :
    b'.raw.data = pendingData b ∧ b'.writeBuf = [] ∧ (Buf.tell b').1 = .ok b'.raw.pos ∧
      (Buf.tell b').1 = (Buf.tell b).1 := by
  obtain ⟨h1, h2, h3, h4⟩ := flush_done h hf
  have ht : ∀ c : Buf, c.raw.closed = false → c.raw.seekable = true → c.readBuf = [] → c.readPos = 0 →
      (c.kind = .reader → c.writeBuf = []) → (Buf.tell c).1 = .ok (c.raw.pos + c.writeBuf.length) := by
    intro c c1 c2 c3 c4 c5
    unfold Buf.tell
    rw [PyM.bind_ok (Buf.onRaw_eq (Raw.tell_ok c1 c2))]
    simp only [PyM.pure_apply]
    cases hc : c.kind with
    | reader => simp [c3, c4, c5 hc]
    | writer => rfl
    | random =>
      dsimp only
      split
      · rename_i hw; simp [c3, c4, hw]
      · rfl
  have e1 := ht b h.opened hk hr hp h.reader
  have e2 := ht b' (h3.raw.closed.trans h.opened) (h3.raw.seekable.trans hk) (h3.readBuf.trans hr) (h3.readPos.trans hp)
    (fun _ => h2)
  refine ⟨h1, h2, ?_, ?_⟩
  · rw [e2, h2]; rfl
  · rw [e1, e2, h2, h4 ha]; rfl

example :
    (Buf.flush { opened .random 4 digits [.count 1] with writeBuf := [65, 66] }).1 = .ok () ∧
      (Buf.flush { opened .random 4 digits [.count 1] with writeBuf := [65, 66] }).2.raw.data =
        [65, 66, 50, 51, 52, 53, 54, 55, 56, 57] ∧
      (Buf.flush { opened .random 4 digits [.count 1] with writeBuf := [65, 66] }).2.raw.pos = 2 := by decide +kernel

/-- C25 is false after a read: the raw position is ahead of the logical one. -/
theorem C25_refuted : ∃ b b' : Buf, (∃ n raw b₀, Opened .reader n raw b₀ ∧ Blocking raw.sched ∧
    b = (b₀.run [.read (some 1)]).2) ∧ Buf.flush b = (.ok (), b') ∧ (Buf.tell b').1 = .ok 1 ∧ b'.raw.pos = 8 := by
  refine ⟨_, _, ⟨8, _, _, opened_ok .reader 8 (by decide) digits [], by simp [Blocking, rawOf], rfl⟩, rfl, ?_, ?_⟩
  · decide +kernel
  · decide +kernel

/-! ## C20: data is written before the lock is released -/

theorem bind_inv {σ α β : Type} {m : PyM σ α} {g : α → PyM σ β} {s s' : σ} {b : β} (h : (m >>= g) s = (.ok b, s')) :
    ∃ a s1, m s = (.ok a, s1) ∧ g a s1 = (.ok b, s') := by
  rw [PyM.bind_apply] at h
  split at h
  · exact ⟨_, _, by assumption, h⟩
  · cases h

theorem seek_only_moves {o : Int} {w : Whence} {s s' : Raw} {r : Except Exn Nat} (h : Raw.seek o w s = (r, s')) :
    s' = { s with pos := s'.pos } := by
  unfold Raw.seek at h
  rw [PyM.bind_apply] at h
  unfold Raw.checkClosed at h
  split at h
  · rename_i heq
    split at heq
    · cases heq
    · cases heq
      unfold Raw.innerSeek at h
      split at h
      · extract_lets t at h
        by_cases ht : 0 ≤ t
        · rw [if_pos ht] at h; cases h; rfl
        · rw [if_neg ht] at h; cases h; rfl
      · cases h; rfl
  · rename_i heq
    split at heq
    · cases heq; cases h; rfl
    · cases heq

theorem moved_frame {s : Raw} (p : Nat) : Raw.Frame s { s with pos := p } := ⟨rfl, rfl, rfl, rfl, rfl, rfl⟩

/-- What `_reset_buffers` guarantees when it returns, whatever the system answers. -/
theorem resetBuffers_usable {b b' : Buf} (h : Usable b) (hs : Buf.resetBuffers b = (.ok (), b')) :
    b'.raw.data = pendingData b ∧ b'.raw.events = b.raw.events ∧ b'.writeBuf = [] ∧
      (b.kind ≠ .writer → b'.readBuf = []) ∧ Raw.Frame b.raw b'.raw ∧ b'.kind = b.kind := by
  unfold Buf.resetBuffers at hs
  obtain ⟨p, b1, hs, h1⟩ := bind_inv hs
  cases h1
  unfold Buf.seek at hs
  split at hs
  · rename_i hk
    unfold Buf.readerSeek at hs
    rw [PyM.bind_ok (Buf.checkClosed_ok h.opened)] at hs
    obtain ⟨q, b2, g1, g2⟩ := bind_inv hs
    unfold Buf.onRaw at g1
    generalize hq : Raw.seek _ _ b.raw = res at g1
    obtain ⟨r, s'⟩ := res
    have hm := seek_only_moves hq
    dsimp only at g1
    cases g1
    cases g2
    refine ⟨?_, ?_, h.reader hk, fun _ => rfl, ?_, rfl⟩
    · dsimp only; rw [hm]; simp [pendingData, put, h.reader hk]
    · dsimp only; rw [hm]
    · dsimp only; rw [hm]; exact moved_frame _
  · rename_i hk
    unfold Buf.writerSeek at hs
    obtain ⟨q, b2, g1, g2⟩ := bind_inv hs
    have hfl : Buf.flush b = (.ok (), b2) := by unfold Buf.flush; rw [hk]; exact g1
    obtain ⟨f1, f2, f3, f4⟩ := flush_done h hfl
    unfold Buf.onRaw at g2
    generalize hq : Raw.seek _ _ b2.raw = res at g2
    obtain ⟨r, s'⟩ := res
    have hm := seek_only_moves hq
    dsimp only at g2
    cases g2
    refine ⟨?_, ?_, f2, fun hc => absurd hk hc, ?_, f3.kind⟩
    · dsimp only; rw [hm]; exact f1
    · dsimp only; rw [hm]; exact f3.events
    · dsimp only; rw [hm]; exact f3.raw.trans (moved_frame _)
  · rename_i hk
    unfold Buf.randomSeek at hs
    obtain ⟨q, b2, hfl, hs⟩ := bind_inv hs
    obtain ⟨f1, f2, f3, f4⟩ := flush_done h hfl
    obtain ⟨q', b3, hb, hs⟩ := bind_inv hs
    have hb3 : b3 = { b2 with raw := { b2.raw with pos := b3.raw.pos } } := by
      unfold Buf.seekBack at hb
      split at hb
      · cases hb; rfl
      · obtain ⟨u, b4, g1, g2⟩ := bind_inv hb
        unfold Buf.onRaw at g1
        generalize hq : Raw.seek _ _ b2.raw = res at g1
        obtain ⟨r, s'⟩ := res
        have hm := seek_only_moves hq
        dsimp only at g1
        cases g1
        cases g2
        dsimp only
        rw [← hm]
    obtain ⟨v, b4, g1, g2⟩ := bind_inv hs
    unfold Buf.onRaw at g1
    generalize hq : Raw.seek _ _ b3.raw = res at g1
    obtain ⟨r, s'⟩ := res
    have hm := seek_only_moves hq
    dsimp only at g1
    cases g1
    cases g2
    refine ⟨?_, ?_, ?_, fun _ => rfl, ?_, ?_⟩
    · dsimp only; rw [hm, hb3]; exact f1
    · dsimp only; rw [hm, hb3]; exact f3.events
    · dsimp only; rw [hb3]; exact f2
    · dsimp only; rw [hm, hb3]; exact f3.raw.trans (moved_frame _)
    · dsimp only; rw [hb3]; exact f3.kind

theorem onRaw_seek {o : Int} {w : Whence} {b b' : Buf} {r : Except Exn Nat} (h : Buf.onRaw (Raw.seek o w) b = (r, b')) :
    b' = { b with raw := { b.raw with pos := b'.raw.pos } } := by
  unfold Buf.onRaw at h
  generalize hq : Raw.seek _ _ b.raw = res at h
  obtain ⟨r', s'⟩ := res
  have hm := seek_only_moves hq
  dsimp only at h
  cases h
  dsimp only
  rw [← hm]

theorem bind_cases {σ α β : Type} (m : PyM σ α) (g : α → PyM σ β) (s : σ) :
    (∃ a s1, m s = (.ok a, s1) ∧ (m >>= g) s = g a s1) ∨ ∃ e s1, m s = (.error e, s1) ∧ (m >>= g) s = (.error e, s1) := by
  generalize hm : m s = p
  obtain ⟨r, s1⟩ := p
  cases r with
  | ok a => exact Or.inl ⟨a, s1, rfl, PyM.bind_ok hm⟩
  | error e => exact Or.inr ⟨e, s1, rfl, PyM.bind_error hm⟩

/-- Resetting the buffers locks and unlocks nothing. -/
theorem resetBuffers_events {b : Buf} (h : Usable b) : (Buf.resetBuffers b).2.raw.events = b.raw.events := by
  have hseek : (Buf.seek 0 .cur b).2.raw.events = b.raw.events := by
    have hraw : ∀ (o : Int) (w : Whence) (c : Buf), (Buf.onRaw (Raw.seek o w) c).2.raw.events = c.raw.events := by
      intro o w c
      generalize hq : Buf.onRaw (Raw.seek o w) c = res
      obtain ⟨r, c'⟩ := res
      dsimp only
      rw [onRaw_seek hq]
    unfold Buf.seek
    split
    · unfold Buf.readerSeek
      rw [PyM.bind_ok (Buf.checkClosed_ok h.opened)]
      rcases bind_cases (Buf.onRaw (Raw.seek (if Whence.cur = Whence.cur then 0 - ((b.readBuf.length : Int) - b.readPos) else 0)
        Whence.cur)) (fun p => do Buf.resetReadBuf; pure p) b with ⟨a, s1, g1, g2⟩ | ⟨e, s1, g1, g2⟩
      · rw [g2]
        exact congrArg (fun c => c.raw.events) (onRaw_seek g1)
      · rw [g2]
        exact congrArg (fun c => c.raw.events) (onRaw_seek g1)
    · rename_i hk
      obtain ⟨r, b1, j, h1, h2⟩ := Buf.flushUnlocked_spec h.opened (h.writable (by rw [hk]; nofun)) h.unix
      unfold Buf.writerSeek
      cases r with
      | error e => rw [PyM.bind_error h1]; exact h2.frame.events
      | ok u => rw [PyM.bind_ok h1, hraw]; exact h2.frame.events
    · rename_i hk
      obtain ⟨r, b1, j, h1, h2⟩ := flush_usable h
      unfold Buf.randomSeek
      cases r with
      | error e => rw [PyM.bind_error h1]; exact h2.frame.events
      | ok u =>
        rw [PyM.bind_ok h1, ← h2.frame.events]
        have hback : (Buf.seekBack b1).2.raw.events = b1.raw.events := by
          unfold Buf.seekBack
          split
          · rfl
          · rcases bind_cases (Buf.onRaw (Raw.seek ((b1.readPos : Int) - b1.readBuf.length) Whence.cur))
              (fun _ => pure ()) b1 with ⟨a, s1, g1, g2⟩ | ⟨e, s1, g1, g2⟩
            · rw [g2]
              have := hraw ((b1.readPos : Int) - b1.readBuf.length) Whence.cur b1
              rw [g1] at this
              exact this
            · rw [g2]
              have := hraw ((b1.readPos : Int) - b1.readBuf.length) Whence.cur b1
              rw [g1] at this
              exact this
        rcases bind_cases Buf.seekBack
          (fun _ => do
            let p ← Buf.onRaw (Raw.seek 0 Whence.cur)
            Buf.resetReadBuf
            pure p) b1 with ⟨a, s1, g1, g2⟩ | ⟨e, s1, g1, g2⟩
        · rw [g2, ← hback, g1]
          dsimp only
          rcases bind_cases (Buf.onRaw (Raw.seek 0 Whence.cur)) (fun p => do Buf.resetReadBuf; pure p) s1 with
            ⟨a, s2, k1, k2⟩ | ⟨e, s2, k1, k2⟩
          · rw [k2]
            have := hraw 0 Whence.cur s1
            rw [k1] at this
            exact this
          · rw [k2]
            have := hraw 0 Whence.cur s1
            rw [k1] at this
            exact this
        · rw [g2]
          rw [g1] at hback
          exact hback
  unfold Buf.resetBuffers
  rcases bind_cases (Buf.seek 0 .cur) (fun _ => pure ()) b with ⟨a, s1, g1, g2⟩ | ⟨e, s1, g1, g2⟩
  · rw [g2]; rw [g1] at hseek; exact hseek
  · rw [g2]; rw [g1] at hseek; exact hseek

/-- C20, `unlock_file()`: whatever the system answers, either an exception is raised and nothing is released, or the lock
is released at a time when the file contains all pending bytes. -/
theorem C20_unlock (b : Buf) (h : Usable b) (hk : b.raw.seekable = true) :
    ((∃ e, (Buf.unlockFile b).1 = .error e) ∧ (Buf.unlockFile b).2.raw.events = b.raw.events) ∨
    ((Buf.unlockFile b).1 = .ok () ∧ (Buf.unlockFile b).2.raw.events = b.raw.events ++ [.unlock (pendingData b)] ∧
      (Buf.unlockFile b).2.raw.data = pendingData b ∧ (Buf.unlockFile b).2.writeBuf = []) := by
  have hev := resetBuffers_events h
  unfold Buf.unlockFile
  rcases bind_cases Buf.resetBuffers (fun _ => Buf.onRaw Raw.unlockFile) b with ⟨a, s1, g1, g2⟩ | ⟨e, s1, g1, g2⟩
  · right
    rw [g2]
    obtain ⟨f1, f2, f3, f4, f5, f6⟩ := resetBuffers_usable h g1
    have hun : Raw.unlockFile s1.raw = (.ok (), { s1.raw with events := s1.raw.events ++ [.unlock s1.raw.data] }) := by
      unfold Raw.unlockFile
      rw [PyM.bind_ok (Raw.checkSeekable_ok (f5.closed.trans h.opened) (f5.seekable.trans hk))]; rfl
    rw [Buf.onRaw_eq hun]
    exact ⟨rfl, by dsimp only; rw [f2, f1], f1, f3⟩
  · left
    rw [g2]
    rw [g1] at hev
    exact ⟨⟨e, rfl⟩, hev⟩

example : (Buf.unlockFile { opened .random 4 [] [.count 1] with writeBuf := [65, 66, 67] }).2.raw.events =
    [.unlock [65, 66, 67]] := by decide +kernel

/-- C20 over histories: what other processes can read when the lock is released is the content that the calls so far
define. -/
theorem C20_unlock_history {k : BufKind} {n : Int} {raw : Raw} {b : Buf} (h : Opened k n raw b) (hb : Blocking raw.sched)
    (ops : List StreamOp) :
    ∃ pre post f, ops = pre ++ post ∧ Conforms k (fileOf raw) (pre.zip (b.run pre).1) f ∧
      (post = [] ∨ ∃ op rest, post = op :: rest ∧ Unsafe k f op) ∧
      (Buf.unlockFile (b.run pre).2).2.raw.events = (b.run pre).2.raw.events ++ [.unlock f.data] := by
  obtain ⟨pre, post, f, e1, e2, e3, e4, e5⟩ := Buf.run_R ops b _ (h.R hb)
  rw [h.kind] at e2 e5
  obtain ⟨b', g1, g2⟩ := Buf.unlockFile_R e3
  exact ⟨pre, post, f, e1, e2, e5, by rw [g1]; dsimp only; rw [← g2.log, e3.log]⟩

/-- C20 is false for the `with` block: `lock_file()` returns a context manager of the raw stream, whose exit releases the
lock while the bytes are still in the buffer. -/
theorem C20_refuted : ∃ (raw : Raw) (b₀ b : Buf), Opened .writer 8 raw b₀ ∧ Blocking raw.sched ∧ raw.data = [] ∧
    b = (b₀.run [.lock [], .write [65, 66]]).2 ∧ Buf.exitLock b = (.ok (), (Buf.exitLock b).2) ∧
    (Buf.exitLock b).2.raw.events = [.lock [], .unlock []] ∧ (Buf.exitLock b).2.writeBuf = [65, 66] :=
  ⟨_, _, _, opened_ok .writer 8 (by decide) [] [], by simp [Blocking, rawOf], rfl, rfl, rfl, by decide +kernel,
    by decide +kernel⟩

/-- C20, the `with` block: it holds if the caller flushes first. -/
theorem C20_exit_partial (b : Buf) (h : Usable b) (hk : b.raw.seekable = true) (hf : (Buf.flush b).1 = .ok ()) :
    (Buf.exitLock (Buf.flush b).2).2.raw.events = b.raw.events ++ [.unlock (pendingData b)] := by
  obtain ⟨f1, f2, f3, f4⟩ := flush_done (b' := (Buf.flush b).2) h (by rw [← hf])
  generalize (Buf.flush b).2 = c at *
  have hun : Raw.unlockFile c.raw = (.ok (), { c.raw with events := c.raw.events ++ [.unlock c.raw.data] }) := by
    unfold Raw.unlockFile
    rw [PyM.bind_ok (Raw.checkSeekable_ok (f3.raw.closed.trans h.opened) (f3.raw.seekable.trans hk))]; rfl
  unfold Buf.exitLock
  rw [Buf.onRaw_eq hun]
  dsimp only
  rw [f3.events, f1]

example : (Buf.exitLock (Buf.flush { opened .random 4 [] [.count 1] with writeBuf := [65, 66, 67] }).2).2.raw.events =
    [.unlock [65, 66, 67]] := by decide +kernel

/-! ## C21: nothing read before the lock is returned after it -/

/-- C21, whatever the system answers: once `lock_file()` has returned, no byte read before is left in the buffer, nothing
is pending, and the file is what the others left. -/
theorem C21_no_stale (b : Buf) (h : Usable b) (hk : b.raw.seekable = true) (hw : b.kind = .writer → b.readBuf = [])
    (others : Bytes) (b' : Buf) (hl : Buf.lockFile others b = (.ok (), b')) :
    b'.readBuf = [] ∧ b'.writeBuf = [] ∧ b'.raw.data = others ∧
      ∃ b₁, Buf.resetBuffers b = (.ok (), b₁) ∧ b₁.raw.data = pendingData b := by
  unfold Buf.lockFile at hl
  obtain ⟨u, b1, h1, h2⟩ := bind_inv hl
  obtain ⟨f1, f2, f3, f4, f5, f6⟩ := resetBuffers_usable h h1
  have hlock : Raw.lockFile others b1.raw =
      (.ok (), { b1.raw with
        data := others, events := b1.raw.events ++ [.lock others], disk := b1.raw.disk ++ [.content others] }) := by
    unfold Raw.lockFile
    rw [PyM.bind_ok (Raw.checkSeekable_ok (f5.closed.trans h.opened) (f5.seekable.trans hk))]; rfl
  rw [Buf.onRaw_eq hlock] at h2
  cases h2
  refine ⟨?_, f3, rfl, b1, h1, f1⟩
  by_cases hkw : b.kind = .writer
  · obtain ⟨p, b2, g1, g2⟩ := bind_inv h1
    cases g2
    unfold Buf.seek at g1
    rw [hkw] at g1
    dsimp only at g1
    unfold Buf.writerSeek at g1
    obtain ⟨q, b3, k1, k2⟩ := bind_inv g1
    have hfl : Buf.flush b = (.ok (), b3) := by unfold Buf.flush; rw [hkw]; exact k1
    have := onRaw_seek k2
    dsimp only
    rw [this]
    dsimp only
    rw [(flush_done h hfl).2.2.1.readBuf]
    exact hw hkw
  · exact f4 hkw

/-- C21 over histories: `tell()` after `lock_file()` gives the position before it, and `read(n)` gives the bytes that the
others left there. -/
theorem C21_lock_then_read {k : BufKind} {n : Int} {raw : Raw} {b : Buf} (h : Opened k n raw b) (hb : Blocking raw.sched)
    (hk : k ≠ .writer) (ops : List StreamOp) (others : Bytes) (m : Nat) :
    ∃ pre post f, ops = pre ++ post ∧ Conforms k (fileOf raw) (pre.zip (b.run pre).1) f ∧
      (post = [] ∨ ∃ op rest, post = op :: rest ∧ Unsafe k f op) ∧
      ((b.run pre).2.run [.tell, .lock others, .tell, .read (some m)]).1 =
        [.num f.pos, .done, .num f.pos, .bytes ((others.drop f.pos).take m)] := by
  obtain ⟨pre, post, f, e1, e2, e3, e4, e5⟩ := Buf.run_R ops b _ (h.R hb)
  rw [h.kind] at e2 e5 e4
  refine ⟨pre, post, f, e1, e2, e5, ?_⟩
  generalize (b.run pre).2 = c at *
  obtain ⟨c1, g1, g2⟩ := Buf.lockFile_R e3 others
  have hk1 : c1.kind = k := by
    have := (Buf.Keeps.lockFile others c).1
    rw [g1] at this
    exact this.trans e4
  obtain ⟨f2, g3, g4⟩ := Buf.read_R g2 (some (m : Int))
  simp only [Allowed, hk1, hk, if_false] at g3
  rw [if_neg (by omega), if_neg (by omega)] at g3
  simp only [Buf.run, Buf.step, Buf.tell_R e3, g1, Buf.tell_R g2, g3.1]
  simp [StreamOut.ofNat, StreamOut.ofUnit, File.rest]

example : ((opened .reader 8 digits []).run [.read (some 1), .tell, .lock [65, 66, 67], .tell, .read (some 5)]).1 =
    [.bytes [48], .num 1, .done, .num 1, .bytes [66, 67]] := by decide +kernel

/-! ## C22: close -/

/-- C22: whatever the system answers, `close()` closes the raw stream (which releases the locks and the descriptor) after
writing a prefix of the pending bytes: all of them if it returns, else the exception of the flush is reported. -/
theorem C22_close (b : Buf) (h : Usable b) :
    ∃ r b' j, Buf.close b = (r, b') ∧ b'.raw.closed = true ∧ j ≤ b.writeBuf.length ∧
      b'.raw.data = put b.raw.data (landing b.raw) (b.writeBuf.take j) ∧
      b'.raw.events = b.raw.events ++ [.close b'.raw.data] ∧ r = (Buf.flush b).1 ∧
      (r = .ok () → b'.raw.data = pendingData b) := by
  obtain ⟨r, b1, j, h1, h2⟩ := flush_usable h
  have ho : b1.raw.closed = false := h2.frame.raw.closed.trans h.opened
  have hc : Raw.close b1.raw = (.ok (), { b1.raw with closed := true, events := b1.raw.events ++ [.close b1.raw.data] }) := by
    simp [Raw.close, ho]
  have hd := flushed_data h h2
  refine ⟨r, { b1 with raw := { b1.raw with closed := true, events := b1.raw.events ++ [.close b1.raw.data] } }, j, ?_, rfl,
    h2.le, hd, ?_, by rw [h1], ?_⟩
  · unfold Buf.close
    rw [if_neg (by simp [h.opened]), PyM.tryFinally_apply, h1]
    dsimp only
    rw [Buf.onRaw_eq hc]
  · dsimp only; rw [h2.frame.events]
  · intro hr
    subst hr
    exact (flush_done h h1).1

/-- C22: on a file that does not fail, `close()` returns and everything is written. -/
theorem C22_close_blocking (b : Buf) (h : Usable b) (hb : Blocking b.raw.sched) :
    (Buf.close b).1 = .ok () ∧ (Buf.close b).2.raw.closed = true ∧ (Buf.close b).2.raw.data = pendingData b ∧
      (Buf.close b).2.raw.events = b.raw.events ++ [.close (pendingData b)] := by
  obtain ⟨r, b', j, h1, h2, h3, h4, h5, h6, h7⟩ := C22_close b h
  obtain ⟨r1, b1, j1, g1, g2⟩ := flush_usable h
  have hr : r = .ok () := by rw [h6, g1]; exact (g2.blocking hb).1
  rw [h1]
  exact ⟨hr, h2, h7 hr, by rw [← h7 hr]; exact h5⟩

example : (Buf.close { opened .writer 4 [] [.count 1, .fail 5] with writeBuf := [65, 66, 67] }).1 = .error (.ioError 5) ∧
    (Buf.close { opened .writer 4 [] [.count 1, .fail 5] with writeBuf := [65, 66, 67] }).2.raw.events = [.close [65]] ∧
    (Buf.close { opened .writer 4 [] [.count 1] with writeBuf := [65, 66, 67] }).2.raw.events = [.close [65, 66, 67]] := by
  refine ⟨?_, ?_, ?_⟩ <;> decide +kernel

end Verif.Props
