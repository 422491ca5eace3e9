import Verif.Spec.SyncDevice
import Verif.Props.Settled
import Verif.Props.LineBuffering
import Verif.Props.OpenLayers

/-!
# Synchronized streams: C109
-/

set_option autoImplicit false

namespace Verif.Props

open Verif Spec Host OpenArgs

/-! ## The flag -/

/-- C109: the descriptor of a stream opened from a path is synchronized exactly if the mode has the flag `S`. -/
theorem C109_flag {py : Python} {a : OpenArgs} {p : Bytes} (ha : ByPath a p) {w w' : Host} {s : Verif.Opened}
    (h : rsopen py a w = (.ok s, w')) : ∃ d, w'.fds.lookup s.raw.fd = some d ∧ d.ino = s.raw.ino ∧
      (d.sync = true ↔ 'S' ∈ a.modeString) ∧ s.raw.synchronized = d.sync := by
  rcases byPath_course ha h with ⟨e, he, _⟩ | ⟨kw, ext, hfl, _, _, _, ⟨e, he, _⟩ | ⟨_, ino, base, _, ⟨e, k, b, he, _⟩ |
    ⟨_, n, _, _, ⟨e, e', k, he, _⟩ | ⟨k, _, hfin⟩⟩⟩⟩
  · cases he
  · cases he
  · cases he
  · cases he
  have hs := (finish_files hfin).2.1 s rfl
  obtain ⟨k', l, tr, hl, htr, hfc⟩ := finish_course hfin
  rcases hfc with ⟨e, he, _⟩ | ⟨_, rfl, _⟩
  · exact absurd he.symm (closing_ne_ok _ _ _ _)
  refine ⟨⟨ino, kw.read, kw.write || kw.append, kw.append, kw.synchronized, kw.inheritable⟩, ?_, ?_, hfl.synchronized, ?_⟩
  · rw [hs]; exact RawObj.lookup_entry kw ino w.freeFd kw.inheritable k base
  · rw [hs]; rfl
  · rw [hs]; rfl

/-- The descriptor 3 was opened without `O_SYNC`. -/
def sharedFd : Host := { machine with fds := (3, ⟨0, true, true, false, false, false⟩) :: machine.fds }

/-- C109 is false for streams on a given descriptor: the flag has no effect on it, although the stream says that it is
synchronized. -/
theorem C109_wrapped_refuted : ∃ (py : Python) (a : OpenArgs) (w w' : Host) (s : Verif.Opened) (d : Desc), a.name = .none ∧
    a.fileno = some 3 ∧ 'S' ∈ a.modeString ∧ rsopen py a w = (.ok s, w') ∧ s.raw.synchronized = true ∧
    w'.fds.lookup s.raw.fd = some d ∧ d.sync = false := by
  refine ⟨unixPython, { call [] "WSB" with name := .none, fileno := some 3, buffering := .given 0 }, sharedFd,
    (rsopen unixPython { call [] "WSB" with name := .none, fileno := some 3, buffering := .given 0 } sharedFd).2,
    ⟨⟨3, 0, true, false, true, false, false, false, true, false, true⟩, none, none, some .threading⟩,
    ⟨0, true, true, false, false, false⟩, rfl, rfl, by decide, ?_, rfl, ?_, rfl⟩
  · exact Prod.ext (by decide +kernel) rfl
  · decide +kernel

/-! ## What is stored -/

/-- Consecutive states of a raw stream. -/
def Flows (s : Raw) : Course → Prop
  | [] => True
  | (_, s') :: rest => Grows s s' ∧ Flows s' rest

/-- The last state. -/
def finalRaw (s : Raw) : Course → Raw
  | [] => s
  | (_, s') :: rest => finalRaw s' rest

theorem afterSync_settled {d : Device} {c : Bytes} (h : d.Settled c) (l : List DiskEv) :
    (d.afterSync l).Settled (lastContent c l) := by
  induction l generalizing d c with
  | nil => exact h
  | cons e l ih =>
    cases e with
    | content v => exact ih ⟨h.1, rfl⟩
    | flushed k => exact ih h
    | writeError => exact ih h

theorem deviceAfter_settled {d : Device} {s : Raw} (h : d.Settled s.data) (c : Course) (hf : Flows s c)
    (hp : ∀ x ∈ c, x.1 = true) : (deviceAfter d s c).Settled (finalRaw s c).data := by
  induction c generalizing d s with
  | nil => exact h
  | cons x c ih =>
    obtain ⟨p, s'⟩ := x
    obtain rfl : p = true := hp (p, s') (by simp)
    obtain ⟨⟨l, h1, h2⟩, hf⟩ := hf
    refine ih ?_ hf (fun x hx => hp x (by simp [hx]))
    rw [if_pos rfl, h1, List.drop_left, h2]
    exact afterSync_settled h l

/-- What is stored survives. -/
theorem durable_of_settled {d : Device} {c : Bytes} (h : d.Settled c) : Durable d [] c := by
  intro p left hm i hi
  have hall : ∀ v, v ∈ (d.after p).lost ++ (d.after p).recent → v[i]? = c[i]? := by
    intro v hv
    rcases after_mem _ _ _ hv with h' | h'
    · rw [h.1, h.2, List.nil_append, List.mem_singleton] at h'
      rw [h']
    · exact hi v h'
  obtain ⟨⟨v, hv, hlen⟩, hbytes⟩ := hm
  by_cases hlt : i < left.length
  · rcases hbytes i hlt with ⟨w, hw', he⟩ | ⟨w, hw', he⟩
    · rw [← he, hall w hw']
    · have h1 : v[i]? = w[i]? := (hall v hv).trans (hall w hw').symm
      rw [List.getElem?_eq_none he, List.getElem?_eq_none_iff] at h1
      omega
  · rw [List.getElem?_eq_none (by omega), ← hall v hv, List.getElem?_eq_none (by omega)]

/-! ## Raw streams -/

/-- A call on a raw stream. -/
inductive RawCall where
  | read (n : Option Int)
  | readinto (dst : Bytes)
  | write (d : Bytes)
  | seek (o : Int) (w : Whence)
  | tell
  | size
  | flush
  | sync (fdatasync metadata fullFlush : Bool)
  | truncate (n : Option Int) (zeroFill : Bool)
  | lock (others : Bytes)
  | unlock
  | close

/-- The state after it, whether it raised or not. -/
def rawAfter (s : Raw) : RawCall → Raw
  | .read n => (Raw.read n s).2
  | .readinto d => (Raw.readinto d s).2
  | .write d => (Raw.write d s).2
  | .seek o w => (Raw.seek o w s).2
  | .tell => (Raw.tell s).2
  | .size => (Raw.size s).2
  | .flush => (Raw.flush s).2
  | .sync a m f => (Raw.sync a m f s).2
  | .truncate n z => (Raw.truncate n z s).2
  | .lock o => (Raw.lockFile o s).2
  | .unlock => (Raw.unlockFile s).2
  | .close => (Raw.close s).2

/-- The calls that can only write. -/
def rawPlain : RawCall → Bool
  | .truncate _ _ | .lock _ => false
  | _ => true

def rawCourse (s : Raw) : List RawCall → Course
  | [] => []
  | o :: os => (rawPlain o, rawAfter s o) :: rawCourse (rawAfter s o) os

def rawAfterAll (s : Raw) : List RawCall → Raw
  | [] => s
  | o :: os => rawAfterAll (rawAfter s o) os

theorem rawAfter_grows (s : Raw) (o : RawCall) : Grows s (rawAfter s o) := by
  cases o with
  | read n => exact Grows.steps.read n s
  | readinto d => exact Grows.steps.readinto d s
  | write d => exact Grows.steps.write d s
  | seek o w => exact Grows.steps.seek o w s
  | tell => exact Grows.steps.tell s
  | size => exact Grows.steps.size s
  | flush => exact Grows.steps.flush s
  | sync a m f => exact Grows.steps.sync a m f s
  | truncate n z => exact Grows.steps.truncate n z s
  | lock o => exact Grows.steps.lockFile o s
  | unlock => exact Grows.steps.unlockFile s
  | close => exact Grows.close s

theorem rawCourse_flows (os : List RawCall) (s : Raw) : Flows s (rawCourse s os) ∧ finalRaw s (rawCourse s os) = rawAfterAll s os := by
  induction os generalizing s with
  | nil => exact ⟨trivial, rfl⟩
  | cons o os ih => exact ⟨⟨rawAfter_grows s o, (ih _).1⟩, (ih _).2⟩

theorem rawCourse_plain {os : List RawCall} (h : ∀ o ∈ os, rawPlain o = true) (s : Raw) : ∀ x ∈ rawCourse s os, x.1 = true := by
  induction os generalizing s with
  | nil => nofun
  | cons o os ih =>
    intro x hx
    rcases List.mem_cons.1 hx with rfl | hx
    · exact h o (by simp)
    · exact ih (fun o ho => h o (by simp [ho])) _ x hx

theorem rawCourse_append (os : List RawCall) (o : RawCall) (s : Raw) :
    rawCourse s (os ++ [o]) = rawCourse s os ++ [(rawPlain o, rawAfter (rawAfterAll s os) o)] := by
  induction os generalizing s with
  | nil => rfl
  | cons p os ih => exact congrArg _ (ih _)

theorem rawAfterAll_append (os : List RawCall) (o : RawCall) (s : Raw) :
    rawAfterAll s (os ++ [o]) = rawAfter (rawAfterAll s os) o := by
  induction os generalizing s with
  | nil => rfl
  | cons p os ih => exact ih _

/-- C109, raw streams: the file and the device agree before; the stream is used in any way, but neither cuts the file nor waits for
others.  When `write` returns `n`, the first `n` bytes are in the file, where they belong, and on the device, with the rest of the
file: a crash at any later time can only change bytes that were changed later. -/
theorem C109_raw (s : Raw) (hp : s.platform = .unix) (d : Device) (hd : d.Settled s.data) (os : List RawCall)
    (hpl : ∀ o ∈ os, rawPlain o = true) (buf : Bytes) (n : Nat) (s' : Raw)
    (hw : Raw.write buf (rawAfterAll s os) = (.ok (some n), s')) :
    n ≤ buf.length ∧ (buf ≠ [] → 1 ≤ n) ∧
      s'.data = put (rawAfterAll s os).data (landing (rawAfterAll s os)) (buf.take n) ∧
      Durable (deviceAfter d s (rawCourse s (os ++ [.write buf]))) [] s'.data := by
  have hplat : (rawAfterAll s os).platform = .unix := by
    have : ∀ (os : List RawCall) (s : Raw), (rawAfterAll s os).platform = s.platform := by
      intro os
      induction os with
      | nil => intro s; rfl
      | cons o os ih =>
        intro s
        refine (ih _).trans ?_
        cases o with
        | read n => exact (Fixed.steps.read n s).platform
        | readinto d => exact (Fixed.steps.readinto d s).platform
        | write d => exact (Fixed.steps.write d s).platform
        | seek o w => exact (Fixed.steps.seek o w s).platform
        | tell => exact (Fixed.steps.tell s).platform
        | size => exact (Fixed.steps.size s).platform
        | flush => exact (Fixed.steps.flush s).platform
        | sync a m f => exact (Fixed.steps.sync a m f s).platform
        | truncate n z => exact (Fixed.steps.truncate n z s).platform
        | lock o => exact (Fixed.steps.lockFile o s).platform
        | unlock => exact (Fixed.steps.unlockFile s).platform
        | close => dsimp only [rawAfter]; unfold Raw.close; split <;> rfl
    rw [this, hp]
  have hfin : rawAfterAll s (os ++ [.write buf]) = s' := by
    rw [rawAfterAll_append]
    change (Raw.write buf (rawAfterAll s os)).2 = s'
    rw [hw]
  have hset := deviceAfter_settled hd _ (rawCourse_flows (os ++ [.write buf]) s).1 (rawCourse_plain (by
    intro o ho
    rcases List.mem_append.1 ho with ho | ho
    · exact hpl o ho
    · rw [List.mem_singleton.1 ho]; rfl) s)
  rw [(rawCourse_flows _ _).2, hfin] at hset
  generalize hq : rawAfterAll s os = q at *
  have ho : q.closed = false := by
    cases hc : q.closed with
    | false => rfl
    | true =>
      unfold Raw.write at hw
      rw [PyM.bind_apply, Raw.checkClosed, if_pos hc] at hw
      cases hw
  have hwr : q.writable = true := by
    cases hc : q.writable with
    | true => rfl
    | false =>
      unfold Raw.write at hw
      rw [PyM.bind_ok (Raw.checkClosed_ok ho), PyM.bind_apply, Raw.checkWritable, if_neg (by simp [ho]), if_neg (by simp [hc])] at hw
      cases hw
  rw [Raw.write_unix buf ho hwr hplat] at hw
  have hfill : q.fill = fun _ => 0 := by funext i; unfold Raw.fill; rw [hplat]
  rcases Raw.osWrite_cases q.append buf q with ⟨k, sched', hk, h, _⟩ | ⟨sched', h, hs⟩ | ⟨e, sched', h⟩
  · rw [h] at hw
    dsimp only at hw
    split at hw
    · cases hw
    · rename_i hz
      cases hw
      refine ⟨hk, fun hne => ?_, ?_, durable_of_settled hset⟩
      · exact Nat.one_le_iff_ne_zero.2 fun h0 => hz ⟨hne, h0⟩
      · rw [put_eq, ← hfill]; rfl
  · rw [h] at hw; cases hw
  · rw [h] at hw; cases hw

-- a short write to a synchronized file
example : let s := rawOf [1, 2, 3] [.count 1]
    Raw.write [7, 8] (rawAfterAll s [.seek 1 .set]) = (.ok (some 1), rawAfterAll s [.seek 1 .set, .write [7, 8]]) ∧
      (rawAfterAll s [.seek 1 .set, .write [7, 8]]).data = [1, 7, 3] ∧
      (deviceAfter ⟨[], [[1, 2, 3]]⟩ s (rawCourse s [.seek 1 .set, .write [7, 8]])).recent = [[1, 7, 3]] :=
  ⟨rfl, rfl, rfl⟩

-- through an ordinary descriptor the old content may be found
example : ¬ Durable ⟨[], [[1, 2, 3]]⟩ (rawAfterAll (rawOf [1, 2, 3] []) [.write [7]]).disk [7, 2, 3] := by
  intro h
  exact absurd (h.same [] [1, 2, 3] ⟨⟨[1, 2, 3], by decide, rfl⟩, fun i _ => .inl ⟨[1, 2, 3], by decide, rfl⟩⟩ (by simp)) (by decide)

/-! ## Buffered streams -/

/-- The calls that can only write. -/
def bufPlain : AnyOp → Bool
  | .op (.truncate _) | .op (.lock _) => false
  | _ => true

def bufCourse (b : Buf) : List AnyOp → Course
  | [] => []
  | o :: os => (bufPlain o, (after1 b o).raw) :: bufCourse (after1 b o) os

theorem bufCourse_flows (os : List AnyOp) (b : Buf) :
    Flows b.raw (bufCourse b os) ∧ finalRaw b.raw (bufCourse b os) = (afterAll b os).raw := by
  induction os generalizing b with
  | nil => exact ⟨trivial, rfl⟩
  | cons o os ih => exact ⟨⟨after1_grows b o, (ih _).1⟩, (ih _).2⟩

theorem bufCourse_plain {os : List AnyOp} (h : ∀ o ∈ os, bufPlain o = true) (b : Buf) : ∀ x ∈ bufCourse b os, x.1 = true := by
  induction os generalizing b with
  | nil => nofun
  | cons o os ih =>
    intro x hx
    rcases List.mem_cons.1 hx with rfl | hx
    · exact h o (by simp)
    · exact ih (fun o ho => h o (by simp [ho])) _ x hx

theorem afterAll_append (os : List AnyOp) (o : AnyOp) (b : Buf) : afterAll b (os ++ [o]) = after1 (afterAll b os) o := by
  induction os generalizing b with
  | nil => rfl
  | cons p os ih => exact ih _

/-- C109, buffered streams: after every call, whatever its outcome, what others see in the file is on the device.  What a crash
takes is what the buffer holds.
Missing: the bytes in the buffer, see `C109_refuted`. -/
theorem C109_buffered_partial {kind : BufKind} {n : Int} {raw : Raw} {b : Buf} (hc : Buf.create kind n raw = .ok b) (d : Device)
    (hd : d.Settled raw.data) (os : List AnyOp) (hpl : ∀ o ∈ os, bufPlain o = true) :
    Durable (deviceAfter d raw (bufCourse b os)) [] (afterAll b os).raw.data := by
  obtain ⟨rfl, _⟩ := create_ok hc
  have h := deviceAfter_settled hd _ (bufCourse_flows os ⟨kind, n.toNat, raw, [], 0, []⟩).1 (bufCourse_plain hpl _)
  rw [show finalRaw raw _ = _ from (bufCourse_flows os ⟨kind, n.toNat, raw, [], 0, []⟩).2] at h
  exact durable_of_settled h

/-- C109, buffered streams: when `flush()` returns, all bytes written so far are on the device, without any call of `sync()`. -/
theorem C109_flush_partial {kind : BufKind} {n : Int} {raw : Raw} {b : Buf} (hc : Buf.create kind n raw = .ok b)
    (hp : raw.platform = .unix) (d : Device) (hd : d.Settled raw.data) (os : List AnyOp) (hpl : ∀ o ∈ os, bufPlain o = true) (b' : Buf)
    (hf : Buf.flush (afterAll b os) = (.ok (), b')) :
    b'.writeBuf = [] ∧
      Durable (deviceAfter d raw (bufCourse b (os ++ [.op .flush]))) [] (pendingData (afterAll b os)) := by
  have ho : (afterAll b os).raw.closed = false := by
    have := (Fixed.steps.bFlush (afterAll b os)).closed
    cases hcl : (afterAll b os).raw.closed with
    | false => rfl
    | true =>
      exfalso
      generalize afterAll b os = q at *
      unfold Buf.flush at hf
      split at hf
      · simp [PyM.bind_apply, Buf.checkClosed, hcl] at hf
      · simp [Buf.flushUnlocked, PyM.bind_apply, Buf.checkClosed, hcl] at hf
  obtain ⟨h1, h2, _, _⟩ := flush_done (usable_after hc hp os ho) hf
  have h := C109_buffered_partial hc d hd (os ++ [.op .flush]) (by
    intro o ho
    rcases List.mem_append.1 ho with ho | ho
    · exact hpl o ho
    · rw [List.mem_singleton.1 ho]; rfl)
  rw [afterAll_append] at h
  have he : (after1 (afterAll b os) (.op .flush)).raw.data = b'.raw.data := by
    change (Buf.step (afterAll b os) .flush).2.raw.data = _
    unfold Buf.step
    rw [hf]
  rw [he, h1] at h
  exact ⟨h2, h⟩

-- two writes; the second one fills the buffer
example : let b := opened .writer 2 [] []
    (Buf.flush (afterAll b [.op (.write [1, 2]), .op (.write [3])])).1 = .ok () ∧
      pendingData (afterAll b [.op (.write [1, 2]), .op (.write [3])]) = [1, 2, 3] ∧
      (deviceAfter ⟨[], [[]]⟩ b.raw (bufCourse b [.op (.write [1, 2])])).recent = [[]] ∧
      (deviceAfter ⟨[], [[]]⟩ b.raw (bufCourse b [.op (.write [1, 2]), .op (.write [3])])).recent = [[1, 2, 3]] := by
  decide +kernel

/-- What the flag is for: when `write` returns the number of bytes, they are on the device. -/
def WritesThrough : Prop := ∀ (kind : BufKind) (n : Int) (raw : Raw) (b b' : Buf) (d : Device) (data : Bytes),
  Buf.create kind n raw = .ok b → raw.platform = .unix → d.Settled raw.data → Buf.write data b = (.ok data.length, b') →
  Durable (deviceAfter d raw (bufCourse b [.op (.write data)])) [] (put raw.data (landing raw) data)

/-- C109 is false for buffered streams, always: the first write returns without any call of the system, if the buffer is as large
as the bytes, and a crash leaves the file as it was. -/
theorem C109_lost {kind : BufKind} {n : Int} {raw : Raw} {b : Buf} (hc : Buf.create kind n raw = .ok b) (hk : kind ≠ .reader)
    (d : Device) (hd : d.Settled raw.data) (data : Bytes) (hl : data.length ≤ n) :
    (Buf.write data b).1 = .ok data.length ∧
      (deviceAfter d raw (bufCourse b [.op (.write data)])).MayLeave raw.data := by
  obtain ⟨rfl, hn, hcl, _⟩ := create_ok hc
  have hw : Buf.write data ⟨kind, n.toNat, raw, [], 0, []⟩ = (.ok data.length, ⟨kind, n.toNat, raw, [], 0, data⟩) := by
    have h1 : Buf.writerWrite data ⟨kind, n.toNat, raw, [], 0, []⟩ = (.ok data.length, ⟨kind, n.toNat, raw, [], 0, data⟩) := by
      unfold Buf.writerWrite
      rw [PyM.bind_ok (Buf.checkClosed_ok hcl), PyM.bind_ok (a := ()) (s' := ⟨kind, n.toNat, raw, [], 0, []⟩) (by simp [Buf.preFlush]),
        PyM.bind_ok (a := ()) (s' := ⟨kind, n.toNat, raw, [], 0, data⟩) (by simp [PyM.modify])]
      unfold Buf.overflowFlush
      rw [if_neg (by simp only; omega)]
    unfold Buf.write
    cases kind with
    | reader => exact absurd rfl hk
    | writer => exact h1
    | random =>
      dsimp only
      rw [PyM.bind_ok (a := ()) (s' := ⟨.random, n.toNat, raw, [], 0, []⟩) (by simp [Buf.undoReadAhead])]
      exact h1
  refine ⟨by rw [hw], ?_⟩
  have hs : (after1 ⟨kind, n.toNat, raw, [], 0, []⟩ (.op (.write data))).raw = raw := by
    change (Buf.write data _).2.raw = _
    rw [hw]
  have hdev : deviceAfter d raw (bufCourse ⟨kind, n.toNat, raw, [], 0, []⟩ [.op (.write data)]) = d := by
    simp [bufCourse, deviceAfter, bufPlain, hs, Device.afterSync]
  rw [hdev]
  exact ⟨⟨raw.data, by rw [hd.1, hd.2]; simp, rfl⟩, fun i _ => .inl ⟨raw.data, by rw [hd.1, hd.2]; simp, rfl⟩⟩

/-- C109 is false: `rsopen(path, "WSB")` returns such a stream. -/
theorem C109_refuted : ¬ WritesThrough ∧
    ∃ (s : Verif.Opened) (w' : Host) (d : Desc), rsopen unixPython (call [102] "WSB") machine = (.ok s, w') ∧
      s.buffer = some (.writer, 4096) ∧ w'.fds.lookup s.raw.fd = some d ∧ d.sync = true := by
  refine ⟨fun h => ?_, ⟨⟨3, 0, true, false, true, false, false, false, true, false, true⟩, some (.writer, 4096), none,
    some .threading⟩, (rsopen unixPython (call [102] "WSB") machine).2, ⟨0, false, true, false, true, false⟩,
    Prod.ext (by decide +kernel) rfl, rfl, by decide +kernel, rfl⟩
  have hc : Buf.create .writer 8 (rawOf [] []) = .ok (opened .writer 8 [] []) := (opened_ok .writer 8 (by decide) [] []).1
  have h1 := C109_lost hc (by decide) ⟨[], [[]]⟩ ⟨rfl, rfl⟩ [65] (by decide)
  have h2 := h .writer 8 (rawOf [] []) _ (Buf.write [65] (opened .writer 8 [] [])).2 ⟨[], [[]]⟩ [65] hc rfl ⟨rfl, rfl⟩
    (Prod.ext h1.1 rfl)
  have := (h2.same [] [] h1.2 (by simp))
  revert this
  decide

/-! ## Text streams -/

variable {C : Codec}

/-- The calls that can only write. -/
def textPlain : Txt.Op → Bool
  | .truncate _ | .lock _ => false
  | _ => true

def textCourse (guess : Nat × Nat → Nat → Nat) (t : Txt C) : List Txt.Op → Course
  | [] => []
  | o :: os => (textPlain o, (t.step guess o).2.buf.raw) :: textCourse guess (t.step guess o).2 os

theorem textCourse_flows (guess : Nat × Nat → Nat → Nat) (os : List Txt.Op) (t : Txt C) : Flows t.buf.raw (textCourse guess t os) ∧
    finalRaw t.buf.raw (textCourse guess t os) = (Txt.run guess t os).2.buf.raw := by
  induction os generalizing t with
  | nil => exact ⟨trivial, rfl⟩
  | cons o os ih =>
    refine ⟨⟨?_, (ih _).1⟩, (ih _).2⟩
    exact (Grows.steps.bufs.tRun guess (ops := [o]) (fun _ z => Grows.steps.bTruncate (some z))
      (fun _ => Grows.steps.bClose Grows.close) t).buf

theorem textCourse_plain (guess : Nat × Nat → Nat → Nat) {os : List Txt.Op} (h : ∀ o ∈ os, textPlain o = true) (t : Txt C) :
    ∀ x ∈ textCourse guess t os, x.1 = true := by
  induction os generalizing t with
  | nil => nofun
  | cons o os ih =>
    intro x hx
    rcases List.mem_cons.1 hx with rfl | hx
    · exact h o (by simp)
    · exact ih (fun o ho => h o (by simp [ho])) _ x hx

theorem devRun_append (guess : Nat × Nat → Nat → Nat) (os : List Txt.Op) (o : Txt.Op) (t : Txt C) :
    (Txt.run guess t (os ++ [o])).2 = (Txt.step guess (Txt.run guess t os).2 o).2 := by
  induction os generalizing t with
  | nil => rfl
  | cons p os ih => exact ih _

/-- C109, text streams: after every call, what others see in the file is on the device.
Missing: the bytes in the buffer. -/
theorem C109_text_partial (t : Txt C) (d : Device) (hd : d.Settled t.buf.raw.data) (guess : Nat × Nat → Nat → Nat)
    (os : List Txt.Op) (hpl : ∀ o ∈ os, textPlain o = true) :
    Durable (deviceAfter d t.buf.raw (textCourse guess t os)) [] (Txt.run guess t os).2.buf.raw.data := by
  have h := deviceAfter_settled hd _ (textCourse_flows guess os t).1 (textCourse_plain guess hpl t)
  rw [(textCourse_flows guess os t).2] at h
  exact durable_of_settled h

/-- C109, text streams with line buffering: when `write` of a text that ends a line returns, all text written so far is on the
device. -/
theorem C109_line {nl : Newline} {ls : Text} {kind : BufKind} {n : Int} {raw : Raw} {t : Txt C}
    (h : Built nl true ls kind n raw t) (hp : raw.platform = .unix) (d : Device) (hd : d.Settled t.buf.raw.data)
    (guess : Nat × Nat → Nat → Nat) (os : List Txt.Op) (hpl : ∀ o ∈ os, textPlain o = true) (s : Text)
    (hs : EndsLine (Txt.run guess t os).2 s) (m : Nat) (t' : Txt C)
    (hw : Txt.write s (Txt.run guess t os).2 = (.ok m, t')) :
    t'.buf.writeBuf = [] ∧ ∃ bytes enc k b, C.encode ((Txt.run guess t os).2.encoder.getD C.encInit)
        ((Txt.run guess t os).2.newlines s) = .ok (bytes, enc) ∧
      Buf.write bytes (Txt.run guess t os).2.buf = (.ok k, b) ∧
      Durable (deviceAfter d t.buf.raw (textCourse guess t (os ++ [.write s]))) [] (pendingData b) := by
  have hlb0 : t.lineBuffering = true := by
    obtain ⟨b, h1, h2⟩ := h
    obtain ⟨rfl, _, hc, _, hw⟩ := create_ok h1
    unfold Txt.create at h2
    rw [if_neg (by simp [hc])] at h2
    have := (Grows.steps.bufs.tConfigure (C := C)
      ⟨⟨kind, n.toNat, raw, [], 0, []⟩, nl, true, ls, raw.seekable, raw.seekable, none, none, [], 0, none, (0, 0)⟩).lineBuffering
    rw [h2] at this
    exact this
  have hlb : (Txt.run guess t os).2.lineBuffering = true :=
    (Grows.steps.bufs.tRun guess (ops := os) (fun _ z => Grows.steps.bTruncate (some z))
      (fun _ => Grows.steps.bClose Grows.close) t).lineBuffering.trans hlb0
  have ho : (Txt.run guess t os).2.buf.raw.closed = false := by
    cases hc : (Txt.run guess t os).2.buf.raw.closed with
    | false => rfl
    | true =>
      unfold Txt.write at hw
      rw [PyM.bind_apply, Txt.checkClosed, Txt.onBuf, Buf.checkClosed, if_pos hc] at hw
      cases hw
  obtain ⟨h1, bytes, enc, k, b, h2, h3, h4⟩ := C74_line _ _ s m (text_usable h hp guess os ho) hlb hs hw
  refine ⟨h1, bytes, enc, k, b, h2, h3, ?_⟩
  have hdur := C109_text_partial t d hd guess (os ++ [.write s]) (by
    intro o ho
    rcases List.mem_append.1 ho with ho | ho
    · exact hpl o ho
    · rw [List.mem_singleton.1 ho]; rfl)
  rw [devRun_append] at hdur
  have he : (Txt.step guess (Txt.run guess t os).2 (.write s)).2 = t' := by
    change (Txt.Out.of Txt.Out.num (Txt.write s (Txt.run guess t os).2)).2 = t'
    rw [hw]; rfl
  rw [he, h4] at hdur
  exact hdur

-- a line is stored at once
example : let t := lineStream .auto []
    Built .auto true [13, 10] .writer 8 (rawOf [] []) t ∧ EndsLine (Txt.run (fun _ _ => 0) t [.write [65]]).2 [66, 10] ∧
      (deviceAfter ⟨[], [[]]⟩ t.buf.raw (textCourse (fun _ _ => 0) t [.write [65]])).recent = [[]] ∧
      (deviceAfter ⟨[], [[]]⟩ t.buf.raw (textCourse (fun _ _ => 0) t [.write [65], .write [66, 10]])).recent =
        [[65, 66, 13, 10]] :=
  ⟨⟨opened .writer 8 [] [], (opened_ok .writer 8 (by decide) [] []).1, rfl⟩, Or.inl (by decide), by decide +kernel,
    by decide +kernel⟩

end Verif.Props
