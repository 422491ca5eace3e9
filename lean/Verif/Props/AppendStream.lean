import Verif.Lemmas.PortedTruncate
import Verif.Props.Ported

/-!
# C121: buffered streams in append mode
-/

set_option autoImplicit false

namespace Verif.Props

open Verif Verif.Spec

/-- A stream that was just opened on a regular file in append mode. -/
structure OpenedToAppend (kind : BufKind) (size : Int) (raw : Raw) (b : Buf) : Prop where
  created : Buf.create kind size raw = .ok b
  unix : raw.platform = .unix
  append : raw.append = true
  seekable : raw.seekable = true
  writes : kind ≠ .reader

theorem OpenedToAppend.kind {k : BufKind} {n : Int} {raw : Raw} {b : Buf} (h : OpenedToAppend k n raw b) : b.kind = k := by
  rw [(create_ok h.created).1]

theorem OpenedToAppend.appends {k : BufKind} {n : Int} {raw : Raw} {b : Buf} (h : OpenedToAppend k n raw b) (hb : Blocking raw.sched) :
    Buf.Appends b ⟨fileOf raw, false⟩ := by
  obtain ⟨rfl, h2, h3, h4, h5⟩ := create_ok h.created
  exact .of_plain h.append h.writes rfl ⟨⟨h3, h.unix, rfl, h.seekable, h4, h5, hb, by show 0 < n.toNat; omega⟩, Nat.le_refl _,
    by simp [Buf.extra, Buf.plain], Or.inl rfl, fun _ => rfl, fun _ => rfl, by simp [fileOf, Buf.plain, Raw.plain],
    by simp [Buf.extra, fileOf, Buf.plain, Raw.plain], fun _ => rfl, rfl⟩

/-- C121.  For all histories, buffer sizes and patterns of short reads and writes, the results are those of a byte array whose writes go
to its end, up to the first call in `AppendUnsafe`; other processes see its content at every `lock_file` and `unlock_file`; if the stream is flushed there, the file has the bytes of the array.
Missing: the calls in `AppendUnsafe`, for which it is false (`C121_refuted`, `C121_truncate_refuted`, and as for `C23_refuted`). -/
theorem C121_append_partial {k : BufKind} {n : Int} {raw : Raw} {b : Buf} (h : OpenedToAppend k n raw b) (hb : Blocking raw.sched)
    (ops : List StreamOp) :
    ∃ pre post f, ops = pre ++ post ∧ AppendConforms k ⟨fileOf raw, false⟩ (pre.zip (b.run pre).1) f ∧
      (post = [] ∨ ∃ op rest, post = op :: rest ∧ AppendUnsafe k f op) ∧ (b.run pre).2.raw.events = f.file.log ∧
      (Buf.flush (b.run pre).2).1 = .ok () ∧ (Buf.flush (b.run pre).2).2.raw.data = f.file.data := by
  obtain ⟨pre, post, f, e1, e2, e3, e4⟩ := Buf.Appends.run ops b _ (h.appends hb)
  rw [h.kind] at e2 e4
  obtain ⟨b', g1, g2, g3, g4, g5, g6, g7⟩ := e3.flush
  exact ⟨pre, post, f, e1, e2, e4, e3.log, by rw [g1], by rw [g1]; exact g6.data' g2⟩

/-- C121 without restriction for streams opened for appending only and never asked for their position. -/
theorem C121_writer {n : Int} {raw : Raw} {b : Buf} (h : OpenedToAppend .writer n raw b) (hb : Blocking raw.sched)
    (ops : List StreamOp) (ht : .tell ∉ ops) :
    ∃ f, AppendConforms .writer ⟨fileOf raw, false⟩ (ops.zip (b.run ops).1) f ∧
      (Buf.flush (b.run ops).2).1 = .ok () ∧ (Buf.flush (b.run ops).2).2.raw.data = f.file.data := by
  obtain ⟨pre, post, f, rfl, e2, e3, _, e4, e5⟩ := C121_append_partial h hb ops
  rcases e3 with rfl | ⟨op, rest, rfl, hu⟩
  · rw [List.append_nil]; exact ⟨f, e2, e4, e5⟩
  · rcases hu with hu | ⟨_, rfl | ⟨hk, _⟩⟩
    · exact nomatch Unsafe.random hu
    · simp at ht
    · cases hk

/-- Calls that leave the position at the end of the file if it was there. -/
def Logs : StreamOp → Prop
  | .write _ | .tell | .flush | .size => True
  | _ => False

theorem logs_end {k : BufKind} {f f' : AppendFile} {h : List (StreamOp × StreamOut)} (hc : AppendConforms k f h f')
    (hl : ∀ e ∈ h, Logs e.1) (hp : f.file.pos = f.file.data.length) (hf : f.late = false) :
    f'.file.pos = f'.file.data.length ∧ f'.late = false := by
  induction hc with
  | nil f => exact ⟨hp, hf⟩
  | @cons f f1 f2 op out rest ha _ ih =>
    have hop := hl _ List.mem_cons_self
    have hrest : ∀ e ∈ rest, Logs e.1 := fun e he => hl e (List.mem_cons_of_mem _ he)
    have same : Allowed k f.file op out f1.file ∧ (f1.late = true ↔ f.late = true ∧ Idles k op) → f1.file = f.file →
        f1.file.pos = f1.file.data.length ∧ f1.late = false := by
      intro h1 h2
      refine ⟨by rw [h2]; exact hp, ?_⟩
      cases hx : f1.late with
      | false => rfl
      | true => exact absurd (h1.2.1 hx).1 (by rw [hf]; decide)
    have key : f1.file.pos = f1.file.data.length ∧ f1.late = false := by
      cases op <;> try exact hop.elim
      · rename_i d
        obtain ⟨_, h1, h2⟩ := ha
        by_cases hd : d = []
        · rw [h1 hd]; exact ⟨hp, hf⟩
        · obtain ⟨e1, e2⟩ := h2 hd
          refine ⟨by rw [e1]; simp, ?_⟩
          cases hx : f1.late with
          | false => rfl
          | true =>
            rcases e2.1 hx with h0 | h0
            · rw [hf] at h0; cases h0
            · exact absurd hp h0
      · exact same ha ha.1.2
      · exact same ha ha.1.2
      · exact same ha ha.1.2
    exact ih hrest key.1 key.2

/-- C121 without restriction, positions included, for streams opened at the end of the file that are only written, flushed and asked
for their position and size: the file is its old content followed by everything that was written. -/
theorem C121_logging {k : BufKind} {n : Int} {raw : Raw} {b : Buf} (h : OpenedToAppend k n raw b) (hb : Blocking raw.sched)
    (hp : raw.pos = raw.data.length) (ops : List StreamOp) (ho : ∀ op ∈ ops, Logs op) :
    ∃ f, AppendConforms k ⟨fileOf raw, false⟩ (ops.zip (b.run ops).1) f ∧ f.file.pos = f.file.data.length ∧
      (Buf.flush (b.run ops).2).1 = .ok () ∧ (Buf.flush (b.run ops).2).2.raw.data = f.file.data := by
  obtain ⟨pre, post, f, rfl, e2, e3, _, e4, e5⟩ := C121_append_partial h hb ops
  obtain ⟨g1, g2⟩ := logs_end e2 (fun e he => ho _ (List.mem_append_left _ (List.of_mem_zip he).1)) hp rfl
  rcases e3 with rfl | ⟨op, rest, rfl, hu⟩
  · rw [List.append_nil]; exact ⟨f, e2, g1, e4, e5⟩
  · rcases hu with hu | ⟨h0, _⟩
    · have := ho op (by simp)
      cases op <;> first | exact this.elim | exact hu.elim
    · rw [g2] at h0; cases h0

/-! ## Windows -/

/-- A stream that was just opened on windows, in append mode, on a system that fills gaps with zeros. -/
structure WinOpenedToAppend (kind : BufKind) (size : Int) (raw : Raw) (b : Buf) : Prop where
  created : Buf.create kind size raw = .ok b
  windows : raw.platform = .windows
  zeros : ∀ i, raw.junk i = 0
  append : raw.append = true
  seekable : raw.seekable = true
  writes : kind ≠ .reader

theorem WinOpenedToAppend.ported {k : BufKind} {n : Int} {raw : Raw} {b : Buf} (h : WinOpenedToAppend k n raw b) (hb : Blocking raw.sched) :
    OpenedToAppend k n raw.ported b.ported ∧ b.Portable := by
  obtain ⟨rfl, h0, h1, h2, h3⟩ := create_ok h.created
  refine ⟨⟨?_, rfl, h.append, h.seekable, h.writes⟩, ⟨h.windows, h.zeros, h.seekable, ?_, fun _ => hb⟩⟩
  · have hs := h.seekable
    have hle : ¬ n ≤ 0 := by omega
    unfold Buf.create
    rw [show raw.ported.closed = raw.closed from rfl, show raw.ported.seekable = raw.seekable from rfl,
      show raw.ported.readable = raw.readable from rfl, show raw.ported.writable = raw.writable from rfl, h1, hs]
    cases k <;> simp_all [Buf.ported]
  · intro a ha e
    obtain ⟨j, e', hj⟩ := hb a ha
    rw [e'] at e
    cases e
    omega

theorem bufRun_ports (ops : List StreamOp) : ∀ b : Buf, b.Portable → (∀ a, .truncate a ∉ ops) →
    b.ported.run ops = ((b.run ops).1, (b.run ops).2.ported) ∧ (b.run ops).2.Portable := by
  induction ops with
  | nil => intro b h _; exact ⟨rfl, h⟩
  | cons op ops ih =>
    intro b h hops
    obtain ⟨h1, h2⟩ := Buf.step_same h (op := op) (fun a e => hops a (by rw [e]; exact List.mem_cons_self))
    obtain ⟨h3, h4⟩ := ih _ h2 fun a ha => hops a (List.mem_cons_of_mem _ ha)
    simp only [Buf.run, h1, h3]
    exact ⟨trivial, h4⟩

/-- C121 on windows.  Missing: the calls of `C121_append_partial` and `truncate` to a larger size. -/
theorem C121_windows_partial {k : BufKind} {n : Int} {raw : Raw} {b : Buf} (h : WinOpenedToAppend k n raw b) (hb : Blocking raw.sched)
    (ops : List StreamOp) :
    ∃ pre post f, ops = pre ++ post ∧ AppendConforms k ⟨fileOf raw, false⟩ (pre.zip (b.run pre).1) f ∧
      (post = [] ∨ ∃ op rest, post = op :: rest ∧ (AppendUnsafe k f op ∨ Stretches k f.file op)) ∧
      (b.run pre).2.raw.events = f.file.log ∧
      (Buf.flush (b.run pre).2).1 = .ok () ∧ (Buf.flush (b.run pre).2).2.raw.data = f.file.data := by
  obtain ⟨h1, h2⟩ := h.ported hb
  have hkk : b.kind = k := h1.kind
  obtain ⟨pre, post, f, e1, e2, e3, e4, e5⟩ := Buf.Appends.run_ported ops b _ h2 (h1.appends hb)
  rw [hkk] at e2 e5
  obtain ⟨b', g1, g2, _, _, _, g6, _⟩ := e3.flush
  obtain ⟨g3, _⟩ := Buf.flush_ports _ e4
  rw [g1] at g3
  have g4 := congrArg Prod.fst g3
  have g5 := congrArg Prod.snd g3
  dsimp only at g4 g5
  subst g5
  exact ⟨pre, post, f, e1, e2, e5, e3.log, g4.symm, g6.data' g2⟩

/-- C121 on windows without restriction, as `C121_writer`, for streams that cut files only to nothing. -/
theorem C121_windows_writer {n : Int} {raw : Raw} {b : Buf} (h : WinOpenedToAppend .writer n raw b) (hb : Blocking raw.sched)
    (ops : List StreamOp) (ht : .tell ∉ ops) (hc : ∀ a, .truncate a ∈ ops → a = some 0) :
    ∃ f, AppendConforms .writer ⟨fileOf raw, false⟩ (ops.zip (b.run ops).1) f ∧
      (Buf.flush (b.run ops).2).1 = .ok () ∧ (Buf.flush (b.run ops).2).2.raw.data = f.file.data := by
  obtain ⟨pre, post, f, rfl, e2, e3, _, e4, e5⟩ := C121_windows_partial h hb ops
  rcases e3 with rfl | ⟨op, rest, rfl, hu⟩
  · rw [List.append_nil]; exact ⟨f, e2, e4, e5⟩
  · rcases hu with (hu | ⟨_, rfl | ⟨hk, _⟩⟩) | hs
    · exact nomatch Unsafe.random hu
    · simp at ht
    · cases hk
    · cases op with
      | truncate a =>
        obtain rfl := hc a (by simp)
        obtain ⟨_, hs⟩ := hs
        simp only [Option.getD_some] at hs
        omega
      | _ => exact hs.elim

/-- C121 on windows for logs, as `C121_logging`. -/
theorem C121_windows_logging {k : BufKind} {n : Int} {raw : Raw} {b : Buf} (h : WinOpenedToAppend k n raw b) (hb : Blocking raw.sched)
    (hp : raw.pos = raw.data.length) (ops : List StreamOp) (ho : ∀ op ∈ ops, Logs op) :
    ∃ f, AppendConforms k ⟨fileOf raw, false⟩ (ops.zip (b.run ops).1) f ∧ f.file.pos = f.file.data.length ∧
      (Buf.flush (b.run ops).2).1 = .ok () ∧ (Buf.flush (b.run ops).2).2.raw.data = f.file.data := by
  obtain ⟨h1, h2⟩ := h.ported hb
  obtain ⟨f, e2, e4, e5, e6⟩ := C121_logging h1 hb hp ops ho
  obtain ⟨g1, g2⟩ := bufRun_ports ops b h2 fun a ha => ho _ ha
  obtain ⟨g3, _⟩ := Buf.flush_ports _ g2
  rw [g1] at e2 e5 e6
  dsimp only at e2 e5 e6
  rw [g3] at e5 e6
  exact ⟨f, e2, e4, e5, e6⟩

/-! ## Cases -/

/-- A regular file opened in append mode. -/
def logOf (data : Bytes) (pos : Nat) (sched : List OsAns) : Raw :=
  ⟨.unix, fun _ => 0, false, true, true, true, true, data, pos, sched, [], []⟩

def openedLog (k : BufKind) (n : Nat) (data : Bytes) (pos : Nat) (sched : List OsAns) : Buf := ⟨k, n, logOf data pos sched, [], 0, []⟩

theorem openedLog_ok (k : BufKind) (n : Nat) (hn : 0 < n) (hk : k ≠ .reader) (data : Bytes) (pos : Nat) (sched : List OsAns) :
    OpenedToAppend k n (logOf data pos sched) (openedLog k n data pos sched) := by
  refine ⟨?_, rfl, rfl, rfl, hk⟩
  have hn' : ¬ n = 0 := by omega
  simp [Buf.create, logOf, openedLog, hn']

-- reading, then writing at the end, then reading what was written
example : ((openedLog .random 4 digits 10 [.count 2, .count 1, .count 3]).run
    [.tell, .seek 0 .set, .read (some 3), .write [65, 66], .write [67], .seek (-4) .cur, .read none, .size, .tell]).1 =
    [.num 10, .num 0, .bytes [48, 49, 50], .num 2, .num 1, .num 9, .bytes [57, 65, 66, 67], .num 13, .num 13] := by decide +kernel

example : ((openedLog .writer 4 digits 10 []).run
    [.write [65, 66], .tell, .write [67, 68, 69], .tell, .flush, .size]).1 = [.num 2, .num 12, .num 3, .num 15, .done, .num 15] := by
  decide +kernel

/-- The same files on windows. -/
def winLogOf (data : Bytes) (pos : Nat) (sched : List OsAns) : Raw := { logOf data pos sched with platform := .windows }

theorem winLogOf_ok (k : BufKind) (n : Nat) (hn : 0 < n) (hk : k ≠ .reader) (data : Bytes) (pos : Nat) (sched : List OsAns) :
    WinOpenedToAppend k n (winLogOf data pos sched) ⟨k, n, winLogOf data pos sched, [], 0, []⟩ := by
  refine ⟨?_, rfl, fun _ => rfl, rfl, rfl, hk⟩
  have hn' : ¬ n = 0 := by omega
  simp [Buf.create, winLogOf, logOf, hn']

example : ((⟨.random, 4, winLogOf digits 10 [.count 2, .count 1, .count 3], [], 0, []⟩ : Buf).run
    [.tell, .seek 0 .set, .read (some 3), .write [65, 66], .write [67], .seek (-4) .cur, .read none, .size, .tell]).1 =
    [.num 10, .num 0, .bytes [48, 49, 50], .num 2, .num 1, .num 9, .bytes [57, 65, 66, 67], .num 13, .num 13] := by decide +kernel

-- cutting the file, then writing at its new end
example : ((⟨.random, 4, winLogOf digits 10 [.count 2, .count 1, .count 3], [], 0, []⟩ : Buf).run
    [.write [65, 66], .truncate (some 3), .write [67], .seek 0 .set, .read none, .truncate (some 0), .write [68], .size]).1 =
    [.num 2, .num 3, .num 1, .num 0, .bytes [48, 49, 50, 67], .num 0, .num 1, .num 1] := by decide +kernel

/-- The claim of C121 without the restriction. -/
def AppendsAlways : Prop :=
  ∀ {k : BufKind} {n : Int} {raw : Raw} {b : Buf}, OpenedToAppend k n raw b → Blocking raw.sched → ∀ ops : List StreamOp,
    ∃ f, AppendConforms k ⟨fileOf raw, false⟩ (ops.zip (b.run ops).1) f

/-- C121 is false: after a write at another position than the end, tell() does not return where the data go. -/
theorem C121_refuted : ¬ AppendsAlways := by
  intro hall
  obtain ⟨f, hf⟩ := hall (openedLog_ok .writer 8 (by decide) nofun digits 10 []) (by simp [Blocking, logOf])
    [.seek 0 .set, .write [65], .tell]
  have hrun : ((openedLog .writer 8 digits 10 []).run [.seek 0 .set, .write [65], .tell]).1 = [.num 0, .num 1, .num 1] := by decide +kernel
  rw [hrun] at hf
  cases hf with
  | cons h1 hf =>
    cases hf with
    | cons h2 hf =>
      cases hf with
      | cons h3 hf =>
        obtain ⟨h1, _⟩ := h1
        simp only [Allowed, File.target, Int.le_refl, if_true] at h1
        obtain ⟨h2, _⟩ := h2.2.2 (by decide)
        have h3 := h3.1.1
        rw [h2, h1.2] at h3
        exact absurd h3 (by decide +kernel)

/-- C121 is false: after a write at another position than the end, truncate() destroys data that were in the file before. -/
theorem C121_truncate_refuted : ∃ (n : Int) (raw : Raw) (b : Buf), OpenedToAppend .random n raw b ∧ Blocking raw.sched ∧
    (b.run [.seek 0 .set, .write [65], .truncate none]).1 = [.num 0, .num 1, .num 1] ∧
    raw.data = digits ∧ (b.run [.seek 0 .set, .write [65], .truncate none]).2.raw.data = [48] :=
  ⟨8, _, _, openedLog_ok .random 8 (by decide) nofun digits 10 [], by simp [Blocking, logOf], by decide +kernel, rfl, by decide +kernel⟩

/-- The reference keeps all ten bytes there. -/
example : ¬ ∃ f, AppendConforms .random ⟨fileOf (logOf digits 10 []), false⟩
    [(.seek 0 .set, .num 0), (.write [65], .num 1), (.truncate none, .num 1)] f := by
  rintro ⟨f, hf⟩
  cases hf with
  | cons h1 hf =>
    cases hf with
    | cons h2 hf =>
      cases hf with
      | cons h3 hf =>
        obtain ⟨h1, _⟩ := h1
        simp only [Allowed, File.target, Int.le_refl, if_true] at h1
        obtain ⟨h2, _⟩ := h2.2.2 (by decide)
        have h3 := h3.1
        simp only [Allowed, reduceCtorEq, if_false] at h3
        have h3 := h3.1
        rw [h2, h1.2] at h3
        exact absurd h3 (by decide +kernel)

end Verif.Props
