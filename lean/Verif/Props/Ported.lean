import Verif.Lemmas.PortedRuns
import Verif.Lemmas.PortedText
import Verif.Props.Buffered
import Verif.Props.TextReading
import Verif.Props.TextWriting

/-!
# C91 to C93: streams on windows
-/

set_option autoImplicit false

namespace Verif.Props

open Verif Verif.Spec Verif.Txt

/-! ## C91: a raw stream -/

/-- What C29 says of `write`. -/
def StoresAtPosition (s : Raw) (buf : Bytes) : Prop :=
  ∃ k s', Raw.write buf s = (.ok (some k), s') ∧ k ≤ buf.length ∧ (buf ≠ [] → 1 ≤ k) ∧
    Stored (fun _ => 0) s.data s.pos (buf.take k) s'.data ∧ s'.pos = s.pos + k ∧ Blocking s'.sched ∧
    (s.sched = [] → k = buf.length)

/-- An open file on windows, not in append mode, that does not refuse to work. -/
structure WinFile (s : Raw) : Prop where
  windows : s.platform = .windows
  opened : s.closed = false
  writable : s.writable = true
  seekable : s.seekable = true
  noAppend : s.append = false
  blocking : Blocking s.sched

/-- C91: on windows `write` stores a non-empty prefix of the data at the position, and advances the position by the count;
the bytes of a gap are what the system makes of them. -/
theorem C91_write {s : Raw} (h : WinFile s) {buf : Bytes} (hb : buf ≠ []) :
    ∃ k s', Raw.write buf s = (.ok (some k), s') ∧ k ≤ buf.length ∧ 1 ≤ k ∧
      Stored s.junk s.data s.pos (buf.take k) s'.data ∧ s'.pos = s.pos + k ∧ Blocking s'.sched ∧
      (s.sched = [] → k = buf.length) := by
  have hl : landing s = s.pos := by unfold landing; rw [h.noAppend]; rfl
  have hfill : s.fill = s.junk := by funext i; unfold Raw.fill; rw [h.windows]
  have hne := List.length_pos_iff.2 hb
  unfold Raw.write
  rw [PyM.bind_ok (Raw.checkClosed_ok h.opened), PyM.bind_ok (Raw.checkWritable_ok h.opened h.writable), PyM.bind_apply,
    innerWrite_windows buf h.seekable h.windows, hl]
  rcases Raw.osWrite_cases false buf { s with pos := s.pos } with ⟨k, sched', hk, h1, hs⟩ | ⟨sched', h1, hs⟩ | ⟨e, sched', h1⟩
  · have hk1 : 1 ≤ k := by
      rcases hs with ⟨_, e, _⟩ | ⟨j, hj, e⟩
      · omega
      · obtain ⟨k', e', hk'⟩ := h.blocking (.count j) (by rw [show s.sched = _ from hj]; exact List.mem_cons_self)
        cases e'; omega
    obtain ⟨k, rfl⟩ : ∃ j, k = j + 1 := ⟨k - 1, by omega⟩
    have hlt : ¬ buf.length < k + 1 := by omega
    rw [h1]
    simp only [Option.some.injEq, PyM.ite_apply, hlt, if_false, PyM.pure_apply, Nat.succ_ne_zero, and_false, Bool.false_eq_true]
    refine ⟨k + 1, _, rfl, hk, hk1, ?_, rfl, ?_, ?_⟩
    · rw [← hfill]; exact stored_writeAt _ _ _ _
    · rcases hs with ⟨_, _, e⟩ | ⟨j, hj, _⟩
      · rw [e]; intro a ha; cases ha
      · exact fun a ha => h.blocking a (by rw [show s.sched = _ from hj]; exact List.mem_cons_of_mem _ ha)
    · intro h0
      rcases hs with ⟨_, e, _⟩ | ⟨j, hj, _⟩
      · exact e
      · rw [show s.sched = _ from hj] at h0; cases h0
  · obtain ⟨k, e, _⟩ := h.blocking .again (by rw [show s.sched = _ from hs]; exact List.mem_cons_self)
    cases e
  · exfalso
    unfold Raw.osWrite Raw.nextAns at h1
    cases hs : s.sched with
    | nil => simp [hs] at h1
    | cons a rest =>
      obtain ⟨k, rfl, _⟩ := h.blocking a (by rw [hs]; exact List.mem_cons_self)
      simp [hs] at h1

/-- C91: `write` on windows, unless the position is behind the end, or there is nothing to write.
Missing: these two cases, for which it is false (`C91_refuted`, `C91_empty_refuted`).  (Reading and moving: `C29_read` and
`C29_seek` hold for both backends.) -/
theorem C91_write_partial {s : Raw} (h : WinFile s) {buf : Bytes} (hb : buf ≠ []) (hpos : s.pos ≤ s.data.length) :
    StoresAtPosition s buf := by
  obtain ⟨k, s', h1, h2, h3, h4, h5⟩ := C91_write h hb
  exact ⟨k, s', h1, h2, fun _ => h3, ⟨h4.written, h4.kept, fun _ i hi hi' => absurd hpos (by omega), h4.size⟩, h5⟩

/-- A file of which the system says nothing about bytes that were never written. -/
def winRaw (junk : Nat → Byte) (data : Bytes) (pos : Nat) (sched : List OsAns) : Raw :=
  ⟨.windows, junk, false, true, true, true, false, data, pos, sched, [], []⟩

theorem winRaw_ok (junk : Nat → Byte) (data : Bytes) (pos : Nat) {sched : List OsAns} (hb : Blocking sched) :
    WinFile (winRaw junk data pos sched) := ⟨rfl, rfl, rfl, rfl, rfl, hb⟩

-- a short write in the middle of a file
example : (Raw.write [1, 2, 3] (winRaw (fun _ => 7) [9, 9, 9, 9] 1 [.count 2])).1 = .ok (some 2) ∧
    (Raw.write [1, 2, 3] (winRaw (fun _ => 7) [9, 9, 9, 9] 1 [.count 2])).2.data = [9, 1, 2, 9] := by decide +kernel

example : StoresAtPosition (winRaw (fun _ => 7) [9, 9, 9, 9] 1 [.count 2]) [1, 2, 3] :=
  C91_write_partial (winRaw_ok _ _ _ (by intro a ha; simp at ha; exact ⟨2, ha, by omega⟩)) (by simp) (by decide)

/-- C91 is false behind the end of the file: "we extend the file with zeros until current file pointer position"
(`rsfileio_windows.py:398`) calls a function that does nothing. -/
theorem C91_refuted : ¬ ∀ s : Raw, WinFile s → ∀ buf : Bytes, buf ≠ [] → StoresAtPosition s buf := by
  intro hall
  obtain ⟨k, s', h1, h2, h3, h4, _⟩ := hall (winRaw (fun _ => 7) [] 1 []) (winRaw_ok _ _ _ blocking_nil) [1] (by simp)
  have hd : s'.data = [7, 1] := by
    rw [show s' = (Raw.write [1] (winRaw (fun _ => 7) [] 1 [])).2 by rw [h1]]
    decide +kernel
  have hk : ([1] : Bytes).take k ≠ [] := by
    have := h3 (by simp)
    simp; omega
  have := h4.gap hk 0 (by decide) (by decide)
  rw [hd] at this
  revert this
  decide

/-- C91 is false for nothing to write: the answer is `None`, which means that the call would block. -/
theorem C91_empty_refuted : ¬ ∀ s : Raw, WinFile s → StoresAtPosition s [] := by
  intro hall
  obtain ⟨k, s', h1, _⟩ := hall (winRaw (fun _ => 0) [] 0 []) (winRaw_ok _ _ _ blocking_nil)
  have hn : (Raw.write [] (winRaw (fun _ => 0) [] 0 [])).1 = .ok none := by decide +kernel
  rw [h1] at hn
  cases hn

/-! ## C92: the two backends -/

/-- Two streams that differ in the backend only, over a seekable file.  The system transfers something or refuses; in append
mode it does not refuse. -/
structure Twins (s s' : Raw) : Prop where
  unix : s' = { s with platform := .unix }
  windows : s.platform = .windows
  seekable : s.seekable = true
  moves : .count 0 ∉ s.sched
  appending : s.append = true → Blocking s.sched

/-- C92, buffered streams: every history of calls without `truncate` has the same results with both backends, and leaves
the same bytes and the same traces for other processes, whatever the system answers; gaps are supposed to read as zeros.
Missing: `truncate` (`C92_truncate_refuted`), gaps (`C92_gap_refuted`). -/
theorem C92_buffered_partial {s s' : Raw} (h : Twins s s') (hz : ∀ i, s.junk i = 0) {k : BufKind} {n : Int} {b b' : Buf}
    (hb : Buf.create k n s = .ok b) (hb' : Buf.create k n s' = .ok b') (ops : List StreamOp) (hops : ∀ a, .truncate a ∉ ops) :
    (b'.run ops).1 = (b.run ops).1 ∧ (b'.run ops).2.raw.data = (b.run ops).2.raw.data ∧
      (b'.run ops).2.raw.events = (b.run ops).2.raw.events ∧ (b'.run ops).2.close.1 = (b.run ops).2.close.1 ∧
      (b'.run ops).2.close.2.raw.data = (b.run ops).2.close.2.raw.data := by
  have hp : s.Portable := ⟨h.windows, hz, h.seekable, fun a ha e => h.moves (e ▸ ha), h.appending⟩
  have e1 : b' = b.ported := by
    obtain ⟨rfl, _⟩ := create_ok hb
    obtain ⟨rfl, _⟩ := create_ok hb'
    rw [h.unix]; rfl
  have hbp : b.Portable := by
    obtain ⟨rfl, _⟩ := create_ok hb
    exact hp
  have key : ∀ (ops : List StreamOp) (b : Buf), b.Portable → (∀ a, .truncate a ∉ ops) →
      b.ported.run ops = ((b.run ops).1, (b.run ops).2.ported) ∧ (b.run ops).2.Portable := by
    intro ops
    induction ops with
    | nil => intro b h _; exact ⟨rfl, h⟩
    | cons op ops ih =>
      intro b h hops
      obtain ⟨h1, h2⟩ := Buf.step_same h (op := op) (fun a e => hops a (by rw [e]; exact List.mem_cons_self))
      obtain ⟨h3, h4⟩ := ih _ h2 fun a ha => hops a (List.mem_cons_of_mem _ ha)
      simp only [Buf.run, h1, h3]
      exact ⟨trivial, h4⟩
  obtain ⟨h1, h2⟩ := key ops b hbp hops
  obtain ⟨h3, _⟩ := Buf.close_ports _ h2
  rw [e1, h1]
  dsimp only
  rw [h3]
  exact ⟨rfl, rfl, rfl, rfl, rfl⟩

/-- C92, text streams, likewise; `sync` is excluded too, as it has less to choose from on windows. -/
theorem C92_text_partial {s s' : Raw} (h : Twins s s') (hz : ∀ i, s.junk i = 0) {k : BufKind} {n : Int} {b b' : Buf}
    (hb : Buf.create k n s = .ok b) (hb' : Buf.create k n s' = .ok b') {C : Codec} {nl : Newline} {lb : Bool} {ls : Text} {t t' : Txt C}
    (ht : Txt.create nl lb ls b = (.ok (), t)) (ht' : Txt.create nl lb ls b' = (.ok (), t')) (guess : Nat × Nat → Nat → Nat)
    (ops : List Txt.Op) (hops : ∀ a, .truncate a ∉ ops) (hsync : ∀ a m f, .sync a m f ∉ ops) :
    (t'.run guess ops).1 = (t.run guess ops).1 ∧ (t'.run guess ops).2.buf.raw.data = (t.run guess ops).2.buf.raw.data ∧
      (t'.run guess ops).2.buf.raw.events = (t.run guess ops).2.buf.raw.events := by
  have hp : s.Portable := ⟨h.windows, hz, h.seekable, fun a ha e => h.moves (e ▸ ha), h.appending⟩
  have e1 : b' = b.ported := by
    obtain ⟨rfl, _⟩ := create_ok hb
    obtain ⟨rfl, _⟩ := create_ok hb'
    rw [h.unix]; rfl
  have hbp : b.Portable := by
    obtain ⟨rfl, _⟩ := create_ok hb
    exact hp
  obtain ⟨h1, h2⟩ := Txt.create_ports (C := C) nl lb ls hbp
  rw [← e1, ht', ht] at h1
  rw [ht] at h2
  have e2 : t' = t.ported := (Prod.mk.inj h1).2
  obtain ⟨h3, _⟩ := Txt.run_ports guess ops t h2 (by
    intro op ho hs
    cases op with
    | truncate a => exact hops a ho
    | sync a m f => exact hsync a m f ho
    | _ => exact hs)
  rw [e2, h3]
  exact ⟨rfl, rfl, rfl⟩

theorem twins_ok (junk : Nat → Byte) (data : Bytes) (pos : Nat) {sched : List OsAns} (h : .count 0 ∉ sched) :
    Twins (winRaw junk data pos sched) { winRaw junk data pos sched with platform := .unix } := ⟨rfl, rfl, rfl, h, nofun⟩

/-- A stream on windows. -/
def winBuf (k : BufKind) (n : Nat) (junk : Nat → Byte) (data : Bytes) (sched : List OsAns) : Buf :=
  ⟨k, n, winRaw junk data 0 sched, [], 0, []⟩

theorem winBuf_ok (k : BufKind) (n : Nat) (hn : 0 < n) (junk : Nat → Byte) (data : Bytes) (sched : List OsAns) :
    Buf.create k n (winRaw junk data 0 sched) = .ok (winBuf k n junk data sched) ∧
      Buf.create k n { winRaw junk data 0 sched with platform := .unix } = .ok (opened k n data sched |> fun b =>
        { b with raw := { b.raw with junk := junk } }) := by
  have hn' : ¬ n = 0 := by omega
  constructor <;> simp [Buf.create, winRaw, winBuf, opened, rawOf, hn']

-- short counts, a refusal and an error; a gap; a lock during which the file changes
example : .count 0 ∉ ([.count 1, .again, .fail 28, .count 2] : List OsAns) := by decide

example : ((winBuf .random 2 (fun _ => 0) [48, 49, 50] [.count 1, .again, .fail 28, .count 2]).run
    [.read (some 2), .write [1, 2, 3], .seek 6 .set, .write [4], .lock [9], .tell, .size]).1 =
    [.bytes [48], .error (.ioError 28), .num 6, .num 1, .done, .num 7, .num 1] := by decide +kernel

/-- C92 is false for gaps: what the system leaves in them can be read. -/
theorem C92_gap_refuted : ¬ ∀ (s s' : Raw) (k : BufKind) (n : Int) (b b' : Buf), Twins s s' → Buf.create k n s = .ok b →
    Buf.create k n s' = .ok b' → ∀ ops : List StreamOp, (∀ a, .truncate a ∉ ops) → (b'.run ops).1 = (b.run ops).1 := by
  intro hall
  have := hall _ _ .random 4 _ _ (twins_ok (fun _ => 7) [] 0 (sched := []) (by simp)) (winBuf_ok .random 4 (by decide) _ _ _).1
    (winBuf_ok .random 4 (by decide) _ _ _).2 [.seek 1 .set, .write [1], .seek 0 .set, .read none] (by simp)
  revert this
  decide +kernel

/-- C92 is false for `truncate`: if the file has to grow by a multiple of 8192 bytes, an assertion fails on windows. -/
theorem C92_truncate_refuted : ¬ ∀ (s s' : Raw) (k : BufKind) (n : Int) (b b' : Buf), Twins s s' → (∀ i, s.junk i = 0) →
    Buf.create k n s = .ok b → Buf.create k n s' = .ok b' → ∀ ops : List StreamOp, (b'.run ops).1 = (b.run ops).1 := by
  intro hall
  have := hall _ _ .writer 4 _ _ (twins_ok (fun _ => 0) [] 0 (sched := []) (by simp)) (fun _ => rfl) (winBuf_ok .writer 4 (by decide) _ _ _).1
    (winBuf_ok .writer 4 (by decide) _ _ _).2 [.truncate (some 8192)]
  revert this
  decide +kernel

/-! ## C93: refinement -/

/-- A stream that was just opened on windows, on a regular file, not in append mode.  Gaps read as zeros. -/
structure WinOpened (kind : BufKind) (size : Int) (raw : Raw) (b : Buf) : Prop where
  created : Buf.create kind size raw = .ok b
  windows : raw.platform = .windows
  zeros : ∀ i, raw.junk i = 0
  noAppend : raw.append = false
  seekable : raw.seekable = true

theorem WinOpened.ported {k : BufKind} {n : Int} {raw : Raw} {b : Buf} (h : WinOpened k n raw b) (hb : Blocking raw.sched) :
    Opened k n raw.ported b.ported ∧ b.Portable ∧ b.kind = k := by
  obtain ⟨rfl, h0, h1, h2, h3⟩ := create_ok h.created
  refine ⟨⟨?_, rfl, h.noAppend, h.seekable⟩, ⟨h.windows, h.zeros, h.seekable, ?_, fun _ => hb⟩, rfl⟩
  · have hs := h.seekable
    have hle : ¬ n ≤ 0 := by omega
    unfold Buf.create
    rw [show raw.ported.closed = raw.closed from rfl, show raw.ported.seekable = raw.seekable from rfl,
      show raw.ported.readable = raw.readable from rfl, show raw.ported.writable = raw.writable from rfl, h1, hs]
    cases k <;> simp_all [Buf.ported]
  · intro a ha e
    obtain ⟨j, e', hj⟩ := hb a ha
    rw [e'] at e
    cases e
    omega

/-- C93.  C23 on windows: for all histories, buffer sizes and patterns of short reads and writes, the results are those of
a byte array with a position up to the first call in `Unsafe` or in `Stretches` (`truncate` to a larger size); other
processes see its content at every `lock_file` and `unlock_file`; if the stream is flushed, the file has the bytes of the
array.  Missing: these calls (`C23_refuted`, `C28_refuted`), and systems that do not fill gaps with zeros. -/
theorem C93_refines_partial {k : BufKind} {n : Int} {raw : Raw} {b : Buf} (h : WinOpened k n raw b) (hb : Blocking raw.sched)
    (ops : List StreamOp) :
    ∃ pre post f, ops = pre ++ post ∧ Conforms k (fileOf raw) (pre.zip (b.run pre).1) f ∧
      (post = [] ∨ ∃ op rest, post = op :: rest ∧ (Unsafe k f op ∨ Stretches k f op)) ∧
      (b.run pre).2.raw.events = f.log ∧
      (Buf.flush (b.run pre).2).1 = .ok () ∧ (Buf.flush (b.run pre).2).2.raw.data = f.data := by
  obtain ⟨h1, h2, h3⟩ := h.ported hb
  obtain ⟨pre, post, f, e1, e2, e3, e4, e5, e6⟩ := Buf.run_ported ops b _ h2 (h1.R hb)
  rw [h3] at e2 e6
  obtain ⟨b', g1, g2, g3, _⟩ := Buf.flush_R e3
  obtain ⟨k1, _⟩ := Buf.flush_ports _ e4
  rw [g1] at k1
  have k2 : (Buf.flush (b.run pre).2).1 = .ok () := (Prod.mk.inj k1).1.symm
  have k3 : b' = (Buf.flush (b.run pre).2).2.ported := (Prod.mk.inj k1).2
  refine ⟨pre, post, f, e1, e2, e6, e3.log.symm, k2, ?_⟩
  have := g2.data' g3
  rw [k3] at this
  exact this

theorem winOpened_ok (k : BufKind) (n : Nat) (hn : 0 < n) (data : Bytes) (sched : List OsAns) :
    WinOpened k n (winRaw (fun _ => 0) data 0 sched) (winBuf k n (fun _ => 0) data sched) :=
  ⟨(winBuf_ok k n hn _ _ _).1, rfl, fun _ => rfl, rfl, rfl⟩

-- short reads and writes, and cutting the file
example : ((winBuf .random 4 (fun _ => 0) digits [.count 2, .count 1, .count 3]).run
    [.read (some 3), .write [65, 66], .truncate (some 7), .seek (-1) .cur, .read none, .size]).1 =
    [.bytes [48, 49, 50], .num 2, .num 7, .num 4, .bytes [66, 53, 54], .num 7] := by decide +kernel

variable {C : Codec}

/-- A text stream that was just opened on windows, at the beginning of a regular file. -/
structure WinTextOpened (nl : Newline) (raw : Raw) (t : Txt C) : Prop where
  built : ∃ k n b lineBuffering linesep, WinOpened k n raw b ∧ k ≠ .writer ∧ Txt.create nl lineBuffering linesep b = (.ok (), t)
  start : raw.pos = 0
  blocking : Blocking raw.sched

theorem WinTextOpened.ported {nl : Newline} {raw : Raw} {t : Txt C} (h : WinTextOpened nl raw t) :
    TextOpened nl raw.ported t.ported ∧ t.Portable := by
  obtain ⟨k, n, b, lb, ls, h1, h2, h3⟩ := h.built
  obtain ⟨g1, g2, _⟩ := h1.ported h.blocking
  obtain ⟨g3, g4⟩ := Txt.create_ports (C := C) nl lb ls g2
  rw [h3] at g3 g4
  exact ⟨⟨⟨k, n, _, lb, ls, g1, h2, g3⟩, h.start, h.blocking⟩, g4⟩

/-- C93, text streams that are read: C68 on windows. -/
theorem C93_text_partial (hC : LawfulCodec C) {guess : Nat × Nat → Nat → Nat} (hg : Moderate guess) {nl : Newline} {raw : Raw} {t : Txt C}
    (h : WinTextOpened nl raw t) {text : Text} {d : C.Dec} (hd : C.decode C.decInit raw.data true = .ok (text, d)) (ops : List Txt.Op)
    (hops : ∀ a, .truncate a ∉ ops) (hsync : ∀ a m f, .sync a m f ∉ ops) :
    ∃ pre post f, ops = pre ++ post ∧ TextConforms nl (textOf raw (incoming nl text)) (pre.zip (t.run guess pre).1) f ∧
      (post = [] ∨ ∃ op rest, post = op :: rest ∧ ¬ TextCall f op) := by
  obtain ⟨h1, h2⟩ := h.ported
  obtain ⟨pre, post, f, e1, e2, e3⟩ := C68_history_partial hC hg h1 (show C.decode C.decInit raw.ported.data true = _ from hd) ops
  obtain ⟨h3, _⟩ := Txt.run_ports guess pre t h2 (by
    intro op ho hs
    have ho' : op ∈ ops := by rw [e1]; exact List.mem_append_left _ ho
    cases op with
    | truncate a => exact hops a ho'
    | sync a m f => exact hsync a m f ho'
    | _ => exact hs)
  rw [h3] at e2
  exact ⟨pre, post, f, e1, e2, e3⟩

/-- The results of the calls of `run` on windows are those on unix. -/
theorem run_same {t : Txt C} (h : t.Portable) (guess : Nat × Nat → Nat → Nat) {ops : List Txt.Op} (hops : ∀ op ∈ ops, ¬ SystemCall op) :
    (t.run guess ops).1 = (t.ported.run guess ops).1 := by
  rw [(Txt.run_ports guess ops t h hops).1]

/-- C93: successive reads deliver successive pieces of the text on windows, whatever the chunks. -/
theorem C93_reads (hC : LawfulCodec C) {guess : Nat × Nat → Nat → Nat} (hg : Moderate guess) {nl : Newline} {raw : Raw} {t : Txt C}
    (h : WinTextOpened nl raw t) {text : Text} {d : C.Dec} (hd : C.decode C.decInit raw.data true = .ok (text, d)) (sizes : List Int) :
    (t.run guess (sizes.map fun n => .read (some n))).1 = (pieces (incoming nl text) sizes).map .text := by
  rw [run_same h.ported.2 guess (by intro op ho; obtain ⟨n, _, rfl⟩ := List.mem_map.1 ho; exact id)]
  exact C68_reads hC hg h.ported.1 hd sizes

/-- C93: an iteration delivers the lines of the text on windows, whatever the chunks. -/
theorem C93_lines (hC : LawfulCodec C) {guess : Nat × Nat → Nat → Nat} (hg : Moderate guess) {nl : Newline} {raw : Raw} {t : Txt C}
    (h : WinTextOpened nl raw t) {text : Text} {d : C.Dec} (hd : C.decode C.decInit raw.data true = .ok (text, d)) (n : Nat) :
    (t.run guess (List.replicate n .next)).1 = (linesOf nl n (incoming nl text)).map .text := by
  rw [run_same h.ported.2 guess (by intro op ho; rw [List.eq_of_mem_replicate ho]; exact id)]
  exact C68_lines hC hg h.ported.1 hd n

theorem always_portable {op : Txt.Op} (h : Always op) : ¬ SystemCall op := by
  intro hs
  have h0 := h ⟨[], [], [], false, false, []⟩
  cases op <;> first | exact hs | exact h0

/-- C93: `tell` returns a position, other calls are made, `seek` goes back to it: the text that follows is the one that
followed at the time of `tell`. -/
theorem C93_tell_seek (hC : LawfulCodec C) {guess : Nat × Nat → Nat → Nat} (hg : Moderate guess) {nl : Newline} {raw : Raw} {t₀ t : Txt C}
    (h : WinTextOpened nl raw t₀) {text : Text} {d : C.Dec} (hd : C.decode C.decInit raw.data true = .ok (text, d))
    (before between : List Txt.Op) (hb : ∀ op ∈ before, Always op) (hb' : ∀ op ∈ between, Always op)
    (ht : t = (t₀.run guess before).2) {c : Cookie} (hc : (t.step guess .tell).1 = .cookie c) :
    ∃ r, (t.run guess [.read none]).1 = [.text r] ∧
      ((t.run guess (.tell :: between)).2.run guess [.seek (.to (some c)), .read none]).1 = [.cookie c, .text r] := by
  obtain ⟨h1, h2⟩ := h.ported
  obtain ⟨h3, h4⟩ := Txt.run_ports guess before t₀ h2 fun op ho => always_portable (hb op ho)
  rw [← ht] at h3 h4
  obtain ⟨h5, h6⟩ := Txt.run_ports guess (.tell :: between) t h4 (by
    intro op ho
    rcases List.mem_cons.1 ho with rfl | ho
    · exact id
    · exact always_portable (hb' op ho))
  have h7 : (t.ported.step guess .tell).1 = .cookie c := by
    rw [(Txt.step_ports guess h4 (op := .tell) id).1]
    exact hc
  have h8 := C69_tell_seek hC hg h1 (show C.decode C.decInit raw.ported.data true = _ from hd) before between hb hb'
    (t := t.ported) (by rw [h3]) h7
  rw [h5] at h8
  dsimp only at h8
  rw [run_same h4 guess (by intro op ho; rw [List.mem_singleton.1 ho]; exact id), run_same h6 guess (by
    intro op ho
    rcases List.mem_cons.1 ho with rfl | ho
    · exact id
    · rw [List.mem_singleton.1 ho]; exact id)]
  exact h8

/-- A text stream for writing that was just opened on windows. -/
structure WinWriterOpened (C : Codec) (nl : Newline) (ls : Text) (k : BufKind) (raw : Raw) (t : Txt C) : Prop where
  built : ∃ n b lineBuffering, WinOpened k n raw b ∧ Txt.create nl lineBuffering ls b = (.ok (), t)
  writes : k ≠ .reader
  blocking : Blocking raw.sched

/-- C93, text streams that are written: C71 on windows. -/
theorem C93_text_write_partial (hC : LawfulEncoder C) {nl : Newline} {ls : Text} {k : BufKind} {raw : Raw} {t : Txt C}
    (h : WinWriterOpened C nl ls k raw t) (guess : Nat × Nat → Nat → Nat) (ops : List Txt.Op) (hops : ∀ op ∈ ops, SinkCall k op)
    (htrunc : ∀ a, .truncate a ∉ ops) (hsync : ∀ a m f, .sync a m f ∉ ops) :
    ∃ f, SinkConforms C (outgoing ls nl) k ⟨raw.data, raw.pos, raw.events⟩ (ops.zip (t.run guess ops).1) f ∧
      (Txt.flush (t.run guess ops).2).1 = .ok () ∧ (Txt.flush (t.run guess ops).2).2.buf.raw.data = f.data := by
  obtain ⟨n, b, lb, h1, h3⟩ := h.built
  obtain ⟨g1, g2, _⟩ := h1.ported h.blocking
  obtain ⟨g3, g4⟩ := Txt.create_ports (C := C) nl lb ls g2
  rw [h3] at g3 g4
  obtain ⟨f, e1, e2, e3⟩ := C71_history_partial hC (raw := raw.ported) (t := t.ported) ⟨⟨n, _, lb, g1, g3⟩, h.writes, h.blocking⟩
    guess ops hops
  obtain ⟨k1, k2⟩ := Txt.run_ports guess ops t g4 (by
    intro op ho hs
    cases op with
    | truncate a => exact htrunc a ho
    | sync a m f => exact hsync a m f ho
    | _ => exact hs)
  rw [k1] at e1 e2 e3
  dsimp only at e2 e3
  obtain ⟨k3, _⟩ := Txt.flush_ports _ k2
  rw [k3] at e2 e3
  exact ⟨f, e1, e2, e3⟩

theorem texts_no_truncate {ops : List Txt.Op} : ∀ {ss : List Text}, texts ops = some ss → ∀ a, .truncate a ∉ ops := by
  induction ops with
  | nil => intro ss _ a ha; cases ha
  | cons op ops ih =>
    intro ss h a ha
    have key : (∃ x, op = .truncate x) ∨ ∃ ss', texts ops = some ss' := by
      cases op with
      | write s =>
        rw [texts] at h
        cases hx : texts ops with
        | none => rw [hx] at h; cases h
        | some x => exact .inr ⟨x, rfl⟩
      | truncate x => exact .inl ⟨x, rfl⟩
      | seek m => cases m <;> first | exact .inr ⟨ss, h⟩ | cases h
      | _ => first | exact .inr ⟨ss, h⟩ | cases h
    rcases key with ⟨x, rfl⟩ | ⟨ss', h'⟩
    · cases h
    · rcases List.mem_cons.1 ha with rfl | ha
      · cases h
      · exact ih h' a ha

/-- C93: texts that are written one after the other stand in the file like one text, with one byte order mark if it is
written at the start of the file. -/
theorem C93_written (hC : LawfulEncoder C) {nl : Newline} {ls : Text} {k : BufKind} {raw : Raw} {t : Txt C}
    (h : WinWriterOpened C nl ls k raw t) (guess : Nat × Nat → Nat → Nat) (ops : List Txt.Op) (ss : List Text)
    (ht : texts ops = some ss) (hss : ss ≠ []) (b : Bytes) (hb : encoded C raw.pos (outgoing ls nl ss.flatten) = .ok b)
    (hsync : ∀ a m f, .sync a m f ∉ ops) :
    (Txt.flush (t.run guess ops).2).1 = .ok () ∧ (Txt.flush (t.run guess ops).2).2.buf.raw.data = put raw.data raw.pos b := by
  obtain ⟨f, h1, h2, h3⟩ := C93_text_write_partial hC h guess ops (sinkCall_of_texts ht) (texts_no_truncate ht) hsync
  refine ⟨h2, ?_⟩
  rw [h3]
  exact (SinkConforms.texts hC (run_length guess t ops) h1 ht hss hb).1

/-- A text stream for reading on windows. -/
def winText (C : Codec) (nl : Newline) (n : Nat) (data : Bytes) (sched : List OsAns) : Txt C :=
  (Txt.create nl false [13, 10] (winBuf .reader n (fun _ => 0) data sched)).2

theorem winText_ok (C : Codec) (nl : Newline) (n : Nat) (hn : 0 < n) (data : Bytes) (sched : List OsAns) (hb : Blocking sched) :
    WinTextOpened nl (winRaw (fun _ => 0) data 0 sched) (winText C nl n data sched) :=
  ⟨⟨.reader, n, _, false, [13, 10], winOpened_ok .reader n hn data sched, nofun, rfl⟩, rfl, hb⟩

-- newlines of windows, and a character cut by a short read
example : ((winText utf8 .auto 4 [0xE2, 0x82, 0xAC, 13, 10, 98] [.count 2]).run quotient [.next, .read none]).1 =
    [.text [8364, 10], .text [98]] := by decide +kernel

/-- A text stream for writing on windows. -/
def winWriter (C : Codec) (nl : Newline) (n : Nat) (data : Bytes) (sched : List OsAns) : Txt C :=
  (Txt.create nl false [13, 10] (winBuf .writer n (fun _ => 0) data sched)).2

theorem winWriter_ok (nl : Newline) (n : Nat) (hn : 0 < n) (data : Bytes) (sched : List OsAns) (hb : Blocking sched) :
    WinWriterOpened utf8 nl [13, 10] .writer (winRaw (fun _ => 0) data 0 sched) (winWriter utf8 nl n data sched) :=
  ⟨⟨n, _, false, winOpened_ok .writer n hn data sched, rfl⟩, nofun, hb⟩

-- newlines are translated; short writes
example : (Txt.flush ((winWriter utf8 .auto 2 [9] [.count 1, .count 2]).run quotient [.write [8364, 10], .tell, .write [98]]).2).2.buf.raw.data =
    [0xE2, 0x82, 0xAC, 13, 10, 98] := by decide +kernel

end Verif.Props
