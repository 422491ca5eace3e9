import Verif.Lemmas.Reads
import Verif.Lemmas.TextAlong
import Verif.Props.Sync
import Verif.Props.TextReading

/-!
# C73: what does not write does not change the file; C20, C22, C24 and C48 for text streams

Nothing is assumed about the answers of the system.
-/

set_option autoImplicit false

namespace Verif.Props

open Verif Verif.Spec

/-! ## C73, buffered streams -/

/-- Calls that read, move, ask or flush. -/
def Asks : AnyOp → Prop
  | .op (.write _) | .op (.truncate _) | .op (.lock _) | .op .unlock | .sync _ _ _ | .close => False
  | _ => True

theorem after1_settles (b : Buf) (o : AnyOp) (h : Asks o) : Settles b (after1 b o) := by
  cases o with
  | op o =>
    cases o with
    | read n => exact Settles.read n b
    | read1 n => exact Settles.read1 n b
    | peek n => exact Settles.peek n b
    | readline n => exact Settles.readline n b
    | write d => exact h.elim
    | seek o w => exact Settles.seek o w b
    | tell => exact Settles.tell b
    | flush => exact Settles.flush b
    | truncate n => exact h.elim
    | size => exact Settles.size b
    | lock o => exact h.elim
    | unlock => exact h.elim
  | readinto r d => exact Settles.readinto r d b
  | sync a m f => exact h.elim
  | close => exact h.elim

theorem afterAll_settles (os : List AnyOp) (b : Buf) (h : ∀ o ∈ os, Asks o) : Settles b (afterAll b os) := by
  induction os generalizing b with
  | nil => exact Settles.pre.refl _
  | cons o os ih =>
    exact Settles.pre.trans (after1_settles b o (h o (by simp))) (ih _ fun o' ho => h o' (List.mem_cons_of_mem _ ho))

/-- C73: calls that read, move, ask or flush, in any number and whatever they return, leave in the file its content with a
prefix of the pending bytes stored where they belong; the rest is still pending.  Nothing is locked, unlocked or closed. -/
theorem C73_buffered (b : Buf) (h : Usable b) (os : List AnyOp) (ho : ∀ o ∈ os, Asks o) :
    (∃ j, j ≤ b.writeBuf.length ∧ (afterAll b os).raw.data = put b.raw.data (landing b.raw) (b.writeBuf.take j) ∧
      (afterAll b os).writeBuf = b.writeBuf.drop j) ∧
    pendingData (afterAll b os) = pendingData b ∧ (afterAll b os).raw.events = b.raw.events ∧
      (afterAll b os).raw.closed = false := by
  have g := afterAll_settles os b ho h
  obtain ⟨j, hj⟩ := g.part
  exact ⟨⟨j, hj.le, hj.data, hj.left⟩, g.pending, g.events, g.usable.opened⟩

theorem Settled.withSched {b b' : Buf} (h : Settled b b') (s : List OsAns) : Usable (withSched b' s) :=
  ⟨h.usable.opened, h.usable.unix, h.usable.writable, h.usable.reader⟩

/-- C73 in terms of files: if the program closes the stream, the file is the same as if it had closed it before these
calls, whatever the answers of the system are in both cases, as long as `close()` raises nothing. -/
theorem C73_same_file (b : Buf) (h : Usable b) (os : List AnyOp) (ho : ∀ o ∈ os, Asks o) (s s' : List OsAns) (c c' : Buf)
    (h1 : Buf.close (withSched b s) = (.ok (), c)) (h2 : Buf.close (withSched (afterAll b os) s') = (.ok (), c')) :
    c'.raw.data = c.raw.data := by
  have g := afterAll_settles os b ho h
  have hu : Usable (withSched b s) := ⟨h.opened, h.unix, h.writable, h.reader⟩
  obtain ⟨r, b1, j, e1, _, _, _, _, _, e2⟩ := C22_close _ hu
  obtain ⟨r', b2, j', e1', _, _, _, _, _, e2'⟩ := C22_close _ (g.withSched s')
  rw [h1] at e1
  rw [h2] at e1'
  cases e1
  cases e1'
  rw [e2 rfl, e2' rfl]
  exact g.pending

/-- C73: these calls on a stream for reading do not change the file at all. -/
theorem C73_reader (b : Buf) (h : Usable b) (hk : b.kind = .reader) (os : List AnyOp) (ho : ∀ o ∈ os, Asks o) :
    (afterAll b os).raw.data = b.raw.data := by
  obtain ⟨⟨j, _, h2, _⟩, _⟩ := C73_buffered b h os ho
  rw [h2, h.reader hk]
  simp [put]

-- three bytes are pending; one of them reaches the file before the system reports an error to `read`
example : let b := { opened .random 4 digits [.count 1, .fail 5] with writeBuf := [65, 66, 67] }
    Usable b ∧ (b.run [.read (some 2), .size]).1 = [.error (.ioError 5), .num 10] ∧
      (b.step (.read (some 2))).2.raw.data = 65 :: digits.drop 1 ∧ (b.step (.read (some 2))).2.writeBuf = [66, 67] ∧
      (b.run [.read (some 2), .size]).2.raw.data = [65, 66, 67] ++ digits.drop 3 :=
  ⟨⟨rfl, rfl, fun _ => rfl, nofun⟩, by decide +kernel⟩

/-! ## C73, text streams -/

variable {C : Codec}

/-- Calls that read, move, ask or flush. -/
def TextAsks : Txt.Op → Prop
  | .write _ | .truncate _ | .lock _ | .unlock | .sync _ _ _ | .close => False
  | _ => True

theorem textStep_settles (guess : Nat × Nat → Nat → Nat) (t : Txt C) (o : Txt.Op) (h : TextAsks o) :
    OnText C Settles t (Txt.step guess t o).2 := by
  have H := Settles.bufs
  cases o with
  | read n => exact BufReads.tOf (H.tRead n) t
  | readline n => exact BufReads.tOf (H.tReadline n) t
  | next => exact BufReads.tOf H.tNext t
  | write s => exact h.elim
  | flush => exact BufReads.tOf H.tFlush t
  | seek m => exact BufReads.tOf (H.tSeek guess m) t
  | tell => exact BufReads.tOf (H.tTell guess) t
  | truncate a => exact h.elim
  | size => exact BufReads.tOf H.tSize t
  | sync a m f => exact h.elim
  | lock o => exact h.elim
  | unlock => exact h.elim
  | readinto => exact BufReads.tOf H.tReadinto t
  | close => exact h.elim

theorem textRun_settles (guess : Nat × Nat → Nat → Nat) (os : List Txt.Op) (t : Txt C) (h : ∀ o ∈ os, TextAsks o) :
    OnText C Settles t (Txt.run guess t os).2 := by
  induction os generalizing t with
  | nil => exact Settles.bufs.tPre.refl t
  | cons o os ih =>
    exact Settles.bufs.tPre.trans (textStep_settles guess t o (h o (by simp))) (ih _ fun o' ho => h o' (List.mem_cons_of_mem _ ho))

/-- C73 for text streams. -/
theorem C73_text (guess : Nat × Nat → Nat → Nat) (t : Txt C) (h : Usable t.buf) (os : List Txt.Op) (ho : ∀ o ∈ os, TextAsks o) :
    (∃ j, j ≤ t.buf.writeBuf.length ∧
      (Txt.run guess t os).2.buf.raw.data = put t.buf.raw.data (landing t.buf.raw) (t.buf.writeBuf.take j) ∧
      (Txt.run guess t os).2.buf.writeBuf = t.buf.writeBuf.drop j) ∧
    pendingData (Txt.run guess t os).2.buf = pendingData t.buf ∧ (Txt.run guess t os).2.buf.raw.events = t.buf.raw.events ∧
      (Txt.run guess t os).2.buf.raw.closed = false := by
  have g := (textRun_settles guess os t ho).buf h
  obtain ⟨j, hj⟩ := g.part
  exact ⟨⟨j, hj.le, hj.data, hj.left⟩, g.pending, g.events, g.usable.opened⟩

/-! ## C24, text streams -/

theorem text_flush_settled {t t' : Txt C} {r : Except Exn Unit} (h : Usable t.buf) (hf : Txt.flush t = (r, t')) :
    Settled t.buf t'.buf := by
  have := (Settles.bufs.tFlush (C := C) t).buf h
  rw [hf] at this
  exact this

/-- C24 for text streams: a size that is returned is the size of the file with all pending data in it. -/
theorem C24_text (t t' : Txt C) (n : Nat) (h : Usable t.buf) (hs : Txt.size t = (.ok n, t')) :
    n = (pendingData t.buf).length ∧ t'.buf.raw.data = pendingData t.buf := by
  unfold Txt.size at hs
  obtain ⟨u, t1, h1, h2⟩ := bind_inv hs
  have g := text_flush_settled h h1
  unfold Txt.onBuf at h2
  generalize hq : Buf.size t1.buf = q at h2
  obtain ⟨r, b⟩ := q
  cases h2
  have := C24_size _ _ _ g.usable hq
  rw [g.pending] at this
  exact this

/-! ## C20, text streams -/

/-- C20, `unlock_file()` of text streams: whatever the system answers, either an exception is raised and nothing is released,
or the lock is released at a time when the file contains all pending bytes. -/
theorem C20_text_unlock (guess : Nat × Nat → Nat → Nat) (t : Txt C) (h : Usable t.buf) (hk : t.buf.raw.seekable = true) :
    ((∃ e, (Txt.unlockFile guess t).1 = .error e) ∧ (Txt.unlockFile guess t).2.buf.raw.events = t.buf.raw.events) ∨
    ((Txt.unlockFile guess t).1 = .ok () ∧
      (Txt.unlockFile guess t).2.buf.raw.events = t.buf.raw.events ++ [.unlock (pendingData t.buf)] ∧
      (Txt.unlockFile guess t).2.buf.raw.data = pendingData t.buf ∧ (Txt.unlockFile guess t).2.buf.writeBuf = []) := by
  have hs := (Settles.bufs.tResetBuffers (C := C) guess t).buf h
  unfold Txt.unlockFile
  rcases bind_cases (Txt.resetBuffers guess) (fun _ => Txt.onBuf Buf.unlockFile) t with ⟨a, t1, g1, g2⟩ | ⟨e, t1, g1, g2⟩
  · rw [g2]
    rw [g1] at hs
    have := C20_unlock t1.buf hs.usable (hs.frame.seekable.trans hk)
    unfold Txt.onBuf
    generalize Buf.unlockFile t1.buf = q at this
    obtain ⟨r, b⟩ := q
    dsimp only at this ⊢
    rw [hs.pending, hs.events] at this
    exact this
  · left
    rw [g2]
    rw [g1] at hs
    exact ⟨⟨e, rfl⟩, hs.events⟩

/-- The end of `with f.lock_file():` on a text stream: `_lock_remover`, `rsfileio_abstract.py:527-532`, as for `Buf.exitLock`. -/
theorem C20_text_exit_partial (t : Txt C) (h : Usable t.buf) (hk : t.buf.raw.seekable = true) (hf : (Txt.flush t).1 = .ok ()) :
    (Buf.exitLock (Txt.flush t).2.buf).2.raw.events = t.buf.raw.events ++ [.unlock (pendingData t.buf)] := by
  have h1 : (Buf.flush t.buf).1 = .ok () ∧ (Txt.flush t).2.buf = (Buf.flush t.buf).2 := by
    unfold Txt.flush at hf ⊢
    rcases bind_cases (Txt.onBuf (C := C) Buf.flush) (fun _ => PyM.modify fun t => { t with telling := t.seekable }) t with
      ⟨a, t1, g1, g2⟩ | ⟨e, t1, g1, g2⟩
    all_goals
      rw [g2] at hf ⊢
      unfold Txt.onBuf at g1
      generalize Buf.flush t.buf = q at g1 ⊢
      obtain ⟨r, b⟩ := q
      cases g1
    · exact ⟨rfl, rfl⟩
    · cases hf
  rw [h1.2]
  exact C20_exit_partial t.buf h hk h1.1

/-! ## C22, text streams -/

/-- C22 for text streams: whatever the system answers, `close()` closes the raw stream after writing a prefix of the pending
bytes: all of them if it returns. -/
theorem C22_text (t : Txt C) (h : Usable t.buf) :
    ∃ r t' j, Txt.close t = (r, t') ∧ t'.buf.raw.closed = true ∧ j ≤ t.buf.writeBuf.length ∧
      t'.buf.raw.data = put t.buf.raw.data (landing t.buf.raw) (t.buf.writeBuf.take j) ∧
      t'.buf.raw.events = t.buf.raw.events ++ [.close t'.buf.raw.data] ∧
      (r = .ok () → t'.buf.raw.data = pendingData t.buf) ∧ ((Txt.flush t).1 ≠ .ok () → r ≠ .ok ()) := by
  generalize hq : Txt.flush t = q
  obtain ⟨r, t1⟩ := q
  have g := text_flush_settled h hq
  obtain ⟨i, hi⟩ := g.part
  obtain ⟨r', b', j, e1, e2, e3, e4, e5, e6, e7⟩ := C22_close t1.buf g.usable
  have hb : Txt.onBuf (C := C) Buf.close t1 = (r', { t1 with buf := b' }) := by unfold Txt.onBuf; rw [e1]
  have hc : Txt.close t = (if r' = .ok () then r else r', { t1 with buf := b' }) := by
    unfold Txt.close
    rw [if_neg (by simp [h.opened]), PyM.tryFinally_apply, hq]
    dsimp only
    rw [hb]
    cases r' <;> rfl
  have hle := hi.le
  rw [hi.left, List.length_drop] at e3
  refine ⟨_, _, i + j, hc, e2, by omega, ?_, ?_, ?_, ?_⟩
  · dsimp only
    rw [e4, hi.left, hi.data, List.take_add]
    by_cases hj : t1.buf.writeBuf = []
    · rw [hi.left] at hj
      simp [hj, put]
    · rw [hi.next hj, put_eq, put_eq, put_eq, ← writeAt_append, List.length_take, Nat.min_eq_left hle]
  · dsimp only; rw [e5, g.events]
  · intro hr
    refine (e7 ?_).trans g.pending
    split at hr
    · assumption
    · exact hr
  · intro hr
    split
    · exact hr
    · assumption

/-! ## C48, text streams -/

theorem kept_steps : BufSteps KeptClass where
  pre := ⟨fun _ => ⟨rfl, rfl, rfl, Buf.Still.pre.refl _⟩, fun h1 h2 => ⟨h2.platform.trans h1.platform,
    h2.writable.trans h1.writable, h2.kind.trans h1.kind, Buf.Still.pre.trans h1.still h2.still⟩⟩
  checkClosed b := by unfold Buf.checkClosed; split <;> exact ⟨rfl, rfl, rfl, Buf.Still.pre.refl _⟩
  flush b := after1_kept b (.op .flush)
  read n b := after1_kept b (.op (.read n))
  read1 n b := after1_kept b (.op (.read1 n))
  tell b := after1_kept b (.op .tell)
  seekSet p b := after1_kept b (.op (.seek p .set))
  seekEnd b := after1_kept b (.op (.seek 0 .fin))
  size b := after1_kept b (.op .size)
  write d b := after1_kept b (.op (.write d))
  sync a m f b := after1_kept b (.sync a m f)
  lockFile o b := after1_kept b (.op (.lock o))
  unlockFile b := after1_kept b (.op .unlock)

/-- A text stream on a stream that was just opened. -/
def Built (nl : Newline) (lineBuffering : Bool) (linesep : Text) (kind : BufKind) (n : Int) (raw : Raw) (t : Txt C) : Prop :=
  ∃ b, Buf.create kind n raw = .ok b ∧ Txt.create nl lineBuffering linesep b = (.ok (), t)

/-- Any history keeps an open stream usable. -/
theorem text_usable {nl : Newline} {lb : Bool} {ls : Text} {kind : BufKind} {n : Int} {raw : Raw} {t : Txt C}
    (h : Built nl lb ls kind n raw t) (hp : raw.platform = .unix) (guess : Nat × Nat → Nat → Nat) (os : List Txt.Op)
    (ho : (Txt.run guess t os).2.buf.raw.closed = false) : Usable (Txt.run guess t os).2.buf := by
  obtain ⟨b, h1, h2⟩ := h
  have hrun := (kept_steps.tRun guess (ops := os) (fun _ z b => after1_kept b (.op (.truncate (some z))))
    (fun _ b => after1_kept b .close) t).buf
  obtain ⟨rfl, _, hc, _, hw⟩ := create_ok h1
  have h0 : KeptClass ⟨kind, n.toNat, raw, [], 0, []⟩ t.buf := by
    unfold Txt.create at h2
    rw [if_neg (by simp [hc])] at h2
    have := (kept_steps.tConfigure (C := C)
      ⟨⟨kind, n.toNat, raw, [], 0, []⟩, nl, lb, ls, raw.seekable, raw.seekable, none, none, [], 0, none, (0, 0)⟩).buf
    rw [h2] at this
    exact this
  have hk := kept_steps.pre.trans h0 hrun
  exact ⟨ho, hk.platform.trans hp, fun hne => hk.writable.trans (hw fun e => hne (hk.kind.trans e)),
    fun hr => (hk.still (hk.kind.symm.trans hr)).2⟩

theorem text_grows {nl : Newline} {lb : Bool} {ls : Text} {kind : BufKind} {n : Int} {raw : Raw} {t : Txt C}
    (h : Built nl lb ls kind n raw t) (guess : Nat × Nat → Nat → Nat) (os : List Txt.Op) :
    Grows raw (Txt.run guess t os).2.buf.raw := by
  obtain ⟨b, h1, h2⟩ := h
  have hrun := (Grows.steps.bufs.tRun guess (ops := os) (fun _ z => Grows.steps.bTruncate (some z))
    (fun _ => Grows.steps.bClose Grows.close) t).buf
  obtain ⟨rfl, _, hc, _, hw⟩ := create_ok h1
  have h0 : Grows raw t.buf.raw := by
    unfold Txt.create at h2
    rw [if_neg (by simp [hc])] at h2
    have := (Grows.steps.bufs.tConfigure (C := C)
      ⟨⟨kind, n.toNat, raw, [], 0, []⟩, nl, lb, ls, raw.seekable, raw.seekable, none, none, [], 0, none, (0, 0)⟩).buf
    rw [h2] at this
    exact this
  exact Grows.pre.trans h0 hrun

/-- C48 for text streams, after any history with any answers of the system.
Missing: as for `C48_sync_partial`. -/
theorem C48_text_partial {nl : Newline} {lb : Bool} {ls : Text} {kind : BufKind} {n : Int} {raw : Raw} {t : Txt C}
    (h : Built nl lb ls kind n raw t) (hp : raw.platform = .unix) (hr : raw.disk = []) (d : Device) (hd : d.Sound raw.data)
    (guess : Nat × Nat → Nat → Nat) (os : List Txt.Op) (fdatasync metadata fullFlush : Bool) (t' : Txt C)
    (hs : Txt.sync fdatasync metadata fullFlush (Txt.run guess t os).2 = (.ok (), t')) (hw : .writeError ∉ t'.buf.raw.disk) :
    t'.buf.raw.data = pendingData (Txt.run guess t os).2.buf ∧ t'.buf.writeBuf = [] ∧
      Durable d t'.buf.raw.disk (pendingData (Txt.run guess t os).2.buf) ∧
      ∃ k, t'.buf.raw.disk.getLast? = some (.flushed k) ∧ (metadata = true → k ≠ .data) := by
  have hg := text_grows h guess os
  have hu := text_usable h hp guess os
  generalize (Txt.run guess t os).2 = u at *
  unfold Txt.sync at hs
  obtain ⟨x, t1, h1, h2⟩ := bind_inv hs
  have hg1 : Grows u.buf.raw t1.buf.raw := by
    have := (Grows.steps.bufs.tFlush (C := C) u).buf
    rw [h1] at this
    exact this
  obtain ⟨l, g1, g2⟩ := Grows.pre.trans hg hg1
  rw [hr, List.nil_append] at g1
  have ho : u.buf.raw.closed = false := by
    unfold Txt.flush at h1
    obtain ⟨y, t2, k1, k2⟩ := bind_inv h1
    unfold Txt.onBuf at k1
    cases hc : u.buf.raw.closed with
    | false => rfl
    | true =>
      exfalso
      have : ∃ e, (Buf.flush u.buf).1 = .error e := by
        unfold Buf.flush
        have hcc : Buf.checkClosed u.buf = (.error .valueError, u.buf) := by simp [Buf.checkClosed, hc]
        split
        · exact ⟨_, by rw [PyM.bind_error hcc]⟩
        · exact ⟨_, by unfold Buf.flushUnlocked; rw [PyM.bind_error hcc]⟩
      obtain ⟨e, he⟩ := this
      generalize Buf.flush u.buf = q at k1 he
      obtain ⟨r, b⟩ := q
      cases he
      cases k1
  have hs1 := text_flush_settled (hu ho) h1
  unfold Txt.onBuf at h2
  generalize hq : Buf.sync fdatasync metadata fullFlush t1.buf = q at h2
  obtain ⟨r, b⟩ := q
  cases h2
  have := sync_safe (fun _ => hs1.usable) g1 g2 d hd fdatasync metadata fullFlush hq hw
  rw [hs1.pending] at this
  exact this

/-! ## A concrete stream -/

/-- A text stream for reading and writing, three bytes of which are pending; the system answers as given. -/
def halfWritten (sched : List OsAns) : Txt latin1 :=
  { (Txt.create .auto false [10] (opened .random 4 digits sched)).2 with buf := { opened .random 4 digits sched with writeBuf := [65, 66, 67] } }

example : Usable (halfWritten [.count 1, .fail 5]).buf := ⟨rfl, rfl, fun _ => rfl, nofun⟩

-- C73: the first `read` fails after one byte, the second one stores the others; the position is then after them
example : (Txt.run (fun _ _ => 0) (halfWritten [.count 1, .fail 5]) [.read (some 2), .read (some 2), .tell]).1 =
      [.error (.ioError 5), .text [51, 52], .cookie ⟨5, 0, 0, false, 0⟩] ∧
    (Txt.run (fun _ _ => 0) (halfWritten [.count 1, .fail 5]) [.read (some 2)]).2.buf.raw.data = 65 :: digits.drop 1 ∧
    (Txt.run (fun _ _ => 0) (halfWritten [.count 1, .fail 5]) [.read (some 2), .read (some 2), .tell]).2.buf.raw.data =
      [65, 66, 67] ++ digits.drop 3 := by
  refine ⟨?_, ?_, ?_⟩ <;> decide +kernel

-- C20, C22, C24: an error of the system, and short writes
example : (Txt.unlockFile (fun _ _ => 0) (halfWritten [.count 1, .fail 5])).1 = .error (.ioError 5) ∧
    (Txt.unlockFile (fun _ _ => 0) (halfWritten [.count 1])).2.buf.raw.events = [.unlock ([65, 66, 67] ++ digits.drop 3)] ∧
    (Txt.close (halfWritten [.count 1, .fail 5, .fail 6])).1 = .error (.ioError 6) ∧
    (Txt.close (halfWritten [.count 1, .fail 5, .fail 6])).2.buf.raw.events = [.close (65 :: digits.drop 1)] ∧
    (Txt.close (halfWritten [.count 1])).2.buf.raw.events = [.close ([65, 66, 67] ++ digits.drop 3)] ∧
    (Txt.size { halfWritten [] with buf := { (halfWritten []).buf with raw := { rawOf digits [] with pos := 9 } } }).1 = .ok 12 := by
  refine ⟨?_, ?_, ?_, ?_, ?_, ?_⟩ <;> decide +kernel

-- C48
example : Built (C := latin1) .auto false [10] .writer 4 (rawOf [] []) (Txt.create .auto false [10] (opened .writer 4 [] [])).2 ∧
    (Txt.sync (C := latin1) true true true (Txt.run (fun _ _ => 0) (Txt.create .auto false [10] (opened .writer 4 [] [])).2 [.write [65, 66]]).2).1 =
      .ok () :=
  ⟨⟨_, rfl, rfl⟩, by decide +kernel⟩

end Verif.Props
