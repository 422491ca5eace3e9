import Verif.Lemmas.TextSteps
import Verif.Props.BufferedMore

/-!
# Reading, moving and telling leave the content alone
-/

set_option autoImplicit false

namespace Verif

/-! ## The raw stream -/

/-- Only the position and the pending answers differ. -/
structure Raw.Moved (s s' : Raw) : Prop where
  frame : Raw.Frame s s'
  data : s'.data = s.data
  events : s'.events = s.events
  disk : s'.disk = s.disk

theorem Raw.Moved.pre : Pre Raw.Moved :=
  ⟨fun s => ⟨.refl s, rfl, rfl, rfl⟩, fun h1 h2 =>
    ⟨h1.frame.trans h2.frame, h2.data.trans h1.data, h2.events.trans h1.events, h2.disk.trans h1.disk⟩⟩

theorem Raw.Moved.reads : RawReads Raw.Moved where
  toPre := Raw.Moved.pre
  innerSeek o w s := by
    unfold Raw.innerSeek
    split
    · split <;> (dsimp only; split <;> exact ⟨⟨rfl, rfl, rfl, rfl, rfl, rfl⟩, rfl, rfl, rfl⟩)
    · exact Raw.Moved.pre.refl _
  innerRead n s := by
    rcases Raw.innerRead_cases n s with ⟨k, sched', h, _⟩ | ⟨sched', h, _⟩ | ⟨sched', h, _⟩ | ⟨e, sched', h, _⟩ <;>
      (rw [h]; exact ⟨⟨rfl, rfl, rfl, rfl, rfl, rfl⟩, rfl, rfl, rfl⟩)

/-! ## Buffered streams, once nothing is pending -/

namespace Buf

/-- Only the read buffer and the position differ. -/
structure Calm (b b' : Buf) : Prop where
  kind : b'.kind = b.kind
  writeBuf : b'.writeBuf = b.writeBuf
  raw : Raw.Moved b.raw b'.raw

namespace Calm

variable {α : Type}

theorem pre : Pre Calm :=
  ⟨fun _ => ⟨rfl, rfl, Raw.Moved.pre.refl _⟩, fun h1 h2 =>
    ⟨h2.kind.trans h1.kind, h2.writeBuf.trans h1.writeBuf, Raw.Moved.pre.trans h1.raw h2.raw⟩⟩

theorem onRaw {m : PyM Raw α} (hm : Along Raw.Moved m) : Along Calm (Buf.onRaw m) := fun b => ⟨rfl, rfl, hm b.raw⟩

theorem set (b : Buf) (r : Bytes) (n : Nat) : Calm b { b with readBuf := r, readPos := n } := ⟨rfl, rfl, Raw.Moved.pre.refl _⟩

theorem checkClosed : Along Calm Buf.checkClosed := by
  intro b; unfold Buf.checkClosed; split <;> exact pre.refl _

theorem resetReadBuf : Along Calm Buf.resetReadBuf := fun b => set b _ _

theorem fillLoop (w n fuel : Nat) : ∀ out, Along Calm (Buf.fillLoop w n fuel out) := by
  induction fuel with
  | zero => intro out; exact .pure pre _
  | succ fuel ih =>
    intro out
    unfold Buf.fillLoop
    refine .ite (.bind pre (onRaw (Raw.Moved.reads.read _)) fun c => ?_) (.pure pre _)
    split
    · exact .pure pre _
    · exact .pure pre _
    · exact ih _

theorem readSome (n : Nat) : Along Calm (Buf.readSome n) := by
  intro b
  unfold Buf.readSome
  split
  · exact set b _ _
  · exact Along.bind pre (fillLoop _ _ _ _) (fun _ b => set b _ _) b

theorem readRest : Along Calm Buf.readRest := by
  intro b
  exact Along.bind pre resetReadBuf (fun _ => .bind pre (onRaw Raw.Moved.reads.readall) fun _ => .pure pre _) b

theorem readerRead (n : Option Int) : Along Calm (Buf.readerRead n) := by
  unfold Buf.readerRead
  split
  · exact readRest
  · exact .ite (.raise pre _) (.ite readRest (readSome _))

theorem peekUnlocked (n : Int) : Along Calm (Buf.peekUnlocked n) := by
  intro b
  unfold Buf.peekUnlocked
  refine Along.bind pre (.when pre (.bind pre (onRaw (Raw.Moved.reads.read _)) fun c => ?_))
    (fun _ => .bind pre (.get pre) fun _ => .pure pre _) b
  split
  · exact fun b => set b _ _
  · exact .pure pre _

theorem readerRead1 (n : Int) : Along Calm (Buf.readerRead1 n) := by
  intro b
  unfold Buf.readerRead1
  exact Along.bind pre checkClosed (fun _ => .ite (.pure pre _)
    (.bind pre (peekUnlocked 1) fun _ => .bind pre (.get pre) fun _ => readSome _)) b

theorem copyOut (dst : Bytes) (n : Nat) : Along Calm (Buf.copyOut dst n) := by
  intro b
  unfold Buf.copyOut
  extract_lets a
  split
  · exact pre.refl _
  · split
    · exact pre.refl _
    · exact set b _ _

theorem readMore (r : Bool) (dst : Bytes) (n : Nat) : Along Calm (Buf.readMore r dst n) := by
  intro b
  unfold Buf.readMore
  split
  · exact Along.bind pre (onRaw (Raw.Moved.reads.readinto _)) (fun _ => .pure pre _) b
  · split
    · exact pre.refl _
    · exact Along.bind pre (peekUnlocked 1) (fun _ => .pure pre _) b

theorem readintoLoop (r : Bool) (fuel : Nat) : ∀ dst n, Along Calm (Buf.readintoLoop r fuel dst n) := by
  induction fuel with
  | zero => intro dst n; exact .pure pre _
  | succ fuel ih =>
    intro dst n
    unfold Buf.readintoLoop
    exact .ite (.bind pre (copyOut _ _) fun _ => .ite (.pure pre _) (.bind pre (readMore _ _ _) fun _ =>
      .ite (.pure pre _) (ih _ _))) (.pure pre _)

theorem readerReadinto (r : Bool) (dst : Bytes) : Along Calm (Buf.readerReadinto r dst) :=
  .bind pre checkClosed fun _ => .ite (.pure pre _) (readintoLoop _ _ _ _)

theorem readerSeek (o : Int) (w : Whence) : Along Calm (Buf.readerSeek o w) := fun b =>
  Along.bind pre checkClosed (fun _ => .bind pre (onRaw (Raw.Moved.reads.seek _ _)) fun _ =>
    .bind pre resetReadBuf fun _ => .pure pre _) b

theorem seekBack : Along Calm Buf.seekBack := by
  intro b
  unfold Buf.seekBack
  split
  · exact pre.refl _
  · exact Along.bind pre (onRaw (Raw.Moved.reads.seek _ _)) (fun _ => .pure pre _) b

end Calm

end Buf

namespace Props

open Verif.Spec

/-! ## Any state -/

/-- Of the bytes pending before, some are in the file, the others still pending. -/
structure Part (b b' : Buf) (j : Nat) : Prop where
  le : j ≤ b.writeBuf.length
  left : b'.writeBuf = b.writeBuf.drop j
  data : b'.raw.data = put b.raw.data (landing b.raw) (b.writeBuf.take j)
  next : b'.writeBuf ≠ [] → landing b'.raw = landing b.raw + j

/-- After a call, whatever it returned, the file is or will be what it would have been without it, and nothing was locked,
unlocked or closed. -/
structure Settled (b b' : Buf) : Prop where
  usable : Usable b'
  part : ∃ j, Part b b' j
  pending : pendingData b' = pendingData b
  events : b'.raw.events = b.raw.events
  frame : Raw.Frame b.raw b'.raw
  kind : b'.kind = b.kind

/-- The same, for a stream in use. -/
def Settles (b b' : Buf) : Prop := Usable b → Settled b b'

namespace Settles

variable {α β : Type}

theorem part_refl (b : Buf) : Part b b 0 := ⟨Nat.zero_le _, by simp, by simp [put], fun _ => rfl⟩

theorem part_trans {b b' b'' : Buf} {i j : Nat} (h1 : Part b b' i) (h2 : Part b' b'' j) : Part b b'' (i + j) := by
  have hle := h2.le
  have hle' := h1.le
  rw [h1.left, List.length_drop] at hle
  refine ⟨by omega, by rw [h2.left, h1.left, List.drop_drop], ?_, fun hne => ?_⟩
  · rw [h2.data, h1.left, h1.data, List.take_add]
    by_cases hj : b'.writeBuf = []
    · rw [h1.left] at hj
      simp [hj, put]
    · rw [h1.next hj, put_eq, put_eq, put_eq, ← writeAt_append, List.length_take, Nat.min_eq_left hle']
  · have : b'.writeBuf ≠ [] := by
      intro he
      rw [h2.left, he, List.drop_nil] at hne
      exact hne rfl
    rw [h2.next hne, h1.next this, Nat.add_assoc]

theorem pre : Pre Settles :=
  ⟨fun b h => ⟨h, ⟨0, part_refl b⟩, rfl, rfl, .refl _, rfl⟩, fun h1 h2 h =>
    have g1 := h1 h
    have g2 := h2 g1.usable
    ⟨g2.usable, by
        obtain ⟨i, hi⟩ := g1.part
        obtain ⟨j, hj⟩ := g2.part
        exact ⟨i + j, part_trans hi hj⟩, g2.pending.trans g1.pending, g2.events.trans g1.events, g1.frame.trans g2.frame, g2.kind.trans g1.kind⟩⟩

theorem of_calm {b b' : Buf} (he : b.writeBuf = []) (h : Buf.Calm b b') : Settles b b' := fun hu =>
  ⟨⟨h.raw.frame.closed.trans hu.opened, h.raw.frame.platform.trans hu.unix,
      fun hk => h.raw.frame.writable.trans (hu.writable (h.kind ▸ hk)), fun _ => h.writeBuf.trans he⟩,
    ⟨0, by omega, by rw [h.writeBuf, he]; rfl, by rw [h.raw.data, he]; simp [put], fun hne => absurd (h.writeBuf.trans he) hne⟩,
    by unfold pendingData; rw [h.writeBuf, he, h.raw.data]; simp [put], h.raw.events, h.raw.frame, h.kind⟩

theorem checkClosed : Along Settles Buf.checkClosed := by
  intro b; unfold Buf.checkClosed; split <;> exact pre.refl _

theorem of_flushed {b b' : Buf} {r : Except Exn Unit} {j : Nat} (hu : Usable b) (h : Buf.Flushed b r b' j) : Settled b b' := by
  refine ⟨⟨h.frame.raw.closed.trans hu.opened, h.frame.raw.platform.trans hu.unix,
    fun hk => h.frame.raw.writable.trans (hu.writable (h.frame.kind ▸ hk)), fun hk => ?_⟩,
    ⟨j, h.le, h.left, flushed_data hu h, fun _ => h.dest⟩, ?_, h.frame.events, h.frame.raw, h.frame.kind⟩
  · rw [h.left, hu.reader (h.frame.kind ▸ hk), List.drop_nil]
  · unfold pendingData
    rw [h.left, Flushed.combine hu h, List.take_append_drop]

theorem flush : Along Settles Buf.flush := by
  intro b hu
  obtain ⟨r, b', j, h1, h2⟩ := flush_usable hu
  rw [h1]
  exact of_flushed hu h2

/-- A method that flushes first, and then only reads or moves. -/
theorem flush_then {g : Unit → PyM Buf α} (hg : ∀ u, Along Buf.Calm (g u)) : Along Settles (Buf.flush >>= g) := by
  intro b hu
  rcases bind_cases Buf.flush g b with ⟨a, c, g1, g2⟩ | ⟨e, c, g1, g2⟩
  · rw [g2]
    have h1 := flush b hu
    rw [g1] at h1
    exact pre.trans (fun _ => h1) (of_calm (flush_done hu g1).2.1 (hg a c)) hu
  · rw [g2]
    have h1 := flush b hu
    rw [g1] at h1
    exact h1

theorem of_reader {b : Buf} {m : PyM Buf α} (hk : b.kind = .reader) (hm : Along Buf.Calm m) : Settles b (m b).2 := fun hu =>
  of_calm (hu.reader hk) (hm b) hu

theorem read (n : Option Int) : Along Settles (Buf.read n) := by
  intro b
  unfold Buf.read
  split
  · exact pre.refl _
  · exact of_reader (by assumption) (Buf.Calm.readerRead n)
  · exact flush_then (fun _ => Buf.Calm.readerRead _) b

theorem read1 (n : Int) : Along Settles (Buf.read1 n) := by
  intro b
  unfold Buf.read1
  split
  · exact pre.refl _
  · exact of_reader (by assumption) (Buf.Calm.readerRead1 n)
  · exact flush_then (fun _ => Buf.Calm.readerRead1 _) b

theorem readinto (r : Bool) (dst : Bytes) : Along Settles (Buf.readinto r dst) := by
  intro b
  unfold Buf.readinto
  split
  · exact pre.refl _
  · exact of_reader (by assumption) (Buf.Calm.readerReadinto r dst)
  · exact flush_then (fun _ => Buf.Calm.readerReadinto r dst) b

theorem peek (n : Int) : Along Settles (Buf.peek n) := by
  intro b
  unfold Buf.peek
  split
  · exact pre.refl _
  · exact of_reader (by assumption) (.bind Buf.Calm.pre Buf.Calm.checkClosed fun _ => Buf.Calm.peekUnlocked n)
  · exact flush_then (fun _ => .bind Buf.Calm.pre Buf.Calm.checkClosed fun _ => Buf.Calm.peekUnlocked n) b

theorem readlineLoop (size : Int) (fuel : Nat) : ∀ res, Along Settles (Buf.readlineLoop size fuel res) := by
  induction fuel with
  | zero => intro res; exact .pure pre _
  | succ fuel ih =>
    intro res
    unfold Buf.readlineLoop
    refine .ite (.bind pre ?_ fun n => .bind pre (read _) fun c => ?_) (.pure pre _)
    · intro b
      unfold Buf.nreadahead
      split
      · exact pre.refl _
      · exact Along.bind pre (peek 1) (fun _ => .pure pre _) b
    · split
      · exact .pure pre _
      · exact .pure pre _
      · exact .ite (.pure pre _) (ih _)

theorem readline (n : Int) : Along Settles (Buf.readline n) := fun b => readlineLoop n _ _ b

theorem linesLoop (hint : Option Nat) (fuel : Nat) : ∀ n, Along Settles (Buf.linesLoop hint fuel n) := by
  induction fuel with
  | zero => intro n; exact .pure pre _
  | succ fuel ih =>
    intro n
    exact .bind pre (readline _) fun _ => .ite (.pure pre _) (.ite (.pure pre _) (.bind pre (ih _) fun _ => .pure pre _))

theorem readlines (hint : Option Int) : Along Settles (Buf.readlines hint) := fun b =>
  Along.bind pre checkClosed (fun _ => linesLoop _ _ _) b

theorem tell : Along Settles Buf.tell := by
  have hp : ∀ {σ : Type}, Pre (Eq : σ → σ → Prop) := ⟨fun _ => rfl, Eq.trans⟩
  have hr : Along Eq Raw.tell := .bind hp (fun s => by unfold Raw.checkClosed; split <;> rfl) fun _ s => by
    unfold Raw.innerTell; split <;> rfl
  intro b
  have h : b = (Buf.tell b).2 := Along.bind hp (fun c => congrArg (fun r => { c with raw := r }) (hr c.raw)) (fun _ => .pure hp _) b
  rw [← h]
  exact pre.refl _

theorem seek (o : Int) (w : Whence) : Along Settles (Buf.seek o w) := by
  intro b
  unfold Buf.seek
  split
  · exact of_reader (by assumption) (Buf.Calm.readerSeek o w)
  · rename_i hk
    have : Buf.writerSeek o w b = (Buf.flush >>= fun _ => Buf.onRaw (Raw.seek o w)) b := by
      unfold Buf.writerSeek
      have hf : Buf.flush b = Buf.flushUnlocked b := by unfold Buf.flush; rw [hk]
      rw [PyM.bind_apply, PyM.bind_apply, hf]
    rw [this]
    exact flush_then (fun _ => Buf.Calm.onRaw (Raw.Moved.reads.seek o w)) b
  · exact flush_then (fun _ => .bind Buf.Calm.pre Buf.Calm.seekBack fun _ =>
      .bind Buf.Calm.pre (Buf.Calm.onRaw (Raw.Moved.reads.seek o w)) fun _ =>
      .bind Buf.Calm.pre Buf.Calm.resetReadBuf fun _ => .pure Buf.Calm.pre _) b

theorem size : Along Settles Buf.size := flush_then fun _ => Buf.Calm.onRaw Raw.Moved.reads.size

/-- What text streams call. -/
theorem bufs : BufReads Settles where
  pre := pre
  checkClosed := checkClosed
  flush := flush
  read := read
  read1 n := read1 n
  tell := tell
  seekSet p := seek p .set
  seekEnd := seek 0 .fin
  size := size

end Settles

end Props

end Verif
