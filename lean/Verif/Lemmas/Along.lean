import Verif.Model.Buffered

/-!
# Relations between the states before and after a call
-/

set_option autoImplicit false

namespace Verif

/-- Whatever the result of `m`, the states before and after are related. -/
def Along {σ α : Type} (P : σ → σ → Prop) (m : PyM σ α) : Prop := ∀ s, P s (m s).2

/-- Reflexive and transitive. -/
structure Pre {σ : Type} (P : σ → σ → Prop) : Prop where
  refl : ∀ s, P s s
  trans : ∀ {s s' s''}, P s s' → P s' s'' → P s s''

namespace Along

variable {σ α β : Type} {P : σ → σ → Prop}

theorem bind (hp : Pre P) {m : PyM σ α} {g : α → PyM σ β} (hm : Along P m) (hg : ∀ a, Along P (g a)) : Along P (m >>= g) := by
  intro b
  have h1 := hm b
  rw [PyM.bind_apply]
  generalize m b = p at *
  obtain ⟨r, b'⟩ := p
  cases r with
  | ok a => exact hp.trans h1 (hg a b')
  | error e => exact h1

theorem pure (hp : Pre P) (a : α) : Along P (pure a : PyM σ α) := fun s => hp.refl s

theorem raise (hp : Pre P) (e : Exn) : Along P (PyM.raise e : PyM σ α) := fun s => hp.refl s

theorem get (hp : Pre P) : Along P (PyM.get : PyM σ σ) := fun s => hp.refl s

theorem ite {c : Prop} [Decidable c] {m m' : PyM σ α} (h : Along P m) (h' : Along P m') : Along P (if c then m else m') := by
  split
  · exact h
  · exact h'

theorem when (hp : Pre P) {c : Bool} {m : PyM σ α} (h : Along P m) : Along P (PyM.when c m) := by
  intro b
  have := h b
  unfold PyM.when
  split
  · generalize m b = p at *
    obtain ⟨r, b'⟩ := p
    cases r <;> exact this
  · exact hp.refl b

theorem tryFinally (hp : Pre P) {m : PyM σ α} {f : PyM σ Unit} (hm : Along P m) (hf : Along P f) :
    Along P (PyM.tryFinally m f) := by
  intro s
  have h1 := hm s
  have h2 := hf (m s).2
  unfold PyM.tryFinally
  dsimp only
  split
  · rename_i h; rw [h] at h2; exact hp.trans h1 h2
  · rename_i h; rw [h] at h2; exact hp.trans h1 h2

end Along

/-- A relation that all calls made by buffered streams respect. -/
structure RawSteps (P : Raw → Raw → Prop) : Prop extends Pre P where
  write : ∀ d, Along P (Raw.write d)
  read : ∀ n, Along P (Raw.read n)
  readall : Along P Raw.readall
  readinto : ∀ d, Along P (Raw.readinto d)
  seek : ∀ o w, Along P (Raw.seek o w)
  tell : Along P Raw.tell
  truncate : ∀ n z, Along P (Raw.truncate n z)
  size : Along P Raw.size
  flush : Along P Raw.flush
  sync : ∀ a b c, Along P (Raw.sync a b c)
  lockFile : ∀ o, Along P (Raw.lockFile o)
  unlockFile : Along P Raw.unlockFile

/-- A relation that the system calls for reading respect. -/
structure RawReads (P : Raw → Raw → Prop) : Prop extends Pre P where
  innerSeek : ∀ o w, Along P (Raw.innerSeek o w)
  innerRead : ∀ n, Along P (Raw.innerRead n)

/-- A relation that the system calls respect. -/
structure RawPrims (P : Raw → Raw → Prop) : Prop extends RawReads P where
  osWrite : ∀ e d, Along P (Raw.osWrite e d)
  osTruncate : ∀ n, Along P (Raw.osTruncate n)
  osFlush : ∀ k, Along P (Raw.osFlush k)
  lockFile : ∀ o, Along P (Raw.lockFile o)
  unlockFile : Along P Raw.unlockFile

namespace RawReads

variable {P : Raw → Raw → Prop} (h : RawReads P)
include h

theorem pre : Pre P := h.toPre

theorem checkClosed : Along P Raw.checkClosed := by
  intro s; unfold Raw.checkClosed; split <;> exact h.refl _

theorem checkReadable : Along P Raw.checkReadable := by
  intro s; unfold Raw.checkReadable; split
  · exact h.refl _
  · split <;> exact h.refl _

theorem checkWritable : Along P Raw.checkWritable := by
  intro s; unfold Raw.checkWritable; split
  · exact h.refl _
  · split <;> exact h.refl _

theorem checkSeekable : Along P Raw.checkSeekable := by
  intro s; unfold Raw.checkSeekable; split
  · exact h.refl _
  · split <;> exact h.refl _

theorem innerTell : Along P Raw.innerTell := by
  intro s; unfold Raw.innerTell; split <;> exact h.refl _

theorem size : Along P Raw.size := .bind h.pre h.checkClosed fun _ s => h.refl s

theorem tell : Along P Raw.tell := .bind h.pre h.checkClosed fun _ => h.innerTell

theorem seek (o : Int) (w : Whence) : Along P (Raw.seek o w) := .bind h.pre h.checkClosed fun _ => h.innerSeek o w

theorem readN (n : Nat) : Along P (Raw.readN n) :=
  .bind h.pre h.checkClosed fun _ => .bind h.pre h.checkReadable fun _ => h.innerRead n

theorem readallLoop (fuel : Nat) : ∀ chunks, Along P (Raw.readallLoop fuel chunks) := by
  induction fuel with
  | zero => intro c; exact .raise h.pre _
  | succ fuel ih =>
    intro c
    unfold Raw.readallLoop
    refine .bind h.pre (h.readN _) fun d => ?_
    split
    · exact ih _
    · exact .pure h.pre _

theorem readall : Along P Raw.readall := fun s => h.readallLoop _ _ s

theorem read (n : Option Int) : Along P (Raw.read n) := by
  refine .bind h.pre h.checkClosed fun _ => .bind h.pre h.checkReadable fun _ => ?_
  split
  · exact h.readall
  · exact .ite h.readall (h.innerRead _)

theorem readinto (d : Bytes) : Along P (Raw.readinto d) := by
  refine .bind h.pre h.checkClosed fun _ => .bind h.pre h.checkReadable fun _ => .bind h.pre (h.innerRead _) fun r => ?_
  split
  · exact .raise h.pre _
  · exact .pure h.pre _

end RawReads

namespace RawPrims

variable {P : Raw → Raw → Prop} (h : RawPrims P)
include h

theorem innerWrite (d : Bytes) : Along P (Raw.innerWrite d) := by
  intro s
  unfold Raw.innerWrite
  split
  · exact h.osWrite _ _ s
  · exact Along.bind h.pre (.when h.pre (h.innerSeek _ _)) (fun _ => .bind h.pre h.innerTell fun _ =>
      .bind h.pre (h.osWrite _ _) fun _ => .pure h.pre _) s

theorem write (d : Bytes) : Along P (Raw.write d) := by
  refine .bind h.pre h.checkClosed fun _ => .bind h.pre h.checkWritable fun _ => .bind h.pre (h.innerWrite d) fun r =>
    .ite (.raise h.pre _) ?_
  split
  · exact .ite (.raise h.pre _) (.pure h.pre _)
  · exact .pure h.pre _

theorem moveAndCut (n : Nat) :
    Along P (do
      let oldPos ← Raw.innerTell
      let _ ← Raw.seek n .set
      Raw.osTruncate n
      let _ ← Raw.innerSeek oldPos .set
      Pure.pure ()) :=
  .bind h.pre h.innerTell fun _ => .bind h.pre (h.seek _ _) fun _ => .bind h.pre (h.osTruncate _) fun _ =>
    .bind h.pre (h.innerSeek _ _) fun _ => .pure h.pre ()

theorem innerReduce (n : Nat) : Along P (Raw.innerReduce n) := by
  intro s
  unfold Raw.innerReduce
  split
  · exact h.osTruncate n s
  · exact h.moveAndCut n s

theorem innerExtend (n : Nat) (z : Bool) : Along P (Raw.innerExtend n z) := by
  intro s
  unfold Raw.innerExtend
  split
  · exact h.osTruncate n s
  · exact Along.ite (.pure h.pre ()) (h.moveAndCut n) s

theorem padLoop (q : Nat) : Along P (Raw.padLoop q) := by
  induction q with
  | zero => exact .pure h.pre ()
  | succ q ih => exact .bind h.pre (h.innerWrite _) fun _ => ih

theorem seekBack (p : Nat) : Along P (Raw.seekBack p) := by
  intro s
  unfold Raw.seekBack
  split
  · exact h.refl s
  · exact Along.bind h.pre (h.innerSeek _ _) (fun _ => .pure h.pre ()) s

theorem fillZeros (n : Nat) : Along P (Raw.fillZeros n) :=
  .bind h.pre h.size fun _ => .ite (.pure h.pre ()) (.ite (.raise h.pre _) (.bind h.pre h.innerTell fun _ =>
    .bind h.pre (h.innerSeek _ _) fun _ => .bind h.pre (h.padLoop _) fun _ => .bind h.pre (h.innerWrite _) fun _ =>
      .ite (h.seekBack _) (.raise h.pre _)))

theorem truncateTarget (n : Option Int) : Along P (Raw.truncateTarget n) := by
  unfold Raw.truncateTarget
  split
  · exact h.tell
  · exact .ite (.raise h.pre _) (.pure h.pre _)

theorem resize (n : Nat) (z : Bool) : Along P (Raw.resize n z) :=
  .bind h.pre h.size fun _ => .ite (.pure h.pre ()) (.ite (h.innerReduce n) (.bind h.pre (h.innerExtend n z) fun _ =>
    h.fillZeros n))

theorem truncate (n : Option Int) (z : Bool) : Along P (Raw.truncate n z) :=
  .bind h.pre h.checkSeekable fun _ => .bind h.pre h.checkWritable fun _ => .bind h.pre (h.truncateTarget n) fun _ =>
    .bind h.pre (h.resize _ z) fun _ => h.size

theorem orElse {m m' : PyM Raw Unit} (hm : Along P m) (hm' : Along P m') : Along P (Raw.orElse m m') := by
  intro s
  have := hm s
  unfold Raw.orElse
  split
  · rename_i h1; rw [h1] at this; exact h.trans this (hm' _)
  · exact this

theorem innerSync (a b c : Bool) : Along P (Raw.innerSync a b c) := by
  intro s
  unfold Raw.innerSync
  split
  · exact h.osFlush _ s
  · have h2 : Along P (if !b && a then Raw.orElse (Raw.osFlush .data) (Raw.osFlush .metadata) else Raw.osFlush .metadata) :=
      .ite (h.orElse (h.osFlush _) (h.osFlush _)) (h.osFlush _)
    exact Along.ite (h.orElse (h.osFlush _) h2) h2 s

theorem sync (a b c : Bool) : Along P (Raw.sync a b c) := .bind h.pre h.checkClosed fun _ => h.innerSync a b c

theorem steps : RawSteps P where
  toPre := h.toPre
  write := h.write
  read := h.read
  readall := h.readall
  readinto := h.readinto
  seek := h.seek
  tell := h.tell
  truncate := h.truncate
  size := h.size
  flush := h.checkClosed
  sync := h.sync
  lockFile := h.lockFile
  unlockFile := h.unlockFile

end RawPrims

/-- The relation on buffered streams. -/
def OnRaw (P : Raw → Raw → Prop) (b b' : Buf) : Prop := P b.raw b'.raw

namespace RawSteps

variable {α : Type} {P : Raw → Raw → Prop}

theorem pre (h : RawSteps P) : Pre (OnRaw P) := ⟨fun b => h.refl b.raw, fun h1 h2 => h.trans h1 h2⟩

theorem onRaw {m : PyM Raw α} (hm : Along P m) : Along (OnRaw P) (Buf.onRaw m) := fun b => hm b.raw

variable (h : RawSteps P)
include h

theorem bCheckClosed : Along (OnRaw P) Buf.checkClosed := by
  intro b; unfold Buf.checkClosed; split <;> exact h.refl _

theorem bResetReadBuf : Along (OnRaw P) Buf.resetReadBuf := fun b => h.refl b.raw

theorem bFlushLoop (fuel : Nat) : Along (OnRaw P) (Buf.flushLoop fuel) := by
  induction fuel with
  | zero => exact .pure h.pre ()
  | succ fuel ih =>
    intro b
    unfold Buf.flushLoop
    split
    · exact h.refl _
    · refine Along.bind h.pre (onRaw (h.write _)) (fun n => .bind h.pre ?_ fun _ => ih) b
      unfold Buf.dropWritten
      split
      · exact .raise h.pre _
      · intro b; dsimp only; split <;> exact h.refl _

theorem bFlushUnlocked : Along (OnRaw P) Buf.flushUnlocked :=
  .bind h.pre h.bCheckClosed fun _ => .bind h.pre (.get h.pre) fun _ => h.bFlushLoop _

theorem bFlush : Along (OnRaw P) Buf.flush := by
  intro b
  unfold Buf.flush
  split
  · exact Along.bind h.pre h.bCheckClosed (fun _ => onRaw h.flush) b
  · exact h.bFlushUnlocked b

theorem bWriterWrite (d : Bytes) : Along (OnRaw P) (Buf.writerWrite d) := by
  refine .bind h.pre h.bCheckClosed fun _ => .bind h.pre ?_ fun _ => .bind h.pre (fun b => h.refl b.raw) fun _ => ?_
  · intro b; unfold Buf.preFlush; split
    · exact h.bFlushUnlocked b
    · exact h.refl _
  · intro b
    unfold Buf.overflowFlush
    have := h.bFlushUnlocked b
    split
    · split
      · rename_i h; rw [h] at this; exact this
      · rename_i h; rw [h] at this
        split <;> exact this
      · rename_i h; rw [h] at this; exact this
    · exact h.refl _

theorem bWrite (d : Bytes) : Along (OnRaw P) (Buf.write d) := by
  intro b
  unfold Buf.write
  split
  · exact h.refl _
  · exact h.bWriterWrite d b
  · refine Along.bind h.pre ?_ (fun _ => h.bWriterWrite d) b
    intro b
    unfold Buf.undoReadAhead
    split
    · exact h.refl _
    · exact Along.bind h.pre (onRaw (h.seek _ _)) (fun _ => h.bResetReadBuf) b

theorem bFillLoop (w n fuel : Nat) : ∀ out, Along (OnRaw P) (Buf.fillLoop w n fuel out) := by
  induction fuel with
  | zero => intro out; exact .pure h.pre _
  | succ fuel ih =>
    intro out
    unfold Buf.fillLoop
    refine .ite (.bind h.pre (onRaw (h.read _)) fun c => ?_) (.pure h.pre _)
    split
    · exact .pure h.pre _
    · exact .pure h.pre _
    · exact ih _

theorem bKeepExtra (n : Nat) (r : Bytes × Option Bytes) : Along (OnRaw P) (Buf.keepExtra n r) := fun b => h.refl b.raw

theorem bReadSome (n : Nat) : Along (OnRaw P) (Buf.readSome n) := by
  intro b
  unfold Buf.readSome
  split
  · exact h.refl _
  · exact Along.bind h.pre (h.bFillLoop _ _ _ _) (fun _ => h.bKeepExtra n _) b

theorem bReadRest : Along (OnRaw P) Buf.readRest := by
  intro b
  exact Along.bind h.pre h.bResetReadBuf (fun _ => .bind h.pre (onRaw h.readall) fun _ => .pure h.pre _) b

theorem bReaderRead (n : Option Int) : Along (OnRaw P) (Buf.readerRead n) := by
  unfold Buf.readerRead
  split
  · exact h.bReadRest
  · exact .ite (.raise h.pre _) (.ite h.bReadRest (h.bReadSome _))

theorem bRead (n : Option Int) : Along (OnRaw P) (Buf.read n) := by
  intro b
  unfold Buf.read
  split
  · exact h.refl _
  · exact h.bReaderRead n b
  · exact Along.bind h.pre h.bFlush (fun _ => h.bReaderRead _) b

theorem bPeekUnlocked (n : Int) : Along (OnRaw P) (Buf.peekUnlocked n) := by
  intro b
  unfold Buf.peekUnlocked
  refine Along.bind h.pre (.when h.pre (.bind h.pre (onRaw (h.read _)) fun c => ?_))
    (fun _ => .bind h.pre (.get h.pre) fun _ => .pure h.pre _) b
  split
  · exact fun b => h.refl b.raw
  · exact .pure h.pre _

theorem bPeek (n : Int) : Along (OnRaw P) (Buf.peek n) := by
  intro b
  unfold Buf.peek
  split
  · exact h.refl _
  · exact Along.bind h.pre h.bCheckClosed (fun _ => h.bPeekUnlocked n) b
  · exact Along.bind h.pre h.bFlush (fun _ => .bind h.pre h.bCheckClosed fun _ => h.bPeekUnlocked n) b

theorem bReaderRead1 (n : Int) : Along (OnRaw P) (Buf.readerRead1 n) := by
  intro b
  unfold Buf.readerRead1
  exact Along.bind h.pre h.bCheckClosed (fun _ => .ite (.pure h.pre _)
    (.bind h.pre (h.bPeekUnlocked 1) fun _ => .bind h.pre (.get h.pre) fun _ => h.bReadSome _)) b

theorem bCopyOut (dst : Bytes) (n : Nat) : Along (OnRaw P) (Buf.copyOut dst n) := by
  intro b
  unfold Buf.copyOut
  extract_lets a
  split
  · exact h.refl _
  · split <;> exact h.refl _

theorem bReadMore (r : Bool) (dst : Bytes) (n : Nat) : Along (OnRaw P) (Buf.readMore r dst n) := by
  intro b
  unfold Buf.readMore
  split
  · exact Along.bind h.pre (onRaw (h.readinto _)) (fun _ => .pure h.pre _) b
  · split
    · exact h.refl _
    · exact Along.bind h.pre (h.bPeekUnlocked 1) (fun _ => .pure h.pre _) b

theorem bReadintoLoop (r : Bool) (fuel : Nat) : ∀ dst n, Along (OnRaw P) (Buf.readintoLoop r fuel dst n) := by
  induction fuel with
  | zero => intro dst n; exact .pure h.pre _
  | succ fuel ih =>
    intro dst n
    unfold Buf.readintoLoop
    exact .ite (.bind h.pre (h.bCopyOut _ _) fun _ => .ite (.pure h.pre _) (.bind h.pre (h.bReadMore _ _ _) fun _ =>
      .ite (.pure h.pre _) (ih _ _))) (.pure h.pre _)

theorem bReadinto (r : Bool) (dst : Bytes) : Along (OnRaw P) (Buf.readinto r dst) := by
  have h1 : Along (OnRaw P) (Buf.readerReadinto r dst) :=
    .bind h.pre h.bCheckClosed fun _ => .ite (.pure h.pre _) (h.bReadintoLoop _ _ _ _)
  intro b
  unfold Buf.readinto
  split
  · exact h.refl _
  · exact h1 b
  · exact Along.bind h.pre h.bFlush (fun _ => h1) b

theorem bRead1 (n : Int) : Along (OnRaw P) (Buf.read1 n) := by
  intro b
  unfold Buf.read1
  split
  · exact h.refl _
  · exact h.bReaderRead1 n b
  · exact Along.bind h.pre h.bFlush (fun _ => h.bReaderRead1 n) b

theorem bReadlineLoop (size : Int) (fuel : Nat) : ∀ res, Along (OnRaw P) (Buf.readlineLoop size fuel res) := by
  induction fuel with
  | zero => intro res; exact .pure h.pre _
  | succ fuel ih =>
    intro res
    unfold Buf.readlineLoop
    refine .ite (.bind h.pre ?_ fun n => .bind h.pre (h.bRead _) fun c => ?_) (.pure h.pre _)
    · intro b
      unfold Buf.nreadahead
      split
      · exact h.refl _
      · exact Along.bind h.pre (h.bPeek 1) (fun _ => .pure h.pre _) b
    · split
      · exact .pure h.pre _
      · exact .pure h.pre _
      · exact .ite (.pure h.pre _) (ih _)

theorem bReadline (n : Int) : Along (OnRaw P) (Buf.readline n) := fun b => h.bReadlineLoop n _ _ b

theorem bTell : Along (OnRaw P) Buf.tell := by
  intro b
  exact Along.bind h.pre (onRaw h.tell) (fun _ => .pure h.pre _) b

theorem bSeek (o : Int) (w : Whence) : Along (OnRaw P) (Buf.seek o w) := by
  intro b
  unfold Buf.seek
  split
  · exact Along.bind h.pre h.bCheckClosed (fun _ => .bind h.pre (onRaw (h.seek _ _)) fun _ =>
      .bind h.pre h.bResetReadBuf fun _ => .pure h.pre _) b
  · exact Along.bind h.pre h.bFlushUnlocked (fun _ => onRaw (h.seek _ _)) b
  · refine Along.bind h.pre h.bFlush (fun _ => .bind h.pre ?_ fun _ => .bind h.pre (onRaw (h.seek _ _)) fun _ =>
      .bind h.pre h.bResetReadBuf fun _ => .pure h.pre _) b
    intro b
    unfold Buf.seekBack
    split
    · exact h.refl _
    · exact Along.bind h.pre (onRaw (h.seek _ _)) (fun _ => .pure h.pre _) b

theorem bWriterTruncate (n : Option Int) : Along (OnRaw P) (Buf.writerTruncate n) := by
  refine .bind h.pre h.bFlushUnlocked fun _ => ?_
  split
  · exact .bind h.pre (onRaw h.tell) fun _ => onRaw (h.truncate _ _)
  · exact onRaw (h.truncate _ _)

theorem bTruncate (n : Option Int) : Along (OnRaw P) (Buf.truncate n) := by
  intro b
  unfold Buf.truncate
  split
  · exact Along.bind h.pre h.bCheckClosed (fun _ => .raise h.pre _) b
  · exact h.bWriterTruncate n b
  · split
    · exact Along.bind h.pre h.bTell (fun _ => h.bWriterTruncate _) b
    · exact h.bWriterTruncate _ b

theorem bSize : Along (OnRaw P) Buf.size := .bind h.pre h.bFlush fun _ => onRaw h.size

theorem bSync (a b c : Bool) : Along (OnRaw P) (Buf.sync a b c) := .bind h.pre h.bFlush fun _ => onRaw (h.sync _ _ _)

theorem bResetBuffers : Along (OnRaw P) Buf.resetBuffers := .bind h.pre (h.bSeek 0 .cur) fun _ => .pure h.pre ()

theorem bLockFile (o : Bytes) : Along (OnRaw P) (Buf.lockFile o) := .bind h.pre h.bResetBuffers fun _ => onRaw (h.lockFile _)

theorem bUnlockFile : Along (OnRaw P) Buf.unlockFile := .bind h.pre h.bResetBuffers fun _ => onRaw h.unlockFile

theorem bStep (b : Buf) (op : StreamOp) : P b.raw (b.step op).2.raw := by
  cases op with
  | read n => exact h.bRead n b
  | read1 n => exact h.bRead1 n b
  | peek n => exact h.bPeek n b
  | readline n => exact h.bReadline n b
  | write d => exact h.bWrite d b
  | seek o w => exact h.bSeek o w b
  | tell => exact h.bTell b
  | flush => exact h.bFlush b
  | truncate n => exact h.bTruncate n b
  | size => exact h.bSize b
  | lock o => exact h.bLockFile o b
  | unlock => exact h.bUnlockFile b

end RawSteps

/-! ## Streams for reading have no pending bytes -/

namespace Buf

/-- A call on a stream for reading leaves the write buffer alone. -/
def Still (b b' : Buf) : Prop := b.kind = .reader → b'.kind = .reader ∧ b'.writeBuf = b.writeBuf

namespace Still

variable {α : Type}

theorem pre : Pre Still :=
  ⟨fun _ h => ⟨h, rfl⟩, fun h1 h2 h => ⟨(h2 (h1 h).1).1, (h2 (h1 h).1).2.trans (h1 h).2⟩⟩

theorem onRaw (m : PyM Raw α) : Along Still (Buf.onRaw m) := fun _ h => ⟨h, rfl⟩

theorem checkClosed : Along Still Buf.checkClosed := by
  intro b; unfold Buf.checkClosed; split <;> exact pre.refl _

theorem resetReadBuf : Along Still Buf.resetReadBuf := fun _ h => ⟨h, rfl⟩

theorem flush : Along Still Buf.flush := by
  intro b
  unfold Buf.flush
  split
  · exact Along.bind pre checkClosed (fun _ => onRaw _) b
  · rename_i hk; exact fun h => absurd h hk

theorem write (d : Bytes) : Along Still (Buf.write d) := by
  intro b
  unfold Buf.write
  split
  · exact pre.refl _
  · rename_i hk; exact fun h => absurd (hk.symm.trans h) (by decide)
  · rename_i hk; exact fun h => absurd (hk.symm.trans h) (by decide)

theorem fillLoop (w n fuel : Nat) : ∀ out, Along Still (Buf.fillLoop w n fuel out) := by
  induction fuel with
  | zero => intro out; exact .pure pre _
  | succ fuel ih =>
    intro out
    unfold Buf.fillLoop
    refine .ite (.bind pre (onRaw _) fun c => ?_) (.pure pre _)
    split
    · exact .pure pre _
    · exact .pure pre _
    · exact ih _

theorem keepExtra (n : Nat) (r : Bytes × Option Bytes) : Along Still (Buf.keepExtra n r) := fun _ h => ⟨h, rfl⟩

theorem readSome (n : Nat) : Along Still (Buf.readSome n) := by
  intro b
  unfold Buf.readSome
  split
  · exact fun h => ⟨h, rfl⟩
  · exact Along.bind pre (fillLoop _ _ _ _) (fun _ => keepExtra n _) b

theorem readRest : Along Still Buf.readRest := by
  intro b
  exact Along.bind pre resetReadBuf (fun _ => .bind pre (onRaw _) fun _ => .pure pre _) b

theorem readerRead (n : Option Int) : Along Still (Buf.readerRead n) := by
  unfold Buf.readerRead
  split
  · exact readRest
  · exact .ite (.raise pre _) (.ite readRest (readSome _))

theorem read (n : Option Int) : Along Still (Buf.read n) := by
  intro b
  unfold Buf.read
  split
  · exact pre.refl _
  · exact readerRead n b
  · exact Along.bind pre flush (fun _ => readerRead _) b

theorem peekUnlocked (n : Int) : Along Still (Buf.peekUnlocked n) := by
  intro b
  unfold Buf.peekUnlocked
  refine Along.bind pre (.when pre (.bind pre (onRaw _) fun c => ?_)) (fun _ => .bind pre (.get pre) fun _ => .pure pre _) b
  split
  · exact fun _ h => ⟨h, rfl⟩
  · exact .pure pre _

theorem peek (n : Int) : Along Still (Buf.peek n) := by
  intro b
  unfold Buf.peek
  split
  · exact pre.refl _
  · exact Along.bind pre checkClosed (fun _ => peekUnlocked n) b
  · exact Along.bind pre flush (fun _ => .bind pre checkClosed fun _ => peekUnlocked n) b

theorem readerRead1 (n : Int) : Along Still (Buf.readerRead1 n) := by
  intro b
  unfold Buf.readerRead1
  exact Along.bind pre checkClosed (fun _ => .ite (.pure pre _)
    (.bind pre (peekUnlocked 1) fun _ => .bind pre (.get pre) fun _ => readSome _)) b

theorem read1 (n : Int) : Along Still (Buf.read1 n) := by
  intro b
  unfold Buf.read1
  split
  · exact pre.refl _
  · exact readerRead1 n b
  · exact Along.bind pre flush (fun _ => readerRead1 n) b

theorem readlineLoop (size : Int) (fuel : Nat) : ∀ res, Along Still (Buf.readlineLoop size fuel res) := by
  induction fuel with
  | zero => intro res; exact .pure pre _
  | succ fuel ih =>
    intro res
    unfold Buf.readlineLoop
    refine .ite (.bind pre ?_ fun n => .bind pre (read _) fun c => ?_) (.pure pre _)
    · intro b
      unfold Buf.nreadahead
      split
      · exact pre.refl _
      · exact Along.bind pre (peek 1) (fun _ => .pure pre _) b
    · split
      · exact .pure pre _
      · exact .pure pre _
      · exact .ite (.pure pre _) (ih _)

theorem readline (n : Int) : Along Still (Buf.readline n) := fun b => readlineLoop n _ _ b

theorem tell : Along Still Buf.tell := by
  intro b
  exact Along.bind pre (onRaw _) (fun _ => .pure pre _) b

theorem seek (o : Int) (w : Whence) : Along Still (Buf.seek o w) := by
  intro b
  unfold Buf.seek
  split
  · exact Along.bind pre checkClosed (fun _ => .bind pre (onRaw _) fun _ => .bind pre resetReadBuf fun _ => .pure pre _) b
  · rename_i hk; exact fun h => absurd (hk.symm.trans h) (by decide)
  · rename_i hk; exact fun h => absurd (hk.symm.trans h) (by decide)

theorem truncate (n : Option Int) : Along Still (Buf.truncate n) := by
  intro b
  unfold Buf.truncate
  split
  · exact Along.bind pre checkClosed (fun _ => .raise pre _) b
  · rename_i hk; exact fun h => absurd (hk.symm.trans h) (by decide)
  · rename_i hk; exact fun h => absurd (hk.symm.trans h) (by decide)

theorem size : Along Still Buf.size := .bind pre flush fun _ => onRaw _

theorem sync (a b c : Bool) : Along Still (Buf.sync a b c) := .bind pre flush fun _ => onRaw _

theorem resetBuffers : Along Still Buf.resetBuffers := .bind pre (seek 0 .cur) fun _ => .pure pre ()

theorem lockFile (o : Bytes) : Along Still (Buf.lockFile o) := .bind pre resetBuffers fun _ => onRaw _

theorem unlockFile : Along Still Buf.unlockFile := .bind pre resetBuffers fun _ => onRaw _

theorem close : Along Still Buf.close := by
  intro b
  unfold Buf.close
  split
  · exact pre.refl _
  · exact Along.tryFinally pre flush (onRaw _) b

theorem step (b : Buf) (op : StreamOp) : Still b (b.step op).2 := by
  cases op with
  | read n => exact read n b
  | read1 n => exact read1 n b
  | peek n => exact peek n b
  | readline n => exact readline n b
  | write d => exact write d b
  | seek o w => exact seek o w b
  | tell => exact tell b
  | flush => exact flush b
  | truncate n => exact truncate n b
  | size => exact size b
  | lock o => exact lockFile o b
  | unlock => exact unlockFile b

end Still

end Buf

end Verif
