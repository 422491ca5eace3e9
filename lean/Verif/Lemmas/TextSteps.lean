import Verif.Lemmas.Along
import Verif.Model.Text

/-!
# What all methods of text streams do to the buffered stream
-/

set_option autoImplicit false

namespace Verif

/-- The buffered streams are related; the settings of the text stream are the same. -/
structure OnText (C : Codec) (Q : Buf → Buf → Prop) (t t' : Txt C) : Prop where
  buf : Q t.buf t'.buf
  newline : t'.newline = t.newline
  linesep : t'.linesep = t.linesep
  lineBuffering : t'.lineBuffering = t.lineBuffering
  seekable : t'.seekable = t.seekable

/-- The methods of buffered streams that text streams call, unless something is written or locked, respect the relation. -/
structure BufReads (Q : Buf → Buf → Prop) : Prop where
  pre : Pre Q
  checkClosed : Along Q Buf.checkClosed
  flush : Along Q Buf.flush
  read : ∀ n, Along Q (Buf.read n)
  read1 : ∀ n : Nat, Along Q (Buf.read1 n)
  tell : Along Q Buf.tell
  /-- `seek(p)` -/
  seekSet : ∀ p : Nat, Along Q (Buf.seek p .set)
  /-- `seek(0, SEEK_END)` -/
  seekEnd : Along Q (Buf.seek 0 .fin)
  size : Along Q Buf.size

/-- The methods of buffered streams that text streams call respect the relation. -/
structure BufSteps (Q : Buf → Buf → Prop) : Prop extends BufReads Q where
  write : ∀ d, Along Q (Buf.write d)
  sync : ∀ a m f, Along Q (Buf.sync a m f)
  lockFile : ∀ o, Along Q (Buf.lockFile o)
  unlockFile : Along Q Buf.unlockFile

namespace BufReads

variable {C : Codec} {α : Type} {Q : Buf → Buf → Prop}

theorem tPre (h : BufReads Q) : Pre (OnText C Q) :=
  ⟨fun t => ⟨h.pre.refl t.buf, rfl, rfl, rfl, rfl⟩, fun h1 h2 => ⟨h.pre.trans h1.buf h2.buf, h2.newline.trans h1.newline,
    h2.linesep.trans h1.linesep, h2.lineBuffering.trans h1.lineBuffering, h2.seekable.trans h1.seekable⟩⟩

theorem onBuf (_ : BufReads Q) {m : PyM Buf α} (hm : Along Q m) : Along (OnText C Q) (Txt.onBuf m) :=
  fun t => ⟨hm t.buf, rfl, rfl, rfl, rfl⟩

/-- A method that leaves the buffered stream alone. -/
theorem tQuiet (h : BufReads Q) {m : PyM (Txt C) α} (hm : ∀ t, OnText C Eq t (m t).2) : Along (OnText C Q) m :=
  fun t => ⟨(hm t).buf ▸ h.pre.refl t.buf, (hm t).newline, (hm t).linesep, (hm t).lineBuffering, (hm t).seekable⟩

variable (h : BufReads Q)
include h

theorem tReadable : Along (OnText C Q) Txt.readable := h.tQuiet fun t => by
  unfold Txt.readable
  split
  · exact ⟨rfl, rfl, rfl, rfl, rfl⟩
  · split <;> exact ⟨rfl, rfl, rfl, rfl, rfl⟩

theorem tWritable : Along (OnText C Q) Txt.writable := h.tQuiet fun t => by
  unfold Txt.writable
  split
  · exact ⟨rfl, rfl, rfl, rfl, rfl⟩
  · split <;> exact ⟨rfl, rfl, rfl, rfl, rfl⟩

theorem tSetEncoder (m : Bool) : Along (OnText C Q) (Txt.setEncoder m) := h.tQuiet fun _ => ⟨rfl, rfl, rfl, rfl, rfl⟩

theorem tConfigure : Along (OnText C Q) Txt.configure := by
  intro t
  unfold Txt.configure
  split
  · exact Along.bind h.tPre h.tWritable (fun w => .ite (.bind h.tPre (h.onBuf h.tell) fun p => .when h.tPre (h.tSetEncoder true))
      (.pure h.tPre ())) t
  · exact h.tPre.refl _

theorem tGetDecoder : Along (OnText C Q) Txt.getDecoder := h.tQuiet fun _ => ⟨rfl, rfl, rfl, rfl, rfl⟩
theorem tResetDecoder : Along (OnText C Q) Txt.resetDecoder := h.tQuiet fun _ => ⟨rfl, rfl, rfl, rfl, rfl⟩

theorem tDecode (i : Option Bytes) (f : Bool) : Along (OnText C Q) (Txt.decode i f) := h.tQuiet fun t => by
  unfold Txt.decode
  split
  · exact ⟨rfl, rfl, rfl, rfl, rfl⟩
  · exact ⟨rfl, rfl, rfl, rfl, rfl⟩
  · split <;> exact ⟨rfl, rfl, rfl, rfl, rfl⟩

theorem tSetChars (s : Text) : Along (OnText C Q) (Txt.setChars s) := h.tQuiet fun _ => ⟨rfl, rfl, rfl, rfl, rfl⟩

theorem tGetChars (n : Option Nat) : Along (OnText C Q) (Txt.getChars n) := h.tQuiet fun _ => ⟨rfl, rfl, rfl, rfl, rfl⟩

theorem tDropSnapshot : Along (OnText C Q) Txt.dropSnapshot := h.tQuiet fun t => by
  change OnText C Eq t (if t.snapshot.isSome = true then _ else t)
  split <;> exact ⟨rfl, rfl, rfl, rfl, rfl⟩

theorem tFlush : Along (OnText C Q) Txt.flush := .bind h.tPre (h.onBuf h.flush) fun _ => h.tQuiet fun _ => ⟨rfl, rfl, rfl, rfl, rfl⟩

theorem tCheckClosed : Along (OnText C Q) Txt.checkClosed := h.onBuf h.checkClosed

theorem tClose (hc : Along Q Buf.close) : Along (OnText C Q) Txt.close := by
  intro t
  unfold Txt.close
  split
  · exact h.tPre.refl _
  · exact Along.tryFinally h.tPre h.tFlush (h.onBuf hc) t

theorem tEncode (s : Text) : Along (OnText C Q) (Txt.encode s) := h.tQuiet fun t => by
  unfold Txt.encode
  split <;> exact ⟨rfl, rfl, rfl, rfl, rfl⟩

theorem tReadChunk : Along (OnText C Q) Txt.readChunk := by
  intro t
  unfold Txt.readChunk
  split
  · exact h.tPre.refl _
  · exact Along.bind h.tPre (h.onBuf (h.read1 _)) (fun c => .bind h.tPre (h.tDecode _ _) fun s => .bind h.tPre (h.tSetChars s) fun _ =>
      .bind h.tPre (h.tQuiet fun _ => ⟨rfl, rfl, rfl, rfl, rfl⟩) fun _ => .pure h.tPre _) t

theorem tCheckReadable : Along (OnText C Q) Txt.checkReadable :=
  .bind h.tPre h.tReadable fun _ => .ite (.pure h.tPre ()) (.raise h.tPre _)

theorem tReadLoop (size fuel : Nat) : ∀ r, Along (OnText C Q) (Txt.readLoop size fuel r) := by
  induction fuel with
  | zero => exact fun r => .pure h.tPre r
  | succ fuel ih =>
    intro r
    unfold Txt.readLoop
    exact .ite (.bind h.tPre h.tReadChunk fun m => .bind h.tPre (h.tGetChars _) fun s => .ite (ih _) (.pure h.tPre _))
      (.pure h.tPre _)

theorem tReadAll : Along (OnText C Q) Txt.readAll :=
  .bind h.tPre (h.tGetChars none) fun _ => .bind h.tPre (h.onBuf (h.read none)) fun _ => .bind h.tPre (h.tDecode _ _) fun _ =>
    .bind h.tPre h.tDropSnapshot fun _ => .pure h.tPre _

theorem tRead (n : Option Int) : Along (OnText C Q) (Txt.read n) := by
  intro t
  unfold Txt.read
  refine Along.bind h.tPre h.tCheckReadable (fun _ => .bind h.tPre h.tGetDecoder fun _ => ?_) t
  cases n with
  | none => exact h.tReadAll
  | some n => exact .ite h.tReadAll (.bind h.tPre (h.tGetChars _) fun s => h.tReadLoop _ _ s)

theorem tMoreChars (fuel : Nat) : Along (OnText C Q) (Txt.moreChars fuel) := by
  induction fuel with
  | zero => exact .pure h.tPre ()
  | succ fuel ih =>
    exact .bind h.tPre h.tReadChunk fun m => .bind h.tPre (.get h.tPre) fun t => .ite ih (.pure h.tPre ())

theorem tRewind (n : Nat) : Along (OnText C Q) (Txt.rewind n) := h.tQuiet fun t => by
  unfold Txt.rewind
  split <;> exact ⟨rfl, rfl, rfl, rfl, rfl⟩

theorem tFinishLine (size : Int) (l : Text) (n : Nat) : Along (OnText C Q) (Txt.finishLine size l n) :=
  .bind h.tPre (h.tRewind _) fun _ => .pure h.tPre _

theorem tReadlineLoop (size : Int) (fuel : Nat) : ∀ l, Along (OnText C Q) (Txt.readlineLoop size fuel l) := by
  induction fuel with
  | zero => exact fun r => .pure h.tPre r
  | succ fuel ih =>
    intro l t
    unfold Txt.readlineLoop
    split
    · exact h.tFinishLine _ _ _ t
    · split
      · exact h.tFinishLine _ _ _ t
      · exact Along.bind h.tPre (h.tMoreChars _) (fun _ => .bind h.tPre (.get h.tPre) fun t' =>
          .ite (.bind h.tPre (h.tGetChars none) fun s => ih _)
            (.bind h.tPre (h.tSetChars []) fun _ => .bind h.tPre (h.tQuiet fun _ => ⟨rfl, rfl, rfl, rfl, rfl⟩) fun _ => .pure h.tPre _)) t

theorem tReadline (n : Int) : Along (OnText C Q) (Txt.readline n) := by
  intro t
  exact Along.bind h.tPre h.tCheckClosed (fun _ => .bind h.tPre (h.tGetChars none) fun l => .bind h.tPre h.tGetDecoder fun _ =>
    h.tReadlineLoop _ _ l) t

theorem tNext : Along (OnText C Q) Txt.next :=
  .bind h.tPre (h.tQuiet fun _ => ⟨rfl, rfl, rfl, rfl, rfl⟩) fun _ => .bind h.tPre (h.tReadline _) fun _ =>
    .bind h.tPre (.when h.tPre (h.tQuiet fun _ => ⟨rfl, rfl, rfl, rfl, rfl⟩)) fun _ => .pure h.tPre _

theorem tTell (guess : Nat × Nat → Nat → Nat) : Along (OnText C Q) (Txt.tell guess) := by
  intro t
  unfold Txt.tell
  split
  · exact h.tPre.refl _
  · split
    · exact h.tPre.refl _
    · exact Along.bind h.tPre h.tFlush (fun _ => .bind h.tPre (h.onBuf h.tell) fun p => h.tQuiet fun _ => ⟨rfl, rfl, rfl, rfl, rfl⟩) t

theorem tRestoreDecoder (c : Txt.Cookie) : Along (OnText C Q) (Txt.restoreDecoder c) := h.tQuiet fun t => by
  unfold Txt.restoreDecoder
  split
  · exact ⟨rfl, rfl, rfl, rfl, rfl⟩
  · split <;> exact ⟨rfl, rfl, rfl, rfl, rfl⟩

theorem tSkipChars (c : Txt.Cookie) : Along (OnText C Q) (Txt.skipChars c) :=
  .bind h.tPre (h.onBuf (h.read _)) fun _ => .bind h.tPre (h.tDecode _ _) fun _ => .bind h.tPre (h.tSetChars _) fun _ =>
    .bind h.tPre (h.tQuiet fun _ => ⟨rfl, rfl, rfl, rfl, rfl⟩) fun _ => .ite (.raise h.tPre _) (h.tQuiet fun _ => ⟨rfl, rfl, rfl, rfl, rfl⟩)

theorem tSeekTo (c : Txt.Cookie) : Along (OnText C Q) (Txt.seekTo c) :=
  .bind h.tPre h.tFlush fun _ => .bind h.tPre (h.onBuf (h.seekSet _)) fun _ => .bind h.tPre (h.tQuiet fun _ => ⟨rfl, rfl, rfl, rfl, rfl⟩) fun _ =>
    .bind h.tPre (h.tRestoreDecoder c) fun _ => .bind h.tPre (.when h.tPre (h.tSkipChars c)) fun _ =>
    .bind h.tPre (h.tSetEncoder _) fun _ => .pure h.tPre _

theorem tSeek (guess : Nat × Nat → Nat → Nat) (m : Txt.Movement) : Along (OnText C Q) (Txt.seek guess m) := by
  intro t
  refine Along.bind h.tPre h.tCheckClosed (fun _ => .ite (.raise h.tPre _) ?_) t
  cases m with
  | to c =>
    cases c with
    | none => exact .raise h.tPre _
    | some c => exact h.tSeekTo c
  | here => exact .bind h.tPre (h.tTell guess) fun c => h.tSeekTo c
  | toEnd =>
    exact .bind h.tPre h.tFlush fun _ => .bind h.tPre (h.onBuf h.seekEnd) fun _ => .bind h.tPre (h.tSetChars []) fun _ =>
      .bind h.tPre (h.tQuiet fun _ => ⟨rfl, rfl, rfl, rfl, rfl⟩) fun _ => .bind h.tPre h.tResetDecoder fun _ => .bind h.tPre (h.tSetEncoder _) fun _ =>
      .pure h.tPre _
  | relative => exact .raise h.tPre _
  | badWhence => exact .raise h.tPre _

theorem tTruncate (guess : Nat × Nat → Nat → Nat) (ht : ∀ z, Along Q (Buf.truncate (some z))) (n : Option Int) : Along (OnText C Q) (Txt.truncate guess n) := by
  refine Along.bind h.tPre h.tFlush fun _ => ?_
  cases n with
  | some n => exact h.onBuf (ht _)
  | none => exact .bind h.tPre (h.tTell guess) fun c => h.onBuf (ht _)

theorem tSize : Along (OnText C Q) Txt.size := .bind h.tPre h.tFlush fun _ => h.onBuf h.size

theorem tResetBuffers (guess : Nat × Nat → Nat → Nat) : Along (OnText C Q) (Txt.resetBuffers guess) :=
  .bind h.tPre (h.tSeek guess .here) fun _ => .pure h.tPre ()

theorem tReadinto : Along (OnText C Q) Txt.readinto := .bind h.tPre h.tCheckClosed fun _ => .raise h.tPre _

omit h in
theorem tOf {f : α → Txt.Out} {m : PyM (Txt C) α} (hm : Along (OnText C Q) m) (t : Txt C) : OnText C Q t (Txt.Out.of f (m t)).2 := by
  have := hm t
  generalize m t = q at this
  obtain ⟨r, t'⟩ := q
  cases r <;> exact this

end BufReads

namespace BufSteps

variable {C : Codec} {Q : Buf → Buf → Prop} (h : BufSteps Q)
include h

theorem tWrite (s : Text) : Along (OnText C Q) (Txt.write s) := by
  intro t
  unfold Txt.write
  exact Along.bind h.tPre h.tCheckClosed (fun _ => .bind h.tPre (h.tEncode _) fun d => .bind h.tPre (h.onBuf (h.write d)) fun _ =>
    .bind h.tPre (.when h.tPre h.tFlush) fun _ => .bind h.tPre h.tDropSnapshot fun _ => .bind h.tPre h.tResetDecoder fun _ =>
    .pure h.tPre _) t

theorem tSync (a m f : Bool) : Along (OnText C Q) (Txt.sync a m f) := .bind h.tPre h.tFlush fun _ => h.onBuf (h.sync a m f)

theorem tLockFile (guess : Nat × Nat → Nat → Nat) (o : Bytes) : Along (OnText C Q) (Txt.lockFile guess o) :=
  .bind h.tPre (h.tResetBuffers guess) fun _ => h.onBuf (h.lockFile o)

theorem tUnlockFile (guess : Nat × Nat → Nat → Nat) : Along (OnText C Q) (Txt.unlockFile guess) :=
  .bind h.tPre (h.tResetBuffers guess) fun _ => h.onBuf h.unlockFile

/-- One call. -/
theorem tStep (guess : Nat × Nat → Nat → Nat) {op : Txt.Op} (ht : (∃ a, op = .truncate a) → ∀ z, Along Q (Buf.truncate (some z)))
    (hc : op = .close → Along Q Buf.close) (t : Txt C) : OnText C Q t (Txt.step guess t op).2 := by
  cases op with
  | read n => exact BufReads.tOf (h.tRead n) t
  | readline n => exact BufReads.tOf (h.tReadline n) t
  | next => exact BufReads.tOf h.tNext t
  | write s => exact BufReads.tOf (h.tWrite s) t
  | flush => exact BufReads.tOf h.tFlush t
  | seek m => exact BufReads.tOf (h.tSeek guess m) t
  | tell => exact BufReads.tOf (h.tTell guess) t
  | truncate a => exact BufReads.tOf (h.tTruncate guess (ht ⟨a, rfl⟩) a) t
  | size => exact BufReads.tOf h.tSize t
  | sync a m f => exact BufReads.tOf (h.tSync a m f) t
  | lock o => exact BufReads.tOf (h.tLockFile guess o) t
  | unlock => exact BufReads.tOf (h.tUnlockFile guess) t
  | readinto => exact BufReads.tOf h.tReadinto t
  | close => exact BufReads.tOf (h.tClose (hc rfl)) t

/-- A history of calls. -/
theorem tRun (guess : Nat × Nat → Nat → Nat) {ops : List Txt.Op}
    (ht : (∃ a, .truncate a ∈ ops) → ∀ z, Along Q (Buf.truncate (some z))) (hc : .close ∈ ops → Along Q Buf.close) (t : Txt C) :
    OnText C Q t (Txt.run guess t ops).2 := by
  induction ops generalizing t with
  | nil => exact h.tPre.refl t
  | cons op ops ih =>
    refine h.tPre.trans (h.tStep guess (op := op) ?_ ?_ t) (ih ?_ ?_ _)
    · rintro ⟨a, rfl⟩; exact ht ⟨a, by simp⟩
    · rintro rfl; exact hc (by simp)
    · rintro ⟨a, ha⟩; exact ht ⟨a, List.mem_cons_of_mem _ ha⟩
    · intro hm; exact hc (List.mem_cons_of_mem _ hm)

end BufSteps

end Verif
