import Verif.Lemmas.Device
import Verif.Lemmas.TextSteps
import Verif.Model.Utilities

/-!
# Relations that all methods of text streams respect
-/

set_option autoImplicit false

namespace Verif

/-- The relation on text streams. -/
def OnTxt (C : Codec) (P : Raw → Raw → Prop) (t t' : Txt C) : Prop := P t.buf.raw t'.buf.raw

/-- The relation on streams of any layer. -/
def OnStream (C : Codec) (P : Raw → Raw → Prop) (s s' : AnyStream C) : Prop := P s.theRaw s'.theRaw

namespace RawSteps

variable {C : Codec} {α : Type} {P : Raw → Raw → Prop}

theorem tPre (h : RawSteps P) : Pre (OnTxt C P) := ⟨fun t => h.refl t.buf.raw, fun h1 h2 => h.trans h1 h2⟩

theorem sPre (h : RawSteps P) : Pre (OnStream C P) := ⟨fun s => h.refl s.theRaw, fun h1 h2 => h.trans h1 h2⟩

theorem onBuf {m : PyM Buf α} (hm : Along (OnRaw P) m) : Along (OnTxt C P) (Txt.onBuf m) := fun t => hm t.buf

theorem tSame (h : RawSteps P) {t t' : Txt C} (e : t'.buf = t.buf) : OnTxt C P t t' := by
  unfold OnTxt
  rw [e]
  exact h.refl _

/-- A method that leaves the buffered stream alone. -/
theorem tQuiet (h : RawSteps P) {m : PyM (Txt C) α} (hm : ∀ t, (m t).2.buf = t.buf) : Along (OnTxt C P) m :=
  fun t => h.tSame (hm t)

variable (h : RawSteps P)
include h

/-- What text streams call. -/
theorem bufs : BufSteps (OnRaw P) :=
  ⟨⟨h.pre, h.bCheckClosed, h.bFlush, h.bRead, fun n => h.bRead1 n, h.bTell, fun p => h.bSeek p .set, h.bSeek 0 .fin, h.bSize⟩,
    h.bWrite, h.bSync, h.bLockFile, h.bUnlockFile⟩

omit h in
theorem along {m : PyM (Txt C) α} (hm : Along (OnText C (OnRaw P)) m) : Along (OnTxt C P) m := fun t => (hm t).buf

theorem bClose (hc : Along P Raw.close) : Along (OnRaw P) Buf.close := by
  intro b
  unfold Buf.close
  split
  · exact h.refl _
  · exact Along.tryFinally h.pre h.bFlush (RawSteps.onRaw hc) b

theorem tReadable : Along (OnTxt C P) Txt.readable := along (h.bufs.tReadable)
theorem tWritable : Along (OnTxt C P) Txt.writable := along (h.bufs.tWritable)
theorem tSetEncoder (m : Bool) : Along (OnTxt C P) (Txt.setEncoder m) := along (h.bufs.tSetEncoder m)
theorem tConfigure : Along (OnTxt C P) Txt.configure := along (h.bufs.tConfigure)
theorem tGetDecoder : Along (OnTxt C P) Txt.getDecoder := along (h.bufs.tGetDecoder)
theorem tResetDecoder : Along (OnTxt C P) Txt.resetDecoder := along (h.bufs.tResetDecoder)
theorem tDecode (i : Option Bytes) (f : Bool) : Along (OnTxt C P) (Txt.decode i f) := along (h.bufs.tDecode i f)
theorem tSetChars (s : Text) : Along (OnTxt C P) (Txt.setChars s) := along (h.bufs.tSetChars s)
theorem tGetChars (n : Option Nat) : Along (OnTxt C P) (Txt.getChars n) := along (h.bufs.tGetChars n)
theorem tDropSnapshot : Along (OnTxt C P) Txt.dropSnapshot := along (h.bufs.tDropSnapshot)
theorem tFlush : Along (OnTxt C P) Txt.flush := along (h.bufs.tFlush)
theorem tCheckClosed : Along (OnTxt C P) Txt.checkClosed := along (h.bufs.tCheckClosed)
theorem tClose (hc : Along P Raw.close) : Along (OnTxt C P) Txt.close := along (h.bufs.tClose (h.bClose hc))
theorem tEncode (s : Text) : Along (OnTxt C P) (Txt.encode s) := along (h.bufs.tEncode s)
theorem tWrite (s : Text) : Along (OnTxt C P) (Txt.write s) := along (h.bufs.tWrite s)
theorem tReadChunk : Along (OnTxt C P) Txt.readChunk := along (h.bufs.tReadChunk)
theorem tCheckReadable : Along (OnTxt C P) Txt.checkReadable := along (h.bufs.tCheckReadable)
theorem tReadLoop (size fuel : Nat) (r : Text) : Along (OnTxt C P) (Txt.readLoop size fuel r) := along (h.bufs.tReadLoop size fuel r)
theorem tReadAll : Along (OnTxt C P) Txt.readAll := along (h.bufs.tReadAll)
theorem tRead (n : Option Int) : Along (OnTxt C P) (Txt.read n) := along (h.bufs.tRead n)
theorem tMoreChars (fuel : Nat) : Along (OnTxt C P) (Txt.moreChars fuel) := along (h.bufs.tMoreChars fuel)
theorem tRewind (n : Nat) : Along (OnTxt C P) (Txt.rewind n) := along (h.bufs.tRewind n)
theorem tFinishLine (size : Int) (l : Text) (n : Nat) : Along (OnTxt C P) (Txt.finishLine size l n) := along (h.bufs.tFinishLine size l n)
theorem tReadlineLoop (size : Int) (fuel : Nat) (l : Text) : Along (OnTxt C P) (Txt.readlineLoop size fuel l) := along (h.bufs.tReadlineLoop size fuel l)
theorem tReadline (n : Int) : Along (OnTxt C P) (Txt.readline n) := along (h.bufs.tReadline n)
theorem tNext : Along (OnTxt C P) Txt.next := along (h.bufs.tNext)
theorem tTell (guess : Nat × Nat → Nat → Nat) : Along (OnTxt C P) (Txt.tell guess) := along (h.bufs.tTell guess)
theorem tRestoreDecoder (c : Txt.Cookie) : Along (OnTxt C P) (Txt.restoreDecoder c) := along (h.bufs.tRestoreDecoder c)
theorem tSkipChars (c : Txt.Cookie) : Along (OnTxt C P) (Txt.skipChars c) := along (h.bufs.tSkipChars c)
theorem tSeekTo (c : Txt.Cookie) : Along (OnTxt C P) (Txt.seekTo c) := along (h.bufs.tSeekTo c)
theorem tSeek (guess : Nat × Nat → Nat → Nat) (m : Txt.Movement) : Along (OnTxt C P) (Txt.seek guess m) := along (h.bufs.tSeek guess m)
theorem tTruncate (guess : Nat × Nat → Nat → Nat) (n : Option Int) : Along (OnTxt C P) (Txt.truncate guess n) := along (h.bufs.tTruncate guess (fun z => h.bTruncate (some z)) n)
theorem tSize : Along (OnTxt C P) Txt.size := along (h.bufs.tSize)
theorem tSync (a m f : Bool) : Along (OnTxt C P) (Txt.sync a m f) := along (h.bufs.tSync a m f)
theorem tResetBuffers (guess : Nat × Nat → Nat → Nat) : Along (OnTxt C P) (Txt.resetBuffers guess) := along (h.bufs.tResetBuffers guess)
theorem tLockFile (guess : Nat × Nat → Nat → Nat) (o : Bytes) : Along (OnTxt C P) (Txt.lockFile guess o) := along (h.bufs.tLockFile guess o)
theorem tUnlockFile (guess : Nat × Nat → Nat → Nat) : Along (OnTxt C P) (Txt.unlockFile guess) := along (h.bufs.tUnlockFile guess)

/-! ## Any layer -/

omit h in
theorem sCall {r : PyM Raw α} {b : PyM Buf α} {t : PyM (Txt C) α} (hr : Along P r) (hb : Along (OnRaw P) b)
    (ht : Along (OnTxt C P) t) : Along (OnStream C P) (AnyStream.call r b t) := by
  intro s
  cases s with
  | raw s => exact hr s
  | buf s => exact hb s
  | txt s => exact ht s

theorem sRead : Along (OnStream C P) AnyStream.read :=
  sCall (.bind h.toPre (h.read _) fun _ => .pure h.toPre _) (.bind h.pre (h.bRead _) fun _ => .pure h.pre _)
    (.bind h.tPre (h.tRead _) fun _ => .pure h.tPre _)

theorem sWrite (d : Chunk) : Along (OnStream C P) (AnyStream.write d) := by
  cases d with
  | bytes d =>
    exact sCall (.bind h.toPre (h.write _) fun _ => .pure h.toPre _) (.bind h.pre (h.bWrite _) fun _ => .pure h.pre _)
      (.raise h.tPre _)
  | text s =>
    exact sCall (.raise h.toPre _) (.raise h.pre _) (.bind h.tPre (h.tWrite _) fun _ => .pure h.tPre _)

theorem sFlush : Along (OnStream C P) AnyStream.flush := sCall h.flush h.bFlush h.tFlush

theorem sSync (a : Bool) : Along (OnStream C P) (AnyStream.sync a) := sCall (h.sync _ _ _) (h.bSync _ _ _) (h.tSync _ _ _)

theorem sClose (hc : Along P Raw.close) : Along (OnStream C P) AnyStream.close := sCall hc (h.bClose hc) (h.tClose hc)

theorem sWriteBody (a : Bool) (d : Chunk) (sync : Bool) : Along (OnStream C P) (Site.writeBody a d sync) :=
  .bind h.sPre (h.sWrite d) fun _ => .bind h.sPre h.sFlush fun _ => .when h.sPre (h.sSync a)

theorem sReadBlocks (fuel : Nat) : Along (OnStream C P) (Site.readBlocks fuel) := by
  induction fuel with
  | zero => exact .pure h.sPre _
  | succ fuel ih =>
    refine Along.bind h.sPre h.sRead fun t => ?_
    cases t with
    | none => exact .pure h.sPre _
    | some c => exact .ite (.pure h.sPre _) (.bind h.sPre ih fun _ => .pure h.sPre _)

theorem sReadBody (binary : Bool) : Along (OnStream C P) (Site.readBody binary) := by
  intro s
  unfold Site.readBody
  exact Along.bind h.sPre (h.sReadBlocks _) (g := fun b s => (Chunk.join binary b, s)) (fun b s => h.refl s.theRaw) s

end RawSteps

theorem Grows.close : Along Grows Raw.close := by
  intro s
  unfold Raw.close
  split <;> exact Grows.same rfl rfl

end Verif
