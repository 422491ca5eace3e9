import Verif.Lemmas.BufferedRefine

/-!
# Buffered streams that are only read
-/

set_option autoImplicit false

namespace Verif.Buf

open Verif.Spec

/-- Nothing to be written appears. -/
def StaysClean {α : Type} (m : PyM Buf α) : Prop := ∀ b, b.writeBuf = [] → (m b).2.writeBuf = []

namespace StaysClean

variable {α β : Type}

theorem bind {m : PyM Buf α} {g : α → PyM Buf β} (hm : StaysClean m) (hg : ∀ a, StaysClean (g a)) :
    StaysClean (m >>= g) := by
  intro b hb
  have h1 := hm b hb
  rw [PyM.bind_apply]
  generalize m b = p at *
  obtain ⟨r, b'⟩ := p
  cases r with
  | ok a => exact hg a b' h1
  | error e => exact h1

theorem pure (a : α) : StaysClean (pure a) := fun _ h => h

theorem raise (e : Exn) : StaysClean (PyM.raise e : PyM Buf α) := fun _ h => h

theorem onRaw (m : PyM Raw α) : StaysClean (Buf.onRaw m) := fun _ h => h

theorem get : StaysClean (PyM.get : PyM Buf Buf) := fun _ h => h

theorem ite {c : Prop} [Decidable c] {m m' : PyM Buf α} (h : StaysClean m) (h' : StaysClean m') :
    StaysClean (if c then m else m') := by
  split
  · exact h
  · exact h'

theorem when {c : Bool} {m : PyM Buf α} (h : StaysClean m) : StaysClean (PyM.when c m) := by
  intro b hb
  have := h b hb
  unfold PyM.when
  split
  · generalize m b = p at *
    obtain ⟨r, b'⟩ := p
    cases r <;> exact this
  · exact hb

theorem checkClosed : StaysClean Buf.checkClosed := by
  intro b hb; unfold Buf.checkClosed; split <;> exact hb

theorem resetReadBuf : StaysClean Buf.resetReadBuf := fun _ h => h

theorem flush : StaysClean Buf.flush := by
  intro b hb
  unfold Buf.flush
  split
  · exact checkClosed.bind (fun _ => onRaw _) b hb
  · unfold Buf.flushUnlocked
    refine checkClosed.bind (fun _ => ?_) b hb
    intro c hc
    have : (PyM.get : PyM Buf Buf) c = (.ok c, c) := rfl
    rw [PyM.bind_ok this, hc]
    exact hc

theorem fillLoop (w n fuel : Nat) : ∀ out, StaysClean (Buf.fillLoop w n fuel out) := by
  induction fuel with
  | zero => intro out; exact pure _
  | succ fuel ih =>
    intro out
    unfold Buf.fillLoop
    refine ite ((onRaw _).bind fun c => ?_) (pure _)
    split
    · exact pure _
    · exact pure _
    · exact ih _

theorem readSome (n : Nat) : StaysClean (Buf.readSome n) := by
  intro b hb
  unfold Buf.readSome
  split
  · exact hb
  · exact (fillLoop _ _ _ _).bind (fun _ => bind (fun _ h => h) fun _ => pure _) b hb

theorem readRest : StaysClean Buf.readRest := by
  intro b
  exact resetReadBuf.bind (fun _ => (onRaw _).bind fun _ => pure _) b

theorem readerRead (n : Option Int) : StaysClean (Buf.readerRead n) := by
  unfold Buf.readerRead
  split
  · exact readRest
  · exact ite (raise _) (ite readRest (readSome _))

theorem read (n : Option Int) : StaysClean (Buf.read n) := by
  intro b hb
  unfold Buf.read
  split
  · exact hb
  · exact readerRead n b hb
  · exact flush.bind (fun _ => readerRead _) b hb

theorem peekUnlocked (n : Int) : StaysClean (Buf.peekUnlocked n) := by
  intro b
  unfold Buf.peekUnlocked
  refine bind (when ((onRaw _).bind fun c => ?_)) (fun _ => get.bind fun _ => pure _) b
  split
  · exact fun _ h => h
  · exact pure _

theorem readerRead1 (n : Int) : StaysClean (Buf.readerRead1 n) := by
  intro b
  unfold Buf.readerRead1
  exact checkClosed.bind (fun _ => ite (pure _) ((peekUnlocked 1).bind fun _ => get.bind fun _ => readSome _)) b

theorem read1 (n : Int) : StaysClean (Buf.read1 n) := by
  intro b hb
  unfold Buf.read1
  split
  · exact hb
  · exact readerRead1 n b hb
  · exact flush.bind (fun _ => readerRead1 n) b hb

theorem seek (o : Int) (w : Whence) : StaysClean (Buf.seek o w) := by
  intro b hb
  unfold Buf.seek
  split
  · exact checkClosed.bind (fun _ => (onRaw _).bind fun _ => resetReadBuf.bind fun _ => pure _) b hb
  · refine bind ?_ (fun _ => onRaw _) b hb
    intro c hc
    unfold Buf.flushUnlocked
    refine checkClosed.bind (fun _ => ?_) c hc
    intro c hc
    have : (PyM.get : PyM Buf Buf) c = (.ok c, c) := rfl
    rw [PyM.bind_ok this, hc]
    exact hc
  · refine flush.bind (fun _ => bind ?_ fun _ => (onRaw _).bind fun _ => resetReadBuf.bind fun _ => pure _) b hb
    intro b hb
    unfold seekBack
    split
    · exact hb
    · exact (onRaw _).bind (fun _ => pure _) b hb

theorem lockFile (o : Bytes) : StaysClean (Buf.lockFile o) :=
  ((seek 0 .cur).bind fun _ => pure ()).bind fun _ => onRaw _

theorem unlockFile : StaysClean Buf.unlockFile := ((seek 0 .cur).bind fun _ => pure ()).bind fun _ => onRaw _

theorem size : StaysClean Buf.size := flush.bind fun _ => onRaw _

end StaysClean

/-- The stream can be read and has nothing to write; it represents `f`. -/
structure Reads (b : Buf) (f : File) : Prop where
  rep : R b f
  clean : b.writeBuf = []
  kind : b.kind ≠ .writer

namespace Reads

variable {b : Buf} {f : File}

theorem data (h : Reads b f) : b.raw.data = f.data := h.rep.data' h.clean

theorem opened (h : Reads b f) : b.raw.closed = false := h.rep.live.opened

/-- One `read1`. -/
theorem read1 (h : Reads b f) {n : Int} (hn : 0 < n) :
    ∃ got b', Buf.read1 n b = (.ok (some got), b') ∧ got <+: f.rest ∧ (got = [] → f.rest = []) ∧
      Reads b' { f with pos := f.pos + got.length, ahead := true } := by
  obtain ⟨f', h1, h2⟩ := read1_R h.rep n
  have hc := StaysClean.read1 n b h.clean
  have hk := (Keeps.read1 n b).1
  unfold Allowed at h1
  dsimp only at h1
  rw [if_neg h.kind, if_neg (by omega)] at h1
  obtain ⟨got, g1, g2, _, g3, rfl⟩ := h1
  generalize hq : Buf.read1 n b = q at *
  obtain ⟨r, b'⟩ := q
  refine ⟨got, b', ?_, g1, g2, h2, hc, by rw [hk]; exact h.kind⟩
  cases r with
  | error e => cases g3
  | ok x =>
    cases x with
    | none => cases g3
    | some y => cases g3; rfl

/-- `read()`. -/
theorem readAll (h : Reads b f) :
    ∃ b', Buf.read none b = (.ok (some f.rest), b') ∧ Reads b' { f with pos := f.pos + f.rest.length, ahead := true } := by
  obtain ⟨f', h1, h2⟩ := read_R h.rep none
  have hc := StaysClean.read none b h.clean
  have hk := (Keeps.read none b).1
  unfold Allowed at h1
  dsimp only at h1
  rw [if_neg h.kind] at h1
  obtain ⟨g3, rfl⟩ := h1
  generalize hq : Buf.read none b = q at *
  obtain ⟨r, b'⟩ := q
  refine ⟨b', ?_, h2, hc, by rw [hk]; exact h.kind⟩
  cases r with
  | error e => cases g3
  | ok x =>
    cases x with
    | none => cases g3
    | some y => cases g3; rfl

/-- `read(n)`. -/
theorem readN (h : Reads b f) (n : Nat) :
    ∃ b', Buf.read (some (n : Int)) b = (.ok (some (f.rest.take n)), b') ∧
      Reads b' { f with pos := f.pos + (f.rest.take n).length, ahead := true } := by
  obtain ⟨f', h1, h2⟩ := read_R h.rep (some (n : Int))
  have hc := StaysClean.read (some (n : Int)) b h.clean
  have hk := (Keeps.read (some (n : Int)) b).1
  unfold Allowed at h1
  dsimp only at h1
  rw [if_neg h.kind, if_neg (by omega), if_neg (by omega), Int.toNat_natCast] at h1
  obtain ⟨g3, rfl⟩ := h1
  generalize hq : Buf.read (some (n : Int)) b = q at *
  obtain ⟨r, b'⟩ := q
  refine ⟨b', ?_, h2, hc, by rw [hk]; exact h.kind⟩
  cases r with
  | error e => cases g3
  | ok x =>
    cases x with
    | none => cases g3
    | some y => cases g3; rfl

theorem flush (h : Reads b f) : ∃ b', Buf.flush b = (.ok (), b') ∧ Reads b' f := by
  obtain ⟨b', h1, h2, h3, h4, _⟩ := flush_R h.rep
  exact ⟨b', h1, h2, h3, by rw [h4]; exact h.kind⟩

theorem tell (h : Reads b f) : Buf.tell b = (.ok f.pos, b) := tell_R h.rep

theorem seekTo (h : Reads b f) (p : Nat) :
    ∃ b', Buf.seek p .set b = (.ok p, b') ∧ Reads b' { f with pos := p, ahead := false } := by
  obtain ⟨b', h1, h2, h3, _, h4⟩ := seek_ok h.rep p .set (by simp [File.target])
  simp only [File.target, Int.toNat_natCast] at h1 h2
  exact ⟨b', h1, h2, h3, by rw [h4]; exact h.kind⟩

theorem seekEnd (h : Reads b f) :
    ∃ b', Buf.seek 0 .fin b = (.ok f.data.length, b') ∧ Reads b' { f with pos := f.data.length, ahead := false } := by
  obtain ⟨b', h1, h2, h3, _, h4⟩ := seek_ok h.rep 0 .fin (by simp [File.target])
  simp only [File.target, Int.add_zero, Int.toNat_natCast] at h1 h2
  exact ⟨b', h1, h2, h3, by rw [h4]; exact h.kind⟩

theorem size (h : Reads b f) : ∃ b', Buf.size b = (.ok f.data.length, b') ∧ Reads b' f := by
  obtain ⟨b', h1, h2, h3⟩ := size_R h.rep
  have hk := (Keeps.size b).1
  rw [h1] at hk
  exact ⟨b', h1, h2, h3, by rw [hk]; exact h.kind⟩

theorem lockFile (h : Reads b f) (others : Bytes) :
    ∃ b', Buf.lockFile others b = (.ok (), b') ∧
      Reads b' { f with data := others, ahead := false, log := f.log ++ [.lock others] } := by
  obtain ⟨b', h1, h2⟩ := lockFile_R h.rep others
  have hk := (Keeps.lockFile others b).1
  have hc := StaysClean.lockFile others b h.clean
  rw [h1] at hk hc
  exact ⟨b', h1, h2, hc, by rw [hk]; exact h.kind⟩

theorem unlockFile (h : Reads b f) :
    ∃ b', Buf.unlockFile b = (.ok (), b') ∧ Reads b' { f with ahead := false, log := f.log ++ [.unlock f.data] } := by
  obtain ⟨b', h1, h2⟩ := unlockFile_R h.rep
  have hk := (Keeps.unlockFile b).1
  have hc := StaysClean.unlockFile b h.clean
  rw [h1] at hk hc
  exact ⟨b', h1, h2, hc, by rw [hk]; exact h.kind⟩

end Reads

end Verif.Buf
