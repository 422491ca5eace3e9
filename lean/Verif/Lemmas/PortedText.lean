import Verif.Lemmas.Ported
import Verif.Model.Text

/-!
# Text streams on windows against text streams on unix
-/

set_option autoImplicit false

namespace Verif

open Verif.Spec

namespace Txt

variable {C : Codec} {α : Type}

/-- The same stream with the other backend. -/
def ported (t : Txt C) : Txt C := { t with buf := t.buf.ported }

/-- A stream over a file for which the backends agree. -/
def Portable (t : Txt C) : Prop := t.buf.Portable

/-- A function of a text stream that does not see the backend. -/
abbrev Agrees (m : PyM (Txt C) α) : Prop := Ports Portable ported m

theorem onBuf_ports {m : PyM Buf α} (h : Ports Buf.Portable Buf.ported m) : Agrees (C := C) (onBuf m) := by
  intro t ht
  obtain ⟨h1, h2⟩ := h t.buf ht
  unfold onBuf
  rw [show t.ported.buf = t.buf.ported from rfl, h1]
  generalize m t.buf = r at *
  obtain ⟨r, s'⟩ := r
  exact ⟨rfl, h2⟩

/-- An assignment that does not concern the buffered stream. -/
theorem modify_ports {f : Txt C → Txt C} (h : ∀ t, f t.ported = (f t).ported) (hb : ∀ t, (f t).buf = t.buf) :
    Agrees (PyM.modify f) :=
  Ports.modify (P := Portable) (u := ported) h fun t ht => by
    show (f t).buf.Portable
    rw [hb]; exact ht

theorem readable_ports : Agrees (C := C) readable := by
  intro t h
  unfold readable
  rw [show t.ported.buf.kind = t.buf.kind from rfl, show t.ported.buf.raw.closed = t.buf.raw.closed from rfl]
  cases t.buf.kind <;> dsimp only <;> first | exact ⟨rfl, h⟩ | (split <;> exact ⟨rfl, h⟩)

theorem writable_ports : Agrees (C := C) writable := by
  intro t h
  unfold writable
  rw [show t.ported.buf.kind = t.buf.kind from rfl, show t.ported.buf.raw.closed = t.buf.raw.closed from rfl]
  cases t.buf.kind <;> dsimp only <;> first | exact ⟨rfl, h⟩ | (split <;> exact ⟨rfl, h⟩)

theorem setEncoder_ports (mid : Bool) : Agrees (C := C) (setEncoder mid) := modify_ports (fun _ => rfl) fun _ => rfl

theorem configure_ports : Agrees (C := C) configure := by
  intro t h
  unfold configure
  rw [show t.ported.seekable = t.seekable from rfl]
  split
  · exact (writable_ports.bind fun _ => Ports.ite ((onBuf_ports Buf.tell_ports).bind fun _ => Ports.when (setEncoder_ports true))
      (Ports.pure _)) t h
  · exact ⟨rfl, h⟩

theorem create_ports (nl : Newline) (lb : Bool) (ls : Text) {b : Buf} (h : b.Portable) :
    create (C := C) nl lb ls b.ported = ((create (C := C) nl lb ls b).1, (create (C := C) nl lb ls b).2.ported) ∧
      (create (C := C) nl lb ls b).2.Portable := by
  unfold create
  rw [show b.ported.raw.closed = b.raw.closed from rfl]
  split
  · exact ⟨rfl, h⟩
  · exact configure_ports (C := C) ⟨b, nl, lb, ls, b.raw.seekable, b.raw.seekable, none, none, [], 0, none, (0, 0)⟩ h

theorem getDecoder_ports : Agrees (C := C) getDecoder := modify_ports (fun _ => rfl) fun _ => rfl

theorem resetDecoder_ports : Agrees (C := C) resetDecoder := modify_ports (fun _ => rfl) fun _ => rfl

theorem decode_ports (input : Option Bytes) (final : Bool) : Agrees (C := C) (decode input final) := by
  intro t h
  unfold decode
  rw [show t.ported.decoder = t.decoder from rfl, show t.ported.newline = t.newline from rfl]
  cases t.decoder with
  | none => exact ⟨rfl, h⟩
  | some d =>
    cases input with
    | none => exact ⟨rfl, h⟩
    | some input =>
      dsimp only
      split <;> exact ⟨rfl, h⟩

theorem setChars_ports (s : Text) : Agrees (C := C) (setChars s) := modify_ports (fun _ => rfl) fun _ => rfl

theorem getChars_ports (n : Option Nat) : Agrees (C := C) (getChars n) := fun _ h => ⟨rfl, h⟩

theorem dropSnapshot_ports : Agrees (C := C) dropSnapshot := by
  refine modify_ports (fun t => ?_) fun t => ?_
  · rw [show t.ported.snapshot = t.snapshot from rfl]
    split <;> rfl
  · split <;> rfl

theorem flush_ports : Agrees (C := C) flush :=
  (onBuf_ports Buf.flush_ports).bind fun _ => modify_ports (fun _ => rfl) fun _ => rfl

theorem checkClosed_ports : Agrees (C := C) checkClosed := onBuf_ports Buf.checkClosed_ports

theorem close_ports : Agrees (C := C) close := by
  intro t h
  unfold close
  rw [show t.ported.buf.raw.closed = t.buf.raw.closed from rfl]
  split
  · exact ⟨rfl, h⟩
  · exact (Ports.tryFinally flush_ports (onBuf_ports Buf.close_ports)) t h

theorem encode_ports (s : Text) : Agrees (C := C) (encode s) := by
  intro t h
  unfold encode
  rw [show t.ported.encoder = t.encoder from rfl]
  split <;> exact ⟨rfl, h⟩

theorem write_ports (s : Text) : Agrees (C := C) (write s) := by
  intro t h
  unfold write
  exact (checkClosed_ports.bind fun _ => (encode_ports _).bind fun b => (onBuf_ports (Buf.write_ports b)).bind fun _ =>
    (Ports.when flush_ports).bind fun _ => dropSnapshot_ports.bind fun _ => resetDecoder_ports.bind fun _ => Ports.pure _) t h

theorem readChunk_ports : Agrees (C := C) readChunk := by
  intro t h
  unfold readChunk
  rw [show t.ported.decoder = t.decoder from rfl]
  cases t.decoder with
  | none => exact ⟨rfl, h⟩
  | some d =>
    exact ((onBuf_ports (Buf.read1_ports _)).bind fun chunk => (decode_ports _ _).bind fun s => (setChars_ports s).bind fun _ =>
      (modify_ports (f := fun t' => { t' with
        ratio := if s = [] then (0, 0) else ((chunk.getD []).length, s.length)
        snapshot := if t.telling then
          some ((getstateWith C t.newline d).2, (getstateWith C t.newline d).1 ++ chunk.getD []) else t'.snapshot })
        (fun _ => rfl) fun _ => rfl).bind fun _ => Ports.pure _) t h

theorem checkReadable_ports : Agrees (C := C) checkReadable :=
  readable_ports.bind fun _ => Ports.ite (Ports.pure _) (Ports.raise _)

theorem readLoop_ports (size : Nat) : ∀ fuel result, Agrees (C := C) (readLoop size fuel result)
  | 0, _ => Ports.pure _
  | fuel + 1, _ => Ports.ite (readChunk_ports.bind fun _ => (getChars_ports _).bind fun _ =>
      Ports.ite (readLoop_ports size fuel _) (Ports.pure _)) (Ports.pure _)

theorem readAll_ports : Agrees (C := C) readAll :=
  (getChars_ports _).bind fun _ => (onBuf_ports (Buf.read_ports _)).bind fun _ => (decode_ports _ _).bind fun _ =>
    dropSnapshot_ports.bind fun _ => Ports.pure _

theorem read_ports (size : Option Int) : Agrees (C := C) (read size) := by
  intro t h
  unfold read
  rw [show t.ported.rounds = t.rounds from rfl]
  refine (checkReadable_ports.bind fun _ => getDecoder_ports.bind fun _ => ?_) t h
  cases size with
  | none => exact readAll_ports
  | some n => exact Ports.ite readAll_ports ((getChars_ports _).bind fun _ => readLoop_ports _ _ _)

theorem moreChars_ports : ∀ fuel, Agrees (C := C) (moreChars fuel)
  | 0 => Ports.pure _
  | fuel + 1 => readChunk_ports.bind fun more =>
      Ports.get (P := Portable) (u := ported) (f := fun t => if more && decide (t.chars = []) then moreChars fuel else pure ())
        (fun _ => rfl) fun _ _ => Ports.ite (moreChars_ports fuel) (Ports.pure _)

theorem rewind_ports (n : Nat) : Agrees (C := C) (rewind n) := by
  intro t h
  unfold rewind
  rw [show t.ported.used = t.used from rfl]
  split <;> exact ⟨rfl, h⟩

theorem finishLine_ports (size : Int) (line : Text) (endpos : Nat) : Agrees (C := C) (finishLine size line endpos) :=
  (rewind_ports _).bind fun _ => Ports.pure _

theorem readlineLoop_ports (size : Int) : ∀ fuel line, Agrees (C := C) (readlineLoop size fuel line)
  | 0, _ => Ports.pure _
  | fuel + 1, line => by
    intro t h
    unfold readlineLoop
    rw [show t.ported.newline = t.newline from rfl, show t.ported.rounds = t.rounds from rfl]
    cases lineEnd t.newline line with
    | some e => exact finishLine_ports size line e t h
    | none =>
      dsimp only
      split
      · exact finishLine_ports size line _ t h
      · exact ((moreChars_ports _).bind fun _ =>
          Ports.get (P := Portable) (u := ported) (f := fun t => if t.chars ≠ [] then do
              let s ← getChars none
              readlineLoop size fuel (line ++ s)
            else do
              setChars []
              PyM.modify fun t => { t with snapshot := none }
              pure line) (fun _ => rfl) fun _ _ =>
            Ports.ite ((getChars_ports _).bind fun _ => readlineLoop_ports size fuel _)
              ((setChars_ports _).bind fun _ =>
                (modify_ports (f := fun t => { t with snapshot := none }) (fun _ => rfl) fun _ => rfl).bind fun _ => Ports.pure _)) t h

theorem readline_ports (size : Int) : Agrees (C := C) (readline size) := by
  intro t h
  unfold readline
  rw [show t.ported.rounds = t.rounds from rfl]
  exact (checkClosed_ports.bind fun _ => (getChars_ports _).bind fun _ => getDecoder_ports.bind fun _ =>
    readlineLoop_ports _ _ _) t h

theorem next_ports : Agrees (C := C) next :=
  (modify_ports (f := fun t => { t with telling := false }) (fun _ => rfl) fun _ => rfl).bind fun _ =>
    (readline_ports _).bind fun _ =>
      (Ports.when (modify_ports (f := fun t => { t with snapshot := none, telling := t.seekable }) (fun _ => rfl) fun _ => rfl)).bind
        fun _ => Ports.pure _

theorem locate_ported (guess : Nat × Nat → Nat → Nat) (position : Nat) (t : Txt C) :
    locate guess position t.ported = locate guess position t := rfl

theorem tell_ports (guess : Nat × Nat → Nat → Nat) : Agrees (C := C) (tell guess) := by
  intro t h
  unfold tell
  rw [show t.ported.seekable = t.seekable from rfl, show t.ported.telling = t.telling from rfl]
  split
  · exact ⟨rfl, h⟩
  · split
    · exact ⟨rfl, h⟩
    · exact (flush_ports.bind fun _ => (onBuf_ports Buf.tell_ports).bind fun _ => fun _ h => ⟨rfl, h⟩) t h

theorem resetEncoder_ports (a : Bool) : Agrees (C := C) (resetEncoder a) := setEncoder_ports _

theorem restoreDecoder_ports (c : Cookie) : Agrees (C := C) (restoreDecoder c) := by
  intro t h
  unfold restoreDecoder
  rw [show t.ported.decoder = t.decoder from rfl, show t.ported.newline = t.newline from rfl]
  split
  · exact resetDecoder_ports t h
  · split <;> exact ⟨rfl, h⟩

theorem skipChars_ports (c : Cookie) : Agrees (C := C) (skipChars c) :=
  (onBuf_ports (Buf.read_ports _)).bind fun chunk => (decode_ports _ _).bind fun _ => (setChars_ports _).bind fun _ =>
    (modify_ports (f := fun t => { t with snapshot := some (c.flags, chunk.getD []) }) (fun _ => rfl) fun _ => rfl).bind fun _ =>
      Ports.ite (Ports.raise _) (modify_ports (f := fun t => { t with used := c.skip }) (fun _ => rfl) fun _ => rfl)

theorem seekTo_ports (c : Cookie) : Agrees (C := C) (seekTo c) :=
  flush_ports.bind fun _ => (onBuf_ports (Buf.seek_ports _ _)).bind fun _ =>
    (modify_ports (f := fun t => { t with chars := [], used := 0, snapshot := none }) (fun _ => rfl) fun _ => rfl).bind fun _ =>
      (restoreDecoder_ports c).bind fun _ => (Ports.when (skipChars_ports c)).bind fun _ => (resetEncoder_ports _).bind fun _ =>
        Ports.pure _

theorem seek_ports (guess : Nat × Nat → Nat → Nat) (m : Movement) : Agrees (C := C) (seek guess m) := by
  intro t h
  unfold seek
  rw [show t.ported.seekable = t.seekable from rfl]
  refine (checkClosed_ports.bind fun _ => Ports.ite (Ports.raise _) ?_) t h
  match m with
  | .relative => exact Ports.raise _
  | .badWhence => exact Ports.raise _
  | .to none => exact Ports.raise _
  | .to (some c) => exact seekTo_ports c
  | .here => exact (tell_ports guess).bind fun c => seekTo_ports c
  | .toEnd =>
    exact flush_ports.bind fun _ => (onBuf_ports (Buf.seek_ports _ _)).bind fun _ => (setChars_ports _).bind fun _ =>
      (modify_ports (f := fun t => { t with snapshot := none }) (fun _ => rfl) fun _ => rfl).bind fun _ =>
        resetDecoder_ports.bind fun _ => (resetEncoder_ports _).bind fun _ => Ports.pure _

theorem size_ports : Agrees (C := C) size := flush_ports.bind fun _ => onBuf_ports Buf.size_ports

theorem resetBuffers_ports (guess : Nat × Nat → Nat → Nat) : Agrees (C := C) (resetBuffers guess) :=
  (seek_ports guess _).bind fun _ => Ports.pure _

theorem lockFile_ports (guess : Nat × Nat → Nat → Nat) (others : Bytes) : Agrees (C := C) (lockFile guess others) :=
  (resetBuffers_ports guess).bind fun _ => onBuf_ports (Buf.lockFile_ports others)

theorem unlockFile_ports (guess : Nat × Nat → Nat → Nat) : Agrees (C := C) (unlockFile guess) :=
  (resetBuffers_ports guess).bind fun _ => onBuf_ports Buf.unlockFile_ports

theorem readinto_ports : Agrees (C := C) readinto := checkClosed_ports.bind fun _ => Ports.raise _

/-- The calls in which the backends differ. -/
def SystemCall : Op → Prop
  | .truncate _ => True
  | .sync _ _ _ => True
  | _ => False

theorem of_ports {m : PyM (Txt C) α} (h : Agrees m) (f : α → Out) {t : Txt C} (ht : t.Portable) :
    Out.of f (m t.ported) = ((Out.of f (m t)).1, (Out.of f (m t)).2.ported) ∧ (Out.of f (m t)).2.Portable := by
  obtain ⟨h1, h2⟩ := h t ht
  rw [h1]
  generalize m t = r at *
  obtain ⟨r, t'⟩ := r
  cases r <;> exact ⟨rfl, h2⟩

theorem step_ports (guess : Nat × Nat → Nat → Nat) {t : Txt C} (h : t.Portable) {op : Op} (hx : ¬ SystemCall op) :
    step guess t.ported op = ((step guess t op).1, (step guess t op).2.ported) ∧ (step guess t op).2.Portable := by
  cases op with
  | read n => exact of_ports (read_ports n) _ h
  | readline n => exact of_ports (readline_ports n) _ h
  | next => exact of_ports next_ports _ h
  | write s => exact of_ports (write_ports s) _ h
  | flush => exact of_ports flush_ports _ h
  | seek m => exact of_ports (seek_ports guess m) _ h
  | tell => exact of_ports (tell_ports guess) _ h
  | truncate a => exact absurd trivial hx
  | size => exact of_ports size_ports _ h
  | sync a m f => exact absurd trivial hx
  | lock o => exact of_ports (lockFile_ports guess o) _ h
  | unlock => exact of_ports (unlockFile_ports guess) _ h
  | readinto => exact of_ports readinto_ports _ h
  | close => exact of_ports close_ports _ h

theorem run_ports (guess : Nat × Nat → Nat → Nat) : ∀ (ops : List Op) (t : Txt C), t.Portable → (∀ op ∈ ops, ¬ SystemCall op) →
    run guess t.ported ops = ((run guess t ops).1, (run guess t ops).2.ported) ∧ (run guess t ops).2.Portable := by
  intro ops
  induction ops with
  | nil => intro t h _; exact ⟨rfl, h⟩
  | cons op ops ih =>
    intro t h hx
    obtain ⟨h1, h2⟩ := step_ports guess h (hx op List.mem_cons_self)
    obtain ⟨h3, h4⟩ := ih _ h2 fun o ho => hx o (List.mem_cons_of_mem _ ho)
    simp only [run, h1, h3]
    exact ⟨trivial, h4⟩

end Txt

end Verif
