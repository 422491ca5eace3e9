import Verif.Lemmas.RawIO
import Verif.Model.Buffered

/-!
# Streams on windows against streams on unix

On a seekable file whose gaps read as zeros, the two backends differ only in `truncate`, in `sync` and in the writing of
nothing.  So every method of a buffered stream that uses none of these does the same on both.
-/

set_option autoImplicit false

namespace Verif

open Verif.Spec

/-! ## Functions that do not see a difference -/

section General

variable {σ α β : Type} {P : σ → Prop} {u : σ → σ}

/-- `m` does the same in the state `u s` as in `s`, and keeps `P`. -/
def Ports (P : σ → Prop) (u : σ → σ) (m : PyM σ α) : Prop :=
  ∀ s, P s → m (u s) = ((m s).1, u (m s).2) ∧ P (m s).2

theorem Ports.pure (a : α) : Ports P u (Pure.pure a) := fun _ h => ⟨rfl, h⟩

theorem Ports.raise (e : Exn) : Ports P u (PyM.raise e : PyM σ α) := fun _ h => ⟨rfl, h⟩

theorem Ports.bind {m : PyM σ α} {f : α → PyM σ β} (hm : Ports P u m) (hf : ∀ a, Ports P u (f a)) :
    Ports P u (m >>= f) := by
  intro s h
  obtain ⟨h1, h2⟩ := hm s h
  rw [PyM.bind_apply, PyM.bind_apply, h1]
  generalize m s = r at *
  obtain ⟨r, s'⟩ := r
  cases r with
  | ok a => exact hf a s' h2
  | error e => exact ⟨rfl, h2⟩

theorem Ports.ite {c : Prop} [Decidable c] {m m' : PyM σ α} (h : Ports P u m) (h' : Ports P u m') :
    Ports P u (if c then m else m') := by
  split
  · exact h
  · exact h'

theorem Ports.modify {f : σ → σ} (h : ∀ s, f (u s) = u (f s)) (hp : ∀ s, P s → P (f s)) :
    Ports P u (PyM.modify f) := fun s hs => ⟨by rw [PyM.modify_apply, PyM.modify_apply, h], hp s hs⟩

theorem Ports.when {b : Bool} {m : PyM σ α} (h : Ports P u m) : Ports P u (PyM.when b m) := by
  intro s hs
  obtain ⟨h1, h2⟩ := h s hs
  unfold PyM.when
  split
  · rw [h1]
    generalize m s = r at *
    obtain ⟨r, s'⟩ := r
    cases r <;> exact ⟨rfl, h2⟩
  · exact ⟨rfl, hs⟩

/-- A function that looks at the state. -/
theorem Ports.self {f : σ → PyM σ α} (h : ∀ s, f (u s) = f s) (hf : ∀ s, P s → Ports P u (f s)) :
    Ports P u (fun s => f s s) := by
  intro s hs
  show f (u s) (u s) = _ ∧ _
  rw [h]
  exact hf s hs s hs

/-- The same in the middle of a function. -/
theorem Ports.get {f : σ → PyM σ α} (h : ∀ s, f (u s) = f s) (hf : ∀ s, P s → Ports P u (f s)) :
    Ports P u (PyM.get >>= f) := Ports.self (f := f) h hf

theorem Ports.tryFinally {m : PyM σ α} {f : PyM σ Unit} (hm : Ports P u m) (hf : Ports P u f) :
    Ports P u (PyM.tryFinally m f) := by
  intro s h
  obtain ⟨h1, h2⟩ := hm s h
  rw [PyM.tryFinally_apply, PyM.tryFinally_apply, h1]
  generalize m s = r at *
  obtain ⟨r, s'⟩ := r
  dsimp only at *
  obtain ⟨h3, h4⟩ := hf s' h2
  rw [h3]
  generalize f s' = q at *
  obtain ⟨q, s''⟩ := q
  cases q <;> exact ⟨rfl, h4⟩

end General

/-! ## Raw streams -/

namespace Raw

/-- The same stream with the other backend. -/
def ported (s : Raw) : Raw := { s with platform := .unix }

/-- A seekable file on windows; gaps read as zeros; a transfer moves something.  In append mode, no transfer fails. -/
structure Portable (s : Raw) : Prop where
  windows : s.platform = .windows
  zeros : ∀ i, s.junk i = 0
  seekable : s.seekable = true
  moves : ∀ a ∈ s.sched, a ≠ .count 0
  appending : s.append = true → Blocking s.sched

theorem Portable.fill {s : Raw} (h : s.Portable) : s.fill = fun _ => 0 := by
  funext i
  simp [Raw.fill, h.windows, h.zeros]

theorem ported_fill (s : Raw) : s.ported.fill = fun _ => 0 := rfl

theorem nextAns_ported (s : Raw) (n : Nat) : s.ported.nextAns n = ((s.nextAns n).1, (s.nextAns n).2.ported) := by
  unfold nextAns
  cases h : s.sched <;> simp [ported, h]

theorem Portable.nextAns {s : Raw} (h : s.Portable) (n : Nat) : (s.nextAns n).2.Portable := by
  unfold Raw.nextAns
  split
  · exact h
  · rename_i a rest hs
    exact ⟨h.windows, h.zeros, h.seekable, fun a ha => h.moves a (by rw [hs]; exact List.mem_cons_of_mem _ ha),
      fun ha b hb => h.appending ha b (by rw [hs]; exact List.mem_cons_of_mem _ hb)⟩

variable {α : Type}

theorem checkClosed_ports : Ports Portable ported checkClosed := by
  intro s h
  unfold checkClosed
  by_cases hc : s.closed <;> simp [ported, hc, h]

theorem checkReadable_ports : Ports Portable ported checkReadable := by
  intro s h
  unfold checkReadable
  by_cases hc : s.closed <;> by_cases hr : s.readable <;> simp [ported, hc, hr, h]

theorem checkWritable_ports : Ports Portable ported checkWritable := by
  intro s h
  unfold checkWritable
  by_cases hc : s.closed <;> by_cases hr : s.writable <;> simp [ported, hc, hr, h]

theorem checkSeekable_ports : Ports Portable ported checkSeekable := by
  intro s h
  unfold checkSeekable
  by_cases hc : s.closed <;> by_cases hr : s.seekable <;> simp [ported, hc, hr, h]

theorem innerSize_ports : Ports Portable ported innerSize := fun _ h => ⟨rfl, h⟩

theorem innerTell_ports : Ports Portable ported innerTell := by
  intro s h
  unfold innerTell
  by_cases hr : s.seekable <;> simp [ported, hr, h]

theorem innerSeek_ports (o : Int) (w : Whence) : Ports Portable ported (innerSeek o w) := by
  intro s h
  have key : ∀ n, Portable { s with pos := n } := fun n => ⟨h.windows, h.zeros, h.seekable, h.moves, h.appending⟩
  unfold innerSeek
  rw [show s.ported.seekable = s.seekable from rfl, if_pos h.seekable, if_pos h.seekable]
  dsimp only
  rw [show s.ported.pos = s.pos from rfl, show s.ported.data = s.data from rfl]
  cases w <;> dsimp only <;> split <;> first | exact ⟨rfl, key _⟩ | exact ⟨rfl, h⟩

theorem innerRead_ports (n : Nat) : Ports Portable ported (innerRead n) := by
  intro s h
  unfold innerRead
  rw [nextAns_ported]
  have h2 := h.nextAns n
  generalize s.nextAns n = r at *
  obtain ⟨a, s'⟩ := r
  cases a with
  | count k => exact ⟨rfl, h2.windows, h2.zeros, h2.seekable, h2.moves, h2.appending⟩
  | again => exact ⟨rfl, h2⟩
  | pipe => exact ⟨rfl, h2⟩
  | fail e => exact ⟨rfl, h2⟩

theorem size_ports : Ports Portable ported size := checkClosed_ports.bind fun _ => innerSize_ports

theorem tell_ports : Ports Portable ported tell := checkClosed_ports.bind fun _ => innerTell_ports

theorem seek_ports (o : Int) (w : Whence) : Ports Portable ported (seek o w) := checkClosed_ports.bind fun _ => innerSeek_ports o w

theorem readN_ports (n : Nat) : Ports Portable ported (readN n) :=
  checkClosed_ports.bind fun _ => checkReadable_ports.bind fun _ => innerRead_ports n

theorem readallLoop_ports : ∀ (fuel : Nat) (chunks : Bytes), Ports Portable ported (readallLoop fuel chunks)
  | 0, _ => Ports.raise _
  | fuel + 1, chunks => by
    refine (readN_ports chunkSize).bind fun d => ?_
    match d with
    | none => exact Ports.pure _
    | some [] => exact Ports.pure _
    | some (b :: bs) => exact readallLoop_ports fuel _

theorem readall_ports : Ports Portable ported readall :=
  Ports.self (P := Portable) (u := ported) (f := fun s => readallLoop (s.data.length - s.pos + 1) []) (fun _ => rfl) fun _ _ => readallLoop_ports _ _

theorem read_ports (n : Option Int) : Ports Portable ported (read n) := by
  refine checkClosed_ports.bind fun _ => checkReadable_ports.bind fun _ => ?_
  cases n with
  | none => exact readall_ports
  | some n => exact Ports.ite readall_ports (innerRead_ports _)

theorem readinto_ports (buffer : Bytes) : Ports Portable ported (readinto buffer) := by
  refine checkClosed_ports.bind fun _ => checkReadable_ports.bind fun _ => (innerRead_ports _).bind fun r => ?_
  cases r with
  | none => exact Ports.raise _
  | some got => exact Ports.pure _

/-- The system call. -/
theorem osWrite_ports {s : Raw} {buf : Bytes} (h : s.Portable) (hb : buf ≠ []) :
    (osWrite s.append buf s.ported =
      ((osWrite false buf { s with pos := if s.append then s.data.length else s.pos }).1,
        (osWrite false buf { s with pos := if s.append then s.data.length else s.pos }).2.ported)) ∧
      (osWrite false buf { s with pos := if s.append then s.data.length else s.pos }).2.Portable ∧
      (osWrite false buf { s with pos := if s.append then s.data.length else s.pos }).1 ≠ .ok (some 0) := by
  have hlen : buf.length ≠ 0 := by simpa using hb
  have key : ∀ (t : List OsAns) (k : Nat), k ≠ 0 → (∀ a ∈ t, a ∈ s.sched) →
      (osWrite s.append buf { s.ported with sched := .count k :: t } =
      ((osWrite false buf { s with pos := if s.append then s.data.length else s.pos, sched := .count k :: t }).1,
        (osWrite false buf { s with pos := if s.append then s.data.length else s.pos, sched := .count k :: t }).2.ported)) ∧
      (osWrite false buf { s with pos := if s.append then s.data.length else s.pos, sched := .count k :: t }).2.Portable ∧
      (osWrite false buf { s with pos := if s.append then s.data.length else s.pos, sched := .count k :: t }).1 ≠ .ok (some 0) := by
    intro t k hk ht
    have hacc : buf.take k ≠ [] := by simp [hb, hk]
    have hf : ∀ (sc : List OsAns) (p : Nat), Raw.fill { s with sched := sc, pos := p } = s.fill := fun _ _ => rfl
    have hf' : ∀ (sc : List OsAns), Raw.fill { s.ported with sched := sc } = fun _ => 0 := fun _ => rfl
    simp only [osWrite, nextAns, hf, hf', h.fill, if_neg hacc, Bool.false_eq_true, if_false]
    refine ⟨?_, ⟨h.windows, h.zeros, h.seekable, fun a ha => h.moves a (ht a ha), fun hA a ha => h.appending hA a (ht a ha)⟩, ?_⟩
    · simp [ported]
    · simp [hb, hk]
  cases hs : s.sched with
  | nil =>
    have h1 := key [] buf.length hlen (by simp)
    rw [← hs]
    have e1 : osWrite s.append buf s.ported = osWrite s.append buf { s.ported with sched := .count buf.length :: [] } := by
      simp [osWrite, nextAns, ported, hs, Raw.fill]
    have e2 : osWrite false buf { s with pos := if s.append then s.data.length else s.pos } =
        osWrite false buf { s with pos := if s.append then s.data.length else s.pos, sched := .count buf.length :: [] } := by
      simp [osWrite, nextAns, hs, Raw.fill]
    rw [e1, e2]
    exact h1
  | cons a t =>
    have ht : ∀ x ∈ t, x ∈ s.sched := fun x hx => by rw [hs]; exact List.mem_cons_of_mem _ hx
    by_cases hcount : ∃ k, a = .count k
    · obtain ⟨k, rfl⟩ := hcount
      have h1 := key t k (fun h0 => h.moves (.count k) (by rw [hs]; exact List.mem_cons_self) (by rw [h0])) ht
      have e1 : s.ported = { s.ported with sched := .count k :: t } := by simp [ported, hs]
      rw [e1]
      exact h1
    · have hA : s.append = false := by
        cases hA : s.append with
        | false => rfl
        | true =>
          obtain ⟨k, e, _⟩ := h.appending hA a (by rw [hs]; exact List.mem_cons_self)
          exact absurd ⟨k, e⟩ hcount
      have hp : Portable { s with sched := t } :=
        ⟨h.windows, h.zeros, h.seekable, fun a ha => h.moves a (ht a ha), fun hA a ha => h.appending hA a (ht a ha)⟩
      cases a with
      | count k => exact absurd ⟨k, rfl⟩ hcount
      | again => simp [osWrite, nextAns, ported, hs, hA, hp]; exact hA ▸ hp
      | pipe => simp [osWrite, nextAns, ported, hs, hA, hp]; exact hA ▸ hp
      | fail e => simp [osWrite, nextAns, ported, hs, hA, hp]; exact hA ▸ hp

theorem innerWrite_ports {buf : Bytes} (hb : buf ≠ []) : Ports Portable ported (innerWrite buf) := by
  intro s h
  obtain ⟨h1, h2, h3⟩ := osWrite_ports h hb
  have e : innerWrite buf s = osWrite false buf { s with pos := if s.append then s.data.length else s.pos } := by
    have key : ∀ s₀ : Raw, s₀.seekable = true → (osWrite false buf s₀).1 ≠ .ok (some 0) →
        ((do
          let _ ← innerTell
          let r ← osWrite false buf
          pure (match r with
            | some 0 => none
            | r => r)) : PyM Raw (Option Nat)) s₀ = osWrite false buf s₀ := by
      intro s₀ h₀ hne
      rw [PyM.bind_ok (show innerTell s₀ = (.ok s₀.pos, s₀) by simp [innerTell, h₀]), PyM.bind_apply]
      generalize osWrite false buf s₀ = r at *
      obtain ⟨r, s'⟩ := r
      match r with
      | .ok none => rfl
      | .ok (some 0) => exact absurd rfl hne
      | .ok (some (n + 1)) => rfl
      | .error e => rfl
    unfold innerWrite
    split
    · rename_i hp; rw [h.windows] at hp; cases hp
    by_cases hA : s.append = true
    · rw [PyM.bind_ok (s' := { s with pos := s.data.length }) (a := ()) (by
        simp [PyM.when, hA, innerSeek, h.seekable])]
      rw [if_pos hA] at h3 ⊢
      exact key { s with pos := s.data.length } h.seekable h3
    · rw [PyM.bind_ok (s' := s) (a := ()) (by simp [PyM.when, hA])]
      rw [if_neg hA] at h3 ⊢
      exact key { s with pos := s.pos } h.seekable h3
  rw [e]
  exact ⟨h1, h2⟩

theorem write_ports {buf : Bytes} (hb : buf ≠ []) : Ports Portable ported (write buf) := by
  refine checkClosed_ports.bind fun _ => checkWritable_ports.bind fun _ => (innerWrite_ports hb).bind fun r =>
    Ports.ite (Ports.raise _) ?_
  cases r with
  | none => exact Ports.pure _
  | some n => exact Ports.ite (Ports.raise _) (Ports.pure _)

theorem flush_ports : Ports Portable ported flush := checkClosed_ports

theorem lockFile_ports (others : Bytes) : Ports Portable ported (lockFile others) :=
  checkSeekable_ports.bind fun _ => Ports.modify (P := Portable) (u := ported) (fun _ => rfl) fun _ h => ⟨h.windows, h.zeros, h.seekable, h.moves, h.appending⟩

theorem unlockFile_ports : Ports Portable ported unlockFile :=
  checkSeekable_ports.bind fun _ => Ports.modify (P := Portable) (u := ported) (fun _ => rfl) fun _ h => ⟨h.windows, h.zeros, h.seekable, h.moves, h.appending⟩

theorem close_ports : Ports Portable ported close := by
  intro s h
  unfold close
  by_cases hc : s.closed
  · simp [ported, hc, h]
  · simp only [ported, hc, if_false, Bool.false_eq_true]
    exact ⟨trivial, h.windows, h.zeros, h.seekable, h.moves, h.appending⟩

end Raw

/-! ## Buffered streams -/

namespace Buf

/-- The same stream with the other backend. -/
def ported (b : Buf) : Buf := { b with raw := b.raw.ported }

/-- A stream over such a file. -/
def Portable (b : Buf) : Prop := b.raw.Portable

variable {α : Type}

theorem onRaw_ports {m : PyM Raw α} (h : Ports Raw.Portable Raw.ported m) : Ports Portable ported (onRaw m) := by
  intro b hb
  obtain ⟨h1, h2⟩ := h b.raw hb
  unfold onRaw
  rw [show b.ported.raw = b.raw.ported from rfl, h1]
  generalize m b.raw = r at *
  obtain ⟨r, s'⟩ := r
  exact ⟨rfl, h2⟩

theorem checkClosed_ports : Ports Portable ported checkClosed := by
  intro s h
  unfold checkClosed
  by_cases hc : s.raw.closed <;> simp [ported, Raw.ported, hc, h]

theorem resetReadBuf_ports : Ports Portable ported resetReadBuf := Ports.modify (P := Portable) (u := ported) (fun _ => rfl) fun _ h => h

theorem dropWritten_ports : ∀ r, Ports Portable ported (dropWritten r)
  | none => Ports.raise _
  | some n => by
    intro b h
    unfold dropWritten
    by_cases hc : b.writeBuf.length < n <;> simp only [ported, hc, if_true, if_false] <;> exact ⟨trivial, h⟩

theorem flushLoop_ports : ∀ fuel, Ports Portable ported (flushLoop fuel)
  | 0 => Ports.pure _
  | fuel + 1 => by
    intro b h
    unfold flushLoop
    by_cases hc : b.writeBuf = []
    · simp only [ported, hc, if_true]; exact ⟨trivial, h⟩
    · have : b.ported.writeBuf = b.writeBuf := rfl
      rw [this, if_neg hc, if_neg hc]
      exact ((onRaw_ports (Raw.write_ports hc)).bind fun n => (dropWritten_ports n).bind fun _ => flushLoop_ports fuel) b h

theorem flushUnlocked_ports : Ports Portable ported flushUnlocked :=
  checkClosed_ports.bind fun _ => Ports.get (P := Portable) (u := ported) (f := fun b => flushLoop b.writeBuf.length) (fun _ => rfl) fun _ _ => flushLoop_ports _

theorem flush_ports : Ports Portable ported flush := by
  intro b h
  unfold flush
  rw [show b.ported.kind = b.kind from rfl]
  cases b.kind with
  | reader => exact (checkClosed_ports.bind fun _ => onRaw_ports Raw.flush_ports) b h
  | writer => exact flushUnlocked_ports b h
  | random => exact flushUnlocked_ports b h

theorem overflowFlush_ports (written : Nat) : Ports Portable ported (overflowFlush written) := by
  intro b h
  unfold overflowFlush
  have h0 : b.ported.bufferSize = b.bufferSize ∧ b.ported.writeBuf = b.writeBuf := ⟨rfl, rfl⟩
  rw [h0.1, h0.2]
  split
  · obtain ⟨h1, h2⟩ := flushUnlocked_ports b h
    rw [h1]
    generalize flushUnlocked b = r at *
    obtain ⟨r, b'⟩ := r
    match r with
    | .ok _ => exact ⟨rfl, h2⟩
    | .error e =>
      cases e <;> first | exact ⟨rfl, h2⟩ | skip
      have h0 : b'.ported.bufferSize = b'.bufferSize ∧ b'.ported.writeBuf = b'.writeBuf := ⟨rfl, rfl⟩
      dsimp only
      rw [h0.1, h0.2]
      split <;> exact ⟨rfl, h2⟩
  · exact ⟨rfl, h⟩

theorem preFlush_ports : Ports Portable ported preFlush := by
  intro b h
  unfold preFlush
  have h0 : b.ported.bufferSize = b.bufferSize ∧ b.ported.writeBuf = b.writeBuf := ⟨rfl, rfl⟩
  rw [h0.1, h0.2]
  split
  · exact flushUnlocked_ports b h
  · exact ⟨rfl, h⟩

theorem writerWrite_ports (data : Bytes) : Ports Portable ported (writerWrite data) :=
  checkClosed_ports.bind fun _ => preFlush_ports.bind fun _ =>
    (Ports.modify (P := Portable) (u := ported) (f := fun b : Buf => { b with writeBuf := b.writeBuf ++ data })
      (fun _ => rfl) fun _ h => h).bind fun _ => overflowFlush_ports _

theorem undoReadAhead_ports : Ports Portable ported undoReadAhead := by
  intro b h
  unfold undoReadAhead
  have h0 : b.ported.readBuf = b.readBuf ∧ b.ported.readPos = b.readPos := ⟨rfl, rfl⟩
  rw [h0.1, h0.2]
  split
  · exact ⟨rfl, h⟩
  · exact ((onRaw_ports (Raw.seek_ports _ _)).bind fun _ => resetReadBuf_ports) b h

theorem write_ports (data : Bytes) : Ports Portable ported (write data) := by
  intro b h
  unfold write
  rw [show b.ported.kind = b.kind from rfl]
  cases b.kind with
  | reader => exact ⟨rfl, h⟩
  | writer => exact writerWrite_ports data b h
  | random => exact (undoReadAhead_ports.bind fun _ => writerWrite_ports data) b h

theorem readRest_ports : Ports Portable ported readRest := by
  intro b h
  unfold readRest
  exact (resetReadBuf_ports.bind fun _ => (onRaw_ports Raw.readall_ports).bind fun _ => Ports.pure _) b h

theorem fillLoop_ports (wanted n : Nat) : ∀ fuel out, Ports Portable ported (fillLoop wanted n fuel out)
  | 0, _ => Ports.pure _
  | fuel + 1, out => by
    refine Ports.ite ((onRaw_ports (Raw.read_ports _)).bind fun chunk => ?_) (Ports.pure _)
    match chunk with
    | none => exact Ports.pure _
    | some [] => exact Ports.pure _
    | some (c :: cs) => exact fillLoop_ports wanted n fuel _

theorem keepExtra_ports (n : Nat) (r : Bytes × Option Bytes) : Ports Portable ported (keepExtra n r) :=
  (Ports.modify (P := Portable) (u := ported)
    (f := fun b : Buf => { b with readBuf := r.1.drop (min n r.1.length), readPos := 0 }) (fun _ => rfl) fun _ h => h).bind
    fun _ => Ports.pure _

theorem readSome_ports (n : Nat) : Ports Portable ported (readSome n) := by
  intro b h
  unfold readSome
  have h0 : b.ported.readBuf = b.readBuf ∧ b.ported.readPos = b.readPos ∧ b.ported.bufferSize = b.bufferSize := ⟨rfl, rfl, rfl⟩
  rw [h0.1, h0.2.1, h0.2.2]
  split
  · exact ⟨rfl, h⟩
  · exact ((fillLoop_ports _ _ _ _).bind fun r => keepExtra_ports n r) b h

theorem readerRead_ports : ∀ n, Ports Portable ported (readerRead n)
  | none => readRest_ports
  | some _ => Ports.ite (Ports.raise _) (Ports.ite readRest_ports (readSome_ports _))

theorem read_ports (n : Option Int) : Ports Portable ported (read n) := by
  intro b h
  unfold read
  rw [show b.ported.kind = b.kind from rfl]
  cases b.kind with
  | writer => exact ⟨rfl, h⟩
  | reader => exact readerRead_ports n b h
  | random => exact (flush_ports.bind fun _ => readerRead_ports _) b h

theorem refill_ports (n : Int) : Ports Portable ported (refill n) := by
  refine (onRaw_ports (Raw.read_ports _)).bind fun r => ?_
  match r with
  | none => exact Ports.pure _
  | some [] => exact Ports.pure _
  | some (c :: cs) => exact Ports.modify (P := Portable) (u := ported) (fun _ => rfl) fun _ h => h

theorem peekUnlocked_ports (n : Int) : Ports Portable ported (peekUnlocked n) :=
  Ports.self (P := Portable) (u := ported) (f := fun b => (do
    PyM.when (decide ((b.readBuf.length : Int) - b.readPos < min n b.bufferSize ∨ (b.readBuf.length : Int) - b.readPos ≤ 0))
      (refill (b.bufferSize - ((b.readBuf.length : Int) - b.readPos)))
    let b ← PyM.get
    pure (b.readBuf.drop b.readPos))) (fun _ => rfl)
    fun _ _ => (Ports.when (refill_ports _)).bind fun _ =>
      Ports.get (P := Portable) (u := ported) (f := fun b => pure (b.readBuf.drop b.readPos)) (fun _ => rfl) fun _ _ => Ports.pure _

theorem peek_ports (n : Int) : Ports Portable ported (peek n) := by
  intro b h
  unfold peek
  rw [show b.ported.kind = b.kind from rfl]
  cases b.kind with
  | writer => exact ⟨rfl, h⟩
  | reader => exact (checkClosed_ports.bind fun _ => peekUnlocked_ports n) b h
  | random => exact (flush_ports.bind fun _ => checkClosed_ports.bind fun _ => peekUnlocked_ports n) b h

theorem read1Unlocked_ports (n : Int) : Ports Portable ported (read1Unlocked n) :=
  (peekUnlocked_ports 1).bind fun _ =>
    Ports.get (P := Portable) (u := ported) (f := fun b => readSome (min n ((b.readBuf.length : Int) - b.readPos)).toNat) (fun _ => rfl) fun _ _ => readSome_ports _

theorem readerRead1_ports (n : Int) : Ports Portable ported (readerRead1 n) :=
  Ports.self (P := Portable) (u := ported) (f := fun b => (do
    checkClosed
    if n = 0 then pure (some [])
    else read1Unlocked (if n < 0 then b.bufferSize else n))) (fun _ => rfl)
    fun _ _ => checkClosed_ports.bind fun _ => Ports.ite (Ports.pure _) (read1Unlocked_ports _)

theorem read1_ports (n : Int) : Ports Portable ported (read1 n) := by
  intro b h
  unfold read1
  rw [show b.ported.kind = b.kind from rfl]
  cases b.kind with
  | writer => exact ⟨rfl, h⟩
  | reader => exact readerRead1_ports n b h
  | random => exact (flush_ports.bind fun _ => readerRead1_ports _) b h

theorem copyOut_ports (dst : Bytes) (written : Nat) : Ports Portable ported (copyOut dst written) := by
  intro b h
  unfold copyOut
  have h0 : b.ported.readBuf = b.readBuf ∧ b.ported.readPos = b.readPos := ⟨rfl, rfl⟩
  rw [h0.1, h0.2]
  dsimp only
  split
  · exact ⟨rfl, h⟩
  · split <;> exact ⟨rfl, h⟩

theorem readMore_ports (r1 : Bool) (dst : Bytes) (written : Nat) : Ports Portable ported (readMore r1 dst written) := by
  intro b h
  unfold readMore
  rw [show b.ported.bufferSize = b.bufferSize from rfl]
  split
  · exact ((onRaw_ports (Raw.readinto_ports _)).bind fun _ => Ports.pure _) b h
  · split
    · exact ⟨rfl, h⟩
    · exact ((peekUnlocked_ports 1).bind fun _ => Ports.pure _) b h

theorem readintoLoop_ports (r1 : Bool) : ∀ fuel dst written, Ports Portable ported (readintoLoop r1 fuel dst written)
  | 0, _, _ => Ports.pure _
  | fuel + 1, dst, written =>
    Ports.ite ((copyOut_ports dst written).bind fun r => Ports.ite (Ports.pure _)
      ((readMore_ports r1 r.1 r.2).bind fun q => Ports.ite (Ports.pure _) (readintoLoop_ports r1 fuel q.1 q.2.1))) (Ports.pure _)

theorem readinto_ports (r1 : Bool) (dst : Bytes) : Ports Portable ported (readinto r1 dst) := by
  have key : Ports Portable ported (readerReadinto r1 dst) :=
    checkClosed_ports.bind fun _ => Ports.ite (Ports.pure _) (readintoLoop_ports _ _ _ _)
  intro b h
  unfold readinto
  rw [show b.ported.kind = b.kind from rfl]
  cases b.kind with
  | writer => exact ⟨rfl, h⟩
  | reader => exact key b h
  | random => exact (flush_ports.bind fun _ => key) b h

theorem nreadahead_ports (n : Int) : Ports Portable ported (nreadahead n) := by
  intro b h
  unfold nreadahead
  rw [show b.ported.kind = b.kind from rfl]
  cases b.kind with
  | writer => exact ⟨rfl, h⟩
  | reader => exact ((peek_ports 1).bind fun _ => Ports.pure _) b h
  | random => exact ((peek_ports 1).bind fun _ => Ports.pure _) b h

theorem readlineLoop_ports (size : Int) : ∀ fuel res, Ports Portable ported (readlineLoop size fuel res)
  | 0, _ => Ports.pure _
  | fuel + 1, res => by
    refine Ports.ite ((nreadahead_ports size).bind fun n => (read_ports _).bind fun chunk => ?_) (Ports.pure _)
    match chunk with
    | none => exact Ports.pure _
    | some [] => exact Ports.pure _
    | some (c :: cs) => exact Ports.ite (Ports.pure _) (readlineLoop_ports size fuel _)

theorem readline_ports (size : Int) : Ports Portable ported (readline size) :=
  Ports.self (P := Portable) (u := ported) (f := fun b => readlineLoop size (b.raw.data.length + b.readBuf.length + 1) []) (fun _ => rfl)
    fun _ _ => readlineLoop_ports _ _ _

theorem linesLoop_ports (hint : Option Nat) : ∀ fuel n, Ports Portable ported (linesLoop hint fuel n)
  | 0, _ => Ports.pure _
  | fuel + 1, _ => (readline_ports _).bind fun _ => Ports.ite (Ports.pure _) (Ports.ite (Ports.pure _)
      ((linesLoop_ports hint fuel _).bind fun _ => Ports.pure _))

theorem readlines_ports (hint : Option Int) : Ports Portable ported (readlines hint) :=
  Ports.self (P := Portable) (u := ported) (f := fun b => (do
    checkClosed
    linesLoop (match hint with
      | none => none
      | some h => if h ≤ 0 then none else some h.toNat) (b.raw.data.length + b.readBuf.length + 1) 0)) (fun _ => rfl)
    fun _ _ => checkClosed_ports.bind fun _ => linesLoop_ports _ _ _

theorem writeAll_ports : ∀ ls, Ports Portable ported (writeAll ls)
  | [] => Ports.pure _
  | l :: ls => (write_ports l).bind fun _ => writeAll_ports ls

theorem writelines_ports (ls : List Bytes) : Ports Portable ported (writelines ls) :=
  checkClosed_ports.bind fun _ => writeAll_ports ls

theorem tell_ports : Ports Portable ported tell := by
  intro b h
  unfold tell
  exact ((onRaw_ports Raw.tell_ports).bind fun _ => Ports.pure _) b h

theorem readerSeek_ports (o : Int) (w : Whence) : Ports Portable ported (readerSeek o w) :=
  Ports.self (P := Portable) (u := ported) (f := fun b => (do
    checkClosed
    let p ← onRaw (Raw.seek (if w = Whence.cur then o - ((b.readBuf.length : Int) - b.readPos) else o) w)
    resetReadBuf
    pure p)) (fun _ => rfl)
    fun _ _ => checkClosed_ports.bind fun _ => (onRaw_ports (Raw.seek_ports _ _)).bind fun _ =>
      resetReadBuf_ports.bind fun _ => Ports.pure _

theorem writerSeek_ports (o : Int) (w : Whence) : Ports Portable ported (writerSeek o w) :=
  flushUnlocked_ports.bind fun _ => onRaw_ports (Raw.seek_ports o w)

theorem seekBack_ports : Ports Portable ported seekBack := by
  intro b h
  unfold seekBack
  have h0 : b.ported.readBuf = b.readBuf ∧ b.ported.readPos = b.readPos := ⟨rfl, rfl⟩
  rw [h0.1, h0.2]
  split
  · exact ⟨rfl, h⟩
  · exact ((onRaw_ports (Raw.seek_ports _ _)).bind fun _ => Ports.pure _) b h

theorem randomSeek_ports (o : Int) (w : Whence) : Ports Portable ported (randomSeek o w) :=
  flush_ports.bind fun _ => seekBack_ports.bind fun _ => (onRaw_ports (Raw.seek_ports o w)).bind fun _ =>
    resetReadBuf_ports.bind fun _ => Ports.pure _

theorem seek_ports (o : Int) (w : Whence) : Ports Portable ported (seek o w) := by
  intro b h
  unfold seek
  rw [show b.ported.kind = b.kind from rfl]
  cases b.kind with
  | writer => exact writerSeek_ports o w b h
  | reader => exact readerSeek_ports o w b h
  | random => exact randomSeek_ports o w b h

theorem size_ports : Ports Portable ported size := flush_ports.bind fun _ => onRaw_ports Raw.size_ports

theorem resetBuffers_ports : Ports Portable ported resetBuffers := (seek_ports 0 .cur).bind fun _ => Ports.pure _

theorem lockFile_ports (others : Bytes) : Ports Portable ported (lockFile others) :=
  resetBuffers_ports.bind fun _ => onRaw_ports (Raw.lockFile_ports others)

theorem unlockFile_ports : Ports Portable ported unlockFile :=
  resetBuffers_ports.bind fun _ => onRaw_ports Raw.unlockFile_ports

theorem exitLock_ports : Ports Portable ported exitLock := onRaw_ports Raw.unlockFile_ports

theorem close_ports : Ports Portable ported close := by
  intro b h
  unfold close
  rw [show b.ported.raw.closed = b.raw.closed from rfl]
  split
  · exact ⟨rfl, h⟩
  · exact (Ports.tryFinally flush_ports (onRaw_ports Raw.close_ports)) b h

end Buf

end Verif
