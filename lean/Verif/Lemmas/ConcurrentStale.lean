import Verif.Model.Concurrent
import Verif.Lemmas.RawIO

/-!
# Streams in append mode do not use their position

On unix, a stream in append mode that only writes does the same whatever its position is.
-/

set_option autoImplicit false

namespace Verif

section General

variable {σ α β : Type} {R : σ → σ → Prop}

/-- `m` does not see the difference that `R` allows. -/
def Blind (R : σ → σ → Prop) (m : PyM σ α) : Prop := ∀ s s', R s s' → (m s).1 = (m s').1 ∧ R (m s).2 (m s').2

theorem Blind.pure (a : α) : Blind R (Pure.pure a : PyM σ α) := fun _ _ h => ⟨rfl, h⟩

theorem Blind.raise (e : Exn) : Blind R (PyM.raise e : PyM σ α) := fun _ _ h => ⟨rfl, h⟩

theorem Blind.bind {m : PyM σ α} {f : α → PyM σ β} (hm : Blind R m) (hf : ∀ a, Blind R (f a)) : Blind R (m >>= f) := by
  intro s s' h
  obtain ⟨h1, h2⟩ := hm s s' h
  rw [PyM.bind_apply, PyM.bind_apply]
  generalize m s = r at *
  generalize m s' = r' at *
  obtain ⟨r, t⟩ := r
  obtain ⟨r', t'⟩ := r'
  dsimp only at h1
  subst h1
  cases r with
  | ok a => exact hf a _ _ h2
  | error e => exact ⟨rfl, h2⟩

theorem Blind.modify {f : σ → σ} (h : ∀ s s', R s s' → R (f s) (f s')) : Blind R (PyM.modify f) :=
  fun s s' hs => ⟨rfl, h s s' hs⟩

theorem Blind.ite {c : Prop} [Decidable c] {m m' : PyM σ α} (h : Blind R m) (h' : Blind R m') :
    Blind R (if c then m else m') := by
  split
  · exact h
  · exact h'

theorem Blind.when {b : Bool} {m : PyM σ α} (hm : Blind R m) : Blind R (PyM.when b m) := by
  intro s s' h
  unfold PyM.when
  split
  · obtain ⟨h1, h2⟩ := hm s s' h
    generalize m s = r at *
    generalize m s' = r' at *
    obtain ⟨r, t⟩ := r
    obtain ⟨r', t'⟩ := r'
    dsimp only at h1
    subst h1
    cases r <;> exact ⟨rfl, h2⟩
  · exact ⟨rfl, h⟩

theorem Blind.self {f : σ → PyM σ α} (h : ∀ s s', R s s' → f s = f s') (hf : ∀ s, Blind R (f s)) :
    Blind R (fun s => f s s) := by
  intro s s' hs
  show (f s s).1 = (f s' s').1 ∧ R (f s s).2 (f s' s').2
  rw [← h s s' hs]
  exact hf s _ _ hs

theorem Blind.tryFinally {m : PyM σ α} {f : PyM σ Unit} (hm : Blind R m) (hf : Blind R f) :
    Blind R (PyM.tryFinally m f) := by
  intro s s' h
  obtain ⟨h1, h2⟩ := hm s s' h
  rw [PyM.tryFinally_apply, PyM.tryFinally_apply]
  generalize m s = r at *
  generalize m s' = r' at *
  obtain ⟨r, t⟩ := r
  obtain ⟨r', t'⟩ := r'
  dsimp only at h1 h2 ⊢
  subst h1
  obtain ⟨h3, h4⟩ := hf _ _ h2
  generalize f t = q at *
  generalize f t' = q' at *
  obtain ⟨q, v⟩ := q
  obtain ⟨q', v'⟩ := q'
  dsimp only at h3
  subst h3
  cases q <;> exact ⟨rfl, h4⟩

end General

namespace Raw

/-- The same stream elsewhere. -/
def Astray (s s' : Raw) : Prop := s.platform = .unix ∧ s.append = true ∧ ∃ p, s' = { s with pos := p }

theorem Astray.closed {s s' : Raw} (h : s.Astray s') : s'.closed = s.closed := by obtain ⟨_, _, p, rfl⟩ := h; rfl

theorem Astray.writable {s s' : Raw} (h : s.Astray s') : s'.writable = s.writable := by obtain ⟨_, _, p, rfl⟩ := h; rfl

theorem checkClosed_blind : Blind Astray checkClosed := by
  intro s s' h
  unfold checkClosed
  rw [h.closed]
  split <;> exact ⟨rfl, h⟩

theorem checkWritable_blind : Blind Astray checkWritable := by
  intro s s' h
  unfold checkWritable
  rw [h.closed, h.writable]
  repeat' split
  all_goals exact ⟨rfl, h⟩

theorem nextAns_astray {s s' : Raw} (h : s.Astray s') (n : Nat) :
    (s'.nextAns n).1 = (s.nextAns n).1 ∧ (s.nextAns n).2.Astray (s'.nextAns n).2 := by
  have e : s'.sched = s.sched := by obtain ⟨_, _, p, rfl⟩ := h; rfl
  unfold nextAns
  rw [e]
  split
  · exact ⟨rfl, h⟩
  · obtain ⟨h1, h2, p, rfl⟩ := h
    exact ⟨rfl, h1, h2, p, rfl⟩

theorem osWrite_blind (buf : Bytes) : Blind Astray (osWrite true buf) := by
  intro s s' h
  obtain ⟨k1, k2⟩ := nextAns_astray h buf.length
  unfold osWrite
  generalize s.nextAns buf.length = r at *
  generalize s'.nextAns buf.length = r' at *
  obtain ⟨a, t⟩ := r
  obtain ⟨a', t'⟩ := r'
  dsimp only at k1 k2
  subst k1
  cases a' with
  | count k =>
    obtain ⟨h1, h2, p, rfl⟩ := k2
    exact ⟨rfl, h1, h2, _, rfl⟩
  | _ => exact ⟨rfl, k2⟩

theorem innerWrite_blind (buf : Bytes) : Blind Astray (innerWrite buf) := by
  rintro s s' h
  have e : ∀ t : Raw, t.platform = .unix → t.append = true → innerWrite buf t = osWrite true buf t := by
    intro t h1 h2; simp only [innerWrite, h1, h2]
  rw [e s h.1 h.2.1, e s' (by obtain ⟨h1, _, p, rfl⟩ := h; exact h1) (by obtain ⟨_, h2, p, rfl⟩ := h; exact h2)]
  exact osWrite_blind buf s s' h

theorem write_blind (buf : Bytes) : Blind Astray (write buf) := by
  refine checkClosed_blind.bind fun _ => checkWritable_blind.bind fun _ => (innerWrite_blind buf).bind fun res => ?_
  split
  · exact .raise _
  · split
    · split
      · exact .raise _
      · exact .pure _
    · exact .pure _

theorem osFlush_blind (k : FlushKind) : Blind Astray (osFlush k) := by
  intro s s' h
  obtain ⟨k1, k2⟩ := nextAns_astray h 0
  unfold osFlush
  generalize s.nextAns 0 = r at *
  generalize s'.nextAns 0 = r' at *
  obtain ⟨a, t⟩ := r
  obtain ⟨a', t'⟩ := r'
  dsimp only at k1 k2
  subst k1
  cases a' with
  | count k =>
    obtain ⟨h1, h2, p, rfl⟩ := k2
    exact ⟨rfl, h1, h2, p, rfl⟩
  | fail e =>
    dsimp only
    split
    · obtain ⟨h1, h2, p, rfl⟩ := k2
      exact ⟨rfl, h1, h2, p, rfl⟩
    · exact ⟨rfl, k2⟩
  | _ => exact ⟨rfl, k2⟩

theorem orElse_blind {m m' : PyM Raw Unit} (h : Blind Astray m) (h' : Blind Astray m') : Blind Astray (orElse m m') := by
  intro s s' hs
  obtain ⟨h1, h2⟩ := h s s' hs
  unfold orElse
  generalize m s = r at *
  generalize m s' = r' at *
  obtain ⟨r, t⟩ := r
  obtain ⟨r', t'⟩ := r'
  dsimp only at h1
  subst h1
  cases r with
  | ok a => exact ⟨rfl, h2⟩
  | error e => cases e <;> first | exact ⟨rfl, h2⟩ | exact h' _ _ h2

theorem sync_blind (fd m f : Bool) : Blind Astray (sync fd m f) := by
  refine checkClosed_blind.bind fun _ => ?_
  intro s s' hs
  have e : ∀ t : Raw, t.platform = .unix → innerSync fd m f t =
      (if f then orElse (osFlush .full) (if !m && fd then orElse (osFlush .data) (osFlush .metadata) else osFlush .metadata)
        else (if !m && fd then orElse (osFlush .data) (osFlush .metadata) else osFlush .metadata)) t := by
    intro t h; simp only [innerSync, h]
  rw [e s hs.1, e s' (by obtain ⟨h1, _, p, rfl⟩ := hs; exact h1)]
  have h1 : Blind Astray (if !m && fd then orElse (osFlush .data) (osFlush .metadata) else osFlush .metadata) :=
    .ite (orElse_blind (osFlush_blind _) (osFlush_blind _)) (osFlush_blind _)
  exact Blind.ite (orElse_blind (osFlush_blind _) h1) h1 s s' hs

theorem close_blind : Blind Astray close := by
  intro s s' h
  unfold close
  rw [h.closed]
  split
  · exact ⟨rfl, h⟩
  · obtain ⟨h1, h2, p, rfl⟩ := h
    exact ⟨rfl, h1, h2, p, rfl⟩

end Raw

namespace Buf

/-- The same writer elsewhere. -/
def Astray (b b' : Buf) : Prop := b.kind = .writer ∧ ∃ r, b.raw.Astray r ∧ b' = { b with raw := r }

theorem onRaw_blind {α : Type} {m : PyM Raw α} (h : Blind Raw.Astray m) : Blind Astray (onRaw m) := by
  rintro b b' ⟨hk, r, hr, rfl⟩
  obtain ⟨h1, h2⟩ := h _ _ hr
  exact ⟨h1, hk, _, h2, rfl⟩

theorem checkClosed_blind : Blind Astray checkClosed := by
  intro b b' h
  have e1 : b'.raw.closed = b.raw.closed := by obtain ⟨_, r, hr, rfl⟩ := h; exact hr.closed
  unfold checkClosed
  rw [e1]
  split <;> exact ⟨rfl, h⟩

theorem dropWritten_blind (n : Option Nat) : Blind Astray (dropWritten n) := by
  cases n with
  | none => exact .raise _
  | some n =>
    rintro b b' ⟨hk, r, hr, rfl⟩
    simp only [dropWritten]
    split
    · exact ⟨rfl, hk, _, hr, rfl⟩
    · exact ⟨rfl, hk, _, hr, rfl⟩

theorem flushLoop_blind (n : Nat) : Blind Astray (flushLoop n) := by
  induction n with
  | zero => exact .pure _
  | succ n ih =>
    rintro b b' ⟨hk, r, hr, rfl⟩
    have hs : b.Astray { b with raw := r } := ⟨hk, r, hr, rfl⟩
    unfold flushLoop
    dsimp only
    split
    · exact ⟨rfl, hs⟩
    · exact ((onRaw_blind (Raw.write_blind _)).bind fun _ => (dropWritten_blind _).bind fun _ => ih) _ _ hs

theorem flushUnlocked_blind : Blind Astray flushUnlocked := by
  refine checkClosed_blind.bind fun _ => ?_
  refine Blind.self (f := fun b : Buf => flushLoop b.writeBuf.length) ?_ (fun _ => flushLoop_blind _)
  rintro b b' ⟨_, r, _, rfl⟩; rfl

theorem flush_blind : Blind Astray flush := by
  rintro b b' h
  have e : ∀ c : Buf, c.kind = .writer → flush c = flushUnlocked c := by intro c h; simp only [flush, h]
  rw [e b h.1, e b' (by obtain ⟨h1, r, _, rfl⟩ := h; exact h1)]
  exact flushUnlocked_blind _ _ h

theorem overflowFlush_blind (n : Nat) : Blind Astray (overflowFlush n) := by
  rintro b b' h
  obtain ⟨h1, h2⟩ := flushUnlocked_blind b b' h
  have e1 : b'.bufferSize = b.bufferSize ∧ b'.writeBuf = b.writeBuf := by obtain ⟨_, r, _, rfl⟩ := h; exact ⟨rfl, rfl⟩
  unfold overflowFlush
  rw [e1.1, e1.2]
  split
  · generalize flushUnlocked b = q at *
    generalize flushUnlocked b' = q' at *
    obtain ⟨q, c⟩ := q
    obtain ⟨q', c'⟩ := q'
    dsimp only at h1
    subst h1
    have e2 : c'.bufferSize = c.bufferSize ∧ c'.writeBuf = c.writeBuf := by obtain ⟨_, r, _, rfl⟩ := h2; exact ⟨rfl, rfl⟩
    cases q with
    | ok => exact ⟨rfl, h2⟩
    | error e =>
      cases e with
      | blockingIO k =>
        dsimp only
        rw [e2.1, e2.2]
        split
        · obtain ⟨hk, r, hr, rfl⟩ := h2
          exact ⟨rfl, hk, r, hr, rfl⟩
        · exact ⟨rfl, h2⟩
      | _ => exact ⟨rfl, h2⟩
  · exact ⟨rfl, h⟩

theorem preFlush_blind : Blind Astray preFlush := by
  rintro b b' h
  have e1 : b'.bufferSize = b.bufferSize ∧ b'.writeBuf = b.writeBuf := by obtain ⟨_, r, _, rfl⟩ := h; exact ⟨rfl, rfl⟩
  unfold preFlush
  rw [e1.1, e1.2]
  split
  · exact flushUnlocked_blind _ _ h
  · exact ⟨rfl, h⟩

theorem write_blind (d : Bytes) : Blind Astray (write d) := by
  rintro b b' h
  have e : ∀ c : Buf, c.kind = .writer → write d c = writerWrite d c := by intro c h; simp only [write, h]
  rw [e b h.1, e b' (by obtain ⟨h1, r, _, rfl⟩ := h; exact h1)]
  refine (checkClosed_blind.bind fun _ => preFlush_blind.bind fun _ => (Blind.modify ?_).bind fun _ =>
    overflowFlush_blind _) _ _ h
  rintro b b' ⟨hk, r, hr, rfl⟩
  exact ⟨hk, r, hr, rfl⟩

theorem sync_blind (fd m f : Bool) : Blind Astray (sync fd m f) :=
  flush_blind.bind fun _ => onRaw_blind (Raw.sync_blind fd m f)

theorem close_blind : Blind Astray close := by
  rintro b b' h
  have e1 : b'.raw.closed = b.raw.closed := by obtain ⟨_, r, ⟨_, _, p, rfl⟩, rfl⟩ := h; rfl
  unfold close
  rw [e1]
  split
  · exact ⟨rfl, h⟩
  · exact Blind.tryFinally flush_blind (onRaw_blind Raw.close_blind) _ _ h

end Buf

namespace Txt

variable {C : Codec}

/-- The same text stream elsewhere; its encoder may not exist yet. -/
def Astray (t t' : Txt C) : Prop := ∃ b e, t.buf.Astray b ∧ e.getD C.encInit = t.encoder.getD C.encInit ∧
  t' = { t with buf := b, encoder := e }

theorem onBuf_blind {α : Type} {m : PyM Buf α} (h : Blind Buf.Astray m) : Blind (Astray (C := C)) (onBuf m) := by
  rintro t t' ⟨b, e, hb, he, rfl⟩
  obtain ⟨h1, h2⟩ := h _ _ hb
  exact ⟨h1, _, _, h2, he, rfl⟩

theorem flush_blind : Blind (Astray (C := C)) flush := by
  refine (onBuf_blind Buf.flush_blind).bind fun _ => .modify ?_
  rintro t t' ⟨b, e, hb, he, rfl⟩
  exact ⟨_, _, hb, he, rfl⟩

theorem checkClosed_blind : Blind (Astray (C := C)) checkClosed := onBuf_blind Buf.checkClosed_blind

theorem sync_blind (fd m f : Bool) : Blind (Astray (C := C)) (sync fd m f) :=
  flush_blind.bind fun _ => onBuf_blind (Buf.sync_blind fd m f)

theorem close_blind : Blind (Astray (C := C)) close := by
  rintro t t' h
  have e1 : t'.buf.raw.closed = t.buf.raw.closed := by
    obtain ⟨_, _, ⟨_, r, ⟨_, _, p, rfl⟩, rfl⟩, _, rfl⟩ := h; rfl
  unfold close
  rw [e1]
  split
  · exact ⟨rfl, h⟩
  · exact Blind.tryFinally flush_blind (onBuf_blind Buf.close_blind) _ _ h

theorem encode_blind (s : Text) : Blind (Astray (C := C)) (encode s) := by
  rintro t t' ⟨b, e, hb, he, rfl⟩
  unfold encode
  dsimp only
  rw [he]
  cases C.encode (t.encoder.getD C.encInit) s with
  | error x => exact ⟨rfl, _, _, hb, rfl, rfl⟩
  | ok x => exact ⟨rfl, _, _, hb, rfl, rfl⟩

theorem write_blind (s : Text) : Blind (Astray (C := C)) (write s) := by
  rintro t t' h
  have h0 := h
  obtain ⟨b, e, hb, he, rfl⟩ := h0
  unfold write
  refine (checkClosed_blind.bind fun _ => (encode_blind _).bind fun _ => (onBuf_blind (Buf.write_blind _)).bind fun _ =>
    (Blind.when flush_blind).bind fun _ => (Blind.modify ?_).bind fun _ => (Blind.modify ?_).bind fun _ => .pure _) _ _ h
  · rintro t t' ⟨b, e, hb, he, rfl⟩
    dsimp only
    split
    · exact ⟨_, _, hb, he, rfl⟩
    · exact ⟨_, _, hb, he, rfl⟩
  · rintro t t' ⟨b, e, hb, he, rfl⟩
    exact ⟨_, _, hb, he, rfl⟩

end Txt

namespace AnyStream

variable {C : Codec}

/-- The same stream elsewhere. -/
def Astray : AnyStream C → AnyStream C → Prop
  | raw s, raw s' => s.Astray s'
  | buf b, buf b' => b.Astray b'
  | txt t, txt t' => t.Astray t'
  | _, _ => False

theorem Astray.data {s s' : AnyStream C} (h : s.Astray s') : s'.theRaw.data = s.theRaw.data := by
  cases s <;> cases s' <;> first
    | cases h; done
    | skip
  · obtain ⟨_, _, p, rfl⟩ := h; rfl
  · obtain ⟨_, _, ⟨_, _, p, rfl⟩, rfl⟩ := h; rfl
  · obtain ⟨_, _, ⟨_, _, ⟨_, _, p, rfl⟩, rfl⟩, _, rfl⟩ := h; rfl

theorem Astray.symm {s s' : AnyStream C} (h : s.Astray s') : s'.Astray s := by
  cases s <;> cases s' <;> first
    | cases h; done
    | skip
  · obtain ⟨h1, h2, p, rfl⟩ := h; exact ⟨h1, h2, _, rfl⟩
  · obtain ⟨hk, _, ⟨h1, h2, p, rfl⟩, rfl⟩ := h; exact ⟨hk, _, ⟨h1, h2, _, rfl⟩, rfl⟩
  · obtain ⟨_, _, ⟨hk, _, ⟨h1, h2, p, rfl⟩, rfl⟩, he, rfl⟩ := h
    exact ⟨_, _, ⟨hk, _, ⟨h1, h2, _, rfl⟩, rfl⟩, he.symm, rfl⟩

theorem Astray.see {s s' : AnyStream C} (h : s.Astray s') (file : Bytes) : (Job.see s file).Astray (Job.see s' file) := by
  cases s <;> cases s' <;> first
    | cases h; done
    | skip
  · obtain ⟨h1, h2, p, rfl⟩ := h; exact ⟨h1, h2, p, rfl⟩
  · obtain ⟨hk, _, ⟨h1, h2, p, rfl⟩, rfl⟩ := h; exact ⟨hk, _, ⟨h1, h2, p, rfl⟩, rfl⟩
  · obtain ⟨_, _, ⟨hk, _, ⟨h1, h2, p, rfl⟩, rfl⟩, he, rfl⟩ := h
    exact ⟨_, _, ⟨hk, _, ⟨h1, h2, p, rfl⟩, rfl⟩, he, rfl⟩

theorem call_blind {α : Type} {r : PyM Raw α} {b : PyM Buf α} {t : PyM (Txt C) α} (hr : Blind Raw.Astray r)
    (hb : Blind Buf.Astray b) (ht : Blind Txt.Astray t) : Blind Astray (call r b t) := by
  intro s s' h
  cases s <;> cases s' <;> first
    | cases h; done
    | skip
  · exact hr _ _ h
  · exact hb _ _ h
  · exact ht _ _ h

theorem write_blind (d : Chunk) : Blind (Astray (C := C)) (write d) := by
  cases d with
  | bytes d =>
    exact call_blind ((Raw.write_blind d).bind fun _ => .pure _) ((Buf.write_blind d).bind fun _ => .pure _) (.raise _)
  | text d => exact call_blind (.raise _) (.raise _) ((Txt.write_blind d).bind fun _ => .pure _)

theorem flush_blind : Blind (Astray (C := C)) flush :=
  call_blind Raw.checkClosed_blind Buf.flush_blind Txt.flush_blind

theorem sync_blind (fd : Bool) : Blind (Astray (C := C)) (sync fd) :=
  call_blind (Raw.sync_blind _ _ _) (Buf.sync_blind _ _ _) (Txt.sync_blind _ _ _)

theorem close_blind : Blind (Astray (C := C)) close := call_blind Raw.close_blind Buf.close_blind Txt.close_blind

end AnyStream

/-- The same phase of a call that appends, with another position of the stream. -/
def Phase.Astray {C : Codec} : Phase C → Phase C → Prop
  | .locked _, .locked _ => True
  | .inside s t, .inside s' t' => s.Astray s' ∧ t = t' ∧ (∀ l, t ≠ .reading l)
  | .leaving r, .leaving r' => r = r'
  | _, _ => False

namespace Job

variable {S : Setting} {k : Job}

theorem method_blind {todo : Todo} (h : ∀ l, todo ≠ .reading l) : Blind AnyStream.Astray (k.method S todo) := by
  cases todo with
  | reading l => exact absurd rfl (h l)
  | writing => exact (AnyStream.write_blind _).bind fun _ => .pure _
  | flushing => exact AnyStream.flush_blind.bind fun _ => .pure _
  | syncing => exact (AnyStream.sync_blind _).bind fun _ => .pure _
  | closing r => exact AnyStream.close_blind.bind fun _ => .pure _

theorem after_writes {todo : Todo} (h : ∀ l, todo ≠ .reading l) (r : Except Exn (Option Chunk)) (l : List Chunk) :
    k.after todo r ≠ .reading l := by
  cases todo with
  | reading l => exact absurd rfl (h l)
  | flushing => cases r <;> simp only [after] <;> (try split) <;> exact nofun
  | _ => cases r <;> simp only [after] <;> exact nofun

theorem layers_astray (ha : k.task.isAdd = true) (hb : k.task.binary = false → S.codec.encMid = S.codec.encInit)
    (file : Bytes) (p p' : Nat) :
    match k.layers S (k.raw file p), k.layers S (k.raw file p') with
    | .ok s, .ok s' => s.Astray s'
    | .error e, .error e' => e = e'
    | _, _ => False := by
  have hl : k.task.isLoad = false := by
    generalize k.task = t at ha
    cases t <;> first | cases ha; done | rfl
  have hr : (k.raw file p).Astray (k.raw file p') := ⟨rfl, ha, p', rfl⟩
  unfold layers
  by_cases hs : k.size = 0
  · simp only [hs, if_true]
    cases hbin : k.task.binary with
    | true => exact hr
    | false => simp
  · simp only [hs, if_false, hl, Bool.false_eq_true]
    have hc : ∀ q, Buf.create .writer k.size (k.raw file q) = .ok ⟨.writer, k.size, k.raw file q, [], 0, []⟩ := by
      intro q
      simp [Buf.create, Job.raw, hl]
      omega
    rw [hc, hc]
    dsimp only
    have hbuf : Buf.Astray ⟨.writer, k.size, k.raw file p, [], 0, []⟩ ⟨.writer, k.size, k.raw file p', [], 0, []⟩ :=
      ⟨rfl, _, hr, rfl⟩
    cases hbin : k.task.binary with
    | true => exact hbuf
    | false =>
      have ht : ∀ q, Txt.create (C := S.codec) (k.newline.getD .auto) k.line S.linesep
          ⟨.writer, k.size, k.raw file q, [], 0, []⟩ =
          (.ok (), ⟨⟨.writer, k.size, k.raw file q, [], 0, []⟩, k.newline.getD .auto, k.line, S.linesep, true, true,
            if q = 0 then none else some S.codec.encMid, none, [], 0, none, (0, 0)⟩) := by
        intro q
        by_cases hq : q = 0 <;>
        simp [Txt.create, Txt.configure, Job.raw, hl, PyM.bind_apply, Txt.writable, Txt.onBuf, Buf.tell, Buf.onRaw, Raw.tell,
          Raw.checkClosed, Raw.innerTell, PyM.when, Txt.setEncoder, hq]
      rw [ht, ht]
      refine ⟨_, _, hbuf, ?_, rfl⟩
      dsimp only
      split <;> split <;> simp [hb hbin]

/-- The position of a stream in append mode makes no difference to the call. -/
theorem work_astray (ha : k.task.isAdd = true) (hb : k.task.binary = false → S.codec.encMid = S.codec.encInit)
    {file file₁ : Bytes} {ph ph' ph₁ : Phase S.codec} (h : ph.Astray ph') (hw : k.work S file ph = some (ph₁, file₁)) :
    ∃ ph₁', k.work S file ph' = some (ph₁', file₁) ∧ ph₁.Astray ph₁' := by
  have hl : k.task.isLoad = false := by
    generalize k.task = t at ha
    cases t <;> first | cases ha; done | rfl
  have hst : k.task.isStore = false := by
    generalize k.task = t at ha
    cases t <;> first | cases ha; done | rfl
  cases ph with
  | locked p =>
    cases ph' with
    | locked p' =>
      have hy := layers_astray (S := S) ha hb file p p'
      simp only [work, prepare, hst, Bool.false_eq_true, if_false] at hw ⊢
      generalize k.layers S (k.raw file p) = x at hy hw
      generalize k.layers S (k.raw file p') = x' at hy
      cases x <;> cases x' <;> first
        | cases hy; done
        | skip
      · subst hy; cases hw; exact ⟨_, rfl, rfl⟩
      · cases hw
        refine ⟨_, rfl, hy, rfl, ?_⟩
        intro l; simp [first, hl]
    | _ => cases h
  | inside s todo =>
    cases ph' with
    | inside s' todo' =>
      obtain ⟨h1, rfl, h3⟩ := h
      obtain ⟨k1, k2⟩ := method_blind (S := S) (k := k) h3 _ _ (h1.see file)
      simp only [work] at hw ⊢
      generalize k.method S todo (see s file) = x at k1 k2 hw
      generalize k.method S todo (see s' file) = x' at k1 k2
      obtain ⟨x, t⟩ := x
      obtain ⟨x', t'⟩ := x'
      dsimp only at k1 k2
      subst k1
      cases hw
      refine ⟨_, by dsimp only; rw [k2.data], ?_⟩
      cases todo with
      | closing r => cases x <;> exact (rfl : _ = _)
      | _ => exact ⟨k2, rfl, after_writes h3 x⟩
    | _ => cases h
  | _ => cases hw

end Job

end Verif
