import Verif.Lemmas.TextDoc
import Verif.Props.BufferedLines

/-!
# Text streams: reading after writing
-/

set_option autoImplicit false

namespace Verif.Txt

open Verif.Spec Verif.Props

variable {C : Codec} {nl : Newline} {ls : Text} {Ok : C.Dec × Bool → Prop}

/-- Decoded characters come with a snapshot. -/
structure Snapped (t : Txt C) : Prop where
  seekable : t.seekable = true
  telling : t.telling = true
  chars : t.snapshot = none → t.chars = [] ∧ t.used = 0

/-- The call keeps that. -/
def StaysSnapped (t t' : Txt C) : Prop := Snapped t → Snapped t'

namespace StaysSnapped

theorem pre : Pre (StaysSnapped (C := C)) := ⟨fun _ h => h, fun h1 h2 h => h2 (h1 h)⟩

theorem onBuf {α : Type} (m : PyM Buf α) : Along (StaysSnapped (C := C)) (Txt.onBuf m) := fun _ h => ⟨h.seekable, h.telling, h.chars⟩

/-- Nothing of this is touched. -/
theorem quiet {α : Type} {m : PyM (Txt C) α} (hm : ∀ t, (m t).2.seekable = t.seekable ∧ (m t).2.telling = t.telling ∧
    (m t).2.snapshot = t.snapshot ∧ (m t).2.chars = t.chars ∧ (m t).2.used = t.used) : Along StaysSnapped m := fun t h => by
  obtain ⟨h1, h2, h3, h4, h5⟩ := hm t
  exact ⟨h1.trans h.seekable, h2.trans h.telling, by rw [h3, h4, h5]; exact h.chars⟩

theorem readable : Along (StaysSnapped (C := C)) Txt.readable := quiet fun t => by
  unfold Txt.readable
  split
  · exact ⟨rfl, rfl, rfl, rfl, rfl⟩
  · split <;> exact ⟨rfl, rfl, rfl, rfl, rfl⟩

theorem getDecoder : Along (StaysSnapped (C := C)) Txt.getDecoder := quiet fun _ => ⟨rfl, rfl, rfl, rfl, rfl⟩

theorem resetDecoder : Along (StaysSnapped (C := C)) Txt.resetDecoder := quiet fun _ => ⟨rfl, rfl, rfl, rfl, rfl⟩

theorem decode (i : Option Bytes) (f : Bool) : Along (StaysSnapped (C := C)) (Txt.decode i f) := quiet fun t => by
  unfold Txt.decode
  split
  · exact ⟨rfl, rfl, rfl, rfl, rfl⟩
  · exact ⟨rfl, rfl, rfl, rfl, rfl⟩
  · split <;> exact ⟨rfl, rfl, rfl, rfl, rfl⟩

theorem getChars (n : Option Nat) : Along (StaysSnapped (C := C)) (Txt.getChars n) := fun t h =>
  ⟨h.seekable, h.telling, fun hn => by
    obtain ⟨h1, h2⟩ := h.chars hn
    refine ⟨h1, ?_⟩
    cases n <;> simp [Txt.getChars, h1, h2]⟩

theorem dropSnapshot : Along (StaysSnapped (C := C)) Txt.dropSnapshot := fun t h => by
  change Snapped (if t.snapshot.isSome = true then _ else t)
  split
  · exact ⟨h.seekable, h.telling, fun _ => ⟨rfl, rfl⟩⟩
  · exact h

theorem flush : Along (StaysSnapped (C := C)) Txt.flush :=
  .bind pre (onBuf _) fun _ _ h => ⟨h.seekable, h.seekable, h.chars⟩

theorem checkClosed : Along (StaysSnapped (C := C)) Txt.checkClosed := onBuf _

theorem encode (s : Text) : Along (StaysSnapped (C := C)) (Txt.encode s) := quiet fun t => by
  unfold Txt.encode
  split <;> exact ⟨rfl, rfl, rfl, rfl, rfl⟩

theorem readChunk : Along (StaysSnapped (C := C)) Txt.readChunk := by
  intro t h
  unfold Txt.readChunk
  split
  · exact h
  · rw [PyM.bind_apply]
    have h1 := onBuf (C := C) (Buf.read1 Txt.chunkSize) t h
    generalize Txt.onBuf (Buf.read1 Txt.chunkSize) t = p at *
    obtain ⟨r, t1⟩ := p
    cases r with
    | error e => exact h1
    | ok c =>
      dsimp only
      rw [PyM.bind_apply]
      have h2 := decode (C := C) c (Decidable.decide (c.getD [] = [])) t1 h1
      generalize Txt.decode c (Decidable.decide (c.getD [] = [])) t1 = p at *
      obtain ⟨r, t2⟩ := p
      cases r with
      | error e => exact h2
      | ok s =>
        refine ⟨h2.seekable, h2.telling, fun hn => ?_⟩
        have hn : (if t.telling = true then _ else t2.snapshot) = none := hn
        rw [if_pos h.telling] at hn
        cases hn

theorem checkReadable : Along (StaysSnapped (C := C)) Txt.checkReadable :=
  .bind pre readable fun _ => .ite (.pure pre ()) (.raise pre _)

theorem readLoop (size fuel : Nat) : ∀ r, Along (StaysSnapped (C := C)) (Txt.readLoop size fuel r) := by
  induction fuel with
  | zero => exact fun r => .pure pre r
  | succ fuel ih =>
    intro r
    unfold Txt.readLoop
    exact .ite (.bind pre readChunk fun m => .bind pre (getChars _) fun s => .ite (ih _) (.pure pre _)) (.pure pre _)

theorem readAll : Along (StaysSnapped (C := C)) Txt.readAll :=
  .bind pre (getChars none) fun _ => .bind pre (onBuf _) fun _ => .bind pre (decode _ _) fun _ =>
    .bind pre dropSnapshot fun _ => .pure pre _

theorem read (n : Option Int) : Along (StaysSnapped (C := C)) (Txt.read n) := by
  intro t
  unfold Txt.read
  refine Along.bind pre checkReadable (fun _ => .bind pre getDecoder fun _ => ?_) t
  cases n with
  | none => exact readAll
  | some n => exact .ite readAll (.bind pre (getChars _) fun s => readLoop _ _ s)

theorem moreChars (fuel : Nat) : Along (StaysSnapped (C := C)) (Txt.moreChars fuel) := by
  induction fuel with
  | zero => exact .pure pre ()
  | succ fuel ih => exact .bind pre readChunk fun m => .bind pre (.get pre) fun t => .ite ih (.pure pre ())

theorem rewind (n : Nat) : Along (StaysSnapped (C := C)) (Txt.rewind n) := fun t h => by
  unfold Txt.rewind
  split
  · exact h
  · exact ⟨h.seekable, h.telling, fun hn => by
      obtain ⟨h1, h2⟩ := h.chars hn
      exact ⟨h1, by dsimp only; rw [h2, Nat.zero_sub]⟩⟩

theorem finishLine (size : Int) (l : Text) (n : Nat) : Along (StaysSnapped (C := C)) (Txt.finishLine size l n) :=
  .bind pre (rewind _) fun _ => .pure pre _

theorem readlineLoop (size : Int) (fuel : Nat) : ∀ l, Along (StaysSnapped (C := C)) (Txt.readlineLoop size fuel l) := by
  induction fuel with
  | zero => exact fun r => .pure pre r
  | succ fuel ih =>
    intro l t
    unfold Txt.readlineLoop
    split
    · exact finishLine _ _ _ t
    · split
      · exact finishLine _ _ _ t
      · exact Along.bind pre (moreChars _) (fun _ => .bind pre (.get pre) fun t' =>
          .ite (.bind pre (getChars none) fun s => ih _) fun t h => ⟨h.seekable, h.telling, fun _ => ⟨rfl, rfl⟩⟩) t

theorem readline (n : Int) : Along (StaysSnapped (C := C)) (Txt.readline n) := by
  intro t
  exact Along.bind pre checkClosed (fun _ => .bind pre (getChars none) fun l => .bind pre getDecoder fun _ => readlineLoop _ _ l) t

theorem write (s : Text) : Along (StaysSnapped (C := C)) (Txt.write s) := by
  intro t
  exact Along.bind pre checkClosed (fun _ => .bind pre (encode _) fun b => .bind pre (onBuf _) fun _ => .bind pre (.when pre flush) fun _ =>
    .bind pre dropSnapshot fun _ => .bind pre resetDecoder fun _ => .pure pre _) t

theorem tell (guess : Nat × Nat → Nat → Nat) : Along (StaysSnapped (C := C)) (Txt.tell guess) := by
  intro t
  unfold Txt.tell
  split
  · exact pre.refl _
  · split
    · exact pre.refl _
    · exact Along.bind pre flush (fun _ => .bind pre (onBuf _) fun p t h => h) t

theorem skipChars (c : Cookie) : Along (StaysSnapped (C := C)) (Txt.skipChars c) :=
  .bind pre (onBuf _) fun chunk => .bind pre (decode _ _) fun s t h => by
    by_cases hs : s.length < c.skip
    · have : ((do setChars s; PyM.modify fun t => { t with snapshot := some (c.flags, chunk.getD []) }
                  if s.length < c.skip then PyM.raise (.ioError 0) else PyM.modify fun t => { t with used := c.skip }) : PyM (Txt C) Unit) t =
          (.error (.ioError 0), { t with chars := s, used := 0, snapshot := some (c.flags, chunk.getD []) }) := by
        rw [if_pos hs]; rfl
      rw [this]
      exact ⟨h.seekable, h.telling, nofun⟩
    · have : ((do setChars s; PyM.modify fun t => { t with snapshot := some (c.flags, chunk.getD []) }
                  if s.length < c.skip then PyM.raise (.ioError 0) else PyM.modify fun t => { t with used := c.skip }) : PyM (Txt C) Unit) t =
          (.ok (), { t with chars := s, used := c.skip, snapshot := some (c.flags, chunk.getD []) }) := by
        rw [if_neg hs]; rfl
      rw [this]
      exact ⟨h.seekable, h.telling, nofun⟩

theorem restoreDecoder (c : Cookie) : Along (StaysSnapped (C := C)) (Txt.restoreDecoder c) := fun t h => by
  unfold Txt.restoreDecoder
  split
  · exact resetDecoder t h
  · split
    · exact ⟨h.seekable, h.telling, nofun⟩
    · exact h

theorem resetEncoder (b : Bool) : Along (StaysSnapped (C := C)) (Txt.resetEncoder b) := quiet fun _ => ⟨rfl, rfl, rfl, rfl, rfl⟩

theorem seekTo (c : Cookie) : Along (StaysSnapped (C := C)) (Txt.seekTo c) :=
  .bind pre flush fun _ => .bind pre (onBuf _) fun _ => .bind pre (fun _ h => ⟨h.seekable, h.telling, fun _ => ⟨rfl, rfl⟩⟩) fun _ =>
    .bind pre (restoreDecoder c) fun _ => .bind pre (.when pre (skipChars c)) fun _ => .bind pre (resetEncoder _) fun _ => .pure pre _

theorem seek (guess : Nat × Nat → Nat → Nat) (m : Movement) : Along (StaysSnapped (C := C)) (Txt.seek guess m) := by
  intro t
  refine Along.bind pre checkClosed (fun _ => .ite (.raise pre _) ?_) t
  cases m with
  | relative => exact .raise pre _
  | badWhence => exact .raise pre _
  | to c => cases c with
    | none => exact .raise pre _
    | some c => exact seekTo c
  | here => exact .bind pre (tell guess) fun c => seekTo c
  | toEnd => exact .bind pre flush fun _ => .bind pre (onBuf _) fun p _ h => ⟨h.seekable, h.telling, fun _ => ⟨rfl, rfl⟩⟩

theorem resetBuffers (guess : Nat × Nat → Nat → Nat) : Along (StaysSnapped (C := C)) (Txt.resetBuffers guess) :=
  .bind pre (seek guess .here) fun _ => .pure pre _

theorem step (guess : Nat × Nat → Nat → Nat) {op : Op} (hn : op ≠ .next) (hc : op ≠ .close) {t : Txt C} (h : Snapped t) :
    Snapped (Txt.step guess t op).2 := by
  have of : ∀ {α : Type} (f : α → Out) (p : Except Exn α × Txt C), Snapped p.2 → Snapped (Out.of f p).2 := by
    intro α f p hp
    obtain ⟨r, t'⟩ := p
    cases r <;> exact hp
  cases op with
  | next => exact absurd rfl hn
  | close => exact absurd rfl hc
  | read n => exact of _ _ (read n t h)
  | readline n => exact of _ _ (readline n t h)
  | write s => exact of _ _ (write s t h)
  | flush => exact of _ _ (flush t h)
  | seek m => exact of _ _ (seek guess m t h)
  | tell => exact of _ _ (tell guess t h)
  | truncate a =>
    refine of _ _ (Along.bind pre flush (fun _ => ?_) t h)
    cases a with
    | none => exact .bind pre (tell guess) fun _ => onBuf _
    | some n => exact onBuf _
  | size => exact of _ _ (Along.bind pre flush (fun _ => onBuf _) t h)
  | sync a m f => exact of _ _ (Along.bind pre flush (fun _ => onBuf _) t h)
  | lock o => exact of _ _ (Along.bind pre (resetBuffers guess) (fun _ => onBuf _) t h)
  | unlock => exact of _ _ (Along.bind pre (resetBuffers guess) (fun _ => onBuf _) t h)
  | readinto => exact of _ _ (Along.bind pre checkClosed (fun _ => .raise pre _) t h)

theorem run (guess : Nat × Nat → Nat → Nat) (ops : List Op) : ∀ {t : Txt C}, .next ∉ ops → .close ∉ ops → Snapped t →
    Snapped (Txt.run guess t ops).2 := by
  induction ops with
  | nil => exact fun _ _ h => h
  | cons op ops ih =>
    intro t hn hc h
    exact ih (fun hm => hn (List.mem_cons_of_mem _ hm)) (fun hm => hc (List.mem_cons_of_mem _ hm))
      (step guess (fun he => hn (he ▸ List.mem_cons_self)) (fun he => hc (he ▸ List.mem_cons_self)) h)

end StaysSnapped

/-! ## A write that is not flushed yet -/

theorem flush_clean {b b' : Buf} {f : File} (h : Buf.R b f) (hk : b.kind = .random) (hf : Buf.flush b = (.ok (), b')) :
    Buf.flush b' = (.ok (), b') ∧ b'.kind = .random ∧ Buf.Reads b' f := by
  obtain ⟨b1, h1, h2, h3, h4, _⟩ := Buf.flush_R h
  rw [hf] at h1
  cases h1
  have hk' := h4.trans hk
  refine ⟨?_, hk', h2, h3, by rw [hk']; simp⟩
  unfold Buf.flush
  rw [hk']
  dsimp only
  unfold Buf.flushUnlocked
  rw [PyM.bind_ok (Buf.checkClosed_ok h2.live.opened)]
  have hget : (PyM.get : PyM Buf Buf) b' = (.ok b', b') := rfl
  rw [PyM.bind_ok hget, h3]
  rfl

/-- The stream has written bytes that are still in the buffer `t.buf`; flushing it gives `b`. -/
structure Unflushed (t : Txt C) (b : Buf) (f : File) : Prop where
  rep : Buf.R t.buf f
  kind : t.buf.kind = .random
  flush : Buf.flush t.buf = (.ok (), b)

namespace Unflushed

variable {t : Txt C} {b : Buf} {f : File}

theorem clean (h : Unflushed t b f) : Buf.flush b = (.ok (), b) ∧ b.kind = .random ∧ Buf.Reads b f := flush_clean h.rep h.kind h.flush

theorem read1 (h : Unflushed t b f) (n : Int) : onBuf (Buf.read1 n) t = onBuf (Buf.read1 n) { t with buf := b } := by
  obtain ⟨h1, h2, _⟩ := h.clean
  have : Buf.read1 n t.buf = Buf.read1 n b := by
    unfold Buf.read1
    rw [h.kind, h2]
    dsimp only
    rw [PyM.bind_ok h.flush, PyM.bind_ok h1]
  unfold onBuf
  dsimp only
  rw [this]

theorem read (h : Unflushed t b f) (n : Option Int) : onBuf (Buf.read n) t = onBuf (Buf.read n) { t with buf := b } := by
  obtain ⟨h1, h2, _⟩ := h.clean
  have : Buf.read n t.buf = Buf.read n b := by
    unfold Buf.read
    rw [h.kind, h2]
    dsimp only
    rw [PyM.bind_ok h.flush, PyM.bind_ok h1]
  unfold onBuf
  dsimp only
  rw [this]

theorem flushes (h : Unflushed t b f) : Txt.flush t = Txt.flush { t with buf := b } := by
  unfold Txt.flush
  rw [PyM.bind_ok (onBuf_eq h.flush), PyM.bind_ok (onBuf_eq (t := { t with buf := b }) h.clean.1)]

theorem readChunk (h : Unflushed t b f) (hd : t.decoder.isSome = true) : Txt.readChunk t = Txt.readChunk { t with buf := b } := by
  obtain ⟨d, hd⟩ := Option.isSome_iff_exists.1 hd
  have h1 := h.read1 (chunkSize : Int)
  unfold Txt.readChunk
  obtain ⟨⟩ := t
  dsimp only at hd h1 ⊢
  subst hd
  dsimp only at h1 ⊢
  rw [PyM.bind_apply, PyM.bind_apply, h1]

/-- Nothing but the buffer matters. -/
theorem congr (h : Unflushed t b f) {t' : Txt C} (he : t'.buf = t.buf) : Unflushed t' b f :=
  ⟨he ▸ h.rep, he ▸ h.kind, he ▸ h.flush⟩

theorem checkReadable (h : Unflushed t b f) : Txt.checkReadable t = (.ok (), t) := by
  have hr : Txt.readable t = (.ok true, t) := by
    unfold Txt.readable
    rw [h.kind, h.rep.live.opened, h.rep.live.readable (by rw [h.kind]; simp)]
    rfl
  unfold Txt.checkReadable
  rw [PyM.bind_ok hr]; rfl

theorem checkClosed (h : Unflushed t b f) : Txt.checkClosed t = (.ok (), t) :=
  onBuf_eq (Buf.checkClosed_ok h.rep.live.opened)

theorem fuel (h : Unflushed t b f) : f.rest.length < t.rounds := rest_fuel h.rep

variable {r : Text} {s : Bool}

/-- `read(size)`. -/
theorem read_spec (L : LawfulText C nl Ok) (h : Unflushed t b f) (hr : Reading nl Ok { t with buf := b } f r s) (hc : t.chars = [])
    (n : Option Int) (hn : n ≠ some 0) :
    ∃ t' f', Txt.read n t = (.ok (limit (n.getD (-1)) r), t') ∧
      Reading nl Ok t' f' (r.drop (limit (n.getD (-1)) r).length) s ∧ Onward f f' ∧ t'.telling = t.telling ∧
      t'.decoder.isSome = true := by
  have hu : t.used = 0 := by have := hr.holds.used; dsimp only at this; rw [hc] at this; exact Nat.le_zero.1 this
  have hall : ∀ n : Option Int, n.getD (-1) < 0 → Txt.read n t = Txt.read n { t with buf := b } := by
    intro n hn
    have hg : Txt.getDecoder t = (.ok (), { t with decoder := some t.dec }) := rfl
    have hg' : Txt.getDecoder { t with buf := b } = (.ok (), { t with buf := b, decoder := some t.dec }) := rfl
    have key : Txt.readAll { t with decoder := some t.dec } = Txt.readAll { t with buf := b, decoder := some t.dec } := by
      have k1 : Txt.getChars none { t with decoder := some t.dec } = (.ok (t.chars.drop t.used),
        { t with decoder := some t.dec, used := t.used + (t.chars.drop t.used).length }) := rfl
      have k2 : Txt.getChars none { t with buf := b, decoder := some t.dec } = (.ok (t.chars.drop t.used),
        { t with buf := b, decoder := some t.dec, used := t.used + (t.chars.drop t.used).length }) := rfl
      have h1 : Unflushed { t with decoder := some t.dec, used := t.used + (t.chars.drop t.used).length } b f := h.congr rfl
      unfold Txt.readAll
      rw [PyM.bind_ok k1, PyM.bind_ok k2, PyM.bind_apply, h1.read, PyM.bind_apply]
    unfold Txt.read
    rw [PyM.bind_ok h.checkReadable, PyM.bind_ok hr.holds.checkReadable, PyM.bind_ok hg, PyM.bind_ok hg']
    cases n with
    | none => exact key
    | some n =>
      have hn : n < 0 := hn
      dsimp only
      rw [if_pos hn, if_pos hn]
      exact key
  by_cases hneg : n.getD (-1) < 0
  · rw [hall n hneg]
    exact Txt.read_spec L hr n
  · cases n with
    | none => exact absurd (by decide) hneg
    | some n =>
      have hn : n ≠ 0 := fun he => hn (by rw [he])
      have hneg : ¬ n < 0 := hneg
      have hg : Txt.getDecoder t = (.ok (), { t with decoder := some t.dec }) := rfl
      have k1 : Txt.getChars (some n.toNat) { t with decoder := some t.dec } = (.ok [], { t with decoder := some t.dec, used := 0 }) := by
        unfold Txt.getChars
        dsimp only
        rw [hc, hu]
        simp
      have h1 : Unflushed { t with decoder := some t.dec, used := 0 } b f := h.congr rfl
      have hr1 : Reading nl Ok { t with buf := b, decoder := some t.dec, used := 0 } f r s := by
        have := hr.getDecoder
        dsimp only at this
        rw [← hu]
        exact this
      have hlim : limit n r = r.take n.toNat := by unfold limit; rw [if_neg hneg]
      have hrd : Txt.read (some n) t = Txt.readLoop n.toNat t.rounds [] { t with buf := b, decoder := some t.dec, used := 0 } := by
        unfold Txt.read
        rw [PyM.bind_ok h.checkReadable, PyM.bind_ok hg]
        dsimp only
        rw [if_neg hneg, PyM.bind_ok k1]
        have : t.rounds = t.buf.raw.data.length + t.buf.readBuf.length + 1 := rfl
        rw [this]
        unfold Txt.readLoop
        rw [if_pos (by simp only [List.length_nil]; omega)]
        rw [PyM.bind_apply, PyM.bind_apply, h1.readChunk rfl]
      obtain ⟨t', f', e1, e2, e3, e4, e5⟩ := Txt.readLoop_spec L n.toNat t.rounds _ f r [] s hr1 rfl (Nat.zero_le _)
        (fun _ => by dsimp only; rw [hc]; rfl) h.fuel
      refine ⟨t', f', ?_, ?_, e3, e4, e5⟩
      · rw [hrd, e1]; dsimp only [Option.getD_some]; rw [hlim]; simp
      · dsimp only [Option.getD_some]; rw [hlim, drop_take]; simpa using e2

theorem moreChars_fuel (L : LawfulText C nl Ok) (k : Nat) : ∀ (k' : Nat) (t : Txt C) (f : File) (r : Text) (s : Bool),
    Reading nl Ok t f r s → t.decoder.isSome = true → t.chars.drop t.used = [] → f.rest.length < k → f.rest.length < k' →
    Txt.moreChars k t = Txt.moreChars k' t := by
  induction k with
  | zero => intro _ _ _ _ _ _ _ _ h; omega
  | succ k ih =>
    intro k' t f r s h hd hc hk hk'
    cases k' with
    | zero => omega
    | succ k' =>
      obtain ⟨more, t1, f1, g1, g2, g3, g4, g5, g6, g7, g8, g9⟩ := readChunk_spec L h.holds hd hc
      have hr1 : Reading nl Ok t1 f1 r s := ⟨g2, fun ht => (g9 (g8 ▸ ht)).weaken s⟩
      unfold Txt.moreChars
      rw [PyM.bind_ok g1, PyM.bind_ok g1]
      have hget : (PyM.get : PyM (Txt C) (Txt C)) t1 = (.ok t1, t1) := rfl
      rw [PyM.bind_ok hget, PyM.bind_ok hget]
      by_cases hm : (more && decide (t1.chars = [])) = true
      · rw [if_pos hm, if_pos hm]
        have hmore : more = true := (Bool.and_eq_true _ _ ▸ hm).1
        have hch : t1.chars = [] := of_decide_eq_true (Bool.and_eq_true _ _ ▸ hm).2
        have := g6 hmore
        exact ih k' t1 f1 r s hr1 g4 (by rw [hch]; exact List.drop_nil) (by omega) (by omega)
      · rw [if_neg hm, if_neg hm]

/-- `readline(size)`. -/
theorem readline_spec (L : LawfulText C nl Ok) (h : Unflushed t b f) (hr : Reading nl Ok { t with buf := b } f r s) (hc : t.chars = [])
    (size : Int) (hn : size ≠ 0) :
    ∃ t' f', Txt.readline size t = (.ok (limit size (firstLine nl r)), t') ∧
      Reading nl Ok t' f' (r.drop (limit size (firstLine nl r)).length) s ∧ Onward f f' ∧ t'.telling = t.telling ∧
      t'.decoder.isSome = true ∧ (size < 0 → r = [] → t'.chars = [] ∧ AtEnd nl t' f') := by
  have hu : t.used = 0 := by have := hr.holds.used; dsimp only at this; rw [hc] at this; exact Nat.le_zero.1 this
  have k1 : Txt.getChars none t = (.ok [], t) := by
    unfold Txt.getChars
    dsimp only
    rw [hc, hu]
    obtain ⟨⟩ := t
    simp_all
  have hg : Txt.getDecoder t = (.ok (), { t with decoder := some t.dec }) := rfl
  have h1 : Unflushed { t with decoder := some t.dec } b f := h.congr rfl
  have hr1 : Reading nl Ok { t with buf := b, decoder := some t.dec } f r s := hr.getDecoder
  have hnl : t.newline = nl := hr.holds.newline
  have hrl : Txt.readline size t = Txt.readlineLoop size (t.rounds + 1) [] { t with buf := b, decoder := some t.dec } := by
    unfold Txt.readline
    rw [PyM.bind_ok h.checkClosed, PyM.bind_ok k1, PyM.bind_ok hg]
    have hle : lineEnd t.newline [] = none := lineEnd_nil _
    have hs : ¬ (0 ≤ size ∧ size ≤ ([] : Text).length) := by simp only [List.length_nil]; omega
    unfold Txt.readlineLoop
    dsimp only
    rw [hle]
    dsimp only
    rw [if_neg hs, if_neg hs]
    have hmore : Txt.moreChars (Txt.rounds { t with decoder := some t.dec }) { t with decoder := some t.dec } =
        Txt.moreChars (Txt.rounds { t with buf := b, decoder := some t.dec }) { t with buf := b, decoder := some t.dec } := by
      rw [moreChars_fuel L _ (Txt.rounds { t with decoder := some t.dec }) _ f r s hr1 rfl (by dsimp only; rw [hc]; exact List.drop_nil) hr1.holds.rounds h1.fuel]
      have : (Txt.rounds { t with decoder := some t.dec }) = t.buf.raw.data.length + t.buf.readBuf.length + 1 := rfl
      rw [this]
      unfold Txt.moreChars
      rw [PyM.bind_apply, PyM.bind_apply, h1.readChunk rfl]
    rw [PyM.bind_apply, PyM.bind_apply, hmore]
  obtain ⟨t', f', e1, e2, e3, e4, e5, e6⟩ := readlineLoop_spec L size (t.rounds + 1) _ f r [] [] [] s hr1 rfl
    (by dsimp only; rw [hc, hu]; rfl) rfl (List.nil_suffix) (fun h => absurd rfl h) (lineEnd_nil nl) (fun h => by simpa using h)
    (.inl (by have := h.fuel; omega))
  rw [List.nil_append] at e1 e2 e6
  exact ⟨t', f', by rw [hrl, e1], e2, e3, e4, e5, fun h1 h2 => e6 h1 (by rw [h2]; rfl)⟩

/-- `next(stream)`. -/
theorem next_spec (L : LawfulText C nl Ok) (h : Unflushed t b f) (hr : Reading nl Ok { t with buf := b } f r s) (hc : t.chars = []) :
    ∃ t' f', Txt.next t = (.ok (firstLine nl r), t') ∧ Reading nl Ok t' f' (r.drop (firstLine nl r).length) s ∧
      Onward f f' ∧ t'.telling = decide (r = []) ∧ t'.decoder.isSome = true := by
  have h0 : Reading nl Ok { t with buf := b, telling := false } f r s := by
    obtain ⟨⟨h1, h2, h3, h4, h5, h6, h7, h8, h9⟩, hs⟩ := hr
    exact ⟨⟨h1, h2, h3, h4, h5, h6, h7, h8, h9⟩, fun ht => by cases ht⟩
  obtain ⟨t1, f1, e1, e2, e3, e4, e5, e6⟩ := readline_spec (t := { t with telling := false }) L (h.congr rfl) h0 hc (-1) (by decide)
  have hlim : limit (-1) (firstLine nl r) = firstLine nl r := rfl
  rw [hlim] at e1 e2
  have hm : (PyM.modify fun t => { t with telling := false } : PyM (Txt C) Unit) t = (.ok (), { t with telling := false }) := rfl
  unfold Txt.next
  rw [PyM.bind_ok hm, PyM.bind_ok e1]
  by_cases hr : r = []
  · obtain ⟨q1, q2⟩ := e6 (by omega) hr
    have hfl : firstLine nl r = [] := by rw [hr]; rfl
    rw [hfl] at e2 ⊢
    have hw : (PyM.when (decide (([] : Text) = [])) (PyM.modify fun t => { t with snapshot := none, telling := t.seekable }) :
        PyM (Txt C) Unit) t1 = (.ok (), { t1 with snapshot := none, telling := t1.seekable }) := rfl
    rw [PyM.bind_ok hw]
    refine ⟨{ t1 with snapshot := none, telling := t1.seekable }, f1, rfl, ?_, e3, ?_, e5⟩
    · obtain ⟨⟨h1, h2, h3, h4, h5, h6, h7, h8, h9⟩, hs⟩ := e2
      exact ⟨⟨h1, h2, h3, h4, h5, h6, h7, h8, h9⟩, fun ht => .none rfl q1 (.inl q2)⟩
    · rw [decide_eq_true hr]; exact e2.holds.seekable
  · have hfl := firstLine_ne_nil (nl := nl) hr
    have hw : (PyM.when (decide (firstLine nl r = [])) (PyM.modify fun t => { t with snapshot := none, telling := t.seekable }) :
        PyM (Txt C) Unit) t1 = (.ok (), t1) := by
      rw [decide_eq_false hfl]; rfl
    rw [PyM.bind_ok hw]
    exact ⟨t1, f1, rfl, e2, e3, by rw [decide_eq_false hr]; exact e4, e5⟩

end Unflushed

/-- The stream stands at `x`; bytes that it wrote may still be in the buffer. -/
structure Resumes (nl : Newline) (Ok : C.Dec × Bool → Prop) (t : Txt C) (x : TextFile) : Prop where
  reading : ∃ b f, Unflushed t b f ∧ Reading nl Ok { t with buf := b } f x.rest x.sought ∧ f.data = x.data ∧ f.log = x.log
  chars : t.chars = []
  telling : t.telling = true
  iterating : x.iterating = false
  marks : ∀ m ∈ x.marks, Denotes nl Ok x.data m.1 m.2
  early : t.decoder = none → ∀ m ∈ x.marks, Early C nl x.data m.1

theorem Resumes.keep {t t' : Txt C} {x : TextFile} (h : Resumes nl Ok t x) {f' : File} {r : Text} (hr : Reading nl Ok t' f' r x.sought)
    (hd : f'.data = x.data) (hl : f'.log = x.log) {i : Bool} (hi : t'.telling = !i) (hn : t'.decoder = none → t.decoder = none) :
    Stands nl Ok t' { x with rest := r, iterating := i } :=
  ⟨⟨f', hr, hd, hl⟩, hi, h.marks, fun h' => h.early (hn h')⟩

/-- One call. -/
theorem Resumes.step (L : LawfulText C nl Ok) {guess : Nat × Nat → Nat → Nat} (hg : Moderate guess) {t : Txt C} {x : TextFile}
    (h : Resumes nl Ok t x) (op : Op) (hop : TextCall x op) :
    ∃ x', TextAllowed nl x op (Txt.step guess t op).1 x' ∧
      (Stands nl Ok (Txt.step guess t op).2 x' ∨ Resumes nl Ok (Txt.step guess t op).2 x') := by
  obtain ⟨b, f, hu, hr, hd, hl⟩ := h.reading
  have hst : Stands nl Ok { t with buf := b } x := ⟨⟨f, hr, hd, hl⟩, by rw [h.iterating]; exact h.telling, h.marks, h.early⟩
  -- calls that flush first
  have same : Txt.step guess t op = Txt.step guess { t with buf := b } op → ∃ x', TextAllowed nl x op (Txt.step guess t op).1 x' ∧
      (Stands nl Ok (Txt.step guess t op).2 x' ∨ Resumes nl Ok (Txt.step guess t op).2 x') := fun he => by
    obtain ⟨x', h1, h2⟩ := step_spec L hg hst op hop
    rw [he]
    exact ⟨x', h1, .inl h2⟩
  have hse : t.seekable = true := hr.holds.seekable
  have htell : Txt.tell guess t = Txt.tell guess { t with buf := b } := by
    unfold Txt.tell
    simp only [hse, h.telling]
    rw [PyM.bind_apply, PyM.bind_apply, hu.flushes]
    simp [hse, h.telling]
  have hto : ∀ c, Txt.seekTo c t = Txt.seekTo c { t with buf := b } := fun c => by
    unfold Txt.seekTo
    rw [PyM.bind_apply, PyM.bind_apply, hu.flushes]
  have hseek : ∀ m : Movement, (m = .here ∨ m = .toEnd ∨ ∃ c, m = .to (some c)) → Txt.seek guess m t = Txt.seek guess m { t with buf := b } := by
    intro m hm
    unfold Txt.seek
    rw [PyM.bind_ok hu.checkClosed, PyM.bind_ok hr.holds.checkClosed]
    dsimp only
    rw [if_neg (by simp [hse])]
    rcases hm with rfl | rfl | ⟨c, rfl⟩
    · dsimp only
      rw [PyM.bind_apply, PyM.bind_apply, htell]
    · dsimp only
      rw [PyM.bind_apply, PyM.bind_apply, hu.flushes]
    · exact hto c
  have hreset : Txt.resetBuffers guess t = Txt.resetBuffers guess { t with buf := b } := by
    unfold Txt.resetBuffers
    rw [PyM.bind_apply, PyM.bind_apply, hseek .here (.inl rfl)]
  cases op with
  | read n =>
    by_cases hn : n = some 0
    · subst hn
      have hused : t.used = 0 := by have := hr.holds.used; dsimp only at this; rw [h.chars] at this; exact Nat.le_zero.1 this
      have hrd : Txt.read (some 0) t = (.ok [], { t with decoder := some t.dec }) := by
        have hgd : Txt.getDecoder t = (.ok (), { t with decoder := some t.dec }) := rfl
        unfold Txt.read
        rw [PyM.bind_ok hu.checkReadable, PyM.bind_ok hgd]
        dsimp only
        rw [if_neg (by decide)]
        have k1 : Txt.getChars (some (0 : Int).toNat) { t with decoder := some t.dec } = (.ok [], { t with decoder := some t.dec }) := rfl
        rw [PyM.bind_ok k1]
        rfl
      have hres : Resumes nl Ok { t with decoder := some t.dec } x :=
        ⟨⟨b, f, hu.congr rfl, hr.getDecoder, hd, hl⟩, h.chars, h.telling, h.iterating, h.marks, nofun⟩
      refine ⟨x, ⟨?_, ?_⟩, .inr ?_⟩
      · simp only [Txt.step, hrd, Out.of]; rfl
      · cases x; rfl
      · simp only [Txt.step, hrd, Out.of]; exact hres
    · obtain ⟨t', f', e1, e2, e3, e4, e5⟩ := hu.read_spec L hr h.chars n hn
      refine ⟨_, ⟨?_, rfl⟩, .inl ?_⟩
      · simp only [Txt.step, e1, Out.of]
      · simp only [Txt.step, e1, Out.of]
        exact h.keep e2 (e3.data.trans hd) (e3.log.trans hl) (e4.trans (by rw [h.telling, h.iterating]; rfl)) (fun hn => by rw [hn] at e5; cases e5)
  | readline n =>
    by_cases hn : n = 0
    · subst hn
      have hused : t.used = 0 := by have := hr.holds.used; dsimp only at this; rw [h.chars] at this; exact Nat.le_zero.1 this
      have hrd : Txt.readline 0 t = (.ok [], { t with decoder := some t.dec }) := by
        have hgd : Txt.getDecoder t = (.ok (), { t with decoder := some t.dec }) := rfl
        have k1 : Txt.getChars none t = (.ok [], t) := by
          unfold Txt.getChars
          dsimp only
          rw [h.chars, hused]
          have := h.chars
          obtain ⟨⟩ := t
          simp_all
        unfold Txt.readline
        rw [PyM.bind_ok hu.checkClosed, PyM.bind_ok k1, PyM.bind_ok hgd]
        unfold Txt.readlineLoop
        have hle : lineEnd t.newline [] = none := lineEnd_nil _
        dsimp only
        rw [hle]
        rfl
      have hres : Resumes nl Ok { t with decoder := some t.dec } x :=
        ⟨⟨b, f, hu.congr rfl, hr.getDecoder, hd, hl⟩, h.chars, h.telling, h.iterating, h.marks, nofun⟩
      refine ⟨x, ⟨?_, ?_⟩, .inr ?_⟩
      · simp only [Txt.step, hrd, Out.of]; rfl
      · cases x; rfl
      · simp only [Txt.step, hrd, Out.of]; exact hres
    · obtain ⟨t', f', e1, e2, e3, e4, e5, _⟩ := hu.readline_spec L hr h.chars n hn
      refine ⟨_, ⟨?_, rfl⟩, .inl ?_⟩
      · simp only [Txt.step, e1, Out.of]
      · simp only [Txt.step, e1, Out.of]
        exact h.keep e2 (e3.data.trans hd) (e3.log.trans hl) (e4.trans (by rw [h.telling, h.iterating]; rfl)) (fun hn => by rw [hn] at e5; cases e5)
  | next =>
    obtain ⟨t', f', e1, e2, e3, e4, e5⟩ := hu.next_spec L hr h.chars
    refine ⟨_, ⟨?_, rfl⟩, .inl ?_⟩
    · simp only [Txt.step, e1, Out.of]
    · simp only [Txt.step, e1, Out.of]
      exact h.keep e2 (e3.data.trans hd) (e3.log.trans hl) (by rw [e4]; simp) (fun hn => by rw [hn] at e5; cases e5)
  | write s => exact hop.elim
  | flush => exact same (by simp only [Txt.step, hu.flushes])
  | tell => exact same (by simp only [Txt.step, htell])
  | seek mv =>
    cases mv with
    | to c =>
      cases c with
      | none =>
        have : Txt.seek guess (.to none) t = (.error .valueError, t) := by
          unfold Txt.seek; rw [PyM.bind_ok hu.checkClosed, hse]; rfl
        refine ⟨x, ⟨?_, rfl⟩, .inr ?_⟩
        · simp only [Txt.step, this, Out.of]
        · simp only [Txt.step, this, Out.of]; exact h
      | some c => exact same (by simp only [Txt.step, hseek _ (.inr (.inr ⟨c, rfl⟩))])
    | here => exact same (by simp only [Txt.step, hseek _ (.inl rfl)])
    | toEnd => exact same (by simp only [Txt.step, hseek _ (.inr (.inl rfl))])
    | relative =>
      have : Txt.seek guess .relative t = (.error .unsupported, t) := by
        unfold Txt.seek; rw [PyM.bind_ok hu.checkClosed, hse]; rfl
      refine ⟨x, ⟨?_, rfl⟩, .inr ?_⟩
      · simp only [Txt.step, this, Out.of]
      · simp only [Txt.step, this, Out.of]; exact h
    | badWhence =>
      have : Txt.seek guess .badWhence t = (.error .valueError, t) := by
        unfold Txt.seek; rw [PyM.bind_ok hu.checkClosed, hse]; rfl
      refine ⟨x, ⟨?_, rfl⟩, .inr ?_⟩
      · simp only [Txt.step, this, Out.of]
      · simp only [Txt.step, this, Out.of]; exact h
  | truncate a => exact hop.elim
  | size => exact same (by
      have : Txt.size t = Txt.size { t with buf := b } := by
        unfold Txt.size; rw [PyM.bind_apply, PyM.bind_apply, hu.flushes]
      simp only [Txt.step, this])
  | sync a m fl => exact hop.elim
  | lock others => exact same (by
      have : Txt.lockFile guess others t = Txt.lockFile guess others { t with buf := b } := by
        unfold Txt.lockFile; rw [PyM.bind_apply, PyM.bind_apply, hreset]
      simp only [Txt.step, this])
  | unlock => exact same (by
      have : Txt.unlockFile guess t = Txt.unlockFile guess { t with buf := b } := by
        unfold Txt.unlockFile; rw [PyM.bind_apply, PyM.bind_apply, hreset]
      simp only [Txt.step, this])
  | readinto =>
    have : Txt.readinto t = (.error .badValueType, t) := by
      unfold Txt.readinto; rw [PyM.bind_ok hu.checkClosed]; rfl
    refine ⟨x, ⟨?_, rfl⟩, .inr ?_⟩
    · simp only [Txt.step, this, Out.of]
    · simp only [Txt.step, this, Out.of]; exact h
  | close => exact hop.elim

/-- Histories. -/
theorem Resumes.run (L : LawfulText C nl Ok) {guess : Nat × Nat → Nat → Nat} (hg : Moderate guess) (ops : List Op) :
    ∀ (t : Txt C) (x : TextFile), Stands nl Ok t x ∨ Resumes nl Ok t x →
    ∃ pre post x', ops = pre ++ post ∧ TextConforms nl x (pre.zip (Txt.run guess t pre).1) x' ∧
      (post = [] ∨ ∃ op rest, post = op :: rest ∧ ¬ TextCall x' op) := by
  induction ops with
  | nil => intro t x h; exact ⟨[], [], x, rfl, .nil x, .inl rfl⟩
  | cons op ops ih =>
    intro t x h
    by_cases hop : TextCall x op
    · have hone : ∃ x', TextAllowed nl x op (Txt.step guess t op).1 x' ∧
          (Stands nl Ok (Txt.step guess t op).2 x' ∨ Resumes nl Ok (Txt.step guess t op).2 x') := by
        rcases h with h | h
        · obtain ⟨x', h1, h2⟩ := step_spec L hg h op hop
          exact ⟨x', h1, .inl h2⟩
        · exact h.step L hg op hop
      obtain ⟨x1, h1, h2⟩ := hone
      obtain ⟨pre, post, x', e1, e2, e3⟩ := ih _ _ h2
      exact ⟨op :: pre, post, x', by rw [e1]; rfl, .cons h1 e2, e3⟩
    · exact ⟨[], op :: ops, x, rfl, .nil x, .inr ⟨op, ops, rfl, hop⟩⟩

end Verif.Txt
