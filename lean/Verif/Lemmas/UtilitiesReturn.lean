import Verif.Lemmas.Utilities

/-!
# The utility functions return, if the system calls succeed
-/

set_option autoImplicit false

namespace Verif.Props

open Verif Verif.Spec Host OpenArgs

/-- The call succeeds in all states of `I`, and leads to such a state. -/
def Succeeds {σ α : Type} (I : σ → Prop) (m : PyM σ α) : Prop := ∀ s, I s → ∃ x s', m s = (.ok x, s') ∧ I s'

namespace Succeeds

variable {σ α β : Type} {I : σ → Prop}

theorem bind {m : PyM σ α} {f : α → PyM σ β} (hm : Succeeds I m) (hf : ∀ x, Succeeds I (f x)) : Succeeds I (m >>= f) := by
  intro s hs
  obtain ⟨x, s1, h1, h2⟩ := hm s hs
  obtain ⟨y, s2, h3, h4⟩ := hf x s1 h2
  exact ⟨y, s2, by rw [PyM.bind_ok h1, h3], h4⟩

theorem pure (x : α) : Succeeds I (Pure.pure x : PyM σ α) := fun s hs => ⟨x, s, rfl, hs⟩

theorem when {c : Bool} {m : PyM σ Unit} (hm : Succeeds I m) : Succeeds I (PyM.when c m) := by
  cases c
  · exact pure ()
  · intro s hs
    obtain ⟨x, s', h1, h2⟩ := hm s hs
    exact ⟨(), s', by simp [PyM.when, h1], h2⟩

end Succeeds

theorem when_run {σ α : Type} {m : PyM σ α} {s s' : σ} {x : α} (h : m s = (.ok x, s')) :
    PyM.when true m s = (.ok (), s') := by simp [PyM.when, h]

/-! ## Buffered streams -/

/-- A raw stream for writing; system calls succeed. -/
structure FitRaw (s : Raw) : Prop where
  opened : s.closed = false
  writable : s.writable = true
  unix : s.platform = .unix
  blocking : Blocking s.sched

/-- A buffered writer; system calls succeed. -/
structure FitBuf (b : Buf) : Prop where
  kind : b.kind = .writer
  raw : FitRaw b.raw

theorem FitBuf.flushUnlocked : Succeeds FitBuf Buf.flushUnlocked := by
  intro b h
  obtain ⟨r, b', j, h1, h2⟩ := Buf.flushUnlocked_spec h.raw.opened h.raw.writable h.raw.unix
  obtain ⟨rfl, hb⟩ := h2.blocking h.raw.blocking
  exact ⟨(), b', h1, h2.frame.kind.trans h.kind, h2.frame.raw.closed.trans h.raw.opened,
    h2.frame.raw.writable.trans h.raw.writable, h2.frame.raw.platform.trans h.raw.unix, hb⟩

theorem FitBuf.flush : Succeeds FitBuf Buf.flush := by
  intro b h
  have e : Buf.flush b = Buf.flushUnlocked b := by unfold Buf.flush; rw [h.kind]
  rw [e]
  exact FitBuf.flushUnlocked b h

theorem FitBuf.write (d : Bytes) : Succeeds FitBuf (Buf.write d) := by
  have hcheck : Succeeds FitBuf Buf.checkClosed := fun b h => ⟨(), b, Buf.checkClosed_ok h.raw.opened, h⟩
  have hpre : Succeeds FitBuf Buf.preFlush := by
    intro b h
    unfold Buf.preFlush
    split
    · exact FitBuf.flushUnlocked b h
    · exact ⟨(), b, rfl, h⟩
  have hover : Succeeds FitBuf (Buf.overflowFlush d.length) := by
    intro b h
    unfold Buf.overflowFlush
    split
    · obtain ⟨u, b', h1, h2⟩ := FitBuf.flushUnlocked b h
      rw [h1]
      exact ⟨_, _, rfl, h2⟩
    · exact ⟨_, b, rfl, h⟩
  have hmod : Succeeds FitBuf (PyM.modify fun b : Buf => { b with writeBuf := b.writeBuf ++ d }) :=
    fun b h => ⟨(), _, rfl, h.kind, h.raw⟩
  have hall : Succeeds FitBuf (Buf.writerWrite d) := hcheck.bind fun _ => hpre.bind fun _ => hmod.bind fun _ => hover
  intro b h
  have e : Buf.write d b = Buf.writerWrite d b := by unfold Buf.write; rw [h.kind]
  rw [e]
  exact hall b h

theorem FitRaw.write (d : Bytes) : Succeeds FitRaw (Raw.write d) := by
  intro s h
  by_cases hd : d = []
  · subst hd
    rw [Raw.write_unix [] h.opened h.writable h.unix]
    unfold Raw.osWrite Raw.nextAns
    cases hs : s.sched with
    | nil => exact ⟨_, _, rfl, h.opened, h.writable, h.unix, h.blocking⟩
    | cons a rest =>
      have hb := h.blocking
      rw [hs] at hb
      obtain ⟨j, rfl, _⟩ := hb a (by simp)
      exact ⟨_, _, rfl, h.opened, h.writable, h.unix, fun a ha => hb a (List.mem_cons_of_mem _ ha)⟩
  have hfix := Fixed.steps.write d s
  rcases Raw.write_cases h.opened h.writable h.unix hd with ⟨k, s', _, _, h1, _, _, _, _, _, h2, _⟩ |
    ⟨r, s', _, _, _, _, _, _, h2, _⟩
  · rw [h1] at hfix
    exact ⟨_, s', h1, hfix.closed.trans h.opened, hfix.writable.trans h.writable, hfix.platform.trans h.unix, h2 h.blocking⟩
  · exact absurd h.blocking h2

theorem FitRaw.sync (fd m f : Bool) : Succeeds FitRaw (Raw.sync fd m f) := by
  have hos : ∀ k, Succeeds FitRaw (Raw.osFlush k) := by
    intro k s h
    unfold Raw.osFlush Raw.nextAns
    cases hs : s.sched with
    | nil => exact ⟨(), _, rfl, h.opened, h.writable, h.unix, h.blocking⟩
    | cons a rest =>
      have hb := h.blocking
      rw [hs] at hb
      obtain ⟨j, rfl, _⟩ := hb a (by simp)
      exact ⟨(), _, rfl, h.opened, h.writable, h.unix, fun a ha => hb a (List.mem_cons_of_mem _ ha)⟩
  have hor : ∀ {m m' : PyM Raw Unit}, Succeeds FitRaw m → Succeeds FitRaw (Raw.orElse m m') := by
    intro m m' hm s h
    obtain ⟨x, s', h1, h2⟩ := hm s h
    exact ⟨x, s', by unfold Raw.orElse; rw [h1], h2⟩
  have hcheck : Succeeds FitRaw Raw.checkClosed := fun s h => ⟨(), s, Raw.checkClosed_ok h.opened, h⟩
  refine hcheck.bind fun _ s h => ?_
  unfold Raw.innerSync
  rw [h.unix]
  dsimp only
  cases f
  · rw [if_neg (by simp)]
    split
    · exact hor (hos _) s h
    · exact hos _ s h
  · rw [if_pos rfl]
    exact hor (hos _) s h

theorem FitBuf.onRaw {α : Type} {m : PyM Raw α} (h : Succeeds FitRaw m) : Succeeds FitBuf (Buf.onRaw m) := by
  intro b hb
  obtain ⟨x, s', h1, h2⟩ := h b.raw hb.raw
  exact ⟨x, { b with raw := s' }, by unfold Buf.onRaw; rw [h1], hb.kind, h2⟩

theorem FitBuf.sync (fd m f : Bool) : Succeeds FitBuf (Buf.sync fd m f) :=
  FitBuf.flush.bind fun _ => FitBuf.onRaw (FitRaw.sync fd m f)

theorem FitRaw.close {s : Raw} : ∃ s', Raw.close s = (.ok (), s') := by
  unfold Raw.close
  split <;> exact ⟨_, rfl⟩

theorem FitBuf.close {b : Buf} (h : FitBuf b) : ∃ b', Buf.close b = (.ok (), b') := by
  obtain ⟨u, b1, h1, h2⟩ := FitBuf.flush b h
  obtain ⟨s', h3⟩ := FitRaw.close (s := b1.raw)
  refine ⟨{ b1 with raw := s' }, ?_⟩
  unfold Buf.close
  rw [if_neg (by rw [h.raw.opened]; simp), PyM.tryFinally_apply, h1]
  dsimp only
  unfold Buf.onRaw
  rw [h3]

/-! ## Text streams -/

/-- A text stream over a buffered writer; system calls succeed. -/
def FitTxt {C : Codec} (t : Txt C) : Prop := FitBuf t.buf

theorem FitTxt.onBuf {C : Codec} {α : Type} {m : PyM Buf α} (h : Succeeds FitBuf m) :
    Succeeds (FitTxt (C := C)) (Txt.onBuf m) := by
  intro t ht
  obtain ⟨x, b', h1, h2⟩ := h t.buf ht
  exact ⟨x, { t with buf := b' }, by unfold Txt.onBuf; rw [h1], h2⟩

theorem FitTxt.flush {C : Codec} : Succeeds (FitTxt (C := C)) Txt.flush :=
  (FitTxt.onBuf FitBuf.flush).bind fun _ t h => ⟨(), _, rfl, h⟩

theorem FitTxt.sync {C : Codec} (fd m f : Bool) : Succeeds (FitTxt (C := C)) (Txt.sync fd m f) :=
  FitTxt.flush.bind fun _ => FitTxt.onBuf (FitBuf.sync fd m f)

theorem FitTxt.close {C : Codec} {t : Txt C} (h : FitTxt t) : ∃ t', Txt.close t = (.ok (), t') := by
  obtain ⟨u, t1, h1, h2⟩ := FitTxt.flush t h
  obtain ⟨b', h3⟩ := FitBuf.close h2
  refine ⟨{ t1 with buf := b' }, ?_⟩
  unfold Txt.close
  rw [if_neg (by rw [h.raw.opened]; simp), PyM.tryFinally_apply, h1]
  dsimp only
  unfold Txt.onBuf
  rw [h3]

theorem FitTxt.write {C : Codec} {t : Txt C} (h : FitTxt t) (x : Text) {y : Bytes × C.Enc}
    (he : C.encode (t.encoder.getD C.encInit) (t.newlines x) = .ok y) : ∃ n t', Txt.write x t = (.ok n, t') ∧ FitTxt t' := by
  unfold Txt.write
  have h1 : Txt.checkClosed t = (.ok (), t) := by
    unfold Txt.checkClosed Txt.onBuf
    rw [Buf.checkClosed_ok h.raw.opened]
  have h2 : Txt.encode (t.newlines x) t = (.ok y.1, { t with encoder := some y.2 }) := by
    unfold Txt.encode
    rw [he]
  rw [PyM.bind_ok h1, PyM.bind_ok h2]
  have hdrop : Succeeds (FitTxt (C := C)) Txt.dropSnapshot := by
    intro t ht
    refine ⟨(), _, rfl, ?_⟩
    dsimp only
    split
    · exact ht
    · exact ht
  have hreset : Succeeds (FitTxt (C := C)) Txt.resetDecoder := by
    intro t ht
    refine ⟨(), _, rfl, ?_⟩
    exact ht
  exact ((FitTxt.onBuf (FitBuf.write _)).bind fun _ => (FitTxt.flush.when).bind fun _ => hdrop.bind fun _ =>
    hreset.bind fun _ => Succeeds.pure _) { t with encoder := some y.2 } h

/-! ## The body -/

/-- A stream to which the data can be written; system calls succeed. -/
def Fit {C : Codec} : AnyStream C → Chunk → Prop
  | .raw s, .bytes _ => FitRaw s
  | .buf b, .bytes _ => FitBuf b
  | .txt t, .text x => FitTxt t ∧ ∃ y, C.encode (t.encoder.getD C.encInit) (t.newlines x) = .ok y
  | _, _ => False

theorem Fit.done {C : Codec} {s : AnyStream C} {data : Chunk} (h : Fit s data) (fd sync : Bool) :
    (PyM.tryFinally (Site.writeBody fd data sync) AnyStream.close s).1 = .ok () := by
  suffices hs : ∃ s1, Site.writeBody fd data sync s = (.ok (), s1) ∧ ∃ s2, AnyStream.close s1 = (.ok (), s2) by
    obtain ⟨s1, h1, s2, h2⟩ := hs
    rw [PyM.tryFinally_apply, h1]
    dsimp only
    rw [h2]
  cases s with
  | raw s =>
    cases data with
    | text x => exact h.elim
    | bytes d =>
      obtain ⟨n, s1, h1, h2⟩ := FitRaw.write d s h
      obtain ⟨_, s2, h3, h4⟩ := (Succeeds.when (c := sync) (FitRaw.sync fd true true)) s1 h2
      obtain ⟨s3, h5⟩ := FitRaw.close (s := s2)
      refine ⟨.raw s2, ?_, .raw s3, ?_⟩
      · have e1 : AnyStream.write (.bytes d) (.raw s : AnyStream C) = (.ok (), .raw s1) := by
          unfold AnyStream.write AnyStream.call
          dsimp only
          rw [PyM.bind_ok h1]
          rfl
        have e2 : AnyStream.flush (.raw s1 : AnyStream C) = (.ok (), .raw s1) := by
          unfold AnyStream.flush AnyStream.call
          dsimp only
          rw [show Raw.flush s1 = (.ok (), s1) from Raw.checkClosed_ok h2.opened]
        unfold Site.writeBody
        rw [PyM.bind_ok e1, PyM.bind_ok e2]
        cases sync with
        | false => cases h3; rfl
        | true =>
          rcases when_ok h3 with ⟨_, _, g⟩ | ⟨g, _⟩
          · refine when_run (x := ()) ?_
            unfold AnyStream.sync AnyStream.call
            dsimp only
            rw [g]
          · cases g
      · unfold AnyStream.close AnyStream.call
        dsimp only
        rw [h5]
  | buf b =>
    cases data with
    | text x => exact h.elim
    | bytes d =>
      obtain ⟨n, s1, h1, h2⟩ := FitBuf.write d b h
      obtain ⟨_, s2, h3, h4⟩ := FitBuf.flush s1 h2
      obtain ⟨_, s3, h5, h6⟩ := (Succeeds.when (c := sync) (FitBuf.sync fd true true)) s2 h4
      obtain ⟨s4, h7⟩ := FitBuf.close h6
      refine ⟨.buf s3, ?_, .buf s4, ?_⟩
      · have e1 : AnyStream.write (.bytes d) (.buf b : AnyStream C) = (.ok (), .buf s1) := by
          unfold AnyStream.write AnyStream.call
          dsimp only
          rw [PyM.bind_ok h1]
          rfl
        have e2 : AnyStream.flush (.buf s1 : AnyStream C) = (.ok (), .buf s2) := by
          unfold AnyStream.flush AnyStream.call
          dsimp only
          rw [h3]
        unfold Site.writeBody
        rw [PyM.bind_ok e1, PyM.bind_ok e2]
        cases sync with
        | false => cases h5; rfl
        | true =>
          rcases when_ok h5 with ⟨_, _, g⟩ | ⟨g, _⟩
          · refine when_run (x := ()) ?_
            unfold AnyStream.sync AnyStream.call
            dsimp only
            rw [g]
          · cases g
      · unfold AnyStream.close AnyStream.call
        dsimp only
        rw [h7]
  | txt t =>
    cases data with
    | bytes d => exact h.elim
    | text x =>
      obtain ⟨ht, y, he⟩ := h
      obtain ⟨n, s1, h1, h2⟩ := ht.write x he
      obtain ⟨_, s2, h3, h4⟩ := FitTxt.flush s1 h2
      obtain ⟨_, s3, h5, h6⟩ := (Succeeds.when (c := sync) (FitTxt.sync fd true true)) s2 h4
      obtain ⟨s4, h7⟩ := FitTxt.close h6
      refine ⟨.txt s3, ?_, .txt s4, ?_⟩
      · have e1 : AnyStream.write (.text x) (.txt t : AnyStream C) = (.ok (), .txt s1) := by
          unfold AnyStream.write AnyStream.call
          dsimp only
          rw [PyM.bind_ok h1]
          rfl
        have e2 : AnyStream.flush (.txt s1 : AnyStream C) = (.ok (), .txt s2) := by
          unfold AnyStream.flush AnyStream.call
          dsimp only
          rw [h3]
        unfold Site.writeBody
        rw [PyM.bind_ok e1, PyM.bind_ok e2]
        cases sync with
        | false => cases h5; rfl
        | true =>
          rcases when_ok h5 with ⟨_, _, g⟩ | ⟨g, _⟩
          · refine when_run (x := ()) ?_
            unfold AnyStream.sync AnyStream.call
            dsimp only
            rw [g]
          · cases g
      · unfold AnyStream.close AnyStream.call
        dsimp only
        rw [h7]

end Verif.Props
