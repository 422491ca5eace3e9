import Verif.Model.Concurrent
import Verif.Lemmas.Reads

/-!
# Calls that read leave the content alone
-/

set_option autoImplicit false

namespace Verif

/-- A reader stays one and does not change the content. -/
def ReaderOnly (b b' : Buf) : Prop := b.kind = .reader → b'.kind = .reader ∧ b'.raw.data = b.raw.data

namespace ReaderOnly

variable {α : Type}

theorem pre : Pre ReaderOnly :=
  ⟨fun _ h => ⟨h, rfl⟩, fun h1 h2 h => ⟨(h2 (h1 h).1).1, (h2 (h1 h).1).2.trans (h1 h).2⟩⟩

theorem of_calm {m m' : PyM Buf α} (h : ∀ b : Buf, b.kind = .reader → m b = m' b) (hm : Along Buf.Calm m') :
    Along ReaderOnly m := fun b hk => by
  have := hm b
  rw [h b hk]
  exact ⟨this.kind.trans hk, this.raw.data⟩

theorem flush : Along ReaderOnly Buf.flush :=
  of_calm (m' := (do Buf.checkClosed; Buf.onRaw Raw.flush)) (fun b h => by simp only [Buf.flush, h])
    (.bind Buf.Calm.pre Buf.Calm.checkClosed fun _ => Buf.Calm.onRaw Raw.Moved.reads.checkClosed)

theorem seek (o : Int) (w : Whence) : Along ReaderOnly (Buf.seek o w) :=
  of_calm (fun b h => by simp only [Buf.seek, h]) (Buf.Calm.readerSeek o w)

theorem onRaw_close : Along ReaderOnly (Buf.onRaw Raw.close) := by
  intro b hk
  refine ⟨hk, ?_⟩
  change (Raw.close b.raw).2.data = b.raw.data
  unfold Raw.close
  split <;> rfl

theorem close : Along ReaderOnly Buf.close := by
  intro b
  unfold Buf.close
  split
  · exact pre.refl b
  · exact Along.tryFinally pre flush onRaw_close b

theorem bufs : BufReads ReaderOnly where
  pre := pre
  checkClosed := of_calm (fun _ _ => rfl) Buf.Calm.checkClosed
  flush := flush
  read n := of_calm (fun b h => by simp only [Buf.read, h]) (Buf.Calm.readerRead n)
  read1 n := of_calm (fun b h => by simp only [Buf.read1, h]) (Buf.Calm.readerRead1 n)
  tell := of_calm (m' := Buf.tell) (fun _ _ => rfl) fun b =>
    (Along.bind Buf.Calm.pre (Buf.Calm.onRaw Raw.Moved.reads.tell) fun _ => .pure Buf.Calm.pre _) b
  seekSet p := seek p .set
  seekEnd := seek 0 .fin
  size := .bind pre flush fun _ => of_calm (fun _ _ => rfl) (Buf.Calm.onRaw Raw.Moved.reads.size)

end ReaderOnly

/-- A stream for reading. -/
def AnyStream.IsReader {C : Codec} : AnyStream C → Prop
  | .raw _ => True
  | .buf b => b.kind = .reader
  | .txt t => t.buf.kind = .reader

/-- A call that only reads, so far. -/
def Phase.Reads {C : Codec} : Phase C → Prop
  | .inside s t => s.IsReader ∧ ((∃ l, t = .reading l) ∨ ∃ r, t = .closing r)
  | _ => True

namespace Job

variable {S : Setting} {k : Job}

theorem see_reader {C : Codec} {s : AnyStream C} (h : s.IsReader) (file : Bytes) : (see s file).IsReader := by
  cases s <;> exact h

theorem see_data {C : Codec} (s : AnyStream C) (file : Bytes) : (see s file).theRaw.data = file := by cases s <;> rfl

theorem see_same {C : Codec} (s : AnyStream C) : see s s.theRaw.data = s := by cases s <;> rfl

theorem read_reader {C : Codec} {s : AnyStream C} (h : s.IsReader) :
    (AnyStream.read s).2.IsReader ∧ (AnyStream.read s).2.theRaw.data = s.theRaw.data := by
  cases s with
  | raw s =>
    exact ⟨trivial, ((Along.bind Raw.Moved.pre (Raw.Moved.reads.read none) fun _ => .pure Raw.Moved.pre _) s).data⟩
  | buf b =>
    exact (Along.bind ReaderOnly.pre (ReaderOnly.bufs.read none) fun _ => .pure ReaderOnly.pre _) b h
  | txt t =>
    exact ((Along.bind ReaderOnly.bufs.tPre (ReaderOnly.bufs.tRead none) fun _ => .pure ReaderOnly.bufs.tPre _) t).1 h

theorem close_reader {C : Codec} {s : AnyStream C} (h : s.IsReader) :
    (AnyStream.close s).2.IsReader ∧ (AnyStream.close s).2.theRaw.data = s.theRaw.data := by
  cases s with
  | raw s =>
    refine ⟨trivial, ?_⟩
    change (Raw.close s).2.data = s.data
    unfold Raw.close
    split <;> rfl
  | buf b => exact ReaderOnly.close b h
  | txt t => exact (ReaderOnly.bufs.tClose ReaderOnly.close t).1 h

theorem layers_reader (hl : k.task.isLoad = true) {raw : Raw} {s : AnyStream S.codec} (h : k.layers S raw = .ok s) :
    s.IsReader := by
  unfold layers at h
  rw [hl] at h
  simp only [if_true] at h
  split at h
  · split at h <;> cases h; trivial
  · split at h
    · cases h
    · rename_i b hb
      have hk : b.kind = .reader := by
        unfold Buf.create at hb
        (repeat' split at hb) <;> cases hb
        rfl
      split at h
      · cases h; exact hk
      · generalize hc : Txt.create (C := S.codec) _ _ _ b = x at h
        obtain ⟨r, t⟩ := x
        cases r with
        | error e => cases h
        | ok u =>
          cases h
          unfold Txt.create at hc
          split at hc
          · cases hc
          · have := ReaderOnly.bufs.tConfigure (C := S.codec)
              ⟨b, k.newline.getD .auto, k.line, S.linesep, b.raw.seekable, b.raw.seekable, none, none, [], 0, none, (0, 0)⟩
            rw [hc] at this
            exact (this.1 hk).1

/-- A call that reads leaves the content alone. -/
theorem work_reads (hl : k.task.isLoad = true) {file file₁ : Bytes} {ph ph₁ : Phase S.codec} (h : ph.Reads)
    (hw : k.work S file ph = some (ph₁, file₁)) : ph₁.Reads ∧ file₁ = file := by
  have hst : k.task.isStore = false := by
    generalize k.task = t at hl
    cases t <;> first | cases hl; done | rfl
  cases ph with
  | locked p =>
    simp only [work, prepare, hst, Bool.false_eq_true, if_false] at hw
    cases hy : k.layers S (k.raw file p) with
    | error e => rw [hy] at hw; cases hw; exact ⟨trivial, rfl⟩
    | ok s =>
      rw [hy] at hw; cases hw
      refine ⟨⟨layers_reader hl hy, .inl ⟨[], ?_⟩⟩, rfl⟩
      simp [first, hl]
  | inside s todo =>
    obtain ⟨h1, h2⟩ := h
    have h1 := see_reader h1 file
    have hd := see_data s file
    simp only [work] at hw
    generalize see s file = s₁ at h1 hd hw
    rcases h2 with ⟨l, rfl⟩ | ⟨r, rfl⟩
    · have hr := read_reader h1
      simp only [method] at hw
      generalize AnyStream.read s₁ = x at hr hw
      obtain ⟨x, s'⟩ := x
      cases hw
      refine ⟨⟨hr.1, ?_⟩, hr.2.trans hd⟩
      cases x with
      | error e => exact .inr ⟨_, rfl⟩
      | ok x =>
        cases x with
        | none => exact .inr ⟨_, rfl⟩
        | some c =>
          simp only [after]
          split
          · exact .inr ⟨_, rfl⟩
          · exact .inl ⟨_, rfl⟩
    · have hr := close_reader h1
      simp only [method, PyM.bind_apply] at hw
      generalize AnyStream.close s₁ = x at hr hw
      obtain ⟨x, s'⟩ := x
      cases x <;> cases hw <;> exact ⟨trivial, hr.2.trans hd⟩
  | _ => cases hw

end Job

end Verif
