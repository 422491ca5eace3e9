import Verif.Lemmas.RawIO
import Verif.Spec.Stream

/-!
# Lemmas about buffered streams: they refine a byte array with a position
-/

namespace Verif

open Verif.Spec

/-! ## The reference content -/

theorem getElem?_put (data : Bytes) (off : Nat) (buf : Bytes) (i : Nat) :
    (put data off buf)[i]? = (writeAt (fun _ => 0) data off buf)[i]? := by
  rw [getElem?_writeAt]
  unfold put
  split
  · rfl
  · rename_i hb
    have hpos : 0 < buf.length := List.length_pos_iff.2 hb
    rw [List.getElem?_map]
    by_cases hi : i < max data.length (off + buf.length)
    · rw [List.getElem?_range hi]
      simp only [Option.map_some]
      by_cases h1 : i < off
      · rw [if_neg (by omega), if_pos h1]
        split
        · rename_i h
          simp [List.getElem?_eq_getElem h]
        · rename_i h
          rw [List.getD_eq_getElem?_getD, List.getElem?_eq_none (by omega)]; rfl
      · by_cases h2 : i < off + buf.length
        · rw [if_pos (by omega), if_neg h1, if_pos h2]
          rw [List.getD_eq_getElem?_getD, List.getElem?_eq_getElem (by omega)]; rfl
        · rw [if_neg (by omega), if_neg h1, if_neg h2]
          rw [List.getD_eq_getElem?_getD, List.getElem?_eq_getElem (by omega)]; rfl
    · rw [List.getElem?_eq_none (by simp; omega), Option.map_none]
      rw [if_neg (by omega), if_neg (by omega), List.getElem?_eq_none (by omega)]

theorem put_eq (data : Bytes) (off : Nat) (buf : Bytes) : put data off buf = writeAt (fun _ => 0) data off buf :=
  List.ext_getElem? (getElem?_put data off buf)

theorem resizeTo_eq (data : Bytes) (n : Nat) : resizeTo data n = (extendTo (fun _ => 0) data n).take n := by
  apply List.ext_getElem?
  intro i
  rw [getElem?_truncated]
  unfold resizeTo
  rw [List.getElem?_map]
  by_cases hi : i < n
  · rw [List.getElem?_range hi, if_pos hi]
    simp only [Option.map_some]
    split
    · rename_i h
      simp [List.getElem?_eq_getElem h]
    · rename_i h
      rw [List.getD_eq_getElem?_getD, List.getElem?_eq_none (by omega)]; rfl
  · rw [List.getElem?_eq_none (by simp; omega), if_neg hi]; rfl

namespace Raw

/-- What system calls do not change. -/
structure Frame (s s' : Raw) : Prop where
  platform : s'.platform = s.platform
  closed : s'.closed = s.closed
  readable : s'.readable = s.readable
  writable : s'.writable = s.writable
  seekable : s'.seekable = s.seekable
  append : s'.append = s.append

theorem Frame.refl (s : Raw) : Frame s s := ⟨rfl, rfl, rfl, rfl, rfl, rfl⟩

theorem Frame.trans {s t u : Raw} (h : Frame s t) (h' : Frame t u) : Frame s u :=
  ⟨h'.1.trans h.1, h'.2.trans h.2, h'.3.trans h.3, h'.4.trans h.4, h'.5.trans h.5, h'.6.trans h.6⟩

/-- `read(n)` on a blocking file. -/
theorem read_blocking {s : Raw} {n : Nat} (ho : s.closed = false) (hr : s.readable = true) (hb : Blocking s.sched)
    (hn : 0 < n) :
    ∃ k s', Raw.read (some (n : Int)) s = (.ok (some ((s.data.drop s.pos).take k)), s') ∧ 1 ≤ k ∧ k ≤ n ∧
      s'.data = s.data ∧ s'.pos = s.pos + ((s.data.drop s.pos).take k).length ∧ Blocking s'.sched ∧ Frame s s' ∧
      s'.events = s.events ∧ (s.sched = [] → k = n ∧ s'.sched = []) := by
  rw [readSome_eq n ho hr]
  rcases innerRead_cases n s with ⟨k, sched', h, hk, hs⟩ | ⟨sched', h, hs⟩ | ⟨sched', h, hs⟩ | ⟨e, sched', h, hs⟩
  · refine ⟨k, _, h, ?_, hk, rfl, rfl, ?_, ⟨rfl, rfl, rfl, rfl, rfl, rfl⟩, rfl, ?_⟩
    · rcases hs with ⟨_, h1, _⟩ | ⟨j, hj, h1⟩
      · omega
      · obtain ⟨k', e, hk'⟩ := hb (.count j) (by simp [hj])
        cases e; omega
    · rcases hs with ⟨_, _, h1⟩ | ⟨j, hj, _⟩
      · simp [Blocking, h1]
      · exact fun a ha' => hb a (by rw [hj]; exact List.mem_cons_of_mem _ ha')
    · intro h0
      rcases hs with ⟨_, h1, h2⟩ | ⟨j, hj, _⟩
      · exact ⟨h1, h2⟩
      · rw [h0] at hj; cases hj
  · obtain ⟨k, e, _⟩ := hb .again (by simp [hs]); cases e
  · obtain ⟨k, e, _⟩ := hb .pipe (by simp [hs]); cases e
  · obtain ⟨k, e', _⟩ := hb (.fail e) (by simp [hs]); cases e'

theorem readallLoop_blocking (fuel : Nat) : ∀ (chunks : Bytes) (s : Raw), s.closed = false → s.readable = true →
    Blocking s.sched → s.data.length - s.pos < fuel →
    ∃ s', readallLoop fuel chunks s = (.ok (some (chunks ++ s.data.drop s.pos)), s') ∧ s'.data = s.data ∧
      s'.pos = s.pos + (s.data.drop s.pos).length ∧ Blocking s'.sched ∧ Frame s s' ∧ s'.events = s.events := by
  induction fuel with
  | zero => intro _ _ _ _ _ h; omega
  | succ fuel ih =>
    intro chunks s ho hr hb hf
    obtain ⟨k, s', h, hk1, hk2, hd, hp, hb', hfr, hev, _⟩ := read_blocking (n := chunkSize) ho hr hb (by decide)
    rw [readSome_eq _ ho hr] at h
    unfold readallLoop
    rw [PyM.bind_apply, readN_eq _ ho hr, h]
    dsimp only
    cases hgot : (s.data.drop s.pos).take k with
    | nil =>
      have hnil : s.data.drop s.pos = [] := by
        rcases List.take_eq_nil_iff.1 hgot with h0 | h0
        · omega
        · exact h0
      refine ⟨s', ?_, hd, by rw [hp, hgot, hnil], hb', hfr, hev⟩
      by_cases hc : chunks = []
      · simp [hc, hnil]
      · simp [hc, hnil]
    | cons c cs =>
      dsimp only
      have hsplit : s.data.drop s.pos = (c :: cs) ++ s'.data.drop s'.pos := by
        rw [hd, hp, hgot, ← List.drop_drop]
        conv => lhs; rw [← List.take_append_drop k (s.data.drop s.pos), hgot]
        congr 1
        by_cases hle : k ≤ (s.data.drop s.pos).length
        · have : (c :: cs).length = k := by rw [← hgot, List.length_take]; omega
          rw [this]
        · rw [List.drop_eq_nil_of_le (by omega), List.drop_eq_nil_of_le]
          rw [← hgot, List.length_take]; omega
      have hlen : s'.pos = s.pos + (cs.length + 1) := by rw [hp, hgot]; rfl
      obtain ⟨s'', h1, h2, h3, h4, h5, h6⟩ := ih (chunks ++ (c :: cs)) s' (hfr.closed.trans ho) (hfr.readable.trans hr) hb'
        (by
          have : (s.data.drop s.pos).length = (c :: cs).length + (s'.data.drop s'.pos).length := by
            rw [hsplit, List.length_append]
          simp only [List.length_drop, List.length_cons] at this
          omega)
      refine ⟨s'', ?_, h2.trans hd, ?_, h4, hfr.trans h5, h6.trans hev⟩
      · rw [h1, hsplit, List.append_assoc]
      · rw [hsplit, List.length_append, List.length_cons, h3, hlen]
        rw [← hlen]
        omega

theorem readall_blocking {s : Raw} (ho : s.closed = false) (hr : s.readable = true) (hb : Blocking s.sched) :
    ∃ s', readall s = (.ok (some (s.data.drop s.pos)), s') ∧ s'.data = s.data ∧
      s'.pos = s.pos + (s.data.drop s.pos).length ∧ Blocking s'.sched ∧ Frame s s' ∧ s'.events = s.events := by
  have := readallLoop_blocking (s.data.length - s.pos + 1) [] s ho hr hb (by omega)
  simpa [readall] using this

/-- `readinto` on a blocking file. -/
theorem readinto_blocking {s : Raw} {dst : Bytes} (ho : s.closed = false) (hr : s.readable = true) (hb : Blocking s.sched)
    (hn : dst ≠ []) :
    ∃ k s', Raw.readinto dst s = (.ok (((s.data.drop s.pos).take k).length,
        (s.data.drop s.pos).take k ++ dst.drop ((s.data.drop s.pos).take k).length), s') ∧ 1 ≤ k ∧ k ≤ dst.length ∧
      s'.data = s.data ∧ s'.pos = s.pos + ((s.data.drop s.pos).take k).length ∧ Blocking s'.sched ∧ Frame s s' ∧
      s'.events = s.events ∧ (s.sched = [] → k = dst.length ∧ s'.sched = []) := by
  obtain ⟨k, s', h, hrest⟩ := read_blocking (n := dst.length) ho hr hb (List.length_pos_iff.2 hn)
  rw [readSome_eq _ ho hr] at h
  refine ⟨k, s', ?_, hrest⟩
  unfold Raw.readinto
  rw [PyM.bind_ok (checkClosed_ok ho), PyM.bind_ok (checkReadable_ok ho hr), PyM.bind_ok h]
  rfl

/-- Where the next bytes go. -/
def dest (s : Raw) : Nat := if s.append then s.data.length else s.pos

/-- `write` of a non-empty string on unix: part of it is stored, or nothing is and `None` is returned or an exception
raised. -/
theorem write_cases {s : Raw} {buf : Bytes} (ho : s.closed = false) (hw : s.writable = true) (hp : s.platform = .unix)
    (hne : buf ≠ []) :
    (∃ k s', 1 ≤ k ∧ k ≤ buf.length ∧ Raw.write buf s = (.ok (some k), s') ∧
      s'.data = writeAt s.fill s.data s.dest (buf.take k) ∧ s'.dest = s.dest + k ∧
      (s.append = false → s'.pos = s.pos + k) ∧ Frame s s' ∧ s'.events = s.events ∧
      (Blocking s.sched → Blocking s'.sched) ∧ (NonBlocking s.sched → NonBlocking s'.sched)) ∨
    (∃ r s', Raw.write buf s = (r, s') ∧ (r = .ok none ∨ ∃ e, r = .error e ∧ ∀ n, e ≠ .blockingIO n) ∧ s'.data = s.data ∧
      s'.pos = s.pos ∧ Frame s s' ∧ s'.events = s.events ∧ ¬ Blocking s.sched ∧
      (NonBlocking s.sched → r = .ok none ∧ NonBlocking s'.sched)) := by
  rw [write_unix buf ho hw hp]
  have hlen : 1 ≤ buf.length := List.length_pos_iff.2 hne
  rcases osWrite_cases s.append buf s with ⟨k, sched', hk, h, hs⟩ | ⟨sched', h, hs⟩ | ⟨e, sched', h⟩
  · rw [h]
    dsimp only
    by_cases hz : k = 0
    · right
      have hc : s.sched = .count 0 :: sched' := by
        rcases hs with ⟨_, h1, _⟩ | ⟨j, hj, h1⟩
        · omega
        · rw [hj, show j = 0 by omega]
      have hnb : ¬ NonBlocking s.sched := by
        intro hn
        rcases hn (.count 0) (by rw [hc]; simp) with e | ⟨j, e, hj⟩
        · cases e
        · cases e; omega
      refine ⟨.error .assertionError, _, if_pos ⟨hne, hz⟩, Or.inr ⟨_, rfl, by intro n; nofun⟩, ?_, ?_,
        ⟨rfl, rfl, rfl, rfl, rfl, rfl⟩, rfl, ?_, ?_⟩
      · subst hz; simp
      · subst hz; simp
      · intro hb
        exact hnb (fun a ha => Or.inr (hb a ha))
      · intro hn; exact absurd hn hnb
    · left
      refine ⟨k, _, by omega, hk, if_neg (fun hc => hz hc.2), rfl, ?_, ?_, ⟨rfl, rfl, rfl, rfl, rfl, rfl⟩, rfl, ?_, ?_⟩
      · unfold dest
        dsimp only
        cases ha : s.append
        · simp [hz]
        · simp only [if_true]
          rw [writeAt_end]
          simp; omega
      · intro ha
        simp [ha, hz]
      · intro hb
        rcases hs with ⟨_, _, h1⟩ | ⟨j, hj, _⟩
        · simp [Blocking, h1]
        · exact fun a ha' => hb a (by rw [hj]; exact List.mem_cons_of_mem _ ha')
      · intro hb
        rcases hs with ⟨_, _, h1⟩ | ⟨j, hj, _⟩
        · simp [NonBlocking, h1]
        · exact fun a ha' => hb a (by rw [hj]; exact List.mem_cons_of_mem _ ha')
  · right
    rw [h]
    refine ⟨.ok none, _, rfl, Or.inl rfl, rfl, rfl, ⟨rfl, rfl, rfl, rfl, rfl, rfl⟩, rfl, ?_, ?_⟩
    · intro hb
      obtain ⟨k, e, _⟩ := hb .again (by simp [hs]); cases e
    · intro hn
      exact ⟨rfl, fun a ha => hn a (by rw [hs]; exact List.mem_cons_of_mem _ ha)⟩
  · right
    rw [h]
    have hnb : ¬ NonBlocking s.sched := by
      intro hn
      unfold osWrite nextAns at h
      split at h
      · cases h
      · cases h
      · rename_i s' heq
        split at heq
        · cases heq
        · rename_i a rest hs
          cases heq
          rcases hn .pipe (by rw [hs]; simp) with e | ⟨j, e, _⟩ <;> cases e
      · rename_i e' s' heq
        split at heq
        · cases heq
        · rename_i a rest hs
          cases heq
          rcases hn (.fail e') (by rw [hs]; simp) with e | ⟨j, e, _⟩ <;> cases e
    refine ⟨.error (.ioError e), _, rfl, Or.inr ⟨_, rfl, by intro n; nofun⟩, rfl, rfl,
      ⟨rfl, rfl, rfl, rfl, rfl, rfl⟩, rfl, ?_, ?_⟩
    · intro hb
      exact hnb (fun a ha => Or.inr (hb a ha))
    · intro hn; exact absurd hn hnb

/-- `seek` on a seekable stream. -/
theorem seek_cases {s : Raw} (ho : s.closed = false) (hk : s.seekable = true) (t : Int) (offset : Int) (whence : Whence)
    (ht : t = match whence with
      | .set => offset
      | .cur => s.pos + offset
      | .fin => s.data.length + offset) :
    Raw.seek offset whence s =
      if 0 ≤ t then (.ok t.toNat, { s with pos := t.toNat }) else (.error (.ioError 22), s) := by
  unfold Raw.seek
  rw [PyM.bind_ok (checkClosed_ok ho)]
  subst ht
  unfold innerSeek
  rw [if_pos hk]
  rfl

theorem tell_ok {s : Raw} (ho : s.closed = false) (hk : s.seekable = true) : Raw.tell s = (.ok s.pos, s) := by
  unfold Raw.tell
  rw [PyM.bind_ok (checkClosed_ok ho)]
  simp [innerTell, hk]

theorem truncate_ok {s : Raw} {n : Nat} (ho : s.closed = false) (hk : s.seekable = true) (hw : s.writable = true)
    (hp : s.platform = .unix) (hb : Blocking s.sched) :
    ∃ s', Raw.truncate (some (n : Int)) true s = (.ok n, s') ∧ s'.data = (extendTo (fun _ => 0) s.data n).take n ∧
      s'.pos = s.pos ∧ Blocking s'.sched ∧ Frame s s' ∧ s'.events = s.events := by
  rw [truncate_open _ true ho hw hk, PyM.bind_ok (target_ok _ n (Or.inr rfl) ho hk)]
  have hfill : s.fill = fun _ => 0 := by funext i; simp [Raw.fill, hp]
  rcases resize_unix n true ho hp with ⟨sched', disk', h, hs⟩ | ⟨e, sched', hs, h⟩
  · refine ⟨{ s with data := (extendTo s.fill s.data n).take n, sched := sched', disk := disk' }, ?_, by rw [hfill], rfl, ?_,
      ⟨rfl, rfl, rfl, rfl, rfl, rfl⟩, rfl⟩
    · rw [PyM.bind_ok h, size_open (s := { s with data := (extendTo s.fill s.data n).take n, sched := sched', disk := disk' }) ho]
      simp only [length_truncated]
    · exact fun a ha => hb a (hs a ha)
  · obtain ⟨k, e', _⟩ := hb (.fail e) (by simp [hs]); cases e'

end Raw

namespace Buf

theorem onRaw_eq {α : Type} {m : PyM Raw α} {b : Buf} {r : Except Exn α} {s : Raw} (h : m b.raw = (r, s)) :
    onRaw m b = (r, { b with raw := s }) := by
  unfold onRaw; rw [h]

theorem checkClosed_ok {b : Buf} (h : b.raw.closed = false) : checkClosed b = (.ok (), b) := by
  simp [checkClosed, h]

/-- What flushing does not change. -/
structure Frame (b b' : Buf) : Prop where
  kind : b'.kind = b.kind
  bufferSize : b'.bufferSize = b.bufferSize
  readBuf : b'.readBuf = b.readBuf
  readPos : b'.readPos = b.readPos
  raw : Raw.Frame b.raw b'.raw
  events : b'.raw.events = b.raw.events

theorem Frame.refl (b : Buf) : Frame b b := ⟨rfl, rfl, rfl, rfl, Raw.Frame.refl _, rfl⟩

theorem Frame.trans {b c d : Buf} (h : Frame b c) (h' : Frame c d) : Frame b d :=
  ⟨h'.1.trans h.1, h'.2.trans h.2, h'.3.trans h.3, h'.4.trans h.4, h.5.trans h'.5, h'.6.trans h.6⟩

/-- Flushing writes a prefix of the pending bytes; it returns only when all of them are written. -/
structure Flushed (b : Buf) (r : Except Exn Unit) (b' : Buf) (j : Nat) : Prop where
  le : j ≤ b.writeBuf.length
  left : b'.writeBuf = b.writeBuf.drop j
  data : b'.raw.data = writeAt b.raw.fill b.raw.data b.raw.dest (b.writeBuf.take j)
  dest : b'.raw.dest = b.raw.dest + j
  pos : b.raw.append = false → b'.raw.pos = b.raw.pos + j
  frame : Frame b b'
  result : (r = .ok () ∧ j = b.writeBuf.length) ∨ r = .error (.blockingIO 0) ∨
    ∃ e, r = .error e ∧ ∀ n, e ≠ .blockingIO n
  blocking : Blocking b.raw.sched → r = .ok () ∧ Blocking b'.raw.sched
  nonBlocking : NonBlocking b.raw.sched → (r = .ok () ∨ r = .error (.blockingIO 0)) ∧ NonBlocking b'.raw.sched

theorem flushLoop_spec (fuel : Nat) : ∀ b : Buf, b.raw.closed = false → b.raw.writable = true →
    b.raw.platform = .unix → b.writeBuf.length ≤ fuel →
    ∃ r b' j, flushLoop fuel b = (r, b') ∧ Flushed b r b' j := by
  induction fuel with
  | zero =>
    intro b ho hw hp hf
    have h0 : b.writeBuf = [] := List.length_eq_zero_iff.1 (by omega)
    exact ⟨.ok (), b, 0, rfl, ⟨by omega, by simp, by simp, by simp, by simp, Frame.refl b, Or.inl ⟨rfl, by simp [h0]⟩,
      fun h => ⟨rfl, h⟩, fun h => ⟨Or.inl rfl, h⟩⟩⟩
  | succ fuel ih =>
    intro b ho hw hp hf
    unfold flushLoop
    by_cases hne : b.writeBuf = []
    · rw [if_pos hne]
      exact ⟨.ok (), b, 0, rfl, ⟨by omega, by simp, by simp, by simp, by simp, Frame.refl b,
        Or.inl ⟨rfl, by simp [hne]⟩, fun h => ⟨rfl, h⟩, fun h => ⟨Or.inl rfl, h⟩⟩⟩
    · rw [if_neg hne]
      rcases Raw.write_cases ho hw hp hne with ⟨k, s', hk1, hk2, h, hd, hde, hpo, hfr, hev, hbl, hnb⟩ |
        ⟨r, s', h, hr, hd, hpo, hfr, hev, hnbl, hnb⟩
      · rw [PyM.bind_ok (onRaw_eq h)]
        have hdw : dropWritten (some k) { b with raw := s' } =
            (.ok (), { b with raw := s', writeBuf := b.writeBuf.drop k }) := by
          unfold dropWritten
          dsimp only
          rw [if_neg (by omega)]
        rw [PyM.bind_ok hdw]
        have hfill : s'.fill = b.raw.fill := by
          funext i; unfold Raw.fill; rw [hfr.platform, hp]
        obtain ⟨r, b', j, h1, h2⟩ := ih { b with raw := s', writeBuf := b.writeBuf.drop k }
          (hfr.closed.trans ho) (hfr.writable.trans hw) (hfr.platform.trans hp) (by simp; omega)
        have hle := h2.le
        simp only [List.length_drop] at hle
        refine ⟨r, b', k + j, h1, ⟨by omega, ?_, ?_, ?_, ?_, ?_, ?_, ?_, ?_⟩⟩
        · rw [h2.left, List.drop_drop]
        · rw [h2.data]
          dsimp only
          rw [hfill, hd, hde, List.take_add, ← writeAt_append, List.length_take]
          rw [show min k b.writeBuf.length = k by omega]
        · rw [h2.dest]; dsimp only; rw [hde]; omega
        · intro ha
          rw [h2.pos (hfr.append.trans ha)]; dsimp only; rw [hpo ha]; omega
        · exact (Frame.mk rfl rfl rfl rfl hfr hev : Frame b { b with raw := s', writeBuf := b.writeBuf.drop k }).trans h2.frame
        · rcases h2.result with ⟨e, hj⟩ | e | e
          · left
            refine ⟨e, ?_⟩
            simp only [List.length_drop] at hj
            omega
          · exact Or.inr (Or.inl e)
          · exact Or.inr (Or.inr e)
        · intro hb; exact h2.blocking (hbl hb)
        · intro hn; exact h2.nonBlocking (hnb hn)
      · have hfin : ∀ e, (do
            let n ← onRaw (Raw.write b.writeBuf)
            dropWritten n
            flushLoop fuel : PyM Buf Unit) b = (.error e, { b with raw := s' }) →
            (e = .blockingIO 0 ∨ ∀ n, e ≠ .blockingIO n) →
            (NonBlocking b.raw.sched → e = .blockingIO 0 ∧ NonBlocking s'.sched) →
            ∃ r b' j, (do
              let n ← onRaw (Raw.write b.writeBuf)
              dropWritten n
              flushLoop fuel : PyM Buf Unit) b = (r, b') ∧ Flushed b r b' j := by
          intro e he hk hn
          refine ⟨.error e, { b with raw := s' }, 0, he, ⟨by omega, by simp, by simp [hd], ?_, ?_,
            ⟨rfl, rfl, rfl, rfl, hfr, hev⟩, ?_, ?_, ?_⟩⟩
          · simp only [Raw.dest, hfr.append, hd, hpo]; rfl
          · intro _; simp [hpo]
          · rcases hk with rfl | hk
            · exact Or.inr (Or.inl rfl)
            · exact Or.inr (Or.inr ⟨e, rfl, hk⟩)
          · intro hb; exact absurd hb hnbl
          · intro hb; exact ⟨Or.inr (by rw [(hn hb).1]), (hn hb).2⟩
        rcases hr with rfl | ⟨e, rfl, he⟩
        · refine hfin (.blockingIO 0) ?_ (Or.inl rfl) (fun hn => ⟨rfl, (hnb hn).2⟩)
          rw [PyM.bind_ok (onRaw_eq h)]
          rfl
        · refine hfin e (PyM.bind_error (onRaw_eq h)) (Or.inr he) (fun hn => ?_)
          have := (hnb hn).1
          cases this

theorem flushUnlocked_spec {b : Buf} (ho : b.raw.closed = false) (hw : b.raw.writable = true)
    (hp : b.raw.platform = .unix) : ∃ r b' j, flushUnlocked b = (r, b') ∧ Flushed b r b' j := by
  unfold flushUnlocked
  rw [PyM.bind_ok (checkClosed_ok ho), PyM.bind_ok (PyM.get_apply b)]
  exact flushLoop_spec _ b ho hw hp (Nat.le_refl _)

end Buf

end Verif
