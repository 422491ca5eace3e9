import Verif.Model.RawIO
import Verif.Spec.Bytes

/-!
# Lemmas about file contents and raw I/O
-/

namespace Verif

open Verif.Spec

theorem length_extendTo (fill : Nat → Byte) (data : Bytes) (n : Nat) :
    (extendTo fill data n).length = max data.length n := by
  simp [extendTo]; omega

theorem getElem?_extendTo (fill : Nat → Byte) (data : Bytes) (n i : Nat) :
    (extendTo fill data n)[i]? = if i < data.length then data[i]? else if i < n then some (fill i) else none := by
  unfold extendTo
  rw [List.getElem?_append]
  split
  · rfl
  · rename_i h
    split
    · rename_i h2
      rw [List.getElem?_map, List.getElem?_range (by omega)]
      simp only [Option.map_some, Option.some.injEq]
      congr 1; omega
    · rename_i h2
      rw [List.getElem?_eq_none]
      simp; omega

theorem getElem?_writeAt (fill : Nat → Byte) (data : Bytes) (off : Nat) (buf : Bytes) (i : Nat) :
    (writeAt fill data off buf)[i]? =
      if buf = [] then data[i]?
      else if i < off then (if i < data.length then data[i]? else some (fill i))
      else if i < off + buf.length then buf[i - off]?
      else data[i]? := by
  unfold writeAt
  split
  · rfl
  · have hl : ((extendTo fill data off).take off).length = off := by
      rw [List.length_take, length_extendTo]; omega
    rw [List.append_assoc, List.getElem?_append, hl]
    split
    · rename_i h
      rw [List.getElem?_take, if_pos h, getElem?_extendTo]
      split
      · rfl
      · rfl
    · rename_i h
      rw [List.getElem?_append]
      by_cases h2 : i < off + buf.length
      · rw [if_pos (by omega), if_pos h2]
      · rw [if_neg (by omega), if_neg h2, List.getElem?_drop]
        congr 1; omega

theorem length_writeAt (fill : Nat → Byte) (data : Bytes) (off : Nat) (buf : Bytes) :
    (writeAt fill data off buf).length = if buf = [] then data.length else max data.length (off + buf.length) := by
  unfold writeAt
  split
  · rfl
  · rw [List.length_append, List.length_append, List.length_take, length_extendTo, List.length_drop]
    omega

@[simp] theorem writeAt_nil (fill : Nat → Byte) (data : Bytes) (off : Nat) : writeAt fill data off [] = data := by
  simp [writeAt]

theorem writeAt_end (fill : Nat → Byte) (data buf : Bytes) : writeAt fill data data.length buf = data ++ buf := by
  by_cases h : buf = []
  · simp [h]
  · simp [writeAt, h, extendTo]

theorem writeAt_append (fill : Nat → Byte) (data : Bytes) (off : Nat) (a b : Bytes) :
    writeAt fill (writeAt fill data off a) (off + a.length) b = writeAt fill data off (a ++ b) := by
  by_cases ha : a = []
  · simp [ha]
  by_cases hb : b = []
  · simp [hb]
  have hapos : 0 < a.length := List.length_pos_iff.2 ha
  apply List.ext_getElem?
  intro i
  rw [getElem?_writeAt, getElem?_writeAt, getElem?_writeAt, length_writeAt]
  simp only [ha, hb, if_false, List.append_eq_nil_iff, false_and, List.length_append]
  by_cases h1 : i < off
  · simp only [h1, if_true, show i < off + a.length by omega]
    rw [if_pos (by omega)]
  · by_cases h2 : i < off + a.length
    · simp only [h1, h2, if_true, if_false, show i < off + (a.length + b.length) by omega]
      rw [if_pos (by omega), List.getElem?_append_left (by omega)]
    · by_cases h3 : i < off + (a.length + b.length)
      · simp only [h1, h2, h3, if_true, if_false, show i < off + a.length + b.length by omega]
        rw [List.getElem?_append_right (by omega)]
        congr 1; omega
      · simp only [h1, h2, h3, if_false, show ¬ i < off + a.length + b.length by omega]

/-- The content after `ftruncate`. -/
theorem getElem?_truncated (fill : Nat → Byte) (data : Bytes) (n i : Nat) :
    ((extendTo fill data n).take n)[i]? =
      if i < n then (if i < data.length then data[i]? else some (fill i)) else none := by
  rw [List.getElem?_take]
  split
  · rename_i h
    rw [getElem?_extendTo, if_pos h]
  · rfl

theorem length_truncated (fill : Nat → Byte) (data : Bytes) (n : Nat) : ((extendTo fill data n).take n).length = n := by
  rw [List.length_take, length_extendTo]; omega

theorem stored_writeAt (fill : Nat → Byte) (old : Bytes) (off : Nat) (buf : Bytes) :
    Stored fill old off buf (writeAt fill old off buf) where
  written := by
    intro i hi
    have : buf ≠ [] := by rintro rfl; simp at hi
    rw [getElem?_writeAt, if_neg this, if_neg (by omega), if_pos (by omega)]
    congr 1; omega
  kept := by
    intro i hi hn
    rw [getElem?_writeAt]
    split
    · rfl
    · split
      · rfl
      · rw [if_neg (by omega)]
  gap := by
    intro hb i hi ho
    rw [getElem?_writeAt, if_neg hb, if_pos ho, if_neg (by omega)]
  size := length_writeAt _ _ _ _

/-- The specification determines the content. -/
theorem stored_unique {fill : Nat → Byte} {old : Bytes} {off : Nat} {buf new new' : Bytes}
    (h : Stored fill old off buf new) (h' : Stored fill old off buf new') : new = new' := by
  apply List.ext_getElem?
  intro i
  by_cases h1 : off ≤ i ∧ i < off + buf.length
  · have e : i = off + (i - off) := by omega
    rw [e, h.written _ (by omega), h'.written _ (by omega)]
  · by_cases h2 : i < old.length
    · rw [h.kept i h2 h1, h'.kept i h2 h1]
    · by_cases h3 : buf ≠ [] ∧ i < off
      · rw [h.gap h3.1 i (by omega) h3.2, h'.gap h3.1 i (by omega) h3.2]
      · have hs := h.size
        have hs' := h'.size
        rw [List.getElem?_eq_none, List.getElem?_eq_none]
        · rw [hs']
          split
          · omega
          · rename_i hb
            have : ¬ i < off := fun hc => h3 ⟨hb, hc⟩
            omega
        · rw [hs]
          split
          · omega
          · rename_i hb
            have : ¬ i < off := fun hc => h3 ⟨hb, hc⟩
            omega

namespace Raw

/-- What can come out of `osWrite`. -/
theorem osWrite_cases (atEnd : Bool) (buf : Bytes) (s : Raw) :
    (∃ k sched', k ≤ buf.length ∧ osWrite atEnd buf s = (.ok (some k),
      { s with
        data := writeAt s.fill s.data (if atEnd then s.data.length else s.pos) (buf.take k)
        pos := if k = 0 then s.pos else (if atEnd then s.data.length else s.pos) + k
        disk := s.disk ++ [.content (writeAt s.fill s.data (if atEnd then s.data.length else s.pos) (buf.take k))]
        sched := sched' }) ∧ ((s.sched = [] ∧ k = buf.length ∧ sched' = []) ∨
          ∃ j, s.sched = .count j :: sched' ∧ k = min j buf.length)) ∨
    (∃ sched', osWrite atEnd buf s = (.ok none, { s with sched := sched' }) ∧ s.sched = .again :: sched') ∨
    (∃ e sched', osWrite atEnd buf s = (.error (.ioError e), { s with sched := sched' })) := by
  have hf : ∀ sched', Raw.fill { s with sched := sched' } = s.fill := fun _ => rfl
  unfold osWrite nextAns
  split
  · rename_i k s' heq
    left
    split at heq
    · rename_i hs
      cases heq
      refine ⟨buf.length, [], Nat.le_refl _, ?_, Or.inl ⟨hs, rfl, rfl⟩⟩
      simp only [List.take_length, Prod.mk.injEq, true_and]
      congr 1
      simp [List.length_eq_zero_iff]
    · rename_i a rest hs
      cases heq
      refine ⟨min k buf.length, rest, Nat.min_le_right _ _, ?_, Or.inr ⟨k, hs, rfl⟩⟩
      have ht : buf.take (min k buf.length) = buf.take k := by
        rw [Nat.min_comm, ← List.take_take, List.take_of_length_le (by simp; omega)]
      have hz : (buf.take k = []) ↔ (min k buf.length = 0) := by
        rw [← List.length_eq_zero_iff, List.length_take]
      simp only [ht, List.length_take, Prod.mk.injEq, true_and, hz]
      rfl
  · rename_i s' heq
    right; left
    split at heq
    · cases heq
    · rename_i a rest hs
      cases heq
      exact ⟨rest, rfl, hs⟩
  · rename_i s' heq
    right; right
    split at heq
    · cases heq
    · cases heq; exact ⟨_, _, rfl⟩
  · rename_i e s' heq
    right; right
    split at heq
    · cases heq
    · cases heq; exact ⟨_, _, rfl⟩

theorem checkClosed_ok {s : Raw} (h : s.closed = false) : checkClosed s = (.ok (), s) := by simp [checkClosed, h]

theorem checkReadable_ok {s : Raw} (h : s.closed = false) (hr : s.readable = true) :
    checkReadable s = (.ok (), s) := by simp [checkReadable, h, hr]

theorem checkWritable_ok {s : Raw} (h : s.closed = false) (hr : s.writable = true) :
    checkWritable s = (.ok (), s) := by simp [checkWritable, h, hr]

theorem checkSeekable_ok {s : Raw} (h : s.closed = false) (hr : s.seekable = true) :
    checkSeekable s = (.ok (), s) := by simp [checkSeekable, h, hr]

theorem write_unix {s : Raw} (buf : Bytes) (ho : s.closed = false) (hw : s.writable = true)
    (hp : s.platform = .unix) :
    write buf s = match osWrite s.append buf s with
      | (.ok (some k), s') => if buf ≠ [] ∧ k = 0 then (.error .assertionError, s') else (.ok (some k), s')
      | r => r := by
  have hi : innerWrite buf s = osWrite s.append buf s := by unfold innerWrite; rw [hp]
  unfold write
  rw [PyM.bind_ok (checkClosed_ok ho), PyM.bind_ok (checkWritable_ok ho hw), PyM.bind_apply, hi]
  rcases osWrite_cases s.append buf s with ⟨k, sched', hk, h, _⟩ | ⟨sched', h, _⟩ | ⟨e, sched', h⟩
  · rw [h]
    dsimp only
    have : ¬ buf.length < k := by omega
    simp only [Option.some.injEq, PyM.ite_apply, PyM.raise_apply, this, if_false, PyM.pure_apply]
  · rw [h]; simp
  · rw [h]

/-- What can come out of `_inner_read`. -/
theorem innerRead_cases (n : Nat) (s : Raw) :
    (∃ k sched', innerRead n s = (.ok (some ((s.data.drop s.pos).take k)),
      { s with pos := s.pos + ((s.data.drop s.pos).take k).length, sched := sched' }) ∧ k ≤ n ∧
        ((s.sched = [] ∧ k = n ∧ sched' = []) ∨ ∃ j, s.sched = .count j :: sched' ∧ k = min j n)) ∨
    (∃ sched', innerRead n s = (.ok none, { s with sched := sched' }) ∧ s.sched = .again :: sched') ∨
    (∃ sched', innerRead n s = (.ok (some []), { s with sched := sched' }) ∧ s.sched = .pipe :: sched') ∨
    (∃ e sched', innerRead n s = (.error (.ioError e), { s with sched := sched' }) ∧ s.sched = .fail e :: sched') := by
  cases hs : s.sched with
  | nil =>
    left
    refine ⟨n, [], ?_, Nat.le_refl _, Or.inl ⟨rfl, rfl, rfl⟩⟩
    have ht : ((s.data.drop s.pos).take n).take n = (s.data.drop s.pos).take n := by rw [List.take_take, Nat.min_self]
    simp only [innerRead, nextAns, hs, ht]
  | cons a rest =>
    cases a with
    | count j =>
      left
      refine ⟨min j n, rest, ?_, Nat.min_le_right _ _, Or.inr ⟨j, rfl, rfl⟩⟩
      have ht : ((s.data.drop s.pos).take n).take j = (s.data.drop s.pos).take (min j n) := by rw [List.take_take]
      simp only [innerRead, nextAns, hs, ht]
    | again => right; left; exact ⟨rest, by simp only [innerRead, nextAns, hs], rfl⟩
    | pipe => right; right; left; exact ⟨rest, by simp only [innerRead, nextAns, hs], rfl⟩
    | fail e => right; right; right; exact ⟨e, rest, by simp only [innerRead, nextAns, hs], rfl⟩

theorem readSome_eq {s : Raw} (n : Nat) (ho : s.closed = false) (hr : s.readable = true) :
    read (some (n : Int)) s = innerRead n s := by
  unfold Raw.read
  rw [PyM.bind_ok (checkClosed_ok ho), PyM.bind_ok (checkReadable_ok ho hr)]
  have : ¬ ((n : Int) < 0) := by omega
  simp [this]

theorem readN_eq {s : Raw} (n : Nat) (ho : s.closed = false) (hr : s.readable = true) :
    readN n s = innerRead n s := by
  unfold Raw.readN
  rw [PyM.bind_ok (checkClosed_ok ho), PyM.bind_ok (checkReadable_ok ho hr)]

theorem resize_unix {s : Raw} (n : Nat) (z : Bool) (ho : s.closed = false) (hp : s.platform = .unix) :
    (∃ sched' disk', resize n z s = (.ok (),
        { s with data := (extendTo s.fill s.data n).take n, sched := sched', disk := disk' }) ∧
      ∀ a ∈ sched', a ∈ s.sched) ∨
    (∃ e sched', s.sched = .fail e :: sched' ∧ resize n z s = (.error (.ioError e), { s with sched := sched' })) := by
  have hsize : ∀ s' : Raw, s'.closed = false → size s' = (.ok s'.data.length, s') := by
    intro s' h'
    unfold size
    rw [PyM.bind_ok (checkClosed_ok h')]; rfl
  have hos : (∃ sched' disk', osTruncate n s = (.ok (),
        { s with data := (extendTo s.fill s.data n).take n, sched := sched', disk := disk' }) ∧
      ∀ a ∈ sched', a ∈ s.sched) ∨
    (∃ e sched', s.sched = .fail e :: sched' ∧ osTruncate n s = (.error (.ioError e), { s with sched := sched' })) := by
    unfold osTruncate nextAns
    cases hs : s.sched with
    | nil => left; exact ⟨[], _, by simp only [← hs]; rfl, by simp⟩
    | cons a rest =>
      cases a with
      | fail e => right; exact ⟨e, rest, rfl, rfl⟩
      | _ => left; exact ⟨rest, _, rfl, fun a h => List.mem_cons_of_mem _ h⟩
  unfold resize
  rw [PyM.bind_ok (hsize s ho)]
  simp only [PyM.ite_apply, PyM.pure_apply]
  split
  · rename_i h
    left
    refine ⟨s.sched, s.disk, ?_, fun _ h => h⟩
    have : (extendTo s.fill s.data n).take n = s.data := by
      subst h
      simp [extendTo]
    rw [this]
  · split
    · rw [show innerReduce n s = osTruncate n s by unfold innerReduce; rw [hp]]
      exact hos
    · have hi : innerExtend n z s = osTruncate n s := by unfold innerExtend; rw [hp]
      rcases hos with ⟨sched', disk', h, hsub⟩ | ⟨e, sched', h0, h⟩
      · left
        refine ⟨sched', disk', ?_, hsub⟩
        rw [PyM.bind_ok (hi.trans h)]
        unfold fillZeros
        rw [PyM.bind_ok (hsize { s with data := (extendTo s.fill s.data n).take n, sched := sched', disk := disk' } ho)]
        simp only [length_truncated, PyM.ite_apply, if_pos, PyM.pure_apply]
      · right
        exact ⟨e, sched', h0, PyM.bind_error (hi.trans h)⟩

theorem truncate_open {s : Raw} (arg : Option Int) (z : Bool) (ho : s.closed = false) (hw : s.writable = true)
    (hk : s.seekable = true) :
    truncate arg z s = (do
      let n ← truncateTarget arg
      resize n z
      size : PyM Raw Nat) s := by
  unfold truncate
  rw [PyM.bind_ok (checkSeekable_ok ho hk), PyM.bind_ok (checkWritable_ok ho hw)]

theorem target_ok {s : Raw} (arg : Option Int) (n : Nat) (harg : arg = none ∧ n = s.pos ∨ arg = some (n : Int))
    (ho : s.closed = false) (hk : s.seekable = true) : truncateTarget arg s = (.ok n, s) := by
  rcases harg with ⟨rfl, rfl⟩ | rfl
  · unfold truncateTarget tell
    dsimp only
    rw [PyM.bind_ok (checkClosed_ok ho)]
    simp [innerTell, hk]
  · have : ¬ ((n : Int) < 0) := by omega
    simp [truncateTarget, this]

theorem size_open {s : Raw} (ho : s.closed = false) : size s = (.ok s.data.length, s) := by
  unfold size
  rw [PyM.bind_ok (checkClosed_ok ho)]; rfl

end Raw

end Verif
