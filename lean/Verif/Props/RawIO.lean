import Verif.Lemmas.RawIO

/-!
# C26 to C33: raw I/O
-/

namespace Verif.Props

open Verif Verif.Spec Verif.Raw

/-! ## C29, C32: read, write, seek, tell -/

/-- The offset at which a write lands: the end of the file in append mode, otherwise the position. -/
def landing (s : Raw) : Nat := if s.append then s.data.length else s.pos

/-- What `write` may return and do. -/
def WriteContract (s : Raw) (buf : Bytes) : Except Exn (Option Nat) × Raw → Prop
  | (.ok none, s') => s'.data = s.data ∧ (s.platform = .unix → ∃ rest, s.sched = .again :: rest)
  | (.ok (some k), s') => k ≤ buf.length ∧ (buf ≠ [] → 1 ≤ k) ∧ Stored s.fill s.data (landing s) (buf.take k) s'.data ∧
      (k ≠ 0 → s'.pos = landing s + k)
  | (.error _, s') => s'.data = s.data

/-- C32, unix: what the return value of `write` says. -/
theorem C32_write_unix (s : Raw) (buf : Bytes) (ho : s.closed = false) (hw : s.writable = true)
    (hp : s.platform = .unix) : WriteContract s buf (write buf s) := by
  rw [write_unix buf ho hw hp]
  rcases osWrite_cases s.append buf s with ⟨k, sched', hk, h, _⟩ | ⟨sched', h, hs⟩ | ⟨e, sched', h⟩
  · rw [h]
    dsimp only
    split
    · rename_i hz
      simp only [WriteContract, hz.2, List.take_zero, writeAt_nil]
    · rename_i hz
      refine ⟨hk, ?_, ?_, ?_⟩
      · intro hb
        have : k ≠ 0 := fun h0 => hz ⟨hb, h0⟩
        omega
      · exact stored_writeAt _ _ _ _
      · intro h0; simp [h0, landing]
  · rw [h]; exact ⟨rfl, fun _ => ⟨_, hs⟩⟩
  · rw [h]; exact rfl

theorem innerWrite_windows {s : Raw} (buf : Bytes) (hk : s.seekable = true) (hp : s.platform = .windows) :
    innerWrite buf s = match osWrite false buf { s with pos := landing s } with
      | (.ok (some 0), s') => (.ok none, s')
      | r => r := by
  have key : ∀ s₀ : Raw, s₀.seekable = true →
      ((do
        let _ ← innerTell
        let r ← osWrite false buf
        pure (match r with
          | some 0 => none
          | r => r)) : PyM Raw (Option Nat)) s₀ =
      match osWrite false buf s₀ with
      | (.ok (some 0), s') => (.ok none, s')
      | r => r := by
    intro s₀ h₀
    rw [PyM.bind_ok (show innerTell s₀ = (.ok s₀.pos, s₀) by simp [innerTell, h₀]), PyM.bind_apply]
    rcases osWrite_cases false buf s₀ with ⟨k, sched', _, h, _⟩ | ⟨sched', h, hs⟩ | ⟨e, sched', h⟩
    · rw [h]
      match k with
      | 0 => simp
      | k + 1 => simp
    · rw [h]; simp
    · rw [h]
  unfold innerWrite
  split
  · rename_i h; rw [hp] at h; cases h
  · rw [PyM.bind_apply]
    have hseek : PyM.when s.append (innerSeek 0 .fin) s = (.ok (), { s with pos := landing s }) := by
      unfold landing PyM.when
      split
      · simp [innerSeek, hk]
      · rfl
    rw [hseek]
    exact key _ hk

/-- C32, windows (files): the same contract; the bytes of a gap are not specified by the system. -/
theorem C32_write_windows (s : Raw) (buf : Bytes) (ho : s.closed = false) (hw : s.writable = true)
    (hk : s.seekable = true) (hp : s.platform = .windows) : WriteContract s buf (write buf s) := by
  unfold write
  rw [PyM.bind_ok (checkClosed_ok ho), PyM.bind_ok (checkWritable_ok ho hw), PyM.bind_apply,
    innerWrite_windows buf hk hp]
  rcases osWrite_cases false buf { s with pos := landing s } with ⟨k, sched', hk, h, _⟩ | ⟨sched', h, hs⟩ | ⟨e, sched', h⟩
  · rw [h]
    match k, hk with
    | 0, _ => simp [WriteContract, hp]
    | k + 1, hk =>
      have : ¬ buf.length < k + 1 := by omega
      simp only [WriteContract, Option.some.injEq, PyM.ite_apply, this, if_false, PyM.pure_apply, Nat.succ_ne_zero,
        and_false, Bool.false_eq_true]
      exact ⟨hk, fun _ => by omega, stored_writeAt _ _ _ _, by simp⟩
  · rw [h]; simp [WriteContract, hp]
  · rw [h]; exact rfl

/-- C29: on a blocking file `write` stores a non-empty prefix of the data at the position, filling a gap with zeros, and
advances the position by the count. -/
theorem C29_write (s : Raw) (buf : Bytes) (ho : s.closed = false) (hw : s.writable = true) (hp : s.platform = .unix)
    (ha : s.append = false) (hb : Blocking s.sched) :
    ∃ k s', write buf s = (.ok (some k), s') ∧ k ≤ buf.length ∧ (buf ≠ [] → 1 ≤ k) ∧
      Stored (fun _ => 0) s.data s.pos (buf.take k) s'.data ∧ s'.pos = s.pos + k ∧ Blocking s'.sched ∧
      (s.sched = [] → k = buf.length) := by
  have hfill : s.fill = fun _ => 0 := by funext i; simp [Raw.fill, hp]
  rw [write_unix buf ho hw hp]
  rcases osWrite_cases s.append buf s with ⟨k, sched', hk, h, hs⟩ | ⟨sched', h, hs⟩ | ⟨e, sched', h⟩
  · rw [h]
    have hk1 : buf ≠ [] → 1 ≤ k := by
      intro hne
      have := List.length_pos_iff.2 hne
      rcases hs with ⟨_, h1, _⟩ | ⟨j, hj, h1⟩
      · omega
      · obtain ⟨k', e, hk'⟩ := hb (.count j) (by simp [hj])
        cases e; omega
    have : ¬ (buf ≠ [] ∧ k = 0) := by
      rintro ⟨h1, h2⟩; have := hk1 h1; omega
    dsimp only
    rw [if_neg this]
    refine ⟨k, _, rfl, hk, hk1, ?_, ?_, ?_, ?_⟩
    · have := stored_writeAt s.fill s.data s.pos (buf.take k)
      rw [hfill] at this
      simpa [ha, hfill] using this
    · simp only [ha, Bool.false_eq_true, if_false]
      split <;> omega
    · rcases hs with ⟨_, _, h1⟩ | ⟨j, hj, _⟩
      · simp [Blocking, h1]
      · exact fun a ha' => hb a (by rw [hj]; exact List.mem_cons_of_mem _ ha')
    · intro h0
      rcases hs with ⟨_, h1, _⟩ | ⟨j, hj, _⟩
      · exact h1
      · rw [h0] at hj; cases hj
  · obtain ⟨k, e, _⟩ := hb .again (by simp [hs])
    cases e
  · exfalso
    unfold osWrite nextAns at h
    split at h
    · rename_i heq; cases h
    · rename_i heq; cases h
    · rename_i heq
      split at heq
      · cases heq
      · rename_i a rest hs; cases heq; obtain ⟨k, e, _⟩ := hb .pipe (by simp [hs]); cases e
    · rename_i heq
      split at heq
      · cases heq
      · rename_i a rest hs; cases heq; obtain ⟨k, e, _⟩ := hb _ (by rw [hs]; exact List.mem_cons_self); cases e

example : (write [1, 2, 3] ⟨.unix, fun _ => 7, false, false, true, true, false, [9], 3, [.count 2], [], []⟩).1 = .ok (some 2) ∧
    (write [1, 2, 3] ⟨.unix, fun _ => 7, false, false, true, true, false, [9], 3, [.count 2], [], []⟩).2.data =
      [9, 0, 0, 1, 2] := by decide +kernel

/-- C29: `read(n)` returns the bytes at the position, at most `n`, and advances the position by their number; the file
is not changed; on a blocking file an empty result for `n > 0` means the end of the file. -/
theorem C29_read (s : Raw) (n : Nat) (ho : s.closed = false) (hr : s.readable = true) (hb : Blocking s.sched) :
    ∃ got s', read (some (n : Int)) s = (.ok (some got), s') ∧ got.length ≤ n ∧
      (∀ i, i < got.length → got[i]? = s.data[s.pos + i]?) ∧ s'.pos = s.pos + got.length ∧ s'.data = s.data ∧
      (got = [] → 0 < n → s.data.length ≤ s.pos) ∧ Blocking s'.sched := by
  rw [readSome_eq n ho hr]
  rcases innerRead_cases n s with ⟨k, sched', h, hk, hs⟩ | ⟨sched', h, hs⟩ | ⟨sched', h, hs⟩ | ⟨e, sched', h, hs⟩
  · refine ⟨_, _, h, ?_, ?_, rfl, rfl, ?_, ?_⟩
    · simp; omega
    · intro i hi
      simp only [List.length_take, List.length_drop] at hi
      rw [List.getElem?_take, if_pos (by omega), List.getElem?_drop]
    · intro h0 hn
      have hk1 : 1 ≤ k := by
        rcases hs with ⟨_, h1, _⟩ | ⟨j, hj, h1⟩
        · omega
        · obtain ⟨k', e, hk'⟩ := hb (.count j) (by simp [hj])
          cases e; omega
      have := congrArg List.length h0
      simp at this
      omega
    · rcases hs with ⟨_, _, h1⟩ | ⟨j, hj, _⟩
      · simp [Blocking, h1]
      · exact fun a ha' => hb a (by rw [hj]; exact List.mem_cons_of_mem _ ha')
  · obtain ⟨k, e, _⟩ := hb .again (by simp [hs]); cases e
  · obtain ⟨k, e, _⟩ := hb .pipe (by simp [hs]); cases e
  · obtain ⟨k, e', _⟩ := hb (.fail e) (by simp [hs]); cases e'

/-- C29: `seek` and `tell`. -/
theorem C29_seek (s : Raw) (ho : s.closed = false) (hk : s.seekable = true) (offset : Int) (whence : Whence) :
    let target : Int := offset + (match whence with
      | .set => (0 : Int)
      | .cur => s.pos
      | .fin => s.data.length)
    (target < 0 → seek offset whence s = (.error (.ioError 22), s)) ∧
    (0 ≤ target → seek offset whence s = (.ok target.toNat, { s with pos := target.toNat })) ∧
    tell s = (.ok s.pos, s) := by
  refine ⟨fun h => ?_, fun h => ?_, ?_⟩
  · unfold seek
    rw [PyM.bind_ok (checkClosed_ok ho)]
    cases whence <;> simp only [innerSeek, hk, if_true] <;> rw [if_neg] <;> dsimp only at h <;> omega
  · unfold seek
    rw [PyM.bind_ok (checkClosed_ok ho)]
    cases whence <;> simp only [innerSeek, hk, if_true] <;> dsimp only at h ⊢ <;> rw [if_pos (by omega)] <;>
      simp [Int.add_comm]
  · unfold tell
    rw [PyM.bind_ok (checkClosed_ok ho)]
    simp [innerTell, hk]

/-! ## C30 -/

private theorem readallLoop_spec (fuel : Nat) : ∀ (chunks : Bytes) (s : Raw), s.closed = false → s.readable = true →
    NonBlocking s.sched → s.data.length - s.pos < fuel →
    ∃ m, (readallLoop fuel chunks s).2.data = s.data ∧
      (readallLoop fuel chunks s).2.pos = s.pos + ((s.data.drop s.pos).take m).length ∧
      (∃ r, (readallLoop fuel chunks s).1 = .ok r ∧
        (r = some (chunks ++ (s.data.drop s.pos).take m) ∨
          r = none ∧ chunks = [] ∧ (s.data.drop s.pos).take m = [] ∧ .again ∈ s.sched)) ∧
      (s.data.length - s.pos ≤ m ∨
        ∃ pre post, s.sched = pre ++ .again :: post ∧ .again ∉ pre ∧ (readallLoop fuel chunks s).2.sched = post) := by
  have hpos : 0 < chunkSize := by decide
  induction fuel with
  | zero => intro _ _ _ _ _ h; omega
  | succ fuel ih =>
    intro chunks s ho hr hn hf
    unfold readallLoop
    rw [PyM.bind_apply, readN_eq _ ho hr]
    rcases innerRead_cases chunkSize s with ⟨k, sched', h, hk, hs⟩ | ⟨sched', h, hs⟩ | ⟨sched', h, hs⟩ | ⟨e, sched', h, hs⟩
    · have hk1 : 1 ≤ k := by
        rcases hs with ⟨_, h1, _⟩ | ⟨j, hj, h1⟩
        · omega
        · rcases hn (.count j) (by simp [hj]) with h2 | ⟨k', e, hk'⟩
          · cases h2
          · cases e; omega
      have hsub : ∀ a ∈ sched', a ∈ s.sched := by
        rcases hs with ⟨_, _, h1⟩ | ⟨j, hj, _⟩
        · simp [h1]
        · intro a ha; rw [hj]; exact List.mem_cons_of_mem _ ha
      rw [h]
      dsimp only
      cases hgot : (s.data.drop s.pos).take k with
      | nil =>
        dsimp only
        refine ⟨k, rfl, by simp [hgot], ⟨_, rfl, ?_⟩, ?_⟩
        · left
          by_cases hc : chunks = []
          · simp [hc, hgot]
          · simp [hc, hgot]
        · left
          have := congrArg List.length hgot
          simp at this
          omega
      | cons b bs =>
        dsimp only
        have hlen : (b :: bs).length = min k (s.data.length - s.pos) := by
          rw [← hgot]; simp
        have hlen' : (b :: bs).length = bs.length + 1 := rfl
        obtain ⟨m, h1, h2, ⟨r, h3, h4⟩, h5⟩ := ih (chunks ++ (b :: bs))
          { s with pos := s.pos + (b :: bs).length, sched := sched' } ho hr
          (fun a ha => hn a (hsub a ha)) (by clear hs; dsimp only; omega)
        dsimp only at h1 h2 h4 h5
        have hsplit : ∀ m, (s.data.drop s.pos).take (k + m) =
            (b :: bs) ++ (s.data.drop (s.pos + (b :: bs).length)).take m := by
          intro m
          clear hs h5
          by_cases hle : k ≤ s.data.length - s.pos
          · rw [List.take_add, hgot, List.drop_drop]
            congr 3; omega
          · rw [List.take_of_length_le (by simp; omega), ← hgot, List.take_of_length_le (by simp; omega)]
            rw [List.drop_eq_nil_of_le (i := s.pos + ((s.data.drop s.pos)).length) (by simp; omega)]
            simp
        refine ⟨k + m, h1, ?_, ⟨r, h3, ?_⟩, ?_⟩
        · clear hs h5
          rw [h2, hsplit m, List.length_append]; omega
        · left
          rcases h4 with h4 | ⟨_, h6, _⟩
          · rw [h4, hsplit m, List.append_assoc]
          · simp at h6
        · rcases h5 with h5 | ⟨pre, post, e1, e2, e3⟩
          · left
            clear hs
            omega
          · right
            rcases hs with ⟨_, _, h1⟩ | ⟨j, hj, _⟩
            · simp [h1] at e1
            · exact ⟨.count j :: pre, post, by rw [hj, e1]; rfl, by simp [e2], e3⟩
    · rw [h]
      dsimp only
      refine ⟨0, rfl, by simp, ⟨_, rfl, ?_⟩, ?_⟩
      · by_cases hc : chunks = []
        · right; simp [hc, hs]
        · left; simp [hc]
      · right; exact ⟨[], sched', hs, by simp, rfl⟩
    · rcases hn .pipe (by simp [hs]) with h2 | ⟨_, e, _⟩
      · cases h2
      · cases e
    · rcases hn (.fail e) (by simp [hs]) with h2 | ⟨_, e', _⟩
      · cases h2
      · cases e'

/-- C30: on a blocking file `readall()` and `read(-1)` return everything from the position to the end, whatever the
sizes of the partial reads, and leave the position at the end. -/
theorem C30_readall (s : Raw) (ho : s.closed = false) (hr : s.readable = true) (hb : Blocking s.sched) :
    (readall s).1 = .ok (some (s.data.drop s.pos)) ∧ (readall s).2.data = s.data ∧
      (readall s).2.pos = max s.pos s.data.length ∧
      (∀ n : Option Int, (∀ z, n = some z → z < 0) → read n s = readall s) := by
  have hn : NonBlocking s.sched := fun a ha => Or.inr (hb a ha)
  have hna : .again ∉ s.sched := by
    intro h; obtain ⟨k, e, _⟩ := hb _ h; cases e
  obtain ⟨m, h1, h2, ⟨r, h3, h4⟩, h5⟩ := readallLoop_spec (s.data.length - s.pos + 1) [] s ho hr hn (by omega)
  have hm : s.data.length - s.pos ≤ m := by
    rcases h5 with h5 | ⟨pre, post, e, _⟩
    · exact h5
    · exact absurd (by rw [e]; simp) hna
  have ht : (s.data.drop s.pos).take m = s.data.drop s.pos := List.take_of_length_le (by simp; omega)
  rw [ht] at h2 h4
  refine ⟨?_, h1, ?_, ?_⟩
  · change (readallLoop _ [] s).1 = _
    rw [h3]
    rcases h4 with h4 | ⟨_, _, _, h6⟩
    · rw [h4]; rfl
    · exact absurd h6 hna
  · change (readallLoop _ [] s).2.pos = _
    rw [h2]; simp; omega
  · intro n hz
    unfold Raw.read
    rw [PyM.bind_ok (checkClosed_ok ho), PyM.bind_ok (checkReadable_ok ho hr)]
    cases n with
    | none => rfl
    | some z => simp [hz z rfl]

/-- C30: on a non-blocking stream the result is what could be read so far, a prefix of the rest of the file; it is
`None` only if nothing was read and the system said that it would block; the position advances by what was read; the call
does not stop before the end of the file or the first answer that the system would block. -/
theorem C30_nonblocking (s : Raw) (ho : s.closed = false) (hr : s.readable = true) (hn : NonBlocking s.sched) :
    ∃ got, got <+: s.data.drop s.pos ∧ (readall s).2.data = s.data ∧ (readall s).2.pos = s.pos + got.length ∧
      ((readall s).1 = .ok (some got) ∨ (readall s).1 = .ok none ∧ got = [] ∧ .again ∈ s.sched) ∧
      (got = s.data.drop s.pos ∨
        ∃ pre post, s.sched = pre ++ .again :: post ∧ .again ∉ pre ∧ (readall s).2.sched = post) := by
  obtain ⟨m, h1, h2, ⟨r, h3, h4⟩, h5⟩ := readallLoop_spec (s.data.length - s.pos + 1) [] s ho hr hn (by omega)
  refine ⟨(s.data.drop s.pos).take m, List.take_prefix _ _, h1, h2, ?_, ?_⟩
  · change (readallLoop _ [] s).1 = _ ∨ (readallLoop _ [] s).1 = _ ∧ _
    rw [h3]
    rcases h4 with h4 | ⟨h4, _, h5, h6⟩
    · left; rw [h4]; rfl
    · right; rw [h4]; exact ⟨rfl, h5, h6⟩
  · rcases h5 with h5 | h5
    · left; exact List.take_of_length_le (by simp; omega)
    · exact Or.inr h5

example : (readall ⟨.unix, fun _ => 7, false, true, true, true, false, [9, 8, 7, 6], 1, [.count 2, .count 1, .again], [], []⟩).1
    = .ok (some [8, 7, 6]) := by decide +kernel

/-! ## C31 -/

/-- C31 (partial): `readinto(b)` stores what was read at the start of `b`, leaves the rest of `b` unchanged and returns
the count; 0 (for a non-empty `b`) means the end of the file.  Missing: would-block (`C31_refuted`). -/
theorem C31_readinto_partial (s : Raw) (b : Bytes) (ho : s.closed = false) (hr : s.readable = true)
    (hb : Blocking s.sched) :
    ∃ k b' s', readinto b s = (.ok (k, b'), s') ∧ k ≤ b.length ∧ b'.length = b.length ∧
      (∀ i, i < k → b'[i]? = s.data[s.pos + i]?) ∧ (∀ i, k ≤ i → b'[i]? = b[i]?) ∧ s'.pos = s.pos + k ∧
      s'.data = s.data ∧ (k = 0 → b ≠ [] → s.data.length ≤ s.pos) := by
  obtain ⟨got, s', h, h1, h2, h3, h4, h5, _⟩ := C29_read s b.length ho hr hb
  rw [readSome_eq _ ho hr] at h
  refine ⟨got.length, got ++ b.drop got.length, s', ?_, h1, by simp; omega, ?_, ?_, h3, h4, ?_⟩
  · unfold readinto
    rw [PyM.bind_ok (checkClosed_ok ho), PyM.bind_ok (checkReadable_ok ho hr), PyM.bind_ok h]
    rfl
  · intro i hi
    rw [List.getElem?_append_left hi, h2 i hi]
  · intro i hi
    rw [List.getElem?_append_right hi, List.getElem?_drop]
    congr 1; omega
  · intro h0 hne
    exact h5 (List.length_eq_zero_iff.1 h0) (List.length_pos_iff.2 hne)

/-- C31 is false of the code: on a non-blocking stream without data `readinto` raises `TypeError` instead of returning
`None`. -/
theorem C31_refuted (s : Raw) (b : Bytes) (rest : List OsAns) (ho : s.closed = false) (hr : s.readable = true)
    (hs : s.sched = .again :: rest) : (readinto b s).1 = .error .typeError := by
  unfold readinto
  rw [PyM.bind_ok (checkClosed_ok ho), PyM.bind_ok (checkReadable_ok ho hr)]
  rw [PyM.bind_ok (show innerRead b.length s = (.ok none, { s with sched := rest }) by
    simp only [innerRead, nextAns, hs])]
  rfl

/-! ## C33 -/

/-- C33: every method of a closed raw stream raises `ValueError` and changes nothing. -/
theorem C33_raw_closed (s : Raw) (hc : s.closed = true) :
    (∀ n, Raw.read n s = (.error .valueError, s)) ∧
    readall s = (.error .valueError, s) ∧
    (∀ b, readinto b s = (.error .valueError, s)) ∧
    (∀ b, write b s = (.error .valueError, s)) ∧
    (∀ o w, seek o w s = (.error .valueError, s)) ∧
    tell s = (.error .valueError, s) ∧
    size s = (.error .valueError, s) ∧
    (∀ a z, truncate a z s = (.error .valueError, s)) ∧
    flush s = (.error .valueError, s) ∧
    (∀ d, Raw.lockFile d s = (.error .valueError, s)) ∧
    Raw.unlockFile s = (.error .valueError, s) ∧
    Raw.close s = (.ok (), s) := by
  have h1 : checkClosed s = (.error .valueError, s) := by simp [checkClosed, hc]
  have h2 : checkSeekable s = (.error .valueError, s) := by simp [checkSeekable, hc]
  refine ⟨fun n => PyM.bind_error h1, ?_, fun b => PyM.bind_error h1, fun b => PyM.bind_error h1,
    fun o w => PyM.bind_error h1, PyM.bind_error h1, PyM.bind_error h1, fun a z => PyM.bind_error h2, h1,
    fun d => PyM.bind_error h2, PyM.bind_error h2, by simp [Raw.close, hc]⟩
  unfold readall readallLoop readN
  rw [PyM.bind_error]
  exact PyM.bind_error h1

/-! ## C26 -/

private theorem readallLoop_data (fuel : Nat) : ∀ (chunks : Bytes) (s : Raw),
    (readallLoop fuel chunks s).2.data = s.data ∧ (readallLoop fuel chunks s).2.append = s.append ∧
    (readallLoop fuel chunks s).2.platform = s.platform := by
  induction fuel with
  | zero => intro _ _; exact ⟨rfl, rfl, rfl⟩
  | succ fuel ih =>
    intro chunks s
    unfold readallLoop
    rw [PyM.bind_apply]
    have hN : (readN chunkSize s).2.data = s.data ∧ (readN chunkSize s).2.append = s.append ∧
        (readN chunkSize s).2.platform = s.platform := by
      unfold readN
      by_cases ho : s.closed = true
      · rw [PyM.bind_error (show checkClosed s = (.error .valueError, s) by simp [checkClosed, ho])]
        exact ⟨rfl, rfl, rfl⟩
      · rw [PyM.bind_ok (checkClosed_ok (by simpa using ho))]
        by_cases hr : s.readable = true
        · rw [PyM.bind_ok (checkReadable_ok (by simpa using ho) hr)]
          rcases innerRead_cases chunkSize s with ⟨k, sched', h, _⟩ | ⟨sched', h, _⟩ | ⟨sched', h, _⟩ | ⟨e, sched', h, _⟩ <;>
            rw [h] <;> exact ⟨rfl, rfl, rfl⟩
        · rw [PyM.bind_error (show checkReadable s = (.error .unsupported, s) by simp [checkReadable, ho, hr])]
          exact ⟨rfl, rfl, rfl⟩
    cases hq : readN chunkSize s with
    | mk r s' =>
      rw [hq] at hN
      obtain ⟨h1, h2, h3⟩ := hN
      dsimp only at h1 h2 h3 ⊢
      cases r with
      | error e => exact ⟨h1, h2, h3⟩
      | ok d =>
        dsimp only
        split
        · obtain ⟨i1, i2, i3⟩ := ih (chunks ++ _) s'
          exact ⟨i1.trans h1, i2.trans h2, i3.trans h3⟩
        · exact ⟨h1, h2, h3⟩

private theorem read_data (n : Option Int) (s : Raw) : (Raw.read n s).2.data = s.data ∧
    (Raw.read n s).2.append = s.append ∧ (Raw.read n s).2.platform = s.platform := by
  unfold Raw.read
  by_cases ho : s.closed = true
  · rw [PyM.bind_error (show checkClosed s = (.error .valueError, s) by simp [checkClosed, ho])]
    exact ⟨rfl, rfl, rfl⟩
  · rw [PyM.bind_ok (checkClosed_ok (by simpa using ho))]
    by_cases hr : s.readable = true
    · rw [PyM.bind_ok (checkReadable_ok (by simpa using ho) hr)]
      cases n with
      | none => exact readallLoop_data _ _ _
      | some z =>
        dsimp only
        rw [PyM.ite_apply]
        split
        · exact readallLoop_data _ _ _
        · rcases innerRead_cases z.toNat s with ⟨k, sched', h, _⟩ | ⟨sched', h, _⟩ | ⟨sched', h, _⟩ | ⟨e, sched', h, _⟩ <;>
            rw [h] <;> exact ⟨rfl, rfl, rfl⟩
    · rw [PyM.bind_error (show checkReadable s = (.error .unsupported, s) by simp [checkReadable, ho, hr])]
      exact ⟨rfl, rfl, rfl⟩

private theorem write_append (s : Raw) (ha : s.append = true) (hp : s.platform = .unix) (buf : Bytes) :
    (∃ k s', k ≤ buf.length ∧ write buf s = (.ok (some k), s') ∧ s'.data = s.data ++ buf.take k ∧ s'.append = true ∧
      s'.platform = .unix) ∨
    (∃ r s', (∀ k, r ≠ .ok (some k)) ∧ write buf s = (r, s') ∧ s'.data = s.data ∧ s'.append = true ∧
      s'.platform = .unix) := by
  by_cases ho : s.closed = true
  · right
    exact ⟨.error .valueError, s, by simp, PyM.bind_error (by simp [checkClosed, ho]), rfl, ha, hp⟩
  by_cases hw : s.writable = true
  · rw [write_unix buf (by simpa using ho) hw hp]
    rcases osWrite_cases s.append buf s with ⟨k, sched', hk, h, _⟩ | ⟨sched', h, hs⟩ | ⟨e, sched', h⟩
    · rw [h]
      dsimp only
      split
      · rename_i hz
        right
        exact ⟨_, _, by simp, rfl, by simp [hz.2], ha, hp⟩
      · left
        exact ⟨k, _, hk, rfl, by simp [writeAt_end], ha, hp⟩
    · rw [h]; right; exact ⟨_, _, by simp, rfl, rfl, ha, hp⟩
    · rw [h]; right; exact ⟨_, _, by simp, rfl, rfl, ha, hp⟩
  · right
    refine ⟨.error .unsupported, s, by simp, ?_, rfl, ha, hp⟩
    unfold Raw.write
    rw [PyM.bind_ok (checkClosed_ok (by simpa using ho)), PyM.bind_error]
    simp [checkWritable, ho, hw]

private theorem seek_data (o : Int) (wh : Whence) (s : Raw) : (seek o wh s).2.data = s.data ∧
    (seek o wh s).2.append = s.append ∧ (seek o wh s).2.platform = s.platform := by
  unfold seek
  by_cases ho : s.closed = true
  · rw [PyM.bind_error (show checkClosed s = (.error .valueError, s) by simp [checkClosed, ho])]
    exact ⟨rfl, rfl, rfl⟩
  · rw [PyM.bind_ok (checkClosed_ok (by simpa using ho))]
    unfold innerSeek
    cases wh <;> dsimp only <;> (repeat' split) <;> exact ⟨rfl, rfl, rfl⟩

private theorem tell_state (s : Raw) : (tell s).2 = s := by
  unfold tell
  by_cases ho : s.closed = true
  · rw [PyM.bind_error (show checkClosed s = (.error .valueError, s) by simp [checkClosed, ho])]
  · rw [PyM.bind_ok (checkClosed_ok (by simpa using ho))]
    unfold innerTell
    split <;> rfl

private theorem size_state (s : Raw) : (size s).2 = s := by
  unfold size
  by_cases ho : s.closed = true
  · rw [PyM.bind_error (show checkClosed s = (.error .valueError, s) by simp [checkClosed, ho])]
  · rw [PyM.bind_ok (checkClosed_ok (by simpa using ho))]; rfl

/-- Everything needed about a call that does not write. -/
private theorem call_append {α : Type} (w : Shared) (h : ∀ i, (w.streams i).append = true ∧ (w.streams i).platform = .unix)
    (i : Nat) (m : PyM Raw α) (h2 : (m (w.view i)).2.append = true) (h3 : (m (w.view i)).2.platform = .unix) :
    (w.call i m).1 = (m (w.view i)).1 ∧ (w.call i m).2.data = (m (w.view i)).2.data ∧
    ∀ j, ((w.call i m).2.streams j).append = true ∧ ((w.call i m).2.streams j).platform = .unix := by
  unfold Shared.call
  refine ⟨rfl, rfl, fun j => ?_⟩
  dsimp only [updMap]
  split
  · exact ⟨h2, h3⟩
  · exact h j

private theorem step_append (w : Shared) (h : ∀ i, (w.streams i).append = true ∧ (w.streams i).platform = .unix)
    (op : SharedOp) :
    (w.step op).1.data = w.data ++ (w.step op).2 ∧
    (∀ i, ((w.step op).1.streams i).append = true ∧ ((w.step op).1.streams i).platform = .unix) := by
  have ha : ∀ i, (w.view i).append = true := fun i => (h i).1
  have hp : ∀ i, (w.view i).platform = .unix := fun i => (h i).2
  have hd : ∀ i, (w.view i).data = w.data := fun i => rfl
  cases op with
  | write i buf =>
    simp only [Shared.step]
    rcases write_append (w.view i) (ha i) (hp i) buf with ⟨k, s', hk, h1, h2, h3, h4⟩ | ⟨r, s', hr, h1, h2, h3, h4⟩
    · obtain ⟨c1, c2, c3⟩ := call_append w h i (Raw.write buf) (by rw [h1]; exact h3) (by rw [h1]; exact h4)
      rw [h1] at c1 c2
      split
      · rename_i k' w' heq
        rw [heq] at c1 c2 c3
        cases c1
        exact ⟨by rw [c2]; exact h2, c3⟩
      · rename_i hne heq
        rw [heq] at c1
        exact (hne k c1).elim
    · obtain ⟨c1, c2, c3⟩ := call_append w h i (Raw.write buf) (by rw [h1]; exact h3) (by rw [h1]; exact h4)
      rw [h1] at c1 c2
      split
      · rename_i k' w' heq
        rw [heq] at c1
        exact absurd c1.symm (hr k')
      · rename_i heq
        rw [heq] at c2 c3
        refine ⟨?_, c3⟩
        dsimp only at c2 ⊢
        rw [c2, h2, hd, List.append_nil]
  | read i n =>
    obtain ⟨h1, h2, h3⟩ := read_data n (w.view i)
    obtain ⟨_, c2, c3⟩ := call_append w h i (Raw.read n) (h2.trans (ha i)) (h3.trans (hp i))
    exact ⟨by simp only [Shared.step]; rw [c2, h1, hd, List.append_nil], c3⟩
  | seek i o wh =>
    obtain ⟨h1, h2, h3⟩ := seek_data o wh (w.view i)
    obtain ⟨_, c2, c3⟩ := call_append w h i (Raw.seek o wh) (h2.trans (ha i)) (h3.trans (hp i))
    exact ⟨by simp only [Shared.step]; rw [c2, h1, hd, List.append_nil], c3⟩
  | tell i =>
    have h1 := tell_state (w.view i)
    obtain ⟨_, c2, c3⟩ := call_append w h i Raw.tell (by rw [h1]; exact ha i) (by rw [h1]; exact hp i)
    exact ⟨by simp only [Shared.step]; rw [c2, h1, hd, List.append_nil], c3⟩
  | size i =>
    have h1 := size_state (w.view i)
    obtain ⟨_, c2, c3⟩ := call_append w h i Raw.size (by rw [h1]; exact ha i) (by rw [h1]; exact hp i)
    exact ⟨by simp only [Shared.step]; rw [c2, h1, hd, List.append_nil], c3⟩

/-- C26: for any number of append streams in any processes and every history of their calls, the file is its previous
content followed by the pieces announced as written, in the order of the calls. -/
theorem C26_append (ops : List SharedOp) : ∀ (w : Shared),
    (∀ i, (w.streams i).append = true ∧ (w.streams i).platform = .unix) →
    (w.run ops).1.data = w.data ++ (w.run ops).2.flatten := by
  induction ops with
  | nil => intro w _; simp [Shared.run]
  | cons op ops ih =>
    intro w h
    obtain ⟨h1, h2⟩ := step_append w h op
    simp only [Shared.run, List.flatten_cons]
    rw [ih _ h2, h1, List.append_assoc]

/-- C26: a write that is announced is not empty unless the data is: nothing is announced that was not asked for. -/
theorem C26_pieces (w : Shared) (op : SharedOp) :
    (w.step op).2 = [] ∨ ∃ i buf k, op = .write i buf ∧ (w.step op).2 = buf.take k := by
  cases op with
  | write i buf =>
    unfold Shared.step
    dsimp only
    split
    · exact Or.inr ⟨i, buf, _, rfl, rfl⟩
    · exact Or.inl rfl
  | _ => exact Or.inl rfl

/-- Two append streams; the second one seeks to the start before writing. -/
example : (Shared.run ⟨[9], fun _ => ⟨.unix, fun _ => 7, false, true, true, true, true, [], 0, [.count 2], [], []⟩⟩
    [.write 0 [1, 2, 3], .seek 1 0 .set, .write 1 [4, 5]]).1.data = [9, 1, 2, 4, 5] := by decide +kernel

/-! ## C27 -/

/-- C27: `truncate(n)` on a writable regular stream: if it returns, it returns `n`, the file has exactly `n` bytes,
keeps the ones below `min(n, old size)`, has zeros beyond the old size, and the position is unchanged; without argument
`n` is the position.  It raises only if the system call failed, and then nothing has changed. -/
theorem C27_truncate (s : Raw) (arg : Option Int) (z : Bool) (n : Nat) (harg : arg = none ∧ n = s.pos ∨ arg = some (n : Int))
    (ho : s.closed = false) (hw : s.writable = true) (hk : s.seekable = true) (hp : s.platform = .unix) :
    (∃ s', truncate arg z s = (.ok n, s') ∧ Resized s.data n s'.data ∧ s'.pos = s.pos) ∨
    (∃ e s' rest, s.sched = .fail e :: rest ∧ truncate arg z s = (.error (.ioError e), s') ∧ s'.data = s.data ∧
      s'.pos = s.pos) := by
  have ht : truncateTarget arg s = (.ok n, s) := by
    rcases harg with ⟨rfl, rfl⟩ | rfl
    · unfold truncateTarget tell
      dsimp only
      rw [PyM.bind_ok (checkClosed_ok ho)]
      simp [innerTell, hk]
    · have : ¬ ((n : Int) < 0) := by omega
      simp [truncateTarget, this]
  rw [truncate_open arg z ho hw hk, PyM.bind_ok ht]
  rcases resize_unix n z ho hp with ⟨sched', disk', h, _⟩ | ⟨e, sched', hs, h⟩
  · left
    rw [PyM.bind_ok h]
    have hfill : s.fill = fun _ => 0 := by funext i; simp [Raw.fill, hp]
    refine ⟨{ s with data := (extendTo s.fill s.data n).take n, sched := sched', disk := disk' }, ?_,
      ⟨length_truncated _ _ _, ?_, ?_⟩, rfl⟩
    · unfold size
      rw [PyM.bind_ok (checkClosed_ok
        (s := { s with data := (extendTo s.fill s.data n).take n, sched := sched', disk := disk' }) ho)]
      simp only [innerSize, length_truncated]
    · intro i hi
      rw [getElem?_truncated, if_pos (by omega), if_pos (by omega)]
    · intro i h1 h2
      rw [getElem?_truncated, if_pos h2, if_neg (by omega), hfill]
  · right
    exact ⟨e, _, sched', hs, PyM.bind_error h, rfl, rfl⟩

/-- C27: negative sizes are rejected without any effect. -/
theorem C27_negative (s : Raw) (m : Int) (z : Bool) (hm : m < 0) (ho : s.closed = false) (hw : s.writable = true)
    (hk : s.seekable = true) : truncate (some m) z s = (.error (.ioError 22), s) := by
  rw [truncate_open (some m) z ho hw hk]
  exact PyM.bind_error (by simp [truncateTarget, hm])

/-- C27: a stream that is not writable or not seekable rejects the call without any effect. -/
theorem C27_not_allowed (s : Raw) (arg : Option Int) (z : Bool) (ho : s.closed = false)
    (h : s.writable = false ∨ s.seekable = false) : truncate arg z s = (.error .unsupported, s) := by
  unfold truncate
  cases hk : s.seekable with
  | false => exact PyM.bind_error (by simp [checkSeekable, ho, hk])
  | true =>
    rw [PyM.bind_ok (checkSeekable_ok ho hk)]
    have hw : s.writable = false := by rcases h with h | h; exact h; rw [hk] at h; cases h
    exact PyM.bind_error (by simp [checkWritable, ho, hw])

example : (truncate (some 3) true ⟨.unix, fun _ => 7, false, true, true, true, false, [9], 1, [], [], []⟩).1 = .ok 3 ∧
    (truncate (some 3) true ⟨.unix, fun _ => 7, false, true, true, true, false, [9], 1, [], [], []⟩).2.data = [9, 0, 0] := by
  decide +kernel

/-! ## C28 -/

/-- `s` with another content, position and history. -/
private def at_ (s : Raw) (d : Bytes) (p : Nat) (k : List DiskEv) : Raw := { s with data := d, pos := p, disk := k }

private theorem innerSeek_set {s : Raw} (hk : s.seekable = true) (p : Nat) :
    innerSeek (p : Int) .set s = (.ok p, at_ s s.data p s.disk) := by
  simp [innerSeek, hk, at_]

private theorem innerWrite_full {s : Raw} (hp : s.platform = .windows) (hk : s.seekable = true) (hs : s.sched = [])
    (d buf : Bytes) (hb : buf ≠ []) (k : List DiskEv) :
    innerWrite buf (at_ s d d.length k) =
      (.ok (some buf.length), at_ s (d ++ buf) (d ++ buf).length (k ++ [.content (d ++ buf)])) := by
  have h1 : PyM.when s.append (innerSeek 0 .fin) (at_ s d d.length k) = (.ok (), at_ s d d.length k) := by
    cases h : s.append
    · rfl
    · simp [PyM.when, innerSeek, at_, hk]
  have h2 : innerTell (at_ s d d.length k) = (.ok d.length, at_ s d d.length k) := by simp [innerTell, at_, hk]
  have h3 : osWrite false buf (at_ s d d.length k) =
      (.ok (some buf.length), at_ s (d ++ buf) (d ++ buf).length (k ++ [.content (d ++ buf)])) := by
    have hn : (at_ s d d.length k).nextAns buf.length = (.count buf.length, at_ s d d.length k) := by
      simp [nextAns, at_, hs]
    unfold osWrite
    rw [hn]
    simp only [at_, List.take_length, writeAt_end, hb, if_false, Bool.false_eq_true, List.length_append]
  unfold innerWrite
  rw [show (at_ s d d.length k).platform = .windows from hp]
  dsimp only
  rw [show (at_ s d d.length k).append = s.append from rfl, PyM.bind_ok h1, PyM.bind_ok h2, PyM.bind_ok h3]
  have : buf.length ≠ 0 := by simpa using hb
  split
  · rename_i heq
    exact absurd (Option.some.inj heq) this
  · rfl

private theorem innerWrite_none {s : Raw} (hp : s.platform = .windows) (hk : s.seekable = true) (hs : s.sched = [])
    (d : Bytes) (k : List DiskEv) :
    innerWrite [] (at_ s d d.length k) = (.ok none, at_ s d d.length (k ++ [.content d])) := by
  have h1 : PyM.when s.append (innerSeek 0 .fin) (at_ s d d.length k) = (.ok (), at_ s d d.length k) := by
    cases h : s.append
    · rfl
    · simp [PyM.when, innerSeek, at_, hk]
  have h2 : innerTell (at_ s d d.length k) = (.ok d.length, at_ s d d.length k) := by simp [innerTell, at_, hk]
  have h3 : osWrite false [] (at_ s d d.length k) = (.ok (some 0), at_ s d d.length (k ++ [.content d])) := by
    have hn : (at_ s d d.length k).nextAns 0 = (.count 0, at_ s d d.length k) := by
      simp [nextAns, at_, hs]
    unfold osWrite
    rw [show ([] : Bytes).length = 0 from rfl, hn]
    simp [at_]
  unfold innerWrite
  rw [show (at_ s d d.length k).platform = .windows from hp]
  dsimp only
  rw [show (at_ s d d.length k).append = s.append from rfl, PyM.bind_ok h1, PyM.bind_ok h2, PyM.bind_ok h3]
  rfl

private theorem padLoop_full {s : Raw} (hp : s.platform = .windows) (hk : s.seekable = true) (hs : s.sched = [])
    (q : Nat) (d : Bytes) (k : List DiskEv) :
    ∃ k', padLoop q (at_ s d d.length k) = (.ok (), at_ s (d ++ List.replicate (q * chunkSize) 0)
      (d ++ List.replicate (q * chunkSize) (0 : Byte)).length k') := by
  induction q generalizing d k with
  | zero => exact ⟨k, by simp [padLoop]⟩
  | succ q ih =>
    unfold padLoop
    rw [PyM.bind_ok (innerWrite_full hp hk hs d _ (by
      intro h
      have := congrArg List.length h
      rw [List.length_replicate] at this
      exact absurd this (by decide)) k)]
    obtain ⟨k', h⟩ := ih (d ++ List.replicate chunkSize 0) (k ++ [.content (d ++ List.replicate chunkSize 0)])
    refine ⟨k', ?_⟩
    rw [h]
    have : (q + 1) * chunkSize = chunkSize + q * chunkSize := by rw [Nat.add_mul]; omega
    rw [this, List.append_assoc, List.replicate_append_replicate]

/-- Extension by hand, up to the last write. -/
private theorem fillZeros_full {s : Raw} (n : Nat) (ho : s.closed = false) (hp : s.platform = .windows)
    (hk : s.seekable = true) (hs : s.sched = []) (hn : s.data.length < n) :
    ∃ k, fillZeros n s =
      if (n - s.data.length) % chunkSize = 0 then
        (.error .assertionError, at_ s (s.data ++ List.replicate (n - s.data.length) 0) n k)
      else (.ok (), at_ s (s.data ++ List.replicate (n - s.data.length) 0) s.pos k) := by
  unfold fillZeros
  rw [PyM.bind_ok (size_open ho)]
  have h1 : ¬ s.data.length = n := by omega
  have h2 : ¬ n < s.data.length := by omega
  simp only [PyM.ite_apply, h1, h2, if_false]
  have ht : innerTell s = (.ok s.pos, s) := by simp [innerTell, hk]
  obtain ⟨k, hpad⟩ := padLoop_full hp hk hs ((n - s.data.length) / chunkSize) s.data s.disk
  rw [PyM.bind_ok ht, PyM.bind_ok (innerSeek_set hk _), PyM.bind_ok hpad]
  have hdiv := Nat.div_add_mod (n - s.data.length) chunkSize
  by_cases hz : (n - s.data.length) % chunkSize = 0
  · simp only [hz, if_true]
    have : (n - s.data.length) / chunkSize * chunkSize = n - s.data.length := by
      rw [Nat.mul_comm]; omega
    rw [List.replicate_zero, PyM.bind_ok (innerWrite_none hp hk hs _ _), this]
    simp only [reduceCtorEq, if_false, PyM.raise_apply, List.length_append, List.length_replicate]
    rw [show s.data.length + (n - s.data.length) = n by omega]
    exact ⟨_, rfl⟩
  · simp only [hz, if_false]
    have hb : List.replicate ((n - s.data.length) % chunkSize) (0 : Byte) ≠ [] := by
      simpa using hz
    rw [PyM.bind_ok (innerWrite_full hp hk hs _ _ hb _)]
    rw [List.append_assoc, List.replicate_append_replicate]
    rw [show (n - s.data.length) / chunkSize * chunkSize + (n - s.data.length) % chunkSize = n - s.data.length by
      rw [Nat.mul_comm]; omega]
    simp only [List.length_replicate, if_true]
    unfold seekBack
    refine ⟨k ++ [.content (s.data ++ List.replicate (n - s.data.length) 0)], ?_⟩
    rw [show (at_ s (s.data ++ List.replicate (n - s.data.length) 0)
      (s.data ++ List.replicate (n - s.data.length) (0 : Byte)).length
      (k ++ [.content (s.data ++ List.replicate (n - s.data.length) 0)])).platform = .windows from hp]
    dsimp only
    rw [PyM.bind_ok (innerSeek_set (by exact hk) s.pos)]
    rfl

private theorem resize_windows {s : Raw} (n : Nat) (ho : s.closed = false) (hp : s.platform = .windows)
    (hk : s.seekable = true) (hs : s.sched = []) :
    ∃ k, resize n true s =
      if s.data.length < n ∧ (n - s.data.length) % chunkSize = 0 then
        (.error .assertionError, at_ s (s.data ++ List.replicate (n - s.data.length) 0) n k)
      else (.ok (), at_ s (s.data.take n ++ List.replicate (n - s.data.length) 0) s.pos k) := by
  unfold resize
  rw [PyM.bind_ok (size_open ho)]
  simp only [PyM.ite_apply, PyM.pure_apply]
  split
  · rename_i h
    refine ⟨s.disk, ?_⟩
    rw [if_neg (by omega)]
    subst h
    simp [at_]
  · split
    · rename_i h1 h2
      refine ⟨s.disk ++ [.content (s.data.take n)], ?_⟩
      rw [if_neg (by omega)]
      have ht : innerTell s = (.ok s.pos, s) := by simp [innerTell, hk]
      have hsk : seek (n : Int) .set s = (.ok n, at_ s s.data n s.disk) := by
        unfold seek
        rw [PyM.bind_ok (checkClosed_ok ho), innerSeek_set hk]
      have htr : osTruncate n (at_ s s.data n s.disk) =
          (.ok (), at_ s (s.data.take n) n (s.disk ++ [.content (s.data.take n)])) := by
        have hn : (at_ s s.data n s.disk).nextAns 1 = (.count 1, at_ s s.data n s.disk) := by simp [nextAns, at_, hs]
        unfold osTruncate
        rw [hn]
        have : n - s.data.length = 0 := by omega
        simp [at_, extendTo, this]
      unfold innerReduce
      rw [hp]
      dsimp only
      rw [PyM.bind_ok ht, PyM.bind_ok hsk, PyM.bind_ok htr, PyM.bind_ok (innerSeek_set (by exact hk) s.pos)]
      have : n - s.data.length = 0 := by omega
      simp [at_, this]
    · have he : innerExtend n true s = (.ok (), s) := by unfold innerExtend; rw [hp]; rfl
      have hlt : s.data.length < n := by omega
      obtain ⟨k, h⟩ := fillZeros_full n ho hp hk hs hlt
      refine ⟨k, ?_⟩
      rw [PyM.bind_ok he, h]
      simp only [hlt, true_and, List.take_of_length_le (Nat.le_of_lt hlt)]

/-- C28 (partial): the specification of C27 on windows with `zero_fill=True`, when the file is not extended by an exact
multiple of 8192 bytes, for an operating system that does what it is asked (`Full`). -/
theorem C28_truncate_partial (s : Raw) (arg : Option Int) (n : Nat)
    (harg : arg = none ∧ n = s.pos ∨ arg = some (n : Int))
    (ho : s.closed = false) (hw : s.writable = true) (hk : s.seekable = true) (hp : s.platform = .windows)
    (hs : Full s.sched) (hn : s.data.length < n → (n - s.data.length) % 8192 ≠ 0) :
    ∃ s', truncate arg true s = (.ok n, s') ∧ Resized s.data n s'.data ∧ s'.pos = s.pos := by
  rw [truncate_open arg true ho hw hk, PyM.bind_ok (target_ok arg n harg ho hk)]
  obtain ⟨k, hr⟩ := resize_windows n ho hp hk hs
  rw [if_neg (by intro h; exact hn h.1 h.2)] at hr
  have hlen : (s.data.take n ++ List.replicate (n - s.data.length) (0 : Byte)).length = n := by
    simp only [List.length_append, List.length_take, List.length_replicate]; omega
  refine ⟨at_ s (s.data.take n ++ List.replicate (n - s.data.length) 0) s.pos k, ?_, ⟨hlen, ?_, ?_⟩, rfl⟩
  · rw [PyM.bind_ok hr, size_open (by exact ho)]
    exact Prod.ext (congrArg Except.ok hlen) rfl
  · intro i hi
    simp only [at_]
    rw [List.getElem?_append_left (by simp only [List.length_take]; omega), List.getElem?_take, if_pos (by omega)]
  · intro i h1 h2
    simp only [at_]
    rw [List.getElem?_append_right (by simp only [List.length_take]; omega), List.getElem?_replicate,
      if_pos (by simp only [List.length_take]; omega)]

example : (truncate (some 3) true ⟨.windows, fun _ => 7, false, true, true, true, false, [9], 1, [], [], []⟩).1 = .ok 3 ∧
    (truncate (some 3) true ⟨.windows, fun _ => 7, false, true, true, true, false, [9], 1, [], [], []⟩).2.data = [9, 0, 0] ∧
    Full (⟨.windows, fun _ => 7, false, true, true, true, false, [9], 1, [], [], []⟩ : Raw).sched := by
  refine ⟨by decide +kernel, by decide +kernel, rfl⟩

/-- C28 is false of the code: extending by an exact multiple of 8192 bytes always fails with `AssertionError`; the zeros
have been written and the position has moved to the end. -/
theorem C28_refuted (s : Raw) (n : Nat) (ho : s.closed = false) (hw : s.writable = true) (hk : s.seekable = true)
    (hp : s.platform = .windows) (hs : Full s.sched) (hlt : s.data.length < n) (hn : (n - s.data.length) % 8192 = 0) :
    ∃ s', truncate (some (n : Int)) true s = (.error .assertionError, s') ∧ Resized s.data n s'.data ∧ s'.pos = n := by
  rw [truncate_open _ true ho hw hk, PyM.bind_ok (target_ok _ n (Or.inr rfl) ho hk)]
  obtain ⟨k, hr⟩ := resize_windows n ho hp hk hs
  rw [if_pos ⟨hlt, hn⟩] at hr
  refine ⟨at_ s (s.data ++ List.replicate (n - s.data.length) 0) n k, PyM.bind_error hr, ⟨?_, ?_, ?_⟩, rfl⟩
  · simp only [at_, List.length_append, List.length_replicate]; omega
  · intro i hi
    simp only [at_]
    rw [List.getElem?_append_left (by omega)]
  · intro i h1 h2
    simp only [at_]
    rw [List.getElem?_append_right h1, List.getElem?_replicate, if_pos (by omega)]

example : ∃ s' : Raw, truncate (some ((8193 : Nat) : Int)) true
    ⟨.windows, fun _ => 7, false, true, true, true, false, [9], 1, [], [], []⟩ = (.error .assertionError, s') ∧ s'.pos = 8193 := by
  obtain ⟨s', h1, _, h3⟩ := C28_refuted ⟨.windows, fun _ => 7, false, true, true, true, false, [9], 1, [], [], []⟩ 8193
    rfl rfl rfl rfl rfl (by decide) (by decide)
  exact ⟨s', h1, h3⟩

/-- C28: windows does not notice a short write of the padding: `truncate` returns without reaching the size asked for. -/
theorem C28_short_refuted : ∃ s : Raw, s.closed = false ∧ s.writable = true ∧ s.seekable = true ∧
    s.platform = .windows ∧ Blocking s.sched ∧
    (truncate (some 8193) true s).1 = .ok 2 := by
  refine ⟨⟨.windows, fun _ => 7, false, true, true, true, false, [], 0, [.count 1], [], []⟩, rfl, rfl, rfl, rfl, ?_, ?_⟩
  · intro a ha
    simp only [List.mem_singleton] at ha
    exact ⟨1, ha, by omega⟩
  · decide +kernel

end Verif.Props
