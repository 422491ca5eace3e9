import Verif.Props.Open

/-!
# Rejected calls, wrapped descriptors, leaks and layers: C39 to C44
-/

namespace Verif.Props

open Verif Host OpenArgs

/-! ## C39 -/

/-- Nothing is different, except for the calls to the outside that have been made. -/
def Untouched (w w' : Host) : Prop := ∃ sched, w' = { w with sched := sched }

theorem Untouched.content {w w' : Host} (h : Untouched w w') (p : Bytes) : content w' p = content w p := by
  obtain ⟨sched, rfl⟩ := h
  rfl

/-- The claim of C39. -/
def RejectsCleanly : Prop :=
  ∀ (py : Python) (a : OpenArgs) (w w' : Host), a.opener = none → (∀ e ∈ w.sched, e = none) →
    rsopen py a w = (.error .badValueType, w') → Untouched w w'

/-- `rsopen("f", "w", buffering=0)`. -/
def unbufferedText : OpenArgs := { call [102] "w" with buffering := .given 0 }

/-- C39 is false: `rsopen(name, "w", buffering=0)` is rejected after the file has been erased. -/
theorem C39_refuted : ¬ RejectsCleanly := by
  intro h
  have hr : (rsopen unixPython unbufferedText machine).1 = .error .badValueType := by decide +kernel
  have hc : content (rsopen unixPython unbufferedText machine).2 [102] ≠ content machine [102] := by decide +kernel
  exact hc ((h unixPython unbufferedText machine _ rfl (by simp [machine]) (Prod.ext hr rfl)).content [102])

theorem conv_bad {e : Exn} (h : RawObj.conv e = .badValueType) : e = .badValueType ∨ e = .overflowError := by
  unfold RawObj.conv at h
  split at h
  · exact .inr (by assumption)
  · exact .inl h

theorem create_bad {kw : RawKw} {w w' : Host} (hs : ∀ e, some e ∈ w.sched → e ≠ .badValueType ∧ e ≠ .overflowError)
    (h : RawObj.create kw w = (.error .badValueType, w')) : Untouched w w' := by
  have hno : ∀ e e', (e = e' ∨ e = RawObj.conv e') → e = .badValueType → some e' ∈ w.sched → False := by
    intro e e' hor he hm
    rcases hor with rfl | rfl
    · exact (hs _ hm).1 he
    · rcases conv_bad he with h | h
      · exact (hs _ hm).1 h
      · exact (hs _ hm).2 h
  cases hck : RawObj.check kw with
  | error e' =>
    unfold RawObj.create at h
    rw [PyM.bind_apply, hck] at h
    cases h
    exact ⟨_, rfl⟩
  | ok u =>
    rcases source_cases hck with ⟨p, hp, hf, hh⟩ | ⟨z, hz⟩
    · rcases RawObj.create_course hp hf hh h with ⟨e, _, _, rfl⟩ | ⟨_, ⟨e, _, he⟩ | ⟨hfl, h31, ino, base, hin, hc⟩⟩
      · exact ⟨_, rfl⟩
      · obtain ⟨rfl, _⟩ := sysOpen_error he
        exact ⟨_, rfl⟩
      · exfalso
        rcases hc with ⟨e, k, b, he, rfl, hr⟩ | ⟨hj, n, hn, hd, ⟨e, e', k, he, hm, hor, _⟩ | ⟨k, _, _, he, _⟩⟩
        · injection he with he
          rcases hr with ⟨j, _, _, hj⟩ | ⟨_, rfl⟩ | ⟨_, rfl⟩
          · exact hno _ e (.inr rfl) he.symm (List.mem_of_getElem? hj)
          · simp [RawObj.conv] at he
          · simp [RawObj.conv] at he
        · injection he with he
          exact hno e e' hor he.symm hm
        · cases he
    · rcases RawObj.create_fd_course hz h with ⟨e, _, _, rfl⟩ | ⟨_, ⟨e, e', k, _, rfl, _⟩ | ⟨h0, d, n, hl, hn, hc⟩⟩
      · exact ⟨_, rfl⟩
      · exact ⟨_, rfl⟩
      · exfalso
        rcases hc with ⟨e, e', k, c, he, _, _, hc⟩ | ⟨hd, k, rfl, he⟩
        · injection he with he
          rcases hc with ⟨hor, hm⟩ | ⟨_, _, h, _⟩ | ⟨_, _, h, _⟩
          · exact hno e e' hor he.symm hm
          · rw [h] at he; cases he
          · rw [h] at he; cases he
        · cases he

theorem bufferingValue_zero {a : OpenArgs} (h : a.bufferingValue = 0) : a.buffering = .given 0 := by
  unfold bufferingValue at h
  split at h
  · rename_i hb
    rw [hb, h]
  · simp at h

/-- C39: a rejected call has no effect, except for that of its opener.
Missing: text streams without buffer are rejected after the opening (`C39_refuted`), and the opener has been called;
the system itself must not raise `BadValueTypeError` or `OverflowError` (as `lock_file` does for a bad `timeout`). -/
theorem C39_partial {py : Python} {a : OpenArgs} (hb : a.buffering = .given 0 → Binary a.modeString) {w w' : Host}
    (hs : ∀ e, some e ∈ (start a w).sched → e ≠ .badValueType ∧ e ≠ .overflowError)
    (h : rsopen py a w = (.error .badValueType, w')) : ∃ w0, Began a w w0 ∧ Untouched w0 w' := by
  rcases rsopen_course h with ⟨e, _, hw⟩ | ⟨kw0, kw, ext, t, hp, hpar, hext, hc⟩
  · rcases hw with ⟨rfl, _⟩ | ⟨rfl, _⟩
    · exact ⟨_, .inl rfl, _, rfl⟩
    · exact ⟨_, .inr rfl, _, rfl⟩
  · refine ⟨start a w, .inr rfl, ?_⟩
    rcases hc with ⟨e, he, hc⟩ | ⟨raw, w1, hc, hfin⟩
    · cases he
      exact create_bad hs hc
    · exfalso
      obtain ⟨hck, fd, ino, n, d, evs, k, rfl, _, _, _, _, _, _, hsch, _⟩ := create_made hc
      obtain ⟨k', l, tr, hl, htr, hfc⟩ := finish_course hfin
      rcases hfc with ⟨e, he, _, hr⟩ | ⟨_, _, ⟨_, _, he⟩ | ⟨_, _, _, _, he, _⟩⟩
      · obtain rfl : .badValueType = e := (closing_raises he).resolve_right (by rintro ⟨h, _⟩; cases h)
        rcases hr with hm | ⟨he, _⟩ | ⟨_, hv, hbin⟩ | ⟨_, hr, hw⟩ | ⟨he, _⟩
        · rw [hsch] at hm
          exact (hs _ (List.mem_of_mem_drop hm)).1 rfl
        · cases he
        · have := (parseMode_fields (parse_ok hp).1 (parse_ok hp).2.1 (parse_ok hp).2.2.2.2).binary.2
            (hb (bufferingValue_zero hv))
          rw [hbin] at this
          cases this
        · have := (RawObj.check_ok hck).2.2.1
          simp only [RawObj.built] at hr hw
          rw [hr] at this
          simp at hw
          simp [hw.1, hw.2] at this
        · cases he
      · cases he
      · cases he

/-- C39: without an opener a rejected call has no effect at all (see `C39_partial` for what is missing). -/
theorem C39_no_opener_partial {py : Python} {a : OpenArgs} (ho : a.opener = none)
    (hb : a.buffering = .given 0 → Binary a.modeString) {w w' : Host}
    (hs : ∀ e, some e ∈ w.sched → e ≠ .badValueType ∧ e ≠ .overflowError)
    (h : rsopen py a w = (.error .badValueType, w')) : Untouched w w' := by
  have hst : start a w = w := by unfold start; rw [ho]
  obtain ⟨w0, hw0, hu⟩ := C39_partial hb (by rw [hst]; exact hs) h
  rcases hw0 with rfl | rfl
  · exact hu
  · rw [← hst]; exact hu

-- a rejected call: a path and a descriptor
example : (rsopen unixPython { call [102] "wb" with fileno := some 5 } machine).1 = .error .badValueType := by
  decide +kernel

/-! ## C40 -/

/-- The call wraps a descriptor: it is given as `fileno`, as `handle` or as `name`. -/
def Wraps (a : OpenArgs) (z : Int) : Prop :=
  a.opener = none ∧ ((a.name = .int z ∧ a.fileno = none ∧ a.handle = none) ∨
    (a.name = .none ∧ a.fileno = some z ∧ a.handle = none) ∨ (a.name = .none ∧ a.fileno = none ∧ a.handle = some z))

/-- The claims of C40. -/
def NeverErases : Prop :=
  (∀ (py : Python) (a : OpenArgs) (z : Int) (w : Host), Wraps a z → Kept w (rsopen py a w).2) ∧
  ∀ (py : Python) (z : Int) (mode : List Char) (closefd : Bool) (w : Host),
    Kept w (fileIOWrapper py (.int z) mode closefd w).2

/-- The file `f` is open as 0, and as 5. -/
def wrapped : Host :=
  { machine with fds := [(0, ⟨0, true, true, false, false, true⟩), (5, ⟨0, true, true, false, false, true⟩)] }

/-- `rsopen(fileno=0, mode="wb", buffering=0)`. -/
def wrapZero : OpenArgs := { call [] "wb" with name := .none, fileno := some 0, buffering := .given 0 }

/-- C40 is false for `rsopen(fileno=0)`: descriptor 0 is taken for a missing argument. -/
theorem C40_refuted : ¬ ∀ (py : Python) (a : OpenArgs) (z : Int) (w : Host), Wraps a z → Kept w (rsopen py a w).2 := by
  intro h
  have := h unixPython wrapZero 0 wrapped ⟨rfl, .inr (.inl ⟨rfl, rfl, rfl⟩)⟩ 0 _ rfl
  exact absurd this (by decide +kernel)

/-- C40 is false for the patched `FileIO`, with any descriptor. -/
theorem C40_fileio_refuted : ¬ ∀ (py : Python) (z : Int) (mode : List Char) (closefd : Bool) (w : Host),
    Kept w (fileIOWrapper py (.int z) mode closefd w).2 := by
  intro h
  have := h unixPython 5 ['w'] false wrapped 0 _ rfl
  exact absurd this (by decide +kernel)

/-- C40: wrapping a descriptor leaves all files as they are.
Missing: descriptor 0, for which it is false (`C40_refuted`). -/
theorem C40_partial {py : Python} {a : OpenArgs} {z : Int} (ha : Wraps a z) (hz : z ≠ 0) {w w' : Host}
    {r : Except Exn Opened} (h : rsopen py a w = (r, w')) : Kept w w' ∧ w'.names = w.names := by
  have hst : start a w = w := by unfold start; rw [ha.1]
  rcases rsopen_course h with ⟨e, _, hw⟩ | ⟨kw0, kw, ext, t, hp, hpar, hext, hc⟩
  · rw [hst] at hw
    rcases hw with ⟨rfl, _⟩ | ⟨rfl, _⟩ <;> exact ⟨Kept.rfl' _, rfl⟩
  obtain rfl : kw = kw0 := hpar.elim (fun h => h.2) fun h => absurd ha.1 h.1
  rw [hst] at hc
  have hfl := parseMode_fields (parse_ok hp).1 (parse_ok hp).2.1 (parse_ok hp).2.2.2.2
  have hint : ∀ z', a.name = .int z' → kw.path = .int z' → ∃ e, RawObj.check kw = .error e := by
    intro z' _ hkp
    cases hck : RawObj.check kw with
    | error e => exact ⟨e, rfl⟩
    | ok u =>
      have := (RawObj.check_ok hck).1
      rw [hkp] at this
      simp [NameArg.isString] at this
  have hgv : (∃ e, RawObj.check kw = .error e) ∨
      (RawObj.given kw = some z ∧ (kw.fileno.any (· ≠ 0) || kw.handle.any (· ≠ 0)) = true) := by
    rcases ha.2 with ⟨h1, h2, h3⟩ | ⟨h1, h2, h3⟩ | ⟨h1, h2, h3⟩
    · rcases hfl.int z h1 with ⟨_, hf, _⟩ | hp
      · right
        have hh : kw.handle = none := hfl.handle.trans h3
        have hf : kw.fileno = some z := hf
        simp [RawObj.given, hh, hf, hz]
      · exact .inl (hint z h1 hp)
    · right
      have hh : kw.handle = none := hfl.handle.trans h3
      have hf : kw.fileno = some z := (hfl.none h1).2.trans h2
      simp [RawObj.given, hh, hf, hz]
    · right
      have hh : kw.handle = some z := hfl.handle.trans h3
      have hf : kw.fileno = none := (hfl.none h1).2.trans h2
      simp [RawObj.given, hh, hf, hz]
  have hnames : ∀ r1 w1, RawObj.create kw w = (r1, w1) → w1.names = w.names := by
    intro r1 w1 hc
    rcases hgv with ⟨e, he⟩ | ⟨hg, _⟩
    · unfold RawObj.create at hc
      rw [PyM.bind_apply, he] at hc
      cases hc
      rfl
    · rcases RawObj.create_fd_course hg hc with ⟨_, _, _, rfl⟩ | ⟨_, ⟨_, _, _, _, rfl, _⟩ | ⟨_, _, _, _, _, hc⟩⟩
      · rfl
      · rfl
      · rcases hc with ⟨_, _, _, _, _, rfl, _⟩ | ⟨_, _, rfl, _⟩
        · exact (closeRaw_same _ _ _ _).2.1
        · rfl
  rcases hc with ⟨e, _, hc⟩ | ⟨raw, w1, hc, hfin⟩
  · exact ⟨(create_not_made hc).1, hnames _ _ hc⟩
  · obtain ⟨hck, _, _, _, _, _, _, _, _, _, _, _, _, _, _, _, _, hk, _⟩ := create_made hc
    have ht : t = false := by
      rw [(checkExt_ok hext).2.2]
      rcases hgv with ⟨e, he⟩ | ⟨_, hg⟩
      · rw [hck] at he; cases he
      · rw [hg]; simp
    obtain ⟨h1, _, h3⟩ := finish_files hfin
    rcases h3 with h3 | ⟨_, h, _⟩
    · refine ⟨fun i n hi => ?_, h1.trans (hnames _ _ hc)⟩
      rw [h3]
      exact hk i n hi
    · rw [ht] at h; cases h

example : Wraps { call [] "wb" with name := .int 5 } 5 := ⟨rfl, .inl ⟨rfl, rfl, rfl⟩⟩
example : (rsopen unixPython { call [] "wb" with name := .int 5 } wrapped).1.toBool = true := by decide +kernel

theorem parseStandard_truncate {py : Python} {name : NameArg} {m : List Char} {fileno handle : Option Int}
    {closefd : Bool} {r : RawKw × ExtKw} (h : parseStandard py name m fileno handle closefd = .ok r)
    (ht : r.2.truncate = true) : 'w' ∈ m := by
  unfold parseStandard at h
  extract_lets has creating reading writing appending updating kws at h
  have key : ∀ p f, r = kws p f → 'w' ∈ m := by
    intro p f hr
    rw [hr] at ht
    simp only [kws, writing, has, Bool.and_eq_true] at ht
    simpa using ht.1
  split at h
  · cases h
  split at h
  · cases h
  split at h
  · cases h
  split at h
  · cases h; exact key _ _ rfl
  · cases h; exact key _ _ rfl
  · split at h
    · cases h
    · cases h; exact key _ _ rfl
  · split at h
    · cases h
    · cases h; exact key _ _ rfl
  · cases h

/-- C40: the patched `FileIO` leaves the files as they are in modes other than `w`.
Missing: with `w` it is false (`C40_fileio_refuted`). -/
theorem C40_fileio_partial {py : Python} {name : NameArg} {mode : List Char} (hm : 'w' ∉ mode) {closefd : Bool}
    {w w' : Host} {r : Except Exn RawObj} (h : fileIOWrapper py name mode closefd w = (r, w')) : Kept w w' := by
  unfold fileIOWrapper at h
  cases hp : parseStandard py name mode none none closefd with
  | error e => rw [hp] at h; cases h; exact Kept.rfl' _
  | ok x =>
    obtain ⟨kw, ext⟩ := x
    rw [hp] at h
    dsimp only at h
    have ht : ext.truncate = false := by
      cases ht : ext.truncate with
      | false => rfl
      | true => exact absurd (parseStandard_truncate hp ht) hm
    by_cases hx : ext.text = true
    · rw [if_pos hx] at h; cases h; exact Kept.rfl' _
    rw [if_neg hx] at h
    cases hc : RawObj.create kw w with
    | mk r1 w1 =>
      rw [hc] at h
      cases r1 with
      | error e => cases h; exact (create_not_made hc).1
      | ok raw =>
        dsimp only at h
        rw [ht, Bool.and_false, when_false] at h
        cases h
        obtain ⟨_, _, _, _, _, _, _, _, _, _, _, _, _, _, _, _, _, hk, _⟩ := create_made hc
        exact hk

example : (fileIOWrapper unixPython (.int 5) ['r', '+'] false wrapped).1.toBool = true := by decide +kernel

/-! ## C41 -/

/-- What a failed call for a path may leave: the descriptors and locks of before. -/
structure Released (w w' : Host) : Prop where
  /-- a descriptor that is left over is to be closed later, since the file is locked by another stream -/
  fds : ∀ x ∈ w'.fds, x ∈ w.fds ∨ ∃ ino, (ino, x.1) ∈ w'.pending ∧ ∃ l ∈ w'.held, l.1 = ino
  /-- closed are only descriptors that were to be closed -/
  closed : ∀ x ∈ w.fds, x ∈ w'.fds ∨ ∃ ino, (ino, x.1) ∈ w.pending
  held : ∀ l, l ∈ w'.held ↔ l ∈ w.held

/-- The claim of C41. -/
def NeverLeaks : Prop :=
  ∀ (py : Python) (a : OpenArgs) (p : Bytes) (w w' : Host) (e : Exn), ByPath a p →
    (∀ l ∈ w.held, (w.fds.lookup l.2).isSome) → rsopen py a w = (.error e, w') → Released w w'

/-- C41 is false: `rsopen` of a directory leaves its descriptor open. -/
theorem C41_refuted : ¬ NeverLeaks := by
  intro h
  have hr : (rsopen unixPython (call [100] "r") machine).1 = .error (.ioError 21) := by decide +kernel
  have hrel := h unixPython (call [100] "r") [100] machine (rsopen unixPython (call [100] "r") machine).2 _
    ⟨rfl, rfl, rfl, rfl⟩ (by simp [machine]) (Prod.ext hr rfl)
  have hfds : (rsopen unixPython (call [100] "r") machine).2.fds =
      (3, ⟨1, true, false, false, false, true⟩) :: machine.fds := by decide +kernel
  have hpend : (rsopen unixPython (call [100] "r") machine).2.pending = [] := by decide +kernel
  have := hrel.fds (3, ⟨1, true, false, false, false, true⟩) (by rw [hfds]; simp)
  rw [hpend] at this
  rcases this with h | ⟨_, h, _⟩
  · revert h; decide
  · cases h

/-- C41 is false for regular files, too: the descriptor 0 stays open when the lock is refused, and the exception is
another one. -/
theorem C41_zero_refuted : ∃ (py : Python) (a : OpenArgs) (w w' : Host), ByPath a [102] ∧ w.fds = [] ∧ w.held = [] ∧
    content w [102] = some [1, 2, 3] ∧ w.sched = [none, none, none, none, none, some (.lockingException 11)] ∧
    rsopen py a w = (.error .assertionError, w') ∧ w'.fds.length = 1 ∧ w'.pending = [] ∧ ¬ Released w w' := by
  refine ⟨unixPython, call [102] "w", { machine with fds := [], sched := [none, none, none, none, none,
    some (.lockingException 11)] }, (rsopen unixPython (call [102] "w") { machine with fds := [], sched := [none, none,
    none, none, none, some (.lockingException 11)] }).2, ⟨rfl, rfl, rfl, rfl⟩, rfl, rfl, by decide +kernel, rfl, ?_,
    by decide +kernel, by decide +kernel, ?_⟩
  · have hr : (rsopen unixPython (call [102] "w") { machine with fds := [], sched := [none, none, none, none, none,
        some (.lockingException 11)] }).1 = .error .assertionError := by decide +kernel
    exact Prod.ext hr rfl
  · intro h
    have hf : (rsopen unixPython (call [102] "w") { machine with fds := [], sched := [none, none, none, none, none,
        some (.lockingException 11)] }).2.fds = [(0, ⟨0, false, true, false, false, false⟩)] := by decide +kernel
    have hp : (rsopen unixPython (call [102] "w") { machine with fds := [], sched := [none, none, none, none, none,
        some (.lockingException 11)] }).2.pending = [] := by decide +kernel
    have := h.fds (0, ⟨0, false, true, false, false, false⟩) (by rw [hf]; simp)
    rw [hp] at this
    rcases this with h | ⟨_, h, _⟩ <;> cases h

theorem closeRaw_released {ino fd : Nat} {d : Desc} {w v : Host} (hfree : w.fds.lookup fd = none) (h0 : fd ≠ 0)
    (hw : ∀ l ∈ w.held, (w.fds.lookup l.2).isSome) (hf : v.fds = (fd, d) :: w.fds) (hp : v.pending = w.pending)
    (hh : ∀ l, l ∈ w.held → l ∈ v.held) (hh' : ∀ l, l ∈ v.held → l = (ino, fd) ∨ l ∈ w.held) :
    Released w (closeRaw true ino fd v) := by
  refine ⟨?_, ?_, ?_⟩
  · intro x hx
    rw [closeRaw_fds, hf, List.mem_cons] at hx
    obtain ⟨rfl | hx, he⟩ := hx
    · right
      by_cases ho : OthersLock ino fd v
      · refine ⟨ino, closeRaw_pending.2 (.inr ⟨ho, rfl, h0, rfl⟩), ?_⟩
        obtain ⟨l, h1, h2, h3⟩ := ho
        exact ⟨l, by rw [closeRaw_locks]; exact List.mem_filter.2 ⟨h1, by simpa using h2⟩, h3⟩
      · exact absurd ⟨ho, .inl ⟨rfl, h0, rfl⟩⟩ he
    · exact .inl hx
  · intro x hx
    by_cases he : Ends true ino fd v x.1
    · right
      rcases he.2 with ⟨_, _, h⟩ | ⟨_, h⟩
      · exact absurd h (not_mem_of_lookup_none hfree x hx)
      · exact ⟨ino, hp ▸ h⟩
    · exact .inl (closeRaw_fds.2 ⟨by rw [hf]; exact List.mem_cons_of_mem _ hx, he⟩)
  · intro l
    rw [closeRaw_locks, List.mem_filter, decide_eq_true_iff]
    constructor
    · rintro ⟨h1, h2⟩
      exact (hh' l h1).resolve_left h2
    · intro h
      refine ⟨hh l h, ?_⟩
      rintro rfl
      have := hw _ h
      rw [hfree] at this
      cases this

theorem released_ticks (k : Nat) (w : Host) : Released w (w.ticks k) :=
  ⟨fun _ h => .inl h, fun _ h => .inl h, fun _ => Iff.rfl⟩

/-- C41: a call for a path that fails leaves no descriptor and no lock.
Missing: files that are directories (`C41_refuted`), the descriptor 0 (`C41_zero_refuted`), and failures of the three
system calls that follow `open` (`fstat`, `set_inheritable`, `fstat`), for which it is false too. -/
theorem C41_partial {py : Python} {a : OpenArgs} {p : Bytes} (ha : ByPath a p) {w w' : Host} {e : Exn} (h0 : w.freeFd ≠ 0)
    (hw : ∀ l ∈ w.held, (w.fds.lookup l.2).isSome)
    (hs : ∀ j e, 1 ≤ j → j < 4 → w.sched[j]? ≠ some (some e))
    (hd : ∀ ino, w.names.lookup p = some ino → ∃ n, w.nodes[ino]? = some n ∧ n.kind ≠ .directory)
    (h : rsopen py a w = (.error e, w')) : Released w w' := by
  rcases byPath_course ha h with ⟨_, _, rfl, _⟩ | ⟨kw, ext, hfl, hck, _, hcl, hc⟩
  · exact released_ticks 0 _
  rcases hc with ⟨_, _, hso⟩ | ⟨hf, ino, base, hin, hc⟩
  · obtain ⟨rfl, _⟩ := sysOpen_error hso
    exact released_ticks 1 w
  have hsame := hin.same
  have hfree := freeFd_free w
  rcases hc with ⟨e', k, b, _, _, hr⟩ | ⟨_, n, hn, _, ⟨_, _, k, _, _, _, rfl⟩ | ⟨k, _, hfin⟩⟩
  · exfalso
    rcases hr with ⟨j, h1, h2, h3⟩ | ⟨h1, _⟩ | ⟨⟨n, h1, h2⟩, _⟩
    · exact hs j _ h1 h2 h3
    · cases hin with
      | old hl _ _ =>
        obtain ⟨n, hn, _⟩ := hd _ hl
        rw [hn] at h1; cases h1
      | new hl _ => simp [newFile] at h1
    · cases hin with
      | old hl _ _ =>
        obtain ⟨n', hn, hk⟩ := hd _ hl
        rw [hn] at h1; cases h1
        exact hk h2
      | new hl _ =>
        simp [newFile] at h1
        rw [← h1] at h2
        cases h2
  · refine closeRaw_released hfree h0 hw (d := (entry kw ino w.freeFd kw.inheritable).2) ?_ hsame.2.2.2 ?_ ?_
    · simp only [entered]; rw [hsame.1]; rfl
    · intro l hl
      simpa [entered, hsame.2.2.1] using hl
    · intro l hl
      right
      simpa [entered, hsame.2.2.1] using hl
  · obtain ⟨k', l, tr, hl, htr, hfc⟩ := finish_course hfin
    rcases hfc with ⟨_, _, rfl, _⟩ | ⟨_, _, ⟨_, _, he⟩ | ⟨_, _, _, _, he, _⟩⟩
    · have hcl' : kw.closefd = true := hfl.closefd.trans hcl
      simp only [RawObj.built]
      rw [hcl']
      refine closeRaw_released hfree h0 hw (d := (entry kw ino w.freeFd kw.inheritable).2) ?_ hsame.2.2.2 ?_ ?_
      · simp only [effect, ticks, entered]; rw [hsame.1]; rfl
      · intro x hx
        cases l <;> simp [effect, ticks, entered, hsame.2.2.1, hx]
      · intro x hx
        cases l <;> simp [effect, ticks, entered, hsame.2.2.1] at hx
        · exact .inr hx
        · exact hx
    · cases he
    · cases he

-- the lock is refused
example : (rsopen unixPython (call [102] "w")
      { machine with sched := [none, none, none, none, none, some (.lockingException 11)] }).1 = .error (.lockingException 11) ∧
    (rsopen unixPython (call [102] "w")
      { machine with sched := [none, none, none, none, none, some (.lockingException 11)] }).2.fds = machine.fds := by
  refine ⟨?_, ?_⟩ <;> decide +kernel

end Verif.Props
