import Verif.Props.OpenMore

/-!
# Erasing, inheritance and the layers of the returned stream: C42 to C44, C66
-/

namespace Verif.Props

open Verif Host OpenArgs

/-- The facts about a call that returned a stream. -/
theorem opened_facts {py : Python} {a : OpenArgs} {w w' : Host} {s : Opened} (h : rsopen py a w = (.ok s, w')) :
    ∃ kw0 kw ext t w1, Fields a.name a.modeString a.fileno a.handle a.closefd (kw0, ext) ∧ Params a kw0 kw ∧
      checkExt a kw ext = .ok t ∧ RawObj.create kw (start a w) = (.ok s.raw, w1) ∧
      finish py a kw ext t s.raw w1 = (.ok s, w') := by
  rcases rsopen_course h with ⟨e, he, _⟩ | ⟨kw0, kw, ext, t, hp, hpar, hext, hc⟩
  · cases he
  rcases hc with ⟨e, he, _⟩ | ⟨raw, w1, hc, hfin⟩
  · cases he
  have hs : s.raw = raw := (finish_files hfin).2.1 s rfl
  subst hs
  exact ⟨kw0, kw, ext, t, w1, parseMode_fields (parse_ok hp).1 (parse_ok hp).2.1 (parse_ok hp).2.2.2.2, hpar, hext, hc, hfin⟩

theorem Params.same {a : OpenArgs} {kw kw' : RawKw} (h : Params a kw kw') : kw'.read = kw.read ∧ kw'.write = kw.write ∧
    kw'.append = kw.append ∧ kw'.inheritable = kw.inheritable ∧ kw'.handle = kw.handle ∧ kw'.closefd = kw.closefd := by
  rcases h with ⟨_, rfl⟩ | ⟨_, fd, rfl⟩ <;> exact ⟨rfl, rfl, rfl, rfl, rfl, rfl⟩

/-- The access that the returned stream has. -/
theorem opened_access {py : Python} {a : OpenArgs} {w w' : Host} {s : Opened} (h : rsopen py a w = (.ok s, w')) :
    (s.raw.readable = true ↔ Reads a.modeString) ∧ (s.raw.writable = true ↔ Writes a.modeString) ∧
    (s.raw.append = true ↔ 'a' ∈ a.modeString ∨ 'A' ∈ a.modeString) := by
  obtain ⟨kw0, kw, ext, t, w1, hfl, hpar, _, hc, _⟩ := opened_facts h
  obtain ⟨_, fd, ino, n, d, evs, k, hraw, _⟩ := create_made hc
  obtain ⟨h1, h2, h3, _⟩ := Params.same hpar
  rw [hraw]
  refine ⟨?_, ?_, ?_⟩
  · change kw.read = true ↔ _
    rw [h1]; exact hfl.reads
  · change (kw.write || kw.append) = true ↔ _
    rw [h2, h3]; exact hfl.writes
  · change kw.append = true ↔ _
    rw [h3]; exact hfl.append

/-! ## C42 -/

/-- C42: a call that returns a stream which is not writable has changed no file. -/
theorem C42_needs_write {py : Python} {a : OpenArgs} (ho : a.opener = none) {w w' : Host} {s : Opened}
    (h : rsopen py a w = (.ok s, w')) (hw : s.raw.writable = false) : Kept w w' := by
  obtain ⟨kw0, kw, ext, t, w1, hfl, hpar, hext, hc, hfin⟩ := opened_facts h
  have hst : start a w = w := by unfold start; rw [ho]
  rw [hst] at hc
  obtain ⟨_, fd, ino, n, d, evs, k, hraw, _, _, _, _, _, _, _, _, _, hk, _⟩ := create_made hc
  obtain ⟨_, _, h3⟩ := finish_files hfin
  rcases h3 with h3 | ⟨_, ht, _⟩
  · intro i m hi
    rw [h3]
    exact hk i m hi
  · exfalso
    have hx := checkExt_ok hext
    rw [hx.2.2, Bool.and_eq_true] at ht
    rw [hraw] at hw
    have hw : (kw.write || kw.append) = false := hw
    rw [Bool.or_eq_false_iff] at hw
    rcases hx.1 ht.1 with h | h
    · rw [hw.1] at h; cases h
    · rw [hw.2] at h; cases h

/-- C42: a request to erase without write access is rejected with no effect except for that of the opener. -/
theorem C42_rejected (py : Python) {a : OpenArgs} (he : Erases a.modeString) (hw : ¬ Writes a.modeString) (w : Host) :
    ∃ e w', rsopen py a w = (.error e, w') ∧ Began a w w' := by
  cases h : rsopen py a w with
  | mk r w' =>
    rcases rsopen_course h with ⟨e, rfl, hc⟩ | ⟨kw0, kw, ext, t, hp, hpar, hext, _⟩
    · refine ⟨e, w', rfl, ?_⟩
      rcases hc with ⟨h, _⟩ | ⟨h, _⟩
      · exact .inl h
      · exact .inr h
    · exfalso
      have hfl := parseMode_fields (parse_ok hp).1 (parse_ok hp).2.1 (parse_ok hp).2.2.2.2
      obtain ⟨_, h2, h3, _⟩ := Params.same hpar
      refine hw (hfl.writes.1 ?_)
      rw [Bool.or_eq_true]
      rcases (checkExt_ok hext).1 (hfl.erases.2 he) with h | h
      · exact .inl (by rw [← h2]; exact h)
      · exact .inr (by rw [← h3]; exact h)

/-- C42: without opener, a request to erase without write access is rejected with no effect. -/
theorem C42_rejected_no_opener (py : Python) {a : OpenArgs} (ho : a.opener = none) (he : Erases a.modeString)
    (hw : ¬ Writes a.modeString) (w : Host) : ∃ e, rsopen py a w = (.error e, w) := by
  obtain ⟨e, w', h, hb⟩ := C42_rejected py he hw w
  have hst : start a w = w := by unfold start; rw [ho]
  rcases hb with rfl | rfl
  · exact ⟨e, h⟩
  · exact ⟨e, by rw [h, hst]⟩

/-- An opener that opens a new file `n`. -/
def creator : PyM Host Int := fun w =>
  match sysOpen [110] ⟨true, true, false, false, true, false⟩ w with
  | (.ok fd, w) => (.ok fd, w)
  | (.error e, w) => (.error e, w)

/-- C42 is false with an opener, which is called before the rejection. -/
theorem C42_opener_refuted : ¬ ∀ (py : Python) (a : OpenArgs) (w : Host), Erases a.modeString → ¬ Writes a.modeString →
    (rsopen py a w).2.log = w.log := by
  intro h
  have := h unixPython { call [110] "RE" with opener := some creator } machine (.inr ⟨by decide, by decide, by decide⟩)
    (by simp only [Writes, Advanced]; decide)
  exact absurd this (by decide +kernel)

example : Erases (call [102] "RE").modeString ∧ ¬ Writes (call [102] "RE").modeString := by
  simp only [Erases, Writes, Advanced]; decide
example : ∃ s w', rsopen unixPython (call [102] "r") machine = (.ok s, w') ∧ s.raw.writable = false :=
  ⟨_, _, rfl, by decide +kernel⟩

/-! ## C43 -/

/-- C43: the descriptor of a stream opened from a path is inheritable exactly if the mode has the flag `I`. -/
theorem C43_inheritable {py : Python} {a : OpenArgs} {p : Bytes} (ha : ByPath a p) {w w' : Host} {s : Opened}
    (h : rsopen py a w = (.ok s, w')) : ∃ d, w'.fds.lookup s.raw.fd = some d ∧ d.ino = s.raw.ino ∧
      (d.inheritable = true ↔ 'I' ∈ a.modeString) := by
  obtain ⟨kw0, kw, ext, t, w1, hfl, hpar, hext, hc, hfin⟩ := opened_facts h
  obtain ⟨hck, fd, ino, n, d, evs, k, hraw, _, _, hd, hdi, _, _, _, _, _, _, _, hin⟩ := create_made hc
  obtain rfl : kw = kw0 := hpar.elim (fun h => h.2) fun h => absurd ha.opener h.1
  have hg : RawObj.given kw = none := by
    have h1 : kw.fileno = none := (hfl.path p ha.name).2.trans ha.fileno
    have h2 : kw.handle = none := hfl.handle.trans ha.handle
    simp [RawObj.given, h1, h2]
  obtain ⟨k', l, tr, hl, htr, hfc⟩ := finish_course hfin
  rcases hfc with ⟨e, he, _⟩ | ⟨_, rfl, _⟩
  · exact absurd he.symm (closing_ne_ok _ _ _ _)
  refine ⟨d, ?_, ?_, ?_⟩
  · rw [hraw]; exact hd
  · rw [hraw]; exact hdi
  · rw [hin hg]; exact hfl.inheritable

/-- C43: the mutex of the wrapper. -/
theorem C43_mutex {py : Python} {a : OpenArgs} {w w' : Host} {s : Opened} (h : rsopen py a w = (.ok s, w')) :
    (s.wrapper = some .interprocess ↔
      a.threadSafe = true ∧ a.mutex = false ∧ 'I' ∈ a.modeString ∧ py.canFork = true) ∧
    (s.wrapper = some .given ↔ a.threadSafe = true ∧ a.mutex = true) ∧ (s.wrapper = none ↔ a.threadSafe = false) := by
  obtain ⟨kw0, kw, ext, t, w1, hfl, hpar, hext, hc, hfin⟩ := opened_facts h
  have hi : kw.inheritable = true ↔ 'I' ∈ a.modeString := by
    rw [(Params.same hpar).2.2.2.1]; exact hfl.inheritable
  have hs : s.wrapper = wrapper py a kw := by
    obtain ⟨k', l, tr, hl, htr, hfc⟩ := finish_course hfin
    rcases hfc with ⟨e, he, _⟩ | ⟨_, _, ⟨_, _, he⟩ | ⟨_, _, _, _, he, _⟩⟩
    · exact absurd he.symm (closing_ne_ok _ _ _ _)
    · injection he with he; rw [he]
    · injection he with he; rw [he]
  rw [hs, ← hi]
  unfold wrapper
  cases a.threadSafe <;> cases a.mutex <;> cases kw.inheritable <;> cases py.canFork <;> simp

example : (rsopen unixPython (call [102] "RI") machine).1.toOption.map Opened.wrapper = some (some .interprocess) := by
  decide +kernel
example : (rsopen unixPython (call [102] "R") machine).1.toOption.map Opened.wrapper = some (some .threading) := by
  decide +kernel

/-! ## C44 -/

/-- C44: the raw stream is bare exactly if `buffering` is 0; the stream is then binary. -/
theorem C44_bare {py : Python} {a : OpenArgs} {w w' : Host} {s : Opened} (h : rsopen py a w = (.ok s, w')) :
    (s.buffer = none ↔ a.buffering = .given 0) ∧ (s.buffer = none → s.text = none) := by
  obtain ⟨kw0, kw, ext, t, w1, hfl, hpar, hext, hc, hfin⟩ := opened_facts h
  obtain ⟨k', l, tr, hl, htr, hfc⟩ := finish_course hfin
  rcases hfc with ⟨e, he, _⟩ | ⟨_, _, ⟨hb, hbin, he⟩ | ⟨kind, size, line, hk, he, hb⟩⟩
  · exact absurd he.symm (closing_ne_ok _ _ _ _)
  · injection he with he
    rw [he]
    exact ⟨⟨fun _ => bufferingValue_zero hb, fun _ => rfl⟩, fun _ => rfl⟩
  · injection he with he
    rw [he]
    refine ⟨⟨fun h => by simp at h, fun h => ?_⟩, fun h => by simp at h⟩
    have : a.bufferingValue = 0 := by unfold bufferingValue; rw [h]
    omega

/-- C44: the kind of the buffer follows the access. -/
theorem C44_kind {py : Python} {a : OpenArgs} {w w' : Host} {s : Opened} (h : rsopen py a w = (.ok s, w')) {kind : BufKind}
    {size : Nat} (hb : s.buffer = some (kind, size)) :
    (kind = .reader ↔ Reads a.modeString ∧ ¬ Writes a.modeString) ∧
    (kind = .writer ↔ Writes a.modeString ∧ ¬ Reads a.modeString) ∧
    (kind = .random ↔ Reads a.modeString ∧ Writes a.modeString) ∧ (kind = .random → s.raw.seekable = true) := by
  obtain ⟨hr, hw, _⟩ := opened_access h
  obtain ⟨kw0, kw, ext, t, w1, hfl, hpar, hext, hc, hfin⟩ := opened_facts h
  obtain ⟨k', l, tr, hl, htr, hfc⟩ := finish_course hfin
  have hk : kindOf s.raw = some kind := by
    rcases hfc with ⟨e, he, _⟩ | ⟨_, _, ⟨_, _, he⟩ | ⟨kind', size', line, hk, he, _⟩⟩
    · exact absurd he.symm (closing_ne_ok _ _ _ _)
    · injection he with he
      rw [he] at hb; cases hb
    · injection he with he
      rw [he] at hb
      cases hb
      exact hk
  rw [← hr, ← hw]
  unfold kindOf at hk
  cases h1 : s.raw.readable <;> cases h2 : s.raw.writable <;> rw [h1, h2] at hk
  · cases hk
  · cases hk; simp
  · cases hk; simp
  · dsimp only at hk
    split at hk
    · cases hk; rename_i hs; simp [hs]
    · cases hk

/-- C44: the size of the buffer: the given one, or the block size of the file, or 8192. -/
theorem C44_size {py : Python} {a : OpenArgs} {w w' : Host} {s : Opened} (h : rsopen py a w = (.ok s, w')) {kind : BufKind}
    {size : Nat} (hb : s.buffer = some (kind, size)) : ∃ n, w'.nodes[s.raw.ino]? = some n ∧
      (∀ b, a.buffering = .given b → 1 < b → (size : Int) = b) ∧
      ((∀ b, a.buffering = .given b → b ≤ 1) → (∀ e ∈ (start a w).sched, e = none) →
        size = if s.raw.fd ≠ 0 ∧ 1 < n.blksize then n.blksize else 8192) ∧
      ((∀ b, a.buffering = .given b → b ≤ 1) → size = n.blksize ∨ size = 8192) := by
  obtain ⟨kw0, kw, ext, t, w1, hfl, hpar, hext, hc, hfin⟩ := opened_facts h
  obtain ⟨_, fd, ino, n, d, evs, k, hraw, hn, _, _, _, _, _, hsch, _⟩ := create_made hc
  have hino : s.raw.ino = ino := by rw [hraw]; rfl
  obtain ⟨k', l, tr, hl, htr, hfc⟩ := finish_course hfin
  rcases hfc with ⟨e, he, _⟩ | ⟨_, rfl, ⟨_, _, he⟩ | ⟨kind', size', line, hk, he, hsz⟩⟩
  · exact absurd he.symm (closing_ne_ok _ _ _ _)
  · injection he with he
    rw [he] at hb; cases hb
  · injection he with he
    have : size' = size := by rw [he] at hb; cases hb; rfl
    subst this
    have hdef : (∃ b, a.buffering = .given b ∧ 1 < b ∧ (size' : Int) = b) ∨
        ((∀ b, a.buffering = .given b → b ≤ 1) ∧ defaultSize s.raw w1 size') := by
      rcases hsz with ⟨h1, h2, _⟩ | ⟨h1, h2, _⟩
      · left
        unfold bufferingValue at h1 h2
        split at h1
        · rename_i b hb'
          rw [hb'] at h2
          exact ⟨b, hb', h1, h2⟩
        · omega
      · right
        refine ⟨fun b hb => ?_, h2⟩
        have : a.bufferingValue = b := by unfold bufferingValue; rw [hb]
        omega
    refine ⟨if tr then erased n else n, ?_, ?_, ?_, ?_⟩
    · cases tr
      · rw [hino]; exact hn
      · simp only [effect, if_true]
        rw [List.getElem?_modify_eq, hino]
        change w1.nodes[ino]?.map _ = _
        rw [hn]
        rfl
    · intro b hb hb1
      rcases hdef with ⟨b', h1, _, h3⟩ | ⟨h1, _⟩
      · rw [hb] at h1; cases h1; exact h3
      · have := h1 b hb; omega
    · intro hle hs
      have hbs : (if tr then erased n else n).blksize = n.blksize := by cases tr <;> rfl
      rw [hbs]
      rcases hdef with ⟨b', h1, h2, _⟩ | ⟨_, hd⟩
      · have := hle b' h1; omega
      · unfold defaultSize at hd
        rw [hino, hn] at hd
        rcases hd with ⟨h1, h2⟩ | ⟨h1, n', hn', h2, h3⟩
        · rw [if_neg]
          · exact Int.ofNat_inj.1 h1
          · rintro ⟨h3, h4⟩
            rcases h2 with h2 | ⟨errno, h2⟩ | h2
            · exact h3 h2
            · rw [hsch] at h2
              have := hs _ (List.mem_of_mem_drop h2)
              cases this
            · have := h2 n rfl; omega
        · cases hn'
          rw [if_pos ⟨h1, h2⟩]
          exact_mod_cast h3
    · intro hle
      have hbs : (if tr then erased n else n).blksize = n.blksize := by cases tr <;> rfl
      rw [hbs]
      rcases hdef with ⟨b', h1, h2, _⟩ | ⟨_, hd⟩
      · have := hle b' h1; omega
      · unfold defaultSize at hd
        rw [hino, hn] at hd
        rcases hd with ⟨h1, _⟩ | ⟨_, n', hn', _, h3⟩
        · exact .inr (Int.ofNat_inj.1 h1)
        · cases hn'
          exact .inl (by exact_mod_cast h3)

/-- C44: there is a text layer exactly if the mode is not binary; it flushes lines if `buffering` is 1, or if no size was
given and the file is a terminal. -/
theorem C44_text {py : Python} {a : OpenArgs} {w w' : Host} {s : Opened} (h : rsopen py a w = (.ok s, w')) :
    (s.text = none ↔ Binary a.modeString) ∧ ∃ n, w'.nodes[s.raw.ino]? = some n ∧ ∀ line, s.text = some line →
      (line = true ↔ a.buffering = .given 1 ∨ ((∀ b, a.buffering = .given b → b < 0) ∧ n.tty = true)) := by
  obtain ⟨kw0, kw, ext, t, w1, hfl, hpar, hext, hc, hfin⟩ := opened_facts h
  obtain ⟨_, fd, ino, n, d, evs, k, hraw, hn, _⟩ := create_made hc
  have hino : s.raw.ino = ino := by rw [hraw]; rfl
  have hbin : ext.binary = true ↔ Binary a.modeString := hfl.binary
  obtain ⟨k', l, tr, hl, htr, hfc⟩ := finish_course hfin
  rcases hfc with ⟨e, he, _⟩ | ⟨_, rfl, hc⟩
  · exact absurd he.symm (closing_ne_ok _ _ _ _)
  have hnode : (effect l tr s.raw (w1.ticks k')).nodes[s.raw.ino]? = some (if tr then erased n else n) := by
    cases tr
    · rw [hino]; exact hn
    · simp only [effect, if_true]
      rw [List.getElem?_modify_eq, hino]
      change w1.nodes[ino]?.map _ = _
      rw [hn]
      rfl
  have htty : (if tr then erased n else n).tty = n.tty := by cases tr <;> rfl
  rcases hc with ⟨_, hb, he⟩ | ⟨kind, size, line, _, he, hsz⟩
  · injection he with he
    have ht : s.text = none := by rw [he]
    exact ⟨by rw [ht]; simpa using hbin.1 hb, _, hnode, by simp [ht]⟩
  · injection he with he
    have ht : s.text = if ext.binary then none else some line := by rw [he]
    refine ⟨?_, _, hnode, ?_⟩
    · rw [ht, ← hbin]
      cases ext.binary <;> simp
    · intro line' hl'
      have hll : line' = line := by
        rw [ht] at hl'
        cases hx : ext.binary <;> rw [hx] at hl' <;> simp at hl'
        exact hl'.symm
      subst hll
      rw [htty]
      have hval : ∀ b, a.buffering = .given b → a.bufferingValue = b := by
        intro b hb; unfold bufferingValue; rw [hb]
      have hneg : a.bufferingValue < 0 ↔ ∀ b, a.buffering = .given b → b < 0 := by
        unfold bufferingValue
        split
        · rename_i b hb
          rw [hb]
          constructor
          · intro h b' hb'; cases hb'; exact h
          · intro h; exact h b rfl
        · rename_i hb
          simp only [Int.reduceNeg, Int.reduceLT, true_iff]
          intro b hb'
          exact absurd hb' (hb b)
      have hone : a.bufferingValue = 1 ↔ a.buffering = .given 1 := by
        constructor
        · intro h
          unfold bufferingValue at h
          split at h
          · rename_i b hb; rw [hb, h]
          · simp at h
        · exact hval 1
      rw [← hneg, ← hone]
      rcases hsz with ⟨h1, _, h3⟩ | ⟨h1, _, h3⟩
      · rw [h3]
        simp only [Bool.false_eq_true, false_iff, not_or, not_and]
        omega
      · rw [h3]
        unfold lineBuffering
        rw [hino, hn]
        simp

/-- C44: a text stream without buffer is always refused. -/
theorem C44_no_unbuffered_text (py : Python) {a : OpenArgs} (hb : a.buffering = .given 0) (ht : ¬ Binary a.modeString)
    (w : Host) : ∃ e w', rsopen py a w = (.error e, w') := by
  cases h : rsopen py a w with
  | mk r w' =>
    cases r with
    | error e => exact ⟨e, w', rfl⟩
    | ok s =>
      have h1 := C44_bare h
      exact absurd ((C44_text h).1.1 (h1.2 (h1.1.2 hb))) ht

-- the layers of a text stream with the default buffering
example : (rsopen unixPython (call [102] "r+") machine).1.toOption.map (fun s => (s.buffer, s.text)) =
    some (some (.random, 4096), some false) := by decide +kernel
example : (rsopen unixPython { call [102] "rb" with buffering := .given 0 } machine).1.toOption.map
    (fun s => (s.buffer, s.text)) = some (none, none) := by decide +kernel
example : (rsopen unixPython { call [102] "w" with buffering := .given 1 } machine).1.toOption.map
    (fun s => (s.buffer, s.text)) = some (some (.writer, 4096), some true) := by decide +kernel

/-! ## C66 -/

/-- The arguments of a sound call for a path. -/
structure SoundCall (a : OpenArgs) (p : Bytes) : Prop where
  byPath : ByPath a p
  nonempty : p ≠ []
  noNul : 0 ∉ p
  mode : StdMode a.modeString ∨ AdvMode a.modeString
  access : Reads a.modeString ∨ Writes a.modeString
  existence : ¬ (MustCreate a.modeString ∧ MustExist a.modeString)
  erase : Erases a.modeString → Writes a.modeString
  layer : ¬ (Binary a.modeString ∧ ('t' ∈ a.modeString ∨ 'T' ∈ a.modeString))
  modeType : a.mode ≠ .wrongType
  bufferingType : a.buffering ≠ .wrongType
  encodingType : a.encoding ≠ .wrongType
  errorsType : a.errors ≠ .wrongType
  textArgs : Binary a.modeString → a.encoding = .absent ∧ a.errors = .absent ∧ a.newline = false
  unbuffered : a.buffering = .given 0 → Binary a.modeString
  mutex : a.mutex = true → a.threadSafe = true
  closefd : a.closefd = true

/-- The file system allows the call: the path names a regular file, or nothing, as the mode requires it, and no system
call fails. -/
structure Allows (a : OpenArgs) (p : Bytes) (w : Host) : Prop where
  quiet : ∀ e ∈ w.sched, e = none
  room : w.freeFd < 2 ^ 31
  create : MustCreate a.modeString → w.names.lookup p = none
  exist : MustExist a.modeString → (w.names.lookup p).isSome
  regular : ∀ ino, w.names.lookup p = some ino → ∃ n, w.nodes[ino]? = some n ∧ n.kind = .regular

/-- The call succeeds; the file has its old content unless it was to be erased, and the other files have theirs. -/
def Opens (py : Python) (a : OpenArgs) (p : Bytes) (w : Host) : Prop :=
  ∃ s w', rsopen py a w = (.ok s, w') ∧ w'.names.lookup p = some s.raw.ino ∧
    (Erases a.modeString → content w' p = some []) ∧
    (¬ Erases a.modeString → content w' p = some ((content w p).getD [])) ∧
    ∀ i n, i ≠ s.raw.ino → w.nodes[i]? = some n → w'.nodes[i]? = some n

/-- The claim of C66. -/
def AlwaysOpens : Prop :=
  ∀ (py : Python) (a : OpenArgs) (p : Bytes) (w : Host), py.hasU = false → SoundCall a p → Allows a p w → Opens py a p w

theorem isWrong_false {α : Type} {x : Arg α} (h : x ≠ .wrongType) : isWrong x = false := by
  cases x <;> first | rfl | exact absurd rfl h

theorem sound_parse {py : Python} (hu : py.hasU = false) {a : OpenArgs} {p : Bytes} (h : SoundCall a p) :
    ∃ kw ext, parse py a = .ok (kw, ext) := by
  obtain ⟨r, hr⟩ := (C35_accepted py hu (name := a.name) (.inr ⟨p, h.byPath.name⟩) a.modeString a.fileno a.handle
    a.closefd).2 h.mode
  refine ⟨r.1, r.2, ?_⟩
  unfold parse
  rw [if_neg (by rw [h.byPath.name]; simp), if_neg (by rw [h.byPath.name]; simp [NameArg.isBool]),
    if_neg (by rw [isWrong_false h.modeType, isWrong_false h.bufferingType, isWrong_false h.encodingType,
      isWrong_false h.errorsType]; simp), if_neg, hr]
  intro hm
  rw [Bool.and_eq_true] at hm
  have := h.mutex hm.2
  rw [this] at hm
  cases hm.1

theorem isGiven_absent {α : Type} {x : Arg α} (h : x = .absent) : isGiven x = false := by rw [h]; rfl

theorem sound_check {py : Python} {a : OpenArgs} {p : Bytes} (h : SoundCall a p) {kw : RawKw} {ext : ExtKw}
    (hp : parse py a = .ok (kw, ext)) : checkExt a kw ext = .ok ext.truncate ∧ RawObj.check kw = .ok () := by
  have hfl := parseMode_fields (parse_ok hp).1 (parse_ok hp).2.1 (parse_ok hp).2.2.2.2
  have hpath : kw.path = .path p := (hfl.path p h.byPath.name).1
  have hf : kw.fileno = none := (hfl.path p h.byPath.name).2.trans h.byPath.fileno
  have hh : kw.handle = none := hfl.handle.trans h.byPath.handle
  have hw : (kw.write || kw.append) = true ↔ Writes a.modeString := hfl.writes
  have hr : kw.read = true ↔ Reads a.modeString := hfl.reads
  have ht : ext.truncate = true ↔ Erases a.modeString := hfl.erases
  have hb : ext.binary = true ↔ Binary a.modeString := hfl.binary
  have hx : ext.text = true ↔ ('t' ∈ a.modeString ∨ 'T' ∈ a.modeString) := hfl.text
  have hcl : kw.closefd = true := hfl.closefd.trans h.closefd
  constructor
  · unfold checkExt
    rw [if_neg, if_neg, if_neg, hf, hh]
    · simp
    · rw [Bool.and_eq_true]
      rintro ⟨h1, h2⟩
      obtain ⟨h3, h4, h5⟩ := h.textArgs (hb.1 h1)
      rw [isGiven_absent h3, isGiven_absent h4, h5] at h2
      cases h2
    · rw [Bool.and_eq_true]
      rintro ⟨h1, h2⟩
      exact h.layer ⟨hb.1 h1, hx.1 h2⟩
    · rw [Bool.and_eq_true]
      rintro ⟨h1, h2⟩
      rw [hw.2 (h.erase (ht.1 h1))] at h2
      cases h2
  · unfold RawObj.check
    dsimp only
    rw [hpath, hf, hh, hcl]
    rw [if_neg (by simp [NameArg.isString]), if_neg (by simp [NameArg.truthy, h.nonempty]), if_neg, if_neg,
      if_neg (by simp), if_neg (by simp), if_neg (by simp), if_neg (by simp [NameArg.hasNul, h.noNul])]
    · rw [Bool.and_eq_true]
      rintro ⟨h1, h2⟩
      exact h.existence ⟨hfl.mustCreate.1 h1, hfl.mustExist.1 h2⟩
    · rw [Bool.and_eq_true]
      rintro ⟨h1, h2⟩
      rcases h.access with h3 | h3
      · rw [hr.2 h3] at h1; cases h1
      · rw [hw.2 h3] at h2; cases h2

/-- C66: a sound call that the file system allows succeeds.
Missing: if the new descriptor is 0 and no buffer size is given, it fails (`C66_refuted`). -/
theorem C66_partial {py : Python} (hu : py.hasU = false) {a : OpenArgs} {p : Bytes} (ha : SoundCall a p) {w : Host}
    (hw : Allows a p w) (h0 : w.freeFd ≠ 0 ∨ ∃ b, a.buffering = .given b ∧ 0 ≤ b) : Opens py a p w := by
  have hq : ∀ e, some e ∉ w.sched := fun e he => by cases hw.quiet _ he
  obtain ⟨kw, ext, hp⟩ := sound_parse hu ha
  obtain ⟨hext, hck⟩ := sound_check ha hp
  have hfl := parseMode_fields (parse_ok hp).1 (parse_ok hp).2.1 (parse_ok hp).2.2.2.2
  have hpath : kw.path = .path p := (hfl.path p ha.byPath.name).1
  have hf : kw.fileno = none := (hfl.path p ha.byPath.name).2.trans ha.byPath.fileno
  have hh : kw.handle = none := hfl.handle.trans ha.byPath.handle
  have hst : start a w = w := by unfold start; rw [ha.byPath.opener]
  cases h : rsopen py a w with
  | mk r w' =>
    rcases rsopen_course h with ⟨e, _, hc⟩ | ⟨kw0, kw1, ext1, t, hp1, hpar, hext1, hc⟩
    · exfalso
      rcases hc with ⟨_, hc | hc⟩ | ⟨_, hc | ⟨kw1, ext1, hp1, hc⟩⟩
      · rw [hp] at hc; cases hc
      · exact hc ha.byPath.opener
      · exact hc ha.byPath.opener
      · rw [hp] at hp1
        cases hp1
        rw [hext] at hc
        cases hc
    rw [hp] at hp1
    cases hp1
    obtain rfl : kw1 = kw := hpar.elim (fun h => h.2) fun h => absurd ha.byPath.opener h.1
    rw [hext] at hext1
    cases hext1
    rw [hst] at hc
    -- the raw stream is made
    have hmade : ∃ k ino base n, Enters p (RawObj.flags kw1) w ino base ∧ base.nodes[ino]? = some n ∧ n.kind = .regular ∧
        finish py a kw1 ext ext.truncate (RawObj.built kw1 w.freeFd ino true)
          (entered kw1 ino w.freeFd kw1.inheritable k base) = (r, w') := by
      have hreg : ∀ ino base n, Enters p (RawObj.flags kw1) w ino base → base.nodes[ino]? = some n → n.kind = .regular := by
        intro ino base n hin hn
        cases hin with
        | old hl _ _ =>
          obtain ⟨n', hn', hk⟩ := hw.regular _ hl
          rw [hn] at hn'; cases hn'; exact hk
        | new hl _ =>
          simp [newFile] at hn
          rw [← hn]
      have hno : ∀ e, sysOpen p (RawObj.flags kw1) w = (.error e, w') → False := by
        intro e he
        obtain ⟨_, hc⟩ := sysOpen_error he
        rcases hc with h | ⟨_, _, h1, h2, h3⟩ | ⟨_, _, ino, hl, h1, _⟩ | ⟨_, _, h1, h2⟩ | ⟨_, _, h1⟩
        · exact hq _ (fails_mem h)
        · have : kw1.mustCreate = true := by
            simp [RawObj.flags] at h2; exact h2.2
          rw [hw.create (hfl.mustCreate.1 this)] at h3
          cases h3
        · obtain ⟨n', hn', hk⟩ := hw.regular _ hl
          rw [hn'] at h1
          simp [hk] at h1
        · have : kw1.mustNotCreate = true := by simpa [RawObj.flags] using h1
          have := hw.exist (hfl.mustExist.1 this)
          rw [h2] at this
          cases this
        · have := hw.room
          omega
      rcases hc with ⟨e, rfl, hc⟩ | ⟨raw, w1, hc, hfin⟩
      · exfalso
        rcases RawObj.create_course hpath hf hh hc with ⟨e', _, hce, _⟩ | ⟨_, ⟨e', _, hs⟩ | ⟨_, _, ino, base, hin, hc⟩⟩
        · rw [hck] at hce; cases hce
        · exact hno _ hs
        · rcases hc with ⟨e', k, b, _, _, hr⟩ | ⟨_, n, hn, _, ⟨_, e', _, _, hm, _⟩ | ⟨_, _, _, he, _⟩⟩
          · rcases hr with ⟨j, _, _, hj⟩ | ⟨hn, _⟩ | ⟨⟨n, hn, hk⟩, _⟩
            · exact hq _ (List.mem_of_getElem? hj)
            · cases hin with
              | old hl _ _ =>
                obtain ⟨n', hn', _⟩ := hw.regular _ hl
                rw [hn'] at hn; cases hn
              | new hl _ => simp [newFile] at hn
            · rw [hreg _ _ _ hin hn] at hk; cases hk
          · exact hq _ hm
          · cases he
      · rcases RawObj.create_course hpath hf hh hc with ⟨e', he, _⟩ | ⟨_, ⟨e', he, _⟩ | ⟨_, _, ino, base, hin, hc⟩⟩
        · cases he
        · cases he
        · rcases hc with ⟨e', k, b, he, _⟩ | ⟨_, n, hn, _, ⟨_, e', _, he, _⟩ | ⟨k, _, _, he, rfl⟩⟩
          · cases he
          · cases he
          · cases he
            refine ⟨k, ino, base, n, hin, hn, hreg _ _ _ hin hn, ?_⟩
            rw [show decide (n.kind = .regular) = true by simp [hreg _ _ _ hin hn]] at hfin
            exact hfin
    clear hc
    obtain ⟨k, ino, base, n, hin, hn, hreg, hfin⟩ := hmade
    have hsame := hin.same
    obtain ⟨k', l, tr, hl, htr, hfc⟩ := finish_course hfin
    rcases hfc with ⟨e, _, _, hr⟩ | ⟨hlt, rfl, hc⟩
    · exfalso
      rcases hr with hm | ⟨_, hz, hneg⟩ | ⟨_, hz, hbin⟩ | ⟨_, hr, hwr⟩ | ⟨_, _, _, hs⟩
      · simp only [entered] at hm
        rw [hsame.2.1] at hm
        exact hq _ (List.mem_of_mem_drop hm)
      · rcases h0 with h0 | ⟨b, hb, hb0⟩
        · exact h0 hz
        · have : a.bufferingValue = b := by unfold bufferingValue; rw [hb]
          omega
      · have := hfl.binary.2 (ha.unbuffered (bufferingValue_zero hz))
        rw [hbin] at this
        cases this
      · rcases ha.access with h | h
        · have := hfl.reads.2 h
          rw [show kw1.read = false from hr] at this
          cases this
        · have := hfl.writes.2 h
          rw [show (kw1.write || kw1.append) = false from hwr] at this
          cases this
      · cases hs
    · have htr' : tr = ext.truncate := (hlt rfl).2
      have hs : ∃ s, r = .ok s ∧ s.raw.ino = ino := by
        rcases hc with ⟨_, _, he⟩ | ⟨_, _, _, _, he, _⟩
        · exact ⟨_, he, rfl⟩
        · exact ⟨_, he, rfl⟩
      obtain ⟨s, rfl, hsi⟩ := hs
      have hnm : base.names.lookup p = some ino := by
        cases hin with
        | old hl _ _ => exact hl
        | new hl _ => simp [newFile]
      have hold : n.data = (content w p).getD [] := by
        cases hin with
        | old hl0 _ _ => simp [content, hl0, hn]
        | new hl0 _ =>
          simp [newFile] at hn
          rw [← hn]
          simp [content, hl0]
      have hcont : content (effect l tr (RawObj.built kw1 w.freeFd ino true)
          ((entered kw1 ino w.freeFd kw1.inheritable k base).ticks k')) p = some (if tr then [] else n.data) := by
        unfold content
        rw [show (effect l tr (RawObj.built kw1 w.freeFd ino true)
          ((entered kw1 ino w.freeFd kw1.inheritable k base).ticks k')).names.lookup p = some ino from hnm]
        cases tr with
        | false =>
          simp only [effect, ticks, entered, RawObj.built, Bool.false_eq_true, if_false]
          change (base.nodes[ino]?.bind fun n => some n.data) = _
          rw [hn]; rfl
        | true =>
          simp only [effect, ticks, entered, RawObj.built, if_true]
          change ((base.nodes.modify ino _)[ino]?.bind fun n => some n.data) = _
          rw [List.getElem?_modify_eq, hn]
          rfl
      refine ⟨s, _, h, by rw [hsi]; exact hnm, ?_, ?_, ?_⟩
      · intro he
        have : ext.truncate = true := hfl.erases.2 he
        rw [hcont, htr', this]
        rfl
      · intro he
        have : ext.truncate = false := by
          cases hx : ext.truncate with
          | false => rfl
          | true => exact absurd (hfl.erases.1 hx) he
        rw [hcont, htr', this, ← hold]
        rfl
      · intro i m hi hm
        rw [hsi] at hi
        have hb := Enters.kept hin i m hm
        cases tr with
        | false => exact hb
        | true =>
          simp only [effect, ticks, entered, RawObj.built, if_true]
          rw [List.getElem?_modify_ne _ _ (Ne.symm hi)]
          exact hb

/-- Standard input is closed. -/
def closedStdin : Host := { machine with fds := [] }

theorem sound_r : SoundCall (call [102] "r") [102] where
  byPath := ⟨rfl, rfl, rfl, rfl⟩
  nonempty := by simp
  noNul := by decide
  mode := .inl ⟨by decide, by decide, 'r', by decide, by decide, by decide⟩
  access := .inl (.inl (by decide))
  existence := by
    simp only [MustCreate]
    rintro ⟨h | h | h, _⟩ <;> revert h <;> decide
  erase := by
    simp only [Erases]
    rintro (h | ⟨h, _⟩) <;> exact absurd h (by decide)
  layer := by
    simp only [Binary]
    rintro ⟨h | h, _⟩ <;> revert h <;> decide
  modeType := by simp [call]
  bufferingType := by simp [call]
  encodingType := by simp [call]
  errorsType := by simp [call]
  textArgs := fun _ => ⟨rfl, rfl, rfl⟩
  unbuffered := by simp [call]
  mutex := by simp [call]
  closefd := rfl

theorem allows_r (w : Host) (h1 : w.nodes = machine.nodes) (h2 : w.names = machine.names) (h3 : w.sched = [])
    (h4 : w.freeFd < 2 ^ 31) : Allows (call [102] "r") [102] w where
  quiet := by simp [h3]
  room := h4
  create := by
    simp only [MustCreate]
    rintro (h | h | h) <;> exact absurd h (by decide)
  exist := fun _ => by rw [h2]; decide
  regular := by
    intro ino h
    rw [h2] at h
    have : ino = 0 := by
      have h' : machine.names.lookup [102] = some 0 := by decide
      rw [h'] at h
      exact (Option.some.inj h).symm
    subst this
    exact ⟨⟨.regular, [1, 2, 3], false, 4096⟩, by rw [h1]; rfl, rfl⟩

/-- C66 is false: with descriptor 0 free, `rsopen("f", "r")` raises `AssertionError`. -/
theorem C66_refuted : ¬ AlwaysOpens := by
  intro h
  obtain ⟨s, w', hr, _⟩ := h unixPython (call [102] "r") [102] closedStdin rfl sound_r
    (allows_r _ rfl rfl rfl (by decide +kernel))
  have h1 : (rsopen unixPython (call [102] "r") closedStdin).1 = .error .assertionError := by decide +kernel
  have h2 := congrArg Prod.fst hr
  rw [h1] at h2
  cases h2

example : SoundCall (call [102] "r") [102] ∧ Allows (call [102] "r") [102] machine ∧ machine.freeFd ≠ 0 :=
  ⟨sound_r, allows_r _ rfl rfl rfl (by decide +kernel), by decide +kernel⟩

end Verif.Props
