import Verif.Props.WinOpen

/-!
# Calls that should succeed on windows: C86
-/

set_option autoImplicit false

namespace Verif.Props

open Verif

/-- The system allows the call: the path names a regular file, or nothing, as the mode requires it, and no system call
fails. -/
structure WinAllows (a : OpenArgs) (p : Bytes) (w : WinOpen.Host) : Prop where
  quiet : ∀ e ∈ w.sched, e = none
  create : MustCreate a.modeString → w.names.lookup p = none
  exist : MustExist a.modeString → (w.names.lookup p).isSome
  regular : ∀ ino, w.names.lookup p = some ino → ∃ n, w.nodes[ino]? = some n ∧ n.kind = .regular ∧ n.nonblocking = false

/-- The call succeeds; the file has its old content unless it was to be erased, and the other files have theirs. -/
def WinOpens (py : WinOpen.WinPython) (a : OpenArgs) (p : Bytes) (w : WinOpen.Host) : Prop :=
  ∃ s ly w' hd d, WinOpen.rsopen py a w = (.ok (s, ly), w') ∧ s.handle = some hd ∧ w'.handles.lookup hd = some d ∧
    w'.names.lookup p = some d.ino ∧
    (∃ n, w'.nodes[d.ino]? = some n ∧ n.kind = .regular ∧
      (Erases a.modeString ∨ w.names.lookup p = none → n.data = []) ∧
      (¬ Erases a.modeString → ∀ m, w.nodes[d.ino]? = some m → n.data = m.data)) ∧
    ∀ (i : Nat) (n : WinOpen.Node), i ≠ d.ino → w.nodes[i]? = some n → w'.nodes[i]? = some n

/-- The claim of C86. -/
def WinAlwaysOpens : Prop :=
  ∀ (py : WinOpen.WinPython) (a : OpenArgs) (p : Bytes) (w : WinOpen.Host), py.py.hasU = false → SoundCall a p →
    WinAllows a p w → WinOpens py a p w

/-- An allowed call succeeds, or fails because of the descriptors of the C library. -/
theorem winAllowed {py : WinOpen.WinPython} (hu : py.py.hasU = false) {a : OpenArgs} {p : Bytes} (ha : SoundCall a p)
    {w : WinOpen.Host} (hw : WinAllows a p w) {r : Except Exn (WinOpen.Raw × WinOpen.Layers)} {w' : WinOpen.Host}
    (h : WinOpen.rsopen py a w = (r, w')) :
    (∃ s ly, r = .ok (s, ly)) ∨ ∃ kw base ino e, r = .error e ∧ WinOpen.noWait base ino = false ∧
      (WinOpen.probes py kw = true ↔ Writes a.modeString ∧ py.blockingModes = true) ∧
      ((e = .ioError 24 ∧ WinOpen.probes py kw = true ∧ WinOpen.cLimit ≤ WinOpen.nextC w []) ∨
       (e = .ioError 24 ∧ a.bufferingValue < 0 ∧
          WinOpen.cLimit ≤ WinOpen.nextC w (WinOpen.afterProbe py kw w base ino).1) ∨
       (e = .assertionError ∧ a.bufferingValue < 0 ∧ WinOpen.nextC w (WinOpen.afterProbe py kw w base ino).1 = 0)) := by
  have hq : ∀ e, some e ∉ w.sched := fun e he => by cases hw.quiet _ he
  obtain ⟨kw, ext, hp⟩ := sound_parse hu ha
  obtain ⟨hext, hck⟩ := sound_check ha hp
  have hreg : ∀ {kw : RawKw} {ino : Nat} {base : WinOpen.Host}, WinOpen.Enters p kw w ino base →
      ∃ n, base.nodes[ino]? = some n ∧ n.kind = .regular ∧ n.nonblocking = false := by
    intro kw ino base hin
    cases hin with
    | old hl _ _ => exact hw.regular _ hl
    | new => exact ⟨_, by simp [WinOpen.Host.newFile]; rfl, rfl, rfl⟩
  rcases winOpen_course ha.byPath h with ⟨e, _, ⟨_, hrej⟩, _⟩ | ⟨kw1, ext1, hp1, hfl, _, _, hc⟩
  · exfalso
    rcases hrej with hrej | ⟨kw1, ext1, hp1, hrej | hrej⟩
    · rw [hp] at hrej
      cases hrej
    · rw [hp] at hp1
      cases hp1
      rw [hext] at hrej
      cases hrej
    · rw [hp] at hp1
      cases hp1
      rw [hck] at hrej
      cases hrej
  · rw [hp] at hp1
    cases hp1
    rcases hc with ⟨e, sched, _, hr, _⟩ | ⟨e, leaked, l, tr, ino, base, s, rfl, hin, _, _, _, hwhy, _⟩ |
      ⟨ino, base, s, ly, rfl, _⟩
    · exfalso
      cases hr with
      | outside h => exact hq _ h
      | exists_ h1 _ h3 =>
        rw [hw.create (hfl.mustCreate.1 h3)] at h1
        cases h1
      | directory h1 h2 =>
        obtain ⟨n, h3, h4, _⟩ := hw.regular _ h1
        rw [h3] at h2
        simp [h4] at h2
      | missing h1 h2 =>
        have := hw.exist (hfl.mustExist.1 h2)
        rw [h1] at this
        cases this
    · right
      obtain ⟨n, hn, hk, hb⟩ := hreg hin
      have hnw : WinOpen.noWait base ino = false := by simp [WinOpen.noWait, hn, hb]
      have hpr : WinOpen.probes py kw = true ↔ Writes a.modeString ∧ py.blockingModes = true := by
        unfold WinOpen.probes
        rw [Bool.and_eq_true]
        exact and_congr hfl.writes Iff.rfl
      refine ⟨kw, base, ino, e, rfl, hnw, hpr, ?_⟩
      cases hwhy with
      | outside h1 => exact absurd h1 (hq _)
      | overflow h1 => exact absurd h1 (hq _)
      | probe h1 h2 => exact .inl ⟨rfl, h1, h2⟩
      | isatty h1 h2 => exact .inr (.inl ⟨rfl, h1, h2⟩)
      | zero h1 h2 =>
        refine .inr (.inr ⟨rfl, h1, h2.resolve_right fun h => ?_⟩)
        unfold WinOpen.afterProbe at h
        rw [hnw] at h
        split at h <;> cases h
      | unbuffered h1 h2 =>
        exfalso
        have hbin : ¬ Binary a.modeString := fun hb => by
          have : ext.binary = true := hfl.binary.2 hb
          rw [h2] at this
          cases this
        unfold OpenArgs.bufferingValue at h1
        cases hbuf : a.buffering with
        | absent => rw [hbuf] at h1; cases h1
        | given b =>
          rw [hbuf] at h1
          simp only at h1
          exact hbin (ha.unbuffered (by rw [hbuf, h1]))
        | wrongType => rw [hbuf] at h1; cases h1
      | unseekable _ _ h3 =>
        exfalso
        simp [WinOpen.seekOf, hnw] at h3
    · exact .inl ⟨_, _, rfl⟩

/-- C86: a sound call that the system allows succeeds.
Missing: the C library must have two free descriptors, and if no buffer size is given its descriptor 0 must be in use
(`C86_refuted`, `C86_exhausted`). -/
theorem C86_partial {py : WinOpen.WinPython} (hu : py.py.hasU = false) {a : OpenArgs} {p : Bytes} (ha : SoundCall a p)
    {w : WinOpen.Host} (hw : WinAllows a p w) (hroom : w.cfds.length + 2 ≤ WinOpen.cLimit)
    (h0 : (w.cfds.lookup 0).isSome ∨ ∃ b, a.buffering = .given b ∧ 0 ≤ b) : WinOpens py a p w := by
  cases h : WinOpen.rsopen py a w with
  | mk r w' =>
    rcases winAllowed hu ha hw h with ⟨s, ly, rfl⟩ | ⟨kw, base, ino, e, _, hnw, _, hc⟩
    · rcases winOpen_course ha.byPath h with ⟨e, he, _⟩ | ⟨kw, ext, _, hfl, hck, _, hc⟩
      · cases he
      rcases hc with ⟨e, sched, he, _⟩ | ⟨e, leaked, l, tr, ino, base, s, he, _⟩ | ⟨ino, base, s, ly, he, rfl, hin, hm, _⟩
      · cases he
      · cases he
      cases he
      obtain ⟨n, hn, hk, hb⟩ : ∃ n, base.nodes[ino]? = some n ∧ n.kind = .regular ∧ n.nonblocking = false := by
        cases hin with
        | old hl _ _ => exact hw.regular _ hl
        | new => exact ⟨_, by simp [WinOpen.Host.newFile]; rfl, rfl, rfl⟩
      have hseek : WinOpen.seekOf py kw base ino = true := by simp [WinOpen.seekOf, hn, hk]
      have hnodes := hm.on.nodes
      rw [hseek, Bool.true_and] at hnodes
      have htr : ext.truncate = true ↔ Erases a.modeString := hfl.erases
      refine ⟨s.raw, ly, s.host, _, WinOpen.entry kw ino, h, hm.on.handle, ?_, ?_, ?_, ?_⟩
      · rw [hm.on.handles, List.lookup_cons]
        simp
      · rw [hm.on.names]
        cases hin with
        | old hl _ _ => exact hl
        | new => simp [WinOpen.Host.newFile, WinOpen.entry]
      · refine ⟨if ext.truncate then WinOpen.erased n else n, ?_, ?_, ?_, ?_⟩
        · rw [hnodes]
          change (if ext.truncate = true then _ else _)[ino]? = _
          split
          · rw [List.getElem?_modify_eq, hn]
            rfl
          · exact hn
        · split <;> exact hk
        · intro he
          split
          · rfl
          · rename_i ht
            rcases he with he | he
            · exact absurd (htr.2 he) ht
            · cases hin with
              | old hl _ _ => rw [hl] at he; cases he
              | new =>
                simp [WinOpen.Host.newFile] at hn
                rw [← hn]
        · intro he m hm'
          rw [if_neg (fun h => he (htr.1 h))]
          have := (winEnters_nodes hin hm').1
          rw [show (WinOpen.entry kw ino).ino = ino from rfl, hn] at this
          rw [Option.some.inj this]
      · intro i m hne hi
        have h1 := (winEnters_nodes hin hi).1
        rw [hnodes]
        split
        · rw [List.getElem?_modify, h1]
          simp [show ino ≠ i from fun he => hne (he ▸ rfl)]
        · exact h1
    · exfalso
      have hle : ∀ leaked : List Nat, leaked.length ≤ 1 → WinOpen.nextC w leaked < WinOpen.cLimit := by
        intro leaked hl
        have := WinOpen.nextC_le w leaked
        omega
      have hlen : (WinOpen.afterProbe py kw w base ino).1.length ≤ 1 := by
        rcases WinOpen.afterProbe_leaked py kw w base ino with h | ⟨_, h⟩ <;> simp [h]
      rcases hc with ⟨_, _, h1⟩ | ⟨_, _, h1⟩ | ⟨_, h1, h2⟩
      · have := hle [] (by simp)
        omega
      · have := hle _ hlen
        omega
      · rcases h0 with h0 | ⟨b, h0, h3⟩
        · have hf := WinOpen.nextC_free w (WinOpen.afterProbe py kw w base ino).1
          rw [h2] at hf
          rw [(WinOpen.lookup_append_none hf).2] at h0
          cases h0
        · unfold OpenArgs.bufferingValue at h1
          rw [h0] at h1
          simp only at h1
          omega

/-! ## Running out of descriptors -/

/-- Opening and closing. -/
def winCycle (py : WinOpen.WinPython) (a : OpenArgs) (w : WinOpen.Host) : WinOpen.Host :=
  match WinOpen.rsopen py a w with
  | (.ok (s, _), w') => (WinOpen.closeRaw s w').2
  | (.error _, w') => w'

/-- Opening and closing again and again. -/
def winCycles (py : WinOpen.WinPython) (a : OpenArgs) : Nat → WinOpen.Host → WinOpen.Host
  | 0, w => w
  | n + 1, w => winCycles py a n (winCycle py a w)

/-- How many descriptors of the C library are free. -/
def freeCount (w : WinOpen.Host) : Nat :=
  ((List.range WinOpen.cLimit).filter fun c => (w.cfds.lookup c).isNone).length

theorem freeCount_le (w : WinOpen.Host) : freeCount w ≤ WinOpen.cLimit := by
  have := List.length_filter_le (fun c => (w.cfds.lookup c).isNone) (List.range WinOpen.cLimit)
  simpa [freeCount] using this

theorem freeCount_lost {w w' : WinOpen.Host} {c h : Nat} (hc : w.cfds.lookup c = none) (hlt : c < WinOpen.cLimit)
    (hw : w'.cfds = (c, h) :: w.cfds) : freeCount w' < freeCount w := by
  unfold freeCount
  rw [hw]
  have hsub : (List.range WinOpen.cLimit).filter (fun k => (List.lookup k ((c, h) :: w.cfds)).isNone) =
      ((List.range WinOpen.cLimit).filter fun k => (w.cfds.lookup k).isNone).filter fun k => decide (k ≠ c) := by
    rw [List.filter_filter]
    refine List.filter_congr fun k _ => ?_
    rw [List.lookup_cons]
    by_cases hk : k = c
    · subst hk
      simp
    · have : (k == c) = false := by simpa using hk
      rw [this]
      simp [hk]
  rw [hsub]
  have hmem : c ∈ (List.range WinOpen.cLimit).filter fun k => (w.cfds.lookup k).isNone := by
    rw [List.mem_filter, List.mem_range]
    exact ⟨hlt, by rw [hc]; rfl⟩
  exact List.length_filter_lt_length_iff_exists.2 ⟨c, hmem, by simp⟩

theorem winFail {py : WinOpen.WinPython} (hpy : py.blockingModes = true) {a : OpenArgs} (hwr : Writes a.modeString)
    {w : WinOpen.Host} {kw : RawKw} {base : WinOpen.Host} {ino : Nat} {e : Exn} (hnw : WinOpen.noWait base ino = false)
    (hpr : WinOpen.probes py kw = true ↔ Writes a.modeString ∧ py.blockingModes = true)
    (h : (e = .ioError 24 ∧ WinOpen.probes py kw = true ∧ WinOpen.cLimit ≤ WinOpen.nextC w []) ∨
       (e = .ioError 24 ∧ a.bufferingValue < 0 ∧
          WinOpen.cLimit ≤ WinOpen.nextC w (WinOpen.afterProbe py kw w base ino).1) ∨
       (e = .assertionError ∧ a.bufferingValue < 0 ∧ WinOpen.nextC w (WinOpen.afterProbe py kw w base ino).1 = 0)) :
    e = .ioError 24 := by
  rcases h with ⟨h, _⟩ | ⟨h, _⟩ | ⟨_, _, h⟩
  · exact h
  · exact h
  · exfalso
    have hf := WinOpen.nextC_free w (WinOpen.afterProbe py kw w base ino).1
    rw [h] at hf
    unfold WinOpen.afterProbe at hf
    rw [hpr.2 ⟨hwr, hpy⟩, hnw] at hf
    simp only [if_true, Bool.false_eq_true, if_false] at hf
    have hz : WinOpen.nextC w [] = 0 := WinOpen.freeC_zero (WinOpen.lookup_append_none hf).2
    rw [hz] at hf
    simp at hf

theorem winCycle_ok {py : WinOpen.WinPython} (hpy : py.blockingModes = true) {a : OpenArgs} {p : Bytes}
    (ha : SoundCall a p) (hwr : Writes a.modeString) (hmc : ¬ MustCreate a.modeString) {w : WinOpen.Host}
    (hw : WinAllows a p w) {w' : WinOpen.Host} {s : WinOpen.Raw} {ly : WinOpen.Layers}
    (h : WinOpen.rsopen py a w = (.ok (s, ly), w')) :
    WinAllows a p (winCycle py a w) ∧ ((w.names.lookup p).isSome → ((winCycle py a w).names.lookup p).isSome) ∧
      freeCount (winCycle py a w) < freeCount w := by
  rcases winOpen_course ha.byPath h with ⟨e, he, _⟩ | ⟨kw, ext, _, hfl, hck, hcl, hc⟩
  · cases he
  rcases hc with ⟨e, sched, he, _⟩ | ⟨e, leaked, l, tr, ino, base, s, he, _⟩ | ⟨ino, base, s, ly, he, rfl, hin, hm, _⟩
  · cases he
  · cases he
  cases he
  have hcyc : winCycle py a w = WinOpen.closedHost w (WinOpen.afterProbe py kw w base ino).1 s := by
    unfold winCycle
    rw [h]
    simp only
    rw [hm.on.close hcl]
  have hreg : ∀ i, s.host.names.lookup p = some i →
      ∃ n, s.host.nodes[i]? = some n ∧ n.kind = .regular ∧ n.nonblocking = false := by
    intro i hi
    rw [hm.on.names] at hi
    rw [hm.on.nodes]
    have h1 : ∃ n, base.nodes[i]? = some n ∧ n.kind = .regular ∧ n.nonblocking = false := by
      cases hin with
      | old hl _ _ => exact hw.regular _ hi
      | new hl _ =>
        simp only [WinOpen.Host.newFile, List.lookup_cons, beq_self_eq_true] at hi
        cases hi
        exact ⟨_, by simp [WinOpen.Host.newFile]; rfl, rfl, rfl⟩
    obtain ⟨n, hn, hk, hb⟩ := h1
    split
    · rw [List.getElem?_modify, hn]
      by_cases he : ino = i
      · exact ⟨WinOpen.erased n, by simp [he], hk, hb⟩
      · exact ⟨n, by simp [he], hk, hb⟩
    · exact ⟨n, hn, hk, hb⟩
  have hsome : (s.host.names.lookup p).isSome := by
    rw [hm.on.names]
    cases hin with
    | old hl _ _ => rw [hl]; rfl
    | new => simp [WinOpen.Host.newFile]
  rw [hcyc]
  refine ⟨⟨fun e he => hw.quiet e (hm.on.sched e he), fun h => absurd h hmc, fun _ => hsome, hreg⟩, fun _ => hsome, ?_⟩
  have hnw : WinOpen.noWait base ino = false := by
    have h1 : ∃ n, base.nodes[ino]? = some n ∧ n.nonblocking = false := by
      cases hin with
      | old hl _ _ =>
        obtain ⟨n, h1, _, h2⟩ := hw.regular _ hl
        exact ⟨n, h1, h2⟩
      | new => exact ⟨_, by simp [WinOpen.Host.newFile]; rfl, rfl⟩
    obtain ⟨n, h1, h2⟩ := h1
    simp [WinOpen.noWait, h1, h2]
  have hpr : WinOpen.probes py kw = true := by
    unfold WinOpen.probes
    rw [Bool.and_eq_true]
    exact ⟨hfl.writes.2 hwr, hpy⟩
  have hpo : (WinOpen.afterProbe py kw w base ino).1 = [WinOpen.nextC w []] := by
    unfold WinOpen.afterProbe
    rw [hpr, hnw]
    rfl
  have hlk := hm.on.leaks
  rw [hpo] at hlk ⊢
  obtain ⟨h1, h2⟩ := hlk (WinOpen.nextC w []) (by simp)
  exact freeCount_lost h1 h2 rfl

/-- C86 fails in practice: since python 3.12, whoever opens and closes a file for writing again and again, one after the
other, gets an error after at most 8192 times, although the system allows every call. -/
theorem C86_exhausted {py : WinOpen.WinPython} (hu : py.py.hasU = false) (hpy : py.blockingModes = true) {a : OpenArgs}
    {p : Bytes} (ha : SoundCall a p) (hwr : Writes a.modeString) (hmc : ¬ MustCreate a.modeString) {w : WinOpen.Host}
    (hw : WinAllows a p w) (hx : (w.names.lookup p).isSome) :
    ∃ n, n ≤ 8192 ∧ WinAllows a p (winCycles py a n w) ∧
      (WinOpen.rsopen py a (winCycles py a n w)).1 = .error (.ioError 24) := by
  suffices h : ∀ m w, freeCount w ≤ m → WinAllows a p w → (w.names.lookup p).isSome → ∃ n, n ≤ m ∧
      WinAllows a p (winCycles py a n w) ∧ (WinOpen.rsopen py a (winCycles py a n w)).1 = .error (.ioError 24) from
    h 8192 w (freeCount_le w) hw hx
  intro m
  induction m with
  | zero =>
    intro w hfree hw hx
    cases h : WinOpen.rsopen py a w with
    | mk r w' =>
      rcases winAllowed hu ha hw h with ⟨s, ly, rfl⟩ | ⟨kw, base, ino, e, rfl, h1, h2, h3⟩
      · exfalso
        obtain ⟨_, _, hl⟩ := winCycle_ok hpy ha hwr hmc hw h
        omega
      · exact ⟨0, Nat.le_refl _, hw, by rw [winCycles, h, winFail hpy hwr h1 h2 h3]⟩
  | succ m ih =>
    intro w hfree hw hx
    cases h : WinOpen.rsopen py a w with
    | mk r w' =>
      rcases winAllowed hu ha hw h with ⟨s, ly, rfl⟩ | ⟨kw, base, ino, e, rfl, h1, h2, h3⟩
      · obtain ⟨h1, h2, hl⟩ := winCycle_ok hpy ha hwr hmc hw h
        obtain ⟨n, h3, h4, h5⟩ := ih (winCycle py a w) (by omega) h1 (h2 hx)
        exact ⟨n + 1, by omega, h4, h5⟩
      · exact ⟨0, Nat.zero_le _, hw, by rw [winCycles, h, winFail hpy hwr h1 h2 h3]⟩

theorem sound_w : SoundCall (call [102] "w") [102] where
  byPath := ⟨rfl, rfl, rfl, rfl⟩
  nonempty := by simp
  noNul := by decide
  mode := .inl ⟨by decide, by decide, 'w', by decide, by decide, by decide⟩
  access := .inr (.inr (.inl (by decide)))
  existence := by simp only [MustCreate, MustExist, Advanced]; decide
  erase := fun _ => .inr (.inl (by decide))
  layer := by simp only [Binary]; decide
  modeType := by nofun
  bufferingType := by nofun
  encodingType := by nofun
  errorsType := by nofun
  textArgs := fun _ => ⟨rfl, rfl, rfl⟩
  unbuffered := fun h => by cases h
  mutex := by decide
  closefd := rfl

theorem winAllows_w : WinAllows (call [102] "w") [102] winMachine where
  quiet := by decide
  create := fun h => by simp only [MustCreate] at h; revert h; decide
  exist := fun _ => by decide
  regular := fun ino h => by
    have h' : ino = 0 := by
      have : winMachine.names.lookup [102] = some 0 := by decide
      rw [this] at h
      exact (Option.some.inj h).symm
    subst h'
    exact ⟨⟨.regular, [1, 2, 3], false, false⟩, rfl, rfl, rfl⟩

/-- C86 is false: since python 3.12, opening and closing a file often enough makes the next call fail. -/
theorem C86_refuted : ¬ WinAlwaysOpens := by
  intro h
  obtain ⟨n, _, h1, h2⟩ := C86_exhausted (py := winPython) rfl rfl sound_w (.inr (.inl (by decide)))
    (by simp only [MustCreate]; decide) winAllows_w (by decide)
  obtain ⟨s, ly, w', hd, d, h3, _⟩ := h winPython _ _ _ rfl sound_w h1
  rw [h3] at h2
  cases h2

-- the hypotheses of C86_partial
example : WinOpens winPython (call [102] "w") [102] winMachine :=
  C86_partial rfl sound_w winAllows_w (by decide) (.inl (by decide))

end Verif.Props
