import Verif.Props.Wrapping
import Verif.Props.OpenLayers

/-!
# C113: the descriptor that an opener returns
-/

set_option autoImplicit false

namespace Verif.Props

open Verif Host OpenArgs

/-- The same call, which wraps the descriptor `z` instead of calling the opener. -/
def instead (a : OpenArgs) (z : Int) : OpenArgs := { a with name := .none, fileno := some z, opener := none }

theorem parseStandard_instead {py : Python} {name : NameArg} {mode : List Char} {f h : Option Int} {c : Bool} {kw : RawKw}
    {ext : ExtKw} (hp : parseStandard py name mode f h c = .ok (kw, ext)) (z : Int) :
    parseStandard py .none mode (some z) h c = .ok ({ kw with path := .none, fileno := some z }, ext) := by
  unfold parseStandard at hp ⊢
  dsimp only at hp ⊢
  split at hp
  · cases hp
  rename_i h1
  rw [if_neg h1]
  split at hp
  · cases hp
  rename_i h2
  rw [if_neg h2]
  split at hp
  · cases hp
  rename_i h3
  rw [if_neg h3]
  split at hp
  · cases hp; rfl
  · cases hp; rfl
  · split at hp <;> cases hp; rfl
  · split at hp <;> cases hp; rfl
  · cases hp

theorem parseAdvanced_instead {name : NameArg} {mode : List Char} {f h : Option Int} {c : Bool} {kw : RawKw} {ext : ExtKw}
    (hp : parseAdvanced name mode f h c = .ok (kw, ext)) (z : Int) :
    parseAdvanced .none mode (some z) h c = .ok ({ kw with path := .none, fileno := some z }, ext) := by
  unfold parseAdvanced at hp ⊢
  dsimp only at hp ⊢
  split at hp
  · cases hp
  rename_i h1
  rw [if_neg h1]
  cases hp
  rfl

theorem parse_instead {py : Python} {a : OpenArgs} {kw : RawKw} {ext : ExtKw} (hp : parse py a = .ok (kw, ext)) (z : Int) :
    parse py (instead a z) = .ok ({ kw with path := .none, fileno := some z }, ext) := by
  obtain ⟨_, _, h3, h4, h5⟩ := parse_ok hp
  unfold parse
  rw [if_neg (by simp [instead]), if_neg (by simp [instead, NameArg.isBool]), if_neg (by rw [Bool.not_eq_true]; exact h3),
    if_neg (by rcases h4 with h | h <;> simp [instead, h])]
  change parseMode py .none a.modeString (some z) a.handle a.closefd = _
  unfold parseMode at h5 ⊢
  dsimp only at h5 ⊢
  split at h5
  · rename_i h
    rw [if_pos h]
    exact parseStandard_instead h5 z
  · rename_i h
    rw [if_neg h]
    split at h5
    · rename_i h'
      rw [if_pos h']
      exact parseAdvanced_instead h5 z
    · cases h5

/-- What follows the opener does not depend on the arguments that say what to open. -/
theorem rsopen_instead {py : Python} {a : OpenArgs} {kw : RawKw} {ext : ExtKw} (hp : parse py a = .ok (kw, ext)) (z : Int)
    (w0 : Host) : rsopen py (instead a z) w0 = (do
      let truncate ← (fun w => (checkExt a { kw with path := .none, fileno := some z } ext, w) : PyM Host Bool)
      let raw ← RawObj.create { kw with path := .none, fileno := some z }
      finish py a { kw with path := .none, fileno := some z } ext truncate raw : PyM Host Verif.Opened) w0 := by
  unfold rsopen
  have h1 : (fun w => (parse py (instead a z), w) : PyM Host (RawKw × ExtKw)) w0 =
      (.ok ({ kw with path := .none, fileno := some z }, ext), w0) := by rw [parse_instead hp z]
  rw [PyM.bind_ok h1]
  have h2 : callOpener (instead a z) { kw with path := .none, fileno := some z } w0 =
      (.ok { kw with path := .none, fileno := some z }, w0) := rfl
  dsimp only
  rw [PyM.bind_ok h2]
  rfl

/-- The opener has not been called: the arguments are wrong, or a descriptor is given besides. -/
def Early (py : Python) (a : OpenArgs) : Prop :=
  (∃ e, parse py a = .error e) ∨ ∃ kw ext z, parse py a = .ok (kw, ext) ∧ kw.fileno = some z ∧ z ≠ 0

/-- C113: a call with an opener, for all openers: wrong arguments are rejected before it is called, and then nothing
happens; its exception is raised; and what it returns is treated as if the caller had called it before, and had wrapped
its result with the same mode and options. -/
theorem C113_same {py : Python} {a : OpenArgs} {m : PyM Host Int} (ho : a.opener = some m) (w : Host) :
    (Early py a ∧ ∃ e, rsopen py a w = (.error e, w)) ∨
    (¬ Early py a ∧
      match m w with
      | (.error e, w0) => rsopen py a w = (.error e, w0)
      | (.ok z, w0) =>
        if z < 0 then rsopen py a w = (.error .badValueType, w0) else rsopen py a w = rsopen py (instead a z) w0) := by
  cases hp : parse py a with
  | error e =>
    refine .inl ⟨.inl ⟨e, hp⟩, e, ?_⟩
    unfold rsopen
    have : (fun w => (parse py a, w) : PyM Host (RawKw × ExtKw)) w = (.error e, w) := by rw [hp]
    rw [PyM.bind_error this]
  | ok x =>
    obtain ⟨kw, ext⟩ := x
    have h1 : (fun w => (parse py a, w) : PyM Host (RawKw × ExtKw)) w = (.ok (kw, ext), w) := by rw [hp]
    have hrun : rsopen py a w = (do
        let kw ← callOpener a kw
        let truncate ← (fun w => (checkExt a kw ext, w) : PyM Host Bool)
        let raw ← RawObj.create kw
        finish py a kw ext truncate raw : PyM Host Verif.Opened) w := by
      unfold rsopen
      rw [PyM.bind_ok h1]
    by_cases hf : kw.fileno.any (· ≠ 0) = true
    · obtain ⟨z, hz, hz0⟩ : ∃ z, kw.fileno = some z ∧ z ≠ 0 := by
        cases hk : kw.fileno with
        | none => rw [hk] at hf; cases hf
        | some z => rw [hk] at hf; exact ⟨z, rfl, by simpa using hf⟩
      refine .inl ⟨.inr ⟨kw, ext, z, hp, hz, hz0⟩, .badValueType, ?_⟩
      have : callOpener a kw w = (.error .badValueType, w) := by
        unfold callOpener
        rw [ho]
        dsimp only
        rw [PyM.ite_apply, if_pos hf]
        rfl
      rw [hrun, PyM.bind_error this]
    · refine .inr ⟨?_, ?_⟩
      · rintro (⟨e, he⟩ | ⟨kw', ext', z, hk, hz, hz0⟩)
        · rw [hp] at he; cases he
        · rw [hp] at hk
          cases hk
          rw [hz] at hf
          exact hf (by simpa using hz0)
      have hco : callOpener a kw w = (do
          let fd ← m
          if fd < 0 then PyM.raise .badValueType else pure { kw with path := .none, fileno := some fd } : PyM Host RawKw) w := by
        unfold callOpener
        rw [ho]
        dsimp only
        rw [PyM.ite_apply, if_neg hf]
      cases hm : m w with
      | mk r w0 =>
        cases r with
        | error e =>
          rw [PyM.bind_error hm] at hco
          dsimp only
          rw [hrun, PyM.bind_error hco]
        | ok z =>
          rw [PyM.bind_ok hm] at hco
          dsimp only
          by_cases hz : z < 0
          · rw [if_pos hz]
            rw [PyM.ite_apply, if_pos hz] at hco
            rw [hrun, PyM.bind_error hco]
          · rw [if_neg hz]
            rw [PyM.ite_apply, if_neg hz] at hco
            rw [hrun, PyM.bind_ok hco, rsopen_instead hp z w0]

theorem instead_wraps {a : OpenArgs} (hh : a.handle = none) (z : Int) : Wraps (instead a z) z :=
  ⟨rfl, .inr (.inl ⟨rfl, rfl, hh⟩)⟩

/-- A call that is early or has no descriptor does not succeed. -/
theorem opener_ok {py : Python} {a : OpenArgs} {m : PyM Host Int} (ho : a.opener = some m) {w w' : Host} {s : Verif.Opened}
    (h : rsopen py a w = (.ok s, w')) : ∃ z w0, 0 ≤ z ∧ m w = (.ok z, w0) ∧ rsopen py (instead a z) w0 = (.ok s, w') := by
  rcases C113_same (py := py) ho w with ⟨_, e, he⟩ | ⟨_, hs⟩
  · rw [h] at he; cases he
  cases hm : m w with
  | mk r w0 =>
    rw [hm] at hs
    cases r with
    | error e => dsimp only at hs; rw [h] at hs; cases hs
    | ok z =>
      dsimp only at hs
      split at hs
      · rw [h] at hs; cases hs
      · exact ⟨z, w0, by omega, rfl, by rw [← hs, h]⟩

/-- C113: the stream works with the descriptor that the opener returned; `close()` closes it, at once or, if others have
locks on the file, when the last lock is given up, and closes no other descriptor than those that were waiting for this.
The call itself opens and closes no descriptor after the opener.
Missing: the descriptor 0 (`C96_refuted`). -/
theorem C113_owned_partial {py : Python} {a : OpenArgs} {m : PyM Host Int} (ho : a.opener = some m) (hh : a.handle = none)
    (hc : a.closefd = true) {w w' : Host} {s : Verif.Opened} (h : rsopen py a w = (.ok s, w')) (h0 : s.raw.fd ≠ 0) :
    ∃ w0, m w = (.ok (s.raw.fd : Int), w0) ∧ w'.fds = w0.fds ∧ closeFails s.raw.closefd s.raw.fd = false ∧
      Spared w0 (closeRaw s.raw.closefd s.raw.ino s.raw.fd w') s.raw.ino (fun x => x = s.raw.fd) ∧
      ∀ x ∈ (closeRaw s.raw.closefd s.raw.ino s.raw.fd w').fds, x.1 = s.raw.fd →
        (s.raw.ino, s.raw.fd) ∈ (closeRaw s.raw.closefd s.raw.ino s.raw.fd w').pending ∧
        ∃ l ∈ w0.held, l ∈ (closeRaw s.raw.closefd s.raw.ino s.raw.fd w').held ∧ l.1 = s.raw.ino ∧ l.2 ≠ s.raw.fd := by
  obtain ⟨z, w0, hz, hm, hr⟩ := opener_ok ho h
  have hfd : (s.raw.fd : Int) = z := by
    rcases wrap_course (instead_wraps hh z) hr with ⟨e, he, _⟩ | ⟨d, n, hl, hn, _, ⟨e, c, k, he, _⟩ |
      ⟨_, l, tr, k, raw, h1, _, _, ⟨e, he, _⟩ | ⟨s', he, hs, _⟩⟩⟩
    · cases he
    · cases he
    · cases he
    · cases he
      rw [hs, h1]
      omega
  obtain ⟨_, h2, h3, h4, h5⟩ := C96_owned_partial (instead_wraps hh z) hc (by omega) hr
  refine ⟨w0, by rw [hfd]; exact hm, h2, h3, ⟨h4.none, fun x hx => (h4.kept x hx).imp_right (.imp_left fun h => ?_)⟩,
    fun x hx hxz => h5 x hx (by omega)⟩
  change (x.1 : Int) = z at h
  omega

/-- C113: with `closefd=False` the descriptor stays open when the stream is closed. -/
theorem C113_borrowed {py : Python} {a : OpenArgs} {m : PyM Host Int} (ho : a.opener = some m) (hh : a.handle = none)
    (hc : a.closefd = false) {w w' : Host} {s : Verif.Opened} (h : rsopen py a w = (.ok s, w')) :
    ∃ w0, m w = (.ok (s.raw.fd : Int), w0) ∧ w'.fds = w0.fds ∧ closeFails s.raw.closefd s.raw.fd = false ∧
      Spared w0 (closeRaw s.raw.closefd s.raw.ino s.raw.fd w') s.raw.ino (fun _ => False) := by
  obtain ⟨z, w0, hz, hm, hr⟩ := opener_ok ho h
  obtain ⟨h1, h2, h3, h4⟩ := (C96_borrowed (instead_wraps hh z) hc hr).2 s rfl
  exact ⟨w0, by rw [h1]; exact hm, h2, h3, h4⟩

/-- The constructor, for an open descriptor: if it fails after it has looked at it, it closes it. -/
theorem create_looked {kw : RawKw} {z : Nat} (hf : kw.fileno = some (z : Int)) (hh : kw.handle = none)
    (hck : RawObj.check kw = .ok ()) (h31 : z < 2 ^ 31) {w w' : Host} {d : Desc} {n : Node}
    (hl : w.fds.lookup z = some d) (hn : w.nodes[d.ino]? = some n) (hd : n.kind ≠ .directory) (hq : w.fails = none)
    {r : Except Exn RawObj} (h : RawObj.create kw w = (r, w')) :
    ∃ k, (∃ e, r = .error e ∧ w' = closeRaw kw.closefd d.ino z (w.ticks k)) ∨
      (r = .ok (RawObj.built kw z d.ino (decide (n.kind = .regular))) ∧ w' = w.ticks k) := by
  unfold RawObj.create at h
  rw [PyM.bind_apply, hck] at h
  dsimp only at h
  have hst := sysFstat_eq h31 hl hn
  rw [hq] at hst
  have hcs : RawObj.createStreams kw w = (.ok ((z : Int), d.ino), w.ticks 1) := by
    unfold RawObj.createStreams
    rw [hh, hf]
    dsimp only
    rw [PyM.bind_apply]
    change (match (Except.ok (z : Int), w) with
      | (.ok a, s) => (do
          let st ← sysFstat a
          pure (a, st.1) : PyM Host (Int × Nat)) s
      | (.error e, s) => (.error e, s)) = _
    dsimp only
    rw [PyM.bind_ok hst]
    rfl
  rw [PyM.bind_ok (RawObj.noOverflow_ok hcs)] at h
  dsimp only at h
  rw [PyM.bind_apply] at h
  have hst2 := sysFstat_eq (w := w.ticks 1) h31 hl hn
  rw [ticks_ticks] at hst2
  unfold RawObj.inspect at h
  cases hf1 : (w.ticks 1).fails with
  | some e =>
    rw [hf1] at hst2
    rw [RawObj.noOverflow_error hst2] at h
    cases h
    exact ⟨2, .inl ⟨_, rfl, rfl⟩⟩
  | none =>
    rw [hf1] at hst2
    rw [RawObj.noOverflow_ok hst2] at h
    dsimp only at h
    rw [if_neg hd] at h
    by_cases ha : kw.append = true
    · rw [if_pos ha, outside_eq] at h
      cases hf2 : (w.ticks 2).fails with
      | none =>
        rw [hf2] at h
        cases h
        exact ⟨3, .inr ⟨rfl, by rw [tick_eq, ticks_ticks]⟩⟩
      | some e =>
        rw [hf2] at h
        dsimp only at h
        by_cases he : e = .ioError 29
        · rw [if_pos he] at h
          cases h
          exact ⟨3, .inr ⟨rfl, by rw [tick_eq, ticks_ticks]⟩⟩
        · rw [if_neg he] at h
          cases h
          exact ⟨3, .inl ⟨_, rfl, by rw [tick_eq, ticks_ticks]; rfl⟩⟩
    · rw [if_neg ha] at h
      cases h
      exact ⟨2, .inr ⟨rfl, rfl⟩⟩

/-- The arguments besides the opener and the buffering are sound. -/
def SoundOpener (a : OpenArgs) (p : Bytes) : Prop := SoundCall { a with opener := none, buffering := .absent } p

/-- The descriptor `z` of `ino` is closed, or waits until the others have given up their locks on the file; it is the only
one, besides those that waited already. -/
structure GivenUp (w w' : Host) (ino z : Nat) : Prop where
  others : Spared w w' ino (fun x => x = z)
  closed : ∀ x ∈ w'.fds, x.1 = z → (ino, z) ∈ w'.pending ∧ ∃ l ∈ w.held, l.1 = ino ∧ l ≠ (ino, z)

theorem closeRaw_givenUp {w v : Host} {ino z : Nat} (hz : z ≠ 0) (hf : v.fds = w.fds) (hp : v.pending = w.pending)
    (hh : ∀ l ∈ v.held, l = (ino, z) ∨ l ∈ w.held) : GivenUp w (closeRaw true ino z v) ino z := by
  have hs := closeRaw_wrapped (w := w) (v := v) (c := true) (ino := ino) (fd := z) hf hp
  refine ⟨⟨hs.none, fun x hx => (hs.kept x hx).imp_right (.imp_left fun h => h.2.2)⟩, fun x hx hxz => ?_⟩
  obtain ⟨_, he⟩ := closeRaw_fds.1 hx
  have ho : OthersLock ino z v := by
    by_cases ho : OthersLock ino z v
    · exact ho
    · exact absurd ⟨ho, .inl ⟨rfl, hz, hxz⟩⟩ he
  refine ⟨closeRaw_pending.2 (.inr ⟨ho, rfl, hz, rfl⟩), ?_⟩
  obtain ⟨l, h1, h2, h3⟩ := ho
  exact ⟨l, (hh l h1).resolve_left h2, h3, h2⟩

/-- The claim of C113 about failures: a call that fails leaves no descriptor open that its opener has opened. -/
def OpenerNeverLeaks : Prop :=
  ∀ (py : Python) (a : OpenArgs) (m : PyM Host Int) (p : Bytes) (w w0 w' : Host) (z : Nat) (e : Exn),
    a.opener = some m → a.closefd = true → a.name = .path p → a.fileno = none → a.handle = none → w.held = [] → z ≠ 0 →
    w.fds.lookup z = none → m w = (.ok (z : Int), w0) → (∀ e ∈ w0.sched, e = none) →
    rsopen py a w = (.error e, w') → w'.fds.lookup z = none

/-- C113: if a call with sound arguments fails after the opener returned a descriptor, because the file cannot be locked,
because text is not to be buffered or for any other reason, then the descriptor is closed.
Missing: arguments that are rejected only after the opener has been called (`C113_refuted`), directories
(`C113_directory_refuted`), the descriptor 0, and a failure of the first `fstat`. -/
theorem C113_failed_partial {py : Python} {a : OpenArgs} {m : PyM Host Int} {p : Bytes} (ho : a.opener = some m)
    (ha : SoundOpener a p) {w w0 w' : Host} {z : Nat} (hm : m w = (.ok (z : Int), w0)) (h0 : z ≠ 0) (h31 : z < 2 ^ 31)
    {d : Desc} {n : Node} (hl : w0.fds.lookup z = some d) (hn : w0.nodes[d.ino]? = some n) (hd : n.kind ≠ .directory)
    (hq : ∀ e, w0.sched.head? ≠ some (some e)) {e : Exn} (h : rsopen py a w = (.error e, w')) :
    (Early py a ∧ w' = w) ∨ GivenUp w0 w' d.ino z := by
  rcases C113_same (py := py) ho w with ⟨hE, e', he⟩ | ⟨hE, hs⟩
  · rw [h] at he
    cases he
    exact .inl ⟨hE, rfl⟩
  right
  rw [hm] at hs
  dsimp only at hs
  rw [if_neg (by omega)] at hs
  cases hp : parse py a with
  | error e' => exact absurd (.inl ⟨e', hp⟩) hE
  | ok x =>
    obtain ⟨kw, ext⟩ := x
    rw [rsopen_instead hp, h] at hs
    obtain ⟨_, _, h3, h4, h5⟩ := parse_ok hp
    have hp' : parse py { a with opener := none, buffering := .absent } = .ok (kw, ext) := by
      unfold parse
      rw [if_neg (by rw [show _ = NameArg.path p from ha.byPath.name]; simp),
        if_neg (by rw [show _ = NameArg.path p from ha.byPath.name]; simp [NameArg.isBool]), if_neg, if_neg]
      · exact h5
      · rcases h4 with h | h <;> simp [h]
      · simp only [Bool.or_eq_false_iff] at h3
        rw [show isWrong (Arg.absent : Arg Int) = false from rfl]
        simp only [h3, Bool.or_self, Bool.false_eq_true, not_false_eq_true]
    obtain ⟨hx, hck⟩ := sound_check ha hp'
    have hfl := parseMode_fields (parse_ok hp').1 (parse_ok hp').2.1 (parse_ok hp').2.2.2.2
    have hpath : kw.path = .path p := (hfl.path p ha.byPath.name).1
    have hf : kw.fileno = none := (hfl.path p ha.byPath.name).2.trans ha.byPath.fileno
    have hh : kw.handle = none := hfl.handle.trans ha.byPath.handle
    have hcl : kw.closefd = true := hfl.closefd.trans ha.closefd
    obtain ⟨t, hx'⟩ : ∃ t, checkExt a { kw with path := .none, fileno := some (z : Int) } ext = .ok t := by
      unfold checkExt at hx ⊢
      dsimp only at hx ⊢
      split at hx
      · cases hx
      rename_i h1
      rw [if_neg h1]
      split at hx
      · cases hx
      rename_i h2
      rw [if_neg h2]
      split at hx
      · cases hx
      rename_i h3
      rw [if_neg h3]
      exact ⟨_, rfl⟩
    have hck' : RawObj.check { kw with path := .none, fileno := some (z : Int) } = .ok () := by
      obtain ⟨c1, c2, c3, c4, _⟩ := RawObj.check_ok hck
      unfold RawObj.check
      dsimp only
      rw [if_neg (by simp), if_neg (by simp [NameArg.truthy, hh]), if_neg, if_neg, if_neg (by simp), if_neg (by simp),
        if_neg (by simp), if_neg (by simp [NameArg.hasNul])]
      · simpa using c4
      · rcases c3 with h | h | h <;> simp [h]
    have hx2 : (fun w => (checkExt a { kw with path := .none, fileno := some (z : Int) } ext, w) : PyM Host Bool) w0 = (.ok t, w0) := by
      rw [hx']
    rw [PyM.bind_ok hx2] at hs
    cases hcr : RawObj.create { kw with path := .none, fileno := some (z : Int) } w0 with
    | mk r w1 =>
      have hfails : w0.fails = none := by
        cases hfa : w0.fails with
        | none => rfl
        | some e' =>
          exfalso
          unfold fails at hfa
          cases hh' : w0.sched.head? with
          | none => rw [hh'] at hfa; cases hfa
          | some x =>
            rw [hh'] at hfa
            exact hq e' (hh'.trans (congrArg some hfa))
      obtain ⟨k, ⟨e', rfl, rfl⟩ | ⟨rfl, rfl⟩⟩ := create_looked (kw := { kw with path := .none, fileno := some (z : Int) })
        rfl hh hck' h31 hl hn hd hfails hcr
      · rw [PyM.bind_error hcr] at hs
        cases hs
        rw [show ({ kw with path := .none, fileno := some (z : Int) } : RawKw).closefd = true from hcl]
        exact closeRaw_givenUp h0 rfl rfl fun l hl => .inr hl
      · rw [PyM.bind_ok hcr] at hs
        obtain ⟨k', l, tr, _, _, hfc⟩ := finish_course hs.symm
        rcases hfc with ⟨_, _, hw, _⟩ | ⟨_, _, hfc⟩
        · rw [hw]
          rw [show (RawObj.built { kw with path := .none, fileno := some (z : Int) } z d.ino (decide (n.kind = .regular))).closefd
            = true from hcl]
          refine closeRaw_givenUp h0 rfl rfl fun x hx => ?_
          cases l
          · exact .inr hx
          · exact (List.mem_cons.1 hx).imp_right id
        · rcases hfc with ⟨_, _, he⟩ | ⟨_, _, _, _, he, _⟩ <;> cases he

/-- An opener that opens the file `f` and returns the new descriptor. -/
def readerOf (p : Bytes) : PyM Host Int := fun w =>
  match sysOpen p ⟨true, false, false, false, false, false⟩ w with
  | (.ok fd, w) => (.ok fd, w)
  | (.error e, w) => (.error e, w)

/-- `rsopen(p, mode, opener=…)`, the opener opens `p` for reading. -/
def openerCall (p : Bytes) (mode : String) : OpenArgs := { call p mode with opener := some (readerOf p) }

/-- `rsopen("f", "rb", encoding="utf8", opener=…)`. -/
def encodedBinary : OpenArgs := { openerCall [102] "rb" with encoding := .given () }

/-- C113 is false for arguments that are checked only after the opener has been called, as the encoding of a binary stream:
the descriptor stays open, and nobody knows it. -/
theorem C113_refuted : ¬ OpenerNeverLeaks := by
  intro h
  have hr : (rsopen unixPython encodedBinary machine).1 = .error .badValueType := by decide +kernel
  have := h unixPython encodedBinary (readerOf [102]) [102] machine (readerOf [102] machine).2 _ 3 _ rfl rfl rfl rfl rfl rfl
    (by decide) (by decide +kernel) (Prod.ext (by decide +kernel) rfl) (by decide +kernel) (Prod.ext hr rfl)
  revert this
  decide +kernel

theorem sound_opener (p : Bytes) (h1 : p ≠ []) (h2 : 0 ∉ p) : SoundOpener (openerCall p "rb") p := by
  have hm : ({ openerCall p "rb" with opener := none, buffering := .absent } : OpenArgs).modeString = ['r', 'b'] := rfl
  refine ⟨⟨rfl, rfl, rfl, rfl⟩, h1, h2, ?_, ?_, ?_, ?_, ?_, by simp [openerCall, call], by simp, by simp [openerCall, call],
    by simp [openerCall, call], fun _ => ⟨rfl, rfl, rfl⟩, by simp, by simp [openerCall, call], rfl⟩ <;> rw [hm]
  · exact .inl ⟨by decide, by decide, 'r', by decide, by decide, by decide⟩
  · exact .inl (.inl (by decide))
  · simp only [MustCreate]
    rintro ⟨h | h | h, _⟩ <;> revert h <;> decide
  · simp only [Erases]
    rintro (h | ⟨h, _⟩) <;> exact absurd h (by decide)
  · simp only [Binary]
    rintro ⟨_, h | h⟩ <;> revert h <;> decide

/-- C113 is false for sound arguments, too, if the opener has opened a directory: it is refused, and stays open. -/
theorem C113_directory_refuted : SoundOpener (openerCall [100] "rb") [100] ∧ ¬ OpenerNeverLeaks := by
  refine ⟨sound_opener _ (by decide) (by decide), ?_⟩
  intro h
  have hr : (rsopen unixPython (openerCall [100] "rb") machine).1 = .error (.ioError 21) := by decide +kernel
  have := h unixPython (openerCall [100] "rb") (readerOf [100]) [100] machine (readerOf [100] machine).2 _ 3 _ rfl rfl rfl rfl
    rfl rfl (by decide) (by decide +kernel) (Prod.ext (by decide +kernel) rfl) (by decide +kernel) (Prod.ext hr rfl)
  revert this
  decide +kernel

-- an opener that opens `f` as 3: the stream works with it, and closes it
example : (rsopen unixPython (openerCall [102] "rb") machine).1.toOption.map (fun s => (s.raw.fd, s.raw.closefd)) =
    some (3, true) := by decide +kernel
example : ((readerOf [102] machine).2.fds.map Prod.fst).length = machine.fds.length + 1 ∧
    (closeRaw true 0 3 (rsopen unixPython (openerCall [102] "rb") machine).2).fds = machine.fds := by decide +kernel
-- one that lends it
example : (rsopen unixPython { openerCall [102] "rb" with closefd := false } machine).1.toOption.map
    (fun s => (s.raw.fd, s.raw.closefd)) = some (3, false) := by decide +kernel
-- the lock is refused: 3 is closed again; or waits, as others have locks on the file
example : (rsopen unixPython (openerCall [102] "rb")
      { machine with sched := [none, none, none, some (.lockingException 11)] }).1.toBool = false ∧
    (rsopen unixPython (openerCall [102] "rb")
      { machine with sched := [none, none, none, some (.lockingException 11)] }).2.fds = machine.fds ∧
    (rsopen unixPython (openerCall [102] "rb")
      { machine with sched := [none, none, none, some (.lockingException 11)], held := [(0, 7)] }).2.pending = [(0, 3)] := by
  decide +kernel
example : SoundOpener (openerCall [102] "rb") [102] ∧ (∀ e, (readerOf [102] machine).2.sched.head? ≠ some (some e)) ∧
    ((readerOf [102] machine).2.fds.lookup 3).map Desc.ino = some 0 :=
  ⟨sound_opener _ (by decide) (by decide), by simp [show (readerOf [102] machine).2.sched = [] by decide +kernel],
    by decide +kernel⟩
-- a descriptor besides the opener: it is not called
example : Early unixPython { openerCall [102] "rb" with fileno := some 5 } :=
  .inr ⟨_, _, 5, rfl, rfl, by decide⟩

end Verif.Props
