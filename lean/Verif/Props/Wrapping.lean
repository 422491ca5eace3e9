import Verif.Props.OpenMore

/-!
# C96: on unix wrapping a descriptor honours `closefd` and touches no other descriptor
-/

set_option autoImplicit false

namespace Verif.Props

open Verif Host OpenArgs

/-- The descriptor waits to be closed, and its file has no locks any more. -/
def Due (w w' : Host) (ino fd : Nat) : Prop := (ino, fd) ∈ w.pending ∧ ∀ l ∈ w'.held, l.1 ≠ ino

/-- No descriptor was opened, and none was closed, but those of the file that were waiting for the end of the locks. -/
structure Spared (w w' : Host) (ino : Nat) (but : Nat → Prop) : Prop where
  none : ∀ x ∈ w'.fds, x ∈ w.fds
  kept : ∀ x ∈ w.fds, x ∈ w'.fds ∨ but x.1 ∨ Due w w' ino x.1

/-- The course of a call that wraps a descriptor. -/
theorem wrap_course {py : Python} {a : OpenArgs} {z : Int} (ha : Wraps a z) {w w' : Host} {r : Except Exn Verif.Opened}
    (h : rsopen py a w = (r, w')) :
    (∃ e, r = .error e ∧ Untouched w w') ∨
    ∃ d n, w.fds.lookup z.toNat = some d ∧ w.nodes[d.ino]? = some n ∧ 0 ≤ z ∧
      ((∃ e c k, r = .error e ∧ w' = closeRaw c d.ino z.toNat (w.ticks k) ∧ (c = true → a.closefd = true) ∧
          (n.kind = .directory → z ≠ 0 → (∀ e ∈ w.sched, e = none) → c = false)) ∨
       (n.kind ≠ .directory ∧ ∃ l tr k raw, raw.fd = z.toNat ∧ raw.ino = d.ino ∧ raw.closefd = a.closefd ∧
        ((∃ e, r = .error e ∧ w' = closeRaw a.closefd d.ino z.toNat (effect l tr raw (w.ticks k))) ∨
         ∃ s, r = .ok s ∧ s.raw = raw ∧ w' = effect l tr raw (w.ticks k)))) := by
  have hst : start a w = w := by unfold start; rw [ha.1]
  rcases rsopen_course h with ⟨e, he, hw⟩ | ⟨kw0, kw, ext, t, hp, hpar, hext, hc⟩
  · rw [hst] at hw
    rcases hw with ⟨rfl, _⟩ | ⟨rfl, _⟩ <;> exact .inl ⟨e, he, _, rfl⟩
  obtain rfl : kw = kw0 := hpar.elim (fun h => h.2) fun h => absurd ha.1 h.1
  rw [hst] at hc
  have hfl := parseMode_fields (parse_ok hp).1 (parse_ok hp).2.1 (parse_ok hp).2.2.2.2
  have hcl : kw.closefd = a.closefd := hfl.closefd
  have hgv : (∃ e, RawObj.check kw = .error e) ∨ RawObj.given kw = some z := by
    rcases ha.2 with ⟨h1, h2, h3⟩ | ⟨h1, h2, h3⟩ | ⟨h1, h2, h3⟩
    · have hh : kw.handle = none := hfl.handle.trans h3
      rcases hfl.int z h1 with ⟨_, hf, _⟩ | hp
      · have hf : kw.fileno = some z := hf
        simp [RawObj.given, hh, hf]
      · left
        cases hck : RawObj.check kw with
        | error e => exact ⟨e, rfl⟩
        | ok u =>
          have := (RawObj.check_ok hck).1
          rw [show kw.path = _ from hp] at this
          simp [NameArg.isString] at this
    · have hh : kw.handle = none := hfl.handle.trans h3
      have hf : kw.fileno = some z := (hfl.none h1).2.trans h2
      simp [RawObj.given, hh, hf]
    · have hh : kw.handle = some z := hfl.handle.trans h3
      simp [RawObj.given, hh]
  rcases hgv with ⟨e, he⟩ | hg
  · have : RawObj.create kw w = (.error e, w) := by
      unfold RawObj.create
      rw [PyM.bind_apply, he]
    rw [this] at hc
    rcases hc with ⟨e', hr, hc⟩ | ⟨_, _, hc, _⟩
    · cases hc
      exact .inl ⟨_, hr, _, rfl⟩
    · cases hc
  rcases hc with ⟨e, hr, hc⟩ | ⟨raw, w1, hc, hfin⟩
  · rcases RawObj.create_fd_course hg hc with ⟨_, _, _, rfl⟩ | ⟨_, ⟨_, _, _, _, rfl, _⟩ | ⟨h0, d, n, hl, hn, hc⟩⟩
    · exact .inl ⟨e, hr, _, rfl⟩
    · exact .inl ⟨e, hr, _, rfl⟩
    · rcases hc with ⟨e1, e', k, c, _, rfl, hc, hwhy⟩ | ⟨_, _, _, he⟩
      · refine .inr ⟨d, n, hl, hn, h0, .inl ⟨e, c, k, hr, rfl, fun h => hcl ▸ hc h, fun hd hz hq => ?_⟩⟩
        rcases hwhy with ⟨_, hm⟩ | ⟨_, _, _, h⟩ | ⟨_, h, _⟩
        · cases hq _ hm
        · exact h
        · exact absurd h hz
      · cases he
  · rcases RawObj.create_fd_course hg hc with ⟨_, he, _⟩ | ⟨_, ⟨_, _, _, he, _⟩ | ⟨h0, d, n, hl, hn, hc⟩⟩
    · cases he
    · cases he
    · rcases hc with ⟨_, _, _, _, he, _⟩ | ⟨hd, k, rfl, he⟩
      · cases he
      · cases he
        obtain ⟨k', l, tr, _, _, hfc⟩ := finish_course hfin
        refine .inr ⟨d, n, hl, hn, h0, .inr ⟨hd, l, tr, k + k', RawObj.built kw z.toNat d.ino (decide (n.kind = .regular)),
          rfl, rfl, hcl, ?_⟩⟩
        rw [ticks_ticks] at hfc
        rcases hfc with ⟨e, he, rfl, _⟩ | ⟨_, rfl, hfc⟩
        · obtain ⟨e', he', _⟩ := closing_error (RawObj.built kw z.toNat d.ino (decide (n.kind = .regular))).closefd
            (RawObj.built kw z.toNat d.ino (decide (n.kind = .regular))).fd e (α := Verif.Opened)
          exact .inl ⟨e', he.trans he', by rw [← hcl]; rfl⟩
        · right
          rcases hfc with ⟨_, _, he⟩ | ⟨_, _, _, _, he, _⟩
          · exact ⟨_, he, rfl, rfl⟩
          · exact ⟨_, he, rfl, rfl⟩

/-- Closing a stream, after states that differ in nothing but the locks of the stream. -/
theorem closeRaw_wrapped {w v : Host} {c : Bool} {ino fd : Nat} (hf : v.fds = w.fds) (hp : v.pending = w.pending) :
    Spared w (closeRaw c ino fd v) ino (fun x => c = true ∧ fd ≠ 0 ∧ x = fd) := by
  refine ⟨fun x hx => hf ▸ (closeRaw_fds.1 hx).1, fun x hx => ?_⟩
  by_cases he : Ends c ino fd v x.1
  · rcases he.2 with h | ⟨_, h⟩
    · exact .inr (.inl h)
    · refine .inr (.inr ⟨hp ▸ h, fun l hl he' => he.1 ?_⟩)
      rw [closeRaw_locks, List.mem_filter, decide_eq_true_iff] at hl
      exact ⟨l, hl.1, hl.2, he'⟩
  · exact .inl (closeRaw_fds.2 ⟨hf ▸ hx, he⟩)

theorem Untouched.spared {w w' : Host} (h : Untouched w w') (ino : Nat) (but : Nat → Prop) : Spared w w' ino but := by
  obtain ⟨_, rfl⟩ := h
  exact ⟨fun _ h => h, fun _ h => .inl h⟩

/-- C96: a stream made with `closefd=False` leaves the descriptor open: whatever the outcome of the call, and when the stream
is closed, no descriptor is opened or closed, except for postponed ones of the file when its last lock is given up.  Closing
succeeds. -/
theorem C96_borrowed {py : Python} {a : OpenArgs} {z : Int} (ha : Wraps a z) (hc : a.closefd = false) {w w' : Host}
    {r : Except Exn Verif.Opened} (h : rsopen py a w = (r, w')) :
    (∃ ino, Spared w w' ino (fun _ => False)) ∧ ∀ s, r = .ok s → (s.raw.fd : Int) = z ∧ w'.fds = w.fds ∧
      closeFails s.raw.closefd s.raw.fd = false ∧
      Spared w (closeRaw s.raw.closefd s.raw.ino s.raw.fd w') s.raw.ino (fun _ => False) := by
  have weak : ∀ {v : Host} {ino : Nat} {but : Nat → Prop}, Spared w v ino but → (∀ x, ¬ but x) →
      Spared w v ino (fun _ => False) :=
    fun h hb => ⟨h.none, fun x hx => (h.kept x hx).imp_right fun h => .inr (h.resolve_left (hb _))⟩
  rcases wrap_course ha h with ⟨e, rfl, hu⟩ | ⟨d, n, hl, hn, h0, ⟨e, c, k, rfl, rfl, hcc, _⟩ |
    ⟨_, l, tr, k, raw, h1, h2, h3, ⟨e, rfl, rfl⟩ | ⟨s, rfl, rfl, rfl⟩⟩⟩
  · exact ⟨⟨0, hu.spared 0 _⟩, by simp⟩
  · refine ⟨⟨d.ino, weak (closeRaw_wrapped (w := w) (v := w.ticks k) rfl rfl) fun x hx => ?_⟩, by simp⟩
    rw [hcc hx.1] at hc
    cases hc
  · refine ⟨⟨d.ino, weak (closeRaw_wrapped (w := w) rfl rfl) fun x hx => ?_⟩, by simp⟩
    rw [hc] at hx
    cases hx.1
  · refine ⟨⟨0, fun _ h => h, fun _ h => .inl h⟩, fun s' hs => ?_⟩
    cases hs
    refine ⟨by omega, rfl, ?_, weak (closeRaw_wrapped (w := w) rfl rfl) fun x hx => ?_⟩
    · rw [h3, hc]; rfl
    · rw [h3, hc] at hx
      cases hx.1

/-- C96: a stream made with `closefd=True` closes the descriptor when it is closed, at once or, if others have locks on the
file, when the last lock is given up; other descriptors than postponed ones stay open, and the call itself opens and closes
none.
Missing: the descriptor 0 (`C96_refuted`). -/
theorem C96_owned_partial {py : Python} {a : OpenArgs} {z : Int} (ha : Wraps a z) (hc : a.closefd = true) (hz : z ≠ 0)
    {w w' : Host} {s : Verif.Opened} (h : rsopen py a w = (.ok s, w')) :
    (s.raw.fd : Int) = z ∧ w'.fds = w.fds ∧ closeFails s.raw.closefd s.raw.fd = false ∧
      Spared w (closeRaw s.raw.closefd s.raw.ino s.raw.fd w') s.raw.ino (fun x => (x : Int) = z) ∧
      ∀ x ∈ (closeRaw s.raw.closefd s.raw.ino s.raw.fd w').fds, (x.1 : Int) = z →
        (s.raw.ino, s.raw.fd) ∈ (closeRaw s.raw.closefd s.raw.ino s.raw.fd w').pending ∧
        ∃ l ∈ w.held, l ∈ (closeRaw s.raw.closefd s.raw.ino s.raw.fd w').held ∧ l.1 = s.raw.ino ∧ l.2 ≠ s.raw.fd := by
  rcases wrap_course ha h with ⟨e, he, _⟩ | ⟨d, n, hl, hn, h0, ⟨e, c, k, he, _⟩ |
    ⟨_, l, tr, k, raw, h1, h2, h3, ⟨e, he, _⟩ | ⟨s', he, rfl, rfl⟩⟩⟩
  · cases he
  · cases he
  · cases he
  · cases he
    have hfd : s.raw.fd ≠ 0 := by omega
    have hcl : s.raw.closefd = true := h3.trans hc
    have hsp := closeRaw_wrapped (w := w) (v := effect l tr s.raw (w.ticks k)) (c := s.raw.closefd) (ino := s.raw.ino)
      (fd := s.raw.fd) rfl rfl
    refine ⟨by omega, rfl, by simp [closeFails, hfd], ⟨hsp.none, fun x hx => ?_⟩, fun x hx hxz => ?_⟩
    · rcases hsp.kept x hx with h | ⟨_, _, h⟩ | h
      · exact .inl h
      · exact .inr (.inl (by omega))
      · exact .inr (.inr h)
    · obtain ⟨_, he⟩ := closeRaw_fds.1 hx
      have hx1 : x.1 = s.raw.fd := by omega
      have ho : OthersLock s.raw.ino s.raw.fd (effect l tr s.raw (w.ticks k)) := by
        by_cases ho : OthersLock s.raw.ino s.raw.fd (effect l tr s.raw (w.ticks k))
        · exact ho
        · exact absurd ⟨ho, .inl ⟨hcl, hfd, hx1⟩⟩ he
      refine ⟨closeRaw_pending.2 (.inr ⟨ho, hcl, hfd, rfl⟩), ?_⟩
      obtain ⟨m, hm1, hm2, hm3⟩ := ho
      refine ⟨m, ?_, by rw [closeRaw_locks]; exact List.mem_filter.2 ⟨hm1, by simpa using hm2⟩, hm3, fun h => hm2 ?_⟩
      · cases l
        · exact hm1
        · exact (List.mem_cons.1 hm1).resolve_left hm2
      · exact Prod.ext hm3 h

/-- C96: a call that fails opens no descriptor and closes none but the wrapped one, this with `closefd=True` only, and
postponed ones of its file. -/
theorem C96_failed {py : Python} {a : OpenArgs} {z : Int} (ha : Wraps a z) {w w' : Host} {e : Exn}
    (h : rsopen py a w = (.error e, w')) : ∃ ino, Spared w w' ino (fun x => a.closefd = true ∧ (x : Int) = z) := by
  rcases wrap_course ha h with ⟨e, _, hu⟩ | ⟨d, n, hl, hn, h0, ⟨e, c, k, _, rfl, hcc, _⟩ |
    ⟨_, l, tr, k, raw, h1, h2, h3, ⟨e, _, rfl⟩ | ⟨s, he, _⟩⟩⟩
  · exact ⟨0, hu.spared 0 _⟩
  · have := closeRaw_wrapped (w := w) (v := w.ticks k) (c := c) (ino := d.ino) (fd := z.toNat) rfl rfl
    refine ⟨d.ino, this.none, fun x hx => (this.kept x hx).imp_right fun h => h.imp_left ?_⟩
    rintro ⟨h1, _, h2⟩
    exact ⟨hcc h1, by omega⟩
  · have := closeRaw_wrapped (w := w) (v := effect l tr raw (w.ticks k)) (c := a.closefd) (ino := d.ino) (fd := z.toNat) rfl rfl
    refine ⟨d.ino, this.none, fun x hx => (this.kept x hx).imp_right fun h => h.imp_left ?_⟩
    rintro ⟨h1, _, h2⟩
    exact ⟨h1, by omega⟩
  · cases he

/-- C96: the locks of the streams of other descriptors stay, and the new stream leaves none behind, when the call fails or
the stream is closed. -/
theorem C96_locks {py : Python} {a : OpenArgs} {z : Int} (ha : Wraps a z) {w w' : Host}
    (hnew : ∀ l ∈ w.held, (l.2 : Int) ≠ z) {r : Except Exn Verif.Opened} (h : rsopen py a w = (r, w')) (m : Nat × Nat) :
    match r with
    | .ok s => m ∈ (closeRaw s.raw.closefd s.raw.ino s.raw.fd w').held ↔ m ∈ w.held
    | .error _ => m ∈ w'.held ↔ m ∈ w.held := by
  have key : ∀ {v : Host} {c : Bool} {ino fd : Nat}, (fd : Int) = z →
      (∀ m, m ∈ v.held ↔ m ∈ w.held ∨ (m = (ino, fd) ∧ m ∈ v.held)) →
      (m ∈ (closeRaw c ino fd v).held ↔ m ∈ w.held) := by
    intro v c ino fd hfd hv
    rw [closeRaw_locks, List.mem_filter, decide_eq_true_iff]
    constructor
    · rintro ⟨h1, h2⟩
      exact ((hv m).1 h1).resolve_right fun h => h2 h.1
    · intro h
      refine ⟨(hv m).2 (.inl h), ?_⟩
      rintro rfl
      exact hnew _ h hfd
  rcases wrap_course ha h with ⟨e, rfl, hu⟩ | ⟨d, n, hl, hn, h0, ⟨e, c, k, rfl, rfl, hcc, _⟩ |
    ⟨_, l, tr, k, raw, h1, h2, h3, ⟨e, rfl, rfl⟩ | ⟨s, rfl, rfl, rfl⟩⟩⟩
  · obtain ⟨_, rfl⟩ := hu
    exact Iff.rfl
  · exact key (v := w.ticks k) (by omega) fun m => ⟨.inl, fun h => h.elim id And.right⟩
  · refine key (by omega) fun m => ?_
    cases l
    · exact ⟨.inl, fun h => h.elim id And.right⟩
    · simp only [effect, if_true, List.mem_cons, h1, h2]
      exact ⟨fun h => h.elim (fun h => .inr ⟨h, .inl h⟩) .inl, fun h => h.elim .inr And.right⟩
  · refine key (by omega) fun m => ?_
    cases l
    · exact ⟨.inl, fun h => h.elim id And.right⟩
    · simp only [effect, if_true, List.mem_cons]
      exact ⟨fun h => h.elim (fun h => .inr ⟨h, .inl h⟩) .inl, fun h => h.elim .inr And.right⟩

/-- C96: closing the stream, borrowed or not, gives up its lock; if that was the last one on the file, every descriptor
whose closing was postponed for it is closed. -/
theorem C96_postponed {py : Python} {a : OpenArgs} {z : Int} (ha : Wraps a z) {w w' : Host} {s : Verif.Opened}
    (h : rsopen py a w = (.ok s, w')) (hl : (s.raw.ino, s.raw.fd) ∈ w'.held)
    (hlast : ∀ l ∈ (closeRaw s.raw.closefd s.raw.ino s.raw.fd w').held, l.1 ≠ s.raw.ino) (x : Nat) :
    (s.raw.ino, x) ∉ (closeRaw s.raw.closefd s.raw.ino s.raw.fd w').pending ∧
      ((s.raw.ino, x) ∈ w.pending → ∀ d, (x, d) ∉ (closeRaw s.raw.closefd s.raw.ino s.raw.fd w').fds) := by
  have hno : ¬ OthersLock s.raw.ino s.raw.fd w' := by
    rintro ⟨l, h1, h2, h3⟩
    refine hlast l ?_ h3
    rw [closeRaw_locks, List.mem_filter, decide_eq_true_iff]
    exact ⟨h1, h2⟩
  have hp : w'.pending = w.pending := by
    rcases wrap_course ha h with ⟨e, he, _⟩ | ⟨d, n, _, _, _, ⟨e, c, k, he, _⟩ | ⟨_, l, tr, k, raw, _, _, _, ⟨e, he, _⟩ |
      ⟨s', _, _, hw⟩⟩⟩
    · cases he
    · cases he
    · cases he
    · rw [hw]; rfl
  constructor
  · intro hm
    rcases closeRaw_pending.1 hm with ⟨h1, h2⟩ | ⟨h1, _⟩
    · exact h2 ⟨rfl, hno, .inr ⟨.inr hl, h1⟩⟩
    · exact hno h1
  · intro hm d hd
    exact (closeRaw_fds.1 hd).2 ⟨hno, .inr ⟨.inr hl, hp ▸ hm⟩⟩

/-- C96: a descriptor that is not open is refused, and nothing changes. -/
theorem C96_invalid {py : Python} {a : OpenArgs} {z : Int} (ha : Wraps a z) {w w' : Host}
    (hz : z < 0 ∨ w.fds.lookup z.toNat = none) {r : Except Exn Verif.Opened} (h : rsopen py a w = (r, w')) :
    (∃ e, r = .error e) ∧ Untouched w w' := by
  rcases wrap_course ha h with ⟨e, he, hu⟩ | ⟨d, n, hl, _, h0, _⟩
  · exact ⟨⟨e, he⟩, hu⟩
  · rcases hz with hz | hz
    · omega
    · rw [hz] at hl; cases hl

/-- C96: the descriptor of a directory is refused, and is not closed, not even with `closefd=True`, if no system call
fails. -/
theorem C96_directory {py : Python} {a : OpenArgs} {z : Int} (ha : Wraps a z) {w w' : Host} (hz : z ≠ 0)
    (hq : ∀ e ∈ w.sched, e = none) (hnew : ∀ l ∈ w.held, (l.2 : Int) ≠ z) {d : Desc} {n : Node}
    (hl : w.fds.lookup z.toNat = some d) (hn : w.nodes[d.ino]? = some n) (hdir : n.kind = .directory)
    {r : Except Exn Verif.Opened} (h : rsopen py a w = (r, w')) : (∃ e, r = .error e) ∧ w'.fds = w.fds ∧ w'.held = w.held ∧
      w'.pending = w.pending ∧ w'.nodes = w.nodes ∧ w'.names = w.names := by
  rcases wrap_course ha h with ⟨e, he, _, rfl⟩ | ⟨d', n', hl', hn', h0, hc⟩
  · exact ⟨⟨e, he⟩, rfl, rfl, rfl, rfl, rfl⟩
  · rw [hl] at hl'
    cases hl'
    rw [hn] at hn'
    cases hn'
    rcases hc with ⟨e, c, k, he, rfl, _, hc⟩ | ⟨hd, _⟩
    · obtain rfl := hc hdir hz hq
      have hno : (d.ino, z.toNat) ∉ w.held := fun hm => hnew _ hm (by dsimp only; omega)
      have : closeRaw false d.ino z.toNat (w.ticks k) =
          { w.ticks k with held := w.held.filter fun e => e ≠ (d.ino, z.toNat) } := by
        simp [closeRaw, ticks]
        exact fun h => absurd h hno
      rw [this]
      refine ⟨⟨e, he⟩, rfl, ?_, rfl, rfl, rfl⟩
      dsimp only
      rw [List.filter_eq_self]
      intro l hl
      simp only [decide_eq_true_eq]
      rintro rfl
      exact hno hl
    · exact absurd hdir hd

/-- `rsopen(z, mode, closefd=closefd, locking=False)`. -/
def wrapCall (z : Int) (mode : String) (closefd : Bool) : OpenArgs :=
  { call [] mode with name := .int z, closefd := closefd, locking := false }

/-- The claim of C96_owned, for every descriptor. -/
def ClosesOwned : Prop :=
  ∀ (py : Python) (a : OpenArgs) (z : Int) (w w' : Host) (s : Verif.Opened), Wraps a z → a.closefd = true → w.held = [] →
    rsopen py a w = (.ok s, w') → s.raw.fd ∉ (closeRaw s.raw.closefd s.raw.ino s.raw.fd w').fds.map Prod.fst

/-- `rsopen(0, "rb", buffering=0, locking=False)`. -/
def wrapZeroOwned : OpenArgs := { wrapCall 0 "rb" true with buffering := .given 0 }

/-- C96 is false for descriptor 0: `close()` raises AssertionError, and the descriptor stays open. -/
theorem C96_refuted : ¬ ClosesOwned ∧ closeFails true 0 = true := by
  refine ⟨fun h => ?_, rfl⟩
  obtain ⟨s, hs⟩ : ∃ s, (rsopen unixPython wrapZeroOwned wrapped).1 = .ok s := by
    have : (rsopen unixPython wrapZeroOwned wrapped).1.toBool = true := by decide +kernel
    cases hr : (rsopen unixPython wrapZeroOwned wrapped).1 with
    | ok s => exact ⟨s, rfl⟩
    | error e => rw [hr] at this; cases this
  have ha : Wraps wrapZeroOwned 0 := ⟨rfl, .inl ⟨rfl, rfl, rfl⟩⟩
  have hrun : rsopen unixPython wrapZeroOwned wrapped = (.ok s, (rsopen unixPython wrapZeroOwned wrapped).2) :=
    Prod.ext hs rfl
  have := h _ _ 0 _ _ s ha rfl rfl hrun
  apply this
  rcases wrap_course ha hrun with ⟨_, he, _⟩ | ⟨d, n, hl, _, _, ⟨_, _, _, he, _⟩ | ⟨_, l, tr, k, raw, h1, _, _, ⟨_, he, _⟩ | ⟨s', he, rfl, hw⟩⟩⟩
  · cases he
  · cases he
  · cases he
  · cases he
    rw [hw]
    have h1 : s.raw.fd = 0 := h1
    refine List.mem_map.2 ⟨(0, ⟨0, true, true, false, false, true⟩), closeRaw_fds.2 ⟨?_, ?_⟩, h1.symm⟩
    · show _ ∈ wrapped.fds
      simp [wrapped]
    · rintro ⟨_, ⟨_, h, _⟩ | ⟨_, h⟩⟩
      · exact h h1
      · have : (s.raw.ino, 0) ∈ wrapped.pending := h
        cases this

-- streams of descriptor 5, with `closefd` or not; one that is to be erased is not
example : Wraps (wrapCall 5 "rb" true) 5 ∧ Wraps (wrapCall 5 "wb" false) 5 :=
  ⟨⟨rfl, .inl ⟨rfl, rfl, rfl⟩⟩, ⟨rfl, .inl ⟨rfl, rfl, rfl⟩⟩⟩
example : (rsopen unixPython (wrapCall 5 "rb" true) wrapped).1.toBool = true ∧
    (rsopen unixPython (wrapCall 5 "wb" false) wrapped).1.toBool = true := by decide +kernel
-- closing them: 5 is closed, or stays; it waits while others have locks on the file
example : (closeRaw true 0 5 wrapped).fds.map Prod.fst = [0] ∧ (closeRaw false 0 5 wrapped).fds.map Prod.fst = [0, 5] ∧
    (closeRaw true 0 5 { wrapped with held := [(0, 7)] }).fds.map Prod.fst = [0, 5] ∧
    (closeRaw true 0 5 { wrapped with held := [(0, 7)] }).pending = [(0, 5)] := by decide +kernel
-- a lock that is refused: the call fails, and closes 5 if it is to
example : (rsopen unixPython { wrapCall 5 "rb" true with locking := true }
      { wrapped with sched := [none, none, some (.lockingException 11)] }).1.toBool = false ∧
    (rsopen unixPython { wrapCall 5 "rb" true with locking := true }
      { wrapped with sched := [none, none, some (.lockingException 11)] }).2.fds.map Prod.fst = [0] ∧
    (rsopen unixPython { wrapCall 5 "rb" false with locking := true }
      { wrapped with sched := [none, none, some (.lockingException 11)] }).2.fds.map Prod.fst = [0, 5] := by decide +kernel
-- a borrowed descriptor 5 and its lock, the last one: 7 was waiting for it
example : (rsopen unixPython { wrapCall 5 "rb" false with locking := true }
      { wrapped with fds := (7, ⟨0, true, true, false, false, true⟩) :: wrapped.fds, pending := [(0, 7)] }).2.held = [(0, 5)] ∧
    (closeRaw false 0 5
      { wrapped with fds := (7, ⟨0, true, true, false, false, true⟩) :: wrapped.fds, pending := [(0, 7)], held := [(0, 5)] }).fds.map Prod.fst = [0, 5] := by decide +kernel
example : wrapped.fds.lookup 9 = none := rfl

/-- The directory `d` is open as 5. -/
def wrappedDirectory : Host := { machine with fds := [(0, ⟨0, true, true, false, false, true⟩), (5, ⟨1, true, false, false, false, true⟩)] }

example : wrappedDirectory.fds.lookup 5 = some ⟨1, true, false, false, false, true⟩ ∧
    (wrappedDirectory.nodes[1]?).map (·.kind) = some .directory ∧ wrappedDirectory.held = [] := by decide +kernel

end Verif.Props
