import Verif.Lemmas.Records

/-!
# Each item, on streams that lock the bytes they use
-/

set_option autoImplicit false

namespace Verif

open Spec

/-- `seek` on a stream with nothing to write. -/
theorem Idle.seek {b : Buf} {p : Nat} (h : Idle b p) (hw : b.kind ≠ .writer) (o : Int) (wh : Whence) (t : Nat)
    (ht : (t : Int) = match wh with
      | .set => o
      | .cur => p + o
      | .fin => b.raw.data.length + o) : Buf.seek o wh b = (.ok t, Idle.wiped b t) := by
  have hl := h.live
  have hp := h.pos
  have hin := h.inside
  unfold Buf.seek
  cases hk : b.kind with
  | reader =>
    have hs := Raw.seek_cases hl.opened hl.seekable (t : Int)
      (if wh = Whence.cur then o - ((b.readBuf.length : Int) - b.readPos) else o) wh (by
        cases wh <;> dsimp only at ht ⊢ <;> first | exact ht | skip
        rw [if_pos rfl]
        unfold Buf.extra at *; omega)
    rw [if_pos (show (0 : Int) ≤ t from Int.natCast_nonneg t), Int.toNat_natCast] at hs
    dsimp only
    unfold Buf.readerSeek
    rw [PyM.bind_ok (Buf.checkClosed_ok hl.opened), PyM.bind_ok (Buf.onRaw_eq hs)]
    rfl
  | writer => exact absurd hk hw
  | random =>
    have hback : Buf.seekBack b = (.ok (), { b with raw := { b.raw with pos := p } }) := by
      unfold Buf.seekBack
      by_cases hr : b.readBuf = []
      · rw [if_pos hr]
        have hex : b.extra = 0 := by simp [Buf.extra, hr]
        rw [show p = b.raw.pos by omega]
      · rw [if_neg hr]
        have hs := Raw.seek_cases hl.opened hl.seekable (p : Int) ((b.readPos : Int) - b.readBuf.length) .cur (by
          dsimp only; unfold Buf.extra at *; omega)
        rw [if_pos (by omega), Int.toNat_natCast] at hs
        rw [PyM.bind_ok (Buf.onRaw_eq hs)]
        rfl
    have hs := Raw.seek_cases (s := { b.raw with pos := p }) hl.opened hl.seekable (t : Int) o wh (by
      cases wh <;> exact ht)
    rw [if_pos (show (0 : Int) ≤ t from Int.natCast_nonneg t), Int.toNat_natCast] at hs
    dsimp only
    unfold Buf.randomSeek
    rw [PyM.bind_ok h.flush, PyM.bind_ok hback, PyM.bind_ok (Buf.onRaw_eq hs)]
    rfl

namespace Rec

/-! ## Writing -/

theorem flushed_len {b b' : Buf} {f : File} (h : Buf.R b f) (h' : Buf.R b' f) (he : b'.writeBuf = []) :
    b.raw.data.length ≤ b'.raw.data.length := by
  rw [h'.data' he, h.data, length_writeAt]
  split <;> omega

theorem writerWrite_more {b : Buf} {f : File} (h : Buf.R b f) (hk : b.kind ≠ .reader) (hr : b.readBuf = []) (d : Bytes) :
    ∃ b', Buf.writerWrite d b = (.ok d.length, b') ∧
      Buf.R b' { f with data := put f.data f.pos d, pos := f.pos + d.length, ahead := false } ∧ b'.kind = b.kind ∧
      b'.writeBuf.length ≤ b.writeBuf.length + d.length ∧ b.raw.data.length ≤ b'.raw.data.length := by
  obtain ⟨b', e1, e2, e3⟩ := Buf.writerWrite_R h hk hr d
  refine ⟨b', e1, e2, e3, ?_⟩
  unfold Buf.writerWrite at e1
  rw [PyM.bind_ok (Buf.checkClosed_ok h.live.opened)] at e1
  have pre : ∃ b1, Buf.preFlush b = (.ok (), b1) ∧ b1.writeBuf.length ≤ b.writeBuf.length ∧
      b.raw.data.length ≤ b1.raw.data.length ∧ Buf.R b1 f ∧ b1.kind = b.kind ∧ b1.readBuf = [] := by
    unfold Buf.preFlush
    split
    · obtain ⟨b1, g1, g2, g3, g4, g5, _⟩ := Buf.flushUnlocked_R h hk
      exact ⟨b1, g1, by rw [g3]; exact Nat.zero_le _, flushed_len h g2 g3, g2, g4, g5.trans hr⟩
    · exact ⟨b, rfl, Nat.le_refl _, Nat.le_refl _, h, rfl, hr⟩
  obtain ⟨b1, g1, g2, g3, g4, g5, g6⟩ := pre
  rw [PyM.bind_ok g1, PyM.bind_ok (PyM.modify_apply _ _)] at e1
  have hl := g4.live
  have hp := g4.pos
  have hex : b1.extra = 0 := by simp [Buf.extra, g6]
  have key : Buf.R { b1 with writeBuf := b1.writeBuf ++ d }
      { f with data := put f.data f.pos d, pos := f.pos + d.length, ahead := false } := by
    have hex' : Buf.extra { b1 with writeBuf := b1.writeBuf ++ d } = 0 := by simp [Buf.extra, g6]
    refine ⟨⟨hl.1, hl.2, hl.3, hl.4, hl.5, hl.6, hl.7, hl.8⟩, g4.inside, ?_, Or.inl g6,
      fun hk' => absurd (g5 ▸ hk') hk, g4.writer, ?_, ?_, fun _ => g6, g4.log⟩
    · rw [hex']; dsimp only; rw [g6]; simp
    · dsimp only
      rw [put_eq, g4.data, ← writeAt_append]
      congr 1
      omega
    · rw [hex']; dsimp only; rw [List.length_append]; omega
  unfold Buf.overflowFlush at e1
  split at e1
  · obtain ⟨b2, k1, k2, k3, _⟩ := Buf.flushUnlocked_R key (by rw [show Buf.kind { b1 with writeBuf := b1.writeBuf ++ d } = b1.kind from rfl, g5]; exact hk)
    rw [k1] at e1
    cases e1
    exact ⟨by rw [k3]; exact Nat.zero_le _, Nat.le_trans g3 (flushed_len (b := { b1 with writeBuf := b1.writeBuf ++ d }) key k2 k3)⟩
  · cases e1
    refine ⟨?_, g3⟩
    dsimp only
    rw [List.length_append]
    omega

/-! ## The two kinds of streams -/

theorem St.R {H : List Record} {s : Common} {i : Sid} {b : Buf} (hS : St H s i b) (hr : b.readBuf = []) :
    Buf.R b ⟨overlay b, s.pos i, true, b.raw.events⟩ :=
  ⟨hS.live, hS.inside, by simp [Buf.extra, hr], Or.inl hr, hS.reader, hS.writer, rfl, hS.pos, nofun, rfl⟩

theorem St.idle {H : List Record} {s : Common} {i : Sid} {b : Buf} (hS : St H s i b) (he : b.writeBuf = []) :
    Idle b (s.pos i) :=
  ⟨hS.live, hS.inside, he, hS.writer, by have := hS.pos; rw [he] at this; simpa using this.symm⟩

theorem overlay_nil {b : Buf} (he : b.writeBuf = []) : overlay b = b.raw.data := by
  unfold overlay; rw [he, writeAt_nil]

theorem St.reset {H : List Record} {s : Common} {i : Sid} {b : Buf} (hS : St H s i b) :
    ∃ b', Buf.resetBuffers b = (.ok (), b') ∧ Idle b' (s.pos i) ∧ b'.readBuf = [] ∧ b'.raw.data = overlay b ∧ b'.kind = b.kind := by
  by_cases hr : b.readBuf = []
  · obtain ⟨b1, h1, h2, h3, h4, h5⟩ := Buf.resetBuffers_R (hS.R hr)
    exact ⟨b1, h1, Idle.of_R h2 h3, h4, h2.data' h3, h5⟩
  · have he := hS.excl.resolve_left hr
    have hid := hS.idle he
    exact ⟨_, hid.reset, hid.wiped_idle, rfl, (overlay_nil he).symm, rfl⟩

theorem St.close {H : List Record} {s : Common} {i : Sid} {b : Buf} (hS : St H s i b) :
    ∃ b', Buf.close b = (.ok (), b') ∧ b'.raw.data = overlay b := by
  by_cases hr : b.readBuf = []
  · exact InTurn.closed (hS.R hr)
  · have he := hS.excl.resolve_left hr
    rw [overlay_nil he]
    exact InTurn.closed_idle (hS.idle he)

namespace Inv

variable {h : List RecItem} {w : Together} {s : Common}

theorem same (it : RecItem) (i : Sid) (he : recStep (records h) it = records h) :
    ∀ j, j ≠ i → ∀ x, (Has (recStep (records h) it) j x → Has (records h) j x) ∧
      (Owns (records h) j x → Owns (recStep (records h) it) j x) := by
  rw [he]; exact fun _ _ _ => ⟨id, id⟩

theorem filtered (it : RecItem) (i : Sid) {a : Int} {e : Option Int}
    (he : recStep (records h) it = (records h).filter (fun r => ¬ (r.sid = i ∧ r.start = a ∧ r.stop = e))) :
    ∀ j, j ≠ i → ∀ x, (Has (recStep (records h) it) j x → Has (records h) j x) ∧
      (Owns (records h) j x → Owns (recStep (records h) it) j x) := by
  rw [he]
  intro j hj x
  constructor
  · rintro ⟨r, h1, h2⟩
    exact ⟨r, (List.mem_filter.1 h1).1, h2⟩
  · rintro ⟨r, h1, h2, h3⟩
    refine ⟨r, List.mem_filter.2 ⟨h1, ?_⟩, h2, h3⟩
    simp only [decide_not, Bool.not_eq_eq_eq_not, Bool.not_true, decide_eq_false_iff_not]
    rintro ⟨h4, _⟩
    exact hj (h2 ▸ h4)

theorem ask (hi : Inv h w s) {i : Sid} (hp : Orderly s h (.ask i)) (hx : RecExclusion (records (h ++ [.ask i]))) :
    ∃ s', s.Step (.ask i) (w.step (.ask i)).1 s' ∧ Inv (h ++ [.ask i]) (w.step (.ask i)).2 s' := by
  obtain ⟨b, hb⟩ := hi.opened hp
  obtain ⟨b', h1, h2, h3, h4, h5⟩ := (hi.st i b hb).reset
  have hst : w.step (.ask i) = (.done, w.keep i b') := by
    simp only [Together.step, Together.on, hb, h1]; rfl
  rw [hst]
  have hnp : ∀ x, ¬ Pending b' x := fun x hc => by
    unfold Pending at hc; rw [h2.empty] at hc; simp at hc; omega
  refine ⟨_, ⟨rfl, rfl⟩, hi.of_R (p := 0) (d := []) hb rfl rfl h5 (h2.R h3 false) ?_ ?_ rfl ?_ (fun x hc => absurd hc (hnp x))
    (fun x _ hc => by simp only [List.length_nil] at hc; omega) (fun hc => absurd rfl hc) (fun x hc => absurd hc (hnp x)) (same _ i rfl)
    (fun _ => ⟨h3, h2.empty⟩) nofun hx⟩
  · rw [put_none]; exact h4
  · rw [put_none]
  · rw [h4, hi.overlay_len hb, hi.length]; exact Nat.le_refl _

theorem unlock (hi : Inv h w s) {i : Sid} {a : Int} {e : Option Int} (hp : Orderly s h (.unlock i a e))
    (hx : RecExclusion (records (h ++ [.unlock i a e]))) :
    ∃ s', s.Step (.unlock i) (w.step (.unlock i)).1 s' ∧ Inv (h ++ [.unlock i a e]) (w.step (.unlock i)).2 s' := by
  obtain ⟨b, hb⟩ := hi.opened hp.1
  obtain ⟨b', h1, h2, h3, h4, h5⟩ := (hi.st i b hb).reset
  have hl := h2.live
  have hunlock : Raw.unlockFile b'.raw = (.ok (), { b'.raw with events := b'.raw.events ++ [.unlock b'.raw.data] }) := by
    unfold Raw.unlockFile
    rw [PyM.bind_ok (Raw.checkSeekable_ok hl.opened hl.seekable)]; rfl
  have hid : Idle { b' with raw := { b'.raw with events := b'.raw.events ++ [.unlock b'.raw.data] } } (s.pos i) :=
    ⟨⟨hl.1, hl.2, hl.3, hl.4, hl.5, hl.6, hl.7, hl.8⟩, h2.inside, h2.empty, h2.writer, h2.pos⟩
  have hst : w.step (.unlock i) = (.done, w.keep i { b' with raw := { b'.raw with events := b'.raw.events ++ [.unlock b'.raw.data] } }) := by
    simp only [Together.step, Together.on, hb, Buf.unlockFile]
    rw [PyM.bind_ok h1, Buf.onRaw_eq hunlock]; rfl
  rw [hst]
  have hnp : ∀ x, ¬ Pending { b' with raw := { b'.raw with events := b'.raw.events ++ [.unlock b'.raw.data] } } x := fun x hc => by
    unfold Pending at hc; dsimp only at hc; rw [h2.empty] at hc; simp at hc; omega
  refine ⟨_, ⟨rfl, rfl⟩, hi.of_R (p := 0) (d := []) hb rfl rfl h5 (hid.R h3 false) ?_ ?_ rfl ?_ (fun x hc => absurd hc (hnp x))
    (fun x _ hc => by simp only [List.length_nil] at hc; omega) (fun hc => absurd rfl hc) (fun x hc => absurd hc (hnp x)) (filtered _ i (a := a) (e := e) rfl)
    nofun nofun hx⟩
  · rw [put_none]; exact h4
  · rw [put_none]
  · change _ ≤ b'.raw.data.length
    rw [h4, hi.overlay_len hb, hi.length]; exact Nat.le_refl _

theorem granted (hi : Inv h w s) {i : Sid} {sh : Bool} {a : Int} {e : Option Int} (hp : Orderly s h (.granted i sh a e))
    (hx : RecExclusion (records (h ++ [.granted i sh a e]))) :
    ∃ s', s.Step (.granted i sh) (w.step (.granted i sh)).1 s' ∧ Inv (h ++ [.granted i sh a e]) (w.step (.granted i sh)).2 s' := by
  obtain ⟨b, hb⟩ := hi.opened hp.1
  obtain ⟨hr, he⟩ := hi.asked i b hb hp.2
  have hl := (hi.st i b hb).live
  have hlock : Raw.lockFile w.file (Together.load b w.file).raw =
      (.ok (), { (Together.load b w.file).raw with
        data := w.file, events := b.raw.events ++ [.lock w.file], disk := b.raw.disk ++ [.content w.file] }) := by
    unfold Raw.lockFile
    rw [PyM.bind_ok (Raw.checkSeekable_ok hl.opened hl.seekable)]; rfl
  have hst : w.step (.granted i sh) = (.done, w.keep i { Together.load b w.file with raw :=
      { (Together.load b w.file).raw with
        data := w.file, events := b.raw.events ++ [.lock w.file], disk := b.raw.disk ++ [.content w.file] } }) := by
    simp only [Together.step, Together.on, hb]
    have : (Together.load b w.file).raw.data = w.file := rfl
    rw [this, Buf.onRaw_eq hlock]; rfl
  have hmem : ∀ r, r ∈ recStep (records h) (.granted i sh a e) ↔ r ∈ records h ∨ r = ⟨i, sh, a, e⟩ := by
    intro r; simp [recStep]
  rw [hst]
  refine ⟨_, ⟨rfl, rfl⟩, hi.still hb rfl rfl ⟨hl.1, hl.2, hl.3, hl.4, hl.5, hl.6, hl.7, hl.8⟩ rfl rfl rfl rfl rfl rfl rfl rfl
    (fun x hc => ?_) (fun hc => absurd hr hc) (fun j hj x => ⟨?_, ?_⟩) nofun nofun hx⟩
  · unfold Pending at hc; rw [he] at hc; simp at hc; omega
  · rintro ⟨r, h1, h2, h3⟩
    rcases (hmem r).1 h1 with h1 | rfl
    · exact ⟨r, h1, h2, h3⟩
    · exact absurd h2.symm hj
  · rintro ⟨r, h1, h2⟩
    exact ⟨r, (hmem r).2 (Or.inl h1), h2⟩

theorem exit (hi : Inv h w s) {i : Sid} {a : Int} {e : Option Int} (hp : Orderly s h (.exit i a e))
    (hx : RecExclusion (records (h ++ [.exit i a e]))) :
    ∃ s', s.Step (.exit i) (w.step (.exit i)).1 s' ∧ Inv (h ++ [.exit i a e]) (w.step (.exit i)).2 s' := by
  obtain ⟨ho, _, hp⟩ := hp
  obtain ⟨b, hb⟩ := hi.opened ho
  have hS := hi.st i b hb
  have hl := hS.live
  have hunlock : Raw.unlockFile (Together.load b w.file).raw =
      (.ok (), { (Together.load b w.file).raw with events := b.raw.events ++ [.unlock w.file] }) := by
    unfold Raw.unlockFile
    rw [PyM.bind_ok (Raw.checkSeekable_ok hl.opened hl.seekable)]; rfl
  have hst : w.step (.exit i) = (.done, w.keep i { Together.load b w.file with raw :=
      { (Together.load b w.file).raw with events := b.raw.events ++ [.unlock w.file] } }) := by
    simp only [Together.step, Together.on, hb, Buf.exitLock, Buf.onRaw_eq hunlock]; rfl
  have hafter : s = s.after i (s.view i []) := by
    unfold Common.after Common.view
    obtain ⟨d, k, p, a⟩ := s
    dsimp only
    congr
    · funext j; split
      · rename_i hj; rw [hj]
      · rfl
    · funext j; split
      · rename_i hj; rw [hj]
      · rfl
  rw [hst]
  refine ⟨s, ⟨rfl, rfl⟩, ?_⟩
  rw [hafter]
  refine hi.still hb rfl rfl ⟨hl.1, hl.2, hl.3, hl.4, hl.5, hl.6, hl.7, hl.8⟩ rfl rfl rfl rfl rfl rfl rfl rfl
    (fun x hc => ?_) (fun _ x => ?_) (filtered _ i (a := a) (e := e) rfl) nofun nofun hx
  · rcases hp with hp | hp
    · obtain ⟨r, h1, h2, h3, h4⟩ := (hS.own x hc).1
      refine ⟨r, List.mem_filter.2 ⟨h1, ?_⟩, h2, h3, h4⟩
      simp only [decide_not, Bool.not_eq_eq_eq_not, Bool.not_true, decide_eq_false_iff_not]
      rintro ⟨k1, k2, k3⟩
      apply hp
      have : r = ⟨i, false, a, e⟩ := by
        obtain ⟨r1, r2, r3, r4⟩ := r
        cases h2; cases h3; cases k2; cases k3; rfl
      rw [← this]; exact h1
    · have := hi.flushed i b hb hp
      unfold Pending at hc; rw [this] at hc; simp at hc; omega
  · rintro ⟨r, h1, h2⟩
    exact ⟨r, (List.mem_filter.1 h1).1, h2⟩

/-! ## Calls -/

theorem did_write (hi : Inv h w s) {i : Sid} {d : Bytes} (hp : Orderly s h (.did i (.write d)))
    (hx : RecExclusion (records (h ++ [.did i (.write d)]))) :
    ∃ s', s.Step (.did i (.write d)) (w.step (.did i (.write d))).1 s' ∧
      Inv (h ++ [.did i (.write d)]) (w.step (.did i (.write d))).2 s' := by
  obtain ⟨ho, hin, hown⟩ := hp
  obtain ⟨b, hb⟩ := hi.opened ho
  have hS := hi.st i b hb
  have hkind := hi.kind i b hb
  have hst : w.step (.did i (.write d)) =
      (.ofNat (Buf.write d (Together.load b w.file)).1, w.keep i (Buf.write d (Together.load b w.file)).2) := by
    simp only [Together.step, Together.on, hb]; rfl
  by_cases hk : b.kind = .reader
  · have hw : Buf.write d (Together.load b w.file) = (.error .unsupported, Together.load b w.file) := by
      unfold Buf.write; rw [show (Together.load b w.file).kind = b.kind from rfl, hk]
    rw [hst, hw]
    refine ⟨_, ⟨[], s.view i [], ?_, rfl⟩, hi.still hb rfl rfl hS.live rfl rfl rfl rfl rfl rfl rfl rfl (fun x hc => (hS.own x hc).1)
      (fun _ x => id) (same _ i rfl) nofun nofun hx⟩
    simp [Allowed, hkind, hk, StreamOut.ofNat]
  · have hc : ∃ c, Buf.write d (Together.load b w.file) = Buf.writerWrite d c ∧ Buf.R c ⟨overlay (Together.load b w.file), s.pos i, true, c.raw.events⟩ ∧
        c.kind = b.kind ∧ c.readBuf = [] ∧ c.writeBuf = b.writeBuf ∧ c.raw.data = w.file := by
      by_cases hr : b.readBuf = []
      · refine ⟨Together.load b w.file, ?_, hS.R hr, rfl, hr, rfl, rfl⟩
        unfold Buf.write
        rw [show (Together.load b w.file).kind = b.kind from rfl]
        cases hkk : b.kind with
        | reader => exact absurd hkk hk
        | writer => rfl
        | random =>
          dsimp only
          rw [PyM.bind_ok (s' := Together.load b w.file) (a := ())]
          unfold Buf.undoReadAhead
          exact if_pos hr
      · have he := hS.excl.resolve_left hr
        have hid := hS.idle he
        refine ⟨Idle.wiped (Together.load b w.file) (s.pos i), ?_, ?_, rfl, rfl, rfl, rfl⟩
        · unfold Buf.write
          rw [show (Together.load b w.file).kind = b.kind from rfl]
          cases hkk : b.kind with
          | reader => exact absurd hkk hk
          | writer => exact absurd (hS.writer hkk) hr
          | random =>
            dsimp only
            rw [PyM.bind_ok (s' := Idle.wiped (Together.load b w.file) (s.pos i)) (a := ())]
            unfold Buf.undoReadAhead
            rw [if_neg (show (Together.load b w.file).readBuf ≠ [] from hr)]
            have hs := Raw.seek_cases (s := (Together.load b w.file).raw) hid.live.opened hid.live.seekable (s.pos i : Int)
              ((b.readPos : Int) - b.readBuf.length) .cur (by
                have h1 := hid.pos
                have h2 := hid.inside
                unfold Buf.extra at h1
                change b.raw.pos = s.pos i + (b.readBuf.length - b.readPos) at h1
                change b.readPos ≤ b.readBuf.length at h2
                change (s.pos i : Int) = b.raw.pos + ((b.readPos : Int) - b.readBuf.length)
                omega)
            rw [if_pos (by omega), Int.toNat_natCast] at hs
            rw [show ((Together.load b w.file).readPos : Int) - (Together.load b w.file).readBuf.length = (b.readPos : Int) - b.readBuf.length from rfl,
              PyM.bind_ok (Buf.onRaw_eq hs)]
            rfl
        · rw [overlay_nil he]
          exact (hid.wiped_idle).R rfl true
    obtain ⟨c, c1, c2, c3, c4, c5, c6⟩ := hc
    obtain ⟨b', g1, g2, g3, g4, g5⟩ := writerWrite_more c2 (by rw [c3]; exact hk) c4 d
    rw [hst, c1, g1]
    have hpos' := g2.pos
    have hrb' := g2.ahead rfl
    have hex' : b'.extra = 0 := by simp [Buf.extra, hrb']
    have hposb := hS.pos
    change s.pos i + b.extra = b.raw.pos + b.writeBuf.length at hposb
    have hpend : ∀ x, Pending b' x → Pending b x ∨ (s.pos i ≤ x ∧ x < s.pos i + d.length) := by
      intro x hx
      unfold Pending at hx ⊢
      dsimp only at hpos'
      rw [c5] at g4
      by_cases hxp : s.pos i ≤ x
      · right; omega
      · left
        have hne : b.writeBuf ≠ [] := by
          intro e; rw [e] at g4; simp only [List.length_nil] at g4; omega
        have hre := hS.excl.resolve_right hne
        have hex : b.extra = 0 := by unfold Buf.extra; rw [show b.readBuf = [] from hre]; simp
        omega
    refine ⟨_, ⟨[], ⟨put s.data (s.pos i) d, s.pos i + d.length, false, []⟩, ?_, rfl⟩, hi.of_R (p := s.pos i) (d := d) hb rfl rfl
      (g3.trans c3) g2 rfl rfl rfl (by rw [← c6]; exact g5) hpend hown (fun _ => hin) (fun x hpx => ?_) (same _ i rfl) nofun nofun hx⟩
    · simp [Allowed, hkind, hk, StreamOut.ofNat, Common.view]
    · rcases hpend x hpx with h1 | h1
      · exact (hS.own x h1).1
      · exact hown x h1.1 h1.2

theorem did_seek (hi : Inv h w s) {i : Sid} {o : Int} {wh : Whence} (hp : Orderly s h (.did i (.seek o wh)))
    (hx : RecExclusion (records (h ++ [.did i (.seek o wh)]))) :
    ∃ s', s.Step (.did i (.seek o wh)) (w.step (.did i (.seek o wh))).1 s' ∧
      Inv (h ++ [.did i (.seek o wh)]) (w.step (.did i (.seek o wh))).2 s' := by
  obtain ⟨ho, ht⟩ := hp
  change 0 ≤ (s.view i []).target o wh at ht
  obtain ⟨b, hb⟩ := hi.opened ho
  have hS := hi.st i b hb
  have hst : w.step (.did i (.seek o wh)) =
      (.ofNat (Buf.seek o wh (Together.load b w.file)).1, w.keep i (Buf.seek o wh (Together.load b w.file)).2) := by
    simp only [Together.step, Together.on, hb]; rfl
  have key : ∃ b', Buf.seek o wh (Together.load b w.file) = (.ok ((s.view i []).target o wh).toNat, b') ∧
      Buf.R b' ⟨overlay (Together.load b w.file), ((s.view i []).target o wh).toNat, false, b'.raw.events⟩ ∧ b'.writeBuf = [] ∧
      b'.kind = b.kind := by
    by_cases hr : b.readBuf = []
    · have hR := hS.R hr
      have e : File.target ⟨overlay (Together.load b w.file), s.pos i, true, (Together.load b w.file).raw.events⟩ o wh =
          (s.view i []).target o wh := by
        cases wh <;> simp [File.target, Common.view, hi.overlay_len hb]
      obtain ⟨b', g1, g2, g3, g4, g5⟩ := Buf.seek_ok hR o wh (by rw [e]; exact ht)
      rw [e] at g1 g2
      exact ⟨b', g1, ⟨g2.live, g2.inside, g2.unread, g2.excl, g2.reader, g2.writer, g2.data, g2.pos, g2.ahead, rfl⟩, g3, g5⟩
    · have he := hS.excl.resolve_left hr
      have hid := hS.idle he
      have hs := hid.seek (fun hk => hr (hS.writer hk)) o wh ((s.view i []).target o wh).toNat (by
        rw [Int.toNat_of_nonneg ht]
        cases wh <;> simp [File.target, Common.view]
        exact congrArg Nat.cast hi.length.symm)
      refine ⟨_, hs, ?_, he, rfl⟩
      have hl := hid.live
      have hid' : Idle (Idle.wiped (Together.load b w.file) ((s.view i []).target o wh).toNat) ((s.view i []).target o wh).toNat :=
        ⟨⟨hl.1, hl.2, hl.3, hl.4, hl.5, hl.6, hl.7, hl.8⟩, Nat.le_refl _, he, fun _ => rfl, by simp [Idle.wiped, Buf.extra]⟩
      rw [overlay_nil he]
      exact hid'.R rfl false
  obtain ⟨b', g1, g2, g3, g4⟩ := key
  rw [hst, g1]
  have hnp : ∀ x, ¬ Pending b' x := fun x hc => by
    unfold Pending at hc; rw [g3] at hc; simp at hc; omega
  refine ⟨_, ⟨[], ⟨s.data, ((s.view i []).target o wh).toNat, false, []⟩, ?_, rfl⟩, hi.of_R (p := 0) (d := []) hb rfl rfl g4 g2 ?_ ?_ rfl ?_
    (fun x hc => absurd hc (hnp x))
    (fun x _ hc => by simp only [List.length_nil] at hc; omega) (fun hc => absurd rfl hc) (fun x hc => absurd hc (hnp x)) (same _ i rfl) nofun nofun hx⟩
  · simp only [Allowed]
    rw [if_pos ht]
    exact ⟨rfl, rfl⟩
  · rw [put_none]
  · rw [put_none]
  · rw [g2.data' g3, hi.overlay_len hb, hi.length]; exact Nat.le_refl _

theorem did_looks (hi : Inv h w s) {i : Sid} {op : StreamOp} (hop : Buf.Looks op) (ho : i ∈ openIn (itemsOf h)) {q : Nat}
    (hq : Stops s.data (s.pos i) q op) (hhas : ∀ x, s.pos i ≤ x → x < q → x < s.data.length → Has (records h) i x)
    (hx : RecExclusion (records (h ++ [.did i op]))) :
    ∃ s', s.Step (.did i op) (w.step (.did i op)).1 s' ∧ Inv (h ++ [.did i op]) (w.step (.did i op)).2 s' := by
  obtain ⟨b, hb⟩ := hi.opened ho
  have hS := hi.st i b hb
  have hkind := hi.kind i b hb
  have hst : w.step (.did i op) = (((Together.load b w.file).step op).1, w.keep i ((Together.load b w.file).step op).2) := by
    simp only [Together.step, Together.on, hb]
  have hk' := (Buf.step_keeps (Together.load b w.file) op).1
  rw [hst]
  by_cases hr : b.readBuf = []
  · have hR := hS.R hr
    obtain ⟨f', g1, g2⟩ := Buf.step_R hR op (by intro hc; cases op <;> first | exact hop.elim | exact hc.elim)
    have hag : ∀ x, s.pos i ≤ x → x < q → (overlay (Together.load b w.file))[x]? = s.data[x]? := by
      intro x h1 h2
      by_cases h3 : x < s.data.length
      · exact hi.overlay_has hb (hhas x h1 h2 h3)
      · rw [List.getElem?_eq_none (by rw [hi.overlay_len hb]; omega), List.getElem?_eq_none (by omega)]
    obtain ⟨t1, f'', t2, t3, t4⟩ := transfer (a' := s.ahead i) (log' := []) (hi.overlay_len hb) hag hq g1
    have hu : Props.Usable (Together.load b w.file) := ⟨hS.live.opened, hS.live.unix, hS.live.writable, hS.reader⟩
    have hs : Props.Settles (Together.load b w.file) ((Together.load b w.file).step op).2 := by
      have := Props.after1_settles (Together.load b w.file) (.op op) (by cases op <;> first | exact hop.elim | exact trivial)
      cases op <;> exact this
    obtain ⟨j, hj⟩ := (hs hu).part
    have hpend : ∀ x, Pending ((Together.load b w.file).step op).2 x → Pending b x := by
      intro x hpx
      unfold Pending at hpx ⊢
      by_cases he : ((Together.load b w.file).step op).2.writeBuf = []
      · rw [he] at hpx; simp at hpx; omega
      · have h1 := hj.next he
        have h2 := hj.le
        have e1 : Props.landing (Together.load b w.file).raw = b.raw.pos := by
          unfold Props.landing
          rw [if_neg (by rw [hS.live.noAppend]; nofun)]; rfl
        have e2 : Props.landing ((Together.load b w.file).step op).2.raw = ((Together.load b w.file).step op).2.raw.pos := by
          unfold Props.landing
          rw [if_neg (by rw [g2.live.noAppend]; nofun)]
        rw [e1, e2] at h1
        rw [hj.left, List.length_drop, h1] at hpx
        change j ≤ b.writeBuf.length at h2
        change _ ∧ _ < _ + (b.writeBuf.length - j) at hpx
        omega
    refine ⟨_, ⟨[], f'', by rw [hkind]; exact t2, rfl⟩, hi.of_R (p := 0) (d := []) hb rfl rfl hk' g2 ?_ ?_ t4 ?_
      (fun x hc => Or.inl (hpend x hc)) (fun x _ hc => by simp only [List.length_nil] at hc; omega) (fun hc => absurd rfl hc)
      (fun x hc => (hS.own x (hpend x hc)).1) (same _ i rfl) nofun (fun he => ?_) hx⟩
    · rw [put_none]; exact t1
    · rw [put_none]; exact t3
    · rw [hj.data, put_eq, length_writeAt]
      change w.file.length ≤ if _ then w.file.length else max w.file.length _
      split
      · exact Nat.le_refl _
      · exact Nat.le_max_left _ _
    · cases he
      obtain ⟨b', k1, k2, k3, _⟩ := Buf.flush_R hR
      simp only [Buf.step, k1]
      exact k3
  · have he := hS.excl.resolve_left hr
    change b.writeBuf = [] at he
    have hid := hS.idle he
    have hpos := hid.pos
    change b.raw.pos = s.pos i + b.extra at hpos
    have hextra : (b.readBuf.drop b.readPos).length = b.extra := by simp [Buf.extra]
    have hin : b.readBuf.drop b.readPos ≠ [] → s.pos i + (b.readBuf.drop b.readPos).length ≤ w.file.length := by
      intro hne
      have h1 := hS.ahead (by
        change 0 < b.extra
        rw [← hextra]; exact List.length_pos_iff.2 hne)
      change b.raw.pos ≤ w.file.length at h1
      omega
    -- the file, with what the stream has read ahead
    generalize hv : put w.file (s.pos i) (b.readBuf.drop b.readPos) = v
    have hvl : w.file.length = v.length := by rw [← hv, put_length hin]
    have hvin : ∀ k, k < b.extra → v[s.pos i + k]? = (b.readBuf.drop b.readPos)[k]? := by
      intro k hk
      have hne : b.readBuf.drop b.readPos ≠ [] := by intro e; rw [e] at hextra; simp at hextra; omega
      rw [← hv, put_eq, getElem?_writeAt, if_neg hne, if_neg (by omega), if_pos (by omega), show s.pos i + k - s.pos i = k by omega]
    have hvout : ∀ x, ¬ (s.pos i ≤ x ∧ x < s.pos i + b.extra) → v[x]? = w.file[x]? := by
      intro x hx
      rw [← hv, put_outside hin (by rw [hextra]; exact hx)]
    have hvhas : ∀ x, Has (records h) i x → v[x]? = w.file[x]? := by
      intro x hh
      by_cases hc : s.pos i ≤ x ∧ x < s.pos i + b.extra
      · obtain ⟨k, rfl⟩ : ∃ k, x = s.pos i + k := ⟨x - s.pos i, by omega⟩
        rw [hvin k (by omega)]
        exact hS.fresh k (by change k < b.extra; omega) hh
      · exact hvout x hc
    have hpast : Buf.Past w.file v (Together.load b w.file) := by
      refine ⟨⟨hS.live.opened, rfl, hvl, ?_⟩, he⟩
      apply List.ext_getElem?
      intro k
      change (w.file.drop b.raw.pos)[k]? = (v.drop b.raw.pos)[k]?
      rw [List.getElem?_drop, List.getElem?_drop, hvout _ (by omega)]
    have hR : Buf.R (Together.load b v) ⟨v, s.pos i, true, b.raw.events⟩ := by
      refine ⟨Together.load_live hid.live v, hid.inside, ?_, Or.inr he, fun _ => he, hS.writer, ?_, ?_, nofun, rfl⟩
      · apply List.ext_getElem?
        intro k
        change (b.readBuf.drop b.readPos)[k]? = ((v.drop (s.pos i)).take b.extra)[k]?
        rw [List.getElem?_take]
        split
        · rename_i hk
          rw [List.getElem?_drop (xs := v), hvin k hk]
        · rename_i hk
          exact List.getElem?_eq_none (by omega)
      · rw [show (Together.load b v).writeBuf = [] from he, writeAt_nil]; rfl
      · rw [show (Together.load b v).writeBuf = [] from he]
        change s.pos i + b.extra = b.raw.pos + 0
        omega
    obtain ⟨f', g1, g2⟩ := Buf.step_R hR op (by intro hc; cases op <;> first | exact hop.elim | exact hc.elim)
    obtain ⟨p1, p2⟩ := Buf.step_stale hop hpast
    rw [show Buf.seeing v (Together.load b w.file) = Together.load b v from rfl] at p1
    rw [p1] at g1 g2
    dsimp only at g1 g2
    have hfile : ∀ x, Has (records h) i x → w.file[x]? = s.data[x]? := by
      intro x hh
      rw [← hi.overlay_has hb hh, overlay_nil (b := Together.load b w.file) he]; rfl
    have hag : ∀ x, s.pos i ≤ x → x < q → v[x]? = s.data[x]? := by
      intro x h1 h2
      by_cases h3 : x < s.data.length
      · have hh := hhas x h1 h2 h3
        rw [hvhas x hh, hfile x hh]
      · rw [List.getElem?_eq_none (by rw [← hvl, hi.length]; omega), List.getElem?_eq_none (by omega)]
    obtain ⟨t1, f'', t2, t3, t4⟩ := transfer (a' := s.ahead i) (log' := []) (by rw [← hvl, hi.length]) hag hq g1
    have hkeep : (s.after i f'').pos i = f'.pos := by rw [← t4]; simp [Common.after]
    have hnp : ∀ x, ¬ Pending ((Together.load b w.file).step op).2 x := fun x hc => by
      unfold Pending at hc; rw [p2.empty] at hc; simp at hc; omega
    have hposr := g2.pos' p2.empty
    change ((Together.load b w.file).step op).2.raw.pos = f'.pos + ((Together.load b w.file).step op).2.extra at hposr
    refine ⟨_, ⟨[], f'', by rw [hkind]; exact t2, rfl⟩, hi.one hb rfl rfl hk' ⟨?_, g2.inside, Or.inr p2.empty, fun _ => p2.empty, g2.writer,
      ?_, fun x hc => absurd hc (hnp x), fun k hk hh => ?_, fun hex => ?_⟩ (same _ i rfl) (fun x _ => ⟨?_, ?_⟩) ?_ ?_
      (fun x _ hoth => ?_) nofun (fun _ => p2.empty) hx⟩
    · have hl := g2.live
      exact ⟨hl.1, hl.2, hl.3, hl.4, hl.5, hl.6, hl.7, hl.8⟩
    · rw [hkeep, p2.empty, hposr]; rfl
    · rw [hkeep] at hh ⊢
      have h1 := g2.unread
      change ((Together.load b w.file).step op).2.readBuf.drop ((Together.load b w.file).step op).2.readPos =
        f'.rest.take ((Together.load b w.file).step op).2.extra at h1
      rw [h1, List.getElem?_take, if_pos hk, p2.raw.data]
      unfold File.rest
      rw [List.getElem?_drop, t1]
      exact hvhas _ hh
    · have h1 := g2.extra_le
      change ((Together.load b w.file).step op).2.extra ≤ _ at h1
      unfold File.rest at h1
      rw [List.length_drop, t1, ← hvl] at h1
      rw [p2.raw.data]
      omega
    · rw [p2.raw.data]
    · rw [t3]
    · rw [p2.raw.data]
    · rw [t3]
    · rw [p2.raw.data, t3]
      have := hi.overlay_is hb hoth
      rw [overlay_nil (b := Together.load b w.file) he] at this
      exact this

theorem did (hi : Inv h w s) {i : Sid} {op : StreamOp} (hp : Orderly s h (.did i op))
    (hx : RecExclusion (records (h ++ [.did i op]))) :
    ∃ s', s.Step (.did i op) (w.step (.did i op)).1 s' ∧ Inv (h ++ [.did i op]) (w.step (.did i op)).2 s' := by
  have hp' := hp
  obtain ⟨ho, hu⟩ := hp'
  cases op with
  | write d => exact hi.did_write hp hx
  | seek o wh => exact hi.did_seek hp hx
  | truncate n => obtain ⟨q, hq, _⟩ := hu; exact hq.elim
  | lock o => obtain ⟨q, hq, _⟩ := hu; exact hq.elim
  | unlock => obtain ⟨q, hq, _⟩ := hu; exact hq.elim
  | _ => obtain ⟨q, hq, hhas⟩ := hu; exact hi.did_looks trivial ho hq hhas hx

/-! ## Streams that come and go -/

theorem openS (hi : Inv h w s) {i : Sid} {b : Buf} (hp : Orderly s h (.opened i b))
    (hx : RecExclusion (records (h ++ [.opened i b]))) :
    ∃ s', s.Step (.opened i b) (w.step (.opened i b)).1 s' ∧ Inv (h ++ [.opened i b]) (w.step (.opened i b)).2 s' := by
  obtain ⟨hno, ⟨k, n, raw, hc⟩, p1, p2, p3, p4⟩ := hp
  obtain ⟨rfl, c2, c3, c4, c5⟩ := Props.create_ok hc
  have hnone : w.bufs i = none := by
    cases hb : w.bufs i with
    | none => rfl
    | some b => exact absurd ((hi.isOpen i).2 (by rw [hb]; nofun)) hno
  refine ⟨_, ⟨rfl, rfl⟩, ?_⟩
  have hH : records (h ++ [.opened i ⟨k, n.toNat, raw, [], 0, []⟩]) = records h := by rw [records_snoc]; rfl
  have hnp : ∀ x, ¬ Pending ⟨k, n.toNat, raw, [], 0, []⟩ x := fun x hc => by
    unfold Pending at hc; simp at hc; omega
  constructor
  · intro j
    rw [items_snoc, openIn_snoc]
    simp only [Together.step, RecItem.item, openStep, List.mem_append, List.mem_singleton]
    by_cases hj : j = i
    · simp [hj]
    · simp [hj, hi.isOpen j]
  · intro j c hc
    simp only [Together.step] at hc ⊢
    by_cases hj : j = i
    · rw [if_pos hj] at hc ⊢; cases hc; rfl
    · rw [if_neg hj] at hc ⊢; exact hi.kind j c hc
  · intro j c hc
    rw [hH]
    simp only [Together.step] at hc ⊢
    by_cases hj : j = i
    · rw [if_pos hj] at hc
      cases hc
      refine ⟨⟨c3, p1, p2, p3, c4, c5, p4, by change 0 < n.toNat; omega⟩, Nat.le_refl _, Or.inl rfl, fun _ => rfl, fun _ => rfl, ?_,
        fun x hc => absurd hc (hnp x), fun k hk => ?_, fun hk => ?_⟩
      · simp [hj, Buf.extra, Together.load]
      · simp [Buf.extra, Together.load] at hk
      · simp [Buf.extra, Together.load] at hk
    · rw [if_neg hj] at hc
      have hS := hi.st j c hc
      refine ⟨hS.live, hS.inside, hS.excl, hS.reader, hS.writer, ?_, hS.own, ?_, hS.ahead⟩
      · simp only [if_neg hj]; exact hS.pos
      · simp only [if_neg hj]; exact hS.fresh
  · intro j c hc hl
    rw [items_snoc, lastOf_snoc] at hl
    simp only [Together.step] at hc
    by_cases hj : j = i
    · subst hj; rw [if_pos (by rfl)] at hl; cases hl
    · rw [if_neg hj] at hc
      rw [if_neg (by intro he; exact hj (Option.some.inj he).symm)] at hl
      exact hi.asked j c hc hl
  · intro j c hc hl
    rw [items_snoc, lastOf_snoc] at hl
    simp only [Together.step] at hc
    by_cases hj : j = i
    · subst hj; rw [if_pos (by rfl)] at hl; cases hl
    · rw [if_neg hj] at hc
      rw [if_neg (by intro he; exact hj (Option.some.inj he).symm)] at hl
      exact hi.flushed j c hc hl
  · exact hi.length
  · intro x hxp
    refine hi.file x fun j c hc => hxp j c ?_
    simp only [Together.step]
    rw [if_neg (by rintro rfl; rw [hnone] at hc; cases hc)]
    exact hc
  · exact hx

/-- Streams go away. -/
theorem drop (hi : Inv h w s) {it : RecItem} (P : Sid → Prop) [DecidablePred P] {file' : Bytes}
    (hopen : ∀ j, j ∈ openStep (openIn (itemsOf h)) it.item ↔ j ∈ openIn (itemsOf h) ∧ ¬ P j)
    (hH : ∀ j, ¬ P j → ∀ x, (Has (recStep (records h) it) j x → Has (records h) j x) ∧
      (Owns (records h) j x → Owns (recStep (records h) it) j x))
    (hs : ∀ j, streamOf it.item = some j → P j)
    (hfile : ∀ j x, ¬ P j → Has (records h) j x → file'[x]? = w.file[x]?) (hlen : file'.length = w.file.length)
    (hc : ∀ x, (∀ j c, ¬ P j → w.bufs j = some c → ¬ Pending c x) → file'[x]? = s.data[x]?)
    (hx : RecExclusion (records (h ++ [it]))) :
    Inv (h ++ [it]) ⟨file', fun j => if P j then none else w.bufs j⟩ s := by
  constructor
  · intro j
    rw [items_snoc, openIn_snoc, hopen, hi.isOpen j]
    by_cases hj : P j <;> simp [hj]
  · intro j c hc
    by_cases hj : P j
    · simp [hj] at hc
    · simp only [if_neg hj] at hc; exact hi.kind j c hc
  · intro j c hc
    rw [records_snoc]
    by_cases hj : P j
    · simp [hj] at hc
    · simp only [if_neg hj] at hc
      have hS := hi.st j c hc
      refine ⟨Together.load_live hS.live _, hS.inside, hS.excl, hS.reader, hS.writer, hS.pos, fun x hp => ?_, fun k hk hh => ?_,
        fun he => ?_⟩
      · obtain ⟨o1, o2⟩ := hS.own x hp
        exact ⟨(hH j hj x).2 o1, o2⟩
      · have hh' := (hH j hj _).1 hh
        change _ = file'[_]?
        rw [hfile j _ hj hh']
        exact hS.fresh k hk hh'
      · change _ ≤ file'.length
        rw [hlen]
        exact hS.ahead he
  · intro j c hc hl
    by_cases hj : P j
    · simp [hj] at hc
    · simp only [if_neg hj] at hc
      rw [items_snoc, lastOf_snoc, if_neg (fun he => hj (hs j he))] at hl
      exact hi.asked j c hc hl
  · intro j c hc hl
    by_cases hj : P j
    · simp [hj] at hc
    · simp only [if_neg hj] at hc
      rw [items_snoc, lastOf_snoc, if_neg (fun he => hj (hs j he))] at hl
      exact hi.flushed j c hc hl
  · exact hlen.trans hi.length
  · intro x hno
    exact hc x fun j c hj hc => hno j c (by dsimp only; rw [if_neg hj]; exact hc)
  · exact hx

theorem close (hi : Inv h w s) {i : Sid} (hp : Orderly s h (.close i)) (hx : RecExclusion (records (h ++ [.close i]))) :
    ∃ s', s.Step (.close i) (w.step (.close i)).1 s' ∧ Inv (h ++ [.close i]) (w.step (.close i)).2 s' := by
  obtain ⟨b, hb⟩ := hi.opened hp
  have hS := hi.st i b hb
  obtain ⟨b', k1, k2⟩ := hS.close
  have hst : w.step (.close i) = (.done, ⟨b'.raw.data, fun j => if j = i then none else w.bufs j⟩) := by
    simp only [Together.step, Together.on, hb, k1, Together.keep]
    congr 2
    funext j
    by_cases hj : j = i
    · rw [if_pos hj, if_pos hj]
    · rw [if_neg hj, if_neg hj, if_neg hj]
  rw [hst]
  refine ⟨s, ⟨rfl, rfl⟩, hi.drop (fun j => j = i) (fun j => ?_) (fun j hj x => ⟨?_, ?_⟩) (fun j hj => (Option.some.inj hj).symm)
    (fun j x hj hh => ?_) ?_ (fun x hno => ?_) hx⟩
  · simp [RecItem.item, openStep]
  · rintro ⟨r, h1, h2⟩
    exact ⟨r, (List.mem_filter.1 h1).1, h2⟩
  · rintro ⟨r, h1, h2, h3⟩
    exact ⟨r, List.mem_filter.2 ⟨h1, by rw [h2]; simpa using hj⟩, h2, h3⟩
  · rw [k2, overlay_other (fun hp => apart hi.exclusion hj hh (hS.own x hp).1) (hi.within hb)]
    rfl
  · rw [k2, hi.overlay_len hb, hi.length]
  · rw [k2]
    exact hi.overlay_is hb hno

theorem gone (hi : Inv h w s) {p : Nat} (hp : Orderly s h (.gone p)) (hx : RecExclusion (records (h ++ [.gone p]))) :
    ∃ s', s.Step (.gone p) (w.step (.gone p)).1 s' ∧ Inv (h ++ [.gone p]) (w.step (.gone p)).2 s' := by
  refine ⟨s, ⟨rfl, rfl⟩, hi.drop (fun j => j.1 = p) (fun j => ?_) (fun j hj x => ⟨?_, ?_⟩) nofun
    (fun j x _ _ => rfl) rfl (fun x hno => ?_) hx⟩
  · simp [RecItem.item, openStep]
  · rintro ⟨r, h1, h2⟩
    exact ⟨r, (List.mem_filter.1 h1).1, h2⟩
  · rintro ⟨r, h1, h2, h3⟩
    exact ⟨r, List.mem_filter.2 ⟨h1, by rw [h2]; simpa using hj⟩, h2, h3⟩
  · refine hi.file x fun j c hc hpx => ?_
    by_cases hj : j.1 = p
    · obtain ⟨r, h1, h2, _⟩ := ((hi.st j c hc).own x hpx).1
      exact hp r h1 (by rw [h2]; exact hj)
    · exact hno j c hj hc hpx

theorem step (hi : Inv h w s) {it : RecItem} (hp : Orderly s h it) (hx : RecExclusion (records (h ++ [it]))) :
    ∃ s', s.Step it.item (w.step it.item).1 s' ∧ Inv (h ++ [it]) (w.step it.item).2 s' := by
  cases it with
  | opened i b => exact hi.openS hp hx
  | ask i => exact hi.ask hp hx
  | granted i sh a e => exact hi.granted hp hx
  | did i op => exact hi.did hp hx
  | unlock i a e => exact hi.unlock hp hx
  | exit i a e => exact hi.exit hp hx
  | close i => exact hi.close hp hx
  | gone p => exact hi.gone hp hx

/-- All along a history. -/
theorem history {d : Bytes} {h : List RecItem} (hd : RecDisciplined d h) :
    ∃ s, Serially (.start d) (recorded d h).1 s ∧ Inv h (recorded d h).2 s := by
  generalize hl : h.reverse = l
  induction l generalizing h with
  | nil =>
    rw [List.reverse_eq_nil_iff] at hl
    subst hl
    exact ⟨.start d, .nil _, start d⟩
  | cons it l ih =>
    have hh : h = l.reverse ++ [it] := by rw [← List.reverse_reverse h, hl]; simp
    subst hh
    obtain ⟨s, e1, e2⟩ := ih (h := l.reverse) (fun pre it' post e => hd pre it' (post ++ [it]) (by rw [e]; simp)) (by simp)
    obtain ⟨hp, hx⟩ := hd l.reverse it [] rfl
    obtain ⟨s', g1, g2⟩ := e2.step (hp s e1) hx
    have e : recorded d (l.reverse ++ [it]) = ((recorded d l.reverse).1 ++ [(it.item, ((recorded d l.reverse).2.step it.item).1)],
        ((recorded d l.reverse).2.step it.item).2) := by
      unfold recorded
      rw [items_snoc, Together.play_snoc]
    rw [e]
    exact ⟨s', .snoc e1 g1, g2⟩

end Inv

end Rec

end Verif
