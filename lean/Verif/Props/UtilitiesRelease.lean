import Verif.Props.Utilities

/-!
# C67: the utility functions leave nothing open
-/

set_option autoImplicit false

namespace Verif.Props

open Verif Verif.Spec Host OpenArgs

/-- Whatever happens in it, `close` closes the raw stream. -/
theorem close_closed {C : Codec} (s : AnyStream C) : (AnyStream.close s).2.theRaw.closed = true := by
  have hraw : ∀ r : Raw, (Raw.close r).2.closed = true := by
    intro r
    unfold Raw.close
    split
    · assumption
    · rfl
  have hbuf : ∀ b : Buf, (Buf.close b).2.raw.closed = true := by
    intro b
    unfold Buf.close
    split
    · assumption
    · rw [PyM.tryFinally_apply]
      generalize Buf.flush b = q
      obtain ⟨r, b1⟩ := q
      dsimp only
      unfold Buf.onRaw
      have := hraw b1.raw
      generalize Raw.close b1.raw = q at this
      obtain ⟨r2, s2⟩ := q
      cases r2 <;> exact this
  cases s with
  | raw r =>
    have := hraw r
    unfold AnyStream.close AnyStream.call
    dsimp only
    generalize Raw.close r = q at this
    obtain ⟨x, r1⟩ := q
    exact this
  | buf b =>
    have := hbuf b
    unfold AnyStream.close AnyStream.call
    dsimp only
    generalize Buf.close b = q at this
    obtain ⟨x, r1⟩ := q
    exact this
  | txt t =>
    have htxt : (Txt.close t).2.buf.raw.closed = true := by
      unfold Txt.close
      split
      · assumption
      · rw [PyM.tryFinally_apply]
        generalize Txt.flush t = q
        obtain ⟨r, t1⟩ := q
        dsimp only
        unfold Txt.onBuf
        have := hbuf t1.buf
        generalize Buf.close t1.buf = q at this
        obtain ⟨r2, s2⟩ := q
        cases r2 <;> exact this
    unfold AnyStream.close AnyStream.call
    dsimp only
    generalize Txt.close t = q at htxt
    obtain ⟨x, r1⟩ := q
    exact htxt

/-- A stream that was opened, and closed later. -/
theorem opened_released {py : Python} {a : OpenArgs} {p : Bytes} (ha : ByPath a p) {w h v : Host} {o : Verif.Opened} (h0 : w.freeFd ≠ 0)
    (hw : ∀ l ∈ w.held, (w.fds.lookup l.2).isSome) (ho : rsopen py a w = (.ok o, h))
    (hf : v.fds = h.fds) (hp : v.pending = h.pending) (hh : v.held = h.held) :
    Released w (closeRaw o.raw.closefd o.raw.ino o.raw.fd v) := by
  rcases byPath_course ha ho with ⟨_, he, _⟩ | ⟨kw, ext, hfl, hck, _, hcl, hc⟩
  · cases he
  rcases hc with ⟨_, he, _⟩ | ⟨_, ino, base, hin, hc⟩
  · cases he
  have hsame := hin.same
  have hfree := freeFd_free w
  rcases hc with ⟨e', k, b, he, _⟩ | ⟨_, n, hn, _, ⟨_, _, k, he, _⟩ | ⟨k, _, hfin⟩⟩
  · cases he
  · cases he
  obtain ⟨k', l, tr, hl, htr, hfc⟩ := finish_course hfin
  rcases hfc with ⟨_, he, _⟩ | ⟨_, hh1, hfc⟩
  · exact absurd he.symm (closing_ne_ok _ _ _ _)
  have hraw : o.raw = RawObj.built kw w.freeFd ino (decide (n.kind = .regular)) := by
    rcases hfc with ⟨_, _, he⟩ | ⟨_, _, _, _, he, _⟩ <;> cases he <;> rfl
  have hcl' : kw.closefd = true := hfl.closefd.trans hcl
  rw [hraw]
  simp only [RawObj.built]
  rw [hcl']
  rw [hh1] at hf hp hh
  refine closeRaw_released hfree h0 hw (d := (entry kw ino w.freeFd kw.inheritable).2) ?_ (hp.trans hsame.2.2.2) ?_ ?_
  · rw [hf]; simp only [effect, ticks, entered]; rw [hsame.1]; rfl
  · intro x hx
    rw [hh]
    cases l <;> simp [effect, ticks, entered, hsame.2.2.1, hx]
  · intro x hx
    rw [hh] at hx
    cases l <;> simp [effect, ticks, entered, hsame.2.2.1] at hx
    · exact .inr hx
    · exact hx

/-- The claim of C67: whatever a call does, when it is over the process has the descriptors and the locks of before. -/
def LeavesNothing : Prop :=
  ∀ (S : Setting) (a : FileArgs) (p : Bytes) (w : Site), a.filename = .path p → (∀ l ∈ w.host.held, (w.host.fds.lookup l.2).isSome) →
    (∀ binary, Released w.host (Site.readFromFile S a binary w).2.host) ∧
    (∀ data sync mc mn, Released w.host (Site.writeToFile S a data sync mc mn w).2.host) ∧
    ∀ data sync mn, Released w.host (Site.appendToFile S a data sync mn w).2.host

theorem withOpen_released {S : Setting} {a : FileArgs} {mode : List Char} {α : Type} (body : PyM (AnyStream S.codec) α) {p : Bytes}
    (hp : a.filename = .path p) {w : Site} (h0 : w.host.freeFd ≠ 0) (hw : ∀ l ∈ w.host.held, (w.host.fds.lookup l.2).isSome)
    (hs : ∀ j e, 1 ≤ j → j < 4 → w.host.sched[j]? ≠ some (some e))
    (hd : ∀ ino, w.host.names.lookup p = some ino → ∃ n, w.host.nodes[ino]? = some n ∧ n.kind ≠ .directory) :
    Released w.host (Site.withOpen S a mode body w).2.host := by
  have ha : ByPath (Site.openArgs a mode) p := ⟨hp, rfl, rfl, rfl⟩
  unfold Site.withOpen
  cases ho : rsopen S.py (Site.openArgs a mode) w.host with
  | mk r h =>
    cases r with
    | error e => exact C41_partial ha h0 hw hs hd ho
    | ok o =>
      dsimp only
      split
      · exact opened_released ha h0 hw ho rfl rfl rfl
      · rename_i s _
        have hc : (PyM.tryFinally body AnyStream.close s).2.theRaw.closed = true := by
          rw [PyM.tryFinally_apply]
          generalize body s = q
          obtain ⟨r1, s1⟩ := q
          dsimp only
          have := close_closed s1
          generalize AnyStream.close s1 = q at this
          obtain ⟨r2, s2⟩ := q
          cases r2 <;> exact this
        generalize PyM.tryFinally body AnyStream.close s = q at hc
        obtain ⟨r2, s2⟩ := q
        dsimp only [Site.store] at hc ⊢
        rw [if_pos hc]
        exact opened_released ha h0 hw ho rfl rfl rfl

/-- C67: whatever the outcome of the call, no descriptor is left open and no lock is left, except for a descriptor whose closing
waits for the locks of other streams.
Missing: paths of directories, the descriptor 0, and failures of the system calls that follow `open` at once, for which it
is false (`C67_refuted`, `C67_zero_refuted`, `C41_partial`). -/
theorem C67_partial (S : Setting) (a : FileArgs) {p : Bytes} (hp : a.filename = .path p) {w : Site} (h0 : w.host.freeFd ≠ 0)
    (hw : ∀ l ∈ w.host.held, (w.host.fds.lookup l.2).isSome)
    (hs : ∀ j e, 1 ≤ j → j < 4 → w.host.sched[j]? ≠ some (some e))
    (hd : ∀ ino, w.host.names.lookup p = some ino → ∃ n, w.host.nodes[ino]? = some n ∧ n.kind ≠ .directory) :
    (∀ binary, Released w.host (Site.readFromFile S a binary w).2.host) ∧
    (∀ data sync mc mn, Released w.host (Site.writeToFile S a data sync mc mn w).2.host) ∧
    ∀ data sync mn, Released w.host (Site.appendToFile S a data sync mn w).2.host :=
  ⟨fun _ => withOpen_released _ hp h0 hw hs hd, fun _ _ _ _ => withOpen_released _ hp h0 hw hs hd,
    fun _ _ _ => withOpen_released _ hp h0 hw hs hd⟩

/-- C67 is false: reading a directory with `read_from_file` fails, and leaves its descriptor open. -/
theorem C67_refuted : ¬ LeavesNothing := by
  intro h
  have hrel := (h setting { plain .absent with filename := .path [100] } [100] (site []) rfl (by simp [site, machine])).1 true
  have hfds : (Site.readFromFile setting { plain .absent with filename := .path [100] } true (site [])).2.host.fds =
      (3, ⟨1, true, false, false, false, true⟩) :: machine.fds := by decide +kernel
  have hpend : (Site.readFromFile setting { plain .absent with filename := .path [100] } true (site [])).2.host.pending = [] := by
    decide +kernel
  have := hrel.fds (3, ⟨1, true, false, false, false, true⟩) (by rw [hfds]; simp)
  rw [hpend] at this
  rcases this with h | ⟨_, h, _⟩
  · revert h; decide
  · cases h

/-- C67 is false for the descriptor 0: `write_to_file` writes the file, then fails and leaves it open. -/
theorem C67_zero_refuted : ∃ (S : Setting) (a : FileArgs) (w : Site), SoundArgs a [102] False ∧
    Allows (Site.openArgs a (writeMode (.bytes [7]) false true)) [102] w.host ∧ Blocking w.io ∧ w.host.fds = [] ∧
    (Site.writeToFile S a (.bytes [7]) false false true w).1 = .error .assertionError ∧
    content (Site.writeToFile S a (.bytes [7]) false false true w).2.host [102] = some [7] ∧
    (Site.writeToFile S a (.bytes [7]) false false true w).2.host.fds.length = 1 ∧
    (Site.writeToFile S a (.bytes [7]) false false true w).2.host.pending = [] ∧
    ¬ Released w.host (Site.writeToFile S a (.bytes [7]) false false true w).2.host := by
  refine ⟨setting, plain (.given 2), zeroSite, ⟨rfl, by decide, by decide, by nofun, by nofun, by nofun,
    fun _ => ⟨rfl, rfl, rfl⟩, fun _ => id⟩, ⟨by decide, by decide, fun h => ?_, fun _ => by decide, machine_regular⟩, by nofun,
    rfl, by decide +kernel, by decide +kernel, by decide +kernel, by decide +kernel, fun h => ?_⟩
  · exact absurd h (by simp only [MustCreate]; decide)
  · have hf : (Site.writeToFile setting (plain (.given 2)) (.bytes [7]) false false true zeroSite).2.host.fds =
        [(0, ⟨0, false, true, false, false, false⟩)] := by decide +kernel
    have hp : (Site.writeToFile setting (plain (.given 2)) (.bytes [7]) false false true zeroSite).2.host.pending = [] := by
      decide +kernel
    have := h.fds (0, ⟨0, false, true, false, false, false⟩) (by rw [hf]; simp)
    rw [hp] at this
    rcases this with h | ⟨_, h, _⟩ <;> cases h

-- an error in the middle: the write fails, and so does the flush when the file is closed
example : (Site.writeToFile setting (plain (.given 2)) (.bytes [7, 8, 9]) false false false (site [.fail 28, .fail 28])).1 = .error (.ioError 28) ∧
    (Site.writeToFile setting (plain (.given 2)) (.bytes [7, 8, 9]) false false false (site [.fail 28, .fail 28])).2.host.fds = machine.fds ∧
    (Site.writeToFile setting (plain (.given 2)) (.bytes [7, 8, 9]) false false false (site [.fail 28, .fail 28])).2.host.held = [] := by
  refine ⟨?_, ?_, ?_⟩ <;> decide +kernel

-- and the hypotheses hold there
example : (∀ l ∈ (site []).host.held, ((site []).host.fds.lookup l.2).isSome) ∧
    ∀ ino, (site []).host.names.lookup [102] = some ino → ∃ n, (site []).host.nodes[ino]? = some n ∧ n.kind ≠ .directory := by
  refine ⟨by simp [site, machine], fun ino h => ?_⟩
  obtain ⟨n, h1, h2⟩ := machine_regular ino h
  exact ⟨n, h1, by rw [h2]; nofun⟩

end Verif.Props
