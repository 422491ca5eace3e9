import Verif.Props.UtilitiesRelease

/-!
# C72: the `locking` argument
-/

set_option autoImplicit false

namespace Verif.Props

open Verif Verif.Spec Host OpenArgs

theorem closeRaw_held {c : Bool} {ino fd : Nat} {w : Host} {l : Nat × Nat} (h : l ∈ (closeRaw c ino fd w).held) : l ∈ w.held := by
  rw [closeRaw_locks] at h
  exact (List.mem_filter.1 h).1

theorem create_not_locked {kw : RawKw} {w w' : Host} {e : Exn} (h : RawObj.create kw w = (.error e, w')) {l : Nat × Nat}
    (hl : l ∈ w'.held) : l ∈ w.held := by
  cases hck : RawObj.check kw with
  | error e' =>
    unfold RawObj.create at h
    rw [PyM.bind_apply, hck] at h
    cases h
    exact hl
  | ok u =>
    rcases source_cases hck with ⟨p, hp, hf, hh⟩ | ⟨z, hz⟩
    · rcases RawObj.create_course hp hf hh h with ⟨e, _, _, rfl⟩ | ⟨_, ⟨e, he, hs⟩ | ⟨hfl, h31, ino, base, hin, hc⟩⟩
      · exact hl
      · obtain ⟨rfl, _⟩ := sysOpen_error hs
        exact hl
      · rcases hc with ⟨e, k, b, _, rfl, _⟩ | ⟨hj, n, hn, hd, ⟨e, e', k, _, _, _, rfl⟩ | ⟨k, _, _, he, _⟩⟩
        · rw [← hin.same.2.2.1]; exact hl
        · have := closeRaw_held hl
          rw [← hin.same.2.2.1]; exact this
        · cases he
    · rcases RawObj.create_fd_course hz h with ⟨e, _, _, rfl⟩ | ⟨_, ⟨e, e', k, _, rfl, _⟩ | ⟨h0, d, n, hl', hn, hc⟩⟩
      · exact hl
      · exact hl
      · rcases hc with ⟨e, e', k, c, _, rfl, _⟩ | ⟨hd, k, rfl, he⟩
        · have := closeRaw_held hl
          exact this
        · cases he

/-- C72: without `locking`, opening a file asks for no lock (what an `opener` does is not counted). -/
theorem C72_no_lock {py : Python} {a : OpenArgs} (hlk : a.locking = false) {w w' : Host} {r : Except Exn Verif.Opened}
    (h : rsopen py a w = (r, w')) : ∃ w0 evs, Began a w w0 ∧ w'.log = w0.log ++ evs ∧ (∀ ino fd, .locked ino fd ∉ evs) ∧
      ∀ l ∈ w'.held, l ∈ w0.held := by
  rcases rsopen_course h with ⟨e, _, hw⟩ | ⟨kw0, kw, ext, t, hp, hpar, hext, hc⟩
  · refine ⟨w', [], ?_, by simp, by simp, fun _ h => h⟩
    rcases hw with ⟨rfl, _⟩ | ⟨rfl, _⟩
    · exact .inl rfl
    · exact .inr rfl
  · refine ⟨start a w, ?_⟩
    rcases hc with ⟨e, _, hc⟩ | ⟨raw, w1, hc, hfin⟩
    · obtain ⟨hk, evs, hev, hq⟩ := create_not_made hc
      exact ⟨evs, .inr rfl, hev, fun ino fd hm => (hq _ hm).1 ino fd rfl, fun _ => create_not_locked hc⟩
    · obtain ⟨_, fd, ino, n, d, evs, k, rfl, hn, _, _, _, hheld, _, _, hev, hq, hk, _⟩ := create_made hc
      obtain ⟨k', l, tr, hl, htr, hfc⟩ := finish_course hfin
      have hl0 : l = false := by
        cases l with
        | false => rfl
        | true => rw [(hl rfl).2] at hlk; cases hlk
      subst hl0
      have hne : ∀ ev ∈ evs, ∀ i f, ev ≠ .locked i f := by
        intro ev hm i f
        rcases hq ev hm with ⟨_, _, rfl⟩ | ⟨_, _, rfl⟩ <;> nofun
      rcases hfc with ⟨e, _, rfl, _⟩ | ⟨_, rfl, _⟩
      · obtain ⟨evs', h1, h2⟩ := closeRaw_log (RawObj.built kw fd ino (decide (n.kind = .regular))).closefd ino fd
          (effect false tr (RawObj.built kw fd ino (decide (n.kind = .regular))) (w1.ticks k'))
        refine ⟨evs ++ ((if tr then [.truncated ino] else []) ++ evs'), .inr rfl, ?_, ?_, ?_⟩
        · rw [show (RawObj.built kw fd ino (decide (n.kind = .regular))).ino = ino from rfl,
            show (RawObj.built kw fd ino (decide (n.kind = .regular))).fd = fd from rfl, h1]
          simp [effect, ticks, RawObj.built, hev]
        · intro i f hm
          rw [List.mem_append, List.mem_append] at hm
          rcases hm with hm | hm | hm
          · exact hne _ hm i f rfl
          · cases tr <;> simp at hm
          · rcases h2 _ hm with ⟨_, h⟩ | ⟨_, h⟩ <;> cases h
        · intro x hx
          have := closeRaw_held hx
          rw [← hheld]
          exact this
      · refine ⟨evs ++ (if tr then [.truncated ino] else []), .inr rfl, ?_, ?_, ?_⟩
        · simp [effect, ticks, RawObj.built, hev]
        · intro i f hm
          rw [List.mem_append] at hm
          rcases hm with hm | hm
          · exact hne _ hm i f rfl
          · cases tr <;> simp at hm
        · intro x hx
          rw [← hheld]
          exact hx

/-- The log after a `with` statement. -/
theorem withOpen_log {S : Setting} {a : FileArgs} {mode : List Char} {α : Type} (body : PyM (AnyStream S.codec) α) (w : Site) :
    ∃ r h evs, rsopen S.py (Site.openArgs a mode) w.host = (r, h) ∧ (Site.withOpen S a mode body w).2.host.log = h.log ++ evs ∧
      (∀ ev ∈ evs, (∃ f, ev = .closed f) ∨ ∃ f, ev = .postponed f) ∧
      (∀ e, r = .error e → Site.withOpen S a mode body w = (.error e, { w with host := h })) := by
  unfold Site.withOpen
  cases ho : rsopen S.py (Site.openArgs a mode) w.host with
  | mk r h =>
    refine ⟨r, h, ?_⟩
    cases r with
    | error e => exact ⟨[], rfl, by simp, by simp, fun _ h => by cases h; rfl⟩
    | ok o =>
      dsimp only
      split
      · obtain ⟨evs, h1, h2⟩ := closeRaw_log o.raw.closefd o.raw.ino o.raw.fd h
        exact ⟨evs, rfl, h1, h2, by nofun⟩
      · rename_i s _
        generalize PyM.tryFinally body AnyStream.close s = q
        obtain ⟨r2, s2⟩ := q
        dsimp only [Site.store]
        split
        · obtain ⟨evs, h1, h2⟩ := closeRaw_log o.raw.closefd o.raw.ino o.raw.fd
            { h with nodes := h.nodes.modify o.raw.ino fun n => { n with data := s2.theRaw.data } }
          exact ⟨evs, rfl, h1, h2, by nofun⟩
        · exact ⟨[], rfl, by simp, by simp, by nofun⟩

/-- No lock was asked for between the two states. -/
def NoLock (w w' : Host) : Prop := ∃ evs, w'.log = w.log ++ evs ∧ ∀ ino fd, .locked ino fd ∉ evs

theorem withOpen_no_lock {S : Setting} {a : FileArgs} {mode : List Char} {α : Type} (body : PyM (AnyStream S.codec) α)
    (hlk : a.locking = false) (w : Site) : NoLock w.host (Site.withOpen S a mode body w).2.host := by
  obtain ⟨r, h, evs, ho, hlog, hev, _⟩ := withOpen_log (a := a) (mode := mode) body w
  obtain ⟨w0, evs0, hb, h1, h2, _⟩ := C72_no_lock (a := Site.openArgs a mode) hlk ho
  have hw0 : w0 = w.host := by rcases hb with h | h <;> exact h
  subst hw0
  refine ⟨evs0 ++ evs, by rw [hlog, h1, List.append_assoc], fun i f hm => ?_⟩
  rw [List.mem_append] at hm
  rcases hm with hm | hm
  · exact h2 i f hm
  · rcases hev _ hm with ⟨_, h⟩ | ⟨_, h⟩ <;> cases h

/-- C72: with `locking=False` the utility functions ask for no lock, whatever happens. -/
theorem C72_utilities_no_lock (S : Setting) (a : FileArgs) (hlk : a.locking = false) (w : Site) :
    (∀ binary, NoLock w.host (Site.readFromFile S a binary w).2.host) ∧
    (∀ data sync mc mn, NoLock w.host (Site.writeToFile S a data sync mc mn w).2.host) ∧
    ∀ data sync mn, NoLock w.host (Site.appendToFile S a data sync mn w).2.host :=
  ⟨fun _ => withOpen_no_lock _ hlk w, fun _ _ _ _ => withOpen_no_lock _ hlk w, fun _ _ _ => withOpen_no_lock _ hlk w⟩

/-- The file of the path was locked, or the call failed and changed no content. -/
def LockedOrRefused {α : Type} (p : Bytes) (w : Host) (r : Except Exn α) (w' : Host) : Prop :=
  ∃ evs, w'.log = w.log ++ evs ∧
    ((∃ ino fd, .locked ino fd ∈ evs ∧ w'.names.lookup p = some ino) ∨ (∃ e, r = .error e) ∧ Kept w w')

theorem Enters.name {p : Bytes} {fl : Flags} {w base : Host} {ino : Nat} (h : Enters p fl w ino base) :
    base.names.lookup p = some ino := by
  cases h with
  | old hl => exact hl
  | new => simp [newFile]

theorem rsopen_locked {py : Python} {a : OpenArgs} {p : Bytes} (ha : ByPath a p) (hlk : a.locking = true) {w w' : Host}
    (hreg : RegularOrAbsent w p) {r : Except Exn Verif.Opened} (h : rsopen py a w = (r, w')) : LockedOrRefused p w r w' := by
  rcases byPath_course ha h with ⟨e, he, rfl, _⟩ | ⟨kw, ext, hfl, hck, _, hclose, hc⟩
  · exact ⟨[], by simp, .inr ⟨⟨e, he⟩, Kept.rfl' _⟩⟩
  rcases hc with ⟨e, he, hs⟩ | ⟨hf, ino, base, hin, hc⟩
  · obtain ⟨rfl, _⟩ := sysOpen_error hs
    exact ⟨[], by simp [ticks], .inr ⟨⟨_, he⟩, fun _ _ h => h⟩⟩
  have hk := Enters.kept hin
  obtain ⟨evs, hevs, -⟩ := Enters.log hin
  rcases hc with ⟨e, k, b, he, rfl, _⟩ | ⟨_, n, hn, hd, ⟨e, e', k, he, _, _, rfl⟩ | ⟨k, _, hfin⟩⟩
  · exact ⟨evs ++ [.opened w.freeFd ino], by simp [entered, hevs], .inr ⟨⟨_, he⟩, hk⟩⟩
  · obtain ⟨evs', h1, -⟩ := closeRaw_log true ino w.freeFd (entered kw ino w.freeFd kw.inheritable k base)
    refine ⟨evs ++ [.opened w.freeFd ino] ++ evs', ?_, .inr ⟨⟨_, he⟩, ?_⟩⟩
    · rw [h1]; simp [entered, hevs]
    · intro i m hi
      rw [(closeRaw_same _ _ _ _).1]
      exact hk i m hi
  have hregular : n.kind = .regular := by
    cases hin with
    | old hl _ _ =>
      obtain ⟨n', h1, h2⟩ := hreg _ hl
      rw [hn] at h1
      cases h1
      exact h2
    | new hl _ =>
      simp only [newFile] at hn
      rw [List.getElem?_append_right (Nat.le_refl _), Nat.sub_self] at hn
      cases hn
      rfl
  rw [decide_eq_true hregular] at hfin
  obtain ⟨k', l, tr, hl, htr, hfc⟩ := finish_course hfin
  rcases hfc with ⟨e, he, rfl, _⟩ | ⟨hboth, rfl, hlay⟩
  · obtain ⟨evs', h1, -⟩ := closeRaw_log kw.closefd ino w.freeFd (effect l tr (RawObj.built kw w.freeFd ino true)
      ((entered kw ino w.freeFd kw.inheritable k base).ticks k'))
    refine ⟨evs ++ [.opened w.freeFd ino] ++ (if l then [.locked ino w.freeFd] else []) ++ (if tr then [.truncated ino] else []) ++ evs',
      ?_, ?_⟩
    · exact h1.trans (by simp [effect, ticks, entered, hevs, RawObj.built])
    · cases l with
      | true =>
        refine .inl ⟨ino, w.freeFd, by simp, ?_⟩
        rw [(closeRaw_same _ _ _ _).2.1]
        have := Enters.name hin
        exact this
      | false =>
        obtain ⟨e', he', _⟩ := closing_error (RawObj.built kw w.freeFd ino true).closefd (RawObj.built kw w.freeFd ino true).fd e
          (α := Verif.Opened)
        refine .inr ⟨⟨e', he.trans he'⟩, ?_⟩
        have : tr = false := by
          cases tr with
          | false => rfl
          | true => exact absurd ((htr rfl).2.2 hlk) (by simp)
        subst this
        intro i m hi
        rw [(closeRaw_same _ _ _ _).1]
        exact hk i m hi
  · have hlt : l = true := (hboth rfl).1.trans hlk
    subst hlt
    have hname := Enters.name hin
    exact ⟨evs ++ [.opened w.freeFd ino] ++ [.locked ino w.freeFd] ++ (if tr then [.truncated ino] else []),
      by simp [effect, ticks, entered, hevs, RawObj.built], .inl ⟨ino, w.freeFd, by simp, hname⟩⟩

theorem withOpen_locked {S : Setting} {a : FileArgs} {mode : List Char} {α : Type} (body : PyM (AnyStream S.codec) α)
    (hlk : a.locking = true) {p : Bytes} (hp : a.filename = .path p) {w : Site} (hreg : RegularOrAbsent w.host p) :
    LockedOrRefused p w.host (Site.withOpen S a mode body w).1 (Site.withOpen S a mode body w).2.host := by
  obtain ⟨r, h, evs, ho, hlog, hev, herr⟩ := withOpen_log (a := a) (mode := mode) body w
  have hnames : (Site.withOpen S a mode body w).2.host.names = h.names := by
    unfold Site.withOpen
    rw [ho]
    cases r with
    | error e => rfl
    | ok o =>
      dsimp only
      split
      · exact (closeRaw_same _ _ _ _).2.1
      · rename_i s _
        generalize PyM.tryFinally body AnyStream.close s = q
        obtain ⟨r2, s2⟩ := q
        dsimp only [Site.store]
        split
        · exact (closeRaw_same _ _ _ _).2.1
        · rfl
  obtain ⟨evs0, h1, h2⟩ := rsopen_locked (a := Site.openArgs a mode) ⟨hp, rfl, rfl, rfl⟩ hlk hreg ho
  rcases h2 with ⟨ino, fd, h2, h3⟩ | ⟨⟨e, rfl⟩, h2⟩
  · exact ⟨evs0 ++ evs, by rw [hlog, h1, List.append_assoc], .inl ⟨ino, fd, by simp [h2], by rw [hnames]; exact h3⟩⟩
  · rw [herr e rfl]
    exact ⟨evs0, h1, .inr ⟨⟨e, rfl⟩, h2⟩⟩

/-- C72: with `locking=True` the utility functions lock the file, or fail and leave all contents as they were. -/
theorem C72_utilities_locked (S : Setting) (a : FileArgs) (hlk : a.locking = true) {p : Bytes} (hp : a.filename = .path p) {w : Site}
    (hreg : RegularOrAbsent w.host p) :
    (∀ binary, LockedOrRefused p w.host (Site.readFromFile S a binary w).1 (Site.readFromFile S a binary w).2.host) ∧
    (∀ data sync mc mn, LockedOrRefused p w.host (Site.writeToFile S a data sync mc mn w).1
      (Site.writeToFile S a data sync mc mn w).2.host) ∧
    ∀ data sync mn, LockedOrRefused p w.host (Site.appendToFile S a data sync mn w).1 (Site.appendToFile S a data sync mn w).2.host :=
  ⟨fun _ => withOpen_locked _ hlk hp hreg, fun _ _ _ _ => withOpen_locked _ hlk hp hreg,
    fun _ _ _ => withOpen_locked _ hlk hp hreg⟩

-- reading without a lock, and with one: the logs
example : (Site.readFromFile setting { plain (.given 2) with locking := false } true (site [])).2.host.log =
    [.opened 3 0, .closed 3] := by decide +kernel

example : (Site.readFromFile setting (plain (.given 2)) true (site [])).2.host.log =
    [.opened 3 0, .locked 0 3, .closed 3] := by decide +kernel

-- the lock is refused
example : (Site.writeToFile setting (plain (.given 2)) (.bytes [7]) false false false
      { site [] with host := { machine with sched := [none, none, none, none, none, some (.lockingException 11)] } }).2.host.log =
    [.opened 3 0, .closed 3] := by decide +kernel

end Verif.Props
