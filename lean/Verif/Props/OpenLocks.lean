import Verif.Props.Locking

/-!
# C05 in the open call: closing does not lose the locks of other streams

POSIX drops all locks of a process on a file as soon as the process closes any descriptor of that file.
-/

set_option autoImplicit false

namespace Verif.Props

open Verif Verif.Spec Host OpenArgs

/-- Between the two states, no descriptor was closed of a file on which a stream of before holds a lock.  A descriptor that
is closed was opened in between, or was to be closed. -/
def SparesLocks (w w' : Host) : Prop :=
  ∃ evs, w'.log = w.log ++ evs ∧ ∀ fd, .closed fd ∈ evs →
    (∀ ino, .opened fd ino ∈ evs → ∀ l ∈ w.held, l.1 ≠ ino) ∧
    ((∃ ino, .opened fd ino ∈ evs) ∨ ∃ ino, (ino, fd) ∈ w.pending ∧ ∀ l ∈ w.held, l.1 ≠ ino)

theorem SparesLocks.of_open {w w' : Host} {evs : List OpenEv} (hl : w'.log = w.log ++ evs) (hc : ∀ fd, .closed fd ∉ evs) :
    SparesLocks w w' := ⟨evs, hl, fun fd h => absurd h (hc fd)⟩

theorem closeRaw_spares {c : Bool} {ino fd : Nat} {w v : Host} {evs : List OpenEv} (hfree : w.fds.lookup fd = none)
    (hw : ∀ l ∈ w.held, (w.fds.lookup l.2).isSome) (hp : v.pending = w.pending) (hh : ∀ l, l ∈ w.held → l ∈ v.held)
    (hl : v.log = w.log ++ evs) (hc : ∀ fd, .closed fd ∉ evs) (ho : ∀ f i, .opened f i ∈ evs ↔ f = fd ∧ i = ino) :
    SparesLocks w (closeRaw c ino fd v) := by
  have hno : ¬ OthersLock ino fd v → ∀ l ∈ w.held, l.1 ≠ ino := by
    intro ho l hlw he
    refine ho ⟨l, hh l hlw, ?_, he⟩
    rintro rfl
    have := hw _ hlw
    rw [hfree] at this
    cases this
  obtain ⟨evs', h1, h2⟩ := closeRaw_events c ino fd v
  refine ⟨evs ++ evs', by rw [h1, hl, List.append_assoc], fun f hf => ?_⟩
  have hopen : ∀ i, OpenEv.opened f i ∈ evs ++ evs' ↔ f = fd ∧ i = ino := by
    intro i
    rw [List.mem_append, ← ho f i]
    constructor
    · rintro (h | h)
      · exact h
      · rcases h2 _ h with ⟨_, h, _⟩ | ⟨h, _⟩ <;> cases h
    · exact Or.inl
  rw [List.mem_append] at hf
  rcases hf with hf | hf
  · exact absurd hf (hc f)
  rcases h2 _ hf with ⟨x, he, hends⟩ | ⟨he, _⟩
  · cases he
    refine ⟨fun i hi l hlw => ?_, ?_⟩
    · rw [((hopen i).1 hi).2]
      exact hno hends.1 l hlw
    · rcases hends.2 with ⟨_, _, h⟩ | ⟨_, h⟩
      · exact .inl ⟨ino, (hopen ino).2 ⟨h, rfl⟩⟩
      · exact .inr ⟨ino, hp ▸ h, hno hends.1⟩
  · cases he

theorem rsopen_spares {py : Python} {a : OpenArgs} {p : Bytes} (ha : ByPath a p) {w w' : Host}
    (hw : ∀ l ∈ w.held, (w.fds.lookup l.2).isSome) {r : Except Exn Verif.Opened} (h : rsopen py a w = (r, w')) :
    SparesLocks w w' ∧ ∀ o, r = .ok o → ∀ v : Host, v.pending = w'.pending → v.held = w'.held → v.log = w'.log →
      SparesLocks w (closeRaw o.raw.closefd o.raw.ino o.raw.fd v) := by
  have hfree := freeFd_free w
  rcases byPath_course ha h with ⟨e, he, rfl, _⟩ | ⟨kw, ext, hfl, hck, _, hclose, hc⟩
  · exact ⟨.of_open (evs := []) (by simp) (by simp), fun o ho => by rw [he] at ho; cases ho⟩
  rcases hc with ⟨e, he, hs⟩ | ⟨hf, ino, base, hin, hc⟩
  · obtain ⟨rfl, _⟩ := sysOpen_error hs
    exact ⟨.of_open (evs := []) (by simp [ticks]) (by simp), fun o ho => by rw [he] at ho; cases ho⟩
  have hsame := hin.same
  obtain ⟨evs, hevs, hcr⟩ := Enters.log hin
  have hno : ∀ f, OpenEv.closed f ∉ evs := by
    intro f hf
    obtain ⟨_, _, h⟩ := hcr _ hf
    cases h
  have hno' : ∀ f i, OpenEv.opened f i ∉ evs := by
    intro f i hf
    obtain ⟨_, _, h⟩ := hcr _ hf
    cases h
  rcases hc with ⟨e, k, b, he, rfl, _⟩ | ⟨_, n, hn, hd, ⟨e, e', k, he, _, _, rfl⟩ | ⟨k, _, hfin⟩⟩
  · refine ⟨.of_open (evs := evs ++ [.opened w.freeFd ino]) (by simp [entered, hevs]) ?_, fun o ho => by rw [he] at ho; cases ho⟩
    intro f hf
    simp only [List.mem_append, List.mem_singleton, reduceCtorEq, or_false] at hf
    exact hno f hf
  · refine ⟨?_, fun o ho => by rw [he] at ho; cases ho⟩
    refine closeRaw_spares (evs := evs ++ [.opened w.freeFd ino]) hfree hw hsame.2.2.2 ?_ (by simp [entered, hevs]) ?_ ?_
    · intro l hl
      simpa [entered, hsame.2.2.1] using hl
    · intro f hf
      simp only [List.mem_append, List.mem_singleton, reduceCtorEq, or_false] at hf
      exact hno f hf
    · intro f i
      simp [hno']
  obtain ⟨k', l, tr, hl, htr, hfc⟩ := finish_course hfin
  have key : ∀ v : Host, v.pending = w.pending →
      v.held = (effect l tr (RawObj.built kw w.freeFd ino (decide (n.kind = .regular)))
        ((entered kw ino w.freeFd kw.inheritable k base).ticks k')).held →
      v.log = (effect l tr (RawObj.built kw w.freeFd ino (decide (n.kind = .regular)))
        ((entered kw ino w.freeFd kw.inheritable k base).ticks k')).log →
      ∀ c, SparesLocks w (closeRaw c ino w.freeFd v) := by
    intro v hv1 hv2 hv3 c
    refine closeRaw_spares (evs := evs ++ [.opened w.freeFd ino] ++ (if l then [.locked ino w.freeFd] else []) ++
      (if tr then [.truncated ino] else [])) hfree hw hv1 ?_ ?_ ?_ ?_
    · intro x hx
      rw [hv2]
      cases l <;> simp [effect, ticks, entered, hsame.2.2.1, hx]
    · rw [hv3]
      simp [effect, ticks, entered, hevs, RawObj.built]
    · intro f hf
      cases l <;> cases tr <;> simp [hno] at hf
    · intro f i
      cases l <;> cases tr <;> simp [hno']
  rcases hfc with ⟨e, he, rfl, _⟩ | ⟨hboth, rfl, hlay⟩
  · exact ⟨key (effect l tr (RawObj.built kw w.freeFd ino (decide (n.kind = .regular)))
      ((entered kw ino w.freeFd kw.inheritable k base).ticks k')) hsame.2.2.2 rfl rfl _, fun o ho => absurd (he.symm.trans ho) (closing_ne_ok _ _ _ _)⟩
  · refine ⟨.of_open (evs := evs ++ [.opened w.freeFd ino] ++ (if l then [.locked ino w.freeFd] else []) ++
      (if tr then [.truncated ino] else [])) (by simp [effect, ticks, entered, hevs, RawObj.built])
      (fun f hf => by cases l <;> cases tr <;> simp [hno] at hf), ?_⟩
    intro o ho v hv1 hv2 hv3
    have hraw : o.raw = RawObj.built kw w.freeFd ino (decide (n.kind = .regular)) := by
      rcases hlay with ⟨_, _, he⟩ | ⟨_, _, _, _, he, _⟩ <;> rw [he] at ho <;> cases ho <;> rfl
    rw [hraw]
    exact key v (hv1.trans hsame.2.2.2) hv2 hv3 _

/-- C05: an open call for a path, successful or not, does not close a descriptor of a file on which another stream of the
process holds a lock. -/
theorem C05_open {py : Python} {a : OpenArgs} {p : Bytes} (ha : ByPath a p) {w w' : Host}
    (hw : ∀ l ∈ w.held, (w.fds.lookup l.2).isSome) {r : Except Exn Verif.Opened} (h : rsopen py a w = (r, w')) :
    SparesLocks w w' := (rsopen_spares ha hw h).1

theorem withOpen_spares {S : Setting} {a : FileArgs} {mode : List Char} {α : Type} (body : PyM (AnyStream S.codec) α) {p : Bytes}
    (hp : a.filename = .path p) {w : Site} (hw : ∀ l ∈ w.host.held, (w.host.fds.lookup l.2).isSome) :
    SparesLocks w.host (Site.withOpen S a mode body w).2.host := by
  have ha : ByPath (Site.openArgs a mode) p := ⟨hp, rfl, rfl, rfl⟩
  unfold Site.withOpen
  cases ho : rsopen S.py (Site.openArgs a mode) w.host with
  | mk r h =>
    have hs := rsopen_spares ha hw ho
    cases r with
    | error e => exact hs.1
    | ok o =>
      dsimp only
      split
      · exact hs.2 o rfl _ rfl rfl rfl
      · generalize PyM.tryFinally body AnyStream.close _ = q
        obtain ⟨r2, s2⟩ := q
        dsimp only [Site.store]
        split
        · exact hs.2 o rfl _ rfl rfl rfl
        · obtain ⟨evs, e1, e2⟩ := hs.1
          exact ⟨evs, e1, e2⟩

/-- C05: neither do the utility functions, which open the file, use it, and close it. -/
theorem C05_utilities (S : Setting) (a : FileArgs) {p : Bytes} (hp : a.filename = .path p) {w : Site}
    (hw : ∀ l ∈ w.host.held, (w.host.fds.lookup l.2).isSome) :
    (∀ binary, SparesLocks w.host (Site.readFromFile S a binary w).2.host) ∧
    (∀ data sync mc mn, SparesLocks w.host (Site.writeToFile S a data sync mc mn w).2.host) ∧
    ∀ data sync mn, SparesLocks w.host (Site.appendToFile S a data sync mn w).2.host :=
  ⟨fun _ => withOpen_spares _ hp hw, fun _ _ _ _ => withOpen_spares _ hp hw, fun _ _ _ => withOpen_spares _ hp hw⟩

/-- A process in which another stream, on descriptor 7, holds a lock on file 0. -/
def lockedSite : Site :=
  { site [] with host := { machine with fds := (7, ⟨0, true, true, false, false, false⟩) :: machine.fds, held := [(0, 7)] } }

-- the descriptor of a file that another stream has locked stays open; the file of another inode is closed
example : (∀ l ∈ lockedSite.host.held, (lockedSite.host.fds.lookup l.2).isSome) ∧
    (Site.readFromFile setting { plain (.given 2) with locking := false } true lockedSite).2.host.log =
      [.opened 3 0, .postponed 3] ∧
    (Site.readFromFile setting { plain (.given 2) with locking := false } true
      { lockedSite with host := { lockedSite.host with held := [(1, 7)] } }).2.host.log = [.opened 3 0, .closed 3] := by
  refine ⟨by decide +kernel, by decide +kernel, by decide +kernel⟩

end Verif.Props
