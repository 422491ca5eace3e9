import Verif.Lemmas.WinOpen
import Verif.Props.OpenLayers

/-!
# What `rsopen` does on windows: C82 to C86
-/

set_option autoImplicit false

namespace Verif.Props

open Verif

/-! ## The course of a call -/

/-- The arguments were rejected. -/
def WinRejected (py : WinOpen.WinPython) (a : OpenArgs) (e : Exn) : Prop :=
  OpenArgs.parse py.py a = .error e ∨ ∃ kw ext, OpenArgs.parse py.py a = .ok (kw, ext) ∧
    (OpenArgs.checkExt a kw ext = .error e ∨ RawObj.check kw = .error e)

/-- What can happen in a call for a path. -/
theorem winOpen_course {py : WinOpen.WinPython} {a : OpenArgs} {p : Bytes} (ha : ByPath a p) {w w' : WinOpen.Host}
    {r : Except Exn (WinOpen.Raw × WinOpen.Layers)} (h : WinOpen.rsopen py a w = (r, w')) :
    (∃ e, r = .error e ∧ (e = .badValueType ∧ WinRejected py a e) ∧ w' = w) ∨
    ∃ kw ext, OpenArgs.parse py.py a = .ok (kw, ext) ∧ Fields (.path p) a.modeString none none a.closefd (kw, ext) ∧
      RawObj.check kw = .ok () ∧ kw.closefd = true ∧
      ((∃ e sched, r = .error (if e = .overflowError then .badValueType else e) ∧ WinOpen.Refusal p kw w e ∧
          w' = { w with sched := sched }) ∨
       (∃ e leaked l tr ino base s, r = .error e ∧ WinOpen.Enters p kw w ino base ∧
          WinOpen.On w kw ino base leaked l tr s ∧
          (leaked = [] ∨ (WinOpen.probes py kw = true ∧ leaked = [WinOpen.nextC w []])) ∧
          WinOpen.Fair a ext.truncate l tr ∧ WinOpen.Why py a kw ext w base ino e ∧
          w' = WinOpen.closedHost w leaked s) ∨
       (∃ ino base s ly, r = .ok (s.raw, ly) ∧ w' = s.host ∧ WinOpen.Enters p kw w ino base ∧
          WinOpen.Made py kw w ino base (WinOpen.seekOf py kw base ino && a.locking)
            (WinOpen.seekOf py kw base ino && ext.truncate) s ∧ WinOpen.Known py kw w ino base s.raw.fileno)) := by
  unfold WinOpen.rsopen at h
  have hno : a.name ≠ .other := by rw [ha.name]; simp
  cases hp : OpenArgs.parse py.py a with
  | error e =>
    rw [hp] at h
    cases h
    exact .inl ⟨e, rfl, ⟨(OpenArgs.parse_error hp).resolve_right fun h => hno h.2, .inl hp⟩, rfl⟩
  | ok r0 =>
    obtain ⟨kw, ext⟩ := r0
    rw [hp] at h
    simp only at h
    have hfl := parseMode_fields (OpenArgs.parse_ok hp).1 (OpenArgs.parse_ok hp).2.1 (OpenArgs.parse_ok hp).2.2.2.2
    rw [ha.name, ha.fileno, ha.handle] at hfl
    have hpath : kw.path = .path p := (hfl.path p rfl).1
    have hf : kw.fileno = none := (hfl.path p rfl).2
    have hh : kw.handle = none := hfl.handle
    cases hx : OpenArgs.checkExt a kw ext with
    | error e =>
      rw [hx] at h
      cases h
      exact .inl ⟨e, rfl, ⟨OpenArgs.checkExt_error hx, .inr ⟨kw, ext, hp, .inl hx⟩⟩, rfl⟩
    | ok t =>
      have ht : t = ext.truncate := by
        rw [(OpenArgs.checkExt_ok hx).2.2, hf, hh]
        simp
      subst ht
      rw [hx] at h
      simp only at h
      cases hck : RawObj.check kw with
      | error e =>
        rw [hck] at h
        cases h
        exact .inl ⟨e, rfl, ⟨RawObj.check_error hck, .inr ⟨kw, ext, hp, .inr hck⟩⟩, rfl⟩
      | ok u =>
        rw [hck] at h
        simp only at h
        have hcl : kw.closefd = true := by
          rcases (RawObj.check_ok hck).2.2.2.2.1 with h | h | h
          · exact h
          · rw [hf] at h; cases h
          · rw [hh] at h; cases h
        have hrw : kw.read = true ∨ (kw.write || kw.append) = true := by
          rcases (RawObj.check_ok hck).2.2.1 with h | h | h <;> simp [h]
        refine .inr ⟨kw, ext, rfl, hfl, hck, hcl, ?_⟩
        have hcon := WinOpen.construct_meets py a ext ext.truncate ⟨hpath, hf, hh⟩ w ⟨w, WinOpen.blank kw⟩
          ⟨rfl, ⟨w.sched, rfl⟩, fun x hx => hx⟩
        generalize WinOpen.construct py kw ⟨w, WinOpen.blank kw⟩ = c at *
        obtain ⟨c, s⟩ := c
        have failed : ∀ {e : Exn} {s : WinOpen.St}, WinOpen.Failed py a kw ext ext.truncate p w e s →
            ∃ leaked l tr ino base, WinOpen.Enters p kw w ino base ∧ WinOpen.On w kw ino base leaked l tr s ∧
              (leaked = [] ∨ (WinOpen.probes py kw = true ∧ leaked = [WinOpen.nextC w []])) ∧
              WinOpen.Fair a ext.truncate l tr ∧ WinOpen.Why py a kw ext w base ino e ∧
              WinOpen.closeRaw s.raw s.host = (.ok (), WinOpen.closedHost w leaked s) := by
          rintro e s ⟨ino, base, leaked, l, tr, h1, h2, h3, h4, h5⟩
          exact ⟨leaked, l, tr, ino, base, h1, h2, h3, h4, h5, h2.close hcl⟩
        cases c with
        | error e =>
          cases h
          rcases hcon.2 e s rfl with ⟨⟨h1, ⟨sched, h2⟩, _⟩, e', h3, h4⟩ | h1
          · left
            refine ⟨e', sched, by rw [h4], h3, ?_⟩
            rw [h1, h2]
            simp [WinOpen.closeRaw, WinOpen.blank]
          · obtain ⟨leaked, l, tr, ino, base, h1, h2, h3, h4, h5, h6⟩ := failed h1
            exact .inr (.inl ⟨e, leaked, l, tr, ino, base, s, rfl, h1, h2, h3, h4, h5, by rw [h6]⟩)
        | ok u =>
          obtain ⟨ino, base, hin, hm, hfn⟩ := hcon.1 u s rfl
          have hb := WinOpen.build_meets py a ext ext.truncate hin hrw s ⟨hm, hfn⟩
          simp only at h
          generalize WinOpen.build py a kw ext ext.truncate s = b at *
          obtain ⟨b, s1⟩ := b
          cases b with
          | ok ly =>
            cases h
            obtain ⟨h1, h2⟩ := hb.1 ly s1 rfl
            exact .inr (.inr ⟨ino, base, s1, ly, rfl, rfl, hin, h1, h2⟩)
          | error e =>
            obtain ⟨leaked, l, tr, ino, base, h1, h2, h3, h4, h5, h6⟩ := failed (hb.2 e s1 rfl)
            simp only [h6] at h
            cases h
            exact .inr (.inl ⟨e, leaked, l, tr, ino, base, s1, rfl, h1, h2, h3, h4, h5, rfl⟩)

/-- The names and files at the end. -/
theorem winNames_course {py : WinOpen.WinPython} {a : OpenArgs} {p : Bytes} (ha : ByPath a p) {w w' : WinOpen.Host}
    {r : Except Exn (WinOpen.Raw × WinOpen.Layers)} (h : WinOpen.rsopen py a w = (r, w')) :
    (w'.names = w.names ∧ w'.nodes.length = w.nodes.length ∧ ∀ s ly, r = .ok (s, ly) → ∃ hd d, s.handle = some hd ∧
      w'.handles.lookup hd = some d ∧ w.names.lookup p = some d.ino ∧ ¬ MustCreate a.modeString) ∨
    (¬ MustExist a.modeString ∧ w.names.lookup p = none ∧ w'.names = (p, w.nodes.length) :: w.names ∧
      w'.nodes = w.nodes ++ [⟨.regular, [], false, false⟩] ∧ ∀ s ly, r = .ok (s, ly) → ∃ hd d, s.handle = some hd ∧
        w'.handles.lookup hd = some d ∧ d.ino = w.nodes.length) := by
  rcases winOpen_course ha h with ⟨e, rfl, _, rfl⟩ | ⟨kw, ext, _, hfl, hck, hcl, hc⟩
  · exact .inl ⟨rfl, rfl, nofun⟩
  have hnb : ¬ (kw.mustCreate = true ∧ kw.mustNotCreate = true) := (RawObj.check_ok hck).2.2.2.1
  have main : ∀ {ino : Nat} {base : WinOpen.Host} {leaked : List Nat} {l tr : Bool} {s : WinOpen.St},
      WinOpen.Enters p kw w ino base → WinOpen.On w kw ino base leaked l tr s → w'.nodes = s.host.nodes →
      w'.names = s.host.names → (∀ s' ly, r = .ok (s', ly) → s' = s.raw ∧ w' = s.host) →
      (w'.names = w.names ∧ w'.nodes.length = w.nodes.length ∧ ∀ s ly, r = .ok (s, ly) → ∃ hd d, s.handle = some hd ∧
        w'.handles.lookup hd = some d ∧ w.names.lookup p = some d.ino ∧ ¬ MustCreate a.modeString) ∨
      (¬ MustExist a.modeString ∧ w.names.lookup p = none ∧ w'.names = (p, w.nodes.length) :: w.names ∧
        w'.nodes = w.nodes ++ [⟨.regular, [], false, false⟩] ∧ ∀ s ly, r = .ok (s, ly) → ∃ hd d, s.handle = some hd ∧
          w'.handles.lookup hd = some d ∧ d.ino = w.nodes.length) := by
    intro ino base leaked l tr s hin hon hn1 hn2 hr
    have hlook : ∀ s' ly, r = .ok (s', ly) → s'.handle = some w.freeHandle ∧
        w'.handles.lookup w.freeHandle = some (WinOpen.entry kw ino) := by
      intro s' ly he
      obtain ⟨rfl, rfl⟩ := hr s' ly he
      refine ⟨hon.handle, ?_⟩
      rw [hon.handles, List.lookup_cons]
      simp
    cases hin with
    | old hl hx hd =>
      refine .inl ⟨by rw [hn2, hon.names], ?_, fun s' ly he => ⟨_, _, (hlook s' ly he).1, (hlook s' ly he).2, hl, ?_⟩⟩
      · rw [hn1, hon.nodes]
        split <;> simp
      · intro hm
        have h1 : kw.mustCreate = true := hfl.mustCreate.2 hm
        exact hx ⟨by simpa [h1] using hnb, h1⟩
    | new hl hx =>
      refine .inr ⟨?_, hl, by rw [hn2, hon.names]; rfl, ?_, fun s' ly he =>
        ⟨_, _, (hlook s' ly he).1, (hlook s' ly he).2, rfl⟩⟩
      · intro hm
        have h1 : kw.mustNotCreate = true := hfl.mustExist.2 hm
        rw [hx] at h1
        cases h1
      · rw [hn1, hon.nodes]
        split
        · refine List.ext_getElem? fun i => ?_
          rw [List.getElem?_modify]
          split
          · rename_i hi
            subst hi
            simp [WinOpen.Host.newFile, WinOpen.erased]
          · simp [WinOpen.Host.newFile]
        · rfl
  rcases hc with ⟨e, sched, hr, _, hw⟩ | ⟨e, leaked, l, tr, ino, base, s, hr, hin, hon, _, _, _, hw⟩ |
    ⟨ino, base, s, ly, hr, hw, hin, hm, _⟩
  · exact .inl ⟨by rw [hw], by rw [hw], fun s ly he => by rw [hr] at he; cases he⟩
  · exact main hin hon (by rw [hw]; rfl) (by rw [hw]; rfl) fun s ly he => by rw [hr] at he; cases he
  · exact main hin hm.on (by rw [hw]) (by rw [hw]) fun s' ly he => by rw [hr] at he; cases he; exact ⟨rfl, hw⟩

/-! ## C82 -/

/-- C82: a call that must create its file and succeeds has created a new, empty, regular file. -/
theorem C82_must_create {py : WinOpen.WinPython} {a : OpenArgs} {p : Bytes} (ha : ByPath a p)
    (hm : MustCreate a.modeString) {w w' : WinOpen.Host} {s : WinOpen.Raw} {ly : WinOpen.Layers}
    (h : WinOpen.rsopen py a w = (.ok (s, ly), w')) :
    w.names.lookup p = none ∧ ∃ hd d, s.handle = some hd ∧ w'.handles.lookup hd = some d ∧
      w'.names.lookup p = some d.ino ∧ w.nodes[d.ino]? = none ∧
      ∃ n, w'.nodes[d.ino]? = some n ∧ n.kind = .regular ∧ n.data = [] := by
  rcases winNames_course ha h with ⟨_, _, h⟩ | ⟨_, hl, hn, hnodes, hs⟩
  · obtain ⟨_, _, _, _, _, h⟩ := h s ly rfl
    exact absurd hm h
  · obtain ⟨hd, d, h1, h2, h3⟩ := hs s ly rfl
    exact ⟨hl, hd, d, h1, h2, by rw [hn, h3]; simp, by rw [h3]; simp, _, by rw [hnodes, h3]; simp; rfl, rfl, rfl⟩

/-- C82: a call that must not create its file and succeeds has opened the file that the path names. -/
theorem C82_must_exist {py : WinOpen.WinPython} {a : OpenArgs} {p : Bytes} (ha : ByPath a p)
    (hm : MustExist a.modeString) {w w' : WinOpen.Host} {s : WinOpen.Raw} {ly : WinOpen.Layers}
    (h : WinOpen.rsopen py a w = (.ok (s, ly), w')) :
    w'.names = w.names ∧ w'.nodes.length = w.nodes.length ∧ ∃ hd d, s.handle = some hd ∧
      w'.handles.lookup hd = some d ∧ w.names.lookup p = some d.ino := by
  rcases winNames_course ha h with ⟨h1, h2, h⟩ | ⟨hme, _⟩
  · obtain ⟨hd, d, h3, h4, h5, _⟩ := h s ly rfl
    exact ⟨h1, h2, hd, d, h3, h4, h5⟩
  · exact absurd hm hme

/-- C82: whatever the outcome, at most the path of the call comes into existence, and nothing disappears. -/
theorem C82_frame {py : WinOpen.WinPython} {a : OpenArgs} {p : Bytes} (ha : ByPath a p) {w w' : WinOpen.Host}
    {r : Except Exn (WinOpen.Raw × WinOpen.Layers)} (h : WinOpen.rsopen py a w = (r, w')) (q : Bytes) :
    w'.names.lookup q = w.names.lookup q ∨ (q = p ∧ w.names.lookup p = none ∧ ¬ MustExist a.modeString) := by
  rcases winNames_course ha h with ⟨h1, _⟩ | ⟨hme, hl, hn, _⟩
  · exact .inl (by rw [h1])
  · by_cases hq : q = p
    · exact .inr ⟨hq, hl, hme⟩
    · left
      rw [hn, List.lookup_cons]
      have : (q == p) = false := by simpa using hq
      rw [this]

/-- C82: if the existence of the path is not as required, or the path is a directory, the call fails and nothing
changes. -/
theorem C82_refusal (py : WinOpen.WinPython) {a : OpenArgs} {p : Bytes} (ha : ByPath a p) {w : WinOpen.Host}
    (hx : (MustCreate a.modeString ∧ (w.names.lookup p).isSome) ∨ (MustExist a.modeString ∧ w.names.lookup p = none) ∨
      ∃ ino n, w.names.lookup p = some ino ∧ w.nodes[ino]? = some n ∧ n.kind = .directory) :
    ∃ e sched, WinOpen.rsopen py a w = (.error e, { w with sched := sched }) ∧
      (some e ∈ w.sched ∨ e ∈ [.badValueType, .ioError 2, .ioError 13, .ioError 17]) := by
  cases h : WinOpen.rsopen py a w with
  | mk r w' =>
    have refused : ∀ {kw : RawKw} {ext : ExtKw} {ino : Nat} {base : WinOpen.Host},
        Fields (.path p) a.modeString none none a.closefd (kw, ext) → RawObj.check kw = .ok () →
        ¬ WinOpen.Enters p kw w ino base := by
      intro kw ext ino base hfl hck hin
      have hnb : ¬ (kw.mustCreate = true ∧ kw.mustNotCreate = true) := (RawObj.check_ok hck).2.2.2.1
      cases hin with
      | old hl hn hd =>
        rcases hx with ⟨hm, _⟩ | ⟨_, hn⟩ | ⟨i, n, h1, h2, h3⟩
        · have h1 : kw.mustCreate = true := hfl.mustCreate.2 hm
          exact hn ⟨by simpa [h1] using hnb, h1⟩
        · rw [hn] at hl; cases hl
        · rw [h1] at hl
          cases hl
          rw [h2] at hd
          exact hd (by simp [h3])
      | new hl hn =>
        rcases hx with ⟨_, hs⟩ | ⟨hm, _⟩ | ⟨i, n, h1, _⟩
        · rw [hl] at hs; cases hs
        · have h1 : kw.mustNotCreate = true := hfl.mustExist.2 hm
          rw [h1] at hn; cases hn
        · rw [hl] at h1; cases h1
    rcases winOpen_course ha h with ⟨e, rfl, ⟨rfl, _⟩, rfl⟩ | ⟨kw, ext, _, hfl, hck, _, hc⟩
    · exact ⟨_, w'.sched, rfl, .inr (by simp)⟩
    rcases hc with ⟨e, sched, rfl, hr, rfl⟩ | ⟨e, leaked, l, tr, ino, base, s, _, hin, _⟩ | ⟨ino, base, s, ly, _, _, hin, _⟩
    · refine ⟨_, sched, rfl, ?_⟩
      cases hr with
      | outside hm =>
        split
        · exact .inr (by simp)
        · exact .inl hm
      | exists_ => exact .inr (by simp)
      | directory => exact .inr (by simp)
      | missing => exact .inr (by simp)
    · exact absurd hin (refused hfl hck)
    · exact absurd hin (refused hfl hck)

/-- C82: the handle of the stream is a new one, and has the rights and attributes that the mode asks for. -/
theorem C82_handle {py : WinOpen.WinPython} {a : OpenArgs} {p : Bytes} (ha : ByPath a p)
    {w w' : WinOpen.Host} {s : WinOpen.Raw} {ly : WinOpen.Layers}
    (h : WinOpen.rsopen py a w = (.ok (s, ly), w')) : ∃ hd d, s.handle = some hd ∧ w.handles.lookup hd = none ∧
      w'.handles = (hd, d) :: w.handles ∧ (d.read = true ↔ Reads a.modeString) ∧ (d.write = true ↔ Writes a.modeString) ∧
      (d.inheritable = true ↔ 'I' ∈ a.modeString) ∧ (d.writeThrough = true ↔ 'S' ∈ a.modeString) := by
  rcases winOpen_course ha h with ⟨e, he, _⟩ | ⟨kw, ext, _, hfl, hck, _, hc⟩
  · cases he
  rcases hc with ⟨e, sched, he, _⟩ | ⟨e, leaked, l, tr, ino, base, s, he, _⟩ | ⟨ino, base, s, ly, he, rfl, hin, hm, _⟩
  · cases he
  · cases he
  · cases he
    exact ⟨_, _, hm.on.handle, WinOpen.freeHandle_free w, hm.on.handles, hfl.reads, hfl.writes, hfl.inheritable,
      hfl.synchronized⟩

/-! ### A machine to open files on -/

/-- A regular file `f` with three bytes, a directory `d`, the console, which is open as 0, 1 and 2, and a pipe `p` that
does not block. -/
def winMachine : WinOpen.Host :=
  { nodes := [⟨.regular, [1, 2, 3], false, false⟩, ⟨.directory, [], false, false⟩, ⟨.special, [], true, false⟩,
              ⟨.special, [], false, true⟩]
    names := [([102], 0), ([100], 1), ([112], 3)]
    handles := [(4, ⟨2, true, true, false, true⟩), (8, ⟨2, true, true, false, true⟩), (12, ⟨2, true, true, false, true⟩)]
    cfds := [(0, 4), (1, 8), (2, 12)]
    held := []
    sched := []
    log := [] }

/-- Python 3.12 or later. -/
def winPython : WinOpen.WinPython := ⟨⟨asciiCase, false, false⟩, true⟩

/-- Python 3.11 or earlier. -/
def oldWinPython : WinOpen.WinPython := ⟨⟨asciiCase, false, false⟩, false⟩

-- C82: a new file; a refusal; a directory; the attributes
example : ByPath (call [103] "WCSI") [103] ∧ MustCreate (call [103] "WCSI").modeString :=
  ⟨⟨rfl, rfl, rfl, rfl⟩, by simp only [MustCreate]; decide⟩
example : (WinOpen.rsopen winPython (call [103] "WCSI") winMachine).1.toBool = true ∧
    (WinOpen.rsopen winPython (call [103] "WCSI") winMachine).2.handles.lookup 16 = some ⟨4, false, true, true, true⟩ ∧
    (WinOpen.rsopen winPython (call [103] "WCSI") winMachine).2.names.lookup [103] = some 4 := by decide +kernel
example : (WinOpen.rsopen winPython (call [102] "WC") winMachine).1 = .error (.ioError 17) ∧
    (WinOpen.rsopen winPython (call [103] "r") winMachine).1 = .error (.ioError 2) ∧
    (WinOpen.rsopen winPython (call [100] "r") winMachine) = (.error (.ioError 13), winMachine) := by decide +kernel
example : MustExist (call [102] "r+").modeString ∧
    (WinOpen.rsopen winPython (call [102] "r+") winMachine).1.toBool = true :=
  ⟨.inl (by decide), by decide +kernel⟩

/-! ## C83 -/

theorem winEnters_log {p : Bytes} {kw : RawKw} {w base : WinOpen.Host} {ino : Nat} (h : WinOpen.Enters p kw w ino base) :
    ∃ evs, base.log = w.log ++ evs ∧ ∀ ev ∈ evs, ∃ q i, ev = .created q i := by
  cases h with
  | old => exact ⟨[], by simp, by simp⟩
  | new => exact ⟨_, rfl, fun ev h => ⟨_, _, by simpa using h⟩⟩

theorem winEnters_nodes {p : Bytes} {kw : RawKw} {w base : WinOpen.Host} {ino : Nat} (h : WinOpen.Enters p kw w ino base)
    {i : Nat} {n : WinOpen.Node} (hi : w.nodes[i]? = some n) : base.nodes[i]? = some n ∧ (i = ino → w.names.lookup p = some i) := by
  cases h with
  | old hl _ _ => exact ⟨hi, fun h => by rw [h]; exact hl⟩
  | new hl _ =>
    have : i < w.nodes.length := by
      rw [List.getElem?_eq_some_iff] at hi
      exact hi.1
    refine ⟨?_, fun h => by omega⟩
    simp only [WinOpen.Host.newFile]
    rw [List.getElem?_append_left this]
    exact hi

/-- C83: with `locking`, the file is truncated only while the new stream holds its lock; without the lock every file
keeps its content. -/
theorem C83_order {py : WinOpen.WinPython} {a : OpenArgs} {p : Bytes} (ha : ByPath a p) (hlk : a.locking = true)
    {w w' : WinOpen.Host} {r : Except Exn (WinOpen.Raw × WinOpen.Layers)} (h : WinOpen.rsopen py a w = (r, w')) :
    ∃ evs, w'.log = w.log ++ evs ∧
      (∀ pre hd post, evs = pre ++ .truncated hd :: post → .locked hd ∈ pre ∧ .closed hd ∉ pre) ∧
      ((∃ hd, .locked hd ∈ evs) ∨ ∀ (i : Nat) (n : WinOpen.Node), w.nodes[i]? = some n → w'.nodes[i]? = some n) := by
  have main : ∀ {kw : RawKw} {ext : ExtKw} {ino : Nat} {base : WinOpen.Host} {leaked : List Nat} {l tr : Bool}
      {s : WinOpen.St} (fin : List WinOpen.Ev), WinOpen.Enters p kw w ino base →
      WinOpen.On w kw ino base leaked l tr s → WinOpen.Fair a ext.truncate l tr → w'.nodes = s.host.nodes →
      w'.log = s.host.log ++ fin → (∀ ev ∈ fin, ∃ hd, ev = .closed hd) →
      ∃ evs, w'.log = w.log ++ evs ∧
        (∀ pre hd post, evs = pre ++ .truncated hd :: post → .locked hd ∈ pre ∧ .closed hd ∉ pre) ∧
        ((∃ hd, .locked hd ∈ evs) ∨ ∀ (i : Nat) (n : WinOpen.Node), w.nodes[i]? = some n → w'.nodes[i]? = some n) := by
    intro kw ext ino base leaked l tr s fin hin hon hfair hn hl hfin
    obtain ⟨evs0, he, hc⟩ := winEnters_log hin
    refine ⟨evs0 ++ ([.opened w.freeHandle ino] ++ ((if l then [.locked w.freeHandle] else []) ++
      (if tr then [.truncated w.freeHandle] else []))) ++ fin, ?_, ?_, ?_⟩
    · rw [hl, hon.log, he]
      simp
    · intro pre hd post heq
      cases tr with
      | false =>
        exfalso
        have hm : WinOpen.Ev.truncated hd ∈ evs0 ++ ([.opened w.freeHandle ino] ++
            ((if l then [.locked w.freeHandle] else []) ++ (if false then [.truncated w.freeHandle] else []))) ++ fin := by
          rw [heq]; simp
        simp only [List.mem_append] at hm
        rcases hm with (hm | hm | hm | hm) | hm
        · obtain ⟨_, _, h⟩ := hc _ hm; cases h
        · simp at hm
        · cases l <;> simp at hm
        · simp at hm
        · obtain ⟨_, h⟩ := hfin _ hm; cases h
      | true =>
        obtain rfl : l = true := hfair.order rfl hlk
        simp only [if_true] at heq
        have heq' : (evs0 ++ [.opened w.freeHandle ino, .locked w.freeHandle]) ++ .truncated w.freeHandle :: fin =
            pre ++ .truncated hd :: post := by
          rw [← heq]; simp
        have hnot : ∀ ev ∈ evs0 ++ [WinOpen.Ev.opened w.freeHandle ino, .locked w.freeHandle],
            (∀ j, ev ≠ .truncated j) ∧ ∀ j, ev ≠ .closed j := by
          intro ev hm
          simp only [List.mem_append, List.mem_cons, List.not_mem_nil, or_false] at hm
          rcases hm with hm | rfl | rfl
          · obtain ⟨_, _, rfl⟩ := hc _ hm; exact ⟨nofun, nofun⟩
          · exact ⟨nofun, nofun⟩
          · exact ⟨nofun, nofun⟩
        have hfinal : pre = evs0 ++ [.opened w.freeHandle ino, .locked w.freeHandle] ∧ hd = w.freeHandle := by
          rw [List.append_eq_append_iff] at heq'
          rcases heq' with ⟨c, hc1, hc2⟩ | ⟨c, hc1, hc2⟩
          · cases c with
            | nil =>
              simp only [List.nil_append, List.cons.injEq, WinOpen.Ev.truncated.injEq] at hc2
              exact ⟨by rw [hc1]; simp, hc2.1.symm⟩
            | cons x c =>
              simp only [List.cons_append, List.cons.injEq] at hc2
              obtain ⟨_, h⟩ := hfin (.truncated hd) (by rw [hc2.2]; simp)
              cases h
          · cases c with
            | nil =>
              simp only [List.nil_append, List.cons.injEq, WinOpen.Ev.truncated.injEq] at hc2
              exact ⟨by rw [hc1]; simp, hc2.1⟩
            | cons x c =>
              simp only [List.cons_append, List.cons.injEq] at hc2
              exact absurd hc2.1.symm ((hnot x (by rw [hc1]; simp)).1 hd)
        rw [hfinal.1, hfinal.2]
        exact ⟨by simp, fun h => (hnot _ h).2 _ rfl⟩
    · cases l with
      | true => exact .inl ⟨w.freeHandle, by simp⟩
      | false =>
        right
        obtain rfl : tr = false := by
          cases tr with
          | false => rfl
          | true => cases hfair.order rfl hlk
        intro i n hi
        rw [hn, hon.nodes]
        exact (winEnters_nodes hin hi).1
  have same : ∀ {sched : List (Option Exn)}, w' = { w with sched := sched } → ∃ evs, w'.log = w.log ++ evs ∧
      (∀ pre hd post, evs = pre ++ .truncated hd :: post → .locked hd ∈ pre ∧ .closed hd ∉ pre) ∧
      ((∃ hd, .locked hd ∈ evs) ∨ ∀ (i : Nat) (n : WinOpen.Node), w.nodes[i]? = some n → w'.nodes[i]? = some n) := by
    intro sched hw
    refine ⟨[], by rw [hw]; simp, fun pre hd post h => by simp at h, .inr fun i n hi => by rw [hw]; exact hi⟩
  rcases winOpen_course ha h with ⟨e, _, _, hw⟩ | ⟨kw, ext, _, hfl, hck, hcl, hc⟩
  · exact same (sched := w.sched) hw
  rcases hc with ⟨e, sched, _, _, hw⟩ | ⟨e, leaked, l, tr, ino, base, s, hr, hin, hon, _, hfair, _, hw⟩ |
    ⟨ino, base, s, ly, hr, hw, hin, hm, _⟩
  · exact same hw
  · exact main (ext := ext) [.closed w.freeHandle] hin hon hfair (by rw [hw]; rfl) (by rw [hw]; rfl)
      fun ev h => ⟨_, by simpa using h⟩
  · exact main (ext := ext) [] hin hm.on (WinOpen.fair_done py a kw ext.truncate base ino) (by rw [hw])
      (by rw [hw]; simp) (by simp)

/-- C83: with `locking`, a call that returns a stream of a regular file has got the lock, and still has it. -/
theorem C83_locked {py : WinOpen.WinPython} {a : OpenArgs} {p : Bytes} (ha : ByPath a p) (hlk : a.locking = true)
    {w w' : WinOpen.Host} {s : WinOpen.Raw} {ly : WinOpen.Layers} (h : WinOpen.rsopen py a w = (.ok (s, ly), w'))
    {hd : Nat} {n : WinOpen.Node} (hh : s.handle = some hd) (hn : w'.nodeOf hd = some n) (hk : n.kind = .regular) :
    hd ∈ w'.held := by
  rcases winOpen_course ha h with ⟨e, he, _⟩ | ⟨kw, ext, _, hfl, hck, _, hc⟩
  · cases he
  rcases hc with ⟨e, sched, he, _⟩ | ⟨e, leaked, l, tr, ino, base, s, he, _⟩ | ⟨ino, base, s, ly, he, rfl, hin, hm, _⟩
  · cases he
  · cases he
  · cases he
    have h1 := hm.on.handle
    rw [hh] at h1
    cases h1
    have hsk : WinOpen.seekOf py kw base ino = true := by
      unfold WinOpen.Host.nodeOf at hn
      rw [hm.on.handles, List.lookup_cons] at hn
      simp only [beq_self_eq_true] at hn
      rw [hm.on.nodes] at hn
      unfold WinOpen.seekOf
      rw [Bool.or_eq_true]
      right
      rw [decide_eq_true_iff]
      split at hn
      · change (base.nodes.modify ino WinOpen.erased)[ino]? = _ at hn
        rw [List.getElem?_modify_eq] at hn
        cases hb : base.nodes[ino]? with
        | none => rw [hb] at hn; cases hn
        | some m =>
          rw [hb] at hn
          cases hn
          simpa [WinOpen.erased] using hk
      · rw [WinOpen.entry] at hn
        simp only at hn
        rw [hn]
        simpa using hk
    have := hm.on.held
    rw [hsk, hlk] at this
    rw [this]
    simp

/-- C83: a call changes the content of a file only if the mode asks for it, and only for the file of the path, which is
then empty. -/
theorem C83_content {py : WinOpen.WinPython} {a : OpenArgs} {p : Bytes} (ha : ByPath a p)
    {w w' : WinOpen.Host} {r : Except Exn (WinOpen.Raw × WinOpen.Layers)} (h : WinOpen.rsopen py a w = (r, w'))
    {i : Nat} {n : WinOpen.Node} (hi : w.nodes[i]? = some n) :
    w'.nodes[i]? = some n ∨
      (Erases a.modeString ∧ w.names.lookup p = some i ∧ w'.nodes[i]? = some { n with data := [] }) := by
  have main : ∀ {kw : RawKw} {ext : ExtKw} {ino : Nat} {base : WinOpen.Host} {leaked : List Nat} {l tr : Bool}
      {s : WinOpen.St}, (ext.truncate = true → Erases a.modeString) → WinOpen.Enters p kw w ino base →
      WinOpen.On w kw ino base leaked l tr s → WinOpen.Fair a ext.truncate l tr → w'.nodes = s.host.nodes →
      w'.nodes[i]? = some n ∨
        (Erases a.modeString ∧ w.names.lookup p = some i ∧ w'.nodes[i]? = some { n with data := [] }) := by
    intro kw ext ino base leaked l tr s her hin hon hfair hn
    obtain ⟨h1, h2⟩ := winEnters_nodes hin hi
    rw [hn, hon.nodes]
    split
    · rename_i htr
      by_cases he : i = ino
      · right
        refine ⟨her (hfair.erases htr), h2 he, ?_⟩
        rw [he, List.getElem?_modify_eq, ← he, h1]
        rfl
      · left
        rw [List.getElem?_modify, h1]
        simp [Ne.symm he]
    · exact .inl h1
  rcases winOpen_course ha h with ⟨e, _, _, hw⟩ | ⟨kw, ext, _, hfl, hck, hcl, hc⟩
  · exact .inl (by rw [hw]; exact hi)
  rcases hc with ⟨e, sched, _, _, hw⟩ | ⟨e, leaked, l, tr, ino, base, s, hr, hin, hon, _, hfair, _, hw⟩ |
    ⟨ino, base, s, ly, hr, hw, hin, hm, _⟩
  · exact .inl (by rw [hw]; exact hi)
  · exact main (ext := ext) hfl.erases.1 hin hon hfair (by rw [hw]; rfl)
  · exact main (ext := ext) hfl.erases.1 hin hm.on (WinOpen.fair_done py a kw ext.truncate base ino) (by rw [hw])

-- the file is erased, and locked; the lock is refused: the file keeps its content
example : (call [102] "w").locking = true ∧ (WinOpen.rsopen winPython (call [102] "w") winMachine).1.toBool = true ∧
    (WinOpen.rsopen winPython (call [102] "w") winMachine).2.log = [.opened 16 0, .locked 16, .truncated 16] ∧
    (WinOpen.rsopen winPython (call [102] "w") winMachine).2.nodes[0]? = some ⟨.regular, [], false, false⟩ ∧
    (WinOpen.rsopen winPython (call [102] "w") winMachine).2.held = [16] := by decide +kernel
example : (WinOpen.rsopen winPython (call [102] "w")
      { winMachine with sched := [none, none, some (.lockingException 11)] }).1 = .error (.lockingException 11) ∧
    (WinOpen.rsopen winPython (call [102] "w")
      { winMachine with sched := [none, none, some (.lockingException 11)] }).2.nodes = winMachine.nodes := by
  decide +kernel

/-! ## C84 -/

/-- C84: a call for a path that fails leaves no handle and no lock. -/
theorem C84_failed {py : WinOpen.WinPython} {a : OpenArgs} {p : Bytes} (ha : ByPath a p) {w w' : WinOpen.Host} {e : Exn}
    (hw : ∀ h ∈ w.held, (w.handles.lookup h).isSome) (h : WinOpen.rsopen py a w = (.error e, w')) :
    w'.handles = w.handles ∧ w'.held = w.held := by
  rcases winOpen_course ha h with ⟨e, _, _, rfl⟩ | ⟨kw, ext, _, hfl, hck, hcl, hc⟩
  · exact ⟨rfl, rfl⟩
  rcases hc with ⟨e, sched, _, _, rfl⟩ | ⟨e, leaked, l, tr, ino, base, s, hr, hin, hon, _, hfair, _, rfl⟩ |
    ⟨ino, base, s, ly, hr, _⟩
  · exact ⟨rfl, rfl⟩
  · exact ⟨rfl, hon.close_held hw⟩
  · cases hr

/-- C84: closing the stream that a call for a path returned succeeds, and leaves no handle and no lock. -/
theorem C84_closed {py : WinOpen.WinPython} {a : OpenArgs} {p : Bytes} (ha : ByPath a p) {w w' : WinOpen.Host}
    {s : WinOpen.Raw} {ly : WinOpen.Layers} (hw : ∀ h ∈ w.held, (w.handles.lookup h).isSome)
    (h : WinOpen.rsopen py a w = (.ok (s, ly), w')) :
    ∃ w'', WinOpen.closeRaw s w' = (.ok (), w'') ∧ w''.handles = w.handles ∧ w''.held = w.held ∧
      w''.nodes = w'.nodes ∧ w''.names = w'.names := by
  rcases winOpen_course ha h with ⟨e, he, _⟩ | ⟨kw, ext, _, hfl, hck, hcl, hc⟩
  · cases he
  rcases hc with ⟨e, sched, he, _⟩ | ⟨e, leaked, l, tr, ino, base, s, he, _⟩ | ⟨ino, base, s, ly, he, rfl, hin, hm, _⟩
  · cases he
  · cases he
  · cases he
    exact ⟨_, hm.on.close hcl, rfl, hm.on.close_held hw, rfl, rfl⟩

example : ∀ h ∈ winMachine.held, (winMachine.handles.lookup h).isSome := by decide
example : (WinOpen.rsopen winPython (call [102] "w")
      { winMachine with sched := [none, none, none, some (.ioError 5)] }).1 = .error (.ioError 5) ∧
    (WinOpen.rsopen winPython (call [102] "w")
      { winMachine with sched := [none, none, none, some (.ioError 5)] }).2.log =
      [.opened 16 0, .locked 16, .closed 16] := by decide +kernel

/-! ## C85 -/

/-- The claim of C85: opening a path and closing the stream, or failing, leaves the descriptors of the C library as they
were. -/
def KeepsDescriptors : Prop :=
  ∀ (py : WinOpen.WinPython) (a : OpenArgs) (p : Bytes) (w w' : WinOpen.Host), ByPath a p →
    (∀ e, WinOpen.rsopen py a w = (.error e, w') → w'.cfds = w.cfds) ∧
    ∀ s ly, WinOpen.rsopen py a w = (.ok (s, ly), w') → (WinOpen.closeRaw s w').2.cfds = w.cfds

/-- C85 is false: since python 3.12, each stream that is open for writing loses a descriptor of the C library. -/
theorem C85_refuted : ¬ KeepsDescriptors := by
  intro h
  have hr : WinOpen.rsopen winPython (call [102] "w") winMachine =
      (.ok (⟨some 16, some 4, true, true, false, true, false, true⟩, ⟨some (.writer, 8192), some false, some .threading⟩),
        { winMachine with
          nodes := winMachine.nodes.modify 0 WinOpen.erased
          handles := (16, ⟨0, false, true, false, false⟩) :: winMachine.handles
          cfds := [(4, 16), (3, 16), (0, 4), (1, 8), (2, 12)]
          held := [16]
          log := [.opened 16 0, .locked 16, .truncated 16] }) := by decide +kernel
  have := (h winPython (call [102] "w") [102] winMachine _ ⟨rfl, rfl, rfl, rfl⟩).2 _ _ hr
  exact absurd this (by decide +kernel)

/-- C85: exactly one descriptor is lost if the stream is open for writing and python is 3.12 or later, unless the file is
a pipe that does not block; else none is lost. -/
theorem C85_lost {py : WinOpen.WinPython} {a : OpenArgs} {p : Bytes} (ha : ByPath a p) {w w' : WinOpen.Host}
    {s : WinOpen.Raw} {ly : WinOpen.Layers} (h : WinOpen.rsopen py a w = (.ok (s, ly), w')) {hd : Nat}
    (hh : s.handle = some hd) :
    (Writes a.modeString ∧ py.blockingModes = true ∧ ¬ (w'.nodeOf hd).any WinOpen.Node.nonblocking = true →
      (WinOpen.closeRaw s w').2.cfds = (w.freeC, hd) :: w.cfds) ∧
    (¬ (Writes a.modeString ∧ py.blockingModes = true ∧ ¬ (w'.nodeOf hd).any WinOpen.Node.nonblocking = true) →
      (WinOpen.closeRaw s w').2.cfds = w.cfds) := by
  rcases winOpen_course ha h with ⟨e, he, _⟩ | ⟨kw, ext, _, hfl, hck, hcl, hc⟩
  · cases he
  rcases hc with ⟨e, sched, he, _⟩ | ⟨e, leaked, l, tr, ino, base, s, he, _⟩ | ⟨ino, base, s, ly, he, rfl, hin, hm, _⟩
  · cases he
  · cases he
  · cases he
    have h1 := hm.on.handle
    rw [hh] at h1
    cases h1
    have hnb : (s.host.nodeOf w.freeHandle).any WinOpen.Node.nonblocking = WinOpen.noWait base ino := by
      unfold WinOpen.Host.nodeOf
      rw [hm.on.handles, List.lookup_cons]
      simp only [beq_self_eq_true]
      rw [hm.on.nodes]
      unfold WinOpen.noWait
      split
      · change ((base.nodes.modify ino WinOpen.erased)[ino]?).any _ = _
        rw [List.getElem?_modify_eq]
        cases base.nodes[ino]? <;> rfl
      · rfl
    rw [hm.on.close hcl, hnb]
    change (_ → ((WinOpen.afterProbe py kw w base ino).1.map (·, w.freeHandle)) ++ w.cfds = _) ∧
      (_ → ((WinOpen.afterProbe py kw w base ino).1.map (·, w.freeHandle)) ++ w.cfds = _)
    unfold WinOpen.afterProbe WinOpen.probes
    have hwr : (kw.write || kw.append) = true ↔ Writes a.modeString := hfl.writes
    rw [← hwr]
    cases (kw.write || kw.append) <;> cases py.blockingModes <;> cases WinOpen.noWait base ino <;> simp [WinOpen.nextC_nil]

/-- C85: no descriptor is lost if the stream is not open for writing, or python is older than 3.12.
Missing: the other streams (`C85_refuted`, `C85_lost`). -/
theorem C85_partial {py : WinOpen.WinPython} {a : OpenArgs} {p : Bytes} (ha : ByPath a p) {w w' : WinOpen.Host}
    {r : Except Exn (WinOpen.Raw × WinOpen.Layers)} (hn : ¬ Writes a.modeString ∨ py.blockingModes = false)
    (h : WinOpen.rsopen py a w = (r, w')) :
    match r with
    | .ok (s, _) => (WinOpen.closeRaw s w').2.cfds = w.cfds
    | .error _ => w'.cfds = w.cfds := by
  cases r with
  | ok x =>
    obtain ⟨s, ly⟩ := x
    obtain ⟨hd, d, hh, _⟩ := C82_handle ha h
    refine (C85_lost ha h hh).2 ?_
    rintro ⟨h1, h2, _⟩
    rcases hn with hn | hn
    · exact hn h1
    · rw [hn] at h2; cases h2
  | error e =>
    rcases winOpen_course ha h with ⟨e, _, _, rfl⟩ | ⟨kw, ext, _, hfl, hck, hcl, hc⟩
    · rfl
    rcases hc with ⟨e, sched, _, _, rfl⟩ | ⟨e, leaked, l, tr, ino, base, s, hr, hin, hon, hlk, hfair, _, rfl⟩ |
      ⟨ino, base, s, ly, hr, _⟩
    · rfl
    · change leaked.map (·, w.freeHandle) ++ w.cfds = w.cfds
      rcases hlk with rfl | ⟨hp, _⟩
      · rfl
      · exfalso
        unfold WinOpen.probes at hp
        rw [Bool.and_eq_true] at hp
        rcases hn with hn | hn
        · exact hn (hfl.writes.1 hp.1)
        · rw [hn] at hp; cases hp.2
    · cases hr

example : ¬ Writes (call [102] "r").modeString := by simp only [Writes, Advanced]; decide
example : (WinOpen.rsopen winPython (call [102] "r") winMachine).1.toBool = true ∧
    (WinOpen.rsopen winPython (call [102] "r") winMachine).2.cfds = [(3, 16), (0, 4), (1, 8), (2, 12)] ∧
    (WinOpen.rsopen oldWinPython (call [102] "w") winMachine).2.cfds = [(3, 16), (0, 4), (1, 8), (2, 12)] := by
  decide +kernel

end Verif.Props
