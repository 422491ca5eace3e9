import Verif.Lemmas.WinWrap
import Verif.Props.WinOpen

/-!
# Wrapping handles and descriptors on windows: C87 to C89
-/

set_option autoImplicit false

namespace Verif.Props

open Verif

/-- The call wraps the handle `hd`, given by the number `z`: itself, or a descriptor of the C library for it. -/
inductive WinWraps (a : OpenArgs) (w : WinOpen.Host) (hd : Nat) : Int → Prop where
  | handle (ho : a.opener = none) (hn : a.name = .none) (hf : a.fileno = none) (hh : a.handle = some (hd : Int)) :
      WinWraps a w hd hd
  | fileno (f : Nat) (ho : a.opener = none) (hh : a.handle = none)
      (hf : (a.name = .int f ∧ a.fileno = none) ∨ (a.name = .none ∧ a.fileno = some (f : Int)))
      (hl : w.cfds.lookup f = some hd) (hlt : f < 8192) : WinWraps a w hd f

/-- What can happen in such a call. -/
theorem winWrap_course {py : WinOpen.WinPython} {a : OpenArgs} {w w' : WinOpen.Host} {hd : Nat} {z : Int}
    (ha : WinWraps a w hd z) {r : Except Exn (WinOpen.Raw × WinOpen.Layers)} (h : WinOpen.rsopen py a w = (r, w')) :
    (∃ e, r = .error e ∧ w' = w) ∨
    ∃ kw ext t, Fields a.name a.modeString a.fileno a.handle a.closefd (kw, ext) ∧ WinOpen.Named kw w hd ∧
      (kw.handle ≠ none → kw.fileno = none) ∧ kw.fileno = (if a.handle = none then some z else none) ∧
      kw.closefd = a.closefd ∧ (t = true → Erases a.modeString ∧ z = 0) ∧
      ((∃ e s, r = .error e ∧ WinOpen.WrapFailed w kw hd t s ∧ w' = (WinOpen.closeRaw s.raw s.host).2) ∨
       ∃ s ly, r = .ok (s.raw, ly) ∧ w' = s.host ∧
         WinOpen.WrapOn w kw hd t (WinOpen.wrapAll py a kw w hd).1 (WinOpen.wrapAll py a kw w hd).2 s) := by
  unfold WinOpen.rsopen at h
  cases hp : OpenArgs.parse py.py a with
  | error e => rw [hp] at h; cases h; exact .inl ⟨e, rfl, rfl⟩
  | ok r0 =>
    obtain ⟨kw, ext⟩ := r0
    rw [hp] at h
    simp only at h
    have hfl := parseMode_fields (OpenArgs.parse_ok hp).1 (OpenArgs.parse_ok hp).2.1 (OpenArgs.parse_ok hp).2.2.2.2
    cases hx : OpenArgs.checkExt a kw ext with
    | error e => rw [hx] at h; cases h; exact .inl ⟨e, rfl, rfl⟩
    | ok t =>
      rw [hx] at h
      simp only at h
      cases hck : RawObj.check kw with
      | error e => rw [hck] at h; cases h; exact .inl ⟨e, rfl, rfl⟩
      | ok u =>
        rw [hck] at h
        simp only at h
        have hnamed : WinOpen.Named kw w hd ∧ (kw.handle ≠ none → kw.fileno = none) ∧
            kw.fileno = (if a.handle = none then some z else none) ∧
            (z ≠ 0 → (kw.fileno.any (· ≠ 0) || kw.handle.any (· ≠ 0)) = true) := by
          cases ha with
          | handle ho hn hf hh =>
            have h1 : kw.handle = some (hd : Int) := hfl.handle.trans hh
            have h2 : kw.fileno = none := (hfl.none hn).2.trans hf
            refine ⟨.handle h1, fun _ => h2, by rw [h2, hh]; simp, fun hz => ?_⟩
            rw [h1, h2]
            simpa using hz
          | fileno f ho hh hf hl hlt =>
            have h1 : kw.handle = none := hfl.handle.trans hh
            have h2 : kw.fileno = some (f : Int) := by
              rcases hf with ⟨hn, hf⟩ | ⟨hn, hf⟩
              · rcases hfl.int f hn with ⟨_, h, _⟩ | h
                · exact h
                · exfalso
                  have := (RawObj.check_ok hck).1
                  rw [show kw.path = _ from h] at this
                  simp [NameArg.isString] at this
              · exact (hfl.none hn).2.trans hf
            refine ⟨.fileno f h1 h2 hl hlt, fun h => absurd h1 h, by rw [h2, hh, if_pos rfl], fun hz => ?_⟩
            rw [h1, h2]
            simpa using hz
        obtain ⟨hnm, hxf, hfz, hz⟩ := hnamed
        have ht : t = true → Erases a.modeString ∧ z = 0 := by
          intro ht
          rw [(OpenArgs.checkExt_ok hx).2.2, Bool.and_eq_true, Bool.not_eq_true'] at ht
          refine ⟨hfl.erases.1 ht.1, ?_⟩
          by_cases h0 : z = 0
          · exact h0
          · rw [hz h0] at ht
            cases ht.2
        refine .inr ⟨kw, ext, t, hfl, hnm, hxf, hfz, hfl.closefd, ht, ?_⟩
        have hcon := WinOpen.wrap_construct py t hnm hxf ⟨w, WinOpen.blank kw⟩ rfl
        generalize WinOpen.construct py kw ⟨w, WinOpen.blank kw⟩ = c at *
        obtain ⟨c, s⟩ := c
        cases c with
        | error e =>
          cases h
          exact .inl ⟨e, s, rfl, hcon.2 e s rfl, rfl⟩
        | ok u =>
          have hb := WinOpen.wrap_build py a ext t s (hcon.1 u s rfl)
          simp only at h
          generalize WinOpen.build py a kw ext t s = b at *
          obtain ⟨b, s1⟩ := b
          cases b with
          | ok ly =>
            cases h
            exact .inr ⟨s1, ly, rfl, rfl, hb.1 ly s1 rfl⟩
          | error e =>
            have h1 := hb.2 e s1 rfl
            simp only at h
            cases hc : WinOpen.closeRaw s1.raw s1.host with
            | mk c v =>
              rw [hc] at h
              cases c with
              | ok u => cases h; exact .inl ⟨e, s1, rfl, h1, by rw [hc]⟩
              | error e' => cases h; exact .inl ⟨e', s1, rfl, h1, by rw [hc]⟩

/-! ## C87 -/

/-- C87: a stream made with `closefd=False` leaves the handle open: no handle is opened or closed by the call, whatever its
outcome, or by closing the stream, which succeeds. -/
theorem C87_borrowed {py : WinOpen.WinPython} {a : OpenArgs} {w w' : WinOpen.Host} {hd : Nat} {z : Int}
    (ha : WinWraps a w hd z) (hc : a.closefd = false) {r : Except Exn (WinOpen.Raw × WinOpen.Layers)}
    (h : WinOpen.rsopen py a w = (r, w')) :
    w'.handles = w.handles ∧ ∀ s ly, r = .ok (s, ly) → s.handle = some hd ∧
      ∃ w'', WinOpen.closeRaw s w' = (.ok (), w'') ∧ w''.handles = w.handles := by
  rcases winWrap_course ha h with ⟨e, rfl, rfl⟩ | ⟨kw, ext, t, hfl, hn, hx, _, hcl, ht, ⟨e, s, rfl, ⟨E, O, l, b, tr, hw, hb, _⟩, rfl⟩ |
    ⟨s, ly, rfl, rfl, l, tr, hw, _⟩⟩
  · exact ⟨rfl, by simp⟩
  · have hb : b = false := by
      cases b with
      | false => rfl
      | true => rw [hcl, hc] at hb; exact absurd (hb rfl) (by simp)
    exact ⟨((hw.close hn hx).kept hb).2.1, by simp⟩
  · refine ⟨hw.handles, fun s' ly' h => ?_⟩
    cases h
    have h1 := (hw.close hn hx).kept (hcl.trans hc)
    exact ⟨hw.handle, _, Prod.ext h1.1 rfl, h1.2.1⟩

/-- C87: a stream made with `closefd=True` closes the handle, and no other; the call itself opens and closes none. -/
theorem C87_owned {py : WinOpen.WinPython} {a : OpenArgs} {w w' : WinOpen.Host} {hd : Nat} {z : Int}
    (ha : WinWraps a w hd z) (hc : a.closefd = true) (hopen : (w.handles.lookup hd).isSome) {s : WinOpen.Raw}
    {ly : WinOpen.Layers} (h : WinOpen.rsopen py a w = (.ok (s, ly), w')) :
    s.handle = some hd ∧ w'.handles = w.handles ∧
      ∃ w'', WinOpen.closeRaw s w' = (.ok (), w'') ∧ w''.handles = w.handles.filter fun e => e.1 ≠ hd := by
  rcases winWrap_course ha h with ⟨e, he, _⟩ | ⟨kw, ext, t, hfl, hn, hx, _, hcl, ht, ⟨e, s, he, _⟩ |
    ⟨s, ly, he, rfl, l, tr, hw, _⟩⟩
  · cases he
  · cases he
  · cases he
    have h1 := hw.close hn hx
    exact ⟨hw.handle, hw.handles, _, Prod.ext (h1.done (hcl.trans hc) hopen) rfl, h1.handles (hcl.trans hc)⟩

/-- C87: a call that fails closes at most the handle, and this with `closefd=True` only. -/
theorem C87_failed {py : WinOpen.WinPython} {a : OpenArgs} {w w' : WinOpen.Host} {hd : Nat} {z : Int}
    (ha : WinWraps a w hd z) {e : Exn} (h : WinOpen.rsopen py a w = (.error e, w')) :
    w'.handles = w.handles ∨ (a.closefd = true ∧ w'.handles = w.handles.filter fun e => e.1 ≠ hd) := by
  rcases winWrap_course ha h with ⟨e, _, rfl⟩ | ⟨kw, ext, t, hfl, hn, hx, _, hcl, ht, ⟨e, s, _, ⟨E, O, l, b, tr, hw, hb, _⟩, rfl⟩ |
    ⟨s, ly, he, _⟩⟩
  · exact .inl rfl
  · cases b with
    | false => exact .inl ((hw.close hn hx).kept rfl).2.1
    | true => exact .inr ⟨hcl.symm.trans (hb rfl), (hw.close hn hx).handles rfl⟩
  · cases he

/-- C87: the locks of other streams stay, and the new stream leaves none behind, when the call fails or the stream is
closed. -/
theorem C87_locks {py : WinOpen.WinPython} {a : OpenArgs} {w w' : WinOpen.Host} {hd : Nat} {z : Int}
    (ha : WinWraps a w hd z) (hnew : hd ∉ w.held) {r : Except Exn (WinOpen.Raw × WinOpen.Layers)}
    (h : WinOpen.rsopen py a w = (r, w')) (k : Nat) :
    match r with
    | .ok (s, _) => k ∈ (WinOpen.closeRaw s w').2.held ↔ k ∈ w.held
    | .error _ => k ∈ w'.held ↔ k ∈ w.held := by
  have key : ∀ {kw : RawKw} {E : List Nat} {O : Option Nat} {l b tr : Bool} {s : WinOpen.St} {r : Except Exn Unit}
      {v : WinOpen.Host}, WinOpen.Wrap w kw hd E O l b tr s → WinOpen.Closing w kw hd E O b s r v →
      (k ∈ v.held ↔ k ∈ w.held) := by
    intro kw E O l b tr s r v hw hc
    have h1 := hc.locks hw
    by_cases hk : k = hd
    · subst hk
      exact ⟨h1.2, fun h => absurd h hnew⟩
    · exact h1.1 k hk
  rcases winWrap_course ha h with ⟨e, rfl, rfl⟩ | ⟨kw, ext, t, hfl, hn, hx, _, hcl, ht, ⟨e, s, rfl, ⟨E, O, l, b, tr, hw, hb, _⟩, rfl⟩ |
    ⟨s, ly, rfl, rfl, l, tr, hw, _⟩⟩
  · exact Iff.rfl
  · exact key hw (hw.close hn hx)
  · exact key hw (hw.close hn hx)

/-- C87: a descriptor that is not open is refused, and nothing changes. -/
theorem C87_invalid {py : WinOpen.WinPython} {a : OpenArgs} {w : WinOpen.Host} {f : Nat} (hh : a.handle = none)
    (hf : (a.name = .int f ∧ a.fileno = none) ∨ (a.name = .none ∧ a.fileno = some (f : Int)))
    (hl : w.cfds.lookup f = none) :
    ∃ e, WinOpen.rsopen py a w = (.error e, w) ∧ (e = .badValueType ∨ e = .ioError 9) := by
  have hno : a.name ≠ .other := by rcases hf with ⟨h, _⟩ | ⟨h, _⟩ <;> rw [h] <;> simp
  unfold WinOpen.rsopen
  cases hp : OpenArgs.parse py.py a with
  | error e => exact ⟨e, rfl, .inl ((OpenArgs.parse_error hp).resolve_right fun h => hno h.2)⟩
  | ok r0 =>
    obtain ⟨kw, ext⟩ := r0
    simp only
    have hfl := parseMode_fields (OpenArgs.parse_ok hp).1 (OpenArgs.parse_ok hp).2.1 (OpenArgs.parse_ok hp).2.2.2.2
    cases hx : OpenArgs.checkExt a kw ext with
    | error e => exact ⟨e, rfl, .inl (OpenArgs.checkExt_error hx)⟩
    | ok t =>
      simp only
      cases hck : RawObj.check kw with
      | error e => exact ⟨e, rfl, .inl (RawObj.check_error hck)⟩
      | ok u =>
        have h1 : kw.handle = none := hfl.handle.trans hh
        have h2 : kw.fileno = some (f : Int) := by
          rcases hf with ⟨hn, hf⟩ | ⟨hn, hf⟩
          · rcases hfl.int f hn with ⟨_, h, _⟩ | h
            · exact h
            · exfalso
              have := (RawObj.check_ok hck).1
              rw [show kw.path = _ from h] at this
              simp [NameArg.isString] at this
          · exact (hfl.none hn).2.trans hf
        have hcon : ∃ e, WinOpen.construct py kw ⟨w, WinOpen.blank kw⟩ =
            (.error e, ⟨w, { WinOpen.blank kw with fileno := some f }⟩) ∧ (e = .badValueType ∨ e = .ioError 9) := by
          by_cases hlt : (2 : Int) ^ 31 ≤ (f : Int)
          · refine ⟨.badValueType, ?_, .inl rfl⟩
            simp only [WinOpen.construct, WinOpen.createStreams, WinOpen.findHandle, h1, h2, PyM.bind_apply,
              WinOpen.setFileno, WinOpen.getOsfhandle, WinOpen.noOverflow, if_pos hlt]
            rfl
          · refine ⟨.ioError 9, ?_, .inr rfl⟩
            simp only [WinOpen.construct, WinOpen.createStreams, WinOpen.findHandle, h1, h2, PyM.bind_apply,
              WinOpen.setFileno, WinOpen.getOsfhandle, WinOpen.noOverflow, if_neg hlt, Int.toNat_natCast, hl,
              if_neg (show ¬ (f : Int) < 0 by omega)]
        obtain ⟨e, he, hr⟩ := hcon
        rw [he]
        refine ⟨e, ?_, hr⟩
        simp only [WinOpen.closeRaw, WinOpen.blank, Bool.false_eq_true, if_false]
        split
        · unfold WinOpen.closeC
          rw [hl]
        · rfl

theorem winQuiet {s : WinOpen.St} (h : ∀ e ∈ s.host.sched, e = none) :
    WinOpen.outside s = (.ok (), { s with host := { s.host with sched := s.host.sched.tail } }) := by
  obtain ⟨⟨nodes, names, handles, cfds, held, sched, log⟩, raw⟩ := s
  cases sched with
  | nil => rfl
  | cons x rest =>
    have : x = none := h x (by simp)
    subst this
    rfl

/-- C87: the descriptor of a directory is refused, and is not closed, not even with `closefd=True`.  (No
system call fails, and the stream is for reading or python is 3.11 or earlier.) -/
theorem C87_directory {py : WinOpen.WinPython} {a : OpenArgs} {w : WinOpen.Host} {hd : Nat} {z : Int}
    (ha : WinWraps a w hd z) (hh : a.handle = none) (hz : z ≠ 0) (hr : ¬ (Writes a.modeString ∧ py.blockingModes = true))
    (hq : ∀ e ∈ w.sched, e = none) {n : WinOpen.Node} (hnode : w.nodeOf hd = some n) (hdir : n.kind = .directory) :
    ∃ e w', WinOpen.rsopen py a w = (.error e, w') ∧ (e = .badValueType ∨ e = .ioError 21) ∧ w'.handles = w.handles ∧
      w'.cfds = w.cfds ∧ w'.nodes = w.nodes ∧ w'.names = w.names := by
  cases ha with
  | handle _ _ _ h => rw [hh] at h; cases h
  | fileno f ho _ hf hl hlt =>
  have hno : a.name ≠ .other := by rcases hf with ⟨h, _⟩ | ⟨h, _⟩ <;> rw [h] <;> simp
  unfold WinOpen.rsopen
  cases hp : OpenArgs.parse py.py a with
  | error e => exact ⟨e, w, rfl, .inl ((OpenArgs.parse_error hp).resolve_right fun h => hno h.2), rfl, rfl, rfl, rfl⟩
  | ok r0 =>
    obtain ⟨kw, ext⟩ := r0
    simp only
    have hfl := parseMode_fields (OpenArgs.parse_ok hp).1 (OpenArgs.parse_ok hp).2.1 (OpenArgs.parse_ok hp).2.2.2.2
    cases hx : OpenArgs.checkExt a kw ext with
    | error e => exact ⟨e, w, rfl, .inl (OpenArgs.checkExt_error hx), rfl, rfl, rfl, rfl⟩
    | ok t =>
      simp only
      cases hck : RawObj.check kw with
      | error e => exact ⟨e, w, rfl, .inl (RawObj.check_error hck), rfl, rfl, rfl, rfl⟩
      | ok u =>
        have h1 : kw.handle = none := hfl.handle.trans hh
        have h2 : kw.fileno = some (f : Int) := by
          rcases hf with ⟨hn, hf⟩ | ⟨hn, hf⟩
          · rcases hfl.int f hn with ⟨_, h, _⟩ | h
            · exact h
            · exfalso
              have := (RawObj.check_ok hck).1
              rw [show kw.path = _ from h] at this
              simp [NameArg.isString] at this
          · exact (hfl.none hn).2.trans hf
        have hwr : ((kw.write || kw.append) && py.blockingModes) = false := Bool.eq_false_iff.2 fun h => by
          rw [Bool.and_eq_true] at h
          exact hr ⟨hfl.writes.1 h.1, h.2⟩
        have hlim : ¬ (2 : Int) ^ 31 ≤ (f : Int) := by omega
        have hfind : WinOpen.findHandle kw ⟨w, WinOpen.blank kw⟩ =
            (.ok hd, ⟨w, { WinOpen.blank kw with fileno := some f, handle := some hd }⟩) := by
          simp only [WinOpen.findHandle, h1, h2, PyM.bind_apply, WinOpen.setFileno, WinOpen.getOsfhandle, if_neg hlim,
            Int.toNat_natCast, hl, if_neg (show ¬ (f : Int) < 0 by omega)]
          rfl
        have hstreams : WinOpen.createStreams py kw ⟨w, WinOpen.blank kw⟩ =
            (.ok (), ⟨w, { WinOpen.blank kw with fileno := some f, handle := some hd, keyed := true }⟩) := by
          unfold WinOpen.createStreams
          rw [PyM.bind_apply, hfind]
          simp only [PyM.bind_apply, WinOpen.probe, PyM.when, hwr, Bool.false_eq_true, if_false]
        have hstat : WinOpen.fstat f ⟨w, { WinOpen.blank kw with fileno := some f, handle := some hd, keyed := true }⟩ =
            (.ok .directory, ⟨{ w with sched := w.sched.tail },
              { WinOpen.blank kw with fileno := some f, handle := some hd, keyed := true }⟩) := by
          unfold WinOpen.fstat
          rw [PyM.bind_apply, winQuiet hq]
          simp only [hl, Option.bind_some]
          rw [show ({ w with sched := w.sched.tail } : WinOpen.Host).nodeOf hd = some n from hnode]
          simp only [hdir]
        have hinsp : WinOpen.inspect kw ⟨w, { WinOpen.blank kw with fileno := some f, handle := some hd, keyed := true }⟩ =
            (.error (.ioError 21), ⟨{ w with sched := w.sched.tail },
              { WinOpen.blank kw with fileno := some f, handle := some hd, keyed := true, closefd := false }⟩) := by
          unfold WinOpen.inspect
          simp only
          rw [hstat]
          simp only [if_true]
          rw [if_pos]
          rw [h2, Option.any_some, decide_eq_true hz]
          rfl
        have hcon : WinOpen.construct py kw ⟨w, WinOpen.blank kw⟩ =
            (.error (.ioError 21), ⟨{ w with sched := w.sched.tail },
              { WinOpen.blank kw with fileno := some f, handle := some hd, keyed := true, closefd := false }⟩) := by
          unfold WinOpen.construct
          rw [PyM.bind_apply, WinOpen.noOverflow_eq, PyM.bind_apply, hstreams]
          simp only
          rw [hinsp]
          simp
        rw [hcon]
        exact ⟨_, _, rfl, .inr rfl, rfl, rfl, rfl, rfl⟩

/-- The machine with the file `f` open for reading and writing, as handle 16 and descriptor 3, and the pipe for writing,
as handle 20 and descriptor 4. -/
def winOpened : WinOpen.Host :=
  { winMachine with
    handles := (16, ⟨0, true, true, false, false⟩) :: (20, ⟨3, false, true, false, false⟩) :: winMachine.handles
    cfds := (3, 16) :: (4, 20) :: winMachine.cfds }

/-- `rsopen(handle=16, mode=..., closefd=...)`. -/
def winWrapHandle (m : String) (closefd : Bool) : OpenArgs :=
  { call [] m with name := .none, handle := some 16, closefd := closefd }

/-- `rsopen(fileno=..., mode=..., closefd=...)`. -/
def winWrapFileno (f : Int) (m : String) (closefd : Bool) : OpenArgs :=
  { call [] m with name := .none, fileno := some f, closefd := closefd }

example : WinWraps (winWrapHandle "wb" false) winOpened 16 16 := .handle rfl rfl rfl rfl
example : WinWraps (winWrapFileno 3 "rb" true) winOpened 16 3 :=
  .fileno 3 rfl rfl (.inr ⟨rfl, rfl⟩) (by decide) (by decide)
example : WinWraps { call [] "rb" with name := .int 3 } winOpened 16 3 :=
  .fileno 3 rfl rfl (.inl ⟨rfl, rfl⟩) (by decide) (by decide)
example : (WinOpen.rsopen winPython (winWrapHandle "wb" false) winOpened).1.toBool = true ∧
    (WinOpen.rsopen winPython (winWrapFileno 3 "rb" true) winOpened).1.toBool = true ∧
    (WinOpen.rsopen winPython { call [] "rb" with name := .int 3 } winOpened).1.toBool = true ∧
    16 ∉ winOpened.held := by decide +kernel
-- a stream that is read and written must be seekable: the wrapped pipe is closed
example : (WinOpen.rsopen winPython (winWrapFileno 4 "r+b" true) winOpened).1.toBool = false ∧
    (WinOpen.rsopen winPython (winWrapFileno 4 "r+b" true) winOpened).2.handles.lookup 20 = none := by decide +kernel
example : winOpened.cfds.lookup 7 = none := by decide

/-- The machine with the directory `d` open, as handle 16 and descriptor 3. -/
def winDirectory : WinOpen.Host :=
  { winMachine with
    handles := (16, ⟨1, true, false, false, false⟩) :: winMachine.handles
    cfds := (3, 16) :: winMachine.cfds }

-- the directory is refused, and not closed
example : WinWraps (winWrapFileno 3 "rb" true) winDirectory 16 3 ∧
    winDirectory.nodeOf 16 = some ⟨.directory, [], false, false⟩ ∧
    (WinOpen.rsopen winPython (winWrapFileno 3 "rb" true) winDirectory).2 = winDirectory :=
  ⟨.fileno 3 rfl rfl (.inr ⟨rfl, rfl⟩) (by decide) (by decide), by decide, by decide +kernel⟩

/-! ## C88 -/

/-- The claim of C88: wrapping creates no file and changes no content. -/
def WinNeverErases : Prop :=
  ∀ (py : WinOpen.WinPython) (a : OpenArgs) (w : WinOpen.Host) (hd : Nat) (z : Int), WinWraps a w hd z →
    (WinOpen.rsopen py a w).2.nodes = w.nodes ∧ (WinOpen.rsopen py a w).2.names = w.names

/-- The machine with the file `f` open as descriptor 0. -/
def winRedirected : WinOpen.Host := { winOpened with cfds := [(0, 16)] }

/-- C88 is false for descriptor 0, which is taken for a missing argument. -/
theorem C88_refuted : ¬ WinNeverErases := by
  intro h
  have := (h winPython { winWrapFileno 0 "wb" true with buffering := .given 0 } winRedirected 16 0
    (.fileno 0 rfl rfl (.inr ⟨rfl, rfl⟩) (by decide) (by decide))).1
  exact absurd this (by decide +kernel)

/-- C88: wrapping creates no file, and changes no content unless the mode asks for it.
Missing: with descriptor 0 a file may be erased (`C88_refuted`). -/
theorem C88_partial {py : WinOpen.WinPython} {a : OpenArgs} {w w' : WinOpen.Host} {hd : Nat} {z : Int}
    (ha : WinWraps a w hd z) {r : Except Exn (WinOpen.Raw × WinOpen.Layers)} (h : WinOpen.rsopen py a w = (r, w')) :
    w'.names = w.names ∧ (z ≠ 0 ∨ ¬ Erases a.modeString → w'.nodes = w.nodes) := by
  rcases winWrap_course ha h with ⟨e, rfl, rfl⟩ | ⟨kw, ext, t, hfl, hn, hx, _, hcl, ht, ⟨e, s, rfl, ⟨E, O, l, b, tr, hw, hb, htr⟩, rfl⟩ |
    ⟨s, ly, rfl, rfl, l, tr, hw, _, htr⟩⟩
  · exact ⟨rfl, fun _ => rfl⟩
  all_goals
    have hnot : z ≠ 0 ∨ ¬ Erases a.modeString → tr = false := by
      intro hz
      cases tr with
      | false => rfl
      | true =>
        have := ht (htr rfl)
        rcases hz with hz | hz
        · exact absurd this.2 hz
        · exact absurd this.1 hz
  · have h1 := hw.close hn hx
    exact ⟨h1.names.trans hw.names, fun hz => h1.nodes.trans (hw.nodes (hnot hz))⟩
  · exact ⟨hw.names, fun hz => hw.nodes (hnot hz)⟩

/-! ## C89 -/

/-- What remains of the descriptors of the C library: with `closefd=True` the wrapped one is gone. -/
def remaining (a : OpenArgs) (w : WinOpen.Host) (z : Int) : List (Nat × Nat) :=
  if a.closefd = true ∧ a.handle = none then w.cfds.filter fun e => (e.1 : Int) ≠ z else w.cfds

/-- The claim of C89: the call and the closing of the stream lose no descriptor of the C library, and free the wrapped
one. -/
def WinWrapKeeps : Prop :=
  ∀ (py : WinOpen.WinPython) (a : OpenArgs) (w w' : WinOpen.Host) (hd : Nat) (z : Int), WinWraps a w hd z →
    ∀ s ly, WinOpen.rsopen py a w = (.ok (s, ly), w') → (WinOpen.closeRaw s w').2.cfds = remaining a w z

/-- C89 is false with every python: the first stream asks for a descriptor to see whether it is a terminal, and does not
close it, because it does not own the handle. -/
theorem C89_refuted : ¬ WinWrapKeeps := by
  intro h
  have hr : WinOpen.rsopen oldWinPython (winWrapHandle "rb" false) winOpened =
      (.ok (⟨some 16, some 5, true, false, true, false, false, true⟩, ⟨some (.reader, 8192), none, some .threading⟩),
        { winOpened with cfds := (5, 16) :: winOpened.cfds, held := [16], log := [.locked 16] }) := by decide +kernel
  exact absurd (h _ _ _ _ 16 16 (.handle rfl rfl rfl rfl) _ _ hr) (by decide +kernel)

/-- C89 is false for a pipe that does not block, since python 3.12: the descriptor that the stream has to close stays, for a
handle that is closed. -/
theorem C89_pipe_refuted : ¬ WinWrapKeeps := by
  intro h
  have hr : WinOpen.rsopen winPython (winWrapFileno 4 "wb" true) winOpened =
      (.ok (⟨some 20, some 5, true, true, false, true, false, false⟩, ⟨some (.writer, 8192), none, some .threading⟩),
        { winOpened with cfds := (5, 20) :: winOpened.cfds }) := by decide +kernel
  exact absurd (h _ _ _ _ 20 4 (.fileno 4 rfl rfl (.inr ⟨rfl, rfl⟩) (by decide) (by decide)) _ _ hr) (by decide +kernel)

/-- C89, exactly: which descriptors there are after closing the stream.  `P`: the stream is open for writing, and python is
3.12 or later.  One descriptor more is lost, if the handle was given, is not owned, and there is no buffer size. -/
theorem C89_lost {py : WinOpen.WinPython} {a : OpenArgs} {w w' : WinOpen.Host} {hd : Nat} {z : Int}
    (ha : WinWraps a w hd z) {s : WinOpen.Raw} {ly : WinOpen.Layers} (h : WinOpen.rsopen py a w = (.ok (s, ly), w'))
    {P N : Bool} (hP : P = true ↔ Writes a.modeString ∧ py.blockingModes = true)
    (hN : N = (w.nodeOf hd).any WinOpen.Node.nonblocking) :
    ∃ E : List Nat, (WinOpen.closeRaw s w').2.cfds = E.map (·, hd) ++ (if P && N then w.cfds else remaining a w z) ∧
      (∀ c ∈ E, w.cfds.lookup c = none) ∧
      E.length = (P && !(a.closefd && N)).toNat +
        (!a.closefd && a.handle.isSome && decide (a.bufferingValue < 0) && !(P && N)).toNat := by
  rcases winWrap_course ha h with ⟨e, he, _⟩ | ⟨kw, ext, t, hfl, hnm, hx, hfz, hcl, ht, ⟨e, s, he, _⟩ |
    ⟨s, ly, he, rfl, l, tr, hw, _⟩⟩
  · cases he
  · cases he
  cases he
  have hp : WinOpen.probes py kw = P := by
    rw [Bool.eq_iff_iff, hP]
    unfold WinOpen.probes
    rw [Bool.and_eq_true]
    exact and_congr hfl.writes Iff.rfl
  have hq : WinOpen.pipeNoWait w hd = N := hN.symm
  have h1 := hw.close hnm hx
  have hfresh := hw.fresh
  have hfree := WinOpen.freeC_free w
  have hremain : a.handle.isSome = true → remaining a w z = w.cfds := by
    intro h
    unfold remaining
    rw [if_neg]
    rintro ⟨_, h'⟩
    rw [h'] at h
    cases h
  unfold WinOpen.wrapAll WinOpen.wrapProbe at h1 hfresh
  dsimp only at h1 hfresh
  rw [hp, hq] at h1 hfresh
  cases hc : a.closefd with
  | false =>
    have h2 := (h1.kept (hcl.trans hc)).2.2
    have hrem : remaining a w z = w.cfds := by
      unfold remaining
      rw [if_neg (by simp [hc])]
    rw [hrem, ite_self]
    refine ⟨_, h2, hfresh, ?_⟩
    rw [hfz]
    cases hh : a.handle <;> cases P <;> cases N <;> by_cases hb : a.bufferingValue < 0 <;> simp [hb]
  | true =>
    have h2 := h1.cfds (hcl.trans hc)
    unfold WinOpen.closes at h2
    have hone : (((w.freeC, hd) :: w.cfds).filter fun e => decide (e.1 ≠ w.freeC)) = w.cfds := by
      rw [List.filter_cons, if_neg (by simp)]
      exact WinOpen.filter_fresh hfree
    cases hh : a.handle with
    | some k =>
      rw [hremain (by rw [hh]; rfl), ite_self]
      have hf0 : kw.fileno = none := by rw [hfz, hh]; rfl
      rw [hf0] at h2
      cases P with
      | false =>
        refine ⟨[], ?_, by simp, by simp⟩
        rw [h2]
        by_cases hb : a.bufferingValue < 0
        · simp only [hb, true_and, Bool.false_eq_true, if_false, if_true, Option.map_none, Option.or_none, List.map_cons,
            List.map_nil, List.cons_append, List.nil_append]
          exact hone
        · simp [hb]
      | true =>
        cases N with
        | true =>
          refine ⟨[], ?_, by simp, by simp⟩
          rw [h2]
          simp only [reduceCtorEq, false_and, and_false, if_false, if_true, Option.map_none, Option.or_none, List.map_cons,
            List.map_nil, List.cons_append, List.nil_append]
          exact hone
        | false =>
          refine ⟨[w.freeC], ?_, by simpa using hfree, by simp⟩
          rw [h2]
          by_cases hb : a.bufferingValue < 0
          · simp only [hb, true_and, Bool.false_eq_true, if_false, if_true, Option.map_none, Option.or_none,
              List.map_cons, List.map_nil, List.cons_append, List.nil_append]
            rw [List.filter_cons, if_neg (by simp)]
            exact WinOpen.filter_fresh (WinOpen.nextFor_free w hd [w.freeC])
          · simp [hb]
    | none =>
      have hf0 : kw.fileno = some z := by rw [hfz, hh]; rfl
      rw [hf0] at h2
      cases ha with
      | handle _ _ _ h => rw [hh] at h; cases h
      | fileno f _ _ _ hl _ =>
        have hne : w.freeC ≠ f := by
          intro h
          rw [h, hl] at hfree
          cases hfree
        have hrem : remaining a w f = w.cfds.filter fun e => decide (e.1 ≠ f) := by
          unfold remaining
          rw [if_pos ⟨hc, hh⟩]
          simp only [ne_eq, Int.ofNat_inj]
        rw [hrem]
        cases P with
        | false =>
          refine ⟨[], ?_, by simp, by simp⟩
          rw [h2]
          simp
        | true =>
          cases N with
          | true =>
            refine ⟨[], ?_, by simp, by simp⟩
            rw [h2]
            simp only [reduceCtorEq, and_false, if_false, if_true, List.map_cons, Option.some_or,
              List.map_nil, List.cons_append, List.nil_append]
            exact hone
          | false =>
            refine ⟨[w.freeC], ?_, by simpa using hfree, by simp⟩
            rw [h2]
            simp [hne]

/-- C89: no descriptor is lost if the stream is not open for writing or python is older than 3.12, and the stream owns the
handle, or was made from a descriptor, or with a buffer size.
Missing: the other streams (`C89_refuted`, `C89_pipe_refuted`, `C89_lost`). -/
theorem C89_partial {py : WinOpen.WinPython} {a : OpenArgs} {w w' : WinOpen.Host} {hd : Nat} {z : Int}
    (ha : WinWraps a w hd z) (hn : ¬ Writes a.modeString ∨ py.blockingModes = false)
    (hb : a.closefd = true ∨ a.handle = none ∨ 0 ≤ a.bufferingValue) {s : WinOpen.Raw} {ly : WinOpen.Layers}
    (h : WinOpen.rsopen py a w = (.ok (s, ly), w')) : (WinOpen.closeRaw s w').2.cfds = remaining a w z := by
  have hP : (false : Bool) = true ↔ Writes a.modeString ∧ py.blockingModes = true := by
    refine ⟨nofun, fun h => ?_⟩
    rcases hn with hn | hn
    · exact absurd h.1 hn
    · rw [h.2] at hn
      cases hn
  obtain ⟨E, h1, _, h2⟩ := C89_lost ha h hP rfl
  have hE : E = [] := by
    rw [← List.length_eq_zero_iff, h2]
    rcases hb with hb | hb | hb
    · simp [hb]
    · simp [hb]
    · simp [show ¬ a.bufferingValue < 0 by omega]
  rw [h1, hE]
  rfl

-- C89: a descriptor is wrapped, read and closed; two descriptors are lost
example : ¬ Writes (winWrapFileno 3 "rb" true).modeString := by
  simp only [Writes]
  rintro (h | h | h | ⟨h, _⟩ | h | h) <;> revert h <;> decide
example : (WinOpen.rsopen winPython (winWrapHandle "wb" false) winOpened).1.toBool = true ∧
    (WinOpen.rsopen winPython (winWrapHandle "wb" false) winOpened).2.cfds = (6, 16) :: (5, 16) :: winOpened.cfds := by
  decide +kernel

end Verif.Props
