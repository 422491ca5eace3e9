import Verif.Lemmas.WinOpen

/-!
# Wrapping a handle or a descriptor on windows
-/

set_option autoImplicit false

namespace Verif.WinOpen

open Verif

/-- The world and the stream after the handle was found.  `E`: the descriptors that were made for it; `O`: the one of them
that the stream took for itself; `l`: the stream has locked; `b`: it will close; `tr`: the file may have been erased. -/
structure Wrap (w : Host) (kw : RawKw) (h : Nat) (E : List Nat) (O : Option Nat) (l b tr : Bool) (s : St) : Prop where
  handle : s.raw.handle = some h
  closefd : s.raw.closefd = b
  fileno : s.raw.fileno = O.or (kw.fileno.map Int.toNat)
  nodes : tr = false → s.host.nodes = w.nodes
  names : s.host.names = w.names
  handles : s.host.handles = w.handles
  cfds : s.host.cfds = E.map (·, h) ++ w.cfds
  held : s.host.held = if l then h :: w.held else w.held
  fresh : ∀ c ∈ E, w.cfds.lookup c = none
  once : E.Nodup
  own : ∀ c, O = some c → c ∈ E
  keyed : l = true → s.raw.keyed = true

section

variable {w : Host} {kw : RawKw} {h : Nat} {E : List Nat} {O : Option Nat} {l b tr : Bool} {s : St}

theorem Wrap.tick (hw : Wrap w kw h E O l b tr s) (sched : List (Option Exn)) :
    Wrap w kw h E O l b tr { s with host := { s.host with sched := sched } } :=
  { handle := hw.handle, closefd := hw.closefd, fileno := hw.fileno, nodes := hw.nodes, names := hw.names,
    handles := hw.handles, cfds := hw.cfds, held := hw.held, fresh := hw.fresh, once := hw.once, own := hw.own,
    keyed := hw.keyed }

/-- The next descriptor. -/
def nextFor (w : Host) (h : Nat) (E : List Nat) : Nat := ({ w with cfds := E.map (·, h) ++ w.cfds } : Host).freeC

theorem nextFor_free (w : Host) (h : Nat) (E : List Nat) : (E.map (·, h) ++ w.cfds).lookup (nextFor w h E) = none :=
  freeC_free ({ w with cfds := E.map (·, h) ++ w.cfds } : Host)

theorem Wrap.next (hw : Wrap w kw h E O l b tr s) : s.host.freeC = nextFor w h E :=
  freeC_eq (w := { w with cfds := E.map (·, h) ++ w.cfds }) hw.cfds

theorem nextFor_fresh (w : Host) (h : Nat) (E : List Nat) : w.cfds.lookup (nextFor w h E) = none ∧ nextFor w h E ∉ E := by
  have h1 := lookup_append_none (nextFor_free w h E)
  refine ⟨h1.2, fun hm => ?_⟩
  have h2 := h1.1
  rw [List.lookup_eq_none_iff] at h2
  have := h2 (nextFor w h E, h) (List.mem_map.2 ⟨_, hm, rfl⟩)
  simp at this

/-- A new descriptor that nobody keeps. -/
theorem Wrap.forget (hw : Wrap w kw h E O l b tr s) :
    Wrap w kw h (nextFor w h E :: E) O l b tr
      { s with host := { s.host with cfds := (nextFor w h E, h) :: s.host.cfds } } :=
  { handle := hw.handle, closefd := hw.closefd, fileno := hw.fileno, nodes := hw.nodes, names := hw.names,
    handles := hw.handles, held := hw.held, keyed := hw.keyed
    cfds := by simp [hw.cfds]
    fresh := by
      intro c hc
      rcases List.mem_cons.1 hc with rfl | hc
      · exact (nextFor_fresh w h E).1
      · exact hw.fresh c hc
    once := List.nodup_cons.2 ⟨(nextFor_fresh w h E).2, hw.once⟩
    own := fun c hc => List.mem_cons_of_mem _ (hw.own c hc) }

/-- A new descriptor that the stream keeps. -/
theorem Wrap.keep (hw : Wrap w kw h E O l b tr s) :
    Wrap w kw h (nextFor w h E :: E) (some (nextFor w h E)) l b tr
      { raw := { s.raw with fileno := some (nextFor w h E) }
        host := { s.host with cfds := (nextFor w h E, h) :: s.host.cfds } } :=
  { handle := hw.handle, closefd := hw.closefd, fileno := rfl, nodes := hw.nodes, names := hw.names,
    handles := hw.handles, held := hw.held, keyed := hw.keyed
    cfds := by simp [hw.cfds]
    fresh := hw.forget.fresh
    once := hw.forget.once
    own := fun c hc => by cases hc; simp }

end

/-- The call failed: the stream as it is when it is closed. -/
def WrapFailed (w : Host) (kw : RawKw) (h : Nat) (t : Bool) (s : St) : Prop :=
  ∃ E O l b tr, Wrap w kw h E O l b tr s ∧ (b = true → kw.closefd = true) ∧ (tr = true → t = true)

theorem Wrap.fails {w : Host} {kw : RawKw} {h : Nat} {t : Bool} {E : List Nat} {O : Option Nat} {l tr : Bool} {s : St}
    (hw : Wrap w kw h E O l kw.closefd tr s) (ht : tr = true → t = true) : WrapFailed w kw h t s :=
  ⟨E, O, l, _, tr, hw, id, ht⟩

theorem wrap_outside {w : Host} {kw : RawKw} {h : Nat} (t : Bool) {E : List Nat} {O : Option Nat} {l tr : Bool}
    (ht : tr = true → t = true) (R : Raw → Prop) :
    Meets (fun s => Wrap w kw h E O l kw.closefd tr s ∧ R s.raw) outside
      (fun _ s => Wrap w kw h E O l kw.closefd tr s ∧ R s.raw) (fun _ => WrapFailed w kw h t) :=
  outside_meets (fun _ _ h _ => ⟨h.1.tick _, h.2⟩) fun _ _ h _ _ => (h.1.tick _).fails ht

theorem wrap_openOsfhandle {w : Host} {kw : RawKw} {h : Nat} (t : Bool) {E : List Nat} {O : Option Nat} {l tr : Bool}
    (ht : tr = true → t = true) (R : Raw → Prop) :
    Meets (fun s => Wrap w kw h E O l kw.closefd tr s ∧ R s.raw) (openOsfhandle h)
      (fun f s => f = nextFor w h E ∧ ∃ s0, Wrap w kw h E O l kw.closefd tr s0 ∧ R s0.raw ∧
        s = { s0 with host := { s0.host with cfds := (f, h) :: s0.host.cfds } })
      (fun _ => WrapFailed w kw h t) := by
  unfold openOsfhandle
  refine Meets.bind (wrap_outside t ht R) fun _ => ?_
  rintro s ⟨h1, h2⟩
  dsimp only
  rw [h1.next]
  split
  · exact ⟨fun a s' h => (by cases h), fun e s' h => by cases h; exact h1.fails ht⟩
  · split
    · exact ⟨fun a s' h => (by cases h), fun e s' h => by cases h; exact h1.fails ht⟩
    · refine ⟨fun a s' h' => ?_, fun e s' h => by cases h⟩
      cases h'
      exact ⟨rfl, s, h1, h2, rfl⟩

/-- The handle is open on a pipe that does not block. -/
def pipeNoWait (w : Host) (h : Nat) : Bool := (w.nodeOf h).any Node.nonblocking

/-- The descriptors that the search makes, and the one that the stream takes. -/
def wrapProbe (py : WinPython) (kw : RawKw) (w : Host) (h : Nat) : List Nat × Option Nat :=
  if probes py kw then ([w.freeC], if pipeNoWait w h then some w.freeC else none) else ([], none)

theorem wrap_probe (py : WinPython) {w : Host} {kw : RawKw} {h : Nat} (t : Bool) :
    Meets (fun s => Wrap w kw h [] none false kw.closefd false s) (probe py kw h)
      (fun _ s => Wrap w kw h (wrapProbe py kw w h).1 (wrapProbe py kw w h).2 false kw.closefd false s)
      (fun _ => WrapFailed w kw h t) := by
  unfold probe
  refine Meets.when (fun hp => ?_) fun hp s hs => ?_
  · refine Meets.bind ((wrap_openOsfhandle t (by simp) fun _ => True).mono (fun _ h => ⟨h, trivial⟩) (fun _ _ h => h)
      fun _ _ h => h) fun f => ?_
    rintro s ⟨rfl, s0, h1, _, rfl⟩
    have hn : ({ s0.host with cfds := (nextFor w h [], h) :: s0.host.cfds } : Host).nodeOf h = w.nodeOf h := by
      unfold Host.nodeOf
      simp only
      rw [h1.handles, h1.nodes rfl]
    simp only
    rw [hn]
    unfold wrapProbe
    rw [show probes py kw = true from hp, if_pos rfl]
    split
    · rename_i hb
      rw [show pipeNoWait w h = true from hb, if_pos rfl]
      refine ⟨fun a s' h => ?_, fun e s' h => by cases h⟩
      cases h
      exact h1.keep
    · rename_i hb
      rw [show pipeNoWait w h = false from by simpa [pipeNoWait] using hb, if_neg (by simp)]
      refine ⟨fun a s' h => ?_, fun e s' h => by cases h⟩
      cases h
      exact h1.forget
  · unfold wrapProbe
    rw [show probes py kw = false from hp, if_neg (by simp)]
    exact hs

/-- What the arguments name. -/
inductive Named (kw : RawKw) (w : Host) (h : Nat) : Prop where
  | handle (h1 : kw.handle = some (h : Int))
  | fileno (f : Nat) (h1 : kw.handle = none) (h2 : kw.fileno = some (f : Int)) (h3 : w.cfds.lookup f = some h)
      (h4 : f < cLimit)

theorem wrap_findHandle {w : Host} {kw : RawKw} {h : Nat} (hn : Named kw w h) (hf : kw.handle ≠ none → kw.fileno = none) :
    Meets (fun s => s = ⟨w, blank kw⟩) (findHandle kw)
      (fun x s => x = h ∧ Wrap w kw h [] none false kw.closefd false s) (fun _ _ => False) := by
  have done : ∀ f : Option Nat, f = kw.fileno.map Int.toNat →
      Wrap w kw h [] none false kw.closefd false ⟨w, { blank kw with handle := some h, fileno := f }⟩ := by
    intro f hf
    exact { handle := rfl, closefd := rfl, fileno := by simpa using hf, nodes := fun _ => rfl, names := rfl,
            handles := rfl, cfds := rfl, held := rfl, fresh := by simp, once := List.nodup_nil, own := by simp,
            keyed := by simp }
  rintro s rfl
  unfold findHandle
  cases hn with
  | handle h1 =>
    rw [h1]
    refine ⟨fun a s' h => ?_, fun e s' h => by cases h⟩
    cases h
    have := hf (by rw [h1]; simp)
    exact ⟨rfl, done none (by rw [this]; rfl)⟩
  | fileno f h1 h2 h3 h4 =>
    rw [h1, h2]
    simp only [PyM.bind_apply, setFileno, getOsfhandle]
    have hlt : ¬ (2 : Int) ^ 31 ≤ (f : Int) := by
      unfold cLimit at h4
      omega
    rw [if_neg hlt, if_neg (by omega), show ((f : Int).toNat) = f from rfl, h3]
    refine ⟨fun a s' h => ?_, fun e s' h => by cases h⟩
    cases h
    exact ⟨rfl, done _ (by rw [h2]; rfl)⟩

/-- The constructor has done its work. -/
def WrapMade (py : WinPython) (w : Host) (kw : RawKw) (h : Nat) (s : St) : Prop :=
  Wrap w kw h (wrapProbe py kw w h).1 (wrapProbe py kw w h).2 false kw.closefd false s ∧ s.raw.keyed = true

theorem wrap_fstat {w : Host} {kw : RawKw} {h : Nat} (t : Bool) {E : List Nat} {O : Option Nat} (f : Nat) :
    Meets (fun s => Wrap w kw h E O false kw.closefd false s ∧ s.raw.keyed = true) (fstat f)
      (fun _ s => Wrap w kw h E O false kw.closefd false s ∧ s.raw.keyed = true) (fun _ => WrapFailed w kw h t) := by
  unfold fstat
  refine Meets.bind (wrap_outside t (by simp) fun r => r.keyed = true) fun _ => ?_
  rintro s ⟨h1, h2⟩
  dsimp only
  split
  · exact ⟨fun a s' h => (by cases h; exact ⟨h1, h2⟩), fun e s' h => by cases h⟩
  · exact ⟨fun a s' h => (by cases h), fun e s' h => by cases h; exact h1.fails (by simp)⟩

theorem wrap_inspect (py : WinPython) {w : Host} {kw : RawKw} {h : Nat} (t : Bool) :
    Meets (WrapMade py w kw h) (inspect kw) (fun _ => WrapMade py w kw h) (fun _ => WrapFailed w kw h t) := by
  rintro s ⟨h1, h2⟩
  have seek : ∀ {s : St} (b : Bool), WrapMade py w kw h s →
      WrapMade py w kw h { s with raw := { s.raw with seekable := b } } := fun b h =>
    ⟨{ handle := h.1.handle, closefd := h.1.closefd, fileno := h.1.fileno, nodes := h.1.nodes, names := h.1.names,
       handles := h.1.handles, cfds := h.1.cfds, held := h.1.held, fresh := h.1.fresh, once := h.1.once,
       own := h.1.own, keyed := h.1.keyed }, h.2⟩
  unfold inspect
  split
  · exact ⟨fun a s' h => (by cases h; exact seek true ⟨h1, h2⟩), fun e s' h => by cases h⟩
  · rename_i f _
    have h3 := wrap_fstat t f s ⟨h1, h2⟩
    generalize fstat f s = r at *
    obtain ⟨r, s1⟩ := r
    cases r with
    | error e => exact ⟨fun _ s' h => (by cases h), fun e' s' h => by cases h; exact h3.2 e s1 rfl⟩
    | ok k =>
      have h4 := h3.1 k s1 rfl
      simp only
      split
      · split
        · refine ⟨fun _ s' h => (by cases h), fun e' s' h => ?_⟩
          cases h
          exact ⟨_, _, _, false, false,
            { handle := h4.1.handle, closefd := rfl, fileno := h4.1.fileno, nodes := h4.1.nodes, names := h4.1.names,
              handles := h4.1.handles, cfds := h4.1.cfds, held := h4.1.held, fresh := h4.1.fresh, once := h4.1.once,
              own := h4.1.own, keyed := h4.1.keyed }, by simp, by simp⟩
        · refine ⟨fun _ s' h => (by cases h), fun e' s' h => ?_⟩
          cases h
          exact h4.1.fails (by simp)
      · exact ⟨fun a s' h => (by cases h; exact seek _ h4), fun e s' h => by cases h⟩

theorem wrap_construct (py : WinPython) {w : Host} {kw : RawKw} {h : Nat} (t : Bool) (hn : Named kw w h)
    (hf : kw.handle ≠ none → kw.fileno = none) :
    Meets (fun s => s = ⟨w, blank kw⟩) (construct py kw) (fun _ => WrapMade py w kw h) (fun _ => WrapFailed w kw h t) := by
  unfold construct
  refine Meets.bind (R := fun _ => WrapMade py w kw h) ?_ fun _ => ?_
  · have hm : Meets (fun s => s = ⟨w, blank kw⟩) (createStreams py kw >>= fun _ => inspect kw)
        (fun _ => WrapMade py w kw h) (fun _ => WrapFailed w kw h t) := by
      refine Meets.bind (R := fun _ => WrapMade py w kw h) ?_ fun _ =>
        (wrap_inspect py t).mono (fun _ h => h) (fun _ _ h => h) fun _ _ h => h
      unfold createStreams
      refine Meets.bind ((wrap_findHandle hn hf).mono (fun _ h => h) (fun _ _ h => h) fun _ _ h => h.elim) fun x => ?_
      rintro s ⟨rfl, h1⟩
      refine Meets.bind (P := fun s => Wrap w kw x [] none false kw.closefd false s)
        ((wrap_probe py t).mono (fun _ h => h) (fun _ _ h => h) fun _ _ h => h) (fun _ => ?_) s h1
      refine Meets.step _ _ fun s h => ?_
      exact ⟨{ handle := h.handle, closefd := h.closefd, fileno := h.fileno, nodes := h.nodes, names := h.names,
               handles := h.handles, cfds := h.cfds, held := h.held, fresh := h.fresh, once := h.once,
               own := h.own, keyed := fun _ => rfl }, rfl⟩
    intro s hs
    have h1 := hm s hs
    rw [noOverflow_eq]
    generalize (createStreams py kw >>= fun _ => inspect kw) s = r at *
    obtain ⟨r, s1⟩ := r
    cases r with
    | ok u => exact ⟨fun _ s' h => (by cases h; exact h1.1 u s1 rfl), fun e s' h => by cases h⟩
    | error e =>
      refine ⟨fun _ s' h => (by cases h), fun e' s' h => ?_⟩
      obtain ⟨_, rfl⟩ := Prod.mk.inj h
      exact h1.2 e _ rfl
  · intro s hs
    rw [seekEnd_eq]
    split
    · have h1 := outside_meets (P := WrapMade py w kw h) (E := fun _ => WrapMade py w kw h)
        (fun s sched h _ => ⟨h.1.tick _, h.2⟩) (fun s e h _ _ => ⟨h.1.tick _, h.2⟩) s hs
      generalize outside s = r at *
      obtain ⟨r, s1⟩ := r
      cases r with
      | ok u => exact ⟨fun _ s' h => (by cases h; exact h1.1 u s1 rfl), fun e s' h => by cases h⟩
      | error e =>
        simp only
        split
        · exact ⟨fun _ s' h => (by cases h; exact h1.2 e s1 rfl), fun e s' h => by cases h⟩
        · exact ⟨fun _ s' h => (by cases h), fun e' s' h => by
            cases h; exact (h1.2 e s1 rfl).1.fails (by simp)⟩
    · exact ⟨fun _ s' h => (by cases h; exact hs), fun e s' h => by cases h⟩

/-! ## The rest of the call -/

/-- A stream that is being built. -/
def WrapOn (w : Host) (kw : RawKw) (h : Nat) (t : Bool) (E : List Nat) (O : Option Nat) (s : St) : Prop :=
  ∃ l tr, Wrap w kw h E O l kw.closefd tr s ∧ s.raw.keyed = true ∧ (tr = true → t = true)

theorem WrapOn.fails {w : Host} {kw : RawKw} {h : Nat} {t : Bool} {E : List Nat} {O : Option Nat} {s : St}
    (hw : WrapOn w kw h t E O s) : WrapFailed w kw h t s := by
  obtain ⟨l, tr, h1, _, h3⟩ := hw
  exact h1.fails h3

theorem WrapOn.outside {w : Host} {kw : RawKw} {h : Nat} {t : Bool} {E : List Nat} {O : Option Nat} :
    Meets (WrapOn w kw h t E O) outside (fun _ => WrapOn w kw h t E O) (fun _ => WrapFailed w kw h t) :=
  outside_meets (fun _ _ ⟨l, tr, h1, h2, h3⟩ _ => ⟨l, tr, h1.tick _, h2, h3⟩)
    fun _ _ ⟨l, tr, h1, h2, h3⟩ _ _ => WrapOn.fails (E := E) (O := O) ⟨l, tr, h1.tick _, h2, h3⟩

theorem wrap_prepare {w : Host} {kw : RawKw} {h : Nat} (a : OpenArgs) (t : Bool) {E : List Nat} {O : Option Nat} :
    Meets (fun s => Wrap w kw h E O false kw.closefd false s ∧ s.raw.keyed = true) (prepare a t)
      (fun _ => WrapOn w kw h t E O) (fun _ => WrapFailed w kw h t) := by
  intro s hs
  unfold prepare
  refine Meets.when (P := fun s => Wrap w kw h E O false kw.closefd false s ∧ s.raw.keyed = true)
    (Q := WrapOn w kw h t E O) (fun _ => ?_) (fun _ s h => ⟨_, _, h.1, h.2, by simp⟩) s hs
  refine Meets.bind (R := fun _ => WrapOn w kw h t E O) ?_ fun _ => ?_
  · refine Meets.when (fun hlk => ?_) fun _ s h => ⟨_, _, h.1, h.2, by simp⟩
    refine Meets.bind (wrap_outside t (by simp) fun r => r.keyed = true) fun _ => ?_
    refine Meets.step (fun _ => ()) _ ?_
    rintro s ⟨h1, h2⟩
    refine ⟨true, false, ?_, h2, by simp⟩
    exact { handle := h1.handle, closefd := h1.closefd, fileno := h1.fileno, nodes := h1.nodes, names := h1.names,
            handles := h1.handles, cfds := h1.cfds, fresh := h1.fresh, once := h1.once, own := h1.own,
            keyed := fun _ => h2, held := by simp [h1.handle, h1.held] }
  · refine Meets.when (fun ht => ?_) fun _ s h => h
    refine Meets.bind WrapOn.outside fun _ => ?_
    refine Meets.step (fun _ => ()) _ ?_
    rintro s ⟨l, tr, h1, h2, _⟩
    refine ⟨l, true, ?_, h2, fun _ => ht⟩
    exact { handle := h1.handle, closefd := h1.closefd, fileno := h1.fileno, nodes := by simp, names := h1.names,
            handles := h1.handles, cfds := h1.cfds, fresh := h1.fresh, once := h1.once, own := h1.own,
            keyed := h1.keyed, held := h1.held }

/-- All the descriptors that are made, and the one that the stream takes. -/
def wrapAll (py : WinPython) (a : OpenArgs) (kw : RawKw) (w : Host) (h : Nat) : List Nat × Option Nat :=
  let P := wrapProbe py kw w h
  if a.bufferingValue < 0 ∧ P.2 = none ∧ kw.fileno = none then (nextFor w h P.1 :: P.1, some (nextFor w h P.1)) else P

theorem wrap_getFileno (py : WinPython) {w : Host} {kw : RawKw} {h : Nat} (a : OpenArgs) (t : Bool)
    (hb : a.bufferingValue < 0) :
    Meets (WrapOn w kw h t (wrapProbe py kw w h).1 (wrapProbe py kw w h).2) getFileno
      (fun _ => WrapOn w kw h t (wrapAll py a kw w h).1 (wrapAll py a kw w h).2) (fun _ => WrapFailed w kw h t) := by
  intro s hs
  obtain ⟨l, tr, h1, h2, h3⟩ := hs
  have hs : WrapOn w kw h t (wrapProbe py kw w h).1 (wrapProbe py kw w h).2 s := ⟨l, tr, h1, h2, h3⟩
  unfold getFileno
  cases hfn : s.raw.fileno with
  | some f =>
    have hall : wrapAll py a kw w h = wrapProbe py kw w h := by
      have h4 := h1.fileno
      rw [hfn] at h4
      unfold wrapAll
      dsimp only
      split
      · rename_i h
        rw [h.2.1, h.2.2] at h4
        cases h4
      · rfl
    rw [hall]
    simp only
    split
    · exact ⟨fun _ s' h => (by cases h), fun e s' h => (by cases h; exact hs.fails)⟩
    · exact ⟨fun _ s' h => (by cases h; exact hs), fun e s' h => (by cases h)⟩
  | none =>
    simp only
    rw [h1.handle, Option.getD_some]
    have hall : wrapAll py a kw w h = (nextFor w h (wrapProbe py kw w h).1 :: (wrapProbe py kw w h).1,
        some (nextFor w h (wrapProbe py kw w h).1)) := by
      have h4 := h1.fileno
      rw [hfn] at h4
      unfold wrapAll
      dsimp only
      rw [if_pos]
      refine ⟨hb, ?_⟩
      cases h5 : (wrapProbe py kw w h).2 with
      | some c => rw [h5] at h4; cases h4
      | none =>
        rw [h5] at h4
        refine ⟨rfl, ?_⟩
        cases h6 : kw.fileno with
        | none => rfl
        | some z => rw [h6] at h4; cases h4
    have h4 := wrap_openOsfhandle t h3 (fun r => r.keyed = true) s ⟨h1, h2⟩
    generalize openOsfhandle h s = r at *
    obtain ⟨r, s1⟩ := r
    cases r with
    | error e => exact ⟨fun _ s' h => (by cases h), fun e' s' h => by cases h; exact h4.2 e s1 rfl⟩
    | ok f =>
      obtain ⟨rfl, s0, h5, h6, rfl⟩ := h4.1 f s1 rfl
      have hm : WrapOn w kw h t (wrapAll py a kw w h).1 (wrapAll py a kw w h).2
          { raw := { s0.raw with fileno := some (nextFor w h (wrapProbe py kw w h).1) }
            host := { s0.host with cfds := (nextFor w h (wrapProbe py kw w h).1, h) :: s0.host.cfds } } := by
        rw [hall]
        exact ⟨l, tr, h5.keep, h6, h3⟩
      simp only
      split
      · exact ⟨fun _ s' h => (by cases h), fun e s' h => (by cases h; exact hm.fails)⟩
      · exact ⟨fun _ s' h => (by cases h; exact hm), fun e s' h => (by cases h)⟩

theorem wrapAll_same {py : WinPython} {a : OpenArgs} {kw : RawKw} {w : Host} {h : Nat} (hb : ¬ a.bufferingValue < 0) :
    wrapAll py a kw w h = wrapProbe py kw w h := by
  unfold wrapAll
  dsimp only
  rw [if_neg fun h => hb h.1]

theorem wrap_buffering (py : WinPython) {w : Host} {kw : RawKw} {h : Nat} (a : OpenArgs) (t : Bool) :
    Meets (WrapOn w kw h t (wrapProbe py kw w h).1 (wrapProbe py kw w h).2) (chooseBuffering a)
      (fun _ => WrapOn w kw h t (wrapAll py a kw w h).1 (wrapAll py a kw w h).2) (fun _ => WrapFailed w kw h t) := by
  unfold chooseBuffering
  refine Meets.bind (R := fun _ => WrapOn w kw h t (wrapAll py a kw w h).1 (wrapAll py a kw w h).2) ?_ fun line => ?_
  · split
    · rename_i hb
      rw [wrapAll_same (py := py) (a := a) (kw := kw) (w := w) (h := h) (by omega)]
      exact Meets.pure fun s h => h
    · split
      · rename_i hb
        unfold isatty
        exact Meets.bind (wrap_getFileno py a t hb) fun f => Meets.step _ id fun s h => h
      · rename_i hb
        rw [wrapAll_same (py := py) (a := a) (kw := kw) (w := w) (h := h) hb]
        exact Meets.pure fun s h => h
  · generalize wrapAll py a kw w h = A
    by_cases hlt : (if line = true then -1 else a.bufferingValue) < 0
    · rw [if_pos hlt]
      intro s hs
      dsimp only
      by_cases hz : s.raw.fileno.any (· ≠ 0) = true
      · rw [if_pos hz]
        have h4 := outside_meets (P := WrapOn w kw h t A.1 A.2) (E := fun _ => WrapOn w kw h t A.1 A.2)
          (fun s sched ⟨l, tr, h1, h2, h3⟩ _ => ⟨l, tr, h1.tick _, h2, h3⟩)
          (fun s e ⟨l, tr, h1, h2, h3⟩ _ _ => ⟨l, tr, h1.tick _, h2, h3⟩) s hs
        generalize outside s = r at *
        obtain ⟨r, s1⟩ := r
        cases r with
        | ok u => exact ⟨fun _ s' h => (by cases h; exact h4.1 u s1 rfl), fun e s' h => (by cases h)⟩
        | error e =>
          have h5 := h4.2 e s1 rfl
          cases e <;> first
            | exact ⟨fun _ s' h => (by cases h; exact h5), fun e s' h => (by cases h)⟩
            | exact ⟨fun _ s' h => (by cases h), fun e s' h => (by cases h; exact h5.fails)⟩
      · rw [if_neg hz]
        exact ⟨fun _ s' h => (by cases h; exact hs), fun e s' h => (by cases h)⟩
    · rw [if_neg hlt]
      exact Meets.pure fun s h => h

theorem wrap_layer (py : WinPython) {w : Host} {kw : RawKw} {h : Nat} (a : OpenArgs) (ext : ExtKw) (t : Bool)
    {E : List Nat} {O : Option Nat} (b : Int × Bool) :
    Meets (WrapOn w kw h t E O) (layer py a kw ext b.1 b.2) (fun _ => WrapOn w kw h t E O)
      (fun _ => WrapFailed w kw h t) := by
  intro s hs
  unfold layer
  dsimp only
  generalize OpenArgs.wrapper py.py a kw = wrap
  have hstream : ∀ (k : BufKind), Meets (WrapOn w kw h t E O)
      (if ext.binary = true then pure ⟨some (k, b.1.toNat), none, wrap⟩
        else do
          outside
          pure ⟨some (k, b.1.toNat), some b.2, wrap⟩ : PyM St Layers) (fun _ => WrapOn w kw h t E O)
      (fun _ => WrapFailed w kw h t) := by
    intro k
    split
    · exact Meets.pure fun s h => h
    · exact Meets.bind WrapOn.outside fun _ => Meets.pure fun s h => h
  have fails : ∀ e : Exn, Meets (WrapOn w kw h t E O) (fun s => (.error e, s) : PyM St Layers)
      (fun _ => WrapOn w kw h t E O) (fun _ => WrapFailed w kw h t) := fun e s hs =>
    ⟨fun _ s' h => (by cases h), fun e s' h => (by cases h; exact hs.fails)⟩
  split
  · split
    · exact ⟨fun _ s' h => (by cases h; exact hs), fun e s' h => (by cases h)⟩
    · exact fails _ s hs
  · split
    · split
      · exact hstream .random s hs
      · exact fails _ s hs
    · split
      · exact hstream .writer s hs
      · split
        · exact hstream .reader s hs
        · exact fails _ s hs

theorem wrap_build (py : WinPython) {w : Host} {kw : RawKw} {h : Nat} (a : OpenArgs) (ext : ExtKw) (t : Bool) :
    Meets (WrapMade py w kw h) (build py a kw ext t)
      (fun _ => WrapOn w kw h t (wrapAll py a kw w h).1 (wrapAll py a kw w h).2) (fun _ => WrapFailed w kw h t) := by
  unfold build
  refine Meets.bind (wrap_prepare a t) fun _ => ?_
  exact Meets.bind (wrap_buffering py a t) fun b => wrap_layer py a ext t b

/-! ## Closing -/

/-- The descriptor that `close` closes. -/
def closes (kw : RawKw) (O : Option Nat) : Option Nat := O.or (kw.fileno.map Int.toNat)

theorem lookup_mapped {E : List Nat} {m : List (Nat × Nat)} {f h : Nat} (hm : f ∈ E) :
    (E.map (·, h) ++ m).lookup f = some h := by
  induction E with
  | nil => cases hm
  | cons c E ih =>
    rw [List.map_cons, List.cons_append, List.lookup_cons]
    split
    · rfl
    · rename_i hne
      rcases List.mem_cons.1 hm with rfl | hm
      · simp at hne
      · exact ih hm

theorem lookup_passed {E : List Nat} {m : List (Nat × Nat)} {f h : Nat} (hm : f ∉ E) :
    (E.map (·, h) ++ m).lookup f = m.lookup f := by
  induction E with
  | nil => rfl
  | cons c E ih =>
    rw [List.map_cons, List.cons_append, List.lookup_cons]
    split
    · rename_i he
      rw [beq_iff_eq] at he
      exact absurd (he ▸ List.mem_cons_self) hm
    · exact ih fun h => hm (List.mem_cons_of_mem _ h)

section

variable {w : Host} {kw : RawKw} {h : Nat} {E : List Nat} {O : Option Nat} {l b tr : Bool} {s : St}

theorem Wrap.lookup (hw : Wrap w kw h E O l b tr s) (hn : Named kw w h) (hx : kw.handle ≠ none → kw.fileno = none) {f : Nat}
    (hf : s.raw.fileno = some f) : s.host.cfds.lookup f = some h := by
  rw [hw.cfds]
  rw [hw.fileno] at hf
  by_cases hm : f ∈ E
  · exact lookup_mapped hm
  · rw [lookup_passed hm]
    cases ho : O with
    | some c =>
      rw [ho] at hf
      cases hf
      exact absurd (hw.own _ ho) hm
    | none =>
      rw [ho] at hf
      cases hn with
      | handle h1 => rw [hx (by rw [h1]; simp)] at hf; cases hf
      | fileno g h1 h2 h3 h4 =>
        rw [h2] at hf
        cases hf
        exact h3

/-- What closing the stream does. -/
structure Closing (w : Host) (kw : RawKw) (h : Nat) (E : List Nat) (O : Option Nat) (b : Bool) (s : St)
    (r : Except Exn Unit) (v : Host) : Prop where
  nodes : v.nodes = s.host.nodes
  names : v.names = s.host.names
  held : v.held = if s.raw.keyed then s.host.held.filter fun k => k ≠ h else s.host.held
  kept : b = false → r = .ok () ∧ v.handles = w.handles ∧ v.cfds = E.map (·, h) ++ w.cfds
  done : b = true → (w.handles.lookup h).isSome → r = .ok ()
  handles : b = true → v.handles = w.handles.filter fun e => e.1 ≠ h
  cfds : b = true → v.cfds = match closes kw O with
    | some f => (E.map (·, h) ++ w.cfds).filter fun e => e.1 ≠ f
    | none => E.map (·, h) ++ w.cfds

theorem Wrap.close (hw : Wrap w kw h E O l b tr s) (hn : Named kw w h) (hx : kw.handle ≠ none → kw.fileno = none) :
    Closing w kw h E O b s (closeRaw s.raw s.host).1 (closeRaw s.raw s.host).2 := by
  have hhand : ∀ v : Host, v.handles = w.handles →
      ((w.handles.lookup h).isSome → (closeHandle h v).1 = .ok ()) ∧
      (closeHandle h v).2.nodes = v.nodes ∧ (closeHandle h v).2.names = v.names ∧
      (closeHandle h v).2.held = v.held ∧ (closeHandle h v).2.cfds = v.cfds ∧
      (closeHandle h v).2.handles = w.handles.filter fun e => e.1 ≠ h := by
    intro v hv
    unfold closeHandle
    rw [hv]
    split
    · rename_i h1
      rw [Option.isNone_iff_eq_none] at h1
      refine ⟨fun h => (by rw [h1] at h; cases h), rfl, rfl, rfl, rfl, ?_⟩
      rw [filter_fresh h1]
      exact hv
    · exact ⟨fun _ => rfl, rfl, rfl, rfl, rfl, rfl⟩
  unfold closeRaw
  extract_lets v
  have hv : v.handles = s.host.handles ∧ v.cfds = s.host.cfds ∧ v.nodes = s.host.nodes ∧ v.names = s.host.names ∧
      v.held = if s.raw.keyed then s.host.held.filter fun k => k ≠ h else s.host.held := by
    unfold v
    rw [hw.handle]
    cases s.raw.keyed
    · exact ⟨rfl, rfl, rfl, rfl, rfl⟩
    · exact ⟨rfl, rfl, rfl, rfl, by simp⟩
  obtain ⟨hv1, hv2, hv3, hv4, hv5⟩ := hv
  rw [hw.handles] at hv1
  rw [hw.cfds] at hv2
  rw [hw.closefd]
  cases b with
  | false =>
    exact { nodes := hv3, names := hv4, held := hv5, kept := fun _ => ⟨rfl, hv1, hv2⟩, done := nofun, handles := nofun,
            cfds := nofun }
  | true =>
    rw [if_pos rfl, hw.handle]
    cases hf : s.raw.fileno with
    | none =>
      obtain ⟨h1, h2, h3, h4, h5, h6⟩ := hhand v hv1
      exact { nodes := h2.trans hv3, names := h3.trans hv4, held := h4.trans hv5, kept := nofun, done := fun _ => h1,
              handles := fun _ => h6
              cfds := fun _ => by
                unfold closes
                rw [← hw.fileno, hf]
                exact h5.trans hv2 }
    | some f =>
      simp only
      have hl := hw.lookup hn hx hf
      rw [hw.cfds] at hl
      unfold closeC
      rw [hv2, hl]
      simp only
      obtain ⟨h1, h2, h3, h4, h5, h6⟩ := hhand
        { v with cfds := (E.map (·, h) ++ w.cfds).filter fun e => decide (e.1 ≠ f) } hv1
      exact { nodes := h2.trans hv3, names := h3.trans hv4, held := h4.trans hv5, kept := nofun, done := fun _ => h1,
              handles := fun _ => h6
              cfds := fun _ => by
                unfold closes
                rw [← hw.fileno, hf]
                exact h5 }

/-- The locks after closing. -/
theorem Closing.locks {r : Except Exn Unit} {v : Host} (hw : Wrap w kw h E O l b tr s) (hc : Closing w kw h E O b s r v) :
    (∀ k, k ≠ h → (k ∈ v.held ↔ k ∈ w.held)) ∧ (h ∈ v.held → h ∈ w.held) := by
  rw [hc.held, hw.held]
  cases l with
  | true =>
    rw [hw.keyed rfl]
    simp only [if_true]
    refine ⟨fun k hk => ?_, fun hm => ?_⟩
    · simp [hk]
    · simp at hm
  | false =>
    simp only [Bool.false_eq_true, if_false]
    split
    · refine ⟨fun k hk => ?_, fun hm => ?_⟩
      · simp [hk]
      · simp at hm
    · exact ⟨fun k _ => Iff.rfl, id⟩

end

end Verif.WinOpen
