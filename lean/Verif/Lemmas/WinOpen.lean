import Verif.Model.WinOpen
import Verif.Lemmas.Open

/-!
# The course of `rsopen` on windows, for a path
-/

set_option autoImplicit false

namespace Verif.WinOpen

open Verif

/-! ## Free handles and descriptors -/

theorem not_all_used {β : Type} (l : List (Nat × β)) (f : Nat → Nat) (hf : ∀ i j, f i = f j → i = j) :
    ∃ n, (List.range (l.length + 1)).find? (fun n => (l.lookup (f n)).isNone) = some n ∧ l.lookup (f n) = none ∧
      n ≤ l.length := by
  cases h : (List.range (l.length + 1)).find? fun n => (l.lookup (f n)).isNone with
  | some n =>
    have h1 := List.find?_some h
    have h2 := List.mem_of_find?_eq_some h
    rw [List.mem_range] at h2
    exact ⟨n, rfl, by simpa using h1, by omega⟩
  | none =>
    exfalso
    rw [List.find?_eq_none] at h
    have hsub : (List.range (l.length + 1)).map f ⊆ l.map Prod.fst := by
      intro x hx
      obtain ⟨n, hn, rfl⟩ := List.mem_map.1 hx
      have h' := h n hn
      rw [List.mem_map]
      cases hl : l.lookup (f n) with
      | none => rw [hl] at h'; simp at h'
      | some d => exact ⟨(f n, d), List.lookup_eq_some_iff.1 hl |> fun ⟨a, b, h, _⟩ => by rw [h]; simp, rfl⟩
    have hnd : ((List.range (l.length + 1)).map f).Nodup := by
      rw [List.nodup_iff_pairwise_ne, List.pairwise_map]
      exact (List.nodup_range (n := l.length + 1)).imp fun hne he => hne (hf _ _ he)
    have := hnd.length_le_of_subset hsub
    simp at this
    omega

theorem freeHandle_free (w : Host) : w.handles.lookup w.freeHandle = none := by
  obtain ⟨n, h1, h2, _⟩ := not_all_used w.handles (fun n => 4 * (n + 1)) (by intro i j h; omega)
  unfold Host.freeHandle
  rw [h1]
  exact h2

theorem freeC_free (w : Host) : w.cfds.lookup w.freeC = none := by
  obtain ⟨n, h1, h2, _⟩ := not_all_used w.cfds id (fun _ _ h => h)
  unfold Host.freeC
  simp only [id] at h1 h2
  rw [h1]
  exact h2

theorem freeC_le (w : Host) : w.freeC ≤ w.cfds.length := by
  obtain ⟨n, h1, _, h3⟩ := not_all_used w.cfds id (fun _ _ h => h)
  unfold Host.freeC
  simp only [id] at h1
  rw [h1]
  exact h3

theorem freeC_zero {w : Host} (h : w.cfds.lookup 0 = none) : w.freeC = 0 := by
  unfold Host.freeC
  rw [List.range_succ_eq_map, List.find?_cons, h]
  rfl

theorem freeC_eq {w w' : Host} (h : w'.cfds = w.cfds) : w'.freeC = w.freeC := by
  unfold Host.freeC
  rw [h]

/-! ## Conditions before and after -/

variable {α β : Type}

/-- Started in a state with `P`, the computation ends with `Q` or raises with `E`. -/
def Meets (P : St → Prop) (m : PyM St α) (Q : α → St → Prop) (E : Exn → St → Prop) : Prop :=
  ∀ s, P s → (∀ a s', m s = (.ok a, s') → Q a s') ∧ ∀ e s', m s = (.error e, s') → E e s'

theorem Meets.bind {P : St → Prop} {m : PyM St α} {R : α → St → Prop} {E : Exn → St → Prop} {f : α → PyM St β}
    {Q : β → St → Prop} (hm : Meets P m R E) (hf : ∀ a, Meets (R a) (f a) Q E) : Meets P (m >>= f) Q E := by
  intro s hs
  have h1 := hm s hs
  rw [PyM.bind_apply]
  generalize m s = r at *
  obtain ⟨r, s'⟩ := r
  cases r with
  | ok a => exact hf a s' (h1.1 a s' rfl)
  | error e =>
    refine ⟨fun a s'' h => ?_, fun e' s'' h => ?_⟩
    · simp at h
    · cases h
      exact h1.2 e s' rfl

theorem Meets.pure {P : St → Prop} {Q : α → St → Prop} {E : Exn → St → Prop} {a : α} (h : ∀ s, P s → Q a s) :
    Meets P (pure a : PyM St α) Q E := by
  intro s hs
  refine ⟨fun b s' hb => ?_, fun e s' he => by cases he⟩
  cases hb
  exact h s hs

theorem Meets.mono {P P' : St → Prop} {m : PyM St α} {Q Q' : α → St → Prop} {E E' : Exn → St → Prop}
    (h : Meets P m Q E) (hp : ∀ s, P' s → P s) (hq : ∀ a s, Q a s → Q' a s) (he : ∀ e s, E e s → E' e s) :
    Meets P' m Q' E' := fun s hs =>
  ⟨fun a s' h' => hq a s' ((h s (hp s hs)).1 a s' h'), fun e s' h' => he e s' ((h s (hp s hs)).2 e s' h')⟩

theorem Meets.when {P : St → Prop} {c : Bool} {m : PyM St α} {Q : St → Prop} {E : Exn → St → Prop}
    (h : c = true → Meets P m (fun _ => Q) E) (h' : c = false → ∀ s, P s → Q s) : Meets P (PyM.when c m) (fun _ => Q) E := by
  intro s hs
  unfold PyM.when
  cases c with
  | false => exact ⟨fun a s' h => by cases h; exact h' rfl s hs, fun e s' h => by cases h⟩
  | true =>
    have h1 := h rfl s hs
    simp only [if_true]
    generalize m s = r at *
    obtain ⟨r, s'⟩ := r
    cases r with
    | ok a => exact ⟨fun b s'' h => by cases h; exact h1.1 a s' rfl, fun e s'' h => by cases h⟩
    | error e => exact ⟨fun b s'' h => (by cases h), fun e' s'' h => by cases h; exact h1.2 e s' rfl⟩

/-- A step that does not fail. -/
theorem Meets.step {P : St → Prop} {Q : α → St → Prop} {E : Exn → St → Prop} (f : St → α) (g : St → St)
    (h : ∀ s, P s → Q (f s) (g s)) : Meets P (fun s => (.ok (f s), g s)) Q E := by
  intro s hs
  refine ⟨fun b s' hb => ?_, fun e s' he => by cases he⟩
  cases hb
  exact h s hs

/-- A call to the outside. -/
theorem outside_meets {P : St → Prop} {E : Exn → St → Prop}
    (ht : ∀ s sched, P s → (∀ x ∈ sched, x ∈ s.host.sched) → P { s with host := { s.host with sched := sched } })
    (he : ∀ s e, P s → (∀ s', P s' → s'.host.sched = s.host.sched → some e ∈ s'.host.sched) → some e ∈ s.host.sched →
      E e { s with host := { s.host with sched := s.host.sched.tail } }) :
    Meets P outside (fun _ => P) E := by
  intro s hs
  unfold outside
  cases hsc : s.host.sched with
  | nil => exact ⟨fun a s' h => by cases h; exact hs, fun e s' h => by cases h⟩
  | cons x rest =>
    cases x with
    | none =>
      refine ⟨fun a s' h => ?_, fun e s' h => by cases h⟩
      cases h
      exact ht s rest hs fun x hx => by rw [hsc]; exact List.mem_cons_of_mem _ hx
    | some e =>
      refine ⟨fun a s' h => (by cases h), fun e' s' h => ?_⟩
      cases h
      have := he s e hs (fun s' _ h => by rw [h, hsc]; simp) (by rw [hsc]; simp)
      rw [hsc] at this
      exact this

/-! ## The world during the call -/

/-- What `CreateFile` does: the file that it opens, and the world without the new handle. -/
inductive Enters (p : Bytes) (kw : RawKw) (w : Host) : Nat → Host → Prop where
  | old {ino : Nat} (hl : w.names.lookup p = some ino) (hx : ¬ (kw.mustNotCreate = false ∧ kw.mustCreate = true))
      (hd : (w.nodes[ino]?.map Node.kind) ≠ some .directory) : Enters p kw w ino w
  | new (hl : w.names.lookup p = none) (hx : kw.mustNotCreate = false) : Enters p kw w w.nodes.length (w.newFile p)

/-- The new handle. -/
def entry (kw : RawKw) (ino : Nat) : Handle :=
  ⟨ino, kw.read, kw.write || kw.append, kw.synchronized, kw.inheritable⟩

/-- An emptied file. -/
def erased (n : Node) : Node := { n with data := [] }

/-- The situation after `CreateFile`: `leaked` are the descriptors of the C library that nobody knows; the file was
locked (`l`) and truncated (`tr`) or not. -/
structure On (w : Host) (kw : RawKw) (ino : Nat) (base : Host) (leaked : List Nat) (l tr : Bool) (s : St) : Prop where
  handle : s.raw.handle = some w.freeHandle
  closefd : s.raw.closefd = kw.closefd
  readable : s.raw.readable = kw.read
  writable : s.raw.writable = (kw.write || kw.append)
  nodes : s.host.nodes = if tr then base.nodes.modify ino erased else base.nodes
  names : s.host.names = base.names
  handles : s.host.handles = (w.freeHandle, entry kw ino) :: w.handles
  cfds : s.host.cfds = s.raw.fileno.toList.map (·, w.freeHandle) ++ (leaked.map (·, w.freeHandle) ++ w.cfds)
  held : s.host.held = if l then w.freeHandle :: w.held else w.held
  sched : ∀ x ∈ s.host.sched, x ∈ w.sched
  log : s.host.log = base.log ++ ([.opened w.freeHandle ino] ++ ((if l then [.locked w.freeHandle] else []) ++
    (if tr then [.truncated w.freeHandle] else [])))
  fresh : ∀ f, s.raw.fileno = some f → (leaked.map (·, w.freeHandle) ++ w.cfds).lookup f = none
  leaks : ∀ c ∈ leaked, w.cfds.lookup c = none ∧ c < cLimit
  keyed : l = true → s.raw.keyed = true

theorem Enters.base {p : Bytes} {kw : RawKw} {w base : Host} {ino : Nat} (h : Enters p kw w ino base) :
    base.handles = w.handles ∧ base.cfds = w.cfds ∧ base.held = w.held ∧ base.sched = w.sched := by
  cases h <;> exact ⟨rfl, rfl, rfl, rfl⟩

theorem newFile_free (p : Bytes) (w : Host) : (w.newFile p).freeHandle = w.freeHandle := rfl

/-- The world before the call, after some calls to the outside. -/
def Before (w : Host) (kw : RawKw) (s : St) : Prop :=
  s.raw = blank kw ∧ (∃ sched, s.host = { w with sched := sched }) ∧ ∀ x ∈ s.host.sched, x ∈ w.sched

/-- Why opening the path was refused. -/
inductive Refusal (p : Bytes) (kw : RawKw) (w : Host) : Exn → Prop where
  | outside {e : Exn} (h : some e ∈ w.sched) : Refusal p kw w e
  | exists_ (h1 : (w.names.lookup p).isSome) (h2 : kw.mustNotCreate = false) (h3 : kw.mustCreate = true) :
      Refusal p kw w (.ioError 17)
  | directory {ino : Nat} (h : w.names.lookup p = some ino) (hd : (w.nodes[ino]?.map Node.kind) = some .directory) :
      Refusal p kw w (.ioError 13)
  | missing (h1 : w.names.lookup p = none) (h2 : kw.mustNotCreate = true) : Refusal p kw w (.ioError 2)

theorem createFile_meets (p : Bytes) (kw : RawKw) (w : Host) :
    Meets (Before w kw) (createFile p kw)
      (fun h s => h = w.freeHandle ∧ ∃ ino base, Enters p kw w ino base ∧
        ∃ sched, s = ⟨{ base.newHandle ino kw with sched := sched }, blank kw⟩ ∧ ∀ x ∈ sched, x ∈ w.sched)
      (fun e s => Before w kw s ∧ Refusal p kw w e) := by
  unfold createFile
  refine Meets.bind (R := fun _ => Before w kw) (outside_meets ?_ ?_) fun _ => ?_
  · rintro ⟨s, r⟩ sched ⟨h1, ⟨sc, h2⟩, h3⟩ h4
    simp only at h1 h2 h3 h4
    subst h2
    exact ⟨h1, ⟨sched, rfl⟩, fun x hx => h3 x (h4 x hx)⟩
  · rintro ⟨s, r⟩ e ⟨h1, ⟨sc, h2⟩, h3⟩ _ h4
    simp only at h1 h2 h3 h4
    subst h2
    exact ⟨⟨h1, ⟨sc.tail, rfl⟩, fun x hx => h3 x (List.mem_of_mem_tail hx)⟩, .outside (h3 _ h4)⟩
  · rintro ⟨s, r⟩ ⟨h1, ⟨sc, h2⟩, h3⟩
    simp only at h1 h2 h3
    subst h1
    subst h2
    simp only
    have hb : Before w kw ⟨{ w with sched := sc }, blank kw⟩ := ⟨rfl, ⟨sc, rfl⟩, h3⟩
    cases hl : w.names.lookup p with
    | some ino =>
      simp only
      split
      · rename_i hx
        rw [Bool.and_eq_true, Bool.not_eq_true'] at hx
        exact ⟨fun a s' h => (by cases h), fun e s' h => by cases h; exact ⟨hb, .exists_ (by rw [hl]; rfl) hx.1 hx.2⟩⟩
      · rename_i hx
        rw [Bool.and_eq_true, Bool.not_eq_true'] at hx
        split
        · rename_i hd
          exact ⟨fun a s' h => (by cases h), fun e s' h => by cases h; exact ⟨hb, .directory hl hd⟩⟩
        · rename_i hd
          refine ⟨fun a s' h => ?_, fun e s' h => by cases h⟩
          cases h
          exact ⟨rfl, ino, w, .old hl hx hd, sc, rfl, h3⟩
    | none =>
      simp only
      split
      · rename_i hx
        exact ⟨fun a s' h => (by cases h), fun e s' h => by cases h; exact ⟨hb, .missing hl hx⟩⟩
      · rename_i hx
        refine ⟨fun a s' h => ?_, fun e s' h => by cases h⟩
        cases h
        exact ⟨rfl, w.nodes.length, w.newFile p, .new hl (by simpa using hx), sc, rfl, h3⟩

/-- The path of the arguments of the raw stream, and nothing else. -/
structure PathKw (kw : RawKw) (p : Bytes) : Prop where
  path : kw.path = .path p
  fileno : kw.fileno = none
  handle : kw.handle = none

theorem findHandle_meets {kw : RawKw} {p : Bytes} (hk : PathKw kw p) (w : Host) :
    Meets (Before w kw) (findHandle kw)
      (fun h s => h = w.freeHandle ∧ ∃ ino base, Enters p kw w ino base ∧ On w kw ino base [] false false s ∧
        s.raw.fileno = none ∧ s.raw.keyed = false)
      (fun e s => Before w kw s ∧ Refusal p kw w e) := by
  unfold findHandle
  rw [hk.path, hk.fileno, hk.handle]
  refine Meets.bind (createFile_meets p kw w) fun h => ?_
  intro s hs
  obtain ⟨rfl, ino, base, hin, sched, rfl, hsc⟩ := hs
  obtain ⟨hb1, hb2, hb3, hb4⟩ := hin.base
  have hfree : base.freeHandle = w.freeHandle := by cases hin <;> rfl
  refine ⟨fun a s' h => ?_, fun e s' h => by cases h⟩
  cases h
  refine ⟨rfl, ino, base, hin, ?_, rfl, rfl⟩
  refine ⟨rfl, rfl, rfl, rfl, rfl, rfl, ?_, ?_, hb3, hsc, ?_, ?_, by simp, by simp⟩
  · simp [Host.newHandle, hfree, entry, hb1]
  · simp [blank, Host.newHandle, hb2]
  · simp [Host.newHandle, hfree]
  · intro f hf
    cases hf

theorem On.tick {w : Host} {kw : RawKw} {ino : Nat} {base : Host} {leaked : List Nat} {l tr : Bool} {s : St}
    (h : On w kw ino base leaked l tr s) {sched : List (Option Exn)} (hs : ∀ x ∈ sched, x ∈ s.host.sched) :
    On w kw ino base leaked l tr { s with host := { s.host with sched := sched } } :=
  { handle := h.handle, closefd := h.closefd, readable := h.readable, writable := h.writable, nodes := h.nodes,
    names := h.names, handles := h.handles, cfds := h.cfds, held := h.held, log := h.log, fresh := h.fresh,
    leaks := h.leaks, keyed := h.keyed, sched := fun x hx => h.sched x (hs x hx) }

/-- The next descriptor of the C library, `leaked` being taken. -/
def nextC (w : Host) (leaked : List Nat) : Nat :=
  ({ w with cfds := leaked.map (·, w.freeHandle) ++ w.cfds } : Host).freeC

theorem nextC_free (w : Host) (leaked : List Nat) :
    (leaked.map (·, w.freeHandle) ++ w.cfds).lookup (nextC w leaked) = none :=
  freeC_free ({ w with cfds := leaked.map (·, w.freeHandle) ++ w.cfds } : Host)

theorem nextC_le (w : Host) (leaked : List Nat) : nextC w leaked ≤ leaked.length + w.cfds.length := by
  have := freeC_le ({ w with cfds := leaked.map (·, w.freeHandle) ++ w.cfds } : Host)
  simp only [List.length_append, List.length_map] at this
  exact this

theorem nextC_nil (w : Host) : nextC w [] = w.freeC := rfl

theorem lookup_append_none {β γ : Type} [BEq β] {l m : List (β × γ)} {k : β} (h : (l ++ m).lookup k = none) :
    l.lookup k = none ∧ m.lookup k = none := by
  induction l with
  | nil => exact ⟨rfl, h⟩
  | cons x l ih =>
    obtain ⟨x1, x2⟩ := x
    rw [List.cons_append, List.lookup_cons] at h
    rw [List.lookup_cons]
    split at h
    · cases h
    · exact ih h

/-- A descriptor of the C library is made. -/
theorem openOsfhandle_meets {w : Host} {kw : RawKw} {ino : Nat} {base : Host} {leaked : List Nat} {l tr : Bool}
    (R : Raw → Prop) :
    Meets (fun s => On w kw ino base leaked l tr s ∧ s.raw.fileno = none ∧ R s.raw) (openOsfhandle w.freeHandle)
      (fun f s => f = nextC w leaked ∧ f < cLimit ∧ ∃ s0, On w kw ino base leaked l tr s0 ∧ s0.raw.fileno = none ∧ R s0.raw ∧
        s = { s0 with host := { s0.host with cfds := (f, w.freeHandle) :: s0.host.cfds } })
      (fun e s => (On w kw ino base leaked l tr s ∧ s.raw.fileno = none ∧ R s.raw) ∧
        (some e ∈ w.sched ∨ (e = .ioError 24 ∧ cLimit ≤ nextC w leaked))) := by
  unfold openOsfhandle
  refine Meets.bind (R := fun _ s => On w kw ino base leaked l tr s ∧ s.raw.fileno = none ∧ R s.raw)
    (outside_meets ?_ ?_) fun _ => ?_
  · rintro s sched ⟨h1, h2⟩ h3
    exact ⟨h1.tick h3, h2⟩
  · rintro s e ⟨h1, h2⟩ _ h3
    exact ⟨⟨h1.tick fun x hx => List.mem_of_mem_tail hx, h2⟩, .inl (h1.sched _ h3)⟩
  · rintro s ⟨h1, h2, h3⟩
    have hc : s.host.freeC = nextC w leaked := by
      refine freeC_eq (w := { w with cfds := leaked.map (·, w.freeHandle) ++ w.cfds }) ?_
      rw [h1.cfds, h2]
      rfl
    have hl : s.host.handles.lookup w.freeHandle = some (entry kw ino) := by
      rw [h1.handles, List.lookup_cons]
      simp
    dsimp only
    rw [hl, hc]
    simp only [Option.isNone_some, Bool.false_eq_true, if_false]
    split
    · rename_i h
      exact ⟨fun a s' h => (by cases h), fun e s' h' => by cases h'; exact ⟨⟨h1, h2, h3⟩, .inr ⟨rfl, h⟩⟩⟩
    · rename_i h
      refine ⟨fun a s' h' => ?_, fun e s' h => by cases h⟩
      cases h'
      exact ⟨rfl, by omega, s, h1, h2, h3, rfl⟩

/-- The new descriptor is kept by the stream. -/
theorem On.keep {w : Host} {kw : RawKw} {ino : Nat} {base : Host} {leaked : List Nat} {l tr : Bool} {s : St}
    (h : On w kw ino base leaked l tr s) (hn : s.raw.fileno = none) :
    On w kw ino base leaked l tr
      { raw := { s.raw with fileno := some (nextC w leaked) }
        host := { s.host with cfds := (nextC w leaked, w.freeHandle) :: s.host.cfds } } :=
  { handle := h.handle, closefd := h.closefd, readable := h.readable, writable := h.writable, nodes := h.nodes,
    names := h.names, handles := h.handles, held := h.held, log := h.log, leaks := h.leaks, keyed := h.keyed,
    sched := h.sched
    cfds := by
      simp only
      rw [h.cfds, hn]
      rfl
    fresh := by
      rintro f hf
      cases hf
      exact nextC_free w leaked }

/-- The new descriptor is forgotten. -/
theorem On.forget {w : Host} {kw : RawKw} {ino : Nat} {base : Host} {leaked : List Nat} {l tr : Bool} {s : St}
    (h : On w kw ino base leaked l tr s) (hn : s.raw.fileno = none) (hlt : nextC w leaked < cLimit) :
    On w kw ino base (nextC w leaked :: leaked) l tr
      { s with host := { s.host with cfds := (nextC w leaked, w.freeHandle) :: s.host.cfds } } :=
  { handle := h.handle, closefd := h.closefd, readable := h.readable, writable := h.writable, nodes := h.nodes,
    names := h.names, handles := h.handles, held := h.held, log := h.log, keyed := h.keyed, sched := h.sched
    leaks := by
      intro c hc
      rcases List.mem_cons.1 hc with rfl | hc
      · exact ⟨(lookup_append_none (nextC_free w leaked)).2, hlt⟩
      · exact h.leaks c hc
    cfds := by
      simp only
      rw [h.cfds, hn]
      rfl
    fresh := by
      intro f hf
      rw [show s.raw.fileno = none from hn] at hf
      cases hf }

/-- The stream is searched for a pipe that does not block. -/
def probes (py : WinPython) (kw : RawKw) : Bool := (kw.write || kw.append) && py.blockingModes

/-- The file is a pipe that does not block. -/
def noWait (base : Host) (ino : Nat) : Bool := base.nodes[ino]?.any Node.nonblocking

/-- The descriptors that nobody knows, and the one of the stream, after the search. -/
def afterProbe (py : WinPython) (kw : RawKw) (w base : Host) (ino : Nat) : List Nat × Option Nat :=
  if probes py kw then
    if noWait base ino then ([], some (nextC w [])) else ([nextC w []], none)
  else ([], none)

theorem On.nodeOf {w : Host} {kw : RawKw} {ino : Nat} {base : Host} {leaked : List Nat} {l : Bool} {s : St}
    (h : On w kw ino base leaked l false s) (hc : List (Nat × Nat)) :
    ({ s.host with cfds := hc } : Host).nodeOf w.freeHandle = base.nodes[ino]? := by
  unfold Host.nodeOf
  simp only
  rw [h.handles, List.lookup_cons]
  simp only [beq_self_eq_true]
  rw [h.nodes]
  rfl

theorem probe_meets (py : WinPython) {w : Host} {kw : RawKw} {ino : Nat} {base : Host} (R : Raw → Prop)
    (hR : ∀ r f, R r → R { r with fileno := f }) :
    Meets (fun s => On w kw ino base [] false false s ∧ s.raw.fileno = none ∧ R s.raw) (probe py kw w.freeHandle)
      (fun _ s => On w kw ino base (afterProbe py kw w base ino).1 false false s ∧
        s.raw.fileno = (afterProbe py kw w base ino).2 ∧ R s.raw)
      (fun e s => (On w kw ino base [] false false s ∧ s.raw.fileno = none ∧ R s.raw) ∧
        (some e ∈ w.sched ∨ (e = .ioError 24 ∧ probes py kw = true ∧ cLimit ≤ nextC w []))) := by
  unfold probe
  refine Meets.when (fun hp => ?_) fun hp s hs => ?_
  · refine Meets.bind ((openOsfhandle_meets R).mono (fun _ h => h) (fun _ _ h => h) ?_) fun f => ?_
    · rintro e s ⟨h1, h2⟩
      refine ⟨h1, h2.imp id fun h => ⟨h.1, hp, h.2⟩⟩
    · rintro s ⟨rfl, hlt, s0, h1, h2, h3, rfl⟩
      simp only
      rw [h1.nodeOf]
      unfold afterProbe
      rw [show probes py kw = true from hp, if_pos rfl]
      split
      · rename_i hb
        rw [show noWait base ino = true from hb, if_pos rfl]
        refine ⟨fun a s' h => ?_, fun e s' h => by cases h⟩
        cases h
        exact ⟨h1.keep h2, rfl, hR _ _ h3⟩
      · rename_i hb
        rw [show noWait base ino = false from by simpa [noWait] using hb, if_neg (by simp)]
        refine ⟨fun a s' h => ?_, fun e s' h => by cases h⟩
        cases h
        exact ⟨h1.forget h2 hlt, h2, h3⟩
  · unfold afterProbe
    rw [show probes py kw = false from hp, if_neg (by simp)]
    exact hs

/-! ## The constructor -/

/-- The stream is seekable, or is taken for it. -/
def seekOf (py : WinPython) (kw : RawKw) (base : Host) (ino : Nat) : Bool :=
  !(probes py kw && noWait base ino) || decide (base.nodes[ino]?.map Node.kind = some .regular)

/-- Why the call fails after the path was opened. -/
inductive Why (py : WinPython) (a : OpenArgs) (kw : RawKw) (ext : ExtKw) (w base : Host) (ino : Nat) : Exn → Prop where
  | outside {e : Exn} (h : some e ∈ w.sched) : Why py a kw ext w base ino e
  | overflow (h : some .overflowError ∈ w.sched) : Why py a kw ext w base ino .badValueType
  | probe (hp : probes py kw = true) (h : cLimit ≤ nextC w []) : Why py a kw ext w base ino (.ioError 24)
  | isatty (hb : a.bufferingValue < 0) (h : cLimit ≤ nextC w (afterProbe py kw w base ino).1) :
      Why py a kw ext w base ino (.ioError 24)
  | zero (hb : a.bufferingValue < 0)
      (h : nextC w (afterProbe py kw w base ino).1 = 0 ∨ (afterProbe py kw w base ino).2 = some 0) :
      Why py a kw ext w base ino .assertionError
  | unbuffered (hb : a.bufferingValue = 0) (h : ext.binary = false) : Why py a kw ext w base ino .badValueType
  | unseekable (hr : kw.read = true) (hw : (kw.write || kw.append) = true) (h : seekOf py kw base ino = false) :
      Why py a kw ext w base ino .unsupported

/-- What was done to the file when the call failed. -/
structure Fair (a : OpenArgs) (t l tr : Bool) : Prop where
  locks : l = true → a.locking = true
  erases : tr = true → t = true
  order : tr = true → a.locking = true → l = true

/-- The call failed after the path was opened. -/
def Failed (py : WinPython) (a : OpenArgs) (kw : RawKw) (ext : ExtKw) (t : Bool) (p : Bytes) (w : Host) (e : Exn) (s : St) :
    Prop :=
  ∃ ino base leaked l tr, Enters p kw w ino base ∧ On w kw ino base leaked l tr s ∧
    (leaked = [] ∨ (probes py kw = true ∧ leaked = [nextC w []])) ∧ Fair a t l tr ∧ Why py a kw ext w base ino e

theorem afterProbe_leaked (py : WinPython) (kw : RawKw) (w base : Host) (ino : Nat) :
    (afterProbe py kw w base ino).1 = [] ∨
      (probes py kw = true ∧ (afterProbe py kw w base ino).1 = [nextC w []]) := by
  unfold afterProbe
  split
  · rename_i h
    split
    · exact .inl rfl
    · exact .inr ⟨h, rfl⟩
  · exact .inl rfl

theorem Fair.none (a : OpenArgs) (t : Bool) : Fair a t false false := ⟨nofun, nofun, nofun⟩

theorem On.setKeyed {w : Host} {kw : RawKw} {ino : Nat} {base : Host} {leaked : List Nat} {l tr : Bool} {s : St}
    (h : On w kw ino base leaked l tr s) :
    On w kw ino base leaked l tr { s with raw := { s.raw with keyed := true } } :=
  { handle := h.handle, closefd := h.closefd, readable := h.readable, writable := h.writable, nodes := h.nodes,
    names := h.names, handles := h.handles, cfds := h.cfds, held := h.held, log := h.log, fresh := h.fresh,
    leaks := h.leaks, keyed := fun _ => rfl, sched := h.sched }

theorem createStreams_meets (py : WinPython) (a : OpenArgs) {kw : RawKw} (ext : ExtKw) (t : Bool) {p : Bytes}
    (hk : PathKw kw p) (w : Host) :
    Meets (Before w kw) (createStreams py kw)
      (fun _ s => ∃ ino base, Enters p kw w ino base ∧ On w kw ino base (afterProbe py kw w base ino).1 false false s ∧
        s.raw.fileno = (afterProbe py kw w base ino).2 ∧ s.raw.keyed = true)
      (fun e s => (Before w kw s ∧ Refusal p kw w e) ∨ Failed py a kw ext t p w e s) := by
  unfold createStreams
  refine Meets.bind ((findHandle_meets hk w).mono (fun _ h => h) (fun _ _ h => h) fun _ _ h => .inl h) fun h => ?_
  rintro s ⟨rfl, ino, base, hin, hon, hf, hkeyed⟩
  refine (Meets.bind (P := fun s => On w kw ino base [] false false s ∧ s.raw.fileno = none ∧ s.raw.keyed = false)
    (R := fun _ s => On w kw ino base (afterProbe py kw w base ino).1 false false s ∧
        s.raw.fileno = (afterProbe py kw w base ino).2)
    ((probe_meets py (fun r => r.keyed = false) fun r f h => h).mono (fun _ h => h) (fun _ _ h => ⟨h.1, h.2.1⟩) ?_)
      fun _ => ?_) s ⟨hon, hf, hkeyed⟩
  · rintro e s ⟨⟨h1, h2, h3⟩, h4⟩
    refine .inr ⟨ino, base, [], false, false, hin, h1, .inl rfl, .none a t, ?_⟩
    rcases h4 with h4 | ⟨rfl, h4, h5⟩
    · exact .outside h4
    · exact .probe h4 h5
  · refine Meets.step _ _ ?_
    rintro s ⟨h1, h2⟩
    exact ⟨ino, base, hin, h1.setKeyed, h2, rfl⟩

theorem Enters.notDir {p : Bytes} {kw : RawKw} {w base : Host} {ino : Nat} (h : Enters p kw w ino base) :
    (base.nodes[ino]?.map Node.kind) ≠ some .directory := by
  cases h with
  | old _ _ hd => exact hd
  | new => simp [Host.newFile]

/-- The stream is complete. -/
structure Made (py : WinPython) (kw : RawKw) (w : Host) (ino : Nat) (base : Host) (l tr : Bool) (s : St) : Prop where
  on : On w kw ino base (afterProbe py kw w base ino).1 l tr s
  keyed : s.raw.keyed = true
  seekable : s.raw.seekable = seekOf py kw base ino

theorem Made.tick {py : WinPython} {w : Host} {kw : RawKw} {ino : Nat} {base : Host} {l tr : Bool} {s : St}
    (h : Made py kw w ino base l tr s) {sched : List (Option Exn)} (hs : ∀ x ∈ sched, x ∈ s.host.sched) :
    Made py kw w ino base l tr { s with host := { s.host with sched := sched } } :=
  ⟨h.on.tick hs, h.keyed, h.seekable⟩

theorem On.setSeekable {w : Host} {kw : RawKw} {ino : Nat} {base : Host} {leaked : List Nat} {l tr : Bool} {s : St}
    (h : On w kw ino base leaked l tr s) (b : Bool) :
    On w kw ino base leaked l tr { s with raw := { s.raw with seekable := b } } :=
  { handle := h.handle, closefd := h.closefd, readable := h.readable, writable := h.writable, nodes := h.nodes,
    names := h.names, handles := h.handles, cfds := h.cfds, held := h.held, log := h.log, fresh := h.fresh,
    leaks := h.leaks, keyed := h.keyed, sched := h.sched }

theorem On.lookup {w : Host} {kw : RawKw} {ino : Nat} {base : Host} {leaked : List Nat} {l tr : Bool} {s : St}
    (h : On w kw ino base leaked l tr s) {f : Nat} (hf : s.raw.fileno = some f) :
    s.host.cfds.lookup f = some w.freeHandle := by
  rw [h.cfds, hf]
  simp

theorem inspect_meets (py : WinPython) (a : OpenArgs) {kw : RawKw} (ext : ExtKw) (t : Bool) {p : Bytes} (w : Host) :
    Meets (fun s => ∃ ino base, Enters p kw w ino base ∧ On w kw ino base (afterProbe py kw w base ino).1 false false s ∧
        s.raw.fileno = (afterProbe py kw w base ino).2 ∧ s.raw.keyed = true) (inspect kw)
      (fun _ s => ∃ ino base, Enters p kw w ino base ∧ Made py kw w ino base false false s ∧
        s.raw.fileno = (afterProbe py kw w base ino).2)
      (Failed py a kw ext t p w) := by
  rintro s ⟨ino, base, hin, hon, hf, hk⟩
  unfold inspect
  cases hfn : s.raw.fileno with
  | none =>
    simp only
    refine ⟨fun _ s' h => ?_, fun e s' h => by cases h⟩
    cases h
    refine ⟨ino, base, hin, ⟨hon.setSeekable true, hk, ?_⟩, hf⟩
    rw [hfn] at hf
    unfold afterProbe at hf
    unfold seekOf
    split at hf
    · split at hf
      · cases hf
      · rename_i h
        simp [h]
    · rename_i h
      simp [h]
  | some f =>
    simp only
    have hnw : probes py kw = true ∧ noWait base ino = true := by
      rw [hfn] at hf
      unfold afterProbe at hf
      split at hf
      · split at hf
        · rename_i h h'
          exact ⟨h, h'⟩
        · cases hf
      · cases hf
    obtain ⟨n, hn⟩ : ∃ n, base.nodes[ino]? = some n := by
      cases h : base.nodes[ino]? with
      | none => simp [noWait, h] at hnw
      | some n => exact ⟨n, rfl⟩
    have hdir := hin.notDir
    rw [hn] at hdir
    have hstat : Meets (fun s => On w kw ino base (afterProbe py kw w base ino).1 false false s ∧
          s.raw.fileno = (afterProbe py kw w base ino).2 ∧ s.raw.keyed = true ∧ s.raw.fileno = some f) (fstat f)
        (fun k s => k = n.kind ∧ On w kw ino base (afterProbe py kw w base ino).1 false false s ∧
          s.raw.fileno = (afterProbe py kw w base ino).2 ∧ s.raw.keyed = true)
        (Failed py a kw ext t p w) := by
      unfold fstat
      refine Meets.bind (R := fun _ s => On w kw ino base (afterProbe py kw w base ino).1 false false s ∧
          s.raw.fileno = (afterProbe py kw w base ino).2 ∧ s.raw.keyed = true ∧ s.raw.fileno = some f)
        (outside_meets ?_ ?_) fun _ => ?_
      · rintro s sched ⟨h1, h2⟩ h3
        exact ⟨h1.tick h3, h2⟩
      · rintro s e ⟨h1, h2⟩ _ h3
        exact ⟨ino, base, _, false, false, hin, h1.tick fun x hx => List.mem_of_mem_tail hx, afterProbe_leaked _ _ _ _ _,
          .none a t, .outside (h1.sched _ h3)⟩
      · rintro s ⟨h1, h2, h3, h4⟩
        dsimp only
        rw [h1.lookup h4, Option.bind_some, h1.nodeOf s.host.cfds, hn]
        refine ⟨fun k s' h => ?_, fun e s' h => by cases h⟩
        cases h
        exact ⟨rfl, h1, h2, h3⟩
    have h1 := hstat s ⟨hon, hf, hk, hfn⟩
    generalize fstat f s = r at *
    obtain ⟨r, s1⟩ := r
    cases r with
    | error e => exact ⟨fun _ s' h => (by cases h), fun e' s' h => by cases h; exact h1.2 e s1 rfl⟩
    | ok k =>
      obtain ⟨rfl, h2, h3, h4⟩ := h1.1 k s1 rfl
      simp only
      rw [if_neg (by simpa using hdir)]
      refine ⟨fun _ s' h => ?_, fun e s' h => by cases h⟩
      cases h
      refine ⟨ino, base, hin, ⟨h2.setSeekable _, h4, ?_⟩, h3⟩
      simp [seekOf, hnw, hn]

theorem noOverflow_eq (m : PyM St Unit) (s : St) :
    noOverflow m s = match m s with
      | (.ok u, s') => (.ok u, s')
      | (.error e, s') => (.error (if e = .overflowError then .badValueType else e), s') := by
  unfold noOverflow
  generalize m s = r
  obtain ⟨r, s'⟩ := r
  cases r with
  | ok u => rfl
  | error e => cases e <;> rfl

theorem seekEnd_eq (kw : RawKw) (s : St) :
    seekEnd kw s = if kw.append then
        match outside s with
        | (.ok u, s') => (.ok u, s')
        | (.error e, s') => if e = .ioError 29 then (.ok (), s') else (.error e, s')
      else (.ok (), s) := by
  unfold seekEnd
  split
  · generalize outside s = r
    obtain ⟨r, s'⟩ := r
    cases r with
    | ok u => rfl
    | error e =>
      by_cases he : e = .ioError 29
      · subst he
        rfl
      · simp only [he, if_false]
        split
        · rename_i h
          cases h
          exact absurd rfl he
        · rfl
  · rfl

theorem construct_meets (py : WinPython) (a : OpenArgs) {kw : RawKw} (ext : ExtKw) (t : Bool) {p : Bytes}
    (hk : PathKw kw p) (w : Host) :
    Meets (Before w kw) (construct py kw)
      (fun _ s => ∃ ino base, Enters p kw w ino base ∧ Made py kw w ino base false false s ∧
        s.raw.fileno = (afterProbe py kw w base ino).2)
      (fun e s => (Before w kw s ∧ ∃ e', Refusal p kw w e' ∧ e = if e' = .overflowError then .badValueType else e') ∨
        Failed py a kw ext t p w e s) := by
  unfold construct
  refine Meets.bind (R := fun _ s => ∃ ino base, Enters p kw w ino base ∧ Made py kw w ino base false false s ∧
        s.raw.fileno = (afterProbe py kw w base ino).2) ?_ fun _ => ?_
  · have h := Meets.bind (createStreams_meets py a ext t hk w)
      (fun _ => (inspect_meets py a ext t (kw := kw) (p := p) w).mono (fun _ h => h) (fun _ _ h => h) fun _ _ h => .inr h)
    intro s hs
    have h1 := h s hs
    rw [noOverflow_eq]
    generalize (createStreams py kw >>= fun _ => inspect kw) s = r at *
    obtain ⟨r, s1⟩ := r
    cases r with
    | ok u =>
      refine ⟨fun _ s' h => ?_, fun e s' h => by cases h⟩
      cases h
      exact h1.1 u s1 rfl
    | error e =>
      have h2 := h1.2 e s1 rfl
      refine ⟨fun _ s' h => (by cases h), fun e' s' h => ?_⟩
      obtain ⟨he, hs'⟩ := Prod.mk.inj h
      have he := Except.error.inj he
      subst hs'
      rcases h2 with ⟨h2, h3⟩ | ⟨ino, base, leaked, l, tr, hin, hon, hl, hf, hw⟩
      · exact .inl ⟨h2, _, h3, he.symm⟩
      · refine .inr ⟨ino, base, leaked, l, tr, hin, hon, hl, hf, ?_⟩
        by_cases ho : e = .overflowError
        · subst ho
          rw [← he, if_pos rfl]
          refine .overflow ?_
          cases hw
          assumption
        · rw [if_neg ho] at he
          rw [← he]
          exact hw
  · rintro s ⟨ino, base, hin, hm, hf⟩
    rw [seekEnd_eq]
    split
    · have h1 := outside_meets (P := fun s => Made py kw w ino base false false s ∧
          s.raw.fileno = (afterProbe py kw w base ino).2)
        (E := fun e s => some e ∈ w.sched ∧ Made py kw w ino base false false s ∧
          s.raw.fileno = (afterProbe py kw w base ino).2)
        (fun s sched h h' => ⟨h.1.tick h', h.2⟩)
        (fun s e h _ h' => ⟨h.1.on.sched _ h', h.1.tick fun x hx => List.mem_of_mem_tail hx, h.2⟩) s ⟨hm, hf⟩
      generalize outside s = r at *
      obtain ⟨r, s1⟩ := r
      cases r with
      | ok u =>
        obtain ⟨h2, h3⟩ := h1.1 u s1 rfl
        refine ⟨fun _ s' h => ?_, fun e s' h => by cases h⟩
        cases h
        exact ⟨ino, base, hin, h2, h3⟩
      | error e =>
        obtain ⟨h4, h2, h3⟩ := h1.2 e s1 rfl
        simp only
        split
        · refine ⟨fun _ s' h => ?_, fun e s' h => by cases h⟩
          cases h
          exact ⟨ino, base, hin, h2, h3⟩
        · refine ⟨fun _ s' h => (by cases h), fun e s' h => ?_⟩
          cases h
          exact .inr ⟨ino, base, _, false, false, hin, h2.on, afterProbe_leaked _ _ _ _ _, .none a t, .outside h4⟩
    · refine ⟨fun _ s' h => ?_, fun e s' h => by cases h⟩
      cases h
      exact ⟨ino, base, hin, hm, hf⟩

/-! ## The rest of the call -/

theorem On.lock {w : Host} {kw : RawKw} {ino : Nat} {base : Host} {leaked : List Nat} {s : St}
    (h : On w kw ino base leaked false false s) (hk : s.raw.keyed = true) :
    On w kw ino base leaked true false { s with host := { s.host with
      held := s.raw.handle.toList ++ s.host.held
      log := s.host.log ++ s.raw.handle.toList.map .locked } } :=
  { handle := h.handle, closefd := h.closefd, readable := h.readable, writable := h.writable, nodes := h.nodes,
    names := h.names, handles := h.handles, cfds := h.cfds, fresh := h.fresh, leaks := h.leaks, sched := h.sched
    keyed := fun _ => hk
    held := by simp [h.handle, h.held]
    log := by simp [h.handle, h.log] }

theorem On.erase {w : Host} {kw : RawKw} {ino : Nat} {base : Host} {leaked : List Nat} {l : Bool} {s : St}
    (h : On w kw ino base leaked l false s) :
    On w kw ino base leaked l true { s with host := { s.host with
      nodes := match s.raw.handle.bind fun h => s.host.handles.lookup h with
        | some d => s.host.nodes.modify d.ino fun n => { n with data := [] }
        | none => s.host.nodes
      log := s.host.log ++ s.raw.handle.toList.map .truncated } } :=
  { handle := h.handle, closefd := h.closefd, readable := h.readable, writable := h.writable, held := h.held,
    names := h.names, handles := h.handles, cfds := h.cfds, fresh := h.fresh, leaks := h.leaks, sched := h.sched
    keyed := h.keyed
    nodes := by
      simp only
      rw [h.handle, Option.bind_some, h.handles, List.lookup_cons]
      simp only [beq_self_eq_true]
      rw [h.nodes]
      rfl
    log := by simp [h.handle, h.log] }

theorem prepare_meets (py : WinPython) (a : OpenArgs) {kw : RawKw} (ext : ExtKw) (t : Bool) {p : Bytes} {w : Host}
    {ino : Nat} {base : Host} (hin : Enters p kw w ino base) (N : Option Nat → Prop) :
    Meets (fun s => Made py kw w ino base false false s ∧ N s.raw.fileno) (prepare a t)
      (fun _ s => Made py kw w ino base (seekOf py kw base ino && a.locking) (seekOf py kw base ino && t) s ∧
        N s.raw.fileno)
      (Failed py a kw ext t p w) := by
  rintro s ⟨hm, hn⟩
  unfold prepare
  rw [hm.seekable]
  refine Meets.when (P := fun s => Made py kw w ino base false false s ∧ N s.raw.fileno)
    (Q := fun s => Made py kw w ino base (seekOf py kw base ino && a.locking) (seekOf py kw base ino && t) s ∧
        N s.raw.fileno) (fun hs => ?_) (fun hs s h => ?_) s ⟨hm, hn⟩
  · rw [hs, Bool.true_and, Bool.true_and]
    refine Meets.bind (R := fun _ s => Made py kw w ino base a.locking false s ∧ N s.raw.fileno) ?_ fun _ => ?_
    · refine Meets.when (Q := fun s => Made py kw w ino base a.locking false s ∧ N s.raw.fileno) (fun hlk => ?_)
        (fun hlk s h => by rw [hlk]; exact h)
      rw [hlk]
      refine Meets.bind (R := fun _ s => Made py kw w ino base false false s ∧ N s.raw.fileno) (outside_meets ?_ ?_) fun _ => ?_
      · rintro s sched ⟨h1, h2⟩ h3
        exact ⟨h1.tick h3, h2⟩
      · rintro s e ⟨h1, h2⟩ _ h3
        exact ⟨ino, base, _, false, false, hin, h1.on.tick fun x hx => List.mem_of_mem_tail hx,
          afterProbe_leaked _ _ _ _ _, .none a t, .outside (h1.on.sched _ h3)⟩
      · refine Meets.step (fun _ => ()) _ ?_
        rintro s ⟨h1, h2⟩
        exact ⟨⟨h1.on.lock h1.keyed, h1.keyed, h1.seekable⟩, h2⟩
    · refine Meets.when (Q := fun s => Made py kw w ino base a.locking t s ∧ N s.raw.fileno) (fun ht => ?_)
        (fun ht s h => by rw [ht]; exact h)
      rw [ht]
      refine Meets.bind (R := fun _ s => Made py kw w ino base a.locking false s ∧ N s.raw.fileno) (outside_meets ?_ ?_)
        fun _ => ?_
      · rintro s sched ⟨h1, h2⟩ h3
        exact ⟨h1.tick h3, h2⟩
      · rintro s e ⟨h1, h2⟩ _ h3
        exact ⟨ino, base, _, a.locking, false, hin, h1.on.tick fun x hx => List.mem_of_mem_tail hx,
          afterProbe_leaked _ _ _ _ _, ⟨id, nofun, nofun⟩, .outside (h1.on.sched _ h3)⟩
      · refine Meets.step (fun _ => ()) _ ?_
        rintro s ⟨h1, h2⟩
        exact ⟨⟨h1.on.erase, h1.keyed, h1.seekable⟩, h2⟩
  · rw [hs]
    exact h

theorem fair_done (py : WinPython) (a : OpenArgs) (kw : RawKw) (t : Bool) (base : Host) (ino : Nat) :
    Fair a t (seekOf py kw base ino && a.locking) (seekOf py kw base ino && t) := by
  refine ⟨fun h => ?_, fun h => ?_, fun h h' => ?_⟩
  · rw [Bool.and_eq_true] at h; exact h.2
  · rw [Bool.and_eq_true] at h; exact h.2
  · rw [Bool.and_eq_true] at h
    rw [h.1, h']
    rfl

/-- Which descriptor the stream has after the search and after `isatty`. -/
def Known (py : WinPython) (kw : RawKw) (w : Host) (ino : Nat) (base : Host) (f : Option Nat) : Prop :=
  f = (afterProbe py kw w base ino).2 ∨
    ((afterProbe py kw w base ino).2 = none ∧ f = some (nextC w (afterProbe py kw w base ino).1))

theorem getFileno_meets (py : WinPython) (a : OpenArgs) {kw : RawKw} (ext : ExtKw) (t : Bool) {p : Bytes} {w : Host}
    {ino : Nat} {base : Host} (hin : Enters p kw w ino base) {l tr : Bool} (hfair : Fair a t l tr)
    (hb : a.bufferingValue < 0) :
    Meets (fun s => Made py kw w ino base l tr s ∧ s.raw.fileno = (afterProbe py kw w base ino).2) getFileno
      (fun f s => Made py kw w ino base l tr s ∧ Known py kw w ino base s.raw.fileno ∧ s.raw.fileno = some f)
      (Failed py a kw ext t p w) := by
  rintro s ⟨hm, hf⟩
  have fails : ∀ {s : St} {e : Exn}, Made py kw w ino base l tr s → Why py a kw ext w base ino e →
      Failed py a kw ext t p w e s := fun h hw =>
    ⟨ino, base, _, l, tr, hin, h.on, afterProbe_leaked _ _ _ _ _, hfair, hw⟩
  unfold getFileno
  cases hfn : s.raw.fileno with
  | some f =>
    simp only
    split
    · rename_i h0
      refine ⟨fun _ s' h => (by cases h), fun e s' h => ?_⟩
      cases h
      exact fails hm (.zero hb (.inr (by rw [← hf, hfn, h0])))
    · refine ⟨fun _ s' h => ?_, fun e s' h => by cases h⟩
      cases h
      exact ⟨hm, .inl hf, hfn⟩
  | none =>
    simp only
    rw [hm.on.handle, Option.getD_some]
    have h1 := openOsfhandle_meets (fun r => r.keyed = true ∧ r.seekable = seekOf py kw base ino) s
      ⟨hm.on, hfn, hm.keyed, hm.seekable⟩
    generalize openOsfhandle w.freeHandle s = r at *
    obtain ⟨r, s1⟩ := r
    cases r with
    | error e =>
      refine ⟨fun _ s' h => (by cases h), fun e' s' h => ?_⟩
      cases h
      obtain ⟨⟨h2, h3, h4, h5⟩, h6⟩ := h1.2 e s1 rfl
      refine fails ⟨h2, h4, h5⟩ ?_
      rcases h6 with h6 | ⟨rfl, h6⟩
      · exact .outside h6
      · exact .isatty hb h6
    | ok f =>
      obtain ⟨rfl, _, s0, h2, h3, ⟨h4, h5⟩, rfl⟩ := h1.1 f s1 rfl
      have hm' : Made py kw w ino base l tr
          { raw := { s0.raw with fileno := some (nextC w (afterProbe py kw w base ino).1) }
            host := { s0.host with
              cfds := (nextC w (afterProbe py kw w base ino).1, w.freeHandle) :: s0.host.cfds } } :=
        ⟨h2.keep h3, h4, h5⟩
      simp only
      split
      · rename_i h0
        refine ⟨fun _ s' h => (by cases h), fun e s' h => ?_⟩
        cases h
        exact fails hm' (.zero hb (.inl h0))
      · refine ⟨fun _ s' h => ?_, fun e s' h => by cases h⟩
        cases h
        exact ⟨hm', .inr ⟨by rw [← hf, hfn], rfl⟩, rfl⟩

theorem chooseBuffering_meets (py : WinPython) (a : OpenArgs) {kw : RawKw} (ext : ExtKw) (t : Bool) {p : Bytes} {w : Host}
    {ino : Nat} {base : Host} (hin : Enters p kw w ino base) {l tr : Bool} (hfair : Fair a t l tr) :
    Meets (fun s => Made py kw w ino base l tr s ∧ s.raw.fileno = (afterProbe py kw w base ino).2) (chooseBuffering a)
      (fun b s => Made py kw w ino base l tr s ∧ Known py kw w ino base s.raw.fileno ∧ (b.1 = 0 ↔ a.bufferingValue = 0))
      (Failed py a kw ext t p w) := by
  unfold chooseBuffering
  have fails : ∀ {s : St} {e : Exn}, Made py kw w ino base l tr s → Why py a kw ext w base ino e →
      Failed py a kw ext t p w e s := fun h hw =>
    ⟨ino, base, _, l, tr, hin, h.on, afterProbe_leaked _ _ _ _ _, hfair, hw⟩
  refine Meets.bind (R := fun line s => (Made py kw w ino base l tr s ∧ Known py kw w ino base s.raw.fileno) ∧
      (line = true → a.bufferingValue = 1 ∨ a.bufferingValue < 0)) ?_ fun line => ?_
  · split
    · rename_i h1
      exact Meets.pure fun s h => ⟨⟨h.1, .inl h.2⟩, fun _ => .inl h1⟩
    · split
      · rename_i hb
        unfold isatty
        refine Meets.bind (getFileno_meets py a ext t hin hfair hb) fun f => ?_
        exact Meets.step _ id fun s h => ⟨⟨h.1, h.2.1⟩, fun _ => .inr hb⟩
      · exact Meets.pure fun s h => ⟨⟨h.1, .inl h.2⟩, nofun⟩
  · by_cases hlt : (if line = true then -1 else a.bufferingValue) < 0
    · rw [if_pos hlt]
      rintro s ⟨⟨h1, h2⟩, h3⟩
      have hne : a.bufferingValue ≠ 0 := by
        cases line with
        | true => rcases h3 rfl with h | h <;> omega
        | false =>
          simp only [Bool.false_eq_true, if_false] at hlt
          omega
      have key : ∀ s', Made py kw w ino base l tr s' → Known py kw w ino base s'.raw.fileno →
          Made py kw w ino base l tr s' ∧ Known py kw w ino base s'.raw.fileno ∧
            (((8192, line) : Int × Bool).1 = 0 ↔ a.bufferingValue = 0) := fun s' h h' =>
        ⟨h, h', ⟨nofun, fun h => absurd h hne⟩⟩
      dsimp only
      by_cases hz : s.raw.fileno.any (· ≠ 0) = true
      · rw [if_pos hz]
        have h4 := outside_meets (P := fun s => Made py kw w ino base l tr s ∧ Known py kw w ino base s.raw.fileno)
          (E := fun e s => (Made py kw w ino base l tr s ∧ Known py kw w ino base s.raw.fileno) ∧ some e ∈ w.sched)
          (fun s sched h h' => ⟨h.1.tick h', h.2⟩)
          (fun s e h _ h' => ⟨⟨h.1.tick fun x hx => List.mem_of_mem_tail hx, h.2⟩, h.1.on.sched _ h'⟩) s ⟨h1, h2⟩
        generalize outside s = r at *
        obtain ⟨r, s1⟩ := r
        cases r with
        | ok u =>
          refine ⟨fun _ s' h => ?_, fun e s' h => by cases h⟩
          cases h
          exact key _ (h4.1 u s1 rfl).1 (h4.1 u s1 rfl).2
        | error e =>
          obtain ⟨⟨h5, h6⟩, h7⟩ := h4.2 e s1 rfl
          have hok : ∀ {b : Int × Bool} {s' : St},
              ((.ok (8192, line), s1) : Except Exn (Int × Bool) × St) = (.ok b, s') →
              Made py kw w ino base l tr s' ∧ Known py kw w ino base s'.raw.fileno ∧
                (b.1 = 0 ↔ a.bufferingValue = 0) := by
            intro b s' h
            cases h
            exact key _ h5 h6
          have herr : ∀ {e' : Exn} {s' : St}, ((.error e, s1) : Except Exn (Int × Bool) × St) = (.error e', s') →
              Failed py a kw ext t p w e' s' := by
            intro e' s' h
            cases h
            exact fails h5 (.outside h7)
          cases e <;> first
            | exact ⟨fun _ s' h => hok h, fun e s' h => by cases h⟩
            | exact ⟨fun _ s' h => (by cases h), fun e s' h => herr h⟩
      · rw [if_neg hz]
        refine ⟨fun _ s' h => ?_, fun e s' h => by cases h⟩
        cases h
        exact key s h1 h2
    · rw [if_neg hlt]
      refine Meets.pure fun s h => ⟨h.1.1, h.1.2, ?_⟩
      cases line with
      | true => simp at hlt
      | false => simp

theorem layer_meets (py : WinPython) (a : OpenArgs) {kw : RawKw} (ext : ExtKw) (t : Bool) {p : Bytes} {w : Host}
    {ino : Nat} {base : Host} (hin : Enters p kw w ino base) {l tr : Bool} (hfair : Fair a t l tr)
    (hrw : kw.read = true ∨ (kw.write || kw.append) = true) (b : Int × Bool) (hz : b.1 = 0 ↔ a.bufferingValue = 0) :
    Meets (fun s => Made py kw w ino base l tr s ∧ Known py kw w ino base s.raw.fileno) (layer py a kw ext b.1 b.2)
      (fun _ s => Made py kw w ino base l tr s ∧ Known py kw w ino base s.raw.fileno)
      (Failed py a kw ext t p w) := by
  have fails : ∀ {s : St} {e : Exn}, Made py kw w ino base l tr s → Why py a kw ext w base ino e →
      Failed py a kw ext t p w e s := fun h hw =>
    ⟨ino, base, _, l, tr, hin, h.on, afterProbe_leaked _ _ _ _ _, hfair, hw⟩
  rintro s ⟨h1, h2⟩
  unfold layer
  dsimp only
  generalize OpenArgs.wrapper py.py a kw = wrap
  have hstream : ∀ (k : BufKind), (∀ (x : Layers) (s' : St),
      (if ext.binary = true then pure ⟨some (k, b.1.toNat), none, wrap⟩
        else do
          outside
          pure ⟨some (k, b.1.toNat), some b.2, wrap⟩ : PyM St Layers) s = (.ok x, s') →
        Made py kw w ino base l tr s' ∧ Known py kw w ino base s'.raw.fileno) ∧ ∀ (e : Exn) (s' : St),
      (if ext.binary = true then pure ⟨some (k, b.1.toNat), none, wrap⟩
        else do
          outside
          pure ⟨some (k, b.1.toNat), some b.2, wrap⟩ : PyM St Layers) s = (.error e, s') →
        Failed py a kw ext t p w e s' := by
    intro k
    refine (?_ : Meets (fun s => Made py kw w ino base l tr s ∧ Known py kw w ino base s.raw.fileno) _ _ _) s ⟨h1, h2⟩
    split
    · exact Meets.pure fun s h => h
    · refine Meets.bind (R := fun _ s => Made py kw w ino base l tr s ∧ Known py kw w ino base s.raw.fileno)
        (outside_meets ?_ ?_) fun _ => Meets.pure fun s h => h
      · rintro s sched ⟨h1, h2⟩ h3
        exact ⟨h1.tick h3, h2⟩
      · rintro s e ⟨h1, h2⟩ _ h3
        exact fails (h1.tick fun x hx => List.mem_of_mem_tail hx) (.outside (h1.on.sched _ h3))
  rw [h1.on.readable, h1.on.writable, h1.seekable]
  split
  · rename_i hb0
    split
    · exact ⟨fun _ s' h => by cases h; exact ⟨h1, h2⟩, fun e s' h => by cases h⟩
    · rename_i hbin
      refine ⟨fun _ s' h => (by cases h), fun e s' h => ?_⟩
      cases h
      exact fails h1 (.unbuffered (hz.1 hb0) (by simpa using hbin))
  · split
    · rename_i hboth
      rw [Bool.and_eq_true] at hboth
      split
      · exact hstream .random
      · rename_i hs
        refine ⟨fun _ s' h => (by cases h), fun e s' h => ?_⟩
        cases h
        exact fails h1 (.unseekable hboth.1 hboth.2 (by simpa using hs))
    · split
      · exact hstream .writer
      · rename_i hwr
        split
        · exact hstream .reader
        · rename_i hr
          exact absurd hrw (by simp [hwr, hr])

/-- The part after the constructor. -/
theorem build_meets (py : WinPython) (a : OpenArgs) {kw : RawKw} (ext : ExtKw) (t : Bool) {p : Bytes} {w : Host}
    {ino : Nat} {base : Host} (hin : Enters p kw w ino base) (hrw : kw.read = true ∨ (kw.write || kw.append) = true) :
    Meets (fun s => Made py kw w ino base false false s ∧ s.raw.fileno = (afterProbe py kw w base ino).2)
      (build py a kw ext t)
      (fun _ s => Made py kw w ino base (seekOf py kw base ino && a.locking) (seekOf py kw base ino && t) s ∧
        Known py kw w ino base s.raw.fileno)
      (Failed py a kw ext t p w) := by
  unfold build
  refine Meets.bind (prepare_meets py a ext t hin (fun f => f = (afterProbe py kw w base ino).2)) fun _ => ?_
  refine Meets.bind (chooseBuffering_meets py a ext t hin (fair_done py a kw t base ino)) fun b => ?_
  rintro s ⟨h1, h2, h3⟩
  exact layer_meets py a ext t hin (fair_done py a kw t base ino) hrw b h3 s ⟨h1, h2⟩

/-! ## Closing -/

theorem filter_fresh {γ : Type} {l : List (Nat × γ)} {k : Nat} (h : l.lookup k = none) :
    (l.filter fun e => decide (e.1 ≠ k)) = l := by
  rw [List.filter_eq_self]
  intro e he
  rw [List.lookup_eq_none_iff] at h
  have := h e he
  rw [decide_eq_true_iff]
  rintro rfl
  simp at this

/-- The world after the stream was closed. -/
def closedHost (w : Host) (leaked : List Nat) (s : St) : Host :=
  { s.host with
    handles := w.handles
    cfds := leaked.map (·, w.freeHandle) ++ w.cfds
    held := if s.raw.keyed then s.host.held.filter fun h => some h ≠ s.raw.handle else s.host.held
    log := s.host.log ++ [.closed w.freeHandle] }

/-- Closing the stream gives its handle back. -/
theorem On.close {w : Host} {kw : RawKw} {ino : Nat} {base : Host} {leaked : List Nat} {l tr : Bool} {s : St}
    (h : On w kw ino base leaked l tr s) (hc : kw.closefd = true) :
    closeRaw s.raw s.host = (.ok (), closedHost w leaked s) := by
  have hfree := freeHandle_free w
  have hhand : ∀ v : Host, v.handles = s.host.handles →
      closeHandle w.freeHandle v = (.ok (), { v with handles := w.handles, log := v.log ++ [.closed w.freeHandle] }) := by
    intro v hv
    unfold closeHandle
    rw [hv, h.handles, List.lookup_cons]
    simp only [beq_self_eq_true, Option.isNone_some, Bool.false_eq_true, if_false]
    rw [List.filter_cons]
    simp only [ne_eq, not_true_eq_false, decide_false, Bool.false_eq_true, if_false]
    have := filter_fresh hfree
    simp only [ne_eq] at this
    rw [this]
  unfold closeRaw
  extract_lets v
  have hv : v.handles = s.host.handles ∧ v.cfds = s.host.cfds ∧ v.log = s.host.log ∧ v.nodes = s.host.nodes ∧
      v.names = s.host.names ∧ v.sched = s.host.sched ∧
      v.held = if s.raw.keyed then s.host.held.filter fun h => some h ≠ s.raw.handle else s.host.held := by
    unfold v
    cases s.raw.keyed <;> exact ⟨rfl, rfl, rfl, rfl, rfl, rfl, rfl⟩
  obtain ⟨hv1, hv2, hv3, hv4, hv5, hv6, hv7⟩ := hv
  rw [h.closefd, hc, if_pos rfl]
  have hfin : ∀ cf, cf = leaked.map (·, w.freeHandle) ++ w.cfds →
      ({ v with cfds := cf, handles := w.handles, log := v.log ++ [.closed w.freeHandle] } : Host) =
        closedHost w leaked s := by
    intro cf hcf
    unfold closedHost
    rw [hv3, hv4, hv5, hv6, hv7, hcf]
  cases hf : s.raw.fileno with
  | none =>
    rw [h.handle]
    simp only
    rw [hhand v hv1, ← hfin v.cfds (by rw [hv2, h.cfds, hf]; rfl)]
  | some f =>
    simp only
    unfold closeC
    rw [hv2, h.lookup hf]
    simp only
    rw [hhand { v with cfds := (s.host.cfds).filter fun e => decide (e.1 ≠ f) } hv1,
      ← hfin ((s.host.cfds).filter fun e => decide (e.1 ≠ f)) ?_]
    rw [h.cfds, hf]
    simp only [Option.toList, List.map_cons, List.map_nil, List.cons_append, List.nil_append]
    rw [List.filter_cons]
    simp only [ne_eq, not_true_eq_false, decide_false, Bool.false_eq_true, if_false]
    have := filter_fresh (h.fresh f hf)
    simp only [ne_eq] at this
    exact this

/-- Closing the stream gives its locks back. -/
theorem On.close_held {w : Host} {kw : RawKw} {ino : Nat} {base : Host} {leaked : List Nat} {l tr : Bool} {s : St}
    (h : On w kw ino base leaked l tr s) (hw : ∀ h ∈ w.held, (w.handles.lookup h).isSome) :
    (closedHost w leaked s).held = w.held := by
  have hno : w.freeHandle ∉ w.held := by
    intro hm
    have := hw _ hm
    rw [freeHandle_free] at this
    cases this
  have hfil : (w.held.filter fun h => decide (some h ≠ some w.freeHandle)) = w.held := by
    rw [List.filter_eq_self]
    intro x hx
    rw [decide_eq_true_iff]
    intro he
    exact hno (Option.some.inj he ▸ hx)
  unfold closedHost
  simp only
  rw [h.handle, h.held]
  cases l with
  | false =>
    simp only [Bool.false_eq_true, if_false]
    split
    · exact hfil
    · rfl
  | true =>
    rw [h.keyed rfl, if_pos rfl, if_pos rfl, List.filter_cons, if_neg (by simp)]
    exact hfil

end Verif.WinOpen
