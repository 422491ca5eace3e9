import Verif.Spec.Together
import Verif.Props.Settled

/-!
# Streams that take turns
-/

set_option autoImplicit false

namespace Verif

open Spec

/-! ## Histories -/

namespace Together

theorem play_append (w : Together) (a b : List Item) :
    w.play (a ++ b) = ((w.play a).1 ++ ((w.play a).2.play b).1, ((w.play a).2.play b).2) := by
  induction a generalizing w with
  | nil => rfl
  | cons it its ih => simp only [List.cons_append, play, ih]

theorem play_snoc (w : Together) (h : List Item) (it : Item) :
    w.play (h ++ [it]) = ((w.play h).1 ++ [(it, ((w.play h).2.step it).1)], ((w.play h).2.step it).2) := play_append w h [it]

end Together

namespace Spec

theorem holding_snoc (h : List Item) (it : Item) : holding (h ++ [it]) = holdStep (holding h) it := by
  simp [holding]

theorem openIn_snoc (h : List Item) (it : Item) : openIn (h ++ [it]) = openStep (openIn h) it := by
  simp [openIn]

theorem lastOf_snoc (h : List Item) (it : Item) (i : Sid) :
    lastOf (h ++ [it]) i = if streamOf it = some i then some it else lastOf h i := by
  simp [lastOf, List.find?]
  split <;> simp_all

theorem lastOf_stream {h : List Item} {i : Sid} {it : Item} (hl : lastOf h i = some it) : streamOf it = some i := by
  have := List.find?_some hl
  simpa using this

end Spec

/-! ## A stream at rest -/

/-- Nothing is pending; what was read ahead may be outdated. -/
structure Idle (b : Buf) (p : Nat) : Prop where
  live : Buf.Live b
  inside : b.readPos ≤ b.readBuf.length
  empty : b.writeBuf = []
  writer : b.kind = .writer → b.readBuf = []
  pos : b.raw.pos = p + b.extra

namespace Together

theorem load_live {b : Buf} (h : Buf.Live b) (d : Bytes) : Buf.Live (load b d) :=
  ⟨h.opened, h.unix, h.noAppend, h.seekable, h.readable, h.writable, h.blocking, h.bufferSize⟩

theorem load_same {b : Buf} {d : Bytes} (h : b.raw.data = d) : load b d = b := by
  subst h; rfl

theorem load_load (b : Buf) (d e : Bytes) : load (load b d) e = load b e := rfl

end Together

namespace Idle

theorem load {b : Buf} {p : Nat} (h : Idle b p) (d : Bytes) : Idle (Together.load b d) p :=
  ⟨Together.load_live h.live d, h.inside, h.empty, h.writer, h.pos⟩

theorem of_R {b : Buf} {f : File} (h : Buf.R b f) (he : b.writeBuf = []) : Idle b f.pos :=
  ⟨h.live, h.inside, he, h.writer, h.pos' he⟩

/-- The state after `_reset_buffers`. -/
def wiped (b : Buf) (p : Nat) : Buf := { b with raw := { b.raw with pos := p }, readBuf := [], readPos := 0 }

theorem wiped_idle {b : Buf} {p : Nat} (h : Idle b p) : Idle (wiped b p) p :=
  ⟨⟨h.live.opened, h.live.unix, h.live.noAppend, h.live.seekable, h.live.readable, h.live.writable, h.live.blocking,
    h.live.bufferSize⟩, Nat.le_refl _, h.empty, fun _ => rfl, by simp [wiped, Buf.extra]⟩

/-- A stream at rest, with empty buffers, represents the file. -/
theorem R {b : Buf} {p : Nat} (h : Idle b p) (hr : b.readBuf = []) (a : Bool) :
    Buf.R b ⟨b.raw.data, p, a, b.raw.events⟩ :=
  ⟨h.live, h.inside, by simp [Buf.extra, hr], Or.inl hr, fun _ => h.empty, h.writer, by simp [h.empty], by
    have := h.pos
    simp only [h.empty, List.length_nil]
    omega, fun _ => hr, rfl⟩

theorem flushUnlocked {b : Buf} {p : Nat} (h : Idle b p) : Buf.flushUnlocked b = (.ok (), b) := by
  unfold Buf.flushUnlocked
  rw [PyM.bind_ok (Buf.checkClosed_ok h.live.opened)]
  change Buf.flushLoop b.writeBuf.length b = _
  rw [h.empty]; rfl

theorem flush {b : Buf} {p : Nat} (h : Idle b p) : Buf.flush b = (.ok (), b) := by
  unfold Buf.flush
  split
  · rw [PyM.bind_ok (Buf.checkClosed_ok h.live.opened)]
    have : Raw.flush b.raw = (.ok (), b.raw) := by
      unfold Raw.flush Raw.checkClosed; simp [h.live.opened]
    rw [Buf.onRaw_eq this]
  · exact h.flushUnlocked

theorem reset {b : Buf} {p : Nat} (h : Idle b p) : Buf.resetBuffers b = (.ok (), wiped b p) := by
  have hl := h.live
  have hp := h.pos
  have hi := h.inside
  unfold Buf.resetBuffers Buf.seek
  cases hk : b.kind with
  | reader =>
    have hs := Raw.seek_cases hl.opened hl.seekable (p : Int) (0 - ((b.readBuf.length : Int) - b.readPos)) .cur (by
      dsimp only; unfold Buf.extra at *; omega)
    rw [if_pos (by omega), Int.toNat_natCast] at hs
    have : Buf.readerSeek 0 .cur b = (.ok p, wiped b p) := by
      unfold Buf.readerSeek
      rw [PyM.bind_ok (Buf.checkClosed_ok hl.opened)]
      rw [if_pos rfl, PyM.bind_ok (Buf.onRaw_eq hs)]
      rfl
    rw [PyM.bind_apply, hk]
    dsimp only
    rw [this]; rfl
  | writer =>
    have hr := h.writer hk
    have hex : b.extra = 0 := by simp [Buf.extra, hr]
    have hrp : b.readPos = 0 := by rw [hr] at hi; simpa using hi
    have hs := Raw.seek_cases hl.opened hl.seekable (p : Int) 0 .cur (by dsimp only; omega)
    rw [if_pos (by omega), Int.toNat_natCast] at hs
    have : Buf.writerSeek 0 .cur b = (.ok p, wiped b p) := by
      unfold Buf.writerSeek
      rw [PyM.bind_ok h.flushUnlocked, Buf.onRaw_eq hs]
      unfold wiped
      rw [← hr, ← hrp]
    rw [PyM.bind_apply, hk]
    dsimp only
    rw [this]; rfl
  | random =>
    have hback : Buf.seekBack b = (.ok (), { b with raw := { b.raw with pos := p } }) := by
      unfold Buf.seekBack
      by_cases hr : b.readBuf = []
      · rw [if_pos hr]
        have hex : b.extra = 0 := by simp [Buf.extra, hr]
        rw [show p = b.raw.pos by omega]
      · rw [if_neg hr]
        have hs := Raw.seek_cases hl.opened hl.seekable (p : Int) ((b.readPos : Int) - b.readBuf.length) .cur (by
          dsimp only; unfold Buf.extra at *; omega)
        rw [if_pos (by omega), Int.toNat_natCast] at hs
        rw [PyM.bind_ok (Buf.onRaw_eq hs)]
        rfl
    have hs := Raw.seek_cases (s := { b.raw with pos := p }) hl.opened hl.seekable (p : Int) 0 .cur (by dsimp only; omega)
    rw [if_pos (by omega), Int.toNat_natCast] at hs
    have : Buf.randomSeek 0 .cur b = (.ok p, wiped b p) := by
      unfold Buf.randomSeek
      rw [PyM.bind_ok h.flush, PyM.bind_ok hback, PyM.bind_ok (Buf.onRaw_eq hs)]
      rfl
    rw [PyM.bind_apply, hk]
    dsimp only
    rw [this]; rfl

end Idle

/-! ## The invariant -/

/-- The streams and their file represent the array. -/
structure InTurn (h : List Item) (w : Together) (s : Common) : Prop where
  isOpen : ∀ i, i ∈ openIn h ↔ w.bufs i ≠ none
  owner : ∀ a ∈ holding h, a.1 ∈ openIn h
  kind : ∀ i b, w.bufs i = some b → s.kind i = b.kind
  holds : ∀ i b sh, w.bufs i = some b → (i, sh) ∈ holding h → ∃ log, Buf.R (Together.load b w.file) (s.view i log)
  idle : ∀ i b, w.bufs i = some b → (i, false) ∉ holding h → Idle b (s.pos i)
  asked : ∀ i b, w.bufs i = some b → lastOf h i = some (.ask i) → b.readBuf = [] ∧ ∀ sh, (i, sh) ∉ holding h
  flushed : ∀ i b, w.bufs i = some b → lastOf h i = some (.did i .flush) → b.writeBuf = []
  file : (∀ i, (i, false) ∉ holding h) → w.file = s.data
  exclusion : Exclusion (holding h)
  mode : ∀ i sh sh', (i, sh) ∈ holding h → (i, sh') ∈ holding h → sh = sh'

namespace InTurn

theorem start (d : Bytes) : InTurn [] ⟨d, fun _ => none⟩ (.start d) :=
  ⟨by simp [openIn], by simp [holding], nofun, nofun, nofun, nofun, nofun, fun _ => rfl, by simp [holding, Exclusion],
    by simp [holding]⟩

theorem opened {h : List Item} {w : Together} {s : Common} (hi : InTurn h w s) {i : Sid} (ho : i ∈ openIn h) :
    ∃ b, w.bufs i = some b := by
  cases hb : w.bufs i with
  | none => exact absurd hb ((hi.isOpen i).1 ho)
  | some b => exact ⟨b, rfl⟩

/-- While a stream holds a lock, no other one holds an exclusive lock. -/
theorem lone {h : List Item} {w : Together} {s : Common} (hi : InTurn h w s) {j : Sid} {sh : Bool}
    (hj : (j, sh) ∈ holding h) {i : Sid} (hne : j ≠ i) : (i, false) ∉ holding h := by
  intro hc
  have := (hi.exclusion _ hj _ hc hne).2
  cases this

/-- Without an exclusive lock, the file is the array. -/
theorem shared_file {h : List Item} {w : Together} {s : Common} (hi : InTurn h w s) {i : Sid} (hh : (i, true) ∈ holding h) :
    w.file = s.data := by
  apply hi.file
  intro j hj
  by_cases he : j = i
  · subst he; cases hi.mode _ _ _ hh hj
  · exact hi.lone hh (fun e => he e.symm) hj

/-- A call on one stream. -/
theorem one {h : List Item} {w : Together} {s : Common} (hi : InTurn h w s) {it : Item} {i : Sid} {b b' : Buf} {f : File}
    (hb : w.bufs i = some b) (hs : streamOf it = some i) (hopen : openStep (openIn h) it = openIn h)
    (hk : b'.kind = b.kind)
    (hH : ∀ j, j ≠ i → ∀ sh, (j, sh) ∈ holdStep (holding h) it ↔ (j, sh) ∈ holding h)
    (hother : ∀ j sh, j ≠ i → (j, sh) ∈ holding h → b'.raw.data = w.file ∧ f.data = s.data)
    (h1 : ∀ sh, (i, sh) ∈ holdStep (holding h) it → ∃ log, Buf.R b' { f with log := log })
    (h2 : (i, false) ∉ holdStep (holding h) it → Idle b' f.pos)
    (h3 : it = .ask i → b'.readBuf = [] ∧ ∀ sh, (i, sh) ∉ holdStep (holding h) it)
    (h4 : it = .did i .flush → b'.writeBuf = [])
    (h5 : (∀ j, (j, false) ∉ holdStep (holding h) it) → b'.raw.data = f.data)
    (hm : ∀ sh sh', (i, sh) ∈ holdStep (holding h) it → (i, sh') ∈ holdStep (holding h) it → sh = sh')
    (hx : Exclusion (holding (h ++ [it]))) :
    InTurn (h ++ [it]) (w.keep i b') (s.after i f) := by
  have hio : i ∈ openIn h := (hi.isOpen i).2 (by rw [hb]; nofun)
  constructor
  · intro j
    rw [openIn_snoc, hopen, hi.isOpen j]
    unfold Together.keep
    dsimp only
    by_cases hj : j = i
    · subst hj; simp [hb]
    · rw [if_neg hj]
  · intro a ha
    rw [holding_snoc] at ha
    rw [openIn_snoc, hopen]
    by_cases hj : a.1 = i
    · rw [hj]; exact hio
    · exact hi.owner a ((hH a.1 hj a.2).1 ha)
  · intro j c hc
    unfold Together.keep at hc
    dsimp only at hc
    change s.kind j = c.kind
    by_cases hj : j = i
    · subst hj; rw [if_pos rfl] at hc; cases hc; rw [hk]; exact hi.kind _ _ hb
    · rw [if_neg hj] at hc; exact hi.kind _ _ hc
  · intro j c sh hc ha
    rw [holding_snoc] at ha
    unfold Together.keep at hc ⊢
    dsimp only at hc ⊢
    by_cases hj : j = i
    · subst hj
      rw [if_pos rfl] at hc
      cases hc
      obtain ⟨log, hr⟩ := h1 sh ha
      refine ⟨log, ?_⟩
      rw [Together.load_same rfl]
      have : (s.after j f).view j log = { f with log := log } := by simp [Common.view, Common.after]
      rw [this]; exact hr
    · rw [if_neg hj] at hc
      have ha' := (hH j hj sh).1 ha
      obtain ⟨log, hr⟩ := hi.holds j c sh hc ha'
      obtain ⟨e1, e2⟩ := hother j sh hj ha'
      refine ⟨log, ?_⟩
      have : (s.after i f).view j log = s.view j log := by simp [Common.view, Common.after, hj, e2]
      rw [this, e1]; exact hr
  · intro j c hc ha
    rw [holding_snoc] at ha
    unfold Together.keep at hc
    dsimp only at hc
    by_cases hj : j = i
    · subst hj
      rw [if_pos rfl] at hc
      cases hc
      have : (s.after j f).pos j = f.pos := by simp [Common.after]
      rw [this]; exact h2 ha
    · rw [if_neg hj] at hc
      have : (s.after i f).pos j = s.pos j := by simp [Common.after, hj]
      rw [this]
      exact hi.idle j c hc (fun hc => ha ((hH j hj _).2 hc))
  · intro j c hc hl
    rw [lastOf_snoc] at hl
    rw [holding_snoc]
    unfold Together.keep at hc
    dsimp only at hc
    by_cases hj : j = i
    · subst hj
      rw [if_pos rfl] at hc
      cases hc
      rw [if_pos hs] at hl
      cases hl
      exact h3 rfl
    · rw [if_neg hj] at hc
      rw [if_neg (by rw [hs]; intro he; exact hj (Option.some.inj he).symm)] at hl
      obtain ⟨e1, e2⟩ := hi.asked j c hc hl
      exact ⟨e1, fun sh hc => e2 sh ((hH j hj _).1 hc)⟩
  · intro j c hc hl
    rw [lastOf_snoc] at hl
    unfold Together.keep at hc
    dsimp only at hc
    by_cases hj : j = i
    · subst hj
      rw [if_pos rfl] at hc
      cases hc
      rw [if_pos hs] at hl
      cases hl
      exact h4 rfl
    · rw [if_neg hj] at hc
      rw [if_neg (by rw [hs]; intro he; exact hj (Option.some.inj he).symm)] at hl
      exact hi.flushed j c hc hl
  · intro ha
    rw [holding_snoc] at ha
    exact h5 ha
  · exact hx
  · intro j sh sh' ha hb'
    rw [holding_snoc] at ha hb'
    by_cases hj : j = i
    · subst hj; exact hm sh sh' ha hb'
    · exact hi.mode j sh sh' ((hH j hj _).1 ha) ((hH j hj _).1 hb')

theorem ask {h : List Item} {w : Together} {s : Common} (hi : InTurn h w s) {i : Sid} (hp : Proper h (.ask i))
    (hx : Exclusion (holding (h ++ [.ask i]))) :
    ∃ s', s.Step (.ask i) (w.step (.ask i)).1 s' ∧ InTurn (h ++ [.ask i]) (w.step (.ask i)).2 s' := by
  obtain ⟨b, hb⟩ := hi.opened hp.1
  have hid := (hi.idle i b hb (hp.2 false)).load w.file
  have hst : w.step (.ask i) = (.done, w.keep i (Idle.wiped (Together.load b w.file) (s.pos i))) := by
    simp only [Together.step, Together.on, hb, hid.reset]; rfl
  rw [hst]
  refine ⟨_, ⟨rfl, rfl⟩, hi.one hb rfl rfl rfl (fun _ _ _ => Iff.rfl) (fun _ _ _ _ => ⟨rfl, rfl⟩)
    (fun sh hc => absurd hc (hp.2 sh)) (fun _ => hid.wiped_idle) (fun _ => ⟨rfl, hp.2⟩) nofun ?_
    (fun sh _ hc => absurd hc (hp.2 sh)) hx⟩
  exact fun hc => hi.file hc

theorem granted {h : List Item} {w : Together} {s : Common} (hi : InTurn h w s) {i : Sid} {sh : Bool}
    (hp : Proper h (.granted i sh)) (hx : Exclusion (holding (h ++ [.granted i sh]))) :
    ∃ s', s.Step (.granted i sh) (w.step (.granted i sh)).1 s' ∧
      InTurn (h ++ [.granted i sh]) (w.step (.granted i sh)).2 s' := by
  obtain ⟨b, hb⟩ := hi.opened hp.1
  obtain ⟨hr, hno⟩ := hi.asked i b hb hp.2
  have hid := (hi.idle i b hb (hno false)).load w.file
  have hl := hid.live
  have hlock : Raw.lockFile w.file (Together.load b w.file).raw =
      (.ok (), { (Together.load b w.file).raw with
        data := w.file, events := b.raw.events ++ [.lock w.file], disk := b.raw.disk ++ [.content w.file] }) := by
    unfold Raw.lockFile
    rw [PyM.bind_ok (Raw.checkSeekable_ok hl.opened hl.seekable)]; rfl
  have hst : w.step (.granted i sh) = (.done, w.keep i { Together.load b w.file with raw :=
      { (Together.load b w.file).raw with
        data := w.file, events := b.raw.events ++ [.lock w.file], disk := b.raw.disk ++ [.content w.file] } }) := by
    simp only [Together.step, Together.on, hb]
    have : (Together.load b w.file).raw.data = w.file := rfl
    rw [this, Buf.onRaw_eq hlock]; rfl
  have hmem : ∀ (j : Sid) (x : Bool), (j, x) ∈ holdStep (holding h) (.granted i sh) ↔ (j, x) ∈ holding h ∨ (j = i ∧ x = sh) := by
    intro j x; simp [holdStep]
  have hfile : w.file = s.data := by
    apply hi.file
    intro j hj
    have hji : j ≠ i := by rintro rfl; exact hno _ hj
    have hx' := hx
    rw [holding_snoc] at hx'
    have := (hx' _ ((hmem j false).2 (Or.inl hj)) _ ((hmem i sh).2 (Or.inr ⟨rfl, rfl⟩)) hji).1
    cases this
  have hid' : Idle { Together.load b w.file with raw :=
      { (Together.load b w.file).raw with
        data := w.file, events := b.raw.events ++ [.lock w.file], disk := b.raw.disk ++ [.content w.file] } } (s.pos i) :=
    ⟨⟨hl.opened, hl.unix, hl.noAppend, hl.seekable, hl.readable, hl.writable, hl.blocking, hl.bufferSize⟩, hid.inside,
      hid.empty, hid.writer, hid.pos⟩
  rw [hst]
  refine ⟨_, ⟨rfl, rfl⟩, hi.one hb rfl rfl rfl (fun j hj x => ?_) (fun _ _ _ _ => ⟨rfl, rfl⟩) (fun x hc => ?_) (fun _ => hid')
    nofun nofun (fun _ => hfile) (fun x x' h1 h2 => ?_) hx⟩
  · rw [hmem]; simp [hj]
  · refine ⟨b.raw.events ++ [.lock w.file], ?_⟩
    have := hid'.R hr false
    dsimp only at this
    rw [← hfile]
    exact this
  · rw [hmem] at h1 h2
    rw [(h1.resolve_left (hno x)).2, (h2.resolve_left (hno x')).2]

/-- What `unlock_file` leaves. -/
theorem unlocked {b : Buf} {f : File} (h : Buf.R b f) :
    ∃ b', Buf.unlockFile b = (.ok (), b') ∧ Idle b' f.pos ∧ b'.raw.data = f.data ∧ b'.kind = b.kind := by
  obtain ⟨b1, h1, h2, h3, h4, h5⟩ := Buf.resetBuffers_R h
  unfold Buf.unlockFile
  rw [PyM.bind_ok h1]
  have hl := h2.live
  have hunlock : Raw.unlockFile b1.raw =
      (.ok (), { b1.raw with events := b1.raw.events ++ [.unlock b1.raw.data] }) := by
    unfold Raw.unlockFile
    rw [PyM.bind_ok (Raw.checkSeekable_ok hl.opened hl.seekable)]; rfl
  have hid := Idle.of_R h2 h3
  exact ⟨_, Buf.onRaw_eq hunlock, ⟨⟨hl.1, hl.2, hl.3, hl.4, hl.5, hl.6, hl.7, hl.8⟩, hid.inside, hid.empty, hid.writer,
    hid.pos⟩, h2.data' h3, h5⟩

theorem dropped (H : List (Sid × Bool)) (i : Sid) (j : Sid) (x : Bool) :
    (j, x) ∈ H.filter (fun h => h.1 ≠ i) ↔ (j, x) ∈ H ∧ j ≠ i := by simp

theorem unlock {h : List Item} {w : Together} {s : Common} (hi : InTurn h w s) {i : Sid} (hp : Proper h (.unlock i))
    (hx : Exclusion (holding (h ++ [.unlock i]))) :
    ∃ s', s.Step (.unlock i) (w.step (.unlock i)).1 s' ∧ InTurn (h ++ [.unlock i]) (w.step (.unlock i)).2 s' := by
  obtain ⟨sh, hh⟩ := hp
  obtain ⟨b, hb⟩ := hi.opened (hi.owner _ hh)
  obtain ⟨log, hr⟩ := hi.holds i b sh hb hh
  obtain ⟨b', g1, g2, g3, g4⟩ := unlocked hr
  have hst : w.step (.unlock i) = (.done, w.keep i b') := by
    simp only [Together.step, Together.on, hb, g1]; rfl
  have hmem : ∀ (j : Sid) (x : Bool), (j, x) ∈ holdStep (holding h) (.unlock i) ↔ (j, x) ∈ holding h ∧ j ≠ i :=
    dropped (holding h) i
  rw [hst]
  refine ⟨_, ⟨rfl, rfl⟩, hi.one hb rfl rfl g4 (fun j hj x => ?_) (fun j x hj hjx => ⟨?_, rfl⟩) (fun x hc => ?_) (fun _ => g2)
    nofun nofun (fun _ => g3) (fun x x' h1 h2 => ?_) hx⟩
  · rw [hmem]; simp [hj]
  · have hsh : sh = true := (hi.exclusion _ hh _ hjx (fun e => hj e.symm)).1
    subst hsh
    rw [g3]
    exact (hi.shared_file hh).symm
  · rw [hmem] at hc; exact absurd rfl hc.2
  · rw [hmem] at h1; exact absurd rfl h1.2

theorem exit {h : List Item} {w : Together} {s : Common} (hi : InTurn h w s) {i : Sid} (hp : Proper h (.exit i))
    (hx : Exclusion (holding (h ++ [.exit i]))) :
    ∃ s', s.Step (.exit i) (w.step (.exit i)).1 s' ∧ InTurn (h ++ [.exit i]) (w.step (.exit i)).2 s' := by
  have hh : ∃ sh, (i, sh) ∈ holding h := hp.elim (fun h => ⟨_, h⟩) (fun h => ⟨_, h.1⟩)
  obtain ⟨sh, hh⟩ := hh
  obtain ⟨b, hb⟩ := hi.opened (hi.owner _ hh)
  obtain ⟨log, hr⟩ := hi.holds i b sh hb hh
  have he : b.writeBuf = [] := by
    rcases hp with hp | ⟨_, hp⟩
    · refine (hi.idle i b hb fun hc => ?_).empty
      cases hi.mode _ _ _ hp hc
    · exact hi.flushed i b hb hp
  have hid := Idle.of_R hr he
  have hl := hid.live
  have hunlock : Raw.unlockFile (Together.load b w.file).raw =
      (.ok (), { (Together.load b w.file).raw with events := b.raw.events ++ [.unlock w.file] }) := by
    unfold Raw.unlockFile
    rw [PyM.bind_ok (Raw.checkSeekable_ok hl.opened hl.seekable)]; rfl
  have hst : w.step (.exit i) = (.done, w.keep i { Together.load b w.file with raw :=
      { (Together.load b w.file).raw with events := b.raw.events ++ [.unlock w.file] } }) := by
    simp only [Together.step, Together.on, hb, Buf.exitLock, Buf.onRaw_eq hunlock]; rfl
  have hmem : ∀ (j : Sid) (x : Bool), (j, x) ∈ holdStep (holding h) (.exit i) ↔ (j, x) ∈ holding h ∧ j ≠ i :=
    dropped (holding h) i
  have hfile : w.file = s.data := hr.data' he
  have hafter : s = s.after i (s.view i log) := by
    unfold Common.after Common.view
    obtain ⟨d, k, p, a⟩ := s
    congr <;> (funext j; dsimp only; split <;> simp_all)
  rw [hst]
  refine ⟨s, ⟨rfl, rfl⟩, ?_⟩
  rw [hafter]
  refine hi.one hb rfl rfl rfl (fun j hj x => ?_) (fun j x hj hjx => ⟨rfl, rfl⟩) (fun x hc => ?_)
    (fun _ => ⟨⟨hl.1, hl.2, hl.3, hl.4, hl.5, hl.6, hl.7, hl.8⟩, hid.inside, hid.empty, hid.writer, hid.pos⟩)
    nofun nofun (fun _ => hfile) (fun x x' h1 h2 => ?_) hx
  · rw [hmem]; simp [hj]
  · rw [hmem] at hc; exact absurd rfl hc.2
  · rw [hmem] at h1; exact absurd rfl h1.2

/-- A call that does not change the file. -/
theorem inquires {b : Buf} {f : File} (h : Buf.R b f) (he : b.writeBuf = []) {op : StreamOp} (hop : Inquires op) :
    (b.step op).2.writeBuf = [] ∧ (b.step op).2.raw.data = b.raw.data := by
  have hu : Props.Usable b := ⟨h.live.opened, h.live.unix, h.live.writable, h.reader⟩
  have hs : Props.Settles b (b.step op).2 := by
    have := Props.after1_settles b (.op op) (by cases op <;> first | exact hop.elim | exact trivial)
    cases op <;> exact this
  obtain ⟨j, hj⟩ := (hs hu).part
  exact ⟨by rw [hj.left, he, List.drop_nil], by rw [hj.data, he, List.take_nil]; simp [put]⟩

theorem allowed_inquires {k : BufKind} {f f' : File} {op : StreamOp} {out : StreamOut} (hop : Inquires op)
    (h : Allowed k f op out f') : f'.data = f.data := by
  cases op <;> first | exact hop.elim | skip
  all_goals (simp only [Allowed] at h)
  case read n =>
    split at h
    · rw [h.2]
    · cases n with
      | none => rw [h.2]
      | some z => 
        dsimp only at h
        split at h
        · rw [h.2]
        · split at h <;> rw [h.2]
  case read1 n =>
    split at h
    · rw [h.2]
    · split at h
      · rw [h.2]
      · obtain ⟨g, _, _, _, _, h⟩ := h; rw [h]
  case peek n =>
    split at h
    · rw [h.2]
    · obtain ⟨g, _, _, _, h⟩ := h; rw [h]
  case readline n =>
    split at h
    · rw [h.2]
    · split at h
      · rw [h.2]
      · obtain ⟨g, _, _, h⟩ := h; rw [h]
  case seek o w => split at h <;> rw [h.2]
  case tell => rw [h.2]
  case flush => rw [h.2]
  case size => rw [h.2]

theorem did {h : List Item} {w : Together} {s : Common} (hi : InTurn h w s) {i : Sid} {op : StreamOp} (hp : Proper h (.did i op))
    (hx : Exclusion (holding (h ++ [.did i op]))) (hu : ¬ s.Unsafe (.did i op)) :
    ∃ s', s.Step (.did i op) (w.step (.did i op)).1 s' ∧ InTurn (h ++ [.did i op]) (w.step (.did i op)).2 s' := by
  have hh : ∃ sh, (i, sh) ∈ holding h := hp.elim (fun h => h.2) (fun h => ⟨_, h.2⟩)
  obtain ⟨sh, hh⟩ := hh
  obtain ⟨b, hb⟩ := hi.opened (hi.owner _ hh)
  obtain ⟨log, hr⟩ := hi.holds i b sh hb hh
  have hk : (Together.load b w.file).kind = s.kind i := (hi.kind i b hb).symm
  have hu' : ¬ Spec.Unsafe (Together.load b w.file).kind (s.view i log) op := by
    rw [hk]
    intro hc
    apply hu
    cases op <;> exact hc
  obtain ⟨f', g1, g2⟩ := Buf.step_R hr op hu'
  rw [hk] at g1
  have hst : w.step (.did i op) =
      (((Together.load b w.file).step op).1, w.keep i ((Together.load b w.file).step op).2) := by
    simp only [Together.step, Together.on, hb]
  have hkeep : holdStep (holding h) (.did i op) = holding h := rfl
  -- while the lock is shared, the call does not write
  have hsh : (i, false) ∉ holding h → Inquires op ∧ (Together.load b w.file).writeBuf = [] := fun hc =>
    ⟨(hp.resolve_right fun h => hc h.2).1, (hi.idle i b hb hc).empty⟩
  have hquiet : (i, false) ∉ holding h → ((Together.load b w.file).step op).2.writeBuf = [] ∧
      ((Together.load b w.file).step op).2.raw.data = w.file ∧ f'.data = s.data := fun hc =>
    have h1 := inquires hr (hsh hc).2 (hsh hc).1
    ⟨h1.1, h1.2, allowed_inquires (hsh hc).1 g1⟩
  rw [hst]
  refine ⟨_, ⟨log, f', g1, rfl⟩, hi.one hb rfl rfl (Buf.step_keeps _ op).1 (fun _ _ _ => Iff.rfl) (fun j x hj hjx => ?_)
    (fun x hc => ⟨f'.log, g2⟩) (fun hc => ?_) nofun (fun he => ?_) (fun hc => ?_)
    (fun x x' h1 h2 => hi.mode i x x' h1 h2) hx⟩
  · exact (hquiet (hi.lone hjx hj)).2
  · exact Idle.of_R g2 (hquiet hc).1
  · cases he
    obtain ⟨b', k1, k2, k3, _⟩ := Buf.flush_R hr
    simp only [Buf.step, k1]
    exact k3
  · have := hquiet (hc i)
    rw [this.2.1, this.2.2]
    exact hi.file hc

theorem openS {h : List Item} {w : Together} {s : Common} (hi : InTurn h w s) {i : Sid} {b : Buf} (hp : Proper h (.opened i b))
    (hx : Exclusion (holding (h ++ [.opened i b]))) :
    ∃ s', s.Step (.opened i b) (w.step (.opened i b)).1 s' ∧ InTurn (h ++ [.opened i b]) (w.step (.opened i b)).2 s' := by
  obtain ⟨hno, ⟨k, n, raw, hc⟩, p1, p2, p3, p4⟩ := hp
  have hnh : ∀ sh, (i, sh) ∉ holding h := fun sh hc => hno (hi.owner _ hc)
  obtain ⟨rfl, c2, c3, c4, c5⟩ := Props.create_ok hc
  have hid : Idle ⟨k, n.toNat, raw, [], 0, []⟩ raw.pos :=
    ⟨⟨c3, p1, p2, p3, c4, c5, p4, by dsimp only; omega⟩, Nat.le_refl _, rfl, fun _ => rfl, by simp [Buf.extra]⟩
  refine ⟨_, ⟨rfl, rfl⟩, ?_⟩
  have hH : holding (h ++ [.opened i ⟨k, n.toNat, raw, [], 0, []⟩]) = holding h := by rw [holding_snoc]; rfl
  constructor
  · intro j
    rw [openIn_snoc]
    simp only [Together.step, openStep, List.mem_append, List.mem_singleton]
    by_cases hj : j = i
    · simp [hj]
    · simp [hj, hi.isOpen j]
  · intro a ha
    rw [hH] at ha
    rw [openIn_snoc]
    exact List.mem_append_left _ (hi.owner a ha)
  · intro j c hc
    simp only [Together.step] at hc ⊢
    by_cases hj : j = i
    · rw [if_pos hj] at hc ⊢; cases hc; rfl
    · rw [if_neg hj] at hc ⊢; exact hi.kind j c hc
  · intro j c sh hc ha
    rw [hH] at ha
    have hj : j ≠ i := by rintro rfl; exact hnh _ ha
    simp only [Together.step, if_neg hj] at hc
    obtain ⟨log, hr⟩ := hi.holds j c sh hc ha
    refine ⟨log, ?_⟩
    unfold Common.view at hr ⊢
    simp only [if_neg hj]
    exact hr
  · intro j c hc ha
    rw [hH] at ha
    simp only [Together.step] at hc ⊢
    by_cases hj : j = i
    · rw [if_pos hj] at hc ⊢; cases hc; exact hid
    · rw [if_neg hj] at hc ⊢; exact hi.idle j c hc ha
  · intro j c hc hl
    rw [hH]
    rw [lastOf_snoc] at hl
    simp only [Together.step] at hc
    by_cases hj : j = i
    · subst hj; rw [if_pos (by rfl)] at hl; cases hl
    · rw [if_neg hj] at hc
      rw [if_neg (by intro he; exact hj (Option.some.inj he).symm)] at hl
      exact hi.asked j c hc hl
  · intro j c hc hl
    rw [lastOf_snoc] at hl
    simp only [Together.step] at hc
    by_cases hj : j = i
    · subst hj; rw [if_pos (by rfl)] at hl; cases hl
    · rw [if_neg hj] at hc
      rw [if_neg (by intro he; exact hj (Option.some.inj he).symm)] at hl
      exact hi.flushed j c hc hl
  · rw [hH]; exact hi.file
  · exact hx
  · rw [hH]; exact hi.mode

/-- Some streams disappear; nothing of theirs was pending. -/
theorem drop {h : List Item} {w : Together} {s : Common} (hi : InTurn h w s) {it : Item} (gone : Sid → Prop) [DecidablePred gone]
    {bufs : Sid → Option Buf} {d : Bytes}
    (ho : ∀ j, j ∈ openStep (openIn h) it ↔ j ∈ openIn h ∧ ¬ gone j)
    (hH : ∀ j sh, (j, sh) ∈ holdStep (holding h) it ↔ (j, sh) ∈ holding h ∧ ¬ gone j)
    (hb : ∀ j, bufs j = if gone j then none else w.bufs j) (hs : ∀ j, streamOf it = some j → gone j)
    (hd : ∀ j sh, ¬ gone j → (j, sh) ∈ holding h → d = w.file)
    (hf : (∀ j, ¬ gone j → (j, false) ∉ holding h) → d = s.data)
    (hx : Exclusion (holding (h ++ [it]))) : InTurn (h ++ [it]) ⟨d, bufs⟩ s := by
  have hold : ∀ j c, bufs j = some c → ¬ gone j ∧ w.bufs j = some c := by
    intro j c hc
    rw [hb j] at hc
    by_cases hg : gone j
    · rw [if_pos hg] at hc; cases hc
    · rw [if_neg hg] at hc; exact ⟨hg, hc⟩
  have hlast : ∀ j, ¬ gone j → lastOf (h ++ [it]) j = lastOf h j := by
    intro j hg
    rw [lastOf_snoc, if_neg (fun he => hg (hs j he))]
  constructor
  · intro j
    rw [openIn_snoc, ho j, hi.isOpen j]
    dsimp only
    rw [hb j]
    by_cases hg : gone j <;> simp [hg]
  · intro a ha
    rw [holding_snoc] at ha
    rw [openIn_snoc]
    have := (hH a.1 a.2).1 ha
    exact (ho a.1).2 ⟨hi.owner _ this.1, this.2⟩
  · intro j c hc; exact hi.kind j c (hold j c hc).2
  · intro j c sh hc ha
    rw [holding_snoc] at ha
    have ha' := (hH j sh).1 ha
    obtain ⟨log, hr⟩ := hi.holds j c sh (hold j c hc).2 ha'.1
    refine ⟨log, ?_⟩
    dsimp only
    rw [hd j sh ha'.2 ha'.1]
    exact hr
  · intro j c hc ha
    rw [holding_snoc] at ha
    obtain ⟨hg, hc⟩ := hold j c hc
    exact hi.idle j c hc (fun hc => ha ((hH j false).2 ⟨hc, hg⟩))
  · intro j c hc hl
    obtain ⟨hg, hc⟩ := hold j c hc
    rw [hlast j hg] at hl
    rw [holding_snoc]
    obtain ⟨e1, e2⟩ := hi.asked j c hc hl
    exact ⟨e1, fun sh ha => e2 sh ((hH j sh).1 ha).1⟩
  · intro j c hc hl
    obtain ⟨hg, hc⟩ := hold j c hc
    rw [hlast j hg] at hl
    exact hi.flushed j c hc hl
  · intro ha
    rw [holding_snoc] at ha
    exact hf fun j hg hc => ha j ((hH j false).2 ⟨hc, hg⟩)
  · exact hx
  · intro j sh sh' h1 h2
    rw [holding_snoc] at h1 h2
    exact hi.mode j sh sh' ((hH j sh).1 h1).1 ((hH j sh').1 h2).1

theorem gone {h : List Item} {w : Together} {s : Common} (hi : InTurn h w s) {p : Nat} (hp : Proper h (.gone p))
    (hx : Exclusion (holding (h ++ [.gone p]))) :
    ∃ s', s.Step (.gone p) (w.step (.gone p)).1 s' ∧ InTurn (h ++ [.gone p]) (w.step (.gone p)).2 s' := by
  refine ⟨s, ⟨rfl, rfl⟩, hi.drop (fun j => j.1 = p) (fun j => ?_) (fun j sh => ?_) (fun j => rfl) nofun
    (fun j sh _ _ => rfl) (fun hc => ?_) hx⟩
  · simp [openStep]
  · simp [holdStep]
  · exact hi.file fun j hj => hc j (hp _ hj) hj

/-- What `close` leaves. -/
theorem closed {b : Buf} {f : File} (h : Buf.R b f) :
    ∃ b', Buf.close b = (.ok (), b') ∧ b'.raw.data = f.data := by
  obtain ⟨b1, h1, h2, h3, _⟩ := Buf.flush_R h
  unfold Buf.close
  rw [if_neg (by simp [h.live.opened]), PyM.tryFinally_apply, h1]
  have hc : Raw.close b1.raw = (.ok (), { b1.raw with closed := true, events := b1.raw.events ++ [.close b1.raw.data] }) := by
    simp [Raw.close, h2.live.opened]
  dsimp only
  rw [Buf.onRaw_eq hc]
  exact ⟨_, rfl, h2.data' h3⟩

theorem closed_idle {b : Buf} {p : Nat} (h : Idle b p) :
    ∃ b', Buf.close b = (.ok (), b') ∧ b'.raw.data = b.raw.data := by
  unfold Buf.close
  rw [if_neg (by simp [h.live.opened]), PyM.tryFinally_apply, h.flush]
  have hc : Raw.close b.raw = (.ok (), { b.raw with closed := true, events := b.raw.events ++ [.close b.raw.data] }) := by
    simp [Raw.close, h.live.opened]
  dsimp only
  rw [Buf.onRaw_eq hc]
  exact ⟨_, rfl, rfl⟩

theorem close {h : List Item} {w : Together} {s : Common} (hi : InTurn h w s) {i : Sid} (hp : Proper h (.close i))
    (hx : Exclusion (holding (h ++ [.close i]))) :
    ∃ s', s.Step (.close i) (w.step (.close i)).1 s' ∧ InTurn (h ++ [.close i]) (w.step (.close i)).2 s' := by
  obtain ⟨b, hb⟩ := hi.opened hp
  have key : ∃ b', Buf.close (Together.load b w.file) = (.ok (), b') ∧
      b'.raw.data = if (i, false) ∈ holding h then s.data else w.file := by
    by_cases hh : (i, false) ∈ holding h
    · obtain ⟨log, hr⟩ := hi.holds i b false hb hh
      rw [if_pos hh]
      exact closed hr
    · rw [if_neg hh]
      exact closed_idle ((hi.idle i b hb hh).load w.file)
  obtain ⟨b', k1, k2⟩ := key
  have hst : w.step (.close i) = (.done, ⟨b'.raw.data, fun j => if j = i then none else w.bufs j⟩) := by
    simp only [Together.step, Together.on, hb, k1, Together.keep]
    congr 2
    funext j
    by_cases hj : j = i
    · rw [if_pos hj, if_pos hj]
    · rw [if_neg hj, if_neg hj, if_neg hj]
  rw [hst]
  refine ⟨s, ⟨rfl, rfl⟩, hi.drop (fun j => j = i) (fun j => ?_) (fun j sh => ?_) (fun j => rfl) (fun j hj => ?_)
    (fun j sh hj ha => ?_) (fun hc => ?_) hx⟩
  · simp [openStep]
  · simp [holdStep]
  · exact (Option.some.inj hj).symm
  · rw [k2, if_neg (hi.lone ha hj)]
  · rw [k2]
    by_cases hh : (i, false) ∈ holding h
    · rw [if_pos hh]
    · rw [if_neg hh]
      refine hi.file fun j ha => ?_
      by_cases hj : j = i
      · subst hj; exact hh ha
      · exact hc j hj ha

theorem step {h : List Item} {w : Together} {s : Common} (hi : InTurn h w s) {it : Item} (hp : Proper h it)
    (hx : Exclusion (holding (h ++ [it]))) (hu : ¬ s.Unsafe it) :
    ∃ s', s.Step it (w.step it).1 s' ∧ InTurn (h ++ [it]) (w.step it).2 s' := by
  cases it with
  | opened i b => exact hi.openS hp hx
  | ask i => exact hi.ask hp hx
  | granted i sh => exact hi.granted hp hx
  | did i op => exact hi.did hp hx hu
  | unlock i => exact hi.unlock hp hx
  | exit i => exact hi.exit hp hx
  | close i => exact hi.close hp hx
  | gone p => exact hi.gone hp hx

/-- All along a history, up to the first call that the code gets wrong. -/
theorem history {h : List Item} (hd : Disciplined h) (d : Bytes) :
    ∃ pre post s, h = pre ++ post ∧ Disciplined pre ∧
      Serially (.start d) (Together.play ⟨d, fun _ => none⟩ pre).1 s ∧
      InTurn pre (Together.play ⟨d, fun _ => none⟩ pre).2 s ∧ (post = [] ∨ ∃ it rest, post = it :: rest ∧ s.Unsafe it) := by
  induction hd with
  | nil => exact ⟨[], [], .start d, rfl, .nil, .nil _, start d, Or.inl rfl⟩
  | @snoc h it hd hp hx ih =>
    obtain ⟨pre, post, s, rfl, e0, e1, e2, e3⟩ := ih
    rcases e3 with rfl | ⟨it', rest, rfl, e3⟩
    · rw [List.append_nil] at hp hx
      by_cases hu : s.Unsafe it
      · exact ⟨pre, [it], s, by simp, e0, e1, e2, Or.inr ⟨it, [], rfl, hu⟩⟩
      · obtain ⟨s', g1, g2⟩ := e2.step hp hx hu
        refine ⟨pre ++ [it], [], s', by simp, .snoc e0 hp hx, ?_, ?_, Or.inl rfl⟩
        · rw [Together.play_snoc]; exact .snoc e1 g1
        · rw [Together.play_snoc]; exact g2
    · exact ⟨pre, (it' :: rest) ++ [it], s, by simp, e0, e1, e2, Or.inr ⟨it', rest ++ [it], by simp, e3⟩⟩

end InTurn

end Verif
