import Verif.Lemmas.Together
import Verif.Lemmas.AppendRefine
import Verif.Spec.AppendTogether

/-!
# Streams that take turns, in append mode or not
-/

set_option autoImplicit false

namespace Verif

open Spec

/-! ## Streams in append mode and others -/

namespace Buf

theorem plain_same {b : Buf} (h : b.raw.append = false) : b.plain = b := by
  obtain ⟨k, n, ⟨c1, c2, c3, c4, c5, c6, c7, c8, c9, c10, c11, c12⟩, d, e, f⟩ := b
  cases h
  rfl

theorem plain_inj {b c : Buf} (h : b.plain = c.plain) (ha : b.raw.append = c.raw.append) : b = c := by
  obtain ⟨k, n, ⟨c1, c2, c3, c4, c5, c6, c7, c8, c9, c10, c11, c12⟩, d, e, f⟩ := b
  obtain ⟨k', n', ⟨c1', c2', c3', c4', c5', c6', c7', c8', c9', c10', c11', c12'⟩, d', e', f'⟩ := c
  simp only [plain, Raw.plain, Buf.mk.injEq, Raw.mk.injEq] at h ha ⊢
  grind

/-- What a stream not in append mode does, a stream with nothing to write does in append mode. -/
theorem unplain {α : Type} {m : PyM Buf α} {b c : Buf} {r : Except Exn α}
    (hm : m b.plain = ((m b).1, (m b).2.plain) ∧ Buf.Idle (m b).2) (h : m b.plain = (r, c.plain)) (hc : c.raw.append = true) :
    m b = (r, c) := by
  rw [h] at hm
  obtain ⟨h1, h2⟩ := hm
  have e1 := congrArg Prod.fst h1
  have e2 := congrArg Prod.snd h1
  exact Prod.ext e1.symm (plain_inj e2.symm (h2.1.2.trans hc.symm))

end Buf

/-- Nothing is pending; what was read ahead may be outdated. -/
structure Pausing (b : Buf) (p : Nat) : Prop where
  idle : Idle b.plain p
  kind : b.raw.append = true → b.kind ≠ .reader

/-- The stream represents the array. -/
structure Rep (b : Buf) (f : AppendFile) : Prop where
  plain : b.raw.append = false → Buf.R b f.file
  append : b.raw.append = true → Buf.Appends b f

namespace Pausing

theorem empty {b : Buf} {p : Nat} (h : Pausing b p) : b.writeBuf = [] := h.idle.empty

theorem closed {b : Buf} {p : Nat} (h : Pausing b p) : b.raw.closed = false := h.idle.live.opened

theorem seekable {b : Buf} {p : Nat} (h : Pausing b p) : b.raw.seekable = true := h.idle.live.seekable

theorem load {b : Buf} {p : Nat} (h : Pausing b p) (d : Bytes) : Pausing (Together.load b d) p := ⟨h.idle.load d, h.kind⟩

theorem waits {b : Buf} {p : Nat} (h : Pausing b p) (ha : b.raw.append = true) : Buf.Idle b := ⟨⟨h.idle.live.unix, ha⟩, h.empty⟩

theorem wiped {b : Buf} {p : Nat} (h : Pausing b p) : Pausing (Idle.wiped b p) p := ⟨h.idle.wiped_idle, h.kind⟩

theorem reset {b : Buf} {p : Nat} (h : Pausing b p) : Buf.resetBuffers b = (.ok (), Idle.wiped b p) := by
  have hr := h.idle.reset
  cases ha : b.raw.append with
  | false => rw [Buf.plain_same ha] at hr; exact hr
  | true =>
    refine Buf.unplain ?_ (c := Idle.wiped b p) hr ha
    obtain ⟨h1, h2⟩ := Buf.seek_flag 0 .cur (h.waits ha) (h.kind ha)
    unfold Buf.resetBuffers
    rw [PyM.bind_apply, PyM.bind_apply, h1]
    generalize Buf.seek 0 .cur b = r at *
    obtain ⟨r, b'⟩ := r
    cases r <;> exact ⟨rfl, h2⟩

theorem flush {b : Buf} {p : Nat} (h : Pausing b p) : Buf.flush b = (.ok (), b) := by
  cases ha : b.raw.append with
  | false => have := h.idle.flush; rw [Buf.plain_same ha] at this; exact this
  | true => exact Buf.flush_idle (h.kind ha) h.closed h.empty

/-- A stream at rest, with empty buffers, represents the file. -/
theorem rep {b : Buf} {p : Nat} (h : Pausing b p) (hr : b.readBuf = []) (a l : Bool) :
    Rep b ⟨⟨b.raw.data, p, a, b.raw.events⟩, l⟩ :=
  ⟨fun ha => by have := h.idle.R hr a; rw [Buf.plain_same ha] at this; exact this,
    fun ha => .of_plain ha (h.kind ha) h.empty (h.idle.R hr a)⟩

end Pausing

namespace Rep

theorem relog {b : Buf} {f : AppendFile} (h : Rep b f) (l : List RawEv) (hl : l = f.file.log) : Rep b ⟨{ f.file with log := l }, f.late⟩ := by
  subst hl; exact h

theorem rest {b : Buf} {f : AppendFile} (h : Rep b f) (he : b.writeBuf = []) : Pausing b f.file.pos := by
  cases ha : b.raw.append with
  | false => exact ⟨by rw [Buf.plain_same ha]; exact .of_R (h.plain ha) he, fun hc => by rw [ha] at hc; cases hc⟩
  | true =>
    have hr := (h.append ha).rel
    rw [Buf.placed_idle he] at hr
    exact ⟨.of_R hr he, fun _ => (h.append ha).kind⟩

theorem data {b : Buf} {f : AppendFile} (h : Rep b f) (he : b.writeBuf = []) : b.raw.data = f.file.data := by
  cases ha : b.raw.append with
  | false => exact (h.plain ha).data' he
  | true => rw [(h.append ha).data, he, List.append_nil]

theorem flush {b : Buf} {f : AppendFile} (h : Rep b f) :
    ∃ b', Buf.flush b = (.ok (), b') ∧ b'.writeBuf = [] ∧ b'.kind = b.kind ∧ b'.raw.data = f.file.data ∧ b'.raw.closed = false := by
  cases ha : b.raw.append with
  | false =>
    obtain ⟨b', k1, k2, k3, k4⟩ := Buf.flush_R (h.plain ha)
    exact ⟨b', k1, k3, by have := (Buf.step_keeps b .flush).1; simp only [Buf.step, k1] at this; exact this, k2.data' k3, k2.live.opened⟩
  | true =>
    obtain ⟨b', k1, k2, k3, k4, k5, k6, k7⟩ := (h.append ha).flush
    exact ⟨b', k1, k2, k4, k6.data' k2, k6.live.opened⟩

/-- What `unlock_file` leaves. -/
theorem unlocked {b : Buf} {f : AppendFile} (h : Rep b f) :
    ∃ b', Buf.unlockFile b = (.ok (), b') ∧ Pausing b' f.file.pos ∧ b'.raw.data = f.file.data ∧ b'.kind = b.kind ∧
      b'.raw.append = b.raw.append := by
  cases ha : b.raw.append with
  | false =>
    obtain ⟨b', g1, g2, g3, g4⟩ := InTurn.unlocked (h.plain ha)
    have hn : b'.raw.append = false := g2.live.noAppend
    exact ⟨b', g1, ⟨by rw [Buf.plain_same hn]; exact g2, fun hc => by rw [hn] at hc; cases hc⟩, g3, g4, hn⟩
  | true =>
    have hA := h.append ha
    obtain ⟨c, k1, k2, k3, k4, k5, k6, k7⟩ := hA.flush
    have hu : Buf.flush b = Buf.flushUnlocked b := by
      unfold Buf.flush
      split
      · rename_i hr; exact absurd hr hA.kind
      · rfl
    have ho : c.raw.closed = false := k6.live.opened
    have hk : c.kind ≠ .reader := by rw [k4]; exact hA.kind
    have e : Buf.unlockFile b = Buf.unlockFile c := by
      unfold Buf.unlockFile Buf.resetBuffers
      rw [PyM.bind_apply, PyM.bind_apply, PyM.bind_apply, PyM.bind_apply,
        Buf.seek_flushes hA.kind 0 .cur k1 (hu ▸ k1) (Buf.flush_idle hk ho k2) (Buf.flushUnlocked_idle ho k2) k4]
    obtain ⟨b', g1, g2, g3, g4⟩ := InTurn.unlocked k6
    obtain ⟨m1, m2⟩ := Buf.reset_flag Raw.unlockFile_flag (b := c) ⟨⟨k6.live.unix, k5⟩, k2⟩ hk
    have g1' := g1
    unfold Buf.unlockFile at g1' e
    rw [m1] at g1'
    have x1 := congrArg Prod.fst g1'
    have x2 := congrArg Prod.snd g1'
    dsimp only at x1 x2
    subst x2
    unfold Buf.unlockFile
    rw [e]
    refine ⟨_, Prod.ext x1 rfl, ⟨g2, fun _ => ?_⟩, g3, ?_, m2.1.2⟩
    · intro hc; exact hk (g4.symm.trans hc)
    · exact g4.trans k4

/-- A call that does not change the file. -/
theorem inquires {b : Buf} {f : AppendFile} (h : Rep b f) (he : b.writeBuf = []) {op : StreamOp} (hop : Inquires op) :
    (b.step op).2.writeBuf = [] ∧ (b.step op).2.raw.data = b.raw.data := by
  cases ha : b.raw.append with
  | false => exact InTurn.inquires (h.plain ha) he hop
  | true =>
    have hr := (h.append ha).rel
    rw [Buf.placed_idle he] at hr
    have h1 := InTurn.inquires hr he hop
    obtain ⟨h2, h3⟩ := Buf.step_flag ((h.rest he).waits ha) (h.append ha).kind op (by rintro d rfl; exact hop)
    rw [h2] at h1
    exact h1

/-- Each call does what the reference allows. -/
theorem step {b : Buf} {f : AppendFile} (h : Rep b f) (op : StreamOp)
    (hu : ¬ (b.raw.append = true ∧ AppendUnsafe b.kind f op ∨ b.raw.append = false ∧ Spec.Unsafe b.kind f.file op)) :
    ∃ f', (b.raw.append = true → AppendAllowed b.kind f op (b.step op).1 f') ∧
      (b.raw.append = false → Allowed b.kind f.file op (b.step op).1 f'.file ∧ f'.late = false) ∧
      Rep (b.step op).2 f' ∧ (b.step op).2.raw.append = b.raw.append := by
  cases ha : b.raw.append with
  | false =>
    obtain ⟨f', g1, g2⟩ := Buf.step_R (h.plain ha) op fun hc => hu (.inr ⟨ha, hc⟩)
    have hn := g2.live.noAppend
    exact ⟨⟨f', false⟩, nofun, fun _ => ⟨g1, rfl⟩, ⟨fun _ => g2, fun hc => by rw [hn] at hc; cases hc⟩, hn⟩
  | true =>
    obtain ⟨f', g1, g2⟩ := (h.append ha).step op fun hc => hu (.inl ⟨ha, hc⟩)
    have hn := g2.append
    exact ⟨f', fun _ => g1, nofun, ⟨fun hc => absurd (hn.symm.trans hc) (by decide), fun _ => g2⟩, hn⟩

/-- What `close` leaves. -/
theorem closed {b : Buf} {f : AppendFile} (h : Rep b f) :
    ∃ b', Buf.close b = (.ok (), b') ∧ b'.raw.data = f.file.data := by
  have ho : b.raw.closed = false := by
    cases ha : b.raw.append with
    | false => exact (h.plain ha).live.opened
    | true => exact (Buf.placed_same b).2.2.2.2.2.2.2.1 ▸ (h.append ha).rel.live.opened
  obtain ⟨b1, h1, h2, h3, h4, h5⟩ := h.flush
  unfold Buf.close
  rw [if_neg (by simp [ho]), PyM.tryFinally_apply, h1]
  have hc : Raw.close b1.raw = (.ok (), { b1.raw with closed := true, events := b1.raw.events ++ [.close b1.raw.data] }) := by
    simp [Raw.close, h5]
  dsimp only
  rw [Buf.onRaw_eq hc]
  exact ⟨_, rfl, h4⟩

end Rep

theorem Pausing.closes {b : Buf} {p : Nat} (h : Pausing b p) :
    ∃ b', Buf.close b = (.ok (), b') ∧ b'.raw.data = b.raw.data := by
  unfold Buf.close
  rw [if_neg (by simp [h.closed]), PyM.tryFinally_apply, h.flush]
  have hc : Raw.close b.raw = (.ok (), { b.raw with closed := true, events := b.raw.events ++ [.close b.raw.data] }) := by
    simp [Raw.close, h.closed]
  dsimp only
  rw [Buf.onRaw_eq hc]
  exact ⟨_, rfl, rfl⟩

/-! ## The invariant -/

/-- The streams and their file represent the array. -/
structure Turns (h : List Item) (w : Together) (s : Pool) : Prop where
  isOpen : ∀ i, i ∈ openIn h ↔ w.bufs i ≠ none
  owner : ∀ a ∈ holding h, a.1 ∈ openIn h
  kind : ∀ i b, w.bufs i = some b → s.kind i = b.kind
  append : ∀ i b, w.bufs i = some b → s.append i = b.raw.append
  holds : ∀ i b sh, w.bufs i = some b → (i, sh) ∈ holding h → ∃ log, Rep (Together.load b w.file) (s.view i log)
  idle : ∀ i b, w.bufs i = some b → (i, false) ∉ holding h → Pausing b (s.pos i)
  asked : ∀ i b, w.bufs i = some b → lastOf h i = some (.ask i) → b.readBuf = [] ∧ ∀ sh, (i, sh) ∉ holding h
  flushed : ∀ i b, w.bufs i = some b → lastOf h i = some (.did i .flush) → b.writeBuf = []
  file : (∀ i, (i, false) ∉ holding h) → w.file = s.data
  exclusion : Exclusion (holding h)
  mode : ∀ i sh sh', (i, sh) ∈ holding h → (i, sh') ∈ holding h → sh = sh'

namespace Turns

theorem start (d : Bytes) : Turns [] ⟨d, fun _ => none⟩ (.start d) :=
  ⟨by simp [openIn], by simp [holding], nofun, nofun, nofun, nofun, nofun, nofun, fun _ => rfl, by simp [holding, Exclusion],
    by simp [holding]⟩

theorem opened {h : List Item} {w : Together} {s : Pool} (hi : Turns h w s) {i : Sid} (ho : i ∈ openIn h) :
    ∃ b, w.bufs i = some b := by
  cases hb : w.bufs i with
  | none => exact absurd hb ((hi.isOpen i).1 ho)
  | some b => exact ⟨b, rfl⟩

/-- While a stream holds a lock, no other one holds an exclusive lock. -/
theorem lone {h : List Item} {w : Together} {s : Pool} (hi : Turns h w s) {j : Sid} {sh : Bool}
    (hj : (j, sh) ∈ holding h) {i : Sid} (hne : j ≠ i) : (i, false) ∉ holding h := by
  intro hc
  have := (hi.exclusion _ hj _ hc hne).2
  cases this

/-- Without an exclusive lock, the file is the array. -/
theorem shared_file {h : List Item} {w : Together} {s : Pool} (hi : Turns h w s) {i : Sid} (hh : (i, true) ∈ holding h) :
    w.file = s.data := by
  apply hi.file
  intro j hj
  by_cases he : j = i
  · subst he; cases hi.mode _ _ _ hh hj
  · exact hi.lone hh (fun e => he e.symm) hj

/-- A call on one stream. -/
theorem one {h : List Item} {w : Together} {s : Pool} (hi : Turns h w s) {it : Item} {i : Sid} {b b' : Buf} {f : AppendFile}
    (hb : w.bufs i = some b) (hs : streamOf it = some i) (hopen : openStep (openIn h) it = openIn h)
    (hk : b'.kind = b.kind) (ha : b'.raw.append = b.raw.append)
    (hH : ∀ j, j ≠ i → ∀ sh, (j, sh) ∈ holdStep (holding h) it ↔ (j, sh) ∈ holding h)
    (hother : ∀ j sh, j ≠ i → (j, sh) ∈ holding h → b'.raw.data = w.file ∧ f.file.data = s.data)
    (h1 : ∀ sh, (i, sh) ∈ holdStep (holding h) it → ∃ log, Rep b' ⟨{ f.file with log := log }, f.late⟩)
    (h2 : (i, false) ∉ holdStep (holding h) it → Pausing b' f.file.pos)
    (h3 : it = .ask i → b'.readBuf = [] ∧ ∀ sh, (i, sh) ∉ holdStep (holding h) it)
    (h4 : it = .did i .flush → b'.writeBuf = [])
    (h5 : (∀ j, (j, false) ∉ holdStep (holding h) it) → b'.raw.data = f.file.data)
    (hm : ∀ sh sh', (i, sh) ∈ holdStep (holding h) it → (i, sh') ∈ holdStep (holding h) it → sh = sh')
    (hx : Exclusion (holding (h ++ [it]))) :
    Turns (h ++ [it]) (w.keep i b') (s.after i f) := by
  have hio : i ∈ openIn h := (hi.isOpen i).2 (by rw [hb]; nofun)
  constructor
  · intro j
    rw [openIn_snoc, hopen, hi.isOpen j]
    unfold Together.keep
    dsimp only
    by_cases hj : j = i
    · subst hj; simp [hb]
    · rw [if_neg hj]
  · intro a ha
    rw [holding_snoc] at ha
    rw [openIn_snoc, hopen]
    by_cases hj : a.1 = i
    · rw [hj]; exact hio
    · exact hi.owner a ((hH a.1 hj a.2).1 ha)
  · intro j c hc
    unfold Together.keep at hc
    dsimp only at hc
    change s.kind j = c.kind
    by_cases hj : j = i
    · subst hj; rw [if_pos rfl] at hc; cases hc; rw [hk]; exact hi.kind _ _ hb
    · rw [if_neg hj] at hc; exact hi.kind _ _ hc
  · intro j c hc
    unfold Together.keep at hc
    dsimp only at hc
    change s.append j = c.raw.append
    by_cases hj : j = i
    · subst hj; rw [if_pos rfl] at hc; cases hc; rw [ha]; exact hi.append _ _ hb
    · rw [if_neg hj] at hc; exact hi.append _ _ hc
  · intro j c sh hc ha
    rw [holding_snoc] at ha
    unfold Together.keep at hc ⊢
    dsimp only at hc ⊢
    by_cases hj : j = i
    · subst hj
      rw [if_pos rfl] at hc
      cases hc
      obtain ⟨log, hr⟩ := h1 sh ha
      refine ⟨log, ?_⟩
      rw [Together.load_same rfl]
      have : (s.after j f).view j log = ⟨{ f.file with log := log }, f.late⟩ := by simp [Pool.view, Pool.after]
      rw [this]; exact hr
    · rw [if_neg hj] at hc
      have ha' := (hH j hj sh).1 ha
      obtain ⟨log, hr⟩ := hi.holds j c sh hc ha'
      obtain ⟨e1, e2⟩ := hother j sh hj ha'
      refine ⟨log, ?_⟩
      have : (s.after i f).view j log = s.view j log := by simp [Pool.view, Pool.after, hj, e2]
      rw [this, e1]; exact hr
  · intro j c hc ha
    rw [holding_snoc] at ha
    unfold Together.keep at hc
    dsimp only at hc
    by_cases hj : j = i
    · subst hj
      rw [if_pos rfl] at hc
      cases hc
      have : (s.after j f).pos j = f.file.pos := by simp [Pool.after]
      rw [this]; exact h2 ha
    · rw [if_neg hj] at hc
      have : (s.after i f).pos j = s.pos j := by simp [Pool.after, hj]
      rw [this]
      exact hi.idle j c hc (fun hc => ha ((hH j hj _).2 hc))
  · intro j c hc hl
    rw [lastOf_snoc] at hl
    rw [holding_snoc]
    unfold Together.keep at hc
    dsimp only at hc
    by_cases hj : j = i
    · subst hj
      rw [if_pos rfl] at hc
      cases hc
      rw [if_pos hs] at hl
      cases hl
      exact h3 rfl
    · rw [if_neg hj] at hc
      rw [if_neg (by rw [hs]; intro he; exact hj (Option.some.inj he).symm)] at hl
      obtain ⟨e1, e2⟩ := hi.asked j c hc hl
      exact ⟨e1, fun sh hc => e2 sh ((hH j hj _).1 hc)⟩
  · intro j c hc hl
    rw [lastOf_snoc] at hl
    unfold Together.keep at hc
    dsimp only at hc
    by_cases hj : j = i
    · subst hj
      rw [if_pos rfl] at hc
      cases hc
      rw [if_pos hs] at hl
      cases hl
      exact h4 rfl
    · rw [if_neg hj] at hc
      rw [if_neg (by rw [hs]; intro he; exact hj (Option.some.inj he).symm)] at hl
      exact hi.flushed j c hc hl
  · intro ha
    rw [holding_snoc] at ha
    exact h5 ha
  · exact hx
  · intro j sh sh' ha hb'
    rw [holding_snoc] at ha hb'
    by_cases hj : j = i
    · subst hj; exact hm sh sh' ha hb'
    · exact hi.mode j sh sh' ((hH j hj _).1 ha) ((hH j hj _).1 hb')

theorem ask {h : List Item} {w : Together} {s : Pool} (hi : Turns h w s) {i : Sid} (hp : ProperAny h (.ask i))
    (hx : Exclusion (holding (h ++ [.ask i]))) :
    ∃ s', s.Step (.ask i) (w.step (.ask i)).1 s' ∧ Turns (h ++ [.ask i]) (w.step (.ask i)).2 s' := by
  obtain ⟨b, hb⟩ := hi.opened hp.1
  have hid := (hi.idle i b hb (hp.2 false)).load w.file
  have hst : w.step (.ask i) = (.done, w.keep i (Idle.wiped (Together.load b w.file) (s.pos i))) := by
    simp only [Together.step, Together.on, hb, hid.reset]; rfl
  rw [hst]
  refine ⟨_, ⟨rfl, rfl⟩, hi.one hb rfl rfl rfl rfl (fun _ _ _ => Iff.rfl) (fun _ _ _ _ => ⟨rfl, rfl⟩)
    (fun sh hc => absurd hc (hp.2 sh)) (fun _ => hid.wiped) (fun _ => ⟨rfl, hp.2⟩) nofun ?_
    (fun sh _ hc => absurd hc (hp.2 sh)) hx⟩
  exact fun hc => hi.file hc

theorem granted {h : List Item} {w : Together} {s : Pool} (hi : Turns h w s) {i : Sid} {sh : Bool}
    (hp : ProperAny h (.granted i sh)) (hx : Exclusion (holding (h ++ [.granted i sh]))) :
    ∃ s', s.Step (.granted i sh) (w.step (.granted i sh)).1 s' ∧
      Turns (h ++ [.granted i sh]) (w.step (.granted i sh)).2 s' := by
  obtain ⟨b, hb⟩ := hi.opened hp.1
  obtain ⟨hr, hno⟩ := hi.asked i b hb hp.2
  have hid := (hi.idle i b hb (hno false)).load w.file
  have hlock : Raw.lockFile w.file (Together.load b w.file).raw =
      (.ok (), { (Together.load b w.file).raw with
        data := w.file, events := b.raw.events ++ [.lock w.file], disk := b.raw.disk ++ [.content w.file] }) := by
    unfold Raw.lockFile
    rw [PyM.bind_ok (Raw.checkSeekable_ok hid.closed hid.seekable)]; rfl
  have hst : w.step (.granted i sh) = (.done, w.keep i { Together.load b w.file with raw :=
      { (Together.load b w.file).raw with
        data := w.file, events := b.raw.events ++ [.lock w.file], disk := b.raw.disk ++ [.content w.file] } }) := by
    simp only [Together.step, Together.on, hb]
    have : (Together.load b w.file).raw.data = w.file := rfl
    rw [this, Buf.onRaw_eq hlock]; rfl
  have hmem : ∀ (j : Sid) (x : Bool), (j, x) ∈ holdStep (holding h) (.granted i sh) ↔ (j, x) ∈ holding h ∨ (j = i ∧ x = sh) := by
    intro j x; simp [holdStep]
  have hfile : w.file = s.data := by
    apply hi.file
    intro j hj
    have hji : j ≠ i := by rintro rfl; exact hno _ hj
    have hx' := hx
    rw [holding_snoc] at hx'
    have := (hx' _ ((hmem j false).2 (Or.inl hj)) _ ((hmem i sh).2 (Or.inr ⟨rfl, rfl⟩)) hji).1
    cases this
  have hid' : Pausing { Together.load b w.file with raw :=
      { (Together.load b w.file).raw with
        data := w.file, events := b.raw.events ++ [.lock w.file], disk := b.raw.disk ++ [.content w.file] } } (s.pos i) :=
    have hl := hid.idle.live
    ⟨⟨⟨hl.opened, hl.unix, hl.noAppend, hl.seekable, hl.readable, hl.writable, hl.blocking, hl.bufferSize⟩, hid.idle.inside,
      hid.idle.empty, hid.idle.writer, hid.idle.pos⟩, hid.kind⟩
  rw [hst]
  refine ⟨_, ⟨rfl, rfl⟩, hi.one hb rfl rfl rfl rfl (fun j hj x => ?_) (fun _ _ _ _ => ⟨rfl, rfl⟩) (fun x hc => ?_) (fun _ => hid')
    nofun nofun (fun _ => hfile) (fun x x' h1 h2 => ?_) hx⟩
  · rw [hmem]; simp [hj]
  · refine ⟨b.raw.events ++ [.lock w.file], ?_⟩
    have := hid'.rep hr false false
    dsimp only at this
    rw [← hfile]
    exact this
  · rw [hmem] at h1 h2
    rw [(h1.resolve_left (hno x)).2, (h2.resolve_left (hno x')).2]

theorem dropped (H : List (Sid × Bool)) (i : Sid) (j : Sid) (x : Bool) :
    (j, x) ∈ H.filter (fun h => h.1 ≠ i) ↔ (j, x) ∈ H ∧ j ≠ i := by simp

theorem unlock {h : List Item} {w : Together} {s : Pool} (hi : Turns h w s) {i : Sid} (hp : ProperAny h (.unlock i))
    (hx : Exclusion (holding (h ++ [.unlock i]))) :
    ∃ s', s.Step (.unlock i) (w.step (.unlock i)).1 s' ∧ Turns (h ++ [.unlock i]) (w.step (.unlock i)).2 s' := by
  obtain ⟨sh, hh⟩ := hp
  obtain ⟨b, hb⟩ := hi.opened (hi.owner _ hh)
  obtain ⟨log, hr⟩ := hi.holds i b sh hb hh
  obtain ⟨b', g1, g2, g3, g4, g5⟩ := hr.unlocked
  have hst : w.step (.unlock i) = (.done, w.keep i b') := by
    simp only [Together.step, Together.on, hb, g1]; rfl
  have hmem : ∀ (j : Sid) (x : Bool), (j, x) ∈ holdStep (holding h) (.unlock i) ↔ (j, x) ∈ holding h ∧ j ≠ i :=
    dropped (holding h) i
  rw [hst]
  refine ⟨_, ⟨rfl, rfl⟩, hi.one hb rfl rfl g4 g5 (fun j hj x => ?_) (fun j x hj hjx => ⟨?_, rfl⟩) (fun x hc => ?_) (fun _ => g2)
    nofun nofun (fun _ => g3) (fun x x' h1 h2 => ?_) hx⟩
  · rw [hmem]; simp [hj]
  · have hsh : sh = true := (hi.exclusion _ hh _ hjx (fun e => hj e.symm)).1
    subst hsh
    rw [g3]
    exact (hi.shared_file hh).symm
  · rw [hmem] at hc; exact absurd rfl hc.2
  · rw [hmem] at h1; exact absurd rfl h1.2

theorem exit {h : List Item} {w : Together} {s : Pool} (hi : Turns h w s) {i : Sid} (hp : ProperAny h (.exit i))
    (hx : Exclusion (holding (h ++ [.exit i]))) :
    ∃ s', s.Step (.exit i) (w.step (.exit i)).1 s' ∧ Turns (h ++ [.exit i]) (w.step (.exit i)).2 s' := by
  have hh : ∃ sh, (i, sh) ∈ holding h := hp.elim (fun h => ⟨_, h⟩) (fun h => ⟨_, h.1⟩)
  obtain ⟨sh, hh⟩ := hh
  obtain ⟨b, hb⟩ := hi.opened (hi.owner _ hh)
  obtain ⟨log, hr⟩ := hi.holds i b sh hb hh
  have he : b.writeBuf = [] := by
    rcases hp with hp | ⟨_, hp⟩
    · refine (hi.idle i b hb fun hc => ?_).empty
      cases hi.mode _ _ _ hp hc
    · exact hi.flushed i b hb hp
  have hid := hr.rest he
  have hunlock : Raw.unlockFile (Together.load b w.file).raw =
      (.ok (), { (Together.load b w.file).raw with events := b.raw.events ++ [.unlock w.file] }) := by
    unfold Raw.unlockFile
    rw [PyM.bind_ok (Raw.checkSeekable_ok hid.closed hid.seekable)]; rfl
  have hst : w.step (.exit i) = (.done, w.keep i { Together.load b w.file with raw :=
      { (Together.load b w.file).raw with events := b.raw.events ++ [.unlock w.file] } }) := by
    simp only [Together.step, Together.on, hb, Buf.exitLock, Buf.onRaw_eq hunlock]; rfl
  have hmem : ∀ (j : Sid) (x : Bool), (j, x) ∈ holdStep (holding h) (.exit i) ↔ (j, x) ∈ holding h ∧ j ≠ i :=
    dropped (holding h) i
  have hfile : w.file = s.data := hr.data he
  have hafter : s = s.after i (s.view i log) := by
    unfold Pool.after Pool.view
    obtain ⟨d, k, m, p, a, l⟩ := s
    congr <;> (funext j; dsimp only; split <;> simp_all)
  rw [hst]
  refine ⟨s, ⟨rfl, rfl⟩, ?_⟩
  rw [hafter]
  refine hi.one hb rfl rfl rfl rfl (fun j hj x => ?_) (fun j x hj hjx => ⟨rfl, rfl⟩) (fun x hc => ?_)
    (fun _ => have hl := hid.idle.live; ⟨⟨⟨hl.1, hl.2, hl.3, hl.4, hl.5, hl.6, hl.7, hl.8⟩, hid.idle.inside, hid.idle.empty, hid.idle.writer, hid.idle.pos⟩, hid.kind⟩)
    nofun nofun (fun _ => hfile) (fun x x' h1 h2 => ?_) hx
  · rw [hmem]; simp [hj]
  · rw [hmem] at hc; exact absurd rfl hc.2
  · rw [hmem] at h1; exact absurd rfl h1.2

theorem did {h : List Item} {w : Together} {s : Pool} (hi : Turns h w s) {i : Sid} {op : StreamOp} (hp : ProperAny h (.did i op))
    (hx : Exclusion (holding (h ++ [.did i op]))) (hu : ¬ s.Unsafe (.did i op)) :
    ∃ s', s.Step (.did i op) (w.step (.did i op)).1 s' ∧ Turns (h ++ [.did i op]) (w.step (.did i op)).2 s' := by
  have hh : ∃ sh, (i, sh) ∈ holding h := hp.elim (fun h => h.2) (fun h => ⟨_, h.2⟩)
  obtain ⟨sh, hh⟩ := hh
  obtain ⟨b, hb⟩ := hi.opened (hi.owner _ hh)
  obtain ⟨log, hr⟩ := hi.holds i b sh hb hh
  have hk : (Together.load b w.file).kind = s.kind i := (hi.kind i b hb).symm
  have hap : (Together.load b w.file).raw.append = s.append i := (hi.append i b hb).symm
  obtain ⟨f', g0, g1, g2, g3⟩ := hr.step op (by
    rw [hk, hap]
    intro hc
    apply hu
    cases op <;> exact hc)
  rw [hk, hap] at g0 g1
  have hst : w.step (.did i op) =
      (((Together.load b w.file).step op).1, w.keep i ((Together.load b w.file).step op).2) := by
    simp only [Together.step, Together.on, hb]
  have hkeep : holdStep (holding h) (.did i op) = holding h := rfl
  -- while the lock is shared, the call does not write
  have hsh : (i, false) ∉ holding h → Inquires op ∧ (Together.load b w.file).writeBuf = [] := fun hc =>
    ⟨(hp.resolve_right fun h => hc h.2).1, (hi.idle i b hb hc).empty⟩
  have hquiet : (i, false) ∉ holding h → ((Together.load b w.file).step op).2.writeBuf = [] ∧
      ((Together.load b w.file).step op).2.raw.data = w.file ∧ f'.file.data = s.data := fun hc =>
    have h1 := hr.inquires (hsh hc).2 (hsh hc).1
    ⟨h1.1, h1.2, by
      cases hm : s.append i with
      | false => exact InTurn.allowed_inquires (hsh hc).1 (g1 hm).1
      | true =>
        have h2 := g0 hm
        have h3 := (hsh hc).1
        cases op <;> first | exact h3.elim | exact InTurn.allowed_inquires h3 h2.1⟩
  rw [hst]
  refine ⟨_, ⟨log, f', g0, g1, rfl⟩, hi.one hb rfl rfl (Buf.step_keeps _ op).1 g3 (fun _ _ _ => Iff.rfl) (fun j x hj hjx => ?_)
    (fun x hc => ⟨f'.file.log, g2⟩) (fun hc => ?_) nofun (fun he => ?_) (fun hc => ?_)
    (fun x x' h1 h2 => hi.mode i x x' h1 h2) hx⟩
  · exact (hquiet (hi.lone hjx hj)).2
  · exact g2.rest (hquiet hc).1
  · cases he
    obtain ⟨b', k1, k2, _⟩ := hr.flush
    simp only [Buf.step, k1]
    exact k2
  · have := hquiet (hc i)
    rw [this.2.1, this.2.2]
    exact hi.file hc

theorem openS {h : List Item} {w : Together} {s : Pool} (hi : Turns h w s) {i : Sid} {b : Buf} (hp : ProperAny h (.opened i b))
    (hx : Exclusion (holding (h ++ [.opened i b]))) :
    ∃ s', s.Step (.opened i b) (w.step (.opened i b)).1 s' ∧ Turns (h ++ [.opened i b]) (w.step (.opened i b)).2 s' := by
  obtain ⟨hno, ⟨k, n, raw, hc⟩, p1, p3, p4, p5⟩ := hp
  have hnh : ∀ sh, (i, sh) ∉ holding h := fun sh hc => hno (hi.owner _ hc)
  obtain ⟨rfl, c2, c3, c4, c5⟩ := Props.create_ok hc
  have hid : Pausing ⟨k, n.toNat, raw, [], 0, []⟩ raw.pos :=
    ⟨⟨⟨c3, p1, rfl, p3, c4, c5, p4, by show 0 < n.toNat; omega⟩, Nat.le_refl _, rfl, fun _ => rfl, by simp [Buf.extra, Buf.plain, Raw.plain]⟩, p5⟩
  refine ⟨_, ⟨rfl, rfl⟩, ?_⟩
  have hH : holding (h ++ [.opened i ⟨k, n.toNat, raw, [], 0, []⟩]) = holding h := by rw [holding_snoc]; rfl
  constructor
  · intro j
    rw [openIn_snoc]
    simp only [Together.step, openStep, List.mem_append, List.mem_singleton]
    by_cases hj : j = i
    · simp [hj]
    · simp [hj, hi.isOpen j]
  · intro a ha
    rw [hH] at ha
    rw [openIn_snoc]
    exact List.mem_append_left _ (hi.owner a ha)
  · intro j c hc
    simp only [Together.step] at hc ⊢
    by_cases hj : j = i
    · rw [if_pos hj] at hc ⊢; cases hc; rfl
    · rw [if_neg hj] at hc ⊢; exact hi.kind j c hc
  · intro j c hc
    simp only [Together.step] at hc ⊢
    by_cases hj : j = i
    · rw [if_pos hj] at hc ⊢; cases hc; rfl
    · rw [if_neg hj] at hc ⊢; exact hi.append j c hc
  · intro j c sh hc ha
    rw [hH] at ha
    have hj : j ≠ i := by rintro rfl; exact hnh _ ha
    simp only [Together.step, if_neg hj] at hc
    obtain ⟨log, hr⟩ := hi.holds j c sh hc ha
    refine ⟨log, ?_⟩
    unfold Pool.view at hr ⊢
    simp only [if_neg hj]
    exact hr
  · intro j c hc ha
    rw [hH] at ha
    simp only [Together.step] at hc ⊢
    by_cases hj : j = i
    · rw [if_pos hj] at hc ⊢; cases hc; exact hid
    · rw [if_neg hj] at hc ⊢; exact hi.idle j c hc ha
  · intro j c hc hl
    rw [hH]
    rw [lastOf_snoc] at hl
    simp only [Together.step] at hc
    by_cases hj : j = i
    · subst hj; rw [if_pos (by rfl)] at hl; cases hl
    · rw [if_neg hj] at hc
      rw [if_neg (by intro he; exact hj (Option.some.inj he).symm)] at hl
      exact hi.asked j c hc hl
  · intro j c hc hl
    rw [lastOf_snoc] at hl
    simp only [Together.step] at hc
    by_cases hj : j = i
    · subst hj; rw [if_pos (by rfl)] at hl; cases hl
    · rw [if_neg hj] at hc
      rw [if_neg (by intro he; exact hj (Option.some.inj he).symm)] at hl
      exact hi.flushed j c hc hl
  · rw [hH]; exact hi.file
  · exact hx
  · rw [hH]; exact hi.mode

/-- Some streams disappear; nothing of theirs was pending. -/
theorem drop {h : List Item} {w : Together} {s : Pool} (hi : Turns h w s) {it : Item} (gone : Sid → Prop) [DecidablePred gone]
    {bufs : Sid → Option Buf} {d : Bytes}
    (ho : ∀ j, j ∈ openStep (openIn h) it ↔ j ∈ openIn h ∧ ¬ gone j)
    (hH : ∀ j sh, (j, sh) ∈ holdStep (holding h) it ↔ (j, sh) ∈ holding h ∧ ¬ gone j)
    (hb : ∀ j, bufs j = if gone j then none else w.bufs j) (hs : ∀ j, streamOf it = some j → gone j)
    (hd : ∀ j sh, ¬ gone j → (j, sh) ∈ holding h → d = w.file)
    (hf : (∀ j, ¬ gone j → (j, false) ∉ holding h) → d = s.data)
    (hx : Exclusion (holding (h ++ [it]))) : Turns (h ++ [it]) ⟨d, bufs⟩ s := by
  have hold : ∀ j c, bufs j = some c → ¬ gone j ∧ w.bufs j = some c := by
    intro j c hc
    rw [hb j] at hc
    by_cases hg : gone j
    · rw [if_pos hg] at hc; cases hc
    · rw [if_neg hg] at hc; exact ⟨hg, hc⟩
  have hlast : ∀ j, ¬ gone j → lastOf (h ++ [it]) j = lastOf h j := by
    intro j hg
    rw [lastOf_snoc, if_neg (fun he => hg (hs j he))]
  constructor
  · intro j
    rw [openIn_snoc, ho j, hi.isOpen j]
    dsimp only
    rw [hb j]
    by_cases hg : gone j <;> simp [hg]
  · intro a ha
    rw [holding_snoc] at ha
    rw [openIn_snoc]
    have := (hH a.1 a.2).1 ha
    exact (ho a.1).2 ⟨hi.owner _ this.1, this.2⟩
  · intro j c hc; exact hi.kind j c (hold j c hc).2
  · intro j c hc; exact hi.append j c (hold j c hc).2
  · intro j c sh hc ha
    rw [holding_snoc] at ha
    have ha' := (hH j sh).1 ha
    obtain ⟨log, hr⟩ := hi.holds j c sh (hold j c hc).2 ha'.1
    refine ⟨log, ?_⟩
    dsimp only
    rw [hd j sh ha'.2 ha'.1]
    exact hr
  · intro j c hc ha
    rw [holding_snoc] at ha
    obtain ⟨hg, hc⟩ := hold j c hc
    exact hi.idle j c hc (fun hc => ha ((hH j false).2 ⟨hc, hg⟩))
  · intro j c hc hl
    obtain ⟨hg, hc⟩ := hold j c hc
    rw [hlast j hg] at hl
    rw [holding_snoc]
    obtain ⟨e1, e2⟩ := hi.asked j c hc hl
    exact ⟨e1, fun sh ha => e2 sh ((hH j sh).1 ha).1⟩
  · intro j c hc hl
    obtain ⟨hg, hc⟩ := hold j c hc
    rw [hlast j hg] at hl
    exact hi.flushed j c hc hl
  · intro ha
    rw [holding_snoc] at ha
    exact hf fun j hg hc => ha j ((hH j false).2 ⟨hc, hg⟩)
  · exact hx
  · intro j sh sh' h1 h2
    rw [holding_snoc] at h1 h2
    exact hi.mode j sh sh' ((hH j sh).1 h1).1 ((hH j sh').1 h2).1

theorem gone {h : List Item} {w : Together} {s : Pool} (hi : Turns h w s) {p : Nat} (hp : ProperAny h (.gone p))
    (hx : Exclusion (holding (h ++ [.gone p]))) :
    ∃ s', s.Step (.gone p) (w.step (.gone p)).1 s' ∧ Turns (h ++ [.gone p]) (w.step (.gone p)).2 s' := by
  refine ⟨s, ⟨rfl, rfl⟩, hi.drop (fun j => j.1 = p) (fun j => ?_) (fun j sh => ?_) (fun j => rfl) nofun
    (fun j sh _ _ => rfl) (fun hc => ?_) hx⟩
  · simp [openStep]
  · simp [holdStep]
  · exact hi.file fun j hj => hc j (hp _ hj) hj

theorem close {h : List Item} {w : Together} {s : Pool} (hi : Turns h w s) {i : Sid} (hp : ProperAny h (.close i))
    (hx : Exclusion (holding (h ++ [.close i]))) :
    ∃ s', s.Step (.close i) (w.step (.close i)).1 s' ∧ Turns (h ++ [.close i]) (w.step (.close i)).2 s' := by
  obtain ⟨b, hb⟩ := hi.opened hp
  have key : ∃ b', Buf.close (Together.load b w.file) = (.ok (), b') ∧
      b'.raw.data = if (i, false) ∈ holding h then s.data else w.file := by
    by_cases hh : (i, false) ∈ holding h
    · obtain ⟨log, hr⟩ := hi.holds i b false hb hh
      rw [if_pos hh]
      exact hr.closed
    · rw [if_neg hh]
      exact ((hi.idle i b hb hh).load w.file).closes
  obtain ⟨b', k1, k2⟩ := key
  have hst : w.step (.close i) = (.done, ⟨b'.raw.data, fun j => if j = i then none else w.bufs j⟩) := by
    simp only [Together.step, Together.on, hb, k1, Together.keep]
    congr 2
    funext j
    by_cases hj : j = i
    · rw [if_pos hj, if_pos hj]
    · rw [if_neg hj, if_neg hj, if_neg hj]
  rw [hst]
  refine ⟨s, ⟨rfl, rfl⟩, hi.drop (fun j => j = i) (fun j => ?_) (fun j sh => ?_) (fun j => rfl) (fun j hj => ?_)
    (fun j sh hj ha => ?_) (fun hc => ?_) hx⟩
  · simp [openStep]
  · simp [holdStep]
  · exact (Option.some.inj hj).symm
  · rw [k2, if_neg (hi.lone ha hj)]
  · rw [k2]
    by_cases hh : (i, false) ∈ holding h
    · rw [if_pos hh]
    · rw [if_neg hh]
      refine hi.file fun j ha => ?_
      by_cases hj : j = i
      · subst hj; exact hh ha
      · exact hc j hj ha

theorem step {h : List Item} {w : Together} {s : Pool} (hi : Turns h w s) {it : Item} (hp : ProperAny h it)
    (hx : Exclusion (holding (h ++ [it]))) (hu : ¬ s.Unsafe it) :
    ∃ s', s.Step it (w.step it).1 s' ∧ Turns (h ++ [it]) (w.step it).2 s' := by
  cases it with
  | opened i b => exact hi.openS hp hx
  | ask i => exact hi.ask hp hx
  | granted i sh => exact hi.granted hp hx
  | did i op => exact hi.did hp hx hu
  | unlock i => exact hi.unlock hp hx
  | exit i => exact hi.exit hp hx
  | close i => exact hi.close hp hx
  | gone p => exact hi.gone hp hx

/-- All along a history, up to the first call that the code gets wrong. -/
theorem history {h : List Item} (hd : DisciplinedAny h) (d : Bytes) :
    ∃ pre post s, h = pre ++ post ∧ DisciplinedAny pre ∧
      Pooled (.start d) (Together.play ⟨d, fun _ => none⟩ pre).1 s ∧
      Turns pre (Together.play ⟨d, fun _ => none⟩ pre).2 s ∧ (post = [] ∨ ∃ it rest, post = it :: rest ∧ s.Unsafe it) := by
  induction hd with
  | nil => exact ⟨[], [], .start d, rfl, .nil, .nil _, start d, Or.inl rfl⟩
  | @snoc h it hd hp hx ih =>
    obtain ⟨pre, post, s, rfl, e0, e1, e2, e3⟩ := ih
    rcases e3 with rfl | ⟨it', rest, rfl, e3⟩
    · rw [List.append_nil] at hp hx
      by_cases hu : s.Unsafe it
      · exact ⟨pre, [it], s, by simp, e0, e1, e2, Or.inr ⟨it, [], rfl, hu⟩⟩
      · obtain ⟨s', g1, g2⟩ := e2.step hp hx hu
        refine ⟨pre ++ [it], [], s', by simp, .snoc e0 hp hx, ?_, ?_, Or.inl rfl⟩
        · rw [Together.play_snoc]; exact .snoc e1 g1
        · rw [Together.play_snoc]; exact g2
    · exact ⟨pre, (it' :: rest) ++ [it], s, by simp, e0, e1, e2, Or.inr ⟨it', rest ++ [it], by simp, e3⟩⟩

end Turns

end Verif
