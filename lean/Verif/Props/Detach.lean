import Verif.Props.Forked
import Verif.Model.Detach

/-!
# C118: `detach()`
-/

set_option autoImplicit false

namespace Verif.Props

open Verif Verif.Spec Handed

/-! ## A regular file -/

theorem R.open {b : Buf} {f : File} (h : Buf.R b f) (hr : b.readBuf = []) (hw : b.writeBuf = []) (ha : f.ahead = false) :
    fileOf b.raw = f ∧ Blocking b.raw.sched ∧ ∀ k n c, Buf.create k n b.raw = .ok c → Opened k n b.raw c := by
  refine ⟨?_, h.live.blocking, fun k n c hc => ⟨hc, h.live.unix, h.live.noAppend, h.live.seekable⟩⟩
  have h1 := h.data' hw
  have h2 := h.pos' hw
  unfold Buf.extra at h2
  rw [hr] at h2
  obtain ⟨d, p, a, l⟩ := f
  have h3 := h.log
  dsimp only at h1 h2 h3 ha
  unfold fileOf
  rw [h1, h2, ← h3, ha]
  simp

/-- What the calls so far have made of the file. -/
structure Passed (k : BufKind) (raw : Raw) (h1 h2 : List (StreamOp × StreamOut)) (w : Handed) (f : File) : Prop where
  before : Conforms k (fileOf raw) h1 f
  attached : w.attached = true → h2 = [] ∧ w.new = none ∧ w.old.kind = k ∧ Buf.R { w.old with raw := w.raw } f
  waiting : w.attached = false → w.new = none → h2 = [] ∧ w.raw.data = f.data ∧ w.raw.events = f.log ∧ (f.ahead = false →
    fileOf w.raw = f ∧ Blocking w.raw.sched ∧ ∀ k n c, Buf.create k n w.raw = .ok c → Opened k n w.raw c)
  after : w.attached = false → f.ahead = false → ∀ c, w.new = some c →
    (∃ f', Conforms c.kind f h2 f' ∧ Buf.R { c with raw := w.raw } f') ∨
      ∃ pre op out rest f', h2 = pre ++ (op, out) :: rest ∧ Conforms c.kind f pre f' ∧ Unsafe c.kind f' op

/-- The calls of the first stream included one that C23 excludes. -/
def Excluded (k : BufKind) (f : File) (h : List (StreamOp × StreamOut)) : Prop :=
  ∃ pre op out rest f', h = pre ++ (op, out) :: rest ∧ Conforms k f pre f' ∧ Unsafe k f' op

theorem detach_done {w : Handed} {f : File} (ha : w.attached = true) (hR : Buf.R { w.old with raw := w.raw } f) :
    ∃ b, w.detach = (.ok (), { w with raw := b.raw, old := b, attached := false }) ∧ Buf.R b f ∧ b.writeBuf = [] ∧
      b.readBuf = w.old.readBuf := by
  obtain ⟨b, h1, h2, h3, _, h4, _⟩ := Buf.flush_R hR
  refine ⟨b, ?_, h2, h3, h4⟩
  unfold Handed.detach
  rw [if_pos ha, h1]

theorem passed {k : BufKind} {n : Int} {raw : Raw} {b : Buf} (hb : Opened k n raw b) (hs : Blocking raw.sched)
    {h1 h2 : List (StreamOp × StreamOut)} {w : Handed} (hr : Handed.Ran (Handed.start b) h1 h2 w) :
    (∃ f, Passed k raw h1 h2 w f) ∨ Excluded k (fileOf raw) h1 := by
  induction hr with
  | start =>
    refine .inl ⟨fileOf raw, .nil _, fun _ => ⟨rfl, rfl, hb.kind, hb.R hs⟩, nofun, nofun⟩
  | @old h1 h2 w op _ ha ih =>
    rcases ih with ⟨f, hp⟩ | ⟨pre, o, out, rest, f, h1, h2⟩
    · obtain ⟨e1, e2, e3, e4⟩ := hp.attached ha
      by_cases hu : Unsafe k f op
      · exact .inr ⟨_, op, _, [], f, rfl, hp.before, hu⟩
      · obtain ⟨f', g1, g2⟩ := Buf.step_R e4 op (by rw [show ({ w.old with raw := w.raw } : Buf).kind = k from e3]; exact hu)
        have g3 := (Buf.step_keeps { w.old with raw := w.raw } op).1
        refine .inl ⟨f', ?_⟩
        unfold Handed.callOld
        rw [if_pos ha]
        dsimp only
        refine ⟨conforms_snoc hp.before (by rw [← e3]; exact g1), fun _ => ⟨e1, e2, g3.trans e3, g2⟩, ?_, ?_⟩
        · dsimp only; rw [ha]; nofun
        · dsimp only; rw [ha]; nofun
    · exact .inr ⟨pre, o, out, _, f, by rw [h1, List.append_assoc]; rfl, h2⟩
  | @detach h1 h2 w _ ih =>
    rcases ih with ⟨f, hp⟩ | h
    · refine .inl ⟨f, ?_⟩
      by_cases ha : w.attached = true
      · obtain ⟨e1, e2, e3, e4⟩ := hp.attached ha
        obtain ⟨c, g1, g2, g3, g4⟩ := detach_done ha e4
        rw [g1]
        dsimp only
        refine ⟨hp.before, nofun, fun _ _ => ⟨e1, g2.data' g3, g2.log.symm, fun hah => ?_⟩, fun _ _ c hc => ?_⟩
        · exact R.open g2 (g2.ahead hah) g3 hah
        · dsimp only at hc; rw [e2] at hc; cases hc
      · have : w.detach.2 = w := by unfold Handed.detach; rw [if_neg ha]
        rw [this]
        exact hp
    · exact .inr h
  | @orphan h1 h2 w op _ ha ih =>
    rcases ih with ⟨f, hp⟩ | h
    · refine .inl ⟨f, ?_⟩
      unfold Handed.callOld
      rw [if_neg (by rw [ha]; decide)]
      exact ⟨hp.before, fun h => absurd (ha.symm.trans h) (by decide), fun _ => hp.waiting ha, fun _ => hp.after ha⟩
    · exact .inr h
  | @close h1 h2 w _ ha ih =>
    rcases ih with ⟨f, hp⟩ | h
    · refine .inl ⟨f, ?_⟩
      unfold Handed.closeOld
      rw [if_neg (by rw [ha]; decide)]
      exact hp
    · exact .inr h
  | @wrap h1 h2 w k' n' c _ ha hn hc ih =>
    rcases ih with ⟨f, hp⟩ | h
    · refine .inl ⟨f, ?_⟩
      obtain ⟨e1, e2, e3, e4⟩ := hp.waiting ha hn
      unfold Handed.wrap
      refine ⟨hp.before, fun h => absurd (ha.symm.trans h) (by decide), fun _ h => (nomatch h), fun _ hah d hd => ?_⟩
      cases hd
      obtain ⟨g1, g2, g3⟩ := e4 hah
      have ho := g3 _ _ _ hc
      left
      refine ⟨f, e1 ▸ .nil _, ?_⟩
      have := ho.R g2
      obtain ⟨rfl, _⟩ := create_ok hc
      rw [g1] at this
      exact this
    · exact .inr h
  | @new h1 h2 w c op _ hn ih =>
    rcases ih with ⟨f, hp⟩ | h
    · refine .inl ⟨f, ?_⟩
      unfold Handed.callNew
      refine ⟨hp.before, fun h => ?_, nofun, fun ha hah d hd => ?_⟩
      · have := (hp.attached h).2.1; rw [hn] at this; cases this
      · have hk := (Buf.step_keeps { c with raw := w.raw } op).1
        cases hd
        dsimp only at hk ⊢
        generalize hq : ({ c with raw := w.raw } : Buf).step op = q at hk ⊢
        rw [hk]
        rcases hp.after ha hah c hn with ⟨f', g1, g2⟩ | ⟨pre, o, out, rest, f', g1, g2⟩
        · by_cases hu : Unsafe c.kind f' op
          · exact .inr ⟨_, op, _, [], f', rfl, g1, hu⟩
          · obtain ⟨f2, g3, g4⟩ := Buf.step_R g2 op hu
            rw [hq] at g3 g4
            exact .inl ⟨f2, conforms_snoc g1 g3, by rw [← hk]; exact g4⟩
        · exact .inr ⟨pre, o, out, _, f', by rw [g1, List.append_assoc]; rfl, g2⟩
    · exact .inr h

/-- C118: `detach()` succeeds; then all that was written is in the file, the locks are as before, and, if nothing was read since the
last `seek`, `write`, `lock_file` or `unlock_file`, a new stream on the raw stream goes on where the first one was, whatever is done
with the first stream.  (Up to the first call that C23 excludes.)
Missing: the position after reads, for which it is false (`C118_refuted`). -/
theorem C118_handover_partial {k : BufKind} {n : Int} {raw : Raw} {b : Buf} (hb : Opened k n raw b) (hs : Blocking raw.sched)
    {h1 h2 : List (StreamOp × StreamOut)} {w : Handed} (hr : Handed.Ran (Handed.start b) h1 h2 w) :
    Excluded k (fileOf raw) h1 ∨ ∃ f, Conforms k (fileOf raw) h1 f ∧
      (w.attached = true → w.detach.1 = .ok () ∧ w.detach.2.raw.data = f.data ∧ w.detach.2.raw.events = f.log ∧
        w.detach.2.raw.closed = false ∧ (f.ahead = false → w.detach.2.raw.pos = f.pos)) ∧
      (w.attached = false → w.new = none → w.raw.data = f.data ∧ w.raw.events = f.log ∧ (f.ahead = false → w.raw.pos = f.pos)) ∧
      (w.attached = false → f.ahead = false → ∀ c, w.new = some c → Excluded c.kind f h2 ∨
        ∃ f', Conforms c.kind f h2 f' ∧ (Buf.flush { c with raw := w.raw }).1 = .ok () ∧
          (Buf.flush { c with raw := w.raw }).2.raw.data = f'.data) := by
  rcases passed hb hs hr with ⟨f, hp⟩ | h
  · refine .inr ⟨f, hp.before, fun ha => ?_, fun ha hn => ?_, fun ha hah c hc => ?_⟩
    · obtain ⟨_, _, _, e4⟩ := hp.attached ha
      obtain ⟨c, g1, g2, g3, _⟩ := detach_done ha e4
      rw [g1]
      refine ⟨rfl, g2.data' g3, g2.log.symm, g2.live.opened, fun hah => ?_⟩
      rw [show c.raw.pos = _ from g2.pos' g3, Buf.extra, g2.ahead hah]
      simp
    · obtain ⟨_, e2, e3, e4⟩ := hp.waiting ha hn
      exact ⟨e2, e3, fun hah => by rw [← (e4 hah).1]; rfl⟩
    · rcases hp.after ha hah c hc with ⟨f', g1, g2⟩ | h
      · obtain ⟨b', k1, k2, k3, _⟩ := Buf.flush_R g2
        exact .inr ⟨f', g1, by rw [k1], by rw [k1]; exact k2.data' k3⟩
      · exact .inl h
  · exact .inl h

theorem writer_ahead {f f' : File} {h : List (StreamOp × StreamOut)} (hc : Conforms .writer f h f') (hf : f.ahead = false) :
    f'.ahead = false := by
  generalize hk : BufKind.writer = k at hc
  induction hc with
  | nil => exact hf
  | @cons f f1 f2 op out rest ha _ ih =>
    subst hk
    refine ih ?_
    cases op with
    | read n => simp only [Allowed, if_true] at ha; rw [ha.2]; exact hf
    | read1 n => simp only [Allowed, if_true] at ha; rw [ha.2]; exact hf
    | peek n => simp only [Allowed, if_true] at ha; rw [ha.2]; exact hf
    | readline n =>
      simp only [Allowed, if_true] at ha
      split at ha <;> (rw [ha.2]; exact hf)
    | write d => simp only [Allowed, reduceCtorEq, if_false] at ha; rw [ha.2]
    | seek o v =>
      simp only [Allowed] at ha
      split at ha
      · rw [ha.2]
      · rw [ha.2]; exact hf
    | tell => rw [ha.2]; exact hf
    | flush => rw [ha.2]; exact hf
    | truncate n =>
      simp only [Allowed, reduceCtorEq, if_false] at ha
      split at ha
      · rw [ha.2]; exact hf
      · split at ha <;> (rw [ha.2]; exact hf)
    | size => rw [ha.2]; exact hf
    | lock o => rw [ha.2]
    | unlock => rw [ha.2]

/-- C118 without restriction for a stream that is only written to. -/
theorem C118_writer {n : Int} {raw : Raw} {b : Buf} (hb : Opened .writer n raw b) (hs : Blocking raw.sched)
    {h1 h2 : List (StreamOp × StreamOut)} {w : Handed} (hr : Handed.Ran (Handed.start b) h1 h2 w) :
    ∃ f, Conforms .writer (fileOf raw) h1 f ∧
      (w.attached = true → w.detach.1 = .ok () ∧ w.detach.2.raw.data = f.data ∧ w.detach.2.raw.pos = f.pos) ∧
      (w.attached = false → w.new = none → w.raw.data = f.data ∧ w.raw.pos = f.pos) ∧
      (w.attached = false → ∀ c, w.new = some c → Excluded c.kind f h2 ∨
        ∃ f', Conforms c.kind f h2 f' ∧ (Buf.flush { c with raw := w.raw }).1 = .ok () ∧
          (Buf.flush { c with raw := w.raw }).2.raw.data = f'.data) := by
  rcases C118_handover_partial hb hs hr with ⟨_, _, _, _, _, _, _, h⟩ | ⟨f, h1, h2, h3, h4⟩
  · exact absurd (Unsafe.random h) (by decide)
  · have ha := writer_ahead h1 rfl
    exact ⟨f, h1, fun h => ⟨(h2 h).1, (h2 h).2.1, (h2 h).2.2.2.2 ha⟩, fun h hn => ⟨(h3 h hn).1, (h3 h hn).2.2 ha⟩,
      fun h => h4 h ha⟩

-- a stream that was read and written; after the detach the first stream is still called, and closed
example : ∃ h1 h2 w, Handed.Ran (Handed.start (opened .random 4 digits [.count 3])) h1 h2 w ∧
    h1 = [(.read (some 2), .bytes [48, 49]), (.write [65, 66], .num 2)] ∧
    h2 = [(.read (some 2), .bytes [52, 53]), (.tell, .num 6)] ∧ w.attached = false := by
  refine ⟨_, _, _, .new .tell (.close (.new (.read (some 2)) (.orphan (.write [67]) (.wrap (k := .reader) (n := 8)
    (.detach (.old (.write [65, 66]) (.old (.read (some 2)) .start rfl) rfl)) rfl rfl rfl) rfl) rfl) rfl) rfl, ?_, ?_, ?_⟩
  all_goals decide +kernel

-- a writer
example : ∃ h1 h2 w, Handed.Ran (Handed.start (opened .writer 4 digits [.count 1])) h1 h2 w ∧
    h1 = [(.write [65, 66], .num 2)] ∧ h2 = [(.write [67], .num 1), (.size, .num 10)] ∧
    w.raw.data = [65, 66, 67, 51, 52, 53, 54, 55, 56, 57] := by
  refine ⟨_, _, _, .new .size (.new (.write [67]) (.wrap (k := .writer) (n := 8) (.detach
    (.old (.write [65, 66]) .start rfl)) rfl rfl rfl) rfl) rfl, ?_, ?_, ?_⟩
  all_goals decide +kernel

/-! ## Whatever the system answers -/

theorem pending_left {b b' : Buf} {r : Except Exn Unit} {j : Nat} (h : Usable b) (hf : Buf.Flushed b r b' j) :
    pendingData b' = pendingData b := by
  unfold pendingData
  rw [flushed_data h hf, landing_eq b'.raw, hf.dest, hf.left, landing_eq, put_eq, put_eq, put_eq]
  have := writeAt_append (fun _ => 0) b.raw.data b.raw.dest (b.writeBuf.take j) (b.writeBuf.drop j)
  rw [List.length_take, Nat.min_eq_left hf.le, List.take_append_drop] at this
  exact this

/-- `detach()` loses nothing, in append mode and on non-blocking and failing files too: it either returns, with all pending bytes in
the file, or it raises, and the stream keeps the raw stream and the bytes that are not yet in the file. -/
theorem C118_nothing_lost (w : Handed) (ha : w.attached = true) (hu : Usable { w.old with raw := w.raw }) :
    (w.detach.1 = .ok () ∧ w.detach.2.attached = false ∧ w.detach.2.raw.data = pendingData { w.old with raw := w.raw }) ∨
      ∃ e, w.detach.1 = .error e ∧ w.detach.2.attached = true ∧
        pendingData { w.detach.2.old with raw := w.detach.2.raw } = pendingData { w.old with raw := w.raw } := by
  obtain ⟨r, b', j, h1, h2⟩ := flush_usable hu
  unfold Handed.detach
  rw [if_pos ha, h1]
  cases r with
  | ok u => exact .inl ⟨rfl, rfl, (flush_done hu h1).1⟩
  | error e => exact .inr ⟨e, rfl, ha, pending_left hu h2⟩

-- a `detach()` that fails, and is repeated
example :
    let w : Handed := { Handed.start (opened .writer 4 [] [.count 1, .fail 28]) with
      old := { opened .writer 4 [] [] with writeBuf := [65, 66, 67] } }
    (match w.detach.1 with | .error (.ioError n) => some n | _ => none) = some 28 ∧ w.detach.2.raw.data = [65] ∧
      w.detach.2.attached = true ∧ w.detach.2.detach.2.raw.data = [65, 66, 67] ∧ w.detach.2.detach.2.attached = false := by
  decide +kernel

/-- A second `detach()` raises `ValueError`, and nothing that is done with the stream afterwards uses or closes the raw stream. -/
theorem C118_orphan (w : Handed) (ha : w.attached = false) :
    w.detach = (.error .valueError, w) ∧ w.closeOld = (.ok (), w) ∧
      ∀ op, (w.callOld op).2.raw = w.raw ∧ (w.callOld op).2.new = w.new ∧ (w.callOld op).2.attached = false := by
  refine ⟨?_, ?_, fun op => ?_⟩
  · unfold Handed.detach; rw [ha]; rfl
  · unfold Handed.closeOld; rw [ha]; rfl
  · unfold Handed.callOld
    rw [if_neg (by rw [ha]; decide)]
    exact ⟨rfl, rfl, ha⟩

/-! ## What goes wrong -/

def detachedReader : List (StreamOp × StreamOut) := [(.read (some 1), .bytes [48])]
def secondReader : List (StreamOp × StreamOut) := [(.read (some 1), .bytes [52])]

/-- The claim of C118 for readers. -/
def DetachHandsOver : Prop :=
  ∀ {k : BufKind} {n : Int} {raw : Raw} {b : Buf}, Opened k n raw b → Blocking raw.sched → k ≠ .random →
    ∀ {h1 h2 : List (StreamOp × StreamOut)} {w : Handed}, Handed.Ran (Handed.start b) h1 h2 w →
      ∃ f, Conforms k (fileOf raw) h1 f ∧ ∀ c, w.new = some c → c.kind ≠ .random → ∃ f', Conforms c.kind f h2 f'

/-- C118 is false for readers: what was read ahead is lost. -/
theorem C118_refuted : ¬ DetachHandsOver := by
  intro hall
  have hr : ∃ w, Handed.Ran (Handed.start (opened .reader 4 digits [])) detachedReader secondReader w ∧
      ∃ c, w.new = some c ∧ c.kind = .reader := by
    have := Handed.Ran.new (.read (some 1)) (.wrap (k := .reader) (n := 4)
      (.detach (.old (.read (some 1)) (.start (w0 := Handed.start (opened .reader 4 digits []))) rfl)) rfl rfl rfl) rfl
    rw [show ([] ++ [(StreamOp.read (some 1), _)] : List (StreamOp × StreamOut)) = detachedReader by decide +kernel] at this
    rw [show ([] ++ [(StreamOp.read (some 1), _)] : List (StreamOp × StreamOut)) = secondReader by decide +kernel] at this
    exact ⟨_, this, _, rfl, by decide +kernel⟩
  obtain ⟨w, hr, c, hc, hk⟩ := hr
  obtain ⟨f, hf, h2⟩ := hall (opened_ok .reader 4 (by decide) digits []) (by simp [Blocking, rawOf]) (by decide) hr
  obtain ⟨f', hf'⟩ := h2 c hc (by rw [hk]; decide)
  rw [hk] at hf'
  cases hf with
  | cons h1 hf =>
    cases hf
    cases hf' with
    | cons h2 hf' =>
      simp only [Allowed, reduceCtorEq, if_false] at h1 h2
      obtain ⟨_, rfl⟩ := h1
      exact absurd h2.1 (by decide +kernel)

end Verif.Props
