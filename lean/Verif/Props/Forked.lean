import Verif.Props.Appending
import Verif.Spec.Forked

/-!
# C117: processes that have inherited a stream through `fork`
-/

set_option autoImplicit false

namespace Verif.Props

open Verif Verif.Spec Family

/-! ## Processes that only write -/

/-- A writer whose bytes land at the end of the file. -/
def Ender (b : Buf) : Prop := Usable b ∧ b.kind = .writer ∧ landing b.raw = b.raw.data.length

/-- A call that took `acc` and added the beginning of the pending bytes to the file, and stays at its end. -/
def EndedAt (b b' : Buf) (acc : Bytes) : Prop := Grown b b' acc ∧ landing b'.raw = b'.raw.data.length

theorem EndedAt.refl {b : Buf} (h : Ender b) : EndedAt b b [] := ⟨Grown.refl h.1, h.2.2⟩

theorem EndedAt.trans {b c d : Buf} {a1 a2 : Bytes} (h1 : EndedAt b c a1) (h2 : EndedAt c d a2) : EndedAt b d (a1 ++ a2) :=
  ⟨h1.1.trans h2.1, h2.2⟩

theorem EndedAt.ender {b b' : Buf} {acc : Bytes} (h : EndedAt b b' acc) (ha : Ender b) : Ender b' :=
  ⟨h.1.usable, h.1.kind.trans ha.2.1, h.2⟩

theorem flushed_ended {b b' : Buf} {r : Except Exn Unit} {j : Nat} (ha : Ender b) (h : Buf.Flushed b r b' j) : EndedAt b b' [] := by
  have hd : b'.raw.data = b.raw.data ++ b.writeBuf.take j := by
    rw [h.data, show b.raw.dest = b.raw.data.length from ha.2.2, writeAt_end]
  have hs := Settles.of_flushed ha.1 h
  refine ⟨⟨hs.usable, hs.kind, hs.frame.append, _, hd, by rw [List.append_nil, h.left, List.take_append_drop]⟩, ?_⟩
  change b'.raw.dest = _
  rw [h.dest, hd, show b.raw.dest = b.raw.data.length from ha.2.2, List.length_append, List.length_take]
  have := h.le
  omega

theorem writerWrite_ended {b : Buf} (ha : Ender b) (d : Bytes) :
    ∃ acc, Grabs d (Buf.writerWrite d b).1 acc ∧ EndedAt b (Buf.writerWrite d b).2 acc := by
  have hk : b.kind ≠ .reader := by rw [ha.2.1]; nofun
  unfold Buf.writerWrite
  rw [PyM.bind_ok (Buf.checkClosed_ok ha.1.opened), PyM.bind_apply]
  have hpre : ∃ r b1, Buf.preFlush b = (r, b1) ∧ EndedAt b b1 [] ∧ (r = .ok () → b1.writeBuf.length ≤ b1.bufferSize) ∧
      ∀ e, r = .error e → ∀ k, e = .blockingIO k → k = 0 := by
    unfold Buf.preFlush
    split
    · obtain ⟨r, c, j, g1, g2⟩ := Buf.flushUnlocked_spec ha.1.opened (ha.1.writable hk) ha.1.unix
      refine ⟨r, c, g1, flushed_ended ha g2, ?_, ?_⟩
      · rintro rfl
        rcases g2.result with ⟨_, h⟩ | h | ⟨e, h, _⟩
        · rw [g2.left, h, List.drop_length]; exact Nat.zero_le _
        · cases h
        · cases h
      · rintro e rfl k rfl
        rcases g2.result with ⟨h, _⟩ | h | ⟨e, h, he⟩
        · cases h
        · cases h; rfl
        · cases h; exact absurd rfl (he k)
    · exact ⟨_, _, rfl, .refl ha, fun _ => by omega, by rintro e h; cases h⟩
  obtain ⟨r, b1, h1, h2, h3, h4⟩ := hpre
  rw [h1]
  cases r with
  | error e => exact ⟨[], grabs_nothing (h4 e rfl), h2⟩
  | ok u =>
    have hsize := h3 rfl
    have ha1 := h2.ender ha
    have hk1 : b1.kind ≠ .reader := h2.1.kind ▸ hk
    simp only
    rw [PyM.bind_ok (PyM.modify_apply _ _)]
    have hu2 : Usable { b1 with writeBuf := b1.writeBuf ++ d } :=
      ⟨ha1.1.opened, ha1.1.unix, ha1.1.writable, fun h => absurd h hk1⟩
    have ha2 : Ender { b1 with writeBuf := b1.writeBuf ++ d } := ⟨hu2, ha1.2.1, ha1.2.2⟩
    have h5 : EndedAt b1 { b1 with writeBuf := b1.writeBuf ++ d } d :=
      ⟨⟨hu2, rfl, rfl, [], by simp, by simp⟩, ha1.2.2⟩
    have h6 : EndedAt b { b1 with writeBuf := b1.writeBuf ++ d } d := by simpa using h2.trans h5
    unfold Buf.overflowFlush
    split
    · obtain ⟨r, c, j, g1, g2⟩ := Buf.flushUnlocked_spec hu2.opened (hu2.writable hk1) hu2.unix
      have h7 : EndedAt b c d := by simpa using h6.trans (flushed_ended ha2 g2)
      rw [g1]
      rcases g2.result with ⟨rfl, _⟩ | rfl | ⟨e, rfl, he⟩
      · exact ⟨d, ⟨rfl, rfl⟩, h7⟩
      · simp only
        split
        · rename_i hover
          have hle := g2.le
          have hleft := g2.left
          have hbs : c.bufferSize = b1.bufferSize := g2.frame.bufferSize
          simp only [List.length_append] at hle hleft
          have hlen : c.writeBuf.length = b1.writeBuf.length + d.length - j := by rw [hleft]; simp
          refine ⟨d.take (d.length - (c.writeBuf.length - c.bufferSize)), ⟨rfl, by omega⟩, ?_⟩
          have h8 : EndedAt b1 { c with writeBuf := c.writeBuf.take c.bufferSize }
              (d.take (d.length - (c.writeBuf.length - c.bufferSize))) := by
            have h9 := flushed_ended ha2 g2
            have hck : c.kind ≠ .reader := h9.1.kind ▸ hk1
            refine ⟨⟨⟨h9.1.usable.opened, h9.1.usable.unix, h9.1.usable.writable, fun h => absurd h hck⟩, h9.1.kind, h9.1.append,
              (b1.writeBuf ++ d).take j, ?_, ?_⟩, h9.2⟩
            · rw [show (b1.writeBuf ++ d).take j = (({ b1 with writeBuf := b1.writeBuf ++ d } : Buf).writeBuf).take j from rfl]
              have := flushed_data hu2 g2
              rw [this, show landing b1.raw = b1.raw.data.length from ha1.2.2, put_end]
            · simp only
              rw [hleft, ← List.take_add, List.take_append, List.take_of_length_le (l := b1.writeBuf) (by omega)]
              congr 2
              have : (List.drop j (b1.writeBuf ++ d)).length = b1.writeBuf.length + d.length - j := by simp
              rw [hleft] at hover
              omega
          simpa using h2.trans h8
        · exact ⟨d, ⟨rfl, rfl⟩, h7⟩
      · refine ⟨d, ?_, ?_⟩
        · cases e <;> first | exact .inr rfl | exact absurd rfl (he _)
        · cases e <;> first | exact h7 | exact absurd rfl (he _)
    · exact ⟨d, ⟨rfl, rfl⟩, h6⟩


/-- One call of a process that only writes. -/
theorem logging_ended {b : Buf} (ha : Ender b) {op : StreamOp} (ho : Logging op = true) :
    ∃ acc, TakesIn op (b.step op).1 acc ∧ EndedAt b (b.step op).2 acc ∧
      (∀ dry, (dry = true → b.writeBuf = []) → dryAfter dry op (b.step op).1 = true → (b.step op).2.writeBuf = []) := by
  have hf : Buf.flush b = Buf.flushUnlocked b := by unfold Buf.flush; rw [ha.2.1]
  obtain ⟨r, c, j, g1, g2⟩ := Buf.flushUnlocked_spec ha.1.opened (ha.1.writable (by rw [ha.2.1]; nofun)) ha.1.unix
  have he := flushed_ended ha g2
  have hw : r = .ok () → c.writeBuf = [] := by
    rintro rfl
    rcases g2.result with ⟨_, h⟩ | h | ⟨e, h, _⟩
    · rw [g2.left, h, List.drop_length]
    · cases h
    · cases h
  cases op with
  | write d =>
    obtain ⟨acc, h1, h2⟩ := writerWrite_ended ha d
    have hww : Buf.write d b = Buf.writerWrite d b := by unfold Buf.write; rw [ha.2.1]
    refine ⟨acc, ?_, ?_, ?_⟩
    · simp only [Buf.step, hww]
      generalize (Buf.writerWrite d b).1 = r at h1
      cases r with
      | ok n => exact h1
      | error e => cases e <;> exact h1
    · simp only [Buf.step, hww]; exact h2
    · intro dry _ h
      cases h
  | flush =>
    simp only [Buf.step, hf, g1]
    refine ⟨[], rfl, he, ?_⟩
    intro dry hd h
    cases r with
    | ok u => exact hw rfl
    | error e =>
      rw [g2.left, hd (by simpa [StreamOut.ofUnit, dryAfter] using h)]
      simp
  | size =>
    have hs : Buf.size b = (Buf.flushUnlocked >>= fun _ => Buf.onRaw Raw.size) b := by
      unfold Buf.size
      rw [PyM.bind_apply, PyM.bind_apply, hf]
    cases r with
    | error e =>
      have : Buf.size b = (.error e, c) := by rw [hs, PyM.bind_error g1]
      simp only [Buf.step, this]
      refine ⟨[], rfl, he, ?_⟩
      intro dry hd h
      rw [g2.left, hd (by simpa [StreamOut.ofNat, dryAfter] using h)]
      simp
    | ok u =>
      have : Buf.size b = (.ok c.raw.data.length, c) := by
        rw [hs, PyM.bind_ok g1, Buf.onRaw_eq (Raw.size_open he.1.usable.opened)]
      simp only [Buf.step, this]
      exact ⟨[], rfl, he, fun _ _ _ => hw rfl⟩
  | tell =>
    have ht : (Buf.tell b).2 = b := by
      unfold Buf.tell
      rw [PyM.bind_apply]
      have h1 : (Raw.tell b.raw).2 = b.raw := by
        unfold Raw.tell
        rw [PyM.bind_ok (Raw.checkClosed_ok ha.1.opened)]
        unfold Raw.innerTell
        repeat' split
        all_goals rfl
      have h2 : (Buf.onRaw Raw.tell b).2 = b := by
        unfold Buf.onRaw
        generalize Raw.tell b.raw = q at h1
        obtain ⟨r, s⟩ := q
        cases h1
        rfl
      generalize Buf.onRaw Raw.tell b = q at h2
      obtain ⟨r, c⟩ := q
      cases h2
      cases r <;> rfl
    simp only [Buf.step, ht]
    refine ⟨[], rfl, .refl ha, fun dry hd h => hd ?_⟩
    simpa [dryAfter] using h
  | _ => cases ho

/-- The books: the file is what it was and the pieces; what was accepted from a process is in its pieces or pending. -/
structure Chronicle (d : Bytes) (h : List (Nat × StreamOp × StreamOut)) (dry : Nat → Bool) (w : Family) (ps : List (Nat × Bytes))
    (owed : Nat → Bytes) : Prop where
  file : w.raw.data = d ++ (ps.map Prod.snd).flatten
  mine : ∀ i, ∃ all, TakenFrom i h all ∧ all = piecesOf i ps ++ owed i
  procs : ∀ i b, w.proc i = some b → b.writeBuf = owed i ∧ Ender { b with raw := w.raw }
  others : ∀ i, w.proc i = none → owed i = []
  dry : ∀ i, dry i = true → owed i = []

theorem piecesOf_snoc (i j : Nat) (ps : List (Nat × Bytes)) (p : Bytes) :
    piecesOf i (ps ++ [(j, p)]) = piecesOf i ps ++ (if j = i then p else []) := by
  unfold piecesOf
  by_cases h : j = i <;> simp [h]

theorem Chronicle.call {d : Bytes} {h : List (Nat × StreamOp × StreamOut)} {dry : Nat → Bool} {w : Family} {ps : List (Nat × Bytes)}
    {owed : Nat → Bytes} (hc : Chronicle d h dry w ps owed) {i : Nat} {b : Buf} {op : StreamOp} (hb : w.proc i = some b)
    (ho : Logging op = true) :
    ∃ ps' owed', Chronicle d (h ++ [(i, op, (w.call i b op).1)])
      (fun j => if j = i then dryAfter (dry i) op (w.call i b op).1 else dry j) (w.call i b op).2 ps' owed' := by
  obtain ⟨hw, he⟩ := hc.procs i b hb
  obtain ⟨acc, h1, h2, h3⟩ := logging_ended he ho
  have he' := h2.ender he
  obtain ⟨piece, h4, h5⟩ := h2.1.grows
  unfold Family.call
  dsimp only
  generalize ({ b with raw := w.raw } : Buf).step op = q at h1 h2 h3 h4 h5 he'
  obtain ⟨out, b'⟩ := q
  dsimp only at h1 h2 h3 h4 h5 he' ⊢
  refine ⟨ps ++ [(i, piece)], fun j => if j = i then b'.writeBuf else owed j, ?_, ?_, ?_, ?_, ?_⟩
  · change b'.raw.data = _
    rw [h4, hc.file]
    simp
  · intro j
    obtain ⟨all, g1, g2⟩ := hc.mine j
    by_cases hj : i = j
    · subst hj
      refine ⟨all ++ acc, .mine g1 h1, ?_⟩
      rw [piecesOf_snoc, if_pos rfl, if_pos rfl, g2, List.append_assoc, List.append_assoc, ← hw, h5]
    · refine ⟨all, .other g1 hj, ?_⟩
      rw [piecesOf_snoc, if_neg hj, if_neg (fun e => hj e.symm), List.append_nil]
      exact g2
  · intro j c hj
    dsimp only at hj ⊢
    by_cases hji : j = i
    · rw [if_pos hji] at hj
      cases hj
      rw [if_pos hji]
      exact ⟨rfl, he'⟩
    · rw [if_neg hji] at hj ⊢
      obtain ⟨g1, g2⟩ := hc.procs j c hj
      have hk : c.kind = .writer := g2.2.1
      exact ⟨g1, ⟨⟨he'.1.opened, he'.1.unix, fun _ => he'.1.writable (by rw [he'.2.1]; nofun), fun hr => by
        rw [show ({ c with raw := b'.raw } : Buf).kind = c.kind from rfl, hk] at hr; cases hr⟩, hk, he'.2.2⟩⟩
  · intro j hj
    dsimp only at hj ⊢
    by_cases hji : j = i
    · rw [if_pos hji] at hj; cases hj
    · rw [if_neg hji] at hj ⊢; exact hc.others j hj
  · intro j hj
    try dsimp only at hj ⊢
    by_cases hji : j = i
    · rw [if_pos hji] at hj ⊢
      exact h3 (dry i) (fun hd => hw.trans (hc.dry i hd)) hj
    · rw [if_neg hji] at hj ⊢; exact hc.dry j hj

theorem chronicle {w0 w : Family} {b : Buf} (h0 : w0 = Family.start b) (hb : Ender b) (hw : b.writeBuf = [])
    {h : List (Nat × StreamOp × StreamOut)} {dry : Nat → Bool} (hl : Logs w0 h dry w) :
    ∃ ps owed, Chronicle b.raw.data h dry w ps owed := by
  subst h0
  induction hl with
  | start =>
    refine ⟨[], fun _ => [], by simp [Family.start], fun i => ⟨[], .nil, rfl⟩, ?_, fun _ _ => rfl, fun _ _ => rfl⟩
    intro i c hc
    unfold Family.start at hc
    dsimp only at hc
    split at hc
    · cases hc; exact ⟨hw, hb⟩
    · cases hc
  | call op _ hp ho ih =>
    obtain ⟨ps, owed, hc⟩ := ih
    exact hc.call hp ho
  | @fork h w dry i j c _ hp hj hd ih =>
    obtain ⟨ps, owed, hc⟩ := ih
    refine ⟨ps, owed, hc.file, hc.mine, ?_, ?_, hc.dry⟩
    · intro k c' hk
      unfold Family.fork at hk ⊢
      dsimp only at hk ⊢
      by_cases hkj : k = j
      · rw [if_pos hkj] at hk
        cases hk
        obtain ⟨g1, g2⟩ := hc.procs i c hp
        exact ⟨by rw [g1, hkj, hc.others j hj, hc.dry i hd], g2⟩
      · rw [if_neg hkj] at hk; exact hc.procs k c' hk
    · intro k hk
      unfold Family.fork at hk
      dsimp only at hk
      by_cases hkj : k = j
      · rw [if_pos hkj] at hk; cases hk
      · rw [if_neg hkj] at hk; exact hc.others k hk

/-- C117, for processes that write at the end of the file, in append mode or not, whatever the system answers: nothing is lost,
stored twice or overwritten, and the bytes of each process keep their order, if nothing is pending when a process is made.
Missing: other programs, see below. -/
theorem C117_written_partial {n : Int} {raw : Raw} {b : Buf} (hb : Buf.create .writer n raw = .ok b) (hp : raw.platform = .unix)
    (he : raw.append = true ∨ raw.pos = raw.data.length) {h : List (Nat × StreamOp × StreamOut)} {dry : Nat → Bool} {w : Family}
    (hl : Logs (Family.start b) h dry w) :
    ∃ ps : List (Nat × Bytes), w.raw.data = raw.data ++ (ps.map Prod.snd).flatten ∧
      ∀ i, ∃ all owed, TakenFrom i h all ∧ all = piecesOf i ps ++ owed ∧ (dry i = true → owed = []) := by
  obtain ⟨rfl, _, hcl, _, hwr⟩ := create_ok hb
  have hle : landing raw = raw.data.length := by
    unfold landing
    rcases he with he | he
    · rw [if_pos he]
    · split
      · rfl
      · exact he
  obtain ⟨ps, owed, hc⟩ := chronicle (b := ⟨.writer, n.toNat, raw, [], 0, []⟩) rfl ⟨⟨hcl, hp, hwr, fun _ => rfl⟩, rfl, hle⟩ rfl hl
  refine ⟨ps, hc.file, fun i => ?_⟩
  obtain ⟨all, h1, h2⟩ := hc.mine i
  exact ⟨all, owed i, h1, h2, hc.dry i⟩

/-! ## Processes that take turns -/

theorem settling_empties {b : Buf} {f : File} (h : Buf.R b f) {op : StreamOp} (hs : Settling b.kind op = true) :
    (b.step op).2.readBuf = [] ∧ (b.step op).2.writeBuf = [] := by
  have reset := Buf.resetBuffers_R h
  cases op with
  | seek o w =>
    have : o = 0 ∧ w = .cur := by
      unfold Settling at hs
      split at hs <;> simp_all
    obtain ⟨rfl, rfl⟩ := this
    obtain ⟨b', h1, _, h3, h4, _⟩ := Buf.seek_ok h 0 .cur (by simp [File.target])
    simp only [Buf.step, h1]
    exact ⟨h4, h3⟩
  | lock o =>
    obtain ⟨b', h1, _, h3, h4, _⟩ := reset
    simp only [Buf.step]
    unfold Buf.lockFile
    rw [PyM.bind_ok h1]
    exact ⟨h4, h3⟩
  | unlock =>
    obtain ⟨b', h1, _, h3, h4, _⟩ := reset
    simp only [Buf.step]
    unfold Buf.unlockFile
    rw [PyM.bind_ok h1]
    exact ⟨h4, h3⟩
  | flush =>
    have hk : b.kind = .writer := by simpa [Settling] using hs
    obtain ⟨b', h1, h2, h3, h4, h5, _⟩ := Buf.flush_R h
    simp only [Buf.step, h1]
    exact ⟨h5.trans (h.writer hk), h3⟩
  | size =>
    have hk : b.kind = .writer := by simpa [Settling] using hs
    obtain ⟨b', h1, h2, h3⟩ := Buf.size_R h
    have h4 := (Buf.step_keeps b .size).1
    simp only [Buf.step, h1] at h4 ⊢
    exact ⟨h2.writer (h4.trans hk), h3⟩
  | _ => cases hs

/-- A stream object with empty buffers. -/
def bare (k : BufKind) (n : Nat) (raw : Raw) : Buf := ⟨k, n, raw, [], 0, []⟩

/-- All stream objects but that of `holder` are settled; the open file, with what `holder` has buffered, is the file `f`. -/
structure Shared (k : BufKind) (n : Nat) (holder : Option Nat) (w : Family) (f : File) : Prop where
  settled : ∀ i c, w.proc i = some c → holder ≠ some i → ∃ r, c = bare k n r
  free : holder = none → Buf.R (bare k n w.raw) f
  held : ∀ i, holder = some i → ∃ c, w.proc i = some c ∧ c.kind = k ∧ c.bufferSize = n ∧ Buf.R { c with raw := w.raw } f

theorem Shared.call {k : BufKind} {n : Nat} {holder : Option Nat} {w : Family} {f : File} (hs : Shared k n holder w f) {i : Nat}
    {b : Buf} {op : StreamOp} (hb : w.proc i = some b) (hh : holder = none ∨ holder = some i) (hu : ¬ Unsafe k f op) :
    ∃ f', Allowed k f op (w.call i b op).1 f' ∧ Shared k n (if Settling k op then none else some i) (w.call i b op).2 f' := by
  have hR : Buf.R { b with raw := w.raw } f ∧ b.kind = k ∧ b.bufferSize = n := by
    rcases hh with hh | hh
    · obtain ⟨r, rfl⟩ := hs.settled i b hb (by rw [hh]; nofun)
      exact ⟨hs.free hh, rfl, rfl⟩
    · obtain ⟨c, h1, h2, h3, h4⟩ := hs.held i hh
      rw [hb] at h1
      cases h1
      exact ⟨h4, h2, h3⟩
  obtain ⟨hR, hk, hn⟩ := hR
  unfold Family.call
  dsimp only
  have hk' : ({ b with raw := w.raw } : Buf).kind = k := hk
  have hn' : ({ b with raw := w.raw } : Buf).bufferSize = n := hn
  generalize ({ b with raw := w.raw } : Buf) = c at hR hk' hn'
  obtain ⟨f', h1, h2⟩ := Buf.step_R hR op (by rw [hk']; exact hu)
  have h3 := Buf.step_keeps c op
  have h4 := settling_empties hR (op := op)
  rw [hk'] at h1 h3 h4
  rw [hn'] at h3
  generalize c.step op = q at h1 h2 h3 h4
  obtain ⟨out, b'⟩ := q
  dsimp only at h1 h2 h3 h4 ⊢
  refine ⟨f', h1, ?_⟩
  have hother : ∀ j c, j ≠ i → w.proc j = some c → ∃ r, c = bare k n r := by
    intro j c hj hc
    refine hs.settled j c hc ?_
    rcases hh with hh | hh
    · rw [hh]; nofun
    · rw [hh]; exact fun e => hj (Option.some.inj e).symm
  by_cases hset : Settling k op = true
  · rw [if_pos hset]
    obtain ⟨e1, e2⟩ := h4 hset
    have hbare : b' = bare k n b'.raw := by
      have e3 := h2.readPos_zero e1
      obtain ⟨k', n', r, rb, rp, wb⟩ := b'
      dsimp only at h3 e1 e2 e3
      obtain ⟨rfl, rfl⟩ := h3
      subst e1 e2 e3
      rfl
    refine ⟨?_, fun _ => hbare ▸ h2, nofun⟩
    intro j c hj _
    dsimp only at hj
    by_cases hji : j = i
    · rw [if_pos hji] at hj
      cases hj
      exact ⟨_, hbare⟩
    · rw [if_neg hji] at hj; exact hother j c hji hj
  · rw [if_neg hset]
    refine ⟨?_, nofun, ?_⟩
    · intro j c hj hne
      have hji : j ≠ i := fun e => hne (by rw [e])
      dsimp only at hj
      rw [if_neg hji] at hj
      exact hother j c hji hj
    · intro j hj
      cases hj
      exact ⟨b', by dsimp only; rw [if_pos rfl], h3.1, h3.2, h2⟩

theorem Shared.fork {k : BufKind} {n : Nat} {holder : Option Nat} {w : Family} {f : File} (hs : Shared k n holder w f) {i j : Nat}
    {b : Buf} (hb : w.proc i = some b) (hj : w.proc j = none) (hh : holder ≠ some i) : Shared k n holder (w.fork b j) f := by
  refine ⟨?_, hs.free, ?_⟩
  · intro m c hm hne
    unfold Family.fork at hm
    dsimp only at hm
    by_cases hmj : m = j
    · rw [if_pos hmj] at hm
      cases hm
      exact hs.settled i b hb hh
    · rw [if_neg hmj] at hm; exact hs.settled m c hm hne
  · intro m hm
    obtain ⟨c, h1, h2⟩ := hs.held m hm
    refine ⟨c, ?_, h2⟩
    unfold Family.fork
    dsimp only
    rw [if_neg]
    · exact h1
    · rintro rfl
      rw [hj] at h1
      cases h1

theorem conforms_snoc {k : BufKind} {f f' f'' : File} {h : List (StreamOp × StreamOut)} {op : StreamOp} {out : StreamOut}
    (h1 : Conforms k f h f') (h2 : Allowed k f' op out f'') : Conforms k f (h ++ [(op, out)]) f'' := by
  induction h1 with
  | nil f => exact .cons h2 (.nil _)
  | cons ha _ ih => exact .cons ha (ih h2)

/-- The calls, without the callers. -/
def callsIn (h : List (Nat × StreamOp × StreamOut)) : List (StreamOp × StreamOut) := h.map Prod.snd

theorem turns_shared {k : BufKind} {n : Nat} {raw : Raw} (h0 : Buf.R (bare k n raw) (fileOf raw))
    {h : List (Nat × StreamOp × StreamOut)} {holder : Option Nat} {w : Family}
    (ht : Turns k (Family.start (bare k n raw)) h holder w) :
    (∃ f, Conforms k (fileOf raw) (callsIn h) f ∧ Shared k n holder w f) ∨
      ∃ pre op out rest f, callsIn h = pre ++ (op, out) :: rest ∧ Conforms k (fileOf raw) pre f ∧ Unsafe k f op := by
  induction ht with
  | start =>
    refine .inl ⟨_, .nil _, ⟨?_, fun _ => h0, nofun⟩⟩
    intro i c hc _
    unfold Family.start at hc
    dsimp only at hc
    split at hc
    · cases hc; exact ⟨raw, rfl⟩
    · cases hc
  | call op _ hb hh ih =>
    unfold callsIn at ih ⊢
    rw [List.map_append]
    rcases ih with ⟨f, h1, h2⟩ | ⟨pre, o, out, rest, f, h1, h2⟩
    · by_cases hu : Unsafe k f op
      · exact .inr ⟨_, op, _, [], f, rfl, h1, hu⟩
      · obtain ⟨f', h3, h4⟩ := h2.call hb hh hu
        exact .inl ⟨f', conforms_snoc h1 h3, h4⟩
    · exact .inr ⟨pre, o, out, _, f, by rw [h1, List.append_assoc]; rfl, h2⟩
  | fork _ hb hj hh ih =>
    rcases ih with ⟨f, h1, h2⟩ | h
    · exact .inl ⟨f, h1, h2.fork hb hj hh⟩
    · exact .inr h

/-- C117, for processes that settle the stream before another process uses it, or is made: all calls, of all processes, act on one
file with one position, in their order, up to the first call in `Unsafe`.  (A process settles the stream by `seek(0, SEEK_CUR)`, by
locking or unlocking the file, or, if the stream is only written to, by `flush()` or `size()`.)
Missing: other programs, see below; the calls that C23 excludes. -/
theorem C117_turns_partial {k : BufKind} {n : Int} {raw : Raw} {b : Buf} (hb : Opened k n raw b) (hs : Blocking raw.sched)
    {h : List (Nat × StreamOp × StreamOut)} {holder : Option Nat} {w : Family} (ht : Turns k (Family.start b) h holder w) :
    ∃ pre post f, callsIn h = pre ++ post ∧ Conforms k (fileOf raw) pre f ∧
      (post = [] ∧ (holder = none → w.raw.data = f.data ∧ w.raw.pos = f.pos) ∨
        ∃ op out rest, post = (op, out) :: rest ∧ Unsafe k f op) := by
  have h0 := hb.R hs
  obtain ⟨rfl, _⟩ := create_ok hb.created
  rcases turns_shared (n := n.toNat) h0 ht with ⟨f, h1, h2⟩ | ⟨pre, op, out, rest, f, h1, h2, h3⟩
  · refine ⟨_, [], f, (List.append_nil _).symm, h1, .inl ⟨rfl, fun hh => ?_⟩⟩
    have hr := h2.free hh
    exact ⟨hr.data' rfl, by simpa [Buf.extra, bare] using hr.pos' rfl⟩
  · exact ⟨pre, _, f, h1, h2, .inr ⟨op, out, rest, rfl, h3⟩⟩

/-- The same without restriction for streams opened for reading or for writing only. -/
theorem C117_one_way_partial {k : BufKind} {n : Int} {raw : Raw} {b : Buf} (hb : Opened k n raw b) (hs : Blocking raw.sched)
    (hk : k ≠ .random) {h : List (Nat × StreamOp × StreamOut)} {holder : Option Nat} {w : Family}
    (ht : Turns k (Family.start b) h holder w) :
    ∃ f, Conforms k (fileOf raw) (callsIn h) f ∧ (holder = none → w.raw.data = f.data ∧ w.raw.pos = f.pos) := by
  obtain ⟨pre, post, f, h1, h2, ⟨rfl, h3⟩ | ⟨op, out, rest, rfl, h3⟩⟩ := C117_turns_partial hb hs ht
  · exact ⟨f, by rw [h1, List.append_nil]; exact h2, h3⟩
  · exact absurd (Unsafe.random h3) hk

-- two readers in turns, with short reads
example : ∃ h w, Turns .reader (Family.start (opened .reader 4 digits [.count 2])) h (some 1) w ∧
    h = [(0, .read (some 3), .bytes [48, 49, 50]), (0, .seek 0 .cur, .num 3), (1, .read (some 2), .bytes [51, 52])] := by
  refine ⟨_, _, .call (i := 1) (.read (some 2)) (.fork (i := 0) (j := 1) (.call (i := 0) (.seek 0 .cur)
    (.call (i := 0) (.read (some 3)) .start rfl (.inl rfl)) rfl (.inr rfl)) rfl rfl nofun) rfl (.inl rfl), ?_⟩
  decide +kernel

-- two writers that log, the one with an interrupted write
example : ∃ h dry w, Logs (Family.start (opened .writer 4 [] [.count 1, .count 2, .fail 28])) h dry w ∧
    h = [(0, .write [65, 66], .num 2), (0, .flush, .done), (1, .write [67], .num 1), (0, .write [68], .num 1),
      (1, .flush, .error (.ioError 28)), (1, .flush, .done)] ∧ w.raw.data = [65, 66, 67] ∧ dry 0 = false ∧ dry 1 = true := by
  refine ⟨_, _, _, .call (i := 1) .flush (.call (i := 1) .flush (.call (i := 0) (.write [68]) (.call (i := 1) (.write [67])
    (.fork (i := 0) (j := 1) (.call (i := 0) .flush (.call (i := 0) (.write [65, 66]) .start rfl rfl) rfl rfl) rfl rfl ?_)
    rfl rfl) rfl rfl) rfl rfl) rfl rfl, ?_, ?_, ?_, ?_⟩
  all_goals decide +kernel

/-! ## What goes wrong -/

/-- The claim of C117. -/
def InheritedAlways (k : BufKind) : Prop :=
  ∀ {n : Int} {raw : Raw} {b : Buf}, Opened k n raw b → Blocking raw.sched → ∀ {h : List (Nat × StreamOp × StreamOut)} {w : Family},
    Ran (Family.start b) h w → ∃ f, Conforms k (fileOf raw) (callsIn h) f

def aheadTrace : List (Nat × StreamOp × StreamOut) := [(0, .read (some 1), .bytes [48]), (1, .read (some 1), .bytes [56])]

/-- C117 is false for readers: what one process has read ahead, another does not get. -/
theorem C117_ahead_refuted : ¬ InheritedAlways .reader := by
  intro hall
  have hr : ∃ w, Ran (Family.start (opened .reader 8 digits [])) aheadTrace w := by
    have := Ran.call (i := 1) (.read (some 1)) (.call (i := 0) (.read (some 1))
      (.fork (i := 0) (j := 1) (.start (w0 := Family.start (opened .reader 8 digits []))) rfl rfl) rfl) rfl
    rw [show ([] ++ _ ++ _ : List (Nat × StreamOp × StreamOut)) = aheadTrace by decide +kernel] at this
    exact ⟨_, this⟩
  obtain ⟨w, hr⟩ := hr
  obtain ⟨f, hf⟩ := hall (opened_ok .reader 8 (by decide) digits []) (by simp [Blocking, rawOf]) hr
  cases hf with
  | cons h1 hf =>
    cases hf with
    | cons h2 hf =>
      simp only [Allowed, reduceCtorEq, if_false] at h1 h2
      obtain ⟨_, rfl⟩ := h1
      exact absurd h2.1 (by decide +kernel)

def twiceTrace : List (Nat × StreamOp × StreamOut) :=
  [(0, .write [65], .num 1), (0, .flush, .done), (1, .flush, .done), (0, .size, .num 2)]

/-- C117 is false for writers: what is pending when a process is made is stored twice. -/
theorem C117_twice_refuted : ¬ InheritedAlways .writer := by
  intro hall
  have hr : ∃ w, Ran (Family.start (opened .writer 8 [] [])) twiceTrace w := by
    have := Ran.call (i := 0) .size (.call (i := 1) .flush (.call (i := 0) .flush (.fork (i := 0) (j := 1)
      (.call (i := 0) (.write [65]) (.start (w0 := Family.start (opened .writer 8 [] []))) rfl) rfl rfl) rfl) rfl) rfl
    rw [show ([] ++ _ ++ _ ++ _ ++ _ : List (Nat × StreamOp × StreamOut)) = twiceTrace by decide +kernel] at this
    exact ⟨_, this⟩
  obtain ⟨w, hr⟩ := hr
  obtain ⟨f, hf⟩ := hall (opened_ok .writer 8 (by decide) [] []) (by simp [Blocking, rawOf]) hr
  cases hf with
  | cons h1 hf =>
    cases hf with
    | cons h2 hf =>
      cases hf with
      | cons h3 hf =>
        cases hf with
        | cons h4 hf =>
          simp only [Allowed, reduceCtorEq, if_false] at h1 h2 h3 h4
          obtain ⟨_, rfl⟩ := h1
          obtain ⟨_, rfl⟩ := h2
          obtain ⟨_, rfl⟩ := h3
          exact absurd h4.1 (by decide +kernel)

def orderTrace : List (Nat × StreamOp × StreamOut) :=
  [(0, .write [65], .num 1), (1, .write [66], .num 1), (1, .flush, .done), (0, .flush, .done), (0, .seek 0 .set, .num 0),
    (0, .read none, .bytes [66, 65])]

theorem allowed_rewind {k : BufKind} {f f' : File} {out : StreamOut} (h : Allowed k f (.seek 0 .set) out f') :
    f' = { f with pos := 0, ahead := false } := by
  simp only [Allowed, File.target] at h
  exact h.2

/-- C117 is false even if nothing is pending or read ahead when processes are made: bytes are stored in the order in which the
processes flush. -/
theorem C117_order_refuted : ¬ InheritedAlways .random := by
  intro hall
  have hr : ∃ w, Ran (Family.start (opened .random 8 [] [])) orderTrace w := by
    have := Ran.call (i := 0) (.read none) (.call (i := 0) (.seek 0 .set) (.call (i := 0) .flush (.call (i := 1) .flush
      (.call (i := 1) (.write [66]) (.call (i := 0) (.write [65]) (.fork (i := 0) (j := 1)
        (.start (w0 := Family.start (opened .random 8 [] []))) rfl rfl) rfl) rfl) rfl) rfl) rfl) rfl
    rw [show ([] ++ _ ++ _ ++ _ ++ _ ++ _ ++ _ : List (Nat × StreamOp × StreamOut)) = orderTrace by decide +kernel] at this
    exact ⟨_, this⟩
  obtain ⟨w, hr⟩ := hr
  obtain ⟨f, hf⟩ := hall (opened_ok .random 8 (by decide) [] []) (by simp [Blocking, rawOf]) hr
  cases hf with
  | cons h1 hf =>
    cases hf with
    | cons h2 hf =>
      cases hf with
      | cons h3 hf =>
        cases hf with
        | cons h4 hf =>
          cases hf with
          | cons h5 hf =>
            cases hf with
            | cons h6 hf =>
              simp only [Allowed, reduceCtorEq, if_false] at h1 h2 h3 h4 h6
              obtain ⟨_, rfl⟩ := h1
              obtain ⟨_, rfl⟩ := h2
              obtain ⟨_, rfl⟩ := h3
              obtain ⟨_, rfl⟩ := h4
              obtain rfl := allowed_rewind h5
              exact absurd h6.1 (by decide +kernel)

end Verif.Props
