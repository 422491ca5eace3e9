import Verif.Spec.Appending
import Verif.Lemmas.Together
import Verif.Props.Together

/-!
# C90: append streams lose and overwrite nothing
-/

set_option autoImplicit false

namespace Verif.Props

open Verif Verif.Spec

/-- A call that took `acc` and added the beginning of the pending bytes to the file. -/
structure Grown (b b' : Buf) (acc : Bytes) : Prop where
  usable : Usable b'
  kind : b'.kind = b.kind
  append : b'.raw.append = b.raw.append
  grows : ∃ piece, b'.raw.data = b.raw.data ++ piece ∧ b.writeBuf ++ acc = piece ++ b'.writeBuf

/-- A stream that writes is in append mode. -/
def Appender (b : Buf) : Prop := Usable b ∧ (b.kind ≠ .reader → b.raw.append = true)

theorem Grown.appender {b b' : Buf} {acc : Bytes} (h : Grown b b' acc) (ha : Appender b) : Appender b' :=
  ⟨h.usable, fun hk => h.append.trans (ha.2 (h.kind ▸ hk))⟩

theorem Grown.refl {b : Buf} (h : Usable b) : Grown b b [] := ⟨h, rfl, rfl, [], by simp, by simp⟩

theorem Grown.trans {b c d : Buf} {a1 a2 : Bytes} (h1 : Grown b c a1) (h2 : Grown c d a2) : Grown b d (a1 ++ a2) := by
  obtain ⟨p1, e1, f1⟩ := h1.grows
  obtain ⟨p2, e2, f2⟩ := h2.grows
  refine ⟨h2.usable, h2.kind.trans h1.kind, h2.append.trans h1.append, p1 ++ p2, by rw [e2, e1, List.append_assoc], ?_⟩
  rw [← List.append_assoc, f1, List.append_assoc, f2, List.append_assoc]

theorem Settled.grown {b b' : Buf} (ha : Appender b) (h : Settled b b') : Grown b b' [] := by
  obtain ⟨j, hj⟩ := h.part
  refine ⟨h.usable, h.kind, h.frame.append, b.writeBuf.take j, ?_, by rw [List.append_nil, hj.left, List.take_append_drop]⟩
  rw [hj.data]
  by_cases hk : b.kind = .reader
  · rw [ha.1.reader hk]; simp [put]
  · rw [show landing b.raw = b.raw.data.length by unfold landing; rw [if_pos (ha.2 hk)], put_end]

theorem Along.grown {α : Type} {m : PyM Buf α} (h : Along Settles m) {b : Buf} (ha : Appender b) : Grown b (m b).2 [] :=
  Settled.grown ha (h b ha.1)

theorem Calm.grown {b b' : Buf} (hu : Usable b) (h : Buf.Calm b b') : Grown b b' [] :=
  ⟨⟨h.raw.frame.closed.trans hu.opened, h.raw.frame.platform.trans hu.unix,
      fun hk => h.raw.frame.writable.trans (hu.writable (h.kind ▸ hk)), fun hk => h.writeBuf.trans (hu.reader (h.kind ▸ hk))⟩,
    h.kind, h.raw.frame.append, [], by rw [h.raw.data, List.append_nil], by rw [h.writeBuf]; simp⟩

theorem Flushed.grown {b b' : Buf} {r : Except Exn Unit} {j : Nat} (ha : Appender b) (h : Buf.Flushed b r b' j) :
    Grown b b' [] := Settled.grown ha (Settles.of_flushed ha.1 h)

/-- What the result of `write` says. -/
def Grabs (d : Bytes) : Except Exn Nat → Bytes → Prop
  | .ok n, acc => acc = d ∧ n = d.length
  | .error (.blockingIO k), acc => acc = d.take k ∧ k ≤ d.length
  | .error _, acc => acc = [] ∨ acc = d

theorem grabs_nothing {d : Bytes} {e : Exn} (h : ∀ k, e = .blockingIO k → k = 0) : Grabs d (.error e) [] := by
  cases e <;> try exact .inl rfl
  rename_i k
  rw [h k rfl]
  exact ⟨by simp, Nat.zero_le _⟩

theorem grabs_all {d : Bytes} {e : Exn} (h : ∀ k, e ≠ .blockingIO k) : Grabs d (.error e) d := by
  cases e <;> try exact .inr rfl
  rename_i k
  exact absurd rfl (h k)

theorem writerWrite_grown {b : Buf} (ha : Appender b) (hk : b.kind ≠ .reader) (d : Bytes) :
    ∃ acc, Grabs d (Buf.writerWrite d b).1 acc ∧ Grown b (Buf.writerWrite d b).2 acc := by
  unfold Buf.writerWrite
  rw [PyM.bind_ok (Buf.checkClosed_ok ha.1.opened), PyM.bind_apply]
  have hpre : ∃ r b1, Buf.preFlush b = (r, b1) ∧ Grown b b1 [] ∧ (r = .ok () → b1.writeBuf.length ≤ b1.bufferSize) ∧
      ∀ e, r = .error e → ∀ k, e = .blockingIO k → k = 0 := by
    unfold Buf.preFlush
    split
    · obtain ⟨r, c, j, g1, g2⟩ := Buf.flushUnlocked_spec ha.1.opened (ha.1.writable hk) ha.1.unix
      refine ⟨r, c, g1, Flushed.grown ha g2, ?_, ?_⟩
      · rintro rfl
        rcases g2.result with ⟨_, h⟩ | h | ⟨e, h, _⟩
        · rw [g2.left, h, List.drop_length]; exact Nat.zero_le _
        · cases h
        · cases h
      · rintro e rfl k rfl
        rcases g2.result with ⟨h, _⟩ | h | ⟨e, h, he⟩
        · cases h
        · cases h; rfl
        · cases h; exact absurd rfl (he k)
    · exact ⟨_, _, rfl, .refl ha.1, fun _ => by omega, by rintro e h; cases h⟩
  obtain ⟨r, b1, h1, h2, h3, h4⟩ := hpre
  rw [h1]
  cases r with
  | error e => exact ⟨[], grabs_nothing (h4 e rfl), h2⟩
  | ok u =>
    have hsize := h3 rfl
    have ha1 := h2.appender ha
    have hk1 : b1.kind ≠ .reader := h2.kind ▸ hk
    simp only
    rw [PyM.bind_ok (PyM.modify_apply _ _)]
    have hu2 : Usable { b1 with writeBuf := b1.writeBuf ++ d } :=
      ⟨ha1.1.opened, ha1.1.unix, ha1.1.writable, fun h => absurd h hk1⟩
    have ha2 : Appender { b1 with writeBuf := b1.writeBuf ++ d } := ⟨hu2, ha1.2⟩
    have h5 : Grown b1 { b1 with writeBuf := b1.writeBuf ++ d } d := ⟨hu2, rfl, rfl, [], by simp, by simp⟩
    have h6 : Grown b { b1 with writeBuf := b1.writeBuf ++ d } d := by simpa using h2.trans h5
    unfold Buf.overflowFlush
    split
    · obtain ⟨r, c, j, g1, g2⟩ := Buf.flushUnlocked_spec hu2.opened (hu2.writable hk1) hu2.unix
      have h7 : Grown b c d := by simpa using h6.trans (Flushed.grown ha2 g2)
      rw [g1]
      rcases g2.result with ⟨rfl, _⟩ | rfl | ⟨e, rfl, he⟩
      · exact ⟨d, ⟨rfl, rfl⟩, h7⟩
      · simp only
        split
        · rename_i hover
          have hle := g2.le
          have hleft := g2.left
          have hbs : c.bufferSize = b1.bufferSize := g2.frame.bufferSize
          simp only [List.length_append] at hle hleft
          have hlen : c.writeBuf.length = b1.writeBuf.length + d.length - j := by rw [hleft]; simp
          refine ⟨d.take (d.length - (c.writeBuf.length - c.bufferSize)), ⟨rfl, by omega⟩, ?_⟩
          have h8 : Grown b1 { c with writeBuf := c.writeBuf.take c.bufferSize }
              (d.take (d.length - (c.writeBuf.length - c.bufferSize))) := by
            have h9 := Flushed.grown ha2 g2
            have hck : c.kind ≠ .reader := h9.kind ▸ hk1
            refine ⟨⟨h9.usable.opened, h9.usable.unix, h9.usable.writable, fun h => absurd h hck⟩, h9.kind, h9.append,
              (b1.writeBuf ++ d).take j, ?_, ?_⟩
            · rw [show (b1.writeBuf ++ d).take j = (({ b1 with writeBuf := b1.writeBuf ++ d } : Buf).writeBuf).take j from rfl]
              have := flushed_data hu2 g2
              rw [this, show landing b1.raw = b1.raw.data.length by unfold landing; rw [if_pos (ha1.2 hk1)], put_end]
            · simp only
              rw [hleft, ← List.take_add, List.take_append, List.take_of_length_le (l := b1.writeBuf) (by omega)]
              congr 2
              have : (List.drop j (b1.writeBuf ++ d)).length = b1.writeBuf.length + d.length - j := by simp
              rw [hleft] at hover
              omega
          simpa using h2.trans h8
        · exact ⟨d, ⟨rfl, rfl⟩, h7⟩
      · refine ⟨d, ?_, ?_⟩
        · cases e <;> first | exact .inr rfl | exact absurd rfl (he _)
        · cases e <;> first | exact h7 | exact absurd rfl (he _)
    · exact ⟨d, ⟨rfl, rfl⟩, h6⟩

theorem rawSeek_error {s s' : Raw} {o : Int} {w : Whence} {e : Exn} (h : Raw.seek o w s = (.error e, s')) :
    ∀ k, e ≠ .blockingIO k := by
  rintro k rfl
  unfold Raw.seek at h
  rw [PyM.bind_apply] at h
  unfold Raw.checkClosed at h
  by_cases hc : s.closed = true
  · rw [if_pos hc] at h; cases h
  · rw [if_neg hc] at h
    simp only [Raw.innerSeek] at h
    repeat' split at h
    all_goals cases h

theorem write_grown {b : Buf} (ha : Appender b) (d : Bytes) :
    ∃ acc, Grabs d (Buf.write d b).1 acc ∧ Grown b (Buf.write d b).2 acc := by
  unfold Buf.write
  split
  · exact ⟨[], .inl rfl, .refl ha.1⟩
  · exact writerWrite_grown ha (by simp [*]) d
  · rename_i hk
    rw [PyM.bind_apply]
    have hundo : ∃ r c, Buf.undoReadAhead b = (r, c) ∧ Grown b c [] ∧ ∀ e, r = .error e → ∀ k, e ≠ .blockingIO k := by
      have hcalm : Along Buf.Calm Buf.undoReadAhead := by
        intro b
        unfold Buf.undoReadAhead
        split
        · exact Buf.Calm.pre.refl _
        · exact Along.bind Buf.Calm.pre (Buf.Calm.onRaw (Raw.Moved.reads.seek _ _)) (fun _ => Buf.Calm.resetReadBuf) b
      refine ⟨(Buf.undoReadAhead b).1, (Buf.undoReadAhead b).2, rfl, Calm.grown ha.1 (hcalm b), ?_⟩
      intro e he
      unfold Buf.undoReadAhead at he
      split at he
      · cases he
      · rw [PyM.bind_apply] at he
        generalize hq : Buf.onRaw (Raw.seek ((b.readPos : Int) - b.readBuf.length) .cur) b = q at he
        obtain ⟨r, c⟩ := q
        cases r with
        | ok v => cases he
        | error e' =>
          cases he
          unfold Buf.onRaw at hq
          generalize hz : Raw.seek ((b.readPos : Int) - b.readBuf.length) .cur b.raw = z at hq
          obtain ⟨rz, sz⟩ := z
          cases hq
          exact rawSeek_error hz
    obtain ⟨r, c, h1, h2, h3⟩ := hundo
    rw [h1]
    cases r with
    | error e => exact ⟨[], grabs_nothing fun k hk => absurd hk (h3 e rfl k), h2⟩
    | ok u =>
      obtain ⟨acc, g1, g2⟩ := writerWrite_grown (h2.appender ha) (by rw [h2.kind, hk]; nofun) d
      exact ⟨acc, g1, by simpa using h2.trans g2⟩

/-! ## Calls that leave nothing pending -/

theorem flush_empties {b b' : Buf} (hu : Usable b) (h : Buf.flush b = (.ok (), b')) : b'.writeBuf = [] := (flush_done hu h).2.1

theorem flush_then_empties {α : Type} {g : Unit → PyM Buf α} (hg : ∀ u, Along Buf.Calm (g u)) {b : Buf} (hu : Usable b) {x : α}
    (h : ((Buf.flush >>= g) b).1 = .ok x) : ((Buf.flush >>= g) b).2.writeBuf = [] := by
  rcases bind_cases Buf.flush g b with ⟨a, c, g1, g2⟩ | ⟨e, c, g1, g2⟩
  · rw [g2]
    exact (hg a c).writeBuf.trans (flush_empties hu g1)
  · rw [g2] at h; cases h

theorem seek_empties {b : Buf} (hu : Usable b) {o : Int} {w : Whence} {x : Nat} (h : (Buf.seek o w b).1 = .ok x) :
    (Buf.seek o w b).2.writeBuf = [] := by
  revert h
  unfold Buf.seek
  split
  · rename_i hk
    intro _
    exact (Buf.Calm.readerSeek o w b).writeBuf.trans (hu.reader hk)
  · rename_i hk
    have : Buf.writerSeek o w b = (Buf.flush >>= fun _ => Buf.onRaw (Raw.seek o w)) b := by
      unfold Buf.writerSeek
      have hf : Buf.flush b = Buf.flushUnlocked b := by unfold Buf.flush; rw [hk]
      rw [PyM.bind_apply, PyM.bind_apply, hf]
    rw [this]
    exact flush_then_empties (fun _ => Buf.Calm.onRaw (Raw.Moved.reads.seek o w)) hu
  · exact flush_then_empties (fun _ => .bind Buf.Calm.pre Buf.Calm.seekBack fun _ =>
      .bind Buf.Calm.pre (Buf.Calm.onRaw (Raw.Moved.reads.seek o w)) fun _ =>
      .bind Buf.Calm.pre Buf.Calm.resetReadBuf fun _ => .pure Buf.Calm.pre _) hu

theorem size_empties {b : Buf} (hu : Usable b) {x : Nat} (h : (Buf.size b).1 = .ok x) : (Buf.size b).2.writeBuf = [] :=
  flush_then_empties (fun _ => Buf.Calm.onRaw Raw.Moved.reads.size) hu h

theorem resetBuffers_settles : Along Settles Buf.resetBuffers := .bind Settles.pre (Settles.seek 0 .cur) fun _ => .pure Settles.pre ()

theorem resetBuffers_empties {b : Buf} (hu : Usable b) (h : (Buf.resetBuffers b).1 = .ok ()) :
    (Buf.resetBuffers b).2.writeBuf = [] := by
  unfold Buf.resetBuffers at h ⊢
  rcases bind_cases (Buf.seek 0 .cur) (fun _ => (pure () : PyM Buf Unit)) b with ⟨a, c, g1, g2⟩ | ⟨e, c, g1, g2⟩
  · rw [g2]
    have := seek_empties hu (o := 0) (w := .cur) (x := a) (by rw [g1])
    rw [g1] at this
    exact this
  · rw [g2] at h; cases h

/-- A call of the raw stream that only writes down what happened. -/
def Noted (s s' : Raw) : Prop := s'.data = s.data ∧ Raw.Frame s s'

theorem noted_grown {m : PyM Raw Unit} (hm : ∀ s, Noted s (m s).2) {b : Buf} (hu : Usable b) :
    Grown b (Buf.onRaw m b).2 [] ∧ (Buf.onRaw m b).2.writeBuf = b.writeBuf := by
  have h := hm b.raw
  have e : Buf.onRaw m b = ((m b.raw).1, { b with raw := (m b.raw).2 }) := rfl
  rw [e]
  refine ⟨⟨⟨h.2.closed.trans hu.opened, h.2.platform.trans hu.unix, fun hk => h.2.writable.trans (hu.writable hk), hu.reader⟩,
    rfl, h.2.append, [], ?_, by simp⟩, rfl⟩
  rw [List.append_nil]; exact h.1

theorem checkSeekable_noted (s : Raw) : (Raw.checkSeekable s).2 = s := by
  unfold Raw.checkSeekable
  repeat' split
  all_goals rfl

theorem unlockFile_noted (s : Raw) : Noted s (Raw.unlockFile s).2 := by
  unfold Raw.unlockFile
  rw [PyM.bind_apply]
  have h := checkSeekable_noted s
  generalize hq : Raw.checkSeekable s = q at h ⊢
  obtain ⟨r, c⟩ := q
  simp only at h
  subst h
  cases r <;> exact ⟨rfl, rfl, rfl, rfl, rfl, rfl, rfl⟩

theorem lockFile_noted (s : Raw) : Noted s (Raw.lockFile s.data s).2 := by
  unfold Raw.lockFile
  rw [PyM.bind_apply]
  have h := checkSeekable_noted s
  generalize hq : Raw.checkSeekable s = q at h ⊢
  obtain ⟨r, c⟩ := q
  simp only at h
  subst h
  cases r <;> exact ⟨rfl, rfl, rfl, rfl, rfl, rfl, rfl⟩

/-! ## Histories -/

theorem unlock_grown {b : Buf} (ha : Appender b) : Grown b (Buf.unlockFile b).2 [] ∧
    ((Buf.unlockFile b).1 = .ok () → (Buf.unlockFile b).2.writeBuf = []) := by
  have h1 : Grown b (Buf.resetBuffers b).2 [] := Settled.grown ha (resetBuffers_settles b ha.1)
  have h0 := resetBuffers_empties (b := b) ha.1
  unfold Buf.unlockFile
  rw [PyM.bind_apply]
  generalize Buf.resetBuffers b = q at h1 h0
  obtain ⟨r, c⟩ := q
  cases r with
  | error e => exact ⟨h1, nofun⟩
  | ok u =>
    obtain ⟨h2, h3⟩ := noted_grown unlockFile_noted (b := c) h1.usable
    exact ⟨by simpa using h1.trans h2, fun _ => h3.trans (h0 rfl)⟩

/-- One method call. -/
theorem step_grown {b : Buf} (ha : Appender b) (i : Sid) {h : List Item} {op : StreamOp} (hop : AppendItem h (.did i op)) :
    ∃ acc, Accepts (.did i op) (b.step op).1 acc ∧ Grown b (b.step op).2 acc ∧
      (HandsOver (.did i op) (b.step op).1 → (b.step op).2.writeBuf = []) := by
  have settled : ∀ {b' : Buf}, Settled b b' → Grown b b' [] := Settled.grown ha
  cases op with
  | read n => exact ⟨[], rfl, settled (Settles.read n b ha.1), nofun⟩
  | read1 n => exact ⟨[], rfl, settled (Settles.read1 n b ha.1), nofun⟩
  | peek n => exact ⟨[], rfl, settled (Settles.peek n b ha.1), nofun⟩
  | readline n => exact ⟨[], rfl, settled (Settles.readline n b ha.1), nofun⟩
  | tell => exact ⟨[], rfl, settled (Settles.tell b ha.1), nofun⟩
  | truncate n => exact hop.elim
  | lock o => exact hop.elim
  | write d =>
    obtain ⟨acc, h1, h2⟩ := write_grown ha d
    refine ⟨acc, ?_, h2, nofun⟩
    simp only [Buf.step]
    generalize (Buf.write d b).1 = r at h1
    cases r with
    | ok n => exact h1
    | error e => cases e <;> exact h1
  | seek o w =>
    refine ⟨[], rfl, settled (Settles.seek o w b ha.1), fun h => ?_⟩
    simp only [Buf.step] at h ⊢
    have := fun x => seek_empties ha.1 (o := o) (w := w) (x := x)
    generalize Buf.seek o w b = q at h this ⊢
    obtain ⟨r, c⟩ := q
    cases r with
    | ok n => exact this n rfl
    | error e => exact h.elim
  | flush =>
    refine ⟨[], rfl, settled (Settles.flush b ha.1), fun h => ?_⟩
    simp only [Buf.step] at h ⊢
    have := @flush_empties b (Buf.flush b).2 ha.1
    generalize Buf.flush b = q at h this ⊢
    obtain ⟨r, c⟩ := q
    cases r with
    | ok n => exact this rfl
    | error e => exact h.elim
  | size =>
    refine ⟨[], rfl, settled (Settles.size b ha.1), fun h => ?_⟩
    simp only [Buf.step] at h ⊢
    have := fun x => size_empties (b := b) (x := x) ha.1
    generalize Buf.size b = q at h this ⊢
    obtain ⟨r, c⟩ := q
    cases r with
    | ok n => exact this n rfl
    | error e => exact h.elim
  | unlock =>
    obtain ⟨h1, h2⟩ := unlock_grown ha
    refine ⟨[], rfl, h1, fun h => ?_⟩
    simp only [Buf.step] at h ⊢
    generalize Buf.unlockFile b = q at h h2 ⊢
    obtain ⟨r, c⟩ := q
    cases r with
    | ok n => exact h2 rfl
    | error e => exact h.elim

/-- The state of the streams agrees with the reference. -/
structure Books (d : Bytes) (h : List Item) (w : Together) (s : Ledger) : Prop where
  file : w.file = s.content d
  streams : ∀ i b, w.bufs i = some b → Appender b ∧ b.writeBuf = s.owed i
  others : ∀ i, w.bufs i = none → s.owed i = []
  opens : ∀ i, (w.bufs i).isSome → i ∈ openIn h

theorem load_appender {b : Buf} (h : Appender b) (d : Bytes) : Appender (Together.load b d) :=
  ⟨⟨h.1.opened, h.1.unix, h.1.writable, h.1.reader⟩, h.2⟩

theorem openIn_snoc (h : List Item) (it : Item) : openIn (h ++ [it]) = openStep (openIn h) it := by
  unfold openIn; rw [List.foldl_append]; rfl

theorem on_books {d : Bytes} {h : List Item} {w : Together} {s : Ledger} (hb : Books d h w s) (i : Sid) (it : Item)
    (hopen : openIn (h ++ [it]) = openIn h) {m : Buf → StreamOut × Buf}
    (hm : ∀ b, Appender b → ∃ acc, Accepts it (m b).1 acc ∧ Grown b (m b).2 acc ∧ (HandsOver it (m b).1 → (m b).2.writeBuf = []))
    (hn : Accepts it .none []) :
    ∃ s', (∃ acc, Accepts it (w.on i m).1 acc ∧ s.Adds i acc (s'.owed i) s' ∧ (HandsOver it (w.on i m).1 → s'.owed i = [])) ∧
      Books d (h ++ [it]) (w.on i m).2 s' := by
  unfold Together.on
  cases hbi : w.bufs i with
  | none =>
    refine ⟨⟨s.pieces ++ [(i, [])], s.owed⟩, ⟨[], hn, ⟨⟨[], by simp, rfl⟩, fun _ _ => rfl⟩, fun _ => hb.others i hbi⟩, ?_⟩
    exact ⟨by rw [hb.file]; simp [Ledger.content], hb.streams, hb.others, fun j hj => by rw [hopen]; exact hb.opens j hj⟩
  | some b =>
    obtain ⟨ha, hw⟩ := hb.streams i b hbi
    obtain ⟨acc, h1, h2, h3⟩ := hm _ (load_appender ha w.file)
    obtain ⟨piece, g1, g2⟩ := h2.grows
    simp only
    generalize m (Together.load b w.file) = q at h1 h2 h3 g1 g2
    obtain ⟨out, b'⟩ := q
    simp only at h1 h2 h3 g1 g2 ⊢
    have g1' : b'.raw.data = w.file ++ piece := g1
    have g2' : s.owed i ++ acc = piece ++ b'.writeBuf := by rw [← hw]; exact g2
    refine ⟨⟨s.pieces ++ [(i, piece)], fun j => if j = i then b'.writeBuf else s.owed j⟩,
      ⟨acc, h1, ⟨⟨piece, by simpa using g2', rfl⟩, fun j hj => by simp [hj]⟩, fun hh => by simpa using h3 hh⟩, ?_⟩
    have happ : Appender b' := h2.appender (load_appender ha w.file)
    refine ⟨?_, ?_, ?_, ?_⟩
    · change b'.raw.data = _
      rw [g1', hb.file]; simp [Ledger.content]
    · intro j c hj
      simp only [Together.keep] at hj
      by_cases hji : j = i
      · subst hji; simp only [if_true] at hj ⊢; cases hj; exact ⟨happ, rfl⟩
      · simp only [if_neg hji] at hj ⊢; exact hb.streams j c hj
    · intro j hj
      simp only [Together.keep] at hj
      by_cases hji : j = i
      · subst hji; simp at hj
      · simp only [if_neg hji] at hj ⊢; exact hb.others j hj
    · intro j hj
      rw [hopen]
      by_cases hji : j = i
      · subst hji; exact hb.opens j (by rw [hbi]; rfl)
      · simp only [Together.keep, if_neg hji] at hj; exact hb.opens j hj

theorem create_appender {b : Buf} (h : AppendStream b) : Appender b ∧ b.writeBuf = [] := by
  obtain ⟨⟨k, n, raw, hc⟩, hp, ha⟩ := h
  obtain ⟨rfl, h2, h3, h4, h5⟩ := create_ok hc
  exact ⟨⟨⟨h3, hp, h5, fun _ => rfl⟩, ha⟩, rfl⟩

theorem step_books {d : Bytes} {h : List Item} {w : Together} {s : Ledger} (hb : Books d h w s) {it : Item}
    (hit : AppendItem h it) : ∃ s', s.Step it (w.step it).1 s' ∧ Books d (h ++ [it]) (w.step it).2 s' := by
  have unit : ∀ {r : Except Exn Unit} {it : Item}, (∀ o, HandsOver it o → o = .done) → HandsOver it (.ofUnit r) → r = .ok () := by
    intro r it hd hh
    have := hd _ hh
    cases r with
    | ok u => rfl
    | error e => cases this
  cases it with
  | opened i b =>
    obtain ⟨hi, hs⟩ := hit
    obtain ⟨ha, hwb⟩ := create_appender hs
    have hnone : w.bufs i = none := by
      cases hq : w.bufs i with
      | none => rfl
      | some c => exact absurd (hb.opens i (by rw [hq]; rfl)) hi
    refine ⟨s, rfl, hb.file, ?_, ?_, ?_⟩
    · intro j c hj
      simp only [Together.step] at hj
      by_cases hji : j = i
      · subst hji; simp only [if_true] at hj; cases hj; exact ⟨ha, by rw [hwb, hb.others j hnone]⟩
      · simp only [if_neg hji] at hj; exact hb.streams j c hj
    · intro j hj
      simp only [Together.step] at hj
      by_cases hji : j = i
      · subst hji; simp at hj
      · simp only [if_neg hji] at hj; exact hb.others j hj
    · intro j hj
      rw [openIn_snoc]
      simp only [openStep, List.mem_append, List.mem_singleton]
      by_cases hji : j = i
      · exact .inr hji
      · simp only [Together.step, if_neg hji] at hj; exact .inl (hb.opens j hj)
  | ask i =>
    refine on_books hb i (.ask i) (openIn_snoc h _) (fun b ha => ⟨[], rfl, Settled.grown ha (resetBuffers_settles b ha.1), fun hh => ?_⟩) rfl
    exact resetBuffers_empties ha.1 (unit (fun o ho => by cases o <;> first | rfl | exact ho.elim) hh)
  | granted i sh =>
    refine on_books hb i (.granted i sh) (openIn_snoc h _) (fun b ha => ⟨[], rfl, ?_, nofun⟩) rfl
    have hn := lockFile_noted b.raw
    refine ⟨⟨hn.2.closed.trans ha.1.opened, hn.2.platform.trans ha.1.unix, fun hk => hn.2.writable.trans (ha.1.writable hk),
      ha.1.reader⟩, rfl, hn.2.append, [], ?_, by simp [Buf.onRaw]⟩
    rw [List.append_nil]; exact hn.1
  | did i op => exact on_books hb i (.did i op) (openIn_snoc h _) (fun b ha => step_grown ha i hit) (by cases op <;> rfl)
  | unlock i =>
    refine on_books hb i (.unlock i) (openIn_snoc h _) (fun b ha => ⟨[], rfl, (unlock_grown ha).1, fun hh => ?_⟩) rfl
    exact (unlock_grown ha).2 (unit (fun o ho => by cases o <;> first | rfl | exact ho.elim) hh)
  | exit i =>
    exact on_books hb i (.exit i) (openIn_snoc h _)
      (fun b ha => ⟨[], rfl, (noted_grown unlockFile_noted (b := b) ha.1).1, nofun⟩) rfl
  | gone p =>
    refine ⟨_, rfl, hb.file, ?_, ?_, ?_⟩
    · intro j c hj
      simp only [Together.step] at hj ⊢
      by_cases hji : j.1 = p
      · simp [hji] at hj
      · simp only [if_neg hji] at hj ⊢; exact hb.streams j c hj
    · intro j hj
      simp only [Together.step] at hj ⊢
      by_cases hji : j.1 = p
      · simp [hji]
      · simp only [if_neg hji] at hj ⊢; exact hb.others j hj
    · intro j hj
      rw [openIn_snoc]
      simp only [Together.step] at hj
      by_cases hji : j.1 = p
      · simp [hji] at hj
      · simp only [if_neg hji] at hj
        simp only [openStep, List.mem_filter]
        exact ⟨hb.opens j hj, by simpa using hji⟩
  | close i =>
    have hopen : ∀ j, j ≠ i → j ∈ openIn h → j ∈ openIn (h ++ [.close i]) := fun j hji hj => by
      rw [openIn_snoc]
      simp only [openStep, List.mem_filter]
      exact ⟨hj, by simpa using hji⟩
    simp only [Together.step, Together.on]
    cases hbi : w.bufs i with
    | none =>
      have how := hb.others i hbi
      refine ⟨⟨s.pieces ++ [(i, [])], s.owed⟩, ⟨[], ⟨⟨[], by simp [how], rfl⟩, fun _ _ => rfl⟩, how, fun _ => rfl⟩, ?_⟩
      refine ⟨by simp only; rw [hb.file]; simp [Ledger.content], ?_, ?_, ?_⟩
      · intro j c hj
        simp only at hj
        by_cases hji : j = i
        · simp [hji] at hj
        · rw [if_neg hji] at hj; exact hb.streams j c hj
      · intro j hj
        simp only at hj
        by_cases hji : j = i
        · rw [hji]; exact how
        · rw [if_neg hji] at hj; exact hb.others j hj
      · intro j hj
        simp only at hj
        by_cases hji : j = i
        · simp [hji] at hj
        · rw [if_neg hji] at hj; exact hopen j hji (hb.opens j hj)
    | some b =>
      obtain ⟨ha, hw⟩ := hb.streams i b hbi
      have hl := load_appender ha w.file
      obtain ⟨r, b', j, e1, _, e2, e3, _, _, e4⟩ := C22_close _ hl.1
      have hdata : ∀ x, put (Together.load b w.file).raw.data (landing (Together.load b w.file).raw) (b.writeBuf.take x) =
          w.file ++ b.writeBuf.take x := by
        intro x
        by_cases hk : b.kind = .reader
        · rw [ha.1.reader hk]; simp [put, Together.load]
        · rw [show landing (Together.load b w.file).raw = w.file.length by
            unfold landing; rw [if_pos (hl.2 hk)]; rfl]
          exact put_end _ _
      have e3' : b'.raw.data = w.file ++ b.writeBuf.take j := by rw [e3]; exact hdata j
      simp only [e1]
      refine ⟨⟨s.pieces ++ [(i, b.writeBuf.take j)], fun k => if k = i then [] else s.owed k⟩,
        ⟨b.writeBuf.drop j, ⟨⟨b.writeBuf.take j, by rw [List.append_nil, ← hw, List.take_append_drop], rfl⟩,
          fun k hk => by simp [hk]⟩, by simp, fun hh => ?_⟩, ?_, ?_, ?_, ?_⟩
      · have hr : r = .ok () := by
          cases r with
          | ok u => rfl
          | error e => exact absurd rfl (hh e)
        have h5 : b'.raw.data = pendingData (Together.load b w.file) := e4 hr
        have h6 := hdata b.writeBuf.length
        rw [List.take_length] at h6
        rw [show pendingData (Together.load b w.file) = w.file ++ b.writeBuf from h6, e3', List.append_cancel_left_eq] at h5
        have := congrArg List.length h5
        rw [List.length_take] at this
        exact List.drop_eq_nil_of_le (by omega)
      · change b'.raw.data = _
        rw [e3', hb.file]; simp [Ledger.content]
      · intro k c hk
        simp only [Together.keep] at hk ⊢
        by_cases hki : k = i
        · simp [hki] at hk
        · simp only [if_neg hki] at hk ⊢; exact hb.streams k c hk
      · intro k hk
        simp only [Together.keep] at hk ⊢
        by_cases hki : k = i
        · simp [hki]
        · simp only [if_neg hki] at hk ⊢; exact hb.others k hk
      · intro k hk
        simp only [Together.keep] at hk
        by_cases hki : k = i
        · simp [hki] at hk
        · simp only [if_neg hki] at hk; exact hopen k hki (hb.opens k hk)

theorem books_exist {h : List Item} (hh : AppendHistory h) (d : Bytes) :
    ∃ s, Booked ((beforehand d).play h).1 s ∧ Books d h ((beforehand d).play h).2 s := by
  induction hh with
  | nil => exact ⟨_, .nil, by simp [Together.play, beforehand, Ledger.content], by simp [Together.play, beforehand],
      fun _ _ => rfl, by simp [Together.play, beforehand]⟩
  | @snoc h it _ hit ih =>
    obtain ⟨s, h1, h2⟩ := ih
    obtain ⟨s', h3, h4⟩ := step_books h2 hit
    rw [Together.play_snoc]
    exact ⟨s', .snoc h1 h3, h4⟩

/-- C90: any number of buffered streams of any processes that append to one file, used in any order, for reading and
moving about as well, with short writes, refused writes and errors: at any time the file is what it was before, followed
by pieces; the pieces of each stream, together with what is still in its buffer, are the bytes that it accepted, in their
order. -/
theorem C90_books {h : List Item} (hh : AppendHistory h) (d : Bytes) :
    ∃ s, Booked ((beforehand d).play h).1 s ∧ ((beforehand d).play h).2.file = s.content d ∧
      ∀ i b, ((beforehand d).play h).2.bufs i = some b → b.writeBuf = s.owed i := by
  obtain ⟨s, h1, h2⟩ := books_exist hh d
  exact ⟨s, h1, h2.file, fun i b hb => (h2.streams i b hb).2⟩

theorem AppendHistory.init {h : List Item} {it : Item} (hh : AppendHistory (h ++ [it])) : AppendHistory h ∧ AppendItem h it := by
  generalize hq : h ++ [it] = q at hh
  cases hh with
  | nil => simp at hq
  | snoc h1 h2 =>
    obtain ⟨rfl, e⟩ := List.append_inj' hq rfl
    cases e
    exact ⟨h1, h2⟩

theorem Step.pieces {s s' : Ledger} {it : Item} {out : StreamOut} (h : s.Step it out s') : ∃ more, s'.pieces = s.pieces ++ more := by
  cases it with
  | opened i b => exact ⟨[], by rw [show s' = s from h]; simp⟩
  | gone p => exact ⟨[], by rw [show s' = _ from h]; simp⟩
  | close i => obtain ⟨_, ⟨⟨p, _, hp⟩, _⟩, _⟩ := h; exact ⟨_, hp⟩
  | _ => obtain ⟨_, _, ⟨⟨p, _, hp⟩, _⟩, _⟩ := h; exact ⟨_, hp⟩

/-- C90: what is in the file stays where it is. -/
theorem C90_grows {h : List Item} {it : Item} (hh : AppendHistory (h ++ [it])) (d : Bytes) :
    ((beforehand d).play h).2.file <+: ((beforehand d).play (h ++ [it])).2.file := by
  obtain ⟨h0, h1⟩ := AppendHistory.init hh
  obtain ⟨s, h2, h3⟩ := books_exist h0 d
  obtain ⟨s', h4, h5⟩ := step_books h3 h1
  obtain ⟨more, h6⟩ := Step.pieces h4
  rw [Together.play_snoc]
  simp only
  rw [h5.file, h3.file]
  exact ⟨(more.map Prod.snd).flatten, by simp [Ledger.content, h6]⟩

/-- C90: if no process ended with a stream open, and no call of `close` failed, then the file consists of what it
contained before and of the pieces of the streams; and the pieces of a stream are all that was accepted from it. -/
theorem C90_complete {h : List Item} (hh : AppendHistory h) (d : Bytes) (hopen : openIn h = [])
    (hgone : ∀ h₁ h₂ p, h = h₁ ++ .gone p :: h₂ → ∀ i ∈ openIn h₁, i.1 ≠ p)
    (hclose : ∀ i e, (Item.close i, StreamOut.error e) ∉ ((beforehand d).play h).1) :
    ∃ pieces : List (Sid × Bytes), ((beforehand d).play h).2.file = d ++ (pieces.map Prod.snd).flatten ∧
      ∀ i, AcceptedFrom i ((beforehand d).play h).1 ((pieces.filter fun p => p.1 = i).map Prod.snd).flatten := by
  have main : ∃ s, Books d h ((beforehand d).play h).2 s ∧
      ∀ i, AcceptedFrom i ((beforehand d).play h).1 (s.byAuthor i ++ s.owed i) := by
    clear hopen
    induction hh with
    | nil =>
      obtain ⟨s, h1, h2⟩ := books_exist .nil d
      refine ⟨s, h2, fun i => ?_⟩
      cases h1' : s with
      | mk p o =>
        have : Booked [] s := h1
        generalize hq : ([] : List (Item × StreamOut)) = q at this
        cases this with
        | nil => cases h1'; exact .nil
        | snoc => simp at hq
    | @snoc h it hh hit ih =>
      rw [Together.play_snoc] at hclose ⊢
      obtain ⟨s, h2, h1⟩ := ih (fun h₁ h₂ p e => hgone h₁ (h₂ ++ [it]) p (by rw [e]; simp))
        (fun i e hm => hclose i e (List.mem_append_left _ hm))
      obtain ⟨s', h3, h4⟩ := step_books h2 hit
      refine ⟨s', h4, fun i => ?_⟩
      simp only
      generalize ((beforehand d).play h).2.step it = q at h3 h4 hclose ⊢
      obtain ⟨out, w'⟩ := q
      simp only at h3 hclose ⊢
      have owner : ∀ {j : Sid} {acc rest : Bytes}, streamOf it = some j → s.Adds j acc rest s' → Accepts it out acc →
          rest = s'.owed j → AcceptedFrom i (((beforehand d).play h).1 ++ [(it, out)]) (s'.byAuthor i ++ s'.owed i) := by
        intro j acc rest hj ha hacc hrest
        obtain ⟨⟨piece, e1, e2⟩, e3⟩ := ha
        by_cases hij : i = j
        · subst hij
          have : s'.byAuthor i ++ s'.owed i = (s.byAuthor i ++ s.owed i) ++ acc := by
            unfold Ledger.byAuthor
            rw [e2, ← hrest, List.append_assoc, e1]
            simp
          rw [this]
          exact .mine (h1 i) hj hacc
        · have : s'.byAuthor i ++ s'.owed i = s.byAuthor i ++ s.owed i := by
            unfold Ledger.byAuthor
            rw [e2, e3 i hij]
            simp [show j ≠ i from fun h => hij h.symm]
          rw [this]
          exact .other (h1 i) (by rw [hj]; intro h; exact hij (Option.some.inj h).symm)
      cases it with
      | opened j b =>
        have : s' = s := h3
        subst this
        by_cases hij : i = j
        · subst hij
          have := AcceptedFrom.mine (acc := []) (out := out) (it := .opened i b) (h1 i) rfl rfl
          rwa [List.append_nil] at this
        · exact .other (h1 i) (by intro h; exact hij (Option.some.inj h).symm)
      | gone p =>
        have he : s' = _ := h3
        have hp := hgone h [] p rfl
        have hsame : s'.owed i = s.owed i := by
          rw [he]
          simp only
          by_cases hip : i.1 = p
          · rw [if_pos hip]
            cases hbi : ((beforehand d).play h).2.bufs i with
            | none => exact (h2.others i hbi).symm
            | some b => exact absurd hip (hp i (h2.opens i (by rw [hbi]; rfl)))
          · rw [if_neg hip]
        have hpc : s'.byAuthor i = s.byAuthor i := by rw [he]; rfl
        rw [hsame, hpc]
        exact .other (h1 i) (by simp [streamOf])
      | close j =>
        obtain ⟨rest, h5, h6, h7⟩ := h3
        have hr := h7 fun e he => hclose j e (by rw [he]; simp)
        exact owner (j := j) rfl h5 (by cases out <;> rfl) (by rw [hr, h6])
      | ask j => obtain ⟨acc, h5, h6, _⟩ := h3; exact owner (j := j) rfl h6 h5 rfl
      | granted j sh => obtain ⟨acc, h5, h6, _⟩ := h3; exact owner (j := j) rfl h6 h5 rfl
      | did j op => obtain ⟨acc, h5, h6, _⟩ := h3; exact owner (j := j) rfl h6 h5 rfl
      | unlock j => obtain ⟨acc, h5, h6, _⟩ := h3; exact owner (j := j) rfl h6 h5 rfl
      | exit j => obtain ⟨acc, h5, h6, _⟩ := h3; exact owner (j := j) rfl h6 h5 rfl
  obtain ⟨s, h1, h2⟩ := main
  refine ⟨s.pieces, h1.file, fun i => ?_⟩
  have : s.owed i = [] := by
    cases hbi : ((beforehand d).play h).2.bufs i with
    | none => exact h1.others i hbi
    | some b =>
      have := h1.opens i (by rw [hbi]; rfl)
      rw [hopen] at this
      cases this
  have h3 := h2 i
  rw [this, List.append_nil] at h3
  exact h3

/-! ## An instance: two processes, a short write and a refused one -/

/-- A stream in append mode; `k` is its class. -/
def appending (k : BufKind) (n : Nat) (sched : List OsAns) : Buf :=
  ⟨k, n, { rawOf [] sched with append := true }, [], 0, []⟩

theorem appending_ok (k : BufKind) (n : Nat) (hn : 0 < n) (sched : List OsAns) : AppendStream (appending k n sched) := by
  refine ⟨⟨k, n, { rawOf [] sched with append := true }, ?_⟩, rfl, fun _ => rfl⟩
  have hn' : ¬ n = 0 := by omega
  simp [Buf.create, rawOf, appending, hn']

/-- The buffer of the first stream overflows while the file takes one byte only; the second one reads and moves about. -/
def appendRun : List Item :=
  [.opened (1, 1) (appending .writer 2 [.count 1, .again]), .opened (2, 1) (appending .random 4 []),
    .did (2, 1) (.write [70]), .did (1, 1) (.write [65, 66, 67, 68]), .did (2, 1) (.seek 0 .set), .did (2, 1) (.read (some 1)),
    .did (2, 1) (.write [71]), .close (1, 1), .gone 1, .close (2, 1)]

theorem appendRun_ok : AppendHistory appendRun := by
  have h1 : AppendHistory (appendRun.take 1) := .snoc (h := []) .nil ⟨by simp [openIn], appending_ok _ _ (by decide) _⟩
  have h2 : AppendHistory (appendRun.take 2) :=
    .snoc (h := appendRun.take 1) h1 ⟨by simp [appendRun, openIn, openStep], appending_ok _ _ (by decide) _⟩
  have h3 : AppendHistory (appendRun.take 3) := .snoc (h := appendRun.take 2) h2 trivial
  have h4 : AppendHistory (appendRun.take 4) := .snoc (h := appendRun.take 3) h3 trivial
  have h5 : AppendHistory (appendRun.take 5) := .snoc (h := appendRun.take 4) h4 trivial
  have h6 : AppendHistory (appendRun.take 6) := .snoc (h := appendRun.take 5) h5 trivial
  have h7 : AppendHistory (appendRun.take 7) := .snoc (h := appendRun.take 6) h6 trivial
  have h8 : AppendHistory (appendRun.take 8) := .snoc (h := appendRun.take 7) h7 trivial
  have h9 : AppendHistory (appendRun.take 9) := .snoc (h := appendRun.take 8) h8 trivial
  exact .snoc (h := appendRun.take 9) h9 trivial

-- three of the four bytes are accepted; the file shows who was first
example : ((beforehand [9]).play appendRun).1.map Prod.snd =
      [.done, .done, .num 1, .error (.blockingIO 3), .num 0, .bytes [9], .num 1, .done, .done, .done] ∧
    ((beforehand [9]).play appendRun).2.file = [9, 65, 70, 66, 67, 71] := by decide +kernel

-- the hypotheses of `C90_complete`
example : openIn appendRun = [] ∧ openIn (appendRun.take 8) = [(2, 1)] := by decide +kernel
example : ∃ pieces : List (Sid × Bytes), ((beforehand [9]).play appendRun).2.file = [9] ++ (pieces.map Prod.snd).flatten := by
  obtain ⟨pieces, h, _⟩ := C90_complete appendRun_ok [9] (by decide +kernel) (by
    intro h₁ h₂ p e i hi
    have : h₁ = appendRun.take 8 ∧ p = 1 := by
      unfold appendRun at e
      rcases h₁ with _ | ⟨a, _ | ⟨b, _ | ⟨c, _ | ⟨d, _ | ⟨e', _ | ⟨f, _ | ⟨g, _ | ⟨k, _ | ⟨l, _ | ⟨m, r⟩⟩⟩⟩⟩⟩⟩⟩⟩⟩ <;> simp at e
      obtain ⟨rfl, rfl, rfl, rfl, rfl, rfl, rfl, rfl, rfl, _⟩ := e
      exact ⟨rfl, rfl⟩
    obtain ⟨rfl, rfl⟩ := this
    have : i ∈ [((2, 1) : Sid)] := by
      rw [show openIn (appendRun.take 8) = [(2, 1)] by decide +kernel] at hi; exact hi
    simp at this
    rw [this]; decide) (by
    intro i e hm
    have hc : (StreamOut.error e) ∈ (((beforehand [9]).play appendRun).1.filter fun x => match x.1 with
        | .close _ => true
        | _ => false).map Prod.snd :=
      List.mem_map.2 ⟨(.close i, .error e), List.mem_filter.2 ⟨hm, rfl⟩, rfl⟩
    rw [show (((beforehand [9]).play appendRun).1.filter fun x => match x.1 with
        | .close _ => true
        | _ => false).map Prod.snd = [.done, .done] by decide +kernel] at hc
    simp at hc)
  exact ⟨pieces, h⟩

end Verif.Props
