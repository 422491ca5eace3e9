import Verif.Model.Utilities
import Verif.Props.OpenLayers
import Verif.Props.BufferedMore
import Verif.Props.Sync
import Verif.Lemmas.TextAlong

/-!
# Lemmas about the utility functions
-/

set_option autoImplicit false

namespace Verif.Props

open Verif Verif.Spec Host OpenArgs

/-- The path names a regular file or nothing. -/
def RegularOrAbsent (w : Host) (p : Bytes) : Prop :=
  ∀ ino, w.names.lookup p = some ino → ∃ n, w.nodes[ino]? = some n ∧ n.kind = .regular

/-- The file that a call for a path opened. -/
structure OpenedFile (a : OpenArgs) (p : Bytes) (w w' : Host) (s : Verif.Opened) : Prop where
  name : w'.names.lookup p = some s.raw.ino
  otherNames : ∀ q, q ≠ p → w'.names.lookup q = w.names.lookup q
  node : ∃ n, w'.nodes[s.raw.ino]? = some n ∧ n.kind = .regular ∧
    (Erases a.modeString → n.data = []) ∧ (¬ Erases a.modeString → n.data = (content w p).getD [])
  others : ∀ (i : Nat) (n : Node), i ≠ s.raw.ino → w.nodes[i]? = some n → w'.nodes[i]? = some n
  before : w.names.lookup p = some s.raw.ino ∨ (w.names.lookup p = none ∧ s.raw.ino = w.nodes.length)
  seekable : s.raw.seekable = true
  closefd : s.raw.closefd = true
  size : ∀ k n, s.buffer = some (k, n) → 0 < n

theorem opened_file {py : Python} {a : OpenArgs} {p : Bytes} (ha : ByPath a p) {w w' : Host}
    (hreg : RegularOrAbsent w p) {s : Verif.Opened} (h : rsopen py a w = (.ok s, w')) : OpenedFile a p w w' s := by
  rcases byPath_course ha h with ⟨e, he, _⟩ | ⟨kw, ext, hfl, hck, _, hclose, hc⟩
  · cases he
  rcases hc with ⟨e, he, _⟩ | ⟨hf, ino, base, hin, hc⟩
  · cases he
  rcases hc with ⟨e, k, b, he, _⟩ | ⟨_, n, hn, hd, ⟨e, e', k, he, _⟩ | ⟨k, _, hfin⟩⟩
  · cases he
  · cases he
  have hregular : n.kind = .regular := by
    cases hin with
    | old hl _ _ =>
      obtain ⟨n', h1, h2⟩ := hreg _ hl
      rw [hn] at h1
      cases h1
      exact h2
    | new hl _ =>
      simp only [newFile] at hn
      rw [List.getElem?_append_right (Nat.le_refl _), Nat.sub_self] at hn
      cases hn
      rfl
  rw [decide_eq_true hregular] at hfin
  have hsr := (finish_files hfin).2.1 s rfl
  obtain ⟨k', l, tr, _, htr, hfc⟩ := finish_course hfin
  rcases hfc with ⟨e, he, _⟩ | ⟨hboth, rfl, hlay⟩
  · exact absurd he.symm (closing_ne_ok _ _ _ _)
  have htrunc : tr = ext.truncate := (hboth rfl).2
  have hbase : ∀ i, (effect l tr (RawObj.built kw w.freeFd ino true)
      ((entered kw ino w.freeFd kw.inheritable k base).ticks k')).nodes[i]? =
      if i = ino ∧ tr = true then base.nodes[i]?.map erased else base.nodes[i]? := by
    intro i
    cases tr with
    | false => simp [effect, ticks, entered]
    | true =>
      simp only [effect, if_true, ticks, entered, RawObj.built, and_true]
      rw [List.getElem?_modify]
      by_cases hi : i = ino
      · subst hi; simp only [if_true]; rfl
      · simp only [if_neg (Ne.symm hi), if_neg hi]; simp
  have hbd : n.data = (content w p).getD [] := by
    unfold content
    cases hin with
    | old hl _ _ => simp [hl, hn]
    | new hl _ =>
      simp only [newFile] at hn
      rw [List.getElem?_append_right (Nat.le_refl _), Nat.sub_self] at hn
      cases hn
      simp [hl]
  have her : ext.truncate = true ↔ Erases a.modeString := hfl.erases
  rw [← htrunc] at her
  refine ⟨?_, ?_, ?_, ?_, ?_, by rw [hsr]; rfl, by rw [hsr]; exact hfl.closefd.trans hclose, ?_⟩
  · rw [hsr]
    cases hin with
    | old hl _ _ => exact hl
    | new hl _ => simp [effect, ticks, entered, newFile, RawObj.built]
  · intro q hq
    cases hin with
    | old hl _ _ => rfl
    | new hl _ => simp [effect, ticks, entered, newFile, List.lookup_cons, beq_false_of_ne hq]
  · refine ⟨if tr then erased n else n, ?_, ?_, ?_, ?_⟩
    · rw [hbase, hsr]
      change (if ino = ino ∧ tr = true then base.nodes[ino]?.map erased else base.nodes[ino]?) = _
      rw [hn]
      cases tr <;> simp
    · cases tr <;> exact hregular
    · intro h
      rw [if_pos (her.2 h)]; rfl
    · intro h
      rw [if_neg (fun h' => h (her.1 h'))]; exact hbd
  · intro i m hi hm
    rw [hsr] at hi
    rw [hbase, if_neg (fun h => hi h.1)]
    exact Enters.kept hin i m hm
  · rw [hsr]
    cases hin with
    | old hl _ _ => exact .inl hl
    | new hl _ => exact .inr ⟨hl, rfl⟩
  · intro kind size hb
    rcases hlay with ⟨_, _, he⟩ | ⟨kind', size', line, _, he, hsz⟩
    · injection he with he
      rw [he] at hb; cases hb
    · injection he with he
      rw [he] at hb
      cases hb
      rcases hsz with ⟨h1, h2, _⟩ | ⟨_, h2, _⟩
      · omega
      · rcases h2 with ⟨h2, _⟩ | ⟨_, m, _, h3, h4⟩ <;> omega

/-! ## Writing -/

/-- What a successful write to a buffered writer guarantees, whatever the system answers. -/
theorem write_done {b b' : Buf} {d : Bytes} {n : Nat} (h : Usable b) (hk : b.kind = .writer)
    (hw : Buf.write d b = (.ok n, b')) :
    n = d.length ∧ Usable b' ∧ b'.kind = .writer ∧ pendingData b' = put b.raw.data (landing b.raw) (b.writeBuf ++ d) := by
  have e0 : Buf.write d b = Buf.writerWrite d b := by unfold Buf.write; rw [hk]
  rw [e0] at hw
  unfold Buf.writerWrite at hw
  rw [PyM.bind_ok (Buf.checkClosed_ok h.opened)] at hw
  obtain ⟨u, b1, h1, h2⟩ := bind_inv hw
  -- what flushing does to the invariant
  have key : ∀ {c c' : Buf} {r : Except Exn Unit} {j : Nat}, Usable c → c.kind = .writer → Buf.Flushed c r c' j →
      Usable c' ∧ c'.kind = .writer ∧ pendingData c' = pendingData c := by
    intro c c' r j hu hck hf
    refine ⟨⟨hf.frame.raw.closed.trans hu.opened, hf.frame.raw.platform.trans hu.unix,
      fun hk' => hf.frame.raw.writable.trans (hu.writable (by rw [hck]; nofun)),
      fun hk' => by rw [hf.frame.kind, hck] at hk'; cases hk'⟩, hf.frame.kind.trans hck, ?_⟩
    unfold pendingData
    rw [Flushed.combine hu hf, hf.left, List.take_append_drop]
  have hb1 : Usable b1 ∧ b1.kind = .writer ∧ put b1.raw.data (landing b1.raw) (b1.writeBuf ++ d) =
      put b.raw.data (landing b.raw) (b.writeBuf ++ d) := by
    unfold Buf.preFlush at h1
    split at h1
    · obtain ⟨r, c, j, g1, g2⟩ := Buf.flushUnlocked_spec h.opened (h.writable (by rw [hk]; nofun)) h.unix
      rw [g1] at h1
      cases h1
      refine ⟨(key h hk g2).1, (key h hk g2).2.1, ?_⟩
      rw [Flushed.combine h g2, g2.left, ← List.append_assoc, List.take_append_drop]
    · cases h1
      exact ⟨h, hk, rfl⟩
  obtain ⟨hu1, hk1, hp1⟩ := hb1
  rw [PyM.bind_ok (PyM.modify_apply _ _)] at h2
  have hu2 : Usable { b1 with writeBuf := b1.writeBuf ++ d } :=
    ⟨hu1.opened, hu1.unix, hu1.writable, fun hk' => by rw [hk1] at hk'; cases hk'⟩
  rw [← hp1]
  unfold Buf.overflowFlush at h2
  split at h2
  · obtain ⟨r, c, j, g1, g2⟩ := Buf.flushUnlocked_spec hu2.opened (hu2.writable (by rw [hk1]; nofun)) hu2.unix
    rw [g1] at h2
    have hkey := key hu2 hk1 g2
    cases r with
    | ok u =>
      cases h2
      exact ⟨rfl, hkey⟩
    | error e =>
      cases e <;> try (cases h2; done)
      dsimp only at h2
      split at h2
      · cases h2
      · cases h2
        exact ⟨rfl, hkey⟩
  · cases h2
    exact ⟨rfl, hu2, hk1, rfl⟩

/-- Flushing an empty writer changes nothing. -/
theorem flush_empty {b : Buf} (h : Usable b) (hk : b.kind = .writer) (he : b.writeBuf = []) :
    Buf.flush b = (.ok (), b) := by
  have e0 : Buf.flush b = Buf.flushUnlocked b := by unfold Buf.flush; rw [hk]
  rw [e0]
  unfold Buf.flushUnlocked
  rw [PyM.bind_ok (Buf.checkClosed_ok h.opened), PyM.bind_ok (PyM.get_apply b), he]
  rfl

/-- The stream closed. -/
def closedBuf (b : Buf) : Buf :=
  { b with raw := { b.raw with closed := true, events := b.raw.events ++ [.close b.raw.data] } }

theorem close_empty {b : Buf} (h : Usable b) (hk : b.kind = .writer) (he : b.writeBuf = []) :
    Buf.close b = (.ok (), closedBuf b) := by
  unfold Buf.close
  rw [if_neg (by rw [h.opened]; simp), PyM.tryFinally_apply, flush_empty h hk he]
  have hc : Raw.close b.raw = (.ok (), { b.raw with closed := true, events := b.raw.events ++ [.close b.raw.data] }) := by
    simp [Raw.close, h.opened]
  dsimp only
  rw [Buf.onRaw_eq hc]
  rfl

theorem sync_done {fd : Bool} {b b' : Buf} (h : Usable b) (hk : b.kind = .writer) (he : b.writeBuf = [])
    (hs : Buf.sync fd true true b = (.ok (), b')) : Usable b' ∧ b'.kind = .writer ∧ b'.writeBuf = [] ∧
      b'.raw.data = b.raw.data ∧ ∃ k, b'.raw.disk.getLast? = some (.flushed k) ∧ k ≠ .data := by
  unfold Buf.sync at hs
  rw [PyM.bind_ok (flush_empty h hk he)] at hs
  have hfix := Fixed.steps.sync fd true true b.raw
  have hdata := Raw.sync_data (a := fd) (m := true) (f := true) b.raw
  unfold Buf.onRaw at hs
  generalize hq : Raw.sync fd true true b.raw = q at hs hfix hdata
  obtain ⟨r, s⟩ := q
  cases hs
  obtain ⟨_, l, k, k1, k2, k3⟩ := Raw.sync_ok hq
  exact ⟨⟨hfix.closed.trans h.opened, hfix.platform.trans h.unix, fun hk' => hfix.writable.trans (h.writable hk'),
    fun hk' => h.reader hk'⟩, hk, he, hdata, k, by dsimp only; rw [k1]; exact Raw.getLast?_append _ _ _ k2, k3 rfl⟩

/-- The bodies of the two writing functions on a stream that is in the end closed. -/
theorem tryFinally_ok {σ α : Type} {m : PyM σ α} {f : PyM σ Unit} {s s' : σ} {a : α}
    (h : PyM.tryFinally m f s = (.ok a, s')) : ∃ s1, m s = (.ok a, s1) ∧ f s1 = (.ok (), s') := by
  rw [PyM.tryFinally_apply] at h
  cases hm : m s with
  | mk r s1 =>
    rw [hm] at h
    dsimp only at h
    cases hf : f s1 with
    | mk r2 s2 =>
      rw [hf] at h
      cases r2 with
      | ok u => cases h; exact ⟨s1, rfl, hf⟩
      | error e => cases h

theorem when_ok {σ α : Type} {c : Bool} {m : PyM σ α} {s s' : σ} {u : Unit} (h : PyM.when c m s = (.ok u, s')) :
    (c = true ∧ ∃ a, m s = (.ok a, s')) ∨ (c = false ∧ s' = s) := by
  unfold PyM.when at h
  cases c with
  | false => exact .inr ⟨rfl, by rw [if_neg (by simp)] at h; cases h; rfl⟩
  | true =>
    rw [if_pos rfl] at h
    generalize hq : m s = q at h
    obtain ⟨r, s1⟩ := q
    cases r with
    | ok a => cases h; exact .inl ⟨rfl, a, rfl⟩
    | error e => cases h

/-- The outcome of the bodies of the writing functions: the bytes are in the file, and the stream is closed; with
`sync`, the last thing that happened is a flush to the device. -/
structure Written (b : Buf) (d : Bytes) (sync : Bool) (s : Raw) : Prop where
  closed : s.closed = true
  data : s.data = put b.raw.data (landing b.raw) d
  flushed : sync = true → ∃ k, s.disk.getLast? = some (.flushed k) ∧ k ≠ .data

theorem buf_written {C : Codec} {fd sync : Bool} {d : Bytes} {b : Buf} {s' : AnyStream C} (hu : Usable b)
    (hk : b.kind = .writer) (he : b.writeBuf = [])
    (h : PyM.tryFinally (Site.writeBody fd (.bytes d) sync) AnyStream.close (.buf b) = (.ok (), s')) :
    Written b d sync s'.theRaw := by
  obtain ⟨s3, h1, h2⟩ := tryFinally_ok h
  unfold Site.writeBody at h1
  obtain ⟨_, s1, g1, h1⟩ := bind_inv h1
  obtain ⟨_, s2, g2, g3⟩ := bind_inv h1
  -- write
  obtain ⟨b1, rfl, hw⟩ : ∃ b1, s1 = .buf b1 ∧ ∃ n, Buf.write d b = (.ok n, b1) := by
    unfold AnyStream.write AnyStream.call at g1
    dsimp only at g1
    rw [PyM.bind_apply] at g1
    generalize hq : Buf.write d b = q at g1
    obtain ⟨r, b1⟩ := q
    cases r with
    | ok n => cases g1; exact ⟨b1, rfl, n, rfl⟩
    | error e => cases g1
  obtain ⟨n, hw⟩ := hw
  obtain ⟨_, hu1, hk1, hp1⟩ := write_done hu hk hw
  -- flush
  obtain ⟨b2, rfl, hf⟩ : ∃ b2, s2 = .buf b2 ∧ Buf.flush b1 = (.ok (), b2) := by
    unfold AnyStream.flush AnyStream.call at g2
    dsimp only at g2
    generalize hq : Buf.flush b1 = q at g2
    obtain ⟨r, b2⟩ := q
    cases g2
    exact ⟨b2, rfl, rfl⟩
  obtain ⟨hd2, he2, hfr2, _⟩ := flush_done hu1 hf
  have hk2 : b2.kind = .writer := hfr2.kind.trans hk1
  have hu2 : Usable b2 := ⟨hfr2.raw.closed.trans hu1.opened, hfr2.raw.platform.trans hu1.unix,
    fun _ => hfr2.raw.writable.trans (hu1.writable (by rw [hk1]; nofun)), fun h => by rw [hk2] at h; cases h⟩
  rw [hp1, he, List.nil_append] at hd2
  -- sync and close
  have hclose : ∀ b3 : Buf, Usable b3 → b3.kind = .writer → b3.writeBuf = [] → s3 = .buf b3 → s' = .buf (closedBuf b3) := by
    intro b3 hu3 hk3 he3 hs3
    subst hs3
    unfold AnyStream.close AnyStream.call at h2
    dsimp only at h2
    rw [close_empty hu3 hk3 he3] at h2
    cases h2
    rfl
  rcases when_ok g3 with ⟨rfl, _, g3⟩ | ⟨rfl, rfl⟩
  · obtain ⟨b3, rfl, hs⟩ : ∃ b3, s3 = .buf b3 ∧ Buf.sync fd true true b2 = (.ok (), b3) := by
      unfold AnyStream.sync AnyStream.call at g3
      dsimp only at g3
      generalize hq : Buf.sync fd true true b2 = q at g3
      obtain ⟨r, b3⟩ := q
      cases g3
      exact ⟨b3, rfl, rfl⟩
    obtain ⟨hu3, hk3, he3, hd3, hl3⟩ := sync_done hu2 hk2 he2 hs
    rw [hclose b3 hu3 hk3 he3 rfl]
    exact ⟨rfl, hd3.trans hd2, fun _ => hl3⟩
  · rw [hclose b2 hu2 hk2 he2 rfl]
    exact ⟨rfl, hd2, nofun⟩

/-- The system takes `n` bytes at once. -/
def Entire (io : List OsAns) (n : Nat) : Prop := io = [] ∨ ∃ j rest, io = .count j :: rest ∧ n ≤ j

/-- The outcome without buffer: only some of the bytes may be in the file. -/
structure WrittenPart (raw : Raw) (d : Bytes) (sync : Bool) (s : Raw) : Prop where
  closed : s.closed = true
  data : ∃ k, s.data = put raw.data (landing raw) (d.take k) ∧ (Entire raw.sched d.length → d.length ≤ k)
  flushed : sync = true → ∃ k, s.disk.getLast? = some (.flushed k) ∧ k ≠ .data

theorem raw_written {C : Codec} {fd sync : Bool} {d : Bytes} {raw : Raw} {s' : AnyStream C} (ho : raw.closed = false)
    (hw : raw.writable = true) (hp : raw.platform = .unix)
    (h : PyM.tryFinally (Site.writeBody fd (.bytes d) sync) AnyStream.close (.raw raw) = (.ok (), s')) :
    WrittenPart raw d sync s'.theRaw := by
  obtain ⟨s3, h1, h2⟩ := tryFinally_ok h
  unfold Site.writeBody at h1
  obtain ⟨_, s1, g1, h1⟩ := bind_inv h1
  obtain ⟨_, s2, g2, g3⟩ := bind_inv h1
  obtain ⟨r1, rfl, n, hwr⟩ : ∃ r1, s1 = .raw r1 ∧ ∃ n, Raw.write d raw = (.ok n, r1) := by
    unfold AnyStream.write AnyStream.call at g1
    dsimp only at g1
    rw [PyM.bind_apply] at g1
    generalize hq : Raw.write d raw = q at g1
    obtain ⟨r, b1⟩ := q
    cases r with
    | ok n => cases g1; exact ⟨b1, rfl, n, rfl⟩
    | error e => cases g1
  have hr1 : r1.closed = false ∧ r1.platform = .unix ∧
      ∃ k, r1.data = put raw.data (landing raw) (d.take k) ∧ (Entire raw.sched d.length → d.length ≤ k) := by
    have hfix := Fixed.steps.write d raw
    rw [hwr] at hfix
    refine ⟨hfix.closed.trans ho, hfix.platform.trans hp, ?_⟩
    rw [Raw.write_unix d ho hw hp] at hwr
    have hfill : raw.fill = fun _ => 0 := fill_unix hp
    rcases Raw.osWrite_cases raw.append d raw with ⟨k, sched', hk, e1, e2⟩ | ⟨sched', e1, e2⟩ | ⟨e, sched', e1⟩
    · rw [e1] at hwr
      dsimp only at hwr
      split at hwr
      · cases hwr
      · cases hwr
        refine ⟨k, ?_, fun hent => ?_⟩
        · rw [put_eq, hfill]; rfl
        · rcases e2 with ⟨_, e2, _⟩ | ⟨j, e2, e3⟩
          · omega
          · rcases hent with h | ⟨j', rest, h, hj⟩
            · rw [e2] at h; cases h
            · rw [e2] at h; cases h; omega
    · rw [e1] at hwr
      cases hwr
      refine ⟨0, ?_, fun hent => ?_⟩
      · rw [put_eq, List.take_zero, writeAt_nil]
      · rcases hent with h | ⟨j', rest, h, hj⟩ <;> (rw [e2] at h; cases h)
    · rw [e1] at hwr; cases hwr
  obtain ⟨ho1, hp1, hd1⟩ := hr1
  have hs2 : s2 = .raw r1 := by
    unfold AnyStream.flush AnyStream.call at g2
    dsimp only at g2
    rw [show Raw.flush r1 = (.ok (), r1) from Raw.checkClosed_ok ho1] at g2
    cases g2
    rfl
  subst hs2
  have hclose : ∀ r3 : Raw, r3.closed = false → s3 = .raw r3 →
      s' = .raw { r3 with closed := true, events := r3.events ++ [.close r3.data] } := by
    intro r3 ho3 hs3
    subst hs3
    unfold AnyStream.close AnyStream.call at h2
    dsimp only at h2
    rw [show Raw.close r3 = (.ok (), { r3 with closed := true, events := r3.events ++ [.close r3.data] }) by
      simp [Raw.close, ho3]] at h2
    cases h2
    rfl
  rcases when_ok g3 with ⟨rfl, _, g3⟩ | ⟨rfl, rfl⟩
  · obtain ⟨r3, rfl, hs⟩ : ∃ r3, s3 = .raw r3 ∧ Raw.sync fd true true r1 = (.ok (), r3) := by
      unfold AnyStream.sync AnyStream.call at g3
      dsimp only at g3
      generalize hq : Raw.sync fd true true r1 = q at g3
      obtain ⟨r, b3⟩ := q
      cases g3
      exact ⟨b3, rfl, rfl⟩
    have hfix := Fixed.steps.sync fd true true r1
    have hdata := Raw.sync_data (a := fd) (m := true) (f := true) r1
    rw [hs] at hfix hdata
    obtain ⟨_, l, k, k1, k2, k3⟩ := Raw.sync_ok hs
    rw [hclose r3 (hfix.closed.trans ho1) rfl]
    obtain ⟨n', e1, e2⟩ := hd1
    exact ⟨rfl, ⟨n', hdata.trans e1, e2⟩, fun _ => ⟨k, by
      change r3.disk.getLast? = _
      rw [k1]; exact Raw.getLast?_append _ _ _ k2, k3 rfl⟩⟩
  · rw [hclose r1 ho1 rfl]
    exact ⟨rfl, hd1, nofun⟩

/-! ## Text -/

section

variable {C : Codec}

theorem txt_flush_inv {t t' : Txt C} {u : Unit} (h : Txt.flush t = (.ok u, t')) :
    ∃ b', Buf.flush t.buf = (.ok (), b') ∧ t' = { t with buf := b', telling := t.seekable } := by
  unfold Txt.flush at h
  obtain ⟨_, t1, h1, h2⟩ := bind_inv h
  unfold Txt.onBuf at h1
  generalize hq : Buf.flush t.buf = q at h1
  obtain ⟨r, b⟩ := q
  cases h1
  cases h2
  exact ⟨b, rfl, rfl⟩

/-- What a successful write to a text stream over a buffered writer guarantees. -/
theorem txt_write_done {t t' : Txt C} {s : Text} {n : Nat} (hu : Usable t.buf) (hk : t.buf.kind = .writer)
    (h : Txt.write s t = (.ok n, t')) : n = s.length ∧ ∃ d enc, C.encode (t.encoder.getD C.encInit) (t.newlines s) = .ok (d, enc) ∧
      Usable t'.buf ∧ t'.buf.kind = .writer ∧
      pendingData t'.buf = put t.buf.raw.data (landing t.buf.raw) (t.buf.writeBuf ++ d) := by
  unfold Txt.write at h
  obtain ⟨_, t0, h0, h⟩ := bind_inv h
  have : t0 = t := by
    unfold Txt.checkClosed Txt.onBuf at h0
    rw [Buf.checkClosed_ok hu.opened] at h0
    cases h0
    rfl
  subst this
  obtain ⟨d, t1, h1, h⟩ := bind_inv h
  obtain ⟨enc, he, rfl⟩ : ∃ enc, C.encode (t0.encoder.getD C.encInit) (t0.newlines s) = .ok (d, enc) ∧
      t1 = { t0 with encoder := some enc } := by
    unfold Txt.encode at h1
    generalize hq : C.encode (t0.encoder.getD C.encInit) (t0.newlines s) = q at h1
    cases q with
    | error e => cases h1
    | ok x => obtain ⟨d', enc⟩ := x; cases h1; exact ⟨enc, rfl, rfl⟩
  obtain ⟨m, t2, h2, h⟩ := bind_inv h
  obtain ⟨b2, hw, rfl⟩ : ∃ b2, Buf.write d t0.buf = (.ok m, b2) ∧ t2 = { t0 with encoder := some enc, buf := b2 } := by
    unfold Txt.onBuf at h2
    dsimp only at h2
    generalize hq : Buf.write d t0.buf = q at h2
    obtain ⟨r, b2⟩ := q
    cases h2
    exact ⟨b2, rfl, rfl⟩
  obtain ⟨_, hu2, hk2, hp2⟩ := write_done hu hk hw
  obtain ⟨_, t3, h3, h⟩ := bind_inv h
  -- the end does not touch the buffer
  obtain ⟨_, t4, h4, h⟩ := bind_inv h
  obtain ⟨_, t5, h5, h⟩ := bind_inv h
  have hb : t'.buf = t3.buf := by
    cases h
    cases h5
    cases h4
    change (if t3.snapshot.isSome = true then _ else t3).buf = t3.buf
    split <;> rfl
  have hn : n = s.length := by cases h; rfl
  refine ⟨hn, d, enc, he, ?_⟩
  rw [hb]
  rcases when_ok h3 with ⟨_, _, h3⟩ | ⟨_, rfl⟩
  · obtain ⟨b3, hf, rfl⟩ := txt_flush_inv h3
    obtain ⟨hd3, he3, hfr3, _⟩ := flush_done hu2 hf
    have hk3 : b3.kind = .writer := hfr3.kind.trans hk2
    refine ⟨⟨hfr3.raw.closed.trans hu2.opened, hfr3.raw.platform.trans hu2.unix,
      fun _ => hfr3.raw.writable.trans (hu2.writable (by rw [hk2]; nofun)), fun h => by
        dsimp only at h; rw [hk3] at h; cases h⟩, hk3, ?_⟩
    rw [← hp2, ← hd3]
    unfold pendingData
    dsimp only
    rw [he3, put_eq, writeAt_nil]
  · exact ⟨hu2, hk2, hp2⟩

theorem txt_close_empty {t : Txt C} (h : Usable t.buf) (hk : t.buf.kind = .writer) (he : t.buf.writeBuf = []) :
    ∃ t', Txt.close t = (.ok (), t') ∧ t'.buf = closedBuf t.buf := by
  unfold Txt.close
  rw [if_neg (by rw [h.opened]; simp), PyM.tryFinally_apply]
  have hf : Txt.flush t = (.ok (), { t with telling := t.seekable }) := by
    unfold Txt.flush
    have : Txt.onBuf Buf.flush t = (.ok (), t) := by unfold Txt.onBuf; rw [flush_empty h hk he]
    rw [PyM.bind_ok this]
    rfl
  rw [hf]
  dsimp only
  unfold Txt.onBuf
  dsimp only
  rw [close_empty h hk he]
  exact ⟨_, rfl, rfl⟩

theorem txt_written {fd sync : Bool} {x : Text} {t : Txt C} {s' : AnyStream C} (hu : Usable t.buf)
    (hk : t.buf.kind = .writer) (he : t.buf.writeBuf = [])
    (h : PyM.tryFinally (Site.writeBody fd (.text x) sync) AnyStream.close (.txt t) = (.ok (), s')) :
    ∃ d enc, C.encode (t.encoder.getD C.encInit) (t.newlines x) = .ok (d, enc) ∧ Written t.buf d sync s'.theRaw := by
  obtain ⟨s3, h1, h2⟩ := tryFinally_ok h
  unfold Site.writeBody at h1
  obtain ⟨_, s1, g1, h1⟩ := bind_inv h1
  obtain ⟨_, s2, g2, g3⟩ := bind_inv h1
  obtain ⟨t1, rfl, hw⟩ : ∃ t1, s1 = .txt t1 ∧ ∃ n, Txt.write x t = (.ok n, t1) := by
    unfold AnyStream.write AnyStream.call at g1
    dsimp only at g1
    rw [PyM.bind_apply] at g1
    generalize hq : Txt.write x t = q at g1
    obtain ⟨r, b1⟩ := q
    cases r with
    | ok n => cases g1; exact ⟨b1, rfl, n, rfl⟩
    | error e => cases g1
  obtain ⟨n, hw⟩ := hw
  obtain ⟨_, d, enc, henc, hu1, hk1, hp1⟩ := txt_write_done hu hk hw
  refine ⟨d, enc, henc, ?_⟩
  obtain ⟨t2, rfl, hf⟩ : ∃ t2, s2 = .txt t2 ∧ Txt.flush t1 = (.ok (), t2) := by
    unfold AnyStream.flush AnyStream.call at g2
    dsimp only at g2
    generalize hq : Txt.flush t1 = q at g2
    obtain ⟨r, b2⟩ := q
    cases g2
    exact ⟨b2, rfl, rfl⟩
  obtain ⟨b2, hf', rfl⟩ := txt_flush_inv hf
  obtain ⟨hd2, he2, hfr2, _⟩ := flush_done hu1 hf'
  have hk2 : b2.kind = .writer := hfr2.kind.trans hk1
  have hu2 : Usable b2 := ⟨hfr2.raw.closed.trans hu1.opened, hfr2.raw.platform.trans hu1.unix,
    fun _ => hfr2.raw.writable.trans (hu1.writable (by rw [hk1]; nofun)), fun h => by rw [hk2] at h; cases h⟩
  rw [hp1, he, List.nil_append] at hd2
  have hclose : ∀ t3 : Txt C, Usable t3.buf → t3.buf.kind = .writer → t3.buf.writeBuf = [] → s3 = .txt t3 →
      s'.theRaw = (closedBuf t3.buf).raw := by
    intro t3 hu3 hk3 he3 hs3
    subst hs3
    unfold AnyStream.close AnyStream.call at h2
    dsimp only at h2
    obtain ⟨t4, e1, e2⟩ := txt_close_empty hu3 hk3 he3
    rw [e1] at h2
    cases h2
    rw [← e2]
    rfl
  rcases when_ok g3 with ⟨rfl, _, g3⟩ | ⟨rfl, rfl⟩
  · obtain ⟨t3, rfl, b3, hs, hb3⟩ : ∃ t3, s3 = .txt t3 ∧ ∃ b3, Buf.sync fd true true b2 = (.ok (), b3) ∧ t3.buf = b3 := by
      unfold AnyStream.sync AnyStream.call at g3
      dsimp only at g3
      generalize hq : Txt.sync fd true true ({ t1 with buf := b2, telling := t1.seekable } : Txt C) = q at g3
      obtain ⟨r, t3⟩ := q
      cases g3
      refine ⟨t3, rfl, ?_⟩
      unfold Txt.sync at hq
      obtain ⟨_, t4, h4, h5⟩ := bind_inv hq
      obtain ⟨b4, hf4, rfl⟩ := txt_flush_inv h4
      rw [flush_empty hu2 hk2 he2] at hf4
      cases hf4
      unfold Txt.onBuf at h5
      dsimp only at h5
      generalize hq5 : Buf.sync fd true true b2 = q5 at h5
      obtain ⟨r, b3⟩ := q5
      cases h5
      exact ⟨b3, rfl, rfl⟩
    obtain ⟨hu3, hk3, he3, hd3, hl3⟩ := sync_done hu2 hk2 he2 hs
    rw [hclose t3 (by rw [hb3]; exact hu3) (by rw [hb3]; exact hk3) (by rw [hb3]; exact he3) rfl, hb3]
    exact ⟨rfl, hd3.trans hd2, fun _ => hl3⟩
  · rw [hclose _ hu2 hk2 he2 rfl]
    exact ⟨rfl, hd2, nofun⟩

end

/-! ## The layers -/

/-- A text stream just made. -/
structure NewText {C : Codec} (nl : Newline) (linesep : Text) (b : Buf) (t : Txt C) : Prop where
  buf : t.buf = b
  newline : t.newline = nl
  linesep : t.linesep = linesep
  encoder : t.encoder.getD C.encInit = if b.kind ≠ .reader ∧ b.raw.pos ≠ 0 then C.encMid else C.encInit
  decoder : t.decoder = none
  chars : t.chars = []
  used : t.used = 0
  snapshot : t.snapshot = none
  seekable : t.seekable = true
  telling : t.telling = true

theorem txt_create {C : Codec} {nl : Newline} {line : Bool} {linesep : Text} {k : BufKind} {n : Int} {raw : Raw} {b : Buf}
    (hc : Buf.create k n raw = .ok b) (hs : raw.seekable = true) :
    ∃ t : Txt C, Txt.create nl line linesep b = (.ok (), t) ∧ NewText nl linesep b t := by
  obtain ⟨rfl, _, ho, _, hw⟩ := create_ok hc
  unfold Txt.create
  dsimp only
  rw [if_neg (by rw [ho]; simp)]
  unfold Txt.configure
  dsimp only
  rw [if_pos hs]
  have htell : ∀ t : Txt C, t.buf = ⟨k, n.toNat, raw, [], 0, []⟩ → Txt.onBuf Buf.tell t = (.ok raw.pos, t) := by
    intro t ht
    unfold Txt.onBuf
    have : Buf.tell t.buf = (.ok raw.pos, t.buf) := by
      rw [ht]
      unfold Buf.tell
      rw [PyM.bind_ok (Buf.onRaw_eq (b := ⟨k, n.toNat, raw, [], 0, []⟩) (Raw.tell_ok ho hs))]
      cases k <;> simp
    rw [this]
  cases k with
  | reader =>
    refine ⟨_, rfl, ⟨rfl, rfl, rfl, ?_, rfl, rfl, rfl, rfl, hs, hs⟩⟩
    rw [if_neg (fun h => h.1 rfl)]
    rfl
  | _ =>
    have hwr := hw (by nofun)
    rw [PyM.bind_ok (show Txt.writable _ = (.ok true, _) by
      unfold Txt.writable
      dsimp only
      rw [if_neg (by rw [ho]; simp), hwr])]
    rw [if_pos rfl, PyM.bind_ok (htell _ rfl)]
    by_cases hp : raw.pos = 0
    · rw [decide_eq_false (not_not_intro hp)]
      refine ⟨_, rfl, ⟨rfl, rfl, rfl, ?_, rfl, rfl, rfl, rfl, hs, hs⟩⟩
      rw [if_neg (fun h => h.2 hp)]
      rfl
    · rw [decide_eq_true hp]
      refine ⟨_, rfl, ⟨rfl, rfl, rfl, ?_, rfl, rfl, rfl, rfl, hs, hs⟩⟩
      exact (if_pos ⟨by simp, hp⟩).symm

/-- The descriptor of a stream that was opened is the lowest free one. -/
theorem opened_fd {py : Python} {a : OpenArgs} {p : Bytes} (ha : ByPath a p) {w w' : Host} {s : Verif.Opened}
    (h : rsopen py a w = (.ok s, w')) : s.raw.fd = w.freeFd := by
  rcases byPath_course ha h with ⟨e, he, _⟩ | ⟨kw, ext, hfl, hck, _, hclose, hc⟩
  · cases he
  rcases hc with ⟨e, he, _⟩ | ⟨hf, ino, base, hin, hc⟩
  · cases he
  rcases hc with ⟨e, k, b, he, _⟩ | ⟨_, n, hn, hd, ⟨e, e', k, he, _⟩ | ⟨k, _, hfin⟩⟩
  · cases he
  · cases he
  rw [(finish_files hfin).2.1 s rfl]
  rfl

/-- The result of a function that opens a file. -/
theorem withOpen_ok {S : Setting} {a : FileArgs} {mode : List Char} {α : Type} {body : PyM (AnyStream S.codec) α}
    {w w' : Site} {x : α} (h : Site.withOpen S a mode body w = (.ok x, w')) :
    ∃ (o : Verif.Opened) (v : Host) (s s' : AnyStream S.codec), rsopen S.py (Site.openArgs a mode) w.host = (.ok o, v) ∧
      Site.layers S a.newline o (Site.rawOf { w with host := v } o.raw) = .ok s ∧
      PyM.tryFinally body AnyStream.close s = (.ok x, s') ∧ w' = Site.store { w with host := v } o.raw s'.theRaw := by
  unfold Site.withOpen at h
  generalize hq : rsopen S.py (Site.openArgs a mode) w.host = q at h
  obtain ⟨r, v⟩ := q
  cases r with
  | error e => cases h
  | ok o =>
    dsimp only at h
    generalize hl : Site.layers S a.newline o (Site.rawOf { w with host := v } o.raw) = l at h
    cases l with
    | error e => exact absurd (Prod.mk.inj h).1 (closing_ne_ok _ _ _ _)
    | ok s =>
      dsimp only at h
      generalize ht : PyM.tryFinally body AnyStream.close s = t at h
      obtain ⟨r, s'⟩ := t
      obtain ⟨h1, h2⟩ := Prod.mk.inj h
      obtain rfl : r = .ok x := by
        dsimp only at h1
        split at h1
        · exact closing_ok h1
        · exact h1
      exact ⟨o, v, s, s', rfl, hl, ht, h2.symm⟩

theorem rawOf_data {a : OpenArgs} {p : Bytes} {w v : Host} {o : Verif.Opened} (hf : OpenedFile a p w v o) (x : Site)
    (hx : x.host = v) : (Erases a.modeString → (Site.rawOf x o.raw).data = []) ∧
      (¬ Erases a.modeString → (Site.rawOf x o.raw).data = (content w p).getD []) := by
  obtain ⟨n, h1, _, h2, h3⟩ := hf.node
  have : (Site.rawOf x o.raw).data = n.data := by
    simp [Site.rawOf, Site.content, hx, h1]
  rw [this]
  exact ⟨h2, h3⟩

/-- The files after the stream is closed. -/
theorem store_content {a : OpenArgs} {p : Bytes} {w v : Host} {o : Verif.Opened} (hf : OpenedFile a p w v o) (x : Site)
    (hx : x.host = v) (s : Raw) :
    content (Site.store x o.raw s).host p = some s.data ∧
    (∀ q c, w.names.lookup q ≠ w.names.lookup p → content w q = some c → content (Site.store x o.raw s).host q = some c) := by
  have hnodes : (Site.store x o.raw s).host.nodes = x.host.nodes.modify o.raw.ino fun n => { n with data := s.data } := by
    unfold Site.store
    dsimp only
    split
    · exact (closeRaw_same _ _ _ _).1
    · rfl
  have hnames : (Site.store x o.raw s).host.names = x.host.names := by
    unfold Site.store
    dsimp only
    split
    · exact (closeRaw_same _ _ _ _).2.1
    · rfl
  constructor
  · unfold content
    rw [hnames, hnodes, hx, hf.name]
    obtain ⟨n, h1, _⟩ := hf.node
    simp [List.getElem?_modify, h1]
  · intro q c hq hc
    unfold content at hc ⊢
    rw [hnames, hnodes, hx, hf.otherNames q (fun h => hq (by rw [h]))]
    cases hl : w.names.lookup q with
    | none => rw [hl] at hc; simp at hc
    | some i =>
      rw [hl] at hc hq
      cases hn : w.nodes[i]? with
      | none => simp [hn] at hc
      | some m =>
        have hi : i ≠ o.raw.ino := by
          rintro rfl
          rcases hf.before with h | ⟨_, h⟩
          · exact hq h.symm
          · rw [h, List.getElem?_eq_none (Nat.le_refl _)] at hn; cases hn
        have := hf.others i m hi hn
        simp [hn] at hc
        simp [List.getElem?_modify, this, hi.symm, hc]

end Verif.Props
