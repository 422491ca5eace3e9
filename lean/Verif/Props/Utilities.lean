import Verif.Lemmas.UtilitiesRead
import Verif.Lemmas.UtilitiesReturn
import Verif.Spec.Codecs

/-!
# The utility functions: C45 to C49
-/

set_option autoImplicit false

namespace Verif.Props

open Verif Verif.Spec Host OpenArgs

/-! ## What the functions have to write -/

/-- The characters that stand for a newline in the file. -/
def newlineText (linesep : Text) : Newline → Text
  | .auto => linesep
  | .raw => [10]
  | .lf => [10]
  | .cr => [13]
  | .crlf => [13, 10]

/-- The text with its newlines replaced. -/
def outgoing (linesep : Text) (nl : Newline) (s : Text) : Text :=
  s.flatMap fun c => if c = 10 then newlineText linesep nl else [c]

/-- `d` are the bytes that stand for the data in a file, at its start or not. -/
def Stands (S : Setting) (nl : Option Newline) (start : Prop) : Chunk → Bytes → Prop
  | .bytes b, d => d = b
  | .text s, d => ∃ e enc, ((start ∧ e = S.codec.encInit) ∨ (¬ start ∧ e = S.codec.encMid)) ∧
      S.codec.encode e (outgoing S.linesep (nl.getD .auto) s) = .ok (d, enc)

theorem replaceLf_eq (nl s : Text) : replaceLf nl s = s.flatMap fun c => if c = 10 then nl else [c] := by
  induction s with
  | nil => rfl
  | cons c cs ih => simp [replaceLf, ih]

theorem flatMap_same (s : Text) : (s.flatMap fun c => if c = 10 then [10] else [c]) = s := by
  induction s with
  | nil => rfl
  | cons c cs ih =>
    simp only [List.flatMap_cons, ih]
    split
    · rename_i h; subst h; rfl
    · rfl

theorem flatMap_none (nl s : Text) (h : 10 ∉ s) : (s.flatMap fun c => if c = 10 then nl else [c]) = s := by
  induction s with
  | nil => rfl
  | cons c cs ih =>
    simp only [List.mem_cons, not_or] at h
    simp only [List.flatMap_cons, ih h.2]
    rw [if_neg (fun e => h.1 e.symm)]
    rfl

theorem newlines_eq {C : Codec} (t : Txt C) (s : Text) : t.newlines s = outgoing t.linesep t.newline s := by
  unfold Txt.newlines outgoing
  have hraw : t.newline = .raw → newlineText t.linesep t.newline = [10] := by rintro h; rw [h]; rfl
  have hnl : t.newline ≠ .raw → newlineText t.linesep t.newline = t.newline.writenl t.linesep := by
    intro h
    cases hn : t.newline <;> first | rfl | exact absurd hn h
  by_cases hr : t.newline = .raw
  · rw [hraw hr, flatMap_same]
    simp [hr, Newline.writeTranslate]
  · have hw : t.newline.writeTranslate = true := by
      cases hn : t.newline <;> first | rfl | exact absurd hn hr
    rw [hnl hr, hw]
    by_cases h10 : 10 ∈ s
    · by_cases hx : t.newline.writenl t.linesep = [10]
      · rw [hx, flatMap_same]; simp
      · simp [h10, hx, replaceLf_eq]
    · rw [flatMap_none _ _ h10]
      simp [h10]

/-! ## What the functions leave in the file -/

/-- The layers of a stream for writing. -/
theorem writer_layers {S : Setting} {a : FileArgs} {mode : List Char} {w v : Host} {o : Verif.Opened} {raw : Raw}
    (ho : rsopen S.py (Site.openArgs a mode) w = (.ok o, v))
    (hw : Writes mode) (hr : ¬ Reads mode) {s : AnyStream S.codec}
    (hl : Site.layers S a.newline o raw = .ok s) : (a.buffering = .given 0 ∧ Binary mode ∧ s = .raw raw) ∨
      (a.buffering ≠ .given 0 ∧ ∃ (n : Nat) (b : Buf), Buf.create .writer n raw = .ok b ∧
      ((Binary mode ∧ s = .buf b) ∨
       (¬ Binary mode ∧ ∃ line t, Txt.create (a.newline.getD .auto) line S.linesep b = (.ok (), t) ∧ s = .txt t))) := by
  unfold Site.layers at hl
  cases hbuf : o.buffer with
  | none =>
    rw [hbuf] at hl
    cases hl
    have h0 := (C44_bare ho).1.1 hbuf
    refine .inl ⟨h0, Classical.byContradiction fun hn => ?_, rfl⟩
    obtain ⟨e, w', h⟩ := C44_no_unbuffered_text S.py (a := Site.openArgs a mode) h0 hn w
    rw [ho] at h
    cases h
  | some kn =>
    obtain ⟨k, n⟩ := kn
    rw [hbuf] at hl
    dsimp only at hl
    have hk : k = .writer := ((C44_kind ho hbuf).2.1).2 ⟨hw, hr⟩
    subst hk
    cases hc : Buf.create .writer n raw with
    | error e => rw [hc] at hl; cases hl
    | ok b =>
      rw [hc] at hl
      dsimp only at hl
      refine .inr ⟨fun h => (by rw [(C44_bare ho).1.2 h] at hbuf; cases hbuf), n, b, hc, ?_⟩
      have ht := (C44_text ho).1
      cases hx : o.text with
      | none =>
        rw [hx] at hl
        cases hl
        exact .inl ⟨ht.1 hx, rfl⟩
      | some line =>
        rw [hx] at hl
        dsimp only at hl
        refine .inr ⟨fun h => (by rw [ht.2 h] at hx; cases hx), line, ?_⟩
        generalize hq : (Txt.create (a.newline.getD .auto) line S.linesep b : Except Exn Unit × Txt S.codec) = q at hl
        obtain ⟨r, t⟩ := q
        cases r with
        | error e => cases hl
        | ok u => cases hl; exact ⟨t, rfl, rfl⟩

theorem put_nil (d : Bytes) : put [] 0 d = d := by
  rw [put_eq, show (0 : Nat) = ([] : Bytes).length from rfl, writeAt_end]
  rfl

theorem put_end (x d : Bytes) : put x x.length d = x ++ d := by rw [put_eq, writeAt_end]

/-- The next bytes go to the end of the file. -/
theorem opened_landing {S : Setting} {a : FileArgs} {mode : List Char} {w : Site} {v : Host} {p : Bytes} {o : Verif.Opened}
    (hp : a.filename = .path p) (h1 : rsopen S.py (Site.openArgs a mode) w.host = (.ok o, v))
    (hof : OpenedFile (Site.openArgs a mode) p w.host v o)
    (happ : 'a' ∈ mode ∨ 'A' ∈ mode ∨ Erases mode ∨ MustCreate mode) :
    landing (Site.rawOf { w with host := v } o.raw) = (Site.rawOf { w with host := v } o.raw).data.length ∧
      ((Site.rawOf { w with host := v } o.raw).pos = 0 ↔ (Site.rawOf { w with host := v } o.raw).data = []) := by
  generalize hraw : Site.rawOf { w with host := v } o.raw = raw
  obtain ⟨_, _, ha⟩ := opened_access h1
  have hdata := rawOf_data hof { w with host := v } rfl
  rw [hraw] at hdata
  have hd : raw.data = Site.content v o.raw.ino := by rw [← hraw]; rfl
  have hap : raw.append = o.raw.append := by rw [← hraw]; rfl
  have hps : raw.pos = if o.raw.append then raw.data.length else 0 := by rw [hd, ← hraw]; rfl
  unfold landing
  rw [hap, hps]
  cases hb : o.raw.append with
  | true => simp [List.length_eq_zero_iff]
  | false =>
    have hnil : raw.data = [] := by
      rcases happ with h | h | h | h
      · rw [ha.2 (.inl h)] at hb; cases hb
      · rw [ha.2 (.inr h)] at hb; cases hb
      · exact hdata.1 h
      · by_cases he : Erases mode
        · exact hdata.1 he
        · rw [hdata.2 he]
          have := (C37_must_create (a := Site.openArgs a mode) ⟨hp, rfl, rfl, rfl⟩ h h1).1
          simp [content, this]
    simp [hnil]

/-- The stream has a buffer, or the system takes the bytes at once. -/
def Unhindered (a : FileArgs) (w : Site) (data : Chunk) : Prop :=
  a.buffering = .given 0 → ∀ b, data = .bytes b → Entire w.io b.length

/-- A function that opens a file for writing and writes the data. -/
theorem withOpen_written {S : Setting} {a : FileArgs} {mode : List Char} {data : Chunk} {sync : Bool} {w w' : Site} {p : Bytes}
    (hp : a.filename = .path p) (hreg : RegularOrAbsent w.host p) (hw : Writes mode)
    (hr : ¬ Reads mode) (hbin : Binary mode ↔ data.isStr = false)
    (happ : 'a' ∈ mode ∨ 'A' ∈ mode ∨ Erases mode ∨ MustCreate mode)
    (h : Site.withOpen S a mode (Site.writeBody S.fdatasync data sync) w = (.ok (), w')) :
    ∃ (o : Verif.Opened) (v : Host) (d : Bytes) (s : Raw), OpenedFile (Site.openArgs a mode) p w.host v o ∧
      Stands S a.newline ((Site.rawOf { w with host := v } o.raw).data = []) data d ∧
      (∃ k, s.data = (Site.rawOf { w with host := v } o.raw).data ++ d.take k ∧ (Unhindered a w data → d.length ≤ k)) ∧
      s.closed = true ∧
      (sync = true → ∃ k, s.disk.getLast? = some (.flushed k) ∧ k ≠ .data) ∧
      Grows (Site.rawOf { w with host := v } o.raw) s ∧ w' = Site.store { w with host := v } o.raw s := by
  obtain ⟨o, v, s, s', h1, h2, h3, h4⟩ := withOpen_ok h
  have hof : OpenedFile (Site.openArgs a mode) p w.host v o := opened_file ⟨hp, rfl, rfl, rfl⟩ hreg h1
  have hgrow : Grows s.theRaw s'.theRaw := by
    have := Along.tryFinally Grows.steps.sPre (Grows.steps.sWriteBody S.fdatasync data sync) (Grows.steps.sClose Grows.close) s
    rwa [h3] at this
  generalize hraw : Site.rawOf { w with host := v } o.raw = raw at h2
  have hpos := opened_landing hp h1 hof happ
  rw [hraw] at hpos
  rcases writer_layers h1 hw hr h2 with ⟨h0, hbi, rfl⟩ | ⟨_, n, b, hc, hlay⟩
  · cases data with
    | text x => exact absurd (hbin.1 hbi) (by simp [Chunk.isStr])
    | bytes d =>
      have hacc := (opened_access h1).2.1
      have hwri := raw_written (raw := raw) (by rw [← hraw]; rfl) (by rw [← hraw]; exact hacc.2 hw) (by rw [← hraw]; rfl) h3
      obtain ⟨k, k1, k2⟩ := hwri.data
      refine ⟨o, v, d, s'.theRaw, hof, rfl, ⟨k, ?_, fun hu => k2 ?_⟩, hwri.closed, hwri.flushed, ?_, h4⟩
      · rw [k1, hpos.1, put_end, hraw]
      · rw [← hraw]; exact hu h0 d rfl
      · rw [hraw]; exact hgrow
  obtain ⟨hbeq, _, ho, _, hwr⟩ := create_ok hc
  have hbraw : b.raw = raw := by rw [hbeq]
  have hbk : b.kind = .writer := by rw [hbeq]
  have hbe : b.writeBuf = [] := by rw [hbeq]
  have hu : Usable b := by
    rw [hbeq]
    exact ⟨ho, by rw [← hraw]; rfl, fun _ => hwr (by nofun), nofun⟩
  rcases hlay with ⟨hbi, rfl⟩ | ⟨hnb, line, t, ht, rfl⟩
  · cases data with
    | text x => exact absurd (hbin.1 hbi) (by simp [Chunk.isStr])
    | bytes d =>
      have hwri := buf_written hu hbk hbe h3
      refine ⟨o, v, d, s'.theRaw, hof, rfl, ⟨d.length, ?_, fun _ => Nat.le_refl _⟩, hwri.closed, hwri.flushed, ?_, h4⟩
      · rw [hwri.data, hbraw, hpos.1, put_end, hraw, List.take_length]
      · rw [hraw, ← hbraw]; exact hgrow
  · cases data with
    | bytes d => exact absurd (hbin.2 rfl) hnb
    | text x =>
      obtain ⟨t', ht', hnew⟩ := txt_create (C := S.codec) (nl := a.newline.getD .auto) (line := line) (linesep := S.linesep) hc
        (by rw [← hraw]; exact hof.seekable)
      rw [ht] at ht'
      cases ht'
      obtain ⟨d, enc, henc, hwri⟩ := txt_written (by rw [hnew.buf]; exact hu) (by rw [hnew.buf]; exact hbk)
        (by rw [hnew.buf]; exact hbe) h3
      rw [hnew.buf] at hwri
      refine ⟨o, v, d, s'.theRaw, hof, ⟨t.encoder.getD S.codec.encInit, enc, ?_, ?_⟩,
        ⟨d.length, ?_, fun _ => Nat.le_refl _⟩, hwri.closed, hwri.flushed, ?_, h4⟩
      · rw [hnew.encoder, hbk, hbraw, hraw]
        by_cases h0 : raw.pos = 0
        · exact .inl ⟨hpos.2.1 h0, by rw [if_neg (fun h => h.2 h0)]⟩
        · exact .inr ⟨fun h => h0 (hpos.2.2 h), by rw [if_pos ⟨by nofun, h0⟩]⟩
      · rw [← henc, newlines_eq, hnew.newline, hnew.linesep]
      · rw [hwri.data, hbraw, hpos.1, put_end, hraw, List.take_length]
      · rw [hraw, ← hbraw, ← hnew.buf]; exact hgrow

/-- The mode string of `write_to_file`. -/
def writeMode (data : Chunk) (mustCreate mustNotCreate : Bool) : List Char :=
  ['W', 'E'] ++ (if mustNotCreate then ['N'] else []) ++ (if mustCreate then ['C'] else []) ++
    if data.isStr then [] else ['B']

/-- The mode string of `append_to_file`. -/
def appendMode (data : Chunk) (mustNotCreate : Bool) : List Char :=
  ['A'] ++ (if mustNotCreate then ['N'] else []) ++ if data.isStr then [] else ['B']

theorem writeMode_facts (data : Chunk) (mc mn : Bool) : Writes (writeMode data mc mn) ∧ ¬ Reads (writeMode data mc mn) ∧
    (Binary (writeMode data mc mn) ↔ data.isStr = false) ∧ (Erases (writeMode data mc mn) ↔ mc = false) ∧
    (MustCreate (writeMode data mc mn) ↔ mc = true) ∧ (MustExist (writeMode data mc mn) ↔ mn = true) ∧
    ¬ ('a' ∈ writeMode data mc mn ∨ 'A' ∈ writeMode data mc mn) := by
  unfold writeMode Writes Reads Binary Erases MustCreate MustExist Advanced
  cases mc <;> cases mn <;> cases data.isStr <;> simp

theorem appendMode_facts (data : Chunk) (mn : Bool) : Writes (appendMode data mn) ∧ ¬ Reads (appendMode data mn) ∧
    (Binary (appendMode data mn) ↔ data.isStr = false) ∧ ¬ Erases (appendMode data mn) ∧
    ¬ MustCreate (appendMode data mn) ∧ (MustExist (appendMode data mn) ↔ mn = true) ∧
    'A' ∈ appendMode data mn := by
  unfold appendMode Writes Reads Binary Erases MustCreate MustExist Advanced
  cases mn <;> cases data.isStr <;> simp

/-- What `write_to_file` does when it returns. -/
theorem written_file {S : Setting} {a : FileArgs} {data : Chunk} {sync mc mn : Bool} {w w' : Site} {p : Bytes}
    (hp : a.filename = .path p) (hreg : RegularOrAbsent w.host p)
    (h : Site.writeToFile S a data sync mc mn w = (.ok (), w')) :
    ∃ (o : Verif.Opened) (v : Host) (d : Bytes) (s : Raw), OpenedFile (Site.openArgs a (writeMode data mc mn)) p w.host v o ∧
      Stands S a.newline True data d ∧ (∃ k, s.data = d.take k ∧ (Unhindered a w data → d.length ≤ k)) ∧ s.closed = true ∧
      (sync = true → ∃ k, s.disk.getLast? = some (.flushed k) ∧ k ≠ .data) ∧
      Grows (Site.rawOf { w with host := v } o.raw) s ∧ w' = Site.store { w with host := v } o.raw s := by
  obtain ⟨f1, f2, f3, f4, f5, f6, f7⟩ := writeMode_facts data mc mn
  have happ : Erases (writeMode data mc mn) ∨ MustCreate (writeMode data mc mn) := by
    cases mc
    · exact .inl (f4.2 rfl)
    · exact .inr (f5.2 rfl)
  obtain ⟨o, v, d, s, hof, hst, hd, h1, h2, h3, h4⟩ := withOpen_written hp hreg f1 f2 f3 (.inr (.inr happ)) h
  have hnil : (Site.rawOf { w with host := v } o.raw).data = [] := by
    obtain ⟨e1, e2⟩ := rawOf_data hof { w with host := v } rfl
    by_cases he : Erases (writeMode data mc mn)
    · exact e1 he
    · rw [e2 he]
      obtain ⟨o', v', _, _, ho, _⟩ := withOpen_ok h
      have := (C37_must_create (a := Site.openArgs a (writeMode data mc mn)) ⟨hp, rfl, rfl, rfl⟩
        (happ.resolve_left he) ho).1
      simp [content, this]
  rw [hnil] at hst hd
  refine ⟨o, v, d, s, hof, ?_, hd, h1, h2, h3, h4⟩
  cases data with
  | bytes b => exact hst
  | text x =>
    obtain ⟨e, enc, g1, g2⟩ := hst
    exact ⟨e, enc, .inl ⟨trivial, (g1.resolve_right (fun g => g.1 rfl)).2⟩, g2⟩

/-- What `append_to_file` does when it returns. -/
theorem appended_file {S : Setting} {a : FileArgs} {data : Chunk} {sync mn : Bool} {w w' : Site} {p : Bytes}
    (hp : a.filename = .path p) (hreg : RegularOrAbsent w.host p)
    (h : Site.appendToFile S a data sync mn w = (.ok (), w')) :
    ∃ (o : Verif.Opened) (v : Host) (d : Bytes) (s : Raw), OpenedFile (Site.openArgs a (appendMode data mn)) p w.host v o ∧
      Stands S a.newline ((content w.host p).getD [] = []) data d ∧
      (∃ k, s.data = (content w.host p).getD [] ++ d.take k ∧ (Unhindered a w data → d.length ≤ k)) ∧ s.closed = true ∧
      (sync = true → ∃ k, s.disk.getLast? = some (.flushed k) ∧ k ≠ .data) ∧
      Grows (Site.rawOf { w with host := v } o.raw) s ∧ w' = Site.store { w with host := v } o.raw s := by
  obtain ⟨f1, f2, f3, f4, f5, f6, f7⟩ := appendMode_facts data mn
  obtain ⟨o, v, d, s, hof, hst, hd, h1, h2, h3, h4⟩ := withOpen_written hp hreg f1 f2 f3 (.inr (.inl f7)) h
  have hold := (rawOf_data hof { w with host := v } rfl).2 f4
  rw [hold] at hst hd
  exact ⟨o, v, d, s, hof, hst, hd, h1, h2, h3, h4⟩

theorem store_nodes (x : Site) (o : RawObj) (s : Raw) :
    (Site.store x o s).host.nodes = x.host.nodes.modify o.ino fun n => { n with data := s.data } := by
  unfold Site.store
  dsimp only
  split
  · exact (closeRaw_same _ _ _ _).1
  · rfl

theorem store_names (x : Site) (o : RawObj) (s : Raw) : (Site.store x o s).host.names = x.host.names := by
  unfold Site.store
  dsimp only
  split
  · exact (closeRaw_same _ _ _ _).2.1
  · rfl

/-- After the call the path names a regular file. -/
theorem store_regular {a : OpenArgs} {p : Bytes} {w v : Host} {o : Verif.Opened} (hf : OpenedFile a p w v o) (x : Site)
    (hx : x.host = v) (s : Raw) : RegularOrAbsent (Site.store x o.raw s).host p := by
  intro ino hi
  rw [store_names, hx, hf.name] at hi
  cases hi
  obtain ⟨n, h1, h2, _⟩ := hf.node
  exact ⟨{ n with data := s.data }, by rw [store_nodes, hx]; simp [h1], h2⟩

/-! ## C46 -/

/-- C46, for every text or bytes and all answers of the system: when `write_to_file` returns, the file is exactly what stands
for the data, and files of other names are what they were.
Missing: a call with `buffering=0` of which the system takes only some bytes, `C46_refuted`. -/
theorem C46_partial {S : Setting} {a : FileArgs} {data : Chunk} {sync mc mn : Bool} {w w' : Site} {p : Bytes}
    (hp : a.filename = .path p) (hreg : RegularOrAbsent w.host p)
    (h : Site.writeToFile S a data sync mc mn w = (.ok (), w')) :
    (∃ d, Stands S a.newline True data d ∧ ∃ k, content w'.host p = some (d.take k) ∧ (Unhindered a w data → d.length ≤ k)) ∧
      (∀ q c, w.host.names.lookup q ≠ w.host.names.lookup p → content w.host q = some c → content w'.host q = some c) ∧
      RegularOrAbsent w'.host p := by
  obtain ⟨o, v, d, s, hof, hst, ⟨k, hk, hfull⟩, _, _, _, rfl⟩ := written_file hp hreg h
  obtain ⟨h1, h2⟩ := store_content hof { w with host := v } rfl s
  exact ⟨⟨d, hst, k, by rw [h1, hk], hfull⟩, h2, store_regular hof _ rfl s⟩

/-- The claim of C46. -/
def NeverLoses : Prop :=
  ∀ (S : Setting) (a : FileArgs) (b : Bytes) (sync mc mn : Bool) (w w' : Site) (p : Bytes), a.filename = .path p →
    RegularOrAbsent w.host p → Site.writeToFile S a (.bytes b) sync mc mn w = (.ok (), w') → content w'.host p = some b

/-- A file system with a file, and no system call that fails. -/
def site (io : List OsAns) : Site := { host := machine, io := io, disk := fun _ => [] }

/-- Nothing but the file name and the buffering are given. -/
def plain (buffering : Arg Int) : FileArgs :=
  { filename := .path [102], buffering := buffering, encoding := .absent, errors := .absent, newline := none, locking := true }

def setting : Setting := { py := unixPython, codec := latin1, linesep := [10], fdatasync := true }

theorem machine_regular : RegularOrAbsent machine [102] := by
  intro ino h
  cases h
  exact ⟨_, rfl, rfl⟩

/-- A path that names nothing. -/
theorem machine_absent : RegularOrAbsent machine [110] := by
  intro ino h
  cases h

theorem run_eq {σ α : Type} {m : PyM σ α} {s : σ} {x : Except Exn α} (h : (m s).1 = x) : m s = (x, (m s).2) := Prod.ext h rfl

/-- The system takes one of two bytes, `write_to_file` returns. -/
theorem C46_refuted : ¬ NeverLoses := by
  intro h
  have hr : (Site.writeToFile setting (plain (.given 0)) (.bytes [7, 8]) false false false (site [.count 1])).1 = .ok () := by
    decide +kernel
  have := h setting (plain (.given 0)) [7, 8] false false false (site [.count 1]) _ [102] rfl machine_regular (run_eq hr)
  exact absurd this (by decide +kernel)

/-- A call that meets the hypotheses: short writes, an old content that is longer, `sync`. -/
example : (Site.writeToFile setting (plain (.given 2)) (.bytes [7, 8]) true false false (site [.count 1, .count 1, .fail 25])).1 =
    .ok () := by decide +kernel

/-! ## C47 -/

/-- What a file becomes by appending. -/
def Appended : Bytes → List (Setting × Option Newline × Chunk) → Bytes → Prop
  | old, [], c => c = old
  | old, (S, nl, x) :: xs, c => ∃ d, Stands S nl (old = []) x d ∧ Appended (old ++ d) xs c

/-- Calls of `append_to_file` one after the other.  In between, other programs may do anything but change this file. -/
inductive Appends (p : Bytes) : Site → List (Setting × Option Newline × Chunk) → Site → Prop
  | nil (w : Site) : Appends p w [] w
  | cons {S : Setting} {a : FileArgs} {data : Chunk} {sync mn : Bool} {w w1 w2 w3 : Site}
      {xs : List (Setting × Option Newline × Chunk)} (name : a.filename = .path p) (free : Unhindered a w data)
      (done : Site.appendToFile S a data sync mn w = (.ok (), w1)) (same : content w2.host p = content w1.host p)
      (regular : RegularOrAbsent w2.host p) (rest : Appends p w2 xs w3) : Appends p w ((S, a.newline, data) :: xs) w3

/-- C47: after calls of `append_to_file` the file is its old content followed by what stands for the data, in order.
Missing: a call with `buffering=0` of which the system takes only some bytes, `C47_refuted`. -/
theorem C47_partial {p : Bytes} {w w' : Site} {xs : List (Setting × Option Newline × Chunk)} (hreg : RegularOrAbsent w.host p)
    (h : Appends p w xs w') : Appended ((content w.host p).getD []) xs ((content w'.host p).getD []) ∧
      (xs ≠ [] → (content w'.host p).isSome) := by
  induction h with
  | nil w => exact ⟨rfl, fun h => absurd rfl h⟩
  | @cons S a data sync mn w w1 w2 w3 xs name free done same regular rest ih =>
    obtain ⟨o, v, d, s, hof, hst, ⟨k, hk, hfull⟩, _, _, _, rfl⟩ := appended_file name hreg done
    obtain ⟨h1, h2⟩ := store_content hof { w with host := v } rfl s
    obtain ⟨i1, i2⟩ := ih regular
    rw [List.take_of_length_le (hfull free)] at hk
    rw [same, h1, hk] at i1
    refine ⟨⟨d, hst, i1⟩, fun _ => ?_⟩
    cases xs with
    | nil =>
      cases rest
      rw [same, h1]; rfl
    | cons x xs => exact i2 (by nofun)

/-- For bytes. -/
theorem Appended.bytes (old : Bytes) (l : List (Setting × Option Newline × Bytes)) (c : Bytes)
    (h : Appended old (l.map fun x => (x.1, x.2.1, .bytes x.2.2)) c) : c = old ++ (l.map fun x => x.2.2).flatten := by
  induction l generalizing old with
  | nil => simpa [Appended] using h
  | cons x xs ih =>
    obtain ⟨d, hd, h⟩ := h
    cases hd
    rw [ih _ h]
    simp

/-- The claim of C47 for one call. -/
def AlwaysAppends : Prop :=
  ∀ (S : Setting) (a : FileArgs) (b : Bytes) (sync mn : Bool) (w w' : Site) (p : Bytes), a.filename = .path p →
    RegularOrAbsent w.host p → Site.appendToFile S a (.bytes b) sync mn w = (.ok (), w') →
    content w'.host p = some ((content w.host p).getD [] ++ b)

theorem C47_refuted : ¬ AlwaysAppends := by
  intro h
  have hr : (Site.appendToFile setting (plain (.given 0)) (.bytes [7, 8]) false false (site [.count 1])).1 = .ok () := by
    decide +kernel
  have := h setting (plain (.given 0)) [7, 8] false false (site [.count 1]) _ [102] rfl machine_regular (run_eq hr)
  exact absurd this (by decide +kernel)

/-- Two calls, the second one synchronises and finds short writes. -/
example : ((Site.appendToFile setting (plain .absent) (.bytes [7, 8]) false false >>= fun _ =>
      Site.appendToFile setting (plain (.given 1)) (.text [65, 10]) true true)
    (site [.count 1, .count 1, .count 2, .fail 25])).1 = .ok () := by decide +kernel

/-- With `must_not_create`, a missing file is not created. -/
theorem C47_must_not_create {S : Setting} {a : FileArgs} {data : Chunk} {sync : Bool} {w : Site} {p : Bytes}
    (hp : a.filename = .path p) (hn : w.host.names.lookup p = none) :
    ∃ e sched, Site.appendToFile S a data sync true w = (.error e, { w with host := { w.host with sched := sched } }) := by
  obtain ⟨f1, f2, f3, f4, f5, f6, f7⟩ := appendMode_facts data true
  obtain ⟨e, sched, h, _⟩ := C37_refusal S.py (a := Site.openArgs a (appendMode data true)) (w := w.host) ⟨hp, rfl, rfl, rfl⟩
    (.inr ⟨f6.2 rfl, hn⟩)
  refine ⟨e, sched, ?_⟩
  change Site.withOpen S a (appendMode data true) _ w = _
  unfold Site.withOpen
  rw [h]

/-! ## C48 -/

theorem synced_durable {w : Site} {v : Host} {o : Verif.Opened} {s : Raw} {dev : Device} {c₀ : Bytes} {k : FlushKind}
    (hg : Grows (Site.rawOf { w with host := v } o.raw) s) (hk : s.disk.getLast? = some (.flushed k)) (hd : dev.Sound c₀)
    (hw : .writeError ∉ s.disk) : Durable dev s.disk s.data := by
  obtain ⟨l, h1, h2⟩ := hg
  have := durable_of_flushed hd s.disk k hw hk
  have e : lastContent c₀ s.disk = s.data := by
    rw [h2, h1]
    change lastContent c₀ (_ ++ [.content _] ++ l) = lastContent (Site.content _ _) l
    rw [List.append_assoc, lastContent_append]
    rfl
  rwa [e] at this

/-- C48 for `write_to_file(sync=True)`: the content of the file is durable, when no error in the device was reported to
another call. -/
theorem C48_write {S : Setting} {a : FileArgs} {data : Chunk} {mc mn : Bool} {w w' : Site} {p : Bytes}
    (hp : a.filename = .path p) (hreg : RegularOrAbsent w.host p)
    (h : Site.writeToFile S a data true mc mn w = (.ok (), w')) :
    ∃ ino c k, w'.host.names.lookup p = some ino ∧ content w'.host p = some c ∧
      (w'.disk ino).getLast? = some (.flushed k) ∧ k ≠ .data ∧
      ∀ (dev : Device) (c₀ : Bytes), dev.Sound c₀ → .writeError ∉ w'.disk ino → Durable dev (w'.disk ino) c := by
  obtain ⟨o, v, d, s, hof, hst, _, _, hsync, hg, rfl⟩ := written_file hp hreg h
  obtain ⟨h1, h2⟩ := store_content hof { w with host := v } rfl s
  obtain ⟨k, k1, k2⟩ := hsync rfl
  have hd : (Site.store { w with host := v } o.raw s).disk o.raw.ino = s.disk := by simp [Site.store]
  refine ⟨o.raw.ino, s.data, k, ?_, h1, by rw [hd]; exact k1, k2, fun dev c₀ hs hw => ?_⟩
  · rw [store_names]; exact hof.name
  · rw [hd] at hw ⊢
    exact synced_durable hg k1 hs hw

/-- C48 for `append_to_file(sync=True)`. -/
theorem C48_append {S : Setting} {a : FileArgs} {data : Chunk} {mn : Bool} {w w' : Site} {p : Bytes}
    (hp : a.filename = .path p) (hreg : RegularOrAbsent w.host p)
    (h : Site.appendToFile S a data true mn w = (.ok (), w')) :
    ∃ ino c k, w'.host.names.lookup p = some ino ∧ content w'.host p = some c ∧
      (w'.disk ino).getLast? = some (.flushed k) ∧ k ≠ .data ∧
      ∀ (dev : Device) (c₀ : Bytes), dev.Sound c₀ → .writeError ∉ w'.disk ino → Durable dev (w'.disk ino) c := by
  obtain ⟨o, v, d, s, hof, hst, _, _, hsync, hg, rfl⟩ := appended_file hp hreg h
  obtain ⟨h1, h2⟩ := store_content hof { w with host := v } rfl s
  obtain ⟨k, k1, k2⟩ := hsync rfl
  have hd : (Site.store { w with host := v } o.raw s).disk o.raw.ino = s.disk := by simp [Site.store]
  refine ⟨o.raw.ino, s.data, k, ?_, h1, by rw [hd]; exact k1, k2, fun dev c₀ hs hw => ?_⟩
  · rw [store_names]; exact hof.name
  · rw [hd] at hw ⊢
    exact synced_durable hg k1 hs hw

/-! ## C45 -/

/-- C45, the first half: after `write_to_file` of bytes, the file consists of them. -/
theorem C45_write {S : Setting} {a : FileArgs} {b : Bytes} {sync mc mn : Bool} {w w' : Site} {p : Bytes}
    (hp : a.filename = .path p) (hreg : RegularOrAbsent w.host p) (hb : a.buffering ≠ .given 0)
    (h : Site.writeToFile S a (.bytes b) sync mc mn w = (.ok (), w')) :
    content w'.host p = some b ∧ RegularOrAbsent w'.host p := by
  obtain ⟨⟨d, rfl, k, h1, h2⟩, _, h3⟩ := C46_partial hp hreg h
  rw [List.take_of_length_le (h2 fun h0 => absurd h0 hb)] at h1
  exact ⟨h1, h3⟩

/-- The course of `read_from_file`, with any buffering, on a regular file: the file is not opened, or everything is read, or
the system reported an error, or the descriptor is 0 and cannot be closed; no file is changed. -/
theorem C45_read {S : Setting} {a : FileArgs} {w w' : Site} {p : Bytes} {r : Except Exn Chunk} (hp : a.filename = .path p)
    (hreg : RegularOrAbsent w.host p) (hio : FileAnswers w.io) (h : Site.readFromFile S a true w = (r, w')) :
    (∃ e v, rsopen S.py (Site.openArgs a (readMode true)) w.host = (.error e, v) ∧ r = .error e ∧ w' = { w with host := v }) ∨
    ∃ c, content w.host p = some c ∧ (r = .ok (.bytes c) ∨ (∃ e, r = .error (.ioError e) ∧ .fail e ∈ w.io) ∨
        (r = .error .assertionError ∧ w.host.freeFd = 0)) ∧ ∀ q c, content w.host q = some c → content w'.host q = some c := by
  change Site.withOpen S a (readMode true) (Site.readBody true) w = _ at h
  unfold Site.withOpen at h
  generalize hq : rsopen S.py (Site.openArgs a (readMode true)) w.host = q at h
  obtain ⟨x, v⟩ := q
  cases x with
  | error e => cases h; exact .inl ⟨e, v, rfl, rfl, rfl⟩
  | ok o =>
    have hof := opened_file (a := Site.openArgs a (readMode true)) ⟨hp, rfl, rfl, rfl⟩ hreg hq
    obtain ⟨s, h1, h2, h3, _⟩ := reader_layers hq hof hio
    dsimp only at h
    rw [h1] at h
    dsimp only at h
    obtain ⟨x, s', h4, h5⟩ := loaded_binary (h3 rfl)
    rw [h4] at h
    cases h
    have hex := (C37_must_exist (a := Site.openArgs a (readMode true)) ⟨hp, rfl, rfl, rfl⟩ (readMode_facts true).2.2.2.2.2.1 hq).1
    obtain ⟨ino, hi⟩ : ∃ n, w.host.nodes[o.raw.ino]? = some n := by
      obtain ⟨n, hn, _⟩ := hreg _ hex; exact ⟨n, hn⟩
    have hc : content w.host p = some ino.data := by simp [content, hex, hi]
    rw [hc] at h5
    have hs : s'.theRaw.data = (content w.host p).getD [] := by
      rw [h5.data, h2]
      exact (rawOf_data hof { w with host := v } rfl).2 (readMode_facts true).2.2.2.1
    refine .inr ⟨ino.data, hc, ?_, fun q c hq => store_same hof hex { w with host := v } rfl hs q c hq⟩
    rcases closing_cases o.raw.closefd o.raw.fd x s'.theRaw.closed with h | ⟨h, _, h0⟩
    · dsimp only
      rw [h]
      rcases h5.result with h | ⟨e, h, h'⟩
      · exact .inl h
      · exact .inr (.inl ⟨e, h, by rw [h2] at h'; exact h'⟩)
    · exact .inr (.inr ⟨h, by rw [← opened_fd (a := Site.openArgs a (readMode true)) ⟨hp, rfl, rfl, rfl⟩ hq]; exact h0⟩)

/-! ## The functions return -/

/-- The arguments make sense, for text or for bytes. -/
structure SoundArgs (a : FileArgs) (p : Bytes) (text : Prop) : Prop where
  name : a.filename = .path p
  nonempty : p ≠ []
  noNul : 0 ∉ p
  bufferingType : a.buffering ≠ .wrongType
  encodingType : a.encoding ≠ .wrongType
  errorsType : a.errors ≠ .wrongType
  textArgs : ¬ text → a.encoding = .absent ∧ a.errors = .absent ∧ a.newline = none
  unbuffered : a.buffering = .given 0 → ¬ text

theorem SoundArgs.call {a : FileArgs} {p : Bytes} {text : Prop} (h : SoundArgs a p text) {mode : List Char} (hm : AdvMode mode)
    (hacc : Reads mode ∨ Writes mode) (hex : ¬ (MustCreate mode ∧ MustExist mode)) (her : Erases mode → Writes mode)
    (hb : Binary mode ↔ ¬ text) (ht : ¬ ('t' ∈ mode ∨ 'T' ∈ mode)) : SoundCall (Site.openArgs a mode) p :=
  { byPath := ⟨h.name, rfl, rfl, rfl⟩, nonempty := h.nonempty, noNul := h.noNul, mode := .inr hm, access := hacc,
    existence := hex, erase := her, layer := fun h => ht h.2, modeType := by nofun, bufferingType := h.bufferingType,
    encodingType := h.encodingType, errorsType := h.errorsType,
    textArgs := fun hbin => by
      obtain ⟨h1, h2, h3⟩ := h.textArgs (hb.1 hbin)
      exact ⟨h1, h2, by simp [Site.openArgs, h3]⟩
    unbuffered := fun h0 => hb.2 (h.unbuffered h0), mutex := by nofun, closefd := rfl }

theorem writeMode_sound (data : Chunk) (mc mn : Bool) : AdvMode (writeMode data mc mn) ∧
    ¬ ('t' ∈ writeMode data mc mn ∨ 'T' ∈ writeMode data mc mn) := by
  constructor
  · constructor <;> (unfold writeMode; cases mc <;> cases mn <;> cases data.isStr <;> decide)
  · unfold writeMode
    cases mc <;> cases mn <;> cases data.isStr <;> decide

theorem appendMode_sound (data : Chunk) (mn : Bool) : AdvMode (appendMode data mn) ∧
    ¬ ('t' ∈ appendMode data mn ∨ 'T' ∈ appendMode data mn) := by
  constructor
  · constructor <;> (unfold appendMode; cases mn <;> cases data.isStr <;> decide)
  · unfold appendMode
    cases mn <;> cases data.isStr <;> decide

theorem readMode_sound (binary : Bool) : AdvMode (readMode binary) ∧
    ¬ ('t' ∈ readMode binary ∨ 'T' ∈ readMode binary) := by
  constructor
  · constructor <;> (unfold readMode; cases binary <;> decide)
  · unfold readMode
    cases binary <;> decide

/-- A stream for writing, when system calls succeed. -/
theorem writer_fit {S : Setting} {a : FileArgs} {mode : List Char} {data : Chunk} {w : Site} {v : Host} {p : Bytes}
    {o : Verif.Opened} (hp : a.filename = .path p) (h1 : rsopen S.py (Site.openArgs a mode) w.host = (.ok o, v))
    (hof : OpenedFile (Site.openArgs a mode) p w.host v o) (hw : Writes mode) (hr : ¬ Reads mode)
    (hbin : Binary mode ↔ data.isStr = false) (happ : 'a' ∈ mode ∨ 'A' ∈ mode ∨ Erases mode ∨ MustCreate mode)
    (hio : Blocking w.io) (henc : ∃ d, Stands S a.newline ((Site.rawOf { w with host := v } o.raw).data = []) data d) :
    ∃ s, Site.layers S a.newline o (Site.rawOf { w with host := v } o.raw) = .ok s ∧ Fit s data := by
  have hpos := (opened_landing hp h1 hof happ).2
  have hfit : FitRaw (Site.rawOf { w with host := v } o.raw) := ⟨rfl, (opened_access h1).2.1.2 hw, rfl, hio⟩
  have hseek : (Site.rawOf { w with host := v } o.raw).seekable = true := hof.seekable
  generalize Site.rawOf { w with host := v } o.raw = raw at hfit hseek henc hpos
  unfold Site.layers
  have ht : o.text = none ↔ data.isStr = false := (C44_text h1).1.trans hbin
  cases hb : o.buffer with
  | none =>
    refine ⟨.raw raw, rfl, ?_⟩
    have := ht.1 ((C44_bare h1).2 hb)
    cases data with
    | text x => cases this
    | bytes d => exact hfit
  | some kn =>
    obtain ⟨k, n⟩ := kn
    have hk : k = .writer := ((C44_kind h1 hb).2.1).2 ⟨hw, hr⟩
    subst hk
    have hn := hof.size _ _ hb
    have hc : Buf.create .writer n raw = .ok ⟨.writer, n, raw, [], 0, []⟩ := by
      unfold Buf.create
      have : n ≠ 0 := by omega
      simp [hfit.opened, hfit.writable, this]
    dsimp only
    rw [hc]
    dsimp only
    cases hx : o.text with
    | none =>
      refine ⟨_, rfl, ?_⟩
      cases data with
      | text x => cases ht.1 hx
      | bytes d => exact ⟨rfl, hfit⟩
    | some line =>
      obtain ⟨t, e1, e2⟩ := txt_create (C := S.codec) (nl := a.newline.getD .auto) (line := line) (linesep := S.linesep) hc hseek
      dsimp only
      rw [e1]
      refine ⟨.txt t, rfl, ?_⟩
      cases data with
      | bytes d => rw [ht.2 rfl] at hx; cases hx
      | text x =>
        obtain ⟨d, e, enc, he, henc⟩ := henc
        refine ⟨by unfold FitTxt; rw [e2.buf]; exact ⟨rfl, hfit⟩, (d, enc), ?_⟩
        rw [newlines_eq, e2.newline, e2.linesep, e2.encoder, ← henc]
        congr 1
        rcases he with ⟨he, rfl⟩ | ⟨he, rfl⟩
        · rw [if_neg (fun h => h.2 (hpos.2 he))]
        · rw [if_pos ⟨by nofun, fun h => he (hpos.1 h)⟩]

/-- The call opens, writes and closes the file. -/
theorem withOpen_returns {S : Setting} (hS : S.py.hasU = false) {a : FileArgs} {mode : List Char} {data : Chunk} {sync : Bool}
    {w : Site} {p : Bytes} (hcall : SoundCall (Site.openArgs a mode) p) (hall : Allows (Site.openArgs a mode) p w.host)
    (h0 : w.host.freeFd ≠ 0) (hw : Writes mode) (hr : ¬ Reads mode)
    (hbin : Binary mode ↔ data.isStr = false) (happ : 'a' ∈ mode ∨ 'A' ∈ mode ∨ Erases mode ∨ MustCreate mode)
    (hio : Blocking w.io) (henc : ∃ d, Stands S a.newline (Erases mode ∨ (content w.host p).getD [] = []) data d) :
    (Site.withOpen S a mode (Site.writeBody S.fdatasync data sync) w).1 = .ok () := by
  obtain ⟨o, v, h1, _⟩ := C66_partial hS hcall hall (.inl h0)
  have hof := opened_file hcall.byPath hall.regular h1
  have hdata := rawOf_data hof { w with host := v } rfl
  have hiff : (Erases mode ∨ (content w.host p).getD [] = []) ↔ (Site.rawOf { w with host := v } o.raw).data = [] := by
    by_cases he : Erases mode
    · exact ⟨fun _ => hdata.1 he, fun _ => .inl he⟩
    · rw [hdata.2 he]
      exact ⟨fun h => h.resolve_left he, .inr⟩
  rw [hiff] at henc
  obtain ⟨s, h2, h3⟩ := writer_fit hcall.byPath.name h1 hof hw hr hbin happ hio henc
  unfold Site.withOpen
  rw [h1]
  dsimp only
  rw [h2]
  dsimp only
  have := h3.done S.fdatasync sync
  generalize PyM.tryFinally (Site.writeBody S.fdatasync data sync) AnyStream.close s = q at this
  obtain ⟨r, s'⟩ := q
  dsimp only
  rw [closing_owned (by rw [opened_fd hcall.byPath h1]; exact h0), ite_self]
  exact this

/-- `write_to_file` returns, for sound arguments, if the file may be opened, the data can be encoded and system calls
succeed, with any pattern of short writes. -/
theorem C46_returns {S : Setting} (hS : S.py.hasU = false) {a : FileArgs} {data : Chunk} {sync mc mn : Bool} {w : Site} {p : Bytes}
    (ha : SoundArgs a p (data.isStr = true)) (hm : ¬ (mc = true ∧ mn = true))
    (hall : Allows (Site.openArgs a (writeMode data mc mn)) p w.host)
    (h0 : w.host.freeFd ≠ 0) (hio : Blocking w.io)
    (henc : ∃ d, Stands S a.newline True data d) : (Site.writeToFile S a data sync mc mn w).1 = .ok () := by
  obtain ⟨f1, f2, f3, f4, f5, f6, f7⟩ := writeMode_facts data mc mn
  obtain ⟨g1, g2⟩ := writeMode_sound data mc mn
  have hstart : Erases (writeMode data mc mn) ∨ (content w.host p).getD [] = [] := by
    cases mc
    · exact .inl (f4.2 rfl)
    · exact .inr (by simp [content, hall.create (f5.2 rfl)])
  change (Site.withOpen S a (writeMode data mc mn) _ w).1 = _
  refine withOpen_returns hS (ha.call g1 (.inr f1) (fun h => hm ⟨f5.1 h.1, f6.1 h.2⟩) (fun _ => f1) (by rw [f3]; simp) g2) hall
    h0 f1 f2 f3 ?_ hio ?_
  · cases mc
    · exact .inr (.inr (.inl (f4.2 rfl)))
    · exact .inr (.inr (.inr (f5.2 rfl)))
  · rwa [eq_true hstart]

/-- `append_to_file` returns. -/
theorem C47_returns {S : Setting} (hS : S.py.hasU = false) {a : FileArgs} {data : Chunk} {sync mn : Bool} {w : Site} {p : Bytes}
    (ha : SoundArgs a p (data.isStr = true)) (hall : Allows (Site.openArgs a (appendMode data mn)) p w.host)
    (h0 : w.host.freeFd ≠ 0) (hio : Blocking w.io)
    (henc : ∃ d, Stands S a.newline ((content w.host p).getD [] = []) data d) :
    (Site.appendToFile S a data sync mn w).1 = .ok () := by
  obtain ⟨f1, f2, f3, f4, f5, f6, f7⟩ := appendMode_facts data mn
  obtain ⟨g1, g2⟩ := appendMode_sound data mn
  change (Site.withOpen S a (appendMode data mn) _ w).1 = _
  refine withOpen_returns hS (ha.call g1 (.inr f1) (fun h => f5 h.1) (fun h => absurd h f4) (by rw [f3]; simp) g2) hall
    h0 f1 f2 f3 (.inr (.inl f7)) hio ?_
  rwa [show (Erases (appendMode data mn) ∨ (content w.host p).getD [] = []) = ((content w.host p).getD [] = []) from
    propext ⟨fun h => h.resolve_left f4, .inr⟩]

/-- `read_from_file` returns the bytes, if system calls succeed. -/
theorem C45_read_returns {S : Setting} (hS : S.py.hasU = false) {a : FileArgs} {w : Site} {p : Bytes} (ha : SoundArgs a p False)
    (hall : Allows (Site.openArgs a (readMode true)) p w.host)
    (h0 : w.host.freeFd ≠ 0) (hio : Blocking w.io) :
    ∃ c, content w.host p = some c ∧ (Site.readFromFile S a true w).1 = .ok (.bytes c) := by
  obtain ⟨f1, f2, f3, f4, f5, f6, f7⟩ := readMode_facts true
  obtain ⟨g1, g2⟩ := readMode_sound true
  obtain ⟨o, v, h1, _⟩ := C66_partial hS (ha.call g1 (.inl f1) (fun h => f5 h.1) (fun h => absurd h f4) (by rw [f3]; simp) g2) hall (.inl h0)
  rcases C45_read ha.name hall.regular (Blocking.fileAnswers hio) (Prod.ext rfl rfl) with ⟨e, v', h, _⟩ |
    ⟨c, hc, h | ⟨e, _, h⟩ | ⟨_, h⟩, _⟩
  · rw [h1] at h; cases h
  · exact ⟨c, hc, h⟩
  · obtain ⟨k, h, _⟩ := hio _ h; cases h
  · exact absurd h h0

/-- C45: what was written is read again.  In between, other programs may do anything but change this file.  If reading fails,
the file could not be opened, the system reported an error, or the descriptor of the file was 0. -/
theorem C45_round_trip {S S' : Setting} {a a' : FileArgs} {b : Bytes} {sync mc mn : Bool} {w w1 w2 w' : Site} {p : Bytes}
    {r : Except Exn Chunk} (hp : a.filename = .path p) (hp' : a'.filename = .path p) (hreg : RegularOrAbsent w.host p)
    (hb : a.buffering ≠ .given 0) (h : Site.writeToFile S a (.bytes b) sync mc mn w = (.ok (), w1))
    (same : content w2.host p = content w1.host p) (hreg2 : RegularOrAbsent w2.host p) (hio : FileAnswers w2.io)
    (h' : Site.readFromFile S' a' true w2 = (r, w')) :
    r = .ok (.bytes b) ∨ (∃ e, r = .error (.ioError e) ∧ .fail e ∈ w2.io) ∨
      (r = .error .assertionError ∧ w2.host.freeFd = 0) ∨ ∃ e v, rsopen S'.py (Site.openArgs a' (readMode true)) w2.host = (.error e, v) ∧ r = .error e := by
  rcases C45_read hp' hreg2 hio h' with ⟨e, v, h1, h2, _⟩ | ⟨c, hc, h1, _⟩
  · exact .inr (.inr (.inr ⟨e, v, h1, h2⟩))
  · rw [same, (C45_write hp hreg hb h).1] at hc
    cases hc
    rcases h1 with h | h | h
    · exact .inl h
    · exact .inr (.inl h)
    · exact .inr (.inr (.inl h))

/-- A process without any descriptor. -/
def zeroSite : Site := { site [] with host := { machine with fds := [] } }

/-- C45 is false for the descriptor 0: `read_from_file` fails although all system calls succeed. -/
theorem C45_zero_refuted : ∃ (S : Setting) (a : FileArgs) (w : Site), S.py.hasU = false ∧ SoundArgs a [102] False ∧
    Allows (Site.openArgs a (readMode true)) [102] w.host ∧ Blocking w.io ∧ w.host.freeFd = 0 ∧
    content w.host [102] = some [1, 2, 3] ∧ (Site.readFromFile S a true w).1 = .error .assertionError := by
  refine ⟨setting, plain (.given 2), zeroSite, rfl, ⟨rfl, by decide, by decide, by nofun, by nofun, by nofun,
    fun _ => ⟨rfl, rfl, rfl⟩, fun _ => id⟩, ⟨by decide, by decide, fun h => ?_, fun _ => by decide, machine_regular⟩, by nofun,
    by decide +kernel, by decide +kernel, by decide +kernel⟩
  exact absurd h (by simp only [MustCreate]; decide)

/-- A call that meets the hypotheses of the theorems about the return. -/
example : SoundArgs (plain (.given 2)) [102] False ∧ Allows (Site.openArgs (plain (.given 2)) (writeMode (.bytes [7]) false true)) [102]
    (site [.count 1]).host ∧ Blocking (site [.count 1]).io := by
  refine ⟨⟨rfl, by decide, by decide, by nofun, by nofun, by nofun, fun _ => ⟨rfl, rfl, rfl⟩, fun _ => id⟩,
    ⟨by decide, by decide, fun h => ?_, fun _ => by decide, machine_regular⟩, fun a ha => ?_⟩
  · exact absurd h (by simp only [MustCreate]; decide)
  · cases ha with
    | head => exact ⟨1, rfl, by decide⟩
    | tail _ h => cases h

end Verif.Props
