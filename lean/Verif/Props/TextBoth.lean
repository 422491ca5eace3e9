import Verif.Lemmas.TextDoc

/-!
# C98: text streams that are read and written
-/

set_option autoImplicit false

namespace Verif.Props

open Verif Verif.Spec Verif.Txt

variable {C : Codec} {nl : Newline} {ls : Text}

/-- Nothing is known about the stream but its file. -/
def blank (data : Bytes) (log : List RawEv) : Doc := ⟨data, log, none, none⟩

theorem WriterOpened.shape {raw : Raw} {t : Txt C} (h : WriterOpened C nl ls .random raw t) :
    ∃ lb enc b, Buf.Reads b (fileOf raw) ∧ t = untouched C nl lb ls enc b := by
  obtain ⟨n, b, lb, h1, h3⟩ := h.built
  have hR := h1.R h.blocking
  obtain ⟨hb, _, hcl, _, _⟩ := create_ok h1.created
  have hreads : Buf.Reads b (fileOf raw) := ⟨hR, by rw [hb], by rw [h1.kind]; simp⟩
  unfold Txt.create at h3
  have hbr : b.raw = raw := by rw [hb]
  rw [hbr, hcl, h1.seekable] at h3
  simp only [Bool.false_eq_true, if_false] at h3
  unfold configure at h3
  simp only [if_true] at h3
  generalize ht0 : (⟨b, nl, lb, ls, true, true, none, none, [], 0, none, (0, 0)⟩ : Txt C) = t0 at h3
  have hw : ∃ w, writable t0 = (.ok w, t0) := by
    unfold writable
    split
    · exact ⟨_, rfl⟩
    · have : t0.buf.raw.closed = false := by rw [← ht0]; dsimp only; rw [hbr]; exact hcl
      rw [this]; exact ⟨_, rfl⟩
  obtain ⟨w, hw⟩ := hw
  rw [PyM.bind_ok hw] at h3
  cases w with
  | false =>
    rw [if_neg (by simp)] at h3
    exact ⟨lb, none, b, hreads, ((Prod.mk.inj h3).2).symm.trans ht0.symm⟩
  | true =>
    rw [if_pos rfl] at h3
    have htell : onBuf Buf.tell t0 = (.ok (fileOf raw).pos, t0) := by
      have hbt : Buf.tell t0.buf = (.ok (fileOf raw).pos, t0.buf) := by rw [← ht0]; exact hreads.tell
      exact onBuf_eq hbt
    rw [PyM.bind_ok htell] at h3
    by_cases hp : (fileOf raw).pos = 0
    · rw [hp] at h3
      exact ⟨lb, none, b, hreads, ((Prod.mk.inj h3).2).symm.trans ht0.symm⟩
    · have hd : decide ((fileOf raw).pos ≠ 0) = true := by simp [hp]
      rw [hd] at h3
      refine ⟨lb, some C.encMid, b, hreads, ((Prod.mk.inj h3).2).symm.trans ?_⟩
      rw [← ht0]; rfl

/-- A new stream is like one that was moved to the offset of its file. -/
theorem WriterOpened.keeps {Ok : C.Dec × Bool → Prop} (L : Laws C nl Ok) {raw : Raw} {t : Txt C} (h : WriterOpened C nl ls .random raw t) :
    ∃ d, (blank raw.data raw.events).Arrives C (incoming nl) raw.pos d ∧ Txt.Keeps nl ls Ok t d := by
  have ho := h.outlet
  refine arrives L (t := t) ⟨nofun, nofun⟩ ho fun r hr he => ?_
  obtain ⟨lb, enc, b, hb, rfl⟩ := h.shape
  have hdec : (untouched C nl lb ls enc b).dec = (C.decInit, false) := rfl
  have he := he rfl
  have hbase : base C nl (offset raw.pos) = (C.decInit, false) ∨ raw.data.drop raw.pos = [] := by
    rcases he with he | he | he | he | he
    · left; unfold base; rw [if_pos he]
    · exact absurd rfl he
    · exact absurd rfl he
    · exact .inr he
    · left; unfold base; split
      · rfl
      · exact he
  have hrest : (fileOf raw).rest = raw.data.drop raw.pos := rfl
  obtain ⟨_, _, d', hd'⟩ := hr.plain rfl
  have hd0 : ∃ d'', decodeWith C nl (C.decInit, false) (raw.data.drop raw.pos) true = .ok (r, d'') := by
    rcases hbase with hbase | hend
    · exact ⟨d', by rw [← hbase]; exact hd'⟩
    · have : r = [] := by
        change decodeWith C nl (base C nl (offset raw.pos)) (raw.data.drop raw.pos) true = _ at hd'
        rw [hend] at hd'
        unfold base at hd'
        split at hd'
        · rw [L.text.firstEnd] at hd'; cases hd'; rfl
        · rw [show (offset raw.pos).flags = 0 from rfl, L.text.zeroEnd] at hd'; cases hd'; rfl
      exact ⟨_, by rw [hend, this]; exact L.text.firstEnd⟩
  obtain ⟨d'', hd0⟩ := hd0
  refine ⟨⟨fileOf raw, ⟨⟨hb, rfl, rfl, hr.inside, by rw [hdec]; exact L.text.first, Nat.le_refl _, ?_, ?_, r, d'', ?_, rfl,
    by intro _ h; cases h⟩, fun _ => .none rfl rfl ?_⟩, rfl, rfl⟩, rfl, id⟩
  · rw [hdec, L.text.firstFresh]; exact List.nil_suffix
  · rw [hdec]; exact fun _ => resume_fresh L.text L.text.first L.text.firstFresh
  · rw [hdec, hrest]; exact hd0
  · rcases he with he | he | he | he | he
    · refine .inr ⟨.inl ?_, hdec⟩
      unfold Cookie.isZero at he
      exact (of_decide_eq_true he).1
    · exact absurd rfl he
    · exact absurd rfl he
    · exact .inl ⟨he, by rw [hdec]; exact L.text.firstEnd⟩
    · exact .inr ⟨.inr he, hdec⟩

theorem keeps_flushed {Ok : C.Dec × Bool → Prop} {t : Txt C} {d : Doc} (h : Txt.Keeps nl ls Ok t d) :
    (Txt.flush t).1 = .ok () ∧ (Txt.flush t).2.buf.raw.data = d.data := by
  obtain ⟨f, hf, hd, _⟩ := h.ready
  obtain ⟨b', h1, h2, h3, _⟩ := Buf.flush_R hf.buf
  unfold Txt.flush
  rw [PyM.bind_ok (onBuf_eq h1)]
  exact ⟨rfl, (h2.data' h3).trans hd⟩

/-! ## Histories -/

/-- C98.  For every buffer size, every pattern of short reads and writes, and every history of calls in which reading and writing
alternate, the results are those of the reference, up to the first call that it does not consider (`DocCall`: a call that reads after
a write, or writes after a read, without a movement in between, and what `C68_history_partial` and `C71_history_partial`
leave out).  If the stream is flushed there, the file has the content of the reference. -/
theorem C98_history (hC : LawfulCodec C) (hE : LawfulEncoder C) {guess : Nat × Nat → Nat → Nat} (hg : Moderate guess) {raw : Raw} {t : Txt C}
    (h : WriterOpened C nl ls .random raw t) (ops : List Op) :
    ∃ d₀ pre post d, (blank raw.data raw.events).Arrives C (incoming nl) raw.pos d₀ ∧ ops = pre ++ post ∧
      DocConforms C nl (incoming nl) (outgoing ls nl) d₀ (pre.zip (Txt.run guess t pre).1) d ∧
      (post = [] ∨ ∃ op rest, post = op :: rest ∧ ¬ DocCall d op) ∧
      (Txt.flush (Txt.run guess t pre).2).1 = .ok () ∧ (Txt.flush (Txt.run guess t pre).2).2.buf.raw.data = d.data := by
  obtain ⟨Ok, L⟩ := laws hC nl
  obtain ⟨d₀, h1, h2⟩ := h.keeps L
  obtain ⟨pre, post, d, e1, e2, e3, e4⟩ := doc_run L hE hg ops t d₀ h2
  exact ⟨d₀, pre, post, d, h1, e1, e2, e4, keeps_flushed e3⟩

/-- C98: a movement to an offset or to the end makes reading and writing correct again, whatever was called before. -/
theorem C98_after_seek (hC : LawfulCodec C) (hE : LawfulEncoder C) {guess : Nat × Nat → Nat → Nat} (hg : Moderate guess) {raw : Raw}
    {t : Txt C} (h : WriterOpened C nl ls .random raw t) (before : List Op) (hclose : .close ∉ before) (htrunc : ∀ a, .truncate a ∉ before)
    (m : Movement) (hm : m = .toEnd ∨ ∃ p, m = .to (some (offset p))) (ops : List Op) :
    ∃ p t' d₀ pre post d, Txt.step guess (Txt.run guess t before).2 (.seek m) = (.cookie (offset p), t') ∧
      (m = .toEnd → p = t'.buf.raw.data.length) ∧ (∀ q, m = .to (some (offset q)) → p = q) ∧
      (blank t'.buf.raw.data t'.buf.raw.events).Arrives C (incoming nl) p d₀ ∧ ops = pre ++ post ∧
      DocConforms C nl (incoming nl) (outgoing ls nl) d₀ (pre.zip (Txt.run guess t' pre).1) d ∧
      (post = [] ∨ ∃ op rest, post = op :: rest ∧ ¬ DocCall d op) ∧
      (Txt.flush (Txt.run guess t' pre).2).1 = .ok () ∧ (Txt.flush (Txt.run guess t' pre).2).2.buf.raw.data = d.data := by
  obtain ⟨Ok, L⟩ := laws hC nl
  obtain ⟨f, hf⟩ := h.ready guess hclose fun _ => htrunc
  generalize (Txt.run guess t before).2 = t0 at hf
  have hmk : Marked nl Ok t0 (blank f.data f.log).data (blank f.data f.log).marks := ⟨nofun, nofun⟩
  have key : ∃ p t' d', Txt.seek guess m t0 = (.ok (offset p), t') ∧ (m = .toEnd → p = f.data.length) ∧
      (∀ q, m = .to (some (offset q)) → p = q) ∧ (blank f.data f.log).Arrives C (incoming nl) p d' ∧ Txt.Keeps nl ls Ok t' d' ∧
      t'.buf.writeBuf = [] := by
    rcases hm with rfl | ⟨p, rfl⟩
    · obtain ⟨t', d', h1, h2, h3, h4⟩ := arrives_end L guess (d := blank f.data f.log) ⟨f, hf, rfl, rfl⟩ hmk
      exact ⟨_, t', d', h1, fun _ => rfl, nofun, h2, h3, h4⟩
    · obtain ⟨t', d', h1, h2, h3, h4⟩ := arrives_to L (d := blank f.data f.log) ⟨f, hf, rfl, rfl⟩ hmk p
      refine ⟨p, t', d', by rw [hf.seek]; exact h1, nofun, fun q hq => ?_, h2, h3, h4⟩
      have := congrArg (fun m => match m with | .to (some c) => c.position | _ => 0) hq
      exact this
  obtain ⟨p, t', d₀, h1, h2, h3, h4, h5, h6⟩ := key
  obtain ⟨w, hw⟩ : ∃ w, d₀.writing = some w := ⟨_, h4.writing⟩
  obtain ⟨ho, hd, hl⟩ := h5.writing w hw
  have hd' : t'.buf.raw.data = f.data := (ho.buf.data' h6).trans (hd.trans h4.data)
  have hl' : t'.buf.raw.events = f.log := ho.buf.log.symm.trans (hl.trans h4.log)
  obtain ⟨pre, post, d, e1, e2, e3, e4⟩ := doc_run L hE hg ops t' d₀ h5
  refine ⟨p, t', d₀, pre, post, d, ?_, by rw [hd']; exact h2, h3, by rw [hd', hl']; exact h4, e1, e2, e4, keeps_flushed e3⟩
  simp only [Txt.step, h1]
  rfl

/-! ## Reading what was written -/

theorem run_append (guess : Nat × Nat → Nat → Nat) (t : Txt C) (a b : List Op) :
    Txt.run guess t (a ++ b) = ((Txt.run guess t a).1 ++ (Txt.run guess (Txt.run guess t a).2 b).1, (Txt.run guess (Txt.run guess t a).2 b).2) := by
  induction a generalizing t with
  | nil => simp [Txt.run]
  | cons op a ih => simp only [List.cons_append, Txt.run, ih]

/-- C98: texts are written, the stream is moved to an offset and read: `read` returns the text that the new content has from there. -/
theorem C98_read_back (hC : LawfulCodec C) (hE : LawfulEncoder C) {guess : Nat × Nat → Nat → Nat} (hg : Moderate guess) {raw : Raw}
    {t : Txt C} (h : WriterOpened C nl ls .random raw t) (ops : List Op) (ss : List Text) (ht : texts ops = some ss) (hss : ss ≠ []) (b : Bytes)
    (hb : encoded C raw.pos (outgoing ls nl ss.flatten) = .ok b) (p : Nat) (r : Text)
    (hr : TextFrom C (incoming nl) (put raw.data raw.pos b) p r) (sizes : List Int) :
    (Txt.run guess t (ops ++ .seek (.to (some (offset p))) :: sizes.map fun n => .read (some n))).1 =
      (Txt.run guess t ops).1 ++ .cookie (offset p) :: (pieces r sizes).map .text := by
  obtain ⟨Ok, L⟩ := laws hC nl
  obtain ⟨w, h1, h2⟩ := h.outlet.run hE guess (sinkCall_of_texts ht)
  obtain ⟨h3, _⟩ := SinkConforms.texts hE (run_length guess t ops) h1 ht hss hb
  have hmk : Marked nl Ok (Txt.run guess t ops).2 (blank w.data w.log).data (blank w.data w.log).marks := ⟨nofun, nofun⟩
  obtain ⟨t', d', k1, k2, k3, _⟩ := arrives_to L (d := blank w.data w.log) ⟨_, h2.ready, rfl, rfl⟩ hmk p
  have hx := k2.reading r (.inl (by
    change TextFrom C (incoming nl) w.data p r
    rw [h3]; exact hr))
  have hst := (k3.reading _ hx).1
  rw [run_append]
  have hstep : Txt.step guess (Txt.run guess t ops).2 (.seek (.to (some (offset p)))) = (.cookie (offset p), t') := by
    simp only [Txt.step, h2.ready.seek, k1]
    rfl
  simp only [Txt.run, hstep]
  rw [reads_pieces L.text hg sizes t' _ hst]

/-- C98: what was written to an empty file is read again on the same stream; it is the text that was written exactly if the newline
mode is lossless for it. -/
theorem C98_round_trip (hC : LawfulCodec C) (hE : LawfulEncoder C) (hl : Linesep ls) {guess : Nat × Nat → Nat → Nat} (hg : Moderate guess)
    {raw : Raw} {t : Txt C} (h : WriterOpened C nl ls .random raw t) (hd : raw.data = []) (hp : raw.pos = 0) (ops : List Op)
    (ss : List Text) (ht : texts ops = some ss) (hss : ss ≠ []) (b : Bytes) (hb : encoded C 0 (outgoing ls nl ss.flatten) = .ok b)
    (hrt : RoundTrips C (outgoing ls nl ss.flatten)) :
    ∃ r, (Txt.run guess t (ops ++ [.seek (.to (some (offset 0))), .read (some (-1))])).1 =
        (Txt.run guess t ops).1 ++ [.cookie (offset 0), .text r] ∧ (r = ss.flatten ↔ Lossless nl ss.flatten) := by
  have hen : ∃ e, C.encode C.encInit (outgoing ls nl ss.flatten) = .ok (b, e) := by
    unfold encoded at hb
    simp only [if_true] at hb
    cases hq : C.encode C.encInit (outgoing ls nl ss.flatten) with
    | error x => rw [hq] at hb; cases hb
    | ok q => rw [hq] at hb; cases hb; exact ⟨q.2, rfl⟩
  obtain ⟨e, hen⟩ := hen
  obtain ⟨d1, d2, hd1, _⟩ := hrt _ _ hen
  have hput : put raw.data raw.pos b = b := by rw [hd, hp]; simp [put_eq, writeAt]
  have hr : TextFrom C (incoming nl) (put raw.data raw.pos b) 0 (incoming nl (outgoing ls nl ss.flatten)) := by
    rw [hput]
    exact .inr ⟨.inl rfl, Nat.zero_le _, _, d1, hd1, rfl⟩
  refine ⟨_, C98_read_back hC hE hg h ops ss ht hss b (by rw [hp]; exact hb) 0 _ hr [-1], lossless_iff hl nl ss.flatten⟩

/-- C98: texts are written to an empty file, `tell` returns a position, more texts are written, and `seek` goes back to the position:
`read` returns what was written after `tell`, if the decoder need not have seen the start of the file. -/
theorem C98_tell_back (hC : LawfulCodec C) (hE : LawfulEncoder C) (hp : C.setstate ([], 0) = C.decInit) {guess : Nat × Nat → Nat → Nat}
    (hg : Moderate guess) {raw : Raw} {t : Txt C} (h : WriterOpened C nl ls .random raw t) (hd : raw.data = []) (h0 : raw.pos = 0)
    (ops ops' : List Op) (ss ss' : List Text) (ht : texts ops = some ss) (ht' : texts ops' = some ss') (hss : ss ≠ []) (hss' : ss' ≠ [])
    (b b' : Bytes) (hb : encoded C 0 (outgoing ls nl ss.flatten) = .ok b)
    (hb' : encoded C b.length (outgoing ls nl ss'.flatten) = .ok b') {d : C.Dec}
    (hrt : C.decode C.decInit b' true = .ok (outgoing ls nl ss'.flatten, d)) :
    ∃ p, (Txt.step guess (Txt.run guess t ops).2 .tell).1 = .cookie (offset p) ∧
      (Txt.run guess (Txt.run guess t (ops ++ .tell :: ops')).2 [.seek (.to (some (offset p))), .read (some (-1))]).1 =
        [.cookie (offset p), .text (incoming nl (outgoing ls nl ss'.flatten))] := by
  obtain ⟨Ok, L⟩ := laws hC nl
  obtain ⟨w, h1, h2⟩ := h.outlet.run hE guess (sinkCall_of_texts ht)
  obtain ⟨h3, h4⟩ := SinkConforms.texts hE (run_length guess t ops) h1 ht hss (b := b) (by
    change encoded C raw.pos _ = _
    rw [h0]; exact hb)
  obtain ⟨w1, ⟨h5, rfl⟩, h6⟩ := h2.step hE guess (op := .tell) trivial
  obtain ⟨w2, h7, h8⟩ := h6.run hE guess (sinkCall_of_texts ht')
  have hpos : w1.pos = b.length := by rw [h4]; change raw.pos + _ = _; rw [h0]; omega
  obtain ⟨h9, _⟩ := SinkConforms.texts hE (run_length guess _ ops') h7 ht' hss' (b := b') (by rw [hpos]; exact hb')
  have hdata : w2.data = b ++ b' := by
    rw [h9, h3, h4]
    change put (put raw.data raw.pos b) (raw.pos + b.length) b' = _
    rw [put_put, hd, h0]; simp [put_eq, writeAt]
  refine ⟨w1.pos, h5, ?_⟩
  have hrun : (Txt.run guess t (ops ++ .tell :: ops')).2 = (Txt.run guess (Txt.step guess (Txt.run guess t ops).2 .tell).2 ops').2 := by
    rw [run_append]; rfl
  rw [hrun]
  generalize (Txt.run guess (Txt.step guess (Txt.run guess t ops).2 .tell).2 ops').2 = u at h8
  have hmk : Marked nl Ok u (blank w2.data w2.log).data (blank w2.data w2.log).marks := ⟨nofun, nofun⟩
  obtain ⟨t', d', k1, k2, k3, _⟩ := arrives_to L (d := blank w2.data w2.log) ⟨_, h8.ready, rfl, rfl⟩ hmk w1.pos
  have hx := k2.reading (incoming nl (outgoing ls nl ss'.flatten)) (.inl (by
    change TextFrom C (incoming nl) w2.data w1.pos _
    refine .inr ⟨.inr hp, ?_, _, d, ?_, rfl⟩
    · rw [hpos, hdata, List.length_append]; omega
    · rw [hpos, hdata, List.drop_left]; exact hrt))
  have hst := (k3.reading _ hx).1
  have hstep : Txt.step guess u (.seek (.to (some (offset w1.pos)))) = (.cookie (offset w1.pos), t') := by
    simp only [Txt.step, h8.ready.seek, k1]
    rfl
  have hreads := reads_pieces L.text hg [-1] t' _ hst
  simp only [List.map_cons, List.map_nil] at hreads
  simp only [Txt.run, hstep] at hreads ⊢
  rw [hreads]
  rfl

/-! ## Examples and a refutation -/

-- reading and writing alternate, with short counts; 4 bytes of buffer
example : (Txt.run quotient (textWriter utf8 .auto .random 4 [65, 10, 66] 0 [.count 1, .count 2, .count 1]) [.read (some 1),
    .seek .toEnd, .write [300, 10], .seek (.to (some (offset 0))), .readline (-1), .readline (-1), .read none,
    .seek (.to (some (offset 0))), .write [67], .seek .here, .read (some 2)]).1 =
    [.text [65], .cookie (offset 3), .num 2, .cookie (offset 0), .text [65, 10], .text [66, 300, 10], .text [],
      .cookie (offset 0), .num 1, .cookie (offset 1), .text [10, 66]] := by decide +kernel

-- the hypotheses of the theorems for it
example : WriterOpened utf8 .auto [13, 10] .random (rawOf [65, 10, 66] [.count 1, .count 2, .count 1])
    (textWriter utf8 .auto .random 4 [65, 10, 66] 0 [.count 1, .count 2, .count 1]) :=
  textWriter_opened utf8 .auto (by simp) 4 (by omega) [65, 10, 66] 0 [.count 1, .count 2, .count 1] (by
    intro a ha
    rcases List.mem_cons.1 ha with rfl | ha
    · exact ⟨_, rfl, by omega⟩
    rcases List.mem_cons.1 ha with rfl | ha
    · exact ⟨_, rfl, by omega⟩
    rcases List.mem_cons.1 ha with rfl | ha
    · exact ⟨_, rfl, by omega⟩
    cases ha)

-- a text with a newline and a character of two bytes, written in two pieces and read again
example : texts [.write [300], .flush, .write [10, 66]] = some [[300], [10, 66]] ∧
    encoded utf8 0 (outgoing [10] .auto [300, 10, 66]) = .ok [0xC4, 0xAC, 10, 66] ∧
    utf8.setstate ([], 0) = utf8.decInit ∧ latin1.setstate ([], 0) = latin1.decInit := ⟨rfl, rfl, rfl, rfl⟩

/-- Going back to a position that `tell` returned between two writes, one reads what was written there after it. -/
def ReadsBack (C : Codec) : Prop := ∀ (raw : Raw) (t : Txt C) (guess : Nat × Nat → Nat → Nat), Moderate guess →
  WriterOpened C .lf [10] .random raw t → raw.data = [] → raw.pos = 0 → ∀ (s s' : Text) (c : Cookie),
    (Txt.step guess (Txt.run guess t [.write s]).2 .tell).1 = .cookie c →
    ((Txt.run guess t [.write s, .tell, .write s', .seek (.to (some c)), .read none]).1).getLast? = some (.text s')

/-- C98 is false for encodings with a byte order mark: the decoder is a new one, which wants to see the mark. -/
theorem C98_refuted : ¬ ReadsBack utf16 := by
  intro h
  have hw : WriterOpened utf16 .lf [10] .random (rawOf [] []) (Txt.create .lf false [10] ⟨.random, 4, rawOf [] [], [], 0, []⟩).2 :=
    ⟨⟨4, _, false, ⟨rfl, rfl, rfl, rfl⟩, rfl⟩, by simp, by nofun⟩
  have := h _ _ quotient quotient_moderate hw rfl rfl [65] [66] (offset 4) (by decide +kernel)
  revert this
  decide +kernel

end Verif.Props
