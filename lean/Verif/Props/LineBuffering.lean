import Verif.Lemmas.Utilities
import Verif.Props.Settled
import Verif.Props.TextWriting

/-!
# C74: line buffering
-/

set_option autoImplicit false

namespace Verif.Props

open Verif Verif.Spec Verif.Txt

variable {C : Codec}

/-- The text ends a line: it contains a line feed, or a carriage return once the newlines are translated. -/
def EndsLine (t : Txt C) (s : Text) : Prop := 10 ∈ s ∨ 13 ∈ t.newlines s

theorem usable_step {b : Buf} (h : Usable b) (o : StreamOp) : Usable (b.step o).2 := by
  have hf := Fixed.steps.bStep b o
  have hk := after1_kept b (.op o)
  exact ⟨hf.closed.trans h.opened, hf.platform.trans h.unix, fun hne => hf.writable.trans (h.writable fun e => hne (hk.kind.trans e)),
    fun hr => (hk.still (hk.kind.symm.trans hr)).2.trans (h.reader (hk.kind.symm.trans hr))⟩

/-- C74: whatever the system answers, when `write()` of a text that ends a line returns on a line-buffered stream, no byte is
pending: those of the text, and those written before, are in the file. -/
theorem C74_line (t t' : Txt C) (s : Text) (n : Nat) (h : Usable t.buf) (hl : t.lineBuffering = true) (hs : EndsLine t s)
    (hw : Txt.write s t = (.ok n, t')) :
    t'.buf.writeBuf = [] ∧ ∃ d enc m b, C.encode (t.encoder.getD C.encInit) (t.newlines s) = .ok (d, enc) ∧
      Buf.write d t.buf = (.ok m, b) ∧ t'.buf.raw.data = pendingData b := by
  unfold Txt.write at hw
  obtain ⟨_, t0, h0, hw⟩ := bind_inv hw
  have : t0 = t := by
    unfold Txt.checkClosed Txt.onBuf at h0
    rw [Buf.checkClosed_ok h.opened] at h0
    cases h0
    rfl
  subst this
  obtain ⟨d, t1, h1, hw⟩ := bind_inv hw
  obtain ⟨enc, he, rfl⟩ : ∃ enc, C.encode (t0.encoder.getD C.encInit) (t0.newlines s) = .ok (d, enc) ∧
      t1 = { t0 with encoder := some enc } := by
    unfold Txt.encode at h1
    generalize hq : C.encode (t0.encoder.getD C.encInit) (t0.newlines s) = q at h1
    cases q with
    | error e => cases h1
    | ok x => obtain ⟨d', enc⟩ := x; cases h1; exact ⟨enc, rfl, rfl⟩
  obtain ⟨m, t2, h2, hw⟩ := bind_inv hw
  obtain ⟨b2, hwb, rfl⟩ : ∃ b2, Buf.write d t0.buf = (.ok m, b2) ∧ t2 = { t0 with encoder := some enc, buf := b2 } := by
    unfold Txt.onBuf at h2
    dsimp only at h2
    generalize hq : Buf.write d t0.buf = q at h2
    obtain ⟨r, b2⟩ := q
    cases h2
    exact ⟨b2, rfl, rfl⟩
  have hu2 : Usable b2 := by
    have := usable_step h (.write d)
    dsimp only [Buf.step] at this
    rw [hwb] at this
    exact this
  obtain ⟨_, t3, h3, hw⟩ := bind_inv hw
  obtain ⟨_, t4, h4, hw⟩ := bind_inv hw
  obtain ⟨_, t5, h5, hw⟩ := bind_inv hw
  have hb : t'.buf = t3.buf := by
    cases hw
    cases h5
    cases h4
    change (if t3.snapshot.isSome = true then _ else t3).buf = t3.buf
    split <;> rfl
  rcases when_ok h3 with ⟨_, _, h3⟩ | ⟨hc, _⟩
  · obtain ⟨b3, hf, rfl⟩ := txt_flush_inv h3
    obtain ⟨hd3, he3, _, _⟩ := flush_done hu2 hf
    rw [hb]
    exact ⟨he3, d, enc, m, b2, he, hwb, hd3⟩
  · exfalso
    rcases hs with hs | hs <;> simp [hl, hs] at hc

theorem outlet_lines (hC : LawfulEncoder C) {nl : Newline} {ls : Text} {k : BufKind} {t : Txt C} {f0 : Spec.Sink}
    (h : Outlet C nl ls k t f0) (hl : t.lineBuffering = true) (guess : Nat × Nat → Nat → Nat) (ops : List Op)
    (hops : ∀ op ∈ ops, SinkCall k op) (s : Text) (hs : EndsLine (Txt.run guess t ops).2 s) (n : Nat) (t' : Txt C)
    (hw : Txt.write s (Txt.run guess t ops).2 = (.ok n, t')) :
    ∃ f, SinkConforms C (outgoing ls nl) k f0
        ((ops ++ [Op.write s]).zip (Txt.run guess t (ops ++ [Op.write s])).1) f ∧ t'.buf.raw.data = f.data := by
  have hfin : ∀ (ops : List Op) (t : Txt C), (Txt.run guess t (ops ++ [.write s])).2 =
      (Txt.step guess (Txt.run guess t ops).2 (.write s)).2 := by
    intro ops
    induction ops with
    | nil => intro t; rfl
    | cons o ops ih => intro t; exact ih _
  obtain ⟨_, _, h2⟩ := h.run hC guess hops
  have hclose : .close ∉ ops := fun hm => hops _ hm
  obtain ⟨f, g1, g2⟩ := h.run hC guess (ops := ops ++ [.write s]) (by
    intro op hm
    rcases List.mem_append.1 hm with hm | hm
    · exact hops op hm
    · rw [List.mem_singleton.1 hm]; trivial)
  have hu : Usable (Txt.run guess t ops).2.buf :=
    ⟨h2.buf.live.opened, h2.buf.live.unix, h2.buf.live.writable, fun e => absurd (h2.kind.symm.trans e) h.notReader⟩
  have hlb : (Txt.run guess t ops).2.lineBuffering = true := by
    have := (BufSteps.tRun (C := C) (Q := fun _ _ => True)
      ⟨⟨⟨fun _ => trivial, fun _ _ => trivial⟩, fun _ => trivial, fun _ => trivial, fun _ _ => trivial, fun _ _ => trivial,
        fun _ => trivial, fun _ _ => trivial, fun _ => trivial, fun _ => trivial⟩, fun _ _ => trivial, fun _ _ _ _ => trivial,
        fun _ _ => trivial, fun _ => trivial⟩ guess (ops := ops) (fun _ _ _ => trivial) (fun _ _ => trivial) t).lineBuffering
    exact this.trans hl
  have hd := C74_line _ _ s n hu hlb hs hw
  have ht' : (Txt.run guess t (ops ++ [.write s])).2 = t' := by
    rw [hfin]
    change (Txt.Out.of Txt.Out.num (Txt.write s (Txt.run guess t ops).2)).2 = t'
    rw [hw]; rfl
  rw [ht'] at g2
  exact ⟨f, g1, g2.buf.data' hd.1⟩

/-- C74 over histories, on a file that does not fail: when `write()` of a text that ends a line returns, the file has the bytes
of all the text written so far, stored as C71 says, without any `flush()`. -/
theorem C74_history (hC : LawfulEncoder C) {nl : Newline} {ls : Text} {k : BufKind} {raw : Raw} {t : Txt C}
    (h : WriterOpened C nl ls k raw t) (hl : t.lineBuffering = true) (guess : Nat × Nat → Nat → Nat) (ops : List Op)
    (hops : ∀ op ∈ ops, SinkCall k op) (s : Text) (hs : EndsLine (Txt.run guess t ops).2 s) (n : Nat) (t' : Txt C)
    (hw : Txt.write s (Txt.run guess t ops).2 = (.ok n, t')) :
    ∃ f, SinkConforms C (outgoing ls nl) k ⟨raw.data, raw.pos, raw.events⟩
        ((ops ++ [Op.write s]).zip (Txt.run guess t (ops ++ [Op.write s])).1) f ∧ t'.buf.raw.data = f.data :=
  outlet_lines hC h.outlet hl guess ops hops s hs n t' hw

/-- A line-buffered stream on an empty file. -/
def lineStream (nl : Newline) (sched : List OsAns) : Txt latin1 := (Txt.create nl true [13, 10] (opened .writer 8 [] sched)).2

theorem lineStream_opened (nl : Newline) (sched : List OsAns) (hb : Blocking sched) :
    WriterOpened latin1 nl [13, 10] .writer (rawOf [] sched) (lineStream nl sched) ∧ (lineStream nl sched).lineBuffering = true := by
  refine ⟨⟨⟨8, opened .writer 8 [] sched, true, opened_ok .writer 8 (by decide) [] sched, ?_⟩, by nofun, hb⟩, ?_⟩ <;> rfl

-- a text without the end of a line stays in the buffer; the line is handed over as a whole, in short writes
example : let t := lineStream .auto [.count 1, .count 2]
    (Txt.run (fun _ _ => 0) t [.write [65]]).2.buf.raw.data = [] ∧
      EndsLine (Txt.run (fun _ _ => 0) t [.write [65]]).2 [66, 10, 67] ∧
      (Txt.run (fun _ _ => 0) t [.write [65], .write [66, 10, 67]]).1 = [.num 1, .num 3] ∧
      (Txt.run (fun _ _ => 0) t [.write [65], .write [66, 10, 67]]).2.buf.raw.data = [65, 66, 13, 10, 67] :=
  ⟨by decide +kernel, Or.inl (by decide), by decide +kernel, by decide +kernel⟩

-- a carriage return
example : EndsLine (lineStream .raw []) [65, 13] ∧
    (Txt.run (fun _ _ => 0) (lineStream .raw []) [.write [65, 13]]).2.buf.raw.data = [65, 13] :=
  ⟨Or.inr (by decide), by decide +kernel⟩

end Verif.Props
