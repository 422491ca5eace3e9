import Verif.Spec.TextDoc
import Verif.Props.TextWriting

/-!
# Text streams that are read and written
-/

set_option autoImplicit false

namespace Verif.Txt

open Verif.Spec Verif.Props

variable {C : Codec} {nl : Newline} {ls : Text} {Ok : C.Dec × Bool → Prop}

theorem Denotes.unique {data : Bytes} {c : Cookie} {r r' : Text} (h : Denotes nl Ok data c r) (h' : Denotes nl Ok data c r') : r = r' := by
  by_cases hs : c.skip = 0
  · obtain ⟨_, _, d, h1⟩ := h.plain hs
    obtain ⟨_, _, d', h2⟩ := h'.plain hs
    rw [h1] at h2
    exact (Prod.mk.inj (Except.ok.inj h2)).1
  · obtain ⟨s, d1, s', d', h1, _, _, h2, rfl, _⟩ := h.skipping hs
    obtain ⟨s0, d0, s0', d0', g1, _, _, g2, rfl, _⟩ := h'.skipping hs
    rw [h1] at g1
    obtain ⟨rfl, rfl⟩ := Prod.mk.inj (Except.ok.inj g1)
    rw [h2] at g2
    rw [(Prod.mk.inj (Except.ok.inj g2)).1]

/-- The laws, with what is needed to decode the rest of a file. -/
structure Laws (C : Codec) (nl : Newline) (Ok : C.Dec × Bool → Prop) : Prop where
  text : LawfulText C nl Ok
  whole : ∀ {data : Bytes} {text : Text} {d : C.Dec}, C.decode C.decInit data true = .ok (text, d) →
    ∃ d', decodeWith C nl (C.decInit, false) data true = .ok (incoming nl text, d')

theorem laws (hC : LawfulCodec C) (nl : Newline) : ∃ Ok, Laws C nl Ok := by
  obtain ⟨Ok, L⟩ := hC
  exact ⟨_, L.text nl, fun h => ⟨_, (decodeWith_whole h (L.again L.first h)).1⟩⟩

theorem plain_of {C : Codec} {nl : Newline} (h : C.setstate ([], 0) = C.decInit) : Plain C nl := by
  unfold Plain setstateWith
  split
  · simp [h]
  · rw [h]

theorem TextFrom.denotes (L : Laws C nl Ok) {data : Bytes} {p : Nat} {r : Text} (h : TextFrom C (incoming nl) data p r) :
    Denotes nl Ok data (offset p) r ∧ Early C nl data (offset p) := by
  rcases h with ⟨rfl, rfl⟩ | ⟨hp, hi, text, d, hd, rfl⟩
  · exact ⟨Denotes.atEnd L.text data, .inr (.inr (.inr (.inl (List.drop_of_length_le (Nat.le_refl _)))))⟩
  · obtain ⟨d', hw⟩ := L.whole hd
    have hb : base C nl (offset p) = (C.decInit, false) := by
      unfold base
      split
      · rfl
      · rename_i hz
        rcases hp with hp | hp
        · exact absurd (by simp [Cookie.isZero, offset, hp]) hz
        · exact plain_of hp
    refine ⟨⟨hi, by rw [hb]; exact L.text.first, by rw [hb]; exact L.text.firstFresh, fun _ => hb,
      fun _ => ⟨rfl, rfl, d', by rw [hb]; exact hw⟩, fun h => absurd rfl h⟩, ?_⟩
    rcases hp with hp | hp
    · exact .inl (by simp [Cookie.isZero, offset, hp])
    · exact .inr (.inr (.inr (.inr (plain_of hp))))

/-- Marks that can be used. -/
structure Marked (nl : Newline) (Ok : C.Dec × Bool → Prop) (t : Txt C) (data : Bytes) (marks : List (Cookie × Text)) : Prop where
  all : ∀ m ∈ marks, Denotes nl Ok data m.1 m.2
  early : t.decoder = none → ∀ m ∈ marks, Early C nl data m.1

theorem Marked.cons {t t' : Txt C} {data : Bytes} {marks : List (Cookie × Text)} (h : Marked nl Ok t data marks) {c : Cookie} {r : Text}
    (hc : Denotes nl Ok data c r) (he : t.decoder = none → Early C nl data c) (ht : t'.decoder = none → t.decoder = none) :
    Marked nl Ok t' data ((c, r) :: marks) := by
  refine ⟨fun m hm => ?_, fun hn m hm => ?_⟩
  · rcases List.mem_cons.1 hm with rfl | hm
    · exact hc
    · exact h.all m hm
  · rcases List.mem_cons.1 hm with rfl | hm
    · exact he (ht hn)
    · exact h.early (ht hn) m hm

/-- The stream is where the reference says. -/
structure Keeps (nl : Newline) (ls : Text) (Ok : C.Dec × Bool → Prop) (t : Txt C) (d : Doc) : Prop where
  ready : ∃ f, Ready nl ls .random t f ∧ f.data = d.data ∧ f.log = d.log
  reading : ∀ x, d.reading = some x → Stands nl Ok t x ∧ x.data = d.data ∧ x.log = d.log
  writing : ∀ w, d.writing = some w → Outlet C nl ls .random t w ∧ w.data = d.data ∧ w.log = d.log

theorem Keeps.marked {t : Txt C} {d : Doc} (h : Keeps nl ls Ok t d) : Marked nl Ok t d.data d.marks := by
  unfold Doc.marks
  cases hx : d.reading with
  | none => exact ⟨nofun, nofun⟩
  | some x =>
    obtain ⟨h1, h2, _⟩ := h.reading x hx
    rw [← h2]
    exact ⟨h1.marks, h1.early⟩

theorem Ready.flushes {t : Txt C} {f : File} (h : Ready nl ls .random t f) :
    ∃ buf, Buf.flush t.buf = (.ok (), buf) ∧ Buf.Reads buf f := by
  obtain ⟨b', h1, h2, h3, h4, _⟩ := Buf.flush_R h.buf
  exact ⟨b', h1, h2, h3, by rw [h4, h.kind]; simp⟩

/-- The places that the stream can be moved to. -/
theorem Doc.Finds.denotes (L : Laws C nl Ok) {t : Txt C} {d : Doc} {p : Nat} {r : Text} (hm : Marked nl Ok t d.data d.marks)
    (h : d.Finds C (incoming nl) p r) : Denotes nl Ok d.data (offset p) r ∧ (t.decoder = none → Early C nl d.data (offset p)) := by
  rcases h with h | h
  · exact ⟨(TextFrom.denotes L h).1, fun _ => (TextFrom.denotes L h).2⟩
  · exact ⟨hm.all _ h, fun hn => hm.early hn _ h⟩

/-- The reference state after a movement. -/
theorem arrives (L : Laws C nl Ok) {t t' : Txt C} {d : Doc} {p : Nat} (hm : Marked nl Ok t d.data d.marks)
    (ho : Outlet C nl ls .random t' ⟨d.data, p, d.log⟩)
    (hs : ∀ r, Denotes nl Ok d.data (offset p) r → (t.decoder = none → Early C nl d.data (offset p)) →
      (∃ f, Reading nl Ok t' f r false ∧ f.data = d.data ∧ f.log = d.log) ∧ t'.telling = true ∧ (t'.decoder = none → t.decoder = none)) :
    ∃ d', d.Arrives C (incoming nl) p d' ∧ Keeps nl ls Ok t' d' := by
  have hready : ∃ f, Ready nl ls .random t' f ∧ f.data = d.data ∧ f.log = d.log := ⟨_, ho.ready, rfl, rfl⟩
  by_cases hr : ∃ r, d.Finds C (incoming nl) p r
  · obtain ⟨r, hr⟩ := hr
    obtain ⟨h1, h2⟩ := Doc.Finds.denotes L hm hr
    obtain ⟨h3, h4, h5⟩ := hs r h1 h2
    have hm' := hm.cons h1 h2 h5
    refine ⟨⟨d.data, d.log, some ⟨d.data, r, (offset p, r) :: d.marks, false, false, d.log⟩, some ⟨d.data, p, d.log⟩⟩,
      ⟨rfl, rfl, rfl, fun r' hr' => ?_, fun h => absurd hr (h r)⟩, hready, fun x hx => ?_, fun w hw => ?_⟩
    · rw [h1.unique (Doc.Finds.denotes L hm hr').1]
    · cases hx
      exact ⟨⟨h3, h4, hm'.all, hm'.early⟩, rfl, rfl⟩
    · cases hw
      exact ⟨ho, rfl, rfl⟩
  · have hr := not_exists.1 hr
    refine ⟨⟨d.data, d.log, none, some ⟨d.data, p, d.log⟩⟩,
      ⟨rfl, rfl, rfl, fun r h => absurd h (hr r), fun _ => rfl⟩, hready, nofun, fun w hw => ?_⟩
    cases hw
    exact ⟨ho, rfl, rfl⟩

/-- `seek(p)`. -/
theorem arrives_to (L : Laws C nl Ok) {t : Txt C} {d : Doc} (hf : ∃ f, Ready nl ls .random t f ∧ f.data = d.data ∧ f.log = d.log)
    (hm : Marked nl Ok t d.data d.marks) (p : Nat) :
    ∃ t' d', seekTo (offset p) t = (.ok (offset p), t') ∧ d.Arrives C (incoming nl) p d' ∧ Keeps nl ls Ok t' d' ∧ t'.buf.writeBuf = [] := by
  obtain ⟨f, hf, hd, hl⟩ := hf
  obtain ⟨t', h1, h2, h3⟩ := Outlet.seekTo' hf p
  rw [hd, hl] at h2
  obtain ⟨buf, g1, g2⟩ := hf.flushes
  obtain ⟨d', k1, k2⟩ := arrives L hm h2 (fun r hr he => by
    obtain ⟨t1, f1, q1, q2, q3, q4, q5, q6, _⟩ := seekTo_clean L.text g1 g2 hf.newline hf.seekable (c := offset p) (r := r)
      (by rw [hd]; exact hr) (by rw [hd]; exact he)
    have : t1 = t' := by rw [h1] at q1; exact ((Prod.mk.inj q1).2).symm
    subst this
    exact ⟨⟨f1, q2, q3.trans hd, q4.trans hl⟩, q5, q6⟩)
  exact ⟨t', d', h1, k1, k2, h3⟩

/-- `seek(0, SEEK_END)`. -/
theorem arrives_end (L : Laws C nl Ok) (guess : Nat × Nat → Nat → Nat) {t : Txt C} {d : Doc}
    (hf : ∃ f, Ready nl ls .random t f ∧ f.data = d.data ∧ f.log = d.log) (hm : Marked nl Ok t d.data d.marks) :
    ∃ t' d', seek guess .toEnd t = (.ok (offset d.data.length), t') ∧ d.Arrives C (incoming nl) d.data.length d' ∧ Keeps nl ls Ok t' d' ∧
      t'.buf.writeBuf = [] := by
  obtain ⟨f, hf, hd, hl⟩ := hf
  obtain ⟨t', h1, h2, h3⟩ := Outlet.seekEnd' hf guess
  obtain ⟨buf, g1, g2⟩ := hf.flushes
  obtain ⟨buf', k1, k2⟩ := g2.seekEnd
  have hse := hf.seekable
  have hsk : seek guess .toEnd t = (.ok (offset f.data.length), { t with
      buf := buf', telling := t.seekable, chars := [], used := 0, snapshot := none
      decoder := t.decoder.map fun _ => (C.decInit, false)
      encoder := some (if !decide (f.data.length = 0) then C.encMid else C.encInit) }) := by
    have hfl : flush t = (.ok (), { t with buf := buf, telling := t.seekable }) := by
      unfold flush; rw [PyM.bind_ok (onBuf_eq g1)]; rfl
    have hse' : onBuf (Buf.seek 0 .fin) { t with buf := buf, telling := t.seekable } =
        (.ok f.data.length, { t with buf := buf', telling := t.seekable }) :=
      onBuf_eq (t := { t with buf := buf, telling := t.seekable }) k1
    unfold seek
    rw [PyM.bind_ok hf.checkClosed, hse]
    simp only [Bool.not_true, Bool.false_eq_true, if_false]
    rw [PyM.bind_ok hfl, PyM.bind_ok hse', hse]
    rfl
  rw [h1] at hsk
  have ht' := (Prod.mk.inj hsk).2
  rw [hd] at h1
  rw [hd, hl] at h2
  have hdec : t'.dec = (C.decInit, false) := by
    rw [ht']
    unfold dec
    cases t.decoder <;> rfl
  have hrest : ({ f with pos := f.data.length, ahead := false } : File).rest = [] := List.drop_of_length_le (Nat.le_refl _)
  obtain ⟨d', m1, m2⟩ := arrives L hm h2 (fun r hr he => by
    have hr0 : r = [] := hr.unique (Denotes.atEnd L.text d.data)
    subst hr0
    refine ⟨⟨{ f with pos := f.data.length, ahead := false }, ⟨⟨?_, h2.newline, h2.seekable, Nat.le_refl _, ?_, ?_, ?_, ?_, ?_⟩,
      fun _ => .none ?_ h2.chars (.inl ⟨hrest, ?_⟩)⟩, hd, hl⟩, h2.telling, ?_⟩
    · rw [ht']; exact k2
    · rw [hdec]; exact L.text.first
    · rw [ht']; exact Nat.le_refl _
    · rw [hdec, L.text.firstFresh]; exact List.nil_suffix
    · rw [hdec]; exact fun _ => resume_fresh L.text L.text.first L.text.firstFresh
    · refine ⟨[], (C.decInit, false), ?_, by rw [h2.chars]; simp, by simp⟩
      rw [hdec, hrest]; exact L.text.firstEnd
    · rw [ht']
    · rw [hdec]; exact L.text.firstEnd
    · rw [ht']
      intro hn
      cases hc : t.decoder with
      | none => rfl
      | some d => dsimp only at hn; rw [hc] at hn; cases hn)
  exact ⟨t', d', h1, m1, m2, h3⟩

/-- A call that one of the references describes. -/
theorem follows (L : Laws C nl Ok) (hE : LawfulEncoder C) {guess : Nat × Nat → Nat → Nat} (hg : Moderate guess) {t : Txt C} {d : Doc}
    (h : Keeps nl ls Ok t d) {op : Op} (hop : d.Followed op) :
    ∃ d', d.Follows C nl (outgoing ls nl) op (step guess t op).1 d' ∧ Keeps nl ls Ok (step guess t op).2 d' := by
  have hX : ∀ x, d.reading = some x → TextCall x op → ∃ x' f', TextAllowed nl x op (step guess t op).1 x' ∧
      Stands nl Ok (step guess t op).2 x' ∧ Ready nl ls .random (step guess t op).2 f' ∧ f'.data = x'.data ∧ f'.log = x'.log ∧
      (step guess t op).2.buf.writeBuf = [] := by
    intro x hx hc
    obtain ⟨x', h1, h2⟩ := step_spec L.text hg (h.reading x hx).1 op hc
    obtain ⟨f, hf, _⟩ := h.ready
    have hon := (represents_steps .random).tStep guess (op := op) (by rintro ⟨a, rfl⟩; exact hc.elim) (by rintro rfl; exact hc.elim) t
    obtain ⟨f', hr, e1, e2⟩ := h2.reading
    exact ⟨x', f', h1, h2, ⟨hr.holds.buf.rep, (hon.buf ⟨hf.kind, f, hf.buf⟩).1, by simp, hon.newline.trans hf.newline,
      hon.linesep.trans hf.linesep, hon.seekable.trans hf.seekable⟩, e1, e2, hr.holds.buf.clean⟩
  have hW : ∀ w, d.writing = some w → SinkCall .random op → ∃ w', SinkAllowed C (outgoing ls nl) .random w op (step guess t op).1 w' ∧
      Outlet C nl ls .random (step guess t op).2 w' := fun w hw hc => (h.writing w hw).1.step hE guess hc
  generalize step guess t op = q at hX hW
  by_cases hx : ∃ x, d.reading = some x ∧ TextCall x op
  · obtain ⟨x, hx, hxc⟩ := hx
    obtain ⟨x', f', a1, a2, a3, a4, a5, a6⟩ := hX x hx hxc
    by_cases hw : ∃ w, d.writing = some w ∧ SinkCall .random op
    · obtain ⟨w, hw, hwc⟩ := hw
      obtain ⟨w', b1, b2⟩ := hW w hw hwc
      have e1 : w'.data = x'.data := by rw [← a4, ← a3.buf.data' a6]; exact (b2.buf.data' a6).symm
      have e2 : w'.log = x'.log := by rw [← a5, a3.buf.log]; exact b2.buf.log
      refine ⟨⟨x'.data, x'.log, some x', some w'⟩, ⟨?_, ?_, ?_, ?_⟩, ⟨f', a3, a4, a5⟩, ?_, ?_⟩
      · intro y hy _
        rw [hx] at hy; cases hy
        exact ⟨x', a1, rfl, rfl, rfl⟩
      · exact fun hn => absurd hxc (hn x hx)
      · intro v hv _
        rw [hw] at hv; cases hv
        exact ⟨w', b1, rfl, e1, e2⟩
      · exact fun hn => absurd hwc (hn w hw)
      · intro y hy; cases hy; exact ⟨a2, rfl, rfl⟩
      · intro v hv; cases hv; exact ⟨b2, e1, e2⟩
    · refine ⟨⟨x'.data, x'.log, some x', none⟩, ⟨?_, ?_, ?_, fun _ => rfl⟩, ⟨f', a3, a4, a5⟩, ?_, nofun⟩
      · intro y hy _
        rw [hx] at hy; cases hy
        exact ⟨x', a1, rfl, rfl, rfl⟩
      · exact fun hn => absurd hxc (hn x hx)
      · exact fun v hv hc => absurd ⟨v, hv, hc⟩ hw
      · intro y hy; cases hy; exact ⟨a2, rfl, rfl⟩
  · obtain ⟨w, hw, hwc⟩ := hop.resolve_left hx
    obtain ⟨w', b1, b2⟩ := hW w hw hwc
    refine ⟨⟨w'.data, w'.log, none, some w'⟩, ⟨?_, fun _ => rfl, ?_, ?_⟩, ⟨_, b2.ready, rfl, rfl⟩, nofun, ?_⟩
    · exact fun v hv hc => absurd ⟨v, hv, hc⟩ hx
    · intro v hv _
      rw [hw] at hv; cases hv
      exact ⟨w', b1, rfl, rfl, rfl⟩
    · exact fun hn => absurd hwc (hn w hw)
    · intro v hv; cases hv; exact ⟨b2, rfl, rfl⟩

theorem Ready.seek {t : Txt C} {f : File} (h : Ready nl ls .random t f) (guess : Nat × Nat → Nat → Nat) (c : Cookie) :
    seek guess (.to (some c)) t = seekTo c t := by
  unfold Txt.seek
  rw [PyM.bind_ok h.checkClosed]
  simp only [h.seekable, Bool.not_true, Bool.false_eq_true, if_false]

/-- One call. -/
theorem doc_step (L : Laws C nl Ok) (hE : LawfulEncoder C) {guess : Nat × Nat → Nat → Nat} (hg : Moderate guess) {t : Txt C} {d : Doc}
    (h : Keeps nl ls Ok t d) {op : Op} (hop : DocCall d op) :
    ∃ d', DocAllowed C nl (incoming nl) (outgoing ls nl) d op (step guess t op).1 d' ∧ Keeps nl ls Ok (step guess t op).2 d' := by
  cases op with
  | seek m =>
    cases m with
    | to c =>
      cases c with
      | none => exact follows L hE hg h hop
      | some c =>
        simp only [DocAllowed]
        by_cases hc : c = offset c.position
        · obtain ⟨t', d', h1, h2, h3, _⟩ := arrives_to L h.ready h.marked c.position
          rw [← hc] at h1
          obtain ⟨f, hf, _⟩ := h.ready
          have : step guess t (.seek (.to (some c))) = (.cookie c, t') := by
            simp only [step, hf.seek, h1, Out.of]
          rw [this]
          exact ⟨d', by rw [if_pos hc]; exact ⟨rfl, h2⟩, h3⟩
        · obtain ⟨d', h1, h2⟩ := follows L hE hg h (hop.resolve_left hc)
          exact ⟨d', by rw [if_neg hc]; exact h1, h2⟩
    | toEnd =>
      obtain ⟨t', d', h1, h2, h3, _⟩ := arrives_end L guess h.ready h.marked
      have : step guess t (.seek .toEnd) = (.cookie (offset d.data.length), t') := by simp only [step, h1, Out.of]
      rw [this]
      exact ⟨d', ⟨rfl, h2⟩, h3⟩
    | here =>
      simp only [DocAllowed]
      cases hr : d.reading with
      | some x =>
        obtain ⟨d', h1, h2⟩ := follows L hE hg h hop
        exact ⟨d', by cases d.writing <;> exact h1, h2⟩
      | none =>
        cases hw : d.writing with
        | none =>
          obtain ⟨d', h1, h2⟩ := follows L hE hg h hop
          exact ⟨d', h1, h2⟩
        | some w =>
          dsimp only
          obtain ⟨ho, hd, hl⟩ := h.writing w hw
          obtain ⟨t1, g1, g2⟩ := ho.tell guess
          have hm : Marked nl Ok t1 d.data d.marks := by
            unfold Doc.marks
            rw [hr]
            exact ⟨nofun, nofun⟩
          obtain ⟨t', d', h1, h2, h3, _⟩ := arrives_to L ⟨_, g2.ready, hd, hl⟩ hm w.pos
          have : step guess t (.seek .here) = (.cookie (offset w.pos), t') := by
            have : seek guess .here t = (.ok (offset w.pos), t') := by
              unfold seek
              rw [PyM.bind_ok ho.ready.checkClosed]
              simp only [ho.seekable, Bool.not_true, Bool.false_eq_true, if_false]
              rw [PyM.bind_ok g1]
              exact h1
            simp only [step, this, Out.of]
          rw [this]
          exact ⟨d', ⟨rfl, h2⟩, h3⟩
    | relative => exact follows L hE hg h hop
    | badWhence => exact follows L hE hg h hop
  | read n => exact follows L hE hg h hop
  | readline n => exact follows L hE hg h hop
  | next => exact follows L hE hg h hop
  | write s => exact follows L hE hg h hop
  | flush => exact follows L hE hg h hop
  | tell => exact follows L hE hg h hop
  | truncate a => exact follows L hE hg h hop
  | size => exact follows L hE hg h hop
  | sync a m f => exact follows L hE hg h hop
  | lock o => exact follows L hE hg h hop
  | unlock => exact follows L hE hg h hop
  | readinto => exact follows L hE hg h hop
  | close => exact follows L hE hg h hop

/-- Histories. -/
theorem doc_run (L : Laws C nl Ok) (hE : LawfulEncoder C) {guess : Nat × Nat → Nat → Nat} (hg : Moderate guess) (ops : List Op) :
    ∀ (t : Txt C) (d : Doc), Keeps nl ls Ok t d →
    ∃ pre post d', ops = pre ++ post ∧ DocConforms C nl (incoming nl) (outgoing ls nl) d (pre.zip (run guess t pre).1) d' ∧
      Keeps nl ls Ok (run guess t pre).2 d' ∧ (post = [] ∨ ∃ op rest, post = op :: rest ∧ ¬ DocCall d' op) := by
  induction ops with
  | nil => intro t d h; exact ⟨[], [], d, rfl, .nil d, h, .inl rfl⟩
  | cons op ops ih =>
    intro t d h
    by_cases hop : DocCall d op
    · obtain ⟨d1, h1, h2⟩ := doc_step L hE hg h hop
      obtain ⟨pre, post, d', e1, e2, e3, e4⟩ := ih _ _ h2
      exact ⟨op :: pre, post, d', by rw [e1]; rfl, .cons h1 e2, e3, e4⟩
    · exact ⟨[], op :: ops, d, rfl, .nil d, h, .inr ⟨op, ops, rfl, hop⟩⟩

end Verif.Txt
