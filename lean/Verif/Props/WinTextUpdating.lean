import Verif.Spec.WinTextUpdating
import Verif.Lemmas.PortedRuns
import Verif.Props.WinTextTogether
import Verif.Props.TextUpdating

/-!
# C127 for text streams on windows
-/

set_option autoImplicit false

namespace Verif

open Verif.Spec
open Verif.Txt (Op Out)

variable {C : Codec} {nl : Newline} {ls : Text} {k : BufKind}

namespace Txt

/-- A file is cut at the position, which is not behind its end. -/
theorem cut_ports (guess : Nat × Nat → Nat → Nat) {t : Txt C} {f : Sink} (h : t.Portable) (ho : Outlet C nl ls k t.ported f)
    (hz : f.pos ≤ f.data.length) :
    truncate guess none t.ported = ((truncate guess none t).1, (truncate guess none t).2.ported) ∧
      (truncate guess none t).2.Portable := by
  obtain ⟨t', g1, g3⟩ := ho.flush
  obtain ⟨h1, h2⟩ := flush_ports t h
  rw [g1] at h1
  generalize hq : Txt.flush t = q at h1 h2
  obtain ⟨r, t1⟩ := q
  dsimp only at h1 h2
  cases h1
  unfold truncate
  rw [PyM.bind_ok g1, PyM.bind_ok hq]
  obtain ⟨t2, e1, e2⟩ := g3.tell guess
  obtain ⟨p1, p2⟩ := tell_ports guess t1 h2
  generalize hs : Txt.tell guess t1 = q at p1 p2
  obtain ⟨r, t3⟩ := q
  dsimp only at p1 p2
  rw [p1] at e1
  cases e1
  dsimp only
  rw [PyM.bind_ok p1, PyM.bind_ok hs]
  have key : ∀ z : Int, z ≤ f.data.length → onBuf (Buf.truncate (some z)) t3.ported =
        ((onBuf (Buf.truncate (some z)) t3).1, (onBuf (Buf.truncate (some z)) t3).2.ported) ∧
      (onBuf (Buf.truncate (some z)) t3).2.Portable := by
    intro z hz
    obtain ⟨h1, h2⟩ := Buf.truncate_ports (n := some z) p2 e2.buf (fun hc => by
      have := hc.2
      simp only [Option.getD_some] at this
      omega)
    unfold onBuf
    rw [show t3.ported.buf = t3.buf.ported from rfl, h1]
    generalize Buf.truncate (some z) t3.buf = q at *
    obtain ⟨q, b⟩ := q
    exact ⟨rfl, h2⟩
  have := key f.pos (by omega)
  simpa [offset] using this

end Txt

end Verif

namespace Verif.Props

open Verif Verif.Spec Verif.Txt

variable {C : Codec} {guess : Nat × Nat → Nat → Nat} {d : Bytes}

/-- The reference considers the first call of a stream. -/
theorem doc_go {nl : Newline} {inc out : Text → Text} {d₀ doc : Doc} {op : Op} {t : Txt C} {ops pre post : List Op}
    (h5 : op :: ops = pre ++ post) (h6 : DocConforms C nl inc out d₀ (pre.zip (Txt.run guess t pre).1) doc)
    (h7 : post = [] ∨ ∃ op rest, post = op :: rest ∧ ¬ DocCall doc op) (hc : DocCall d₀ op) :
    ∃ d₁ pre', pre = op :: pre' ∧ DocAllowed C nl inc out d₀ op (t.step guess op).1 d₁ ∧
      DocConforms C nl inc out d₁ (pre'.zip (Txt.run guess (t.step guess op).2 pre').1) doc ∧ ops = pre' ++ post := by
  cases pre with
  | nil =>
    exfalso
    cases h6
    rw [List.nil_append] at h5
    rcases h7 with h7 | ⟨op', rest, h7, h7'⟩
    · rw [h7] at h5; cases h5
    · rw [h7] at h5; cases h5; exact h7' hc
  | cons x pre =>
    obtain ⟨rfl, e2⟩ := List.cons.inj h5
    simp only [Txt.run, List.zip_cons_cons] at h6
    cases h6 with
    | cons ha hn => exact ⟨_, pre, rfl, ha, hn, e2⟩

/-- A stream that has read the text and written another one, before it cuts the file. -/
theorem edit_state (hC : LawfulCodec C) (hE : LawfulEncoder C) (hg : Moderate guess)
    {tr mid : TextTrace C} {i : Sid} {w w' : TextTogether C} {t : Txt C} (hw : TextHistory guess d tr w)
    (hw' : TextHistory guess d (tr ++ (.granted i, .done) :: mid) w') (hmid : Within i mid) (ht : w.txts i = some t)
    {o o₁ o₂ o₃ : Out} {s : Text} (hcalls : callsOf i mid = [(.seek (.to (some (offset 0))), o), (.read none, o₁),
      (.seek (.to (some (offset 0))), o₂), (.write s, o₃)]) {text : Text} {e : C.Dec}
    (hd : C.decode C.decInit w.file true = .ok (text, e)) {b : Bytes} (hb : encoded C 0 (outgoing t.linesep t.newline s) = .ok b) :
    ∃ u f, w'.txts i = some u ∧ u.buf.raw.data = w'.file ∧ Outlet C t.newline t.linesep .random u f ∧ f.pos ≤ f.data.length := by
  obtain ⟨t₀, u, h1, h2, h3, h4, h5, h6, h7, h8, h9, h10, h11, _⟩ := TextTogether.alone hw mid.length mid w' rfl hw' hmid
  rw [ht] at h1
  cases h1
  have hr := TextTogether.ready_of h3 h6 h7 h8
  rw [h4, h5] at hr
  obtain ⟨Ok, p, t', d₀, pre, post, doc, L, e1, _, e3, e4, e5, e6, e7, e8⟩ :=
    ready_seek hC hE hg hr (.to (some (offset 0))) (.inr ⟨0, rfl⟩) [.read none, .seek (.to (some (offset 0))), .write s]
  dsimp only at e4
  rw [e3 0 rfl, h2] at e4
  have hfind : (blank w.file u.buf.raw.events).Finds C (incoming t.newline) 0 (incoming t.newline text) :=
    .inl (.inr ⟨.inl rfl, Nat.zero_le _, text, e, by rw [List.drop_zero]; exact hd, rfl⟩)
  have hread := e4.reading _ hfind
  obtain ⟨d₁, pre₁, rfl, a1, c1, q1⟩ := doc_go e5 e6 e7 (.inl ⟨_, hread, trivial⟩)
  obtain ⟨x, k1, k2, k3, _⟩ := a1.reads _ hread trivial
  obtain ⟨_, rfl⟩ := k1
  obtain ⟨d₂, pre₂, rfl, a2, c2, q2⟩ := doc_go q1 c1 e7 (.inl rfl)
  obtain ⟨_, a2⟩ := a2
  have hw2 := a2.writing
  rw [← k3] at hw2
  obtain ⟨d₃, pre₃, rfl, a3, c3, q3⟩ := doc_go q2 c2 e7 (.inr ⟨_, hw2, trivial⟩)
  obtain ⟨x, k4, k5, k6, _⟩ := a3.writes _ hw2 trivial
  simp only [offset, SinkAllowed, hb] at k4
  obtain ⟨_, rfl⟩ := k4
  obtain ⟨rfl, rfl⟩ := List.append_eq_nil_iff.1 q3.symm
  cases c3
  obtain ⟨hout, _, _⟩ := e8.writing _ k5
  rw [hcalls] at h10 h11
  simp only [List.map_cons, List.map_nil] at h10 h11
  rw [show Txt.run guess u [.seek (.to (some (offset 0))), .read none, .seek (.to (some (offset 0))), .write s] =
    (_ :: (Txt.run guess t' [.read none, .seek (.to (some (offset 0))), .write s]).1,
      (Txt.run guess t' [.read none, .seek (.to (some (offset 0))), .write s]).2) by
    rw [Txt.run]; rw [e1]] at h10 h11
  refine ⟨_, _, h10, h11.symm, hout, ?_⟩
  dsimp only
  generalize (blank w.file u.buf.raw.events).data = D
  have : b.length ≤ (put D 0 b).length := by
    rw [put_eq]
    by_cases hb : b = []
    · simp [hb]
    · simp [writeAt, hb]
  simpa using this

theorem WinEditHistory.last {tr : TextTrace C} {x : TextItem C × Out} {w : TextTogether C} (h : WinEditHistory guess d (tr ++ [x]) w) :
    ∃ w₀, WinEditHistory guess d tr w₀ ∧ WinEditProper tr x.1 ∧ x.2 = (w₀.step guess x.1).1 ∧ w = (w₀.step guess x.1).2 := by
  generalize hq : tr ++ [x] = q at h
  cases h with
  | start => simp at hq
  | item h hp _ =>
    obtain ⟨rfl, rfl⟩ := List.append_inj' hq rfl |>.imp id (fun e => (List.cons.inj e).1)
    exact ⟨_, h, hp, rfl, rfl⟩

/-- After this history of windows the streams are as on unix. -/
def Ports (guess : Nat × Nat → Nat → Nat) (d : Bytes) (tr : TextTrace C) : Prop :=
  ∀ w, WinEditHistory guess d tr w → TextHistory guess d (portedTrace tr) w.ported ∧ w.Portable

theorem WinEditProper.ported {tr : TextTrace C} {it : TextItem C} (h : WinEditProper tr it) :
    TextProper (portedTrace tr) it.ported := by
  cases it with
  | did i op => exact ⟨by rw [lockers_ported]; exact h.1, h.2.1⟩
  | _ => exact WinTextProper.ported h

theorem Ports.item {tr : TextTrace C} {x : TextItem C × Out} (h : Ports guess d tr)
    (hx : ∀ w, WinEditHistory guess d tr w → WinEditProper tr x.1 → w.ported.step guess x.1.ported =
      ((w.step guess x.1).1, (w.step guess x.1).2.ported) ∧ (w.step guess x.1).2.Portable) : Ports guess d (tr ++ [x]) := by
  intro w hw
  obtain ⟨w₀, h1, h2, h3, rfl⟩ := WinEditHistory.last hw
  obtain ⟨k1, k2⟩ := hx w₀ h1 h2
  refine ⟨?_, k2⟩
  have h4 := TextHistory.item (h w₀ h1).1 (WinEditProper.ported h2)
  rw [k1] at h4
  dsimp only at h4
  rw [portedTrace_append]
  obtain ⟨it, o⟩ := x
  dsimp only at h3
  subst h3
  exact h4

/-- Anything but `truncate`. -/
theorem Ports.plain {tr : TextTrace C} {x : TextItem C × Out} (h : Ports guess d tr)
    (hx : WinEditProper tr x.1 → ∀ i, x.1 ≠ .did i (.truncate none)) : Ports guess d (tr ++ [x]) :=
  h.item fun w hw hp => by
    refine TextTogether.step_ports guess (h w hw).2 (tr := tr) ?_
    have hx := hx hp
    revert hx hp
    cases x.1 with
    | did i op =>
      intro hp hx
      refine ⟨hp.1, hp.2.1, fun a e => ?_, hp.2.2.2⟩
      cases a with
      | some n => exact hp.2.2.1 n e
      | none => exact hx i (by rw [e])
    | _ => intro hp _; exact hp

/-- The calls within a section, but `truncate`. -/
theorem Ports.within {i : Sid} {tr : TextTrace C} (mid : TextTrace C) : ∀ {m : TextTrace C}, Within i (m ++ mid) →
    (∀ o, (Op.truncate none, o) ∉ callsOf i mid) → Ports guess d (tr ++ (.granted i, .done) :: m) →
    (∀ w, WinEditHistory guess d (tr ++ (.granted i, .done) :: m) w → ∃ w₀, TextHistory guess d (portedTrace tr) w₀) →
    Ports guess d (tr ++ (.granted i, .done) :: (m ++ mid)) := by
  induction mid with
  | nil => intro m _ _ h _; rw [List.append_nil]; exact h
  | cons x mid ih =>
    intro m hm hc h h0
    have hm1 : Within i m := fun y hy => hm y (List.mem_append_left _ hy)
    have h' : Ports guess d ((tr ++ (.granted i, .done) :: m) ++ [x]) := by
      intro w hw
      obtain ⟨w₁, g1, _⟩ := WinEditHistory.last hw
      obtain ⟨w₀, g0⟩ := h0 w₁ g1
      refine h.plain (fun hp j e => ?_) w hw
      obtain ⟨x1, o⟩ := x
      dsimp only at e
      subst e
      have hl : lockers (tr ++ (.granted i, .done) :: m) = [i] := by
        have g2 := (h w₁ g1).1
        rw [portedTrace_section] at g2
        obtain ⟨_, _, _, _, _, _, _, _, _, _, _, _, _, k2, _, _⟩ := TextTogether.alone g0 _ _ _ rfl g2 hm1.ported
        rw [← portedTrace_section, lockers_ported] at k2
        exact k2
      have hj := hp.1
      rw [hl] at hj
      obtain rfl := List.mem_singleton.1 hj
      exact hc o (by simp [callsOf])
    have := ih (m := m ++ [x]) (by simpa using hm) (fun o ho => hc o (by
      unfold callsOf at ho ⊢
      rw [List.filterMap_cons]
      split
      · exact ho
      · exact List.mem_cons_of_mem _ ho)) (by simpa using h') (fun w hw => by
        have hw : WinEditHistory guess d ((tr ++ (.granted i, .done) :: m) ++ [x]) w := by simpa using hw
        obtain ⟨w₁, g1, _⟩ := WinEditHistory.last hw
        exact h0 w₁ g1)
    simpa using this

theorem WinEditHistory.prefix {tr' : TextTrace C} : ∀ {tr : TextTrace C} {w : TextTogether C}, WinEditHistory guess d (tr ++ tr') w →
    ∃ w₀, WinEditHistory guess d tr w₀ := by
  induction tr' with
  | nil => intro tr w h; exact ⟨w, by simpa using h⟩
  | cons x tr' ih =>
    intro tr w h
    obtain ⟨w₁, h1⟩ := ih (tr := tr ++ [x]) (by simpa using h)
    obtain ⟨w₀, h2, _⟩ := WinEditHistory.last h1
    exact ⟨w₀, h2⟩

theorem UpdateTrace.ported {tr : TextTrace C} {l : List (Sid × (Text → Text))} (h : UpdateTrace tr l) : UpdateTrace (portedTrace tr) l := by
  induction h with
  | start => exact .start
  | @other tr l x h hx ih =>
    rw [portedTrace_append]
    refine .other ih ?_
    intro i e
    obtain ⟨it, o⟩ := x
    cases it <;> first | exact hx i e | cases e
  | @look tr mid l i o o' o'' h hm hc ih =>
    rw [portedTrace_append, portedTrace_append]
    exact .look (mid := portedTrace mid) (o'' := o'') ih hm.ported (by rw [callsOf_ported]; exact hc)
  | @update tr mid l i g x o o₁ o₂ o₃ o₄ h hm hc ih =>
    rw [portedTrace_append, portedTrace_append]
    exact .update (mid := portedTrace mid) (o₄ := o₄) ih hm.ported (by rw [callsOf_ported]; exact hc)

theorem mem_opened_ported {tr : TextTrace C} {i : Sid} {t : Txt C} {o : Out} (h : (TextItem.opened i t, o) ∈ portedTrace tr) :
    ∃ t₀ : Txt C, (TextItem.opened i t₀, o) ∈ tr ∧ t = t₀.ported := by
  obtain ⟨⟨it, o'⟩, h1, h2⟩ := List.mem_map.1 h
  cases it <;> cases h2
  exact ⟨_, h1, rfl⟩

theorem mem_did_ported {tr : TextTrace C} {i : Sid} {op : Op} {o : Out} (h : (TextItem.did i op, o) ∈ portedTrace tr) :
    (TextItem.did i op, o) ∈ tr := by
  obtain ⟨⟨it, o'⟩, h1, h2⟩ := List.mem_map.1 h
  cases it <;> cases h2
  exact h1

/-- Programs that replace the text of a file do the same on windows as on unix. -/
theorem UpdateTrace.ports (hC : LawfulCodec C) (hE : LawfulEncoder C) (hg : Moderate guess)
    {inc ends : Sid → Text → Text} {tr : TextTrace C} {l : List (Sid × (Text → Text))} (hl : UpdateTrace tr l)
    (hd : ∃ text e, C.decode C.decInit d true = .ok (text, e)) (hr : ∀ s, RoundTrips C s) :
      (∀ i t o, (.opened i t, o) ∈ tr → ends i = outgoing t.linesep t.newline ∧ inc i = incoming t.newline) →
      (∀ i s o, (.did i (.write s), o) ∈ tr → ∃ b, encoded C 0 (ends i s) = .ok b) → Ports guess d tr := by
  have sure : ∀ {tr : TextTrace C} {l : List (Sid × (Text → Text))}, UpdateTrace tr l → Ports guess d tr →
      (∀ i t o, (.opened i t, o) ∈ tr → ends i = outgoing t.linesep t.newline ∧ inc i = incoming t.newline) →
      (∀ i s o, (.did i (.write s), o) ∈ tr → ∃ b, encoded C 0 (ends i s) = .ok b) → ∀ w, WinEditHistory guess d tr w →
      lockers tr = [] ∧ ∃ text e, C.decode C.decInit w.file true = .ok (text, e) := by
    intro tr l hl hp he hb w hw
    have := (UpdateTrace.file hC hE hg (UpdateTrace.ported hl) (inc := inc) (ends := ends) hd hr (hp w hw).1 (fun i t o h => by
      obtain ⟨t₀, h1, rfl⟩ := mem_opened_ported h
      exact he i t₀ o h1) fun i s o h => hb i s o (mem_did_ported h)).2
    rw [lockers_ported] at this
    exact this
  induction hl with
  | start =>
    intro _ _ w hw
    generalize hq : ([] : TextTrace C) = q at hw
    cases hw with
    | start => exact ⟨.start, fun i t ht => by cases ht⟩
    | item => simp at hq
  | @other tr l x hl hx ih =>
    intro he hb w hw
    have he' := fun i t o (h : (TextItem.opened i t, o) ∈ tr) => he i t o (List.mem_append_left _ h)
    have hb' := fun i s o (h : (TextItem.did i (.write s), o) ∈ tr) => hb i s o (List.mem_append_left _ h)
    obtain ⟨w₁, g1, _⟩ := WinEditHistory.last hw
    have hs := (sure hl (ih he' hb') he' hb' w₁ g1).1
    refine (ih he' hb').plain (fun hp j e => ?_) w hw
    rw [e] at hp
    have := hp.1
    rw [hs] at this
    cases this
  | @look tr mid l i o o' o'' hl hmid hcalls ih =>
    intro he hb
    have hp := ih (fun i t o h => he i t o (by simp [h])) fun i s o h => hb i s o (by simp [h])
    have h1 := hp.plain (x := (.granted i, .done)) fun _ => nofun
    have h2 := Ports.within (i := i) mid (m := []) hmid (by rw [hcalls]; simp) h1 fun w hw => by
      obtain ⟨w₀, h⟩ := WinEditHistory.prefix hw
      exact ⟨_, (hp w₀ h).1⟩
    exact h2.plain fun _ => nofun
  | @update tr mid l i g x o o₁ o₂ o₃ o₄ hl hmid hcalls ih =>
    intro he hb
    have he' := fun j t o (h : (TextItem.opened j t, o) ∈ tr) => he j t o (by simp [h])
    have hb' := fun j s o (h : (TextItem.did j (.write s), o) ∈ tr) => hb j s o (by simp [h])
    have hp := ih he' hb'
    have h1 := hp.plain (x := (.granted i, .done)) fun _ => nofun
    obtain ⟨m₁, m', rfl, c1, c2⟩ := List.filterMap_eq_append_iff.1 (show callsOf i mid = [_, _, _, _] ++ [_] from hcalls)
    obtain ⟨m₂, y, m₃, rfl, c3, c4, c5⟩ := List.filterMap_eq_cons_iff.1 c2
    have hy : y = (.did i (.truncate none), o₃) := by
      obtain ⟨it, o'⟩ := y
      cases it with
      | did j op =>
        dsimp only at c4
        split at c4
        · rename_i e; subst e; cases c4; rfl
        · cases c4
      | _ => cases c4
    subst hy
    have c6 : callsOf i (m₁ ++ m₂) = [(.seek (.to (some (offset 0))), o), (.read none, .text x), (.seek (.to (some (offset 0))), o₁),
        (.write (g x), o₂)] := by
      unfold callsOf
      rw [List.filterMap_append, c1, List.filterMap_eq_nil_iff.2 c3]
      rfl
    have hm1 : Within i (m₁ ++ m₂) := fun z hz => hmid z (by
      rcases List.mem_append.1 hz with h | h <;> simp [h])
    have hex : ∀ m : TextTrace C, ∀ w, WinEditHistory guess d (tr ++ m) w → ∃ w₀, TextHistory guess d (portedTrace tr) w₀ := by
      intro m w hw
      obtain ⟨w₀, h⟩ := WinEditHistory.prefix hw
      exact ⟨_, (hp w₀ h).1⟩
    have h2 : Ports guess d (tr ++ (.granted i, .done) :: (m₁ ++ m₂)) :=
      Ports.within (i := i) (m₁ ++ m₂) (m := []) hm1 (by rw [c6]; simp) h1 (hex _)
    have h3 : Ports guess d (tr ++ (.granted i, .done) :: (m₁ ++ m₂) ++ [(.did i (.truncate none), o₃)]) := by
      refine h2.item fun w hw hq => ?_
      obtain ⟨w₀, hw₀⟩ := WinEditHistory.prefix hw
      obtain ⟨_, text, e, hdec⟩ := sure hl hp he' hb' w₀ hw₀
      obtain ⟨g1, g2⟩ := h2 w hw
      rw [portedTrace_section] at g1
      obtain ⟨t, _, k1, _⟩ := TextTogether.alone (hp w₀ hw₀).1 _ _ _ rfl g1 hm1.ported
      obtain ⟨t₀, q, n1, n2, n3⟩ := TextTogether.style (hp w₀ hw₀).1 k1
      obtain ⟨t₁, n4, rfl⟩ := mem_opened_ported n1
      have hends : ends i = outgoing t.linesep t.newline := by rw [n2, n3]; exact (he' i t₁ q n4).1
      obtain ⟨b, hbb⟩ := hb i (g x) o₂ (by
        have := mem_of_callsOf (show (Op.write (g x), o₂) ∈ callsOf i (m₁ ++ m₂) by rw [c6]; simp)
        rcases List.mem_append.1 this with h | h <;> simp [h])
      rw [hends] at hbb
      obtain ⟨u, f, e1, e2, e3, e4⟩ := edit_state hC hE hg (hp w₀ hw₀).1 g1 hm1.ported k1 (by rw [callsOf_ported]; exact c6) hdec hbb
      refine TextTogether.on_ports g2 (fun t => t.step guess (.truncate none)) fun t' ht' => ?_
      rw [ported_txts ht'] at e1
      cases e1
      have hsame : TextTogether.load t' w.file = t' := by
        have : t'.buf.raw.data = w.file := e2
        rw [← this]; rfl
      rw [hsame]
      obtain ⟨h4, h5⟩ := Txt.cut_ports guess (g2 i t' ht') e3 e4
      simp only [Txt.step, h4]
      generalize Txt.truncate guess none t' = q at *
      obtain ⟨q, t1⟩ := q
      cases q <;> exact ⟨rfl, h5⟩
    have h4 := Ports.within (i := i) (tr := tr) (guess := guess) (d := d) m₃ (m := m₁ ++ m₂ ++ [(.did i (.truncate none), o₃)]) (by simpa using hmid)
      (by unfold callsOf; rw [c5]; simp) (by simpa using h3) (hex _)
    have h5 := h4.plain (x := (.unlock i, o₄)) fun _ => nofun
    simpa using h5

/-- C127 for text streams on windows. -/
theorem C127_text_windows (hC : LawfulCodec C) (hE : LawfulEncoder C) (hg : Moderate guess)
    {inc ends : Sid → Text → Text} {tr : TextTrace C} {l : List (Sid × (Text → Text))} (hl : UpdateTrace tr l) {w : TextTogether C}
    (hw : WinEditHistory guess d tr w)
    (he : ∀ i t o, (.opened i t, o) ∈ tr → ends i = outgoing t.linesep t.newline ∧ inc i = incoming t.newline)
    (hd : ∃ text e, C.decode C.decInit d true = .ok (text, e)) (hr : ∀ s, RoundTrips C s)
    (hb : ∀ i s o, (.did i (.write s), o) ∈ tr → ∃ b, encoded C 0 (ends i s) = .ok b) : UpdatedFile C inc ends d l w.file :=
  C127_text (w := w.ported) hC hE hg (UpdateTrace.ported hl) (UpdateTrace.ports hC hE hg hl hd hr he hb w hw).1 (fun i t o h => by
    obtain ⟨t₀, h1, rfl⟩ := mem_opened_ported h
    exact he i t₀ o h1) hd hr fun i s o h => hb i s o (mem_did_ported h)

/-- C127 for text streams on windows that all use the same newlines, which the texts survive. -/
theorem C127_text_windows_final (hC : LawfulCodec C) (hE : LawfulEncoder C) (hg : Moderate guess)
    {nl : Newline} {ls : Text} (hls : Linesep ls) {tr : TextTrace C} {l : List (Sid × (Text → Text))} (hl : UpdateTrace tr l)
    {w : TextTogether C} (hw : WinEditHistory guess d tr w) (he : ∀ i t o, (.opened i t, o) ∈ tr → t.linesep = ls ∧ t.newline = nl)
    {text : Text} {e : C.Dec} (hd : C.decode C.decInit d true = .ok (text, e)) (hr : ∀ s, RoundTrips C s)
    (hb : ∀ i s o, (.did i (.write s), o) ∈ tr → ∃ b, encoded C 0 (outgoing ls nl s) = .ok b)
    (hk : Lossless nl (incoming nl text)) (hk' : ∀ x ∈ l, ∀ s, Lossless nl s → Lossless nl (x.2 s)) :
    (∃ text' e', C.decode C.decInit w.file true = .ok (text', e') ∧ incoming nl text' = textAfter l (incoming nl text)) ∧
      (l ≠ [] → encoded C 0 (outgoing ls nl (textAfter l (incoming nl text))) = .ok w.file) :=
  C127_text_final (w := w.ported) hC hE hg hls (UpdateTrace.ported hl)
    (UpdateTrace.ports hC hE hg hl (inc := fun _ => incoming nl) (ends := fun _ => outgoing ls nl) ⟨text, e, hd⟩ hr
      (fun i t o hm => by obtain ⟨rfl, rfl⟩ := he i t o hm; exact ⟨rfl, rfl⟩) hb w hw).1 (fun i t o h => by
    obtain ⟨t₀, h1, rfl⟩ := mem_opened_ported h
    exact he i t₀ o h1) hd hr (fun i s o h => hb i s o (mem_did_ported h)) hk hk'

/-- C127 for text streams on windows, together with the system that grants the locks. -/
theorem C127_text_windows_locks (hC : LawfulCodec C) (hE : LawfulEncoder C) (hg : Moderate guess) {u : Uid}
    {inc ends : Sid → Text → Text} {tr : TextTrace C} {l : List (Sid × (Text → Text))} (hl : UpdateTrace tr l)
    {t : TextTogether C} {wls : List Win.Label} {ww : Win.World} {ev : List Event}
    (hj : WinTextJoint (WinEditRules guess) guess d u tr t wls ww ev)
    (he : ∀ i t o, (.opened i t, o) ∈ tr → ends i = outgoing t.linesep t.newline ∧ inc i = incoming t.newline)
    (hd : ∃ text e, C.decode C.decInit d true = .ok (text, e)) (hr : ∀ s, RoundTrips C s)
    (hb : ∀ i s o, (.did i (.write s), o) ∈ tr → ∃ b, encoded C 0 (ends i s) = .ok b) : UpdatedFile C inc ends d l t.file :=
  C127_text_windows hC hE hg hl (WinTextJoint.history (H := WinEditHistory guess d) ⟨fun h => h.1, fun h => h⟩ .start
    (fun {tr t it} h hp hg => .item h (by
      cases it with
      | granted i => exact ⟨hp, hg i rfl⟩
      | ask i => exact hp.1
      | _ => exact hp) (by
      intro i e
      subst e
      exact hp.2)) hj) he hd hr hb

/-! ## Cases -/

/-- Every item of a history is allowed where it stands. -/
def AllWinEdit (guess : Nat × Nat → Nat → Nat) (tr : TextTrace C) (w : TextTogether C) : TextTrace C → Prop
  | [] => True
  | x :: tr' => WinEditProper tr x.1 ∧ (∀ i, x.1 = .ask i → lockers tr ≠ [] → Prepares guess w i) ∧
      AllWinEdit guess (tr ++ [x]) (w.step guess x.1).2 tr'

theorem replay_edit (tr' : TextTrace C) : ∀ {tr : TextTrace C} {w : TextTogether C}, WinEditHistory guess d tr w →
    agrees guess w tr' = true → AllWinEdit guess tr w tr' → WinEditHistory guess d (tr ++ tr') (replay guess w tr') := by
  induction tr' with
  | nil => intro tr w h _ _; rw [List.append_nil]; exact h
  | cons x tr' ih =>
    intro tr w h ha hp
    simp only [agrees, Bool.and_eq_true, beq_iff_eq] at ha
    have := ih (WinEditHistory.item h hp.1 hp.2.1) ha.2 (by rw [ha.1]; exact hp.2.2)
    rw [ha.1] at this
    simpa [replay] using this

theorem AllWinEdit.rules {tr' : TextTrace C} : ∀ {tr : TextTrace C} {t : TextTogether C}, AllWinEdit guess tr t tr' →
    AllRules (WinEditRules guess) guess t tr tr' := by
  induction tr' with
  | nil => intro tr t _; trivial
  | cons x tr' ih =>
    obtain ⟨it, o⟩ := x
    intro tr t h
    refine ⟨?_, ih h.2.2⟩
    have := h.1
    have h2 := h.2.1
    cases it with
    | granted i => exact this.1
    | ask i => exact ⟨this, h2 i rfl⟩
    | _ => exact this

theorem edit_did {tr : TextTrace C} {i : Sid} {op : Op} (h : i ∈ lockers tr) (hp : PlainCall op) (hn : ∀ n, op ≠ .truncate (some n))
    (hs : ∀ a m f, op ≠ .sync a m f) : WinEditProper tr (.did i op) := ⟨h, hp, hn, hs⟩

theorem edit_ask {tr : TextTrace C} {i : Sid} (h : i ∉ lockers tr) : WinEditProper tr (.ask i) := h
theorem edit_unlock {tr : TextTrace C} {i : Sid} (h : i ∈ lockers tr) : WinEditProper tr (.unlock i) := h

/-- As `edited`, on windows. -/
def winEdit₁ : TextTrace latin1 := winPair ++ [(.ask (1, 0), .done)] ++ (.granted (1, 0), .done) :: editFirst ++ [(.unlock (1, 0), .done)]
def winEdit₂ : TextTrace latin1 := winEdit₁ ++ (.granted (2, 0), .done) :: editSecond ++ [(.unlock (2, 0), .done)]
def winEdited : TextTrace latin1 := winEdit₂ ++ (.granted (1, 0), .done) :: editLook ++ [(.unlock (1, 0), .done)]

theorem winPair_edit (tr : TextTrace latin1) (h : AllWinEdit quotient winPair (replay quotient unopened winPair) tr) :
    AllWinEdit quotient [] unopened (winPair ++ tr) := by
  refine ⟨⟨by simp, .auto, [13, 10], _, winBoth_ok 8 (by omega) [97, 13, 98] [] blocking_nil⟩, by simp,
    ⟨?_, .auto, [13, 10], _, winBoth_ok 4 (by omega) [97, 13, 98] _ pair_blocking⟩, by simp, h⟩
  intro x hx
  obtain rfl := List.mem_singleton.1 hx
  simp [TextItem.stream]

theorem winEdit_proper : AllWinEdit quotient [] unopened winEdited := winPair_edit _
  ⟨edit_ask (by decide), ask_free _ (by decide), ⟨rfl, by decide⟩, not_asking nofun,
    edit_did (by decide) trivial nofun nofun, not_asking nofun, edit_did (by decide) trivial nofun nofun, not_asking nofun,
    edit_ask (by decide), ask_ready (by decide +kernel),
    edit_did (by decide) trivial nofun nofun, not_asking nofun, edit_did (by decide) trivial nofun nofun, not_asking nofun,
    edit_did (by decide) trivial nofun nofun, not_asking nofun, edit_unlock (by decide), not_asking nofun,
    ⟨rfl, by decide⟩, not_asking nofun,
    edit_did (by decide) trivial nofun nofun, not_asking nofun, edit_did (by decide) trivial nofun nofun, not_asking nofun,
    edit_did (by decide) trivial nofun nofun, not_asking nofun, edit_did (by decide) trivial nofun nofun, not_asking nofun,
    edit_ask (by decide), ask_ready (by decide +kernel),
    edit_did (by decide) trivial nofun nofun, not_asking nofun, edit_unlock (by decide), not_asking nofun,
    ⟨rfl, by decide⟩, not_asking nofun,
    edit_did (by decide) trivial nofun nofun, not_asking nofun, edit_did (by decide) trivial nofun nofun, not_asking nofun,
    edit_unlock (by decide), not_asking nofun, trivial⟩

theorem winEdit₁_updates : UpdateTrace winEdit₁ (edits.take 1) := by
  have h1 : UpdateTrace (winPair ++ [(.ask (1, 0), .done)]) [] :=
    .other (tr := winPair) (.other (tr := winPair.take 1) (.other (tr := []) .start (by simp)) (by simp)) (by simp)
  exact .update (x := [97, 10, 98]) h1 (by simp [Within, editFirst, TextItem.stream]) rfl

-- the hypotheses of `C127_text_windows` and of `C127_text_windows_final`
example : WinEditHistory quotient [97, 13, 98] winEdited (replay quotient unopened winEdited) ∧ UpdateTrace winEdited edits ∧
    (∀ i t o, (.opened i t, o) ∈ winEdited → t.linesep = [13, 10] ∧ t.newline = .auto) ∧
    (∀ i s o, (.did i (.write s), o) ∈ winEdited → ∃ b, encoded latin1 0 (outgoing [13, 10] .auto s) = .ok b) ∧
    (replay quotient unopened winEdited).file = [98, 99, 13, 10] := by
  refine ⟨?_, ?_, ?_, ?_, by decide +kernel⟩
  · have := replay_edit (guess := quotient) (d := [97, 13, 98]) winEdited .start (by decide +kernel) winEdit_proper
    simpa [unopened] using this
  · have h3 : UpdateTrace winEdit₂ edits := .update (x := [97, 10, 98, 99, 10]) winEdit₁_updates (by
      simp [Within, editSecond, TextItem.stream]) rfl
    exact .look h3 (by simp [Within, editLook, TextItem.stream]) rfl
  · intro i t o h
    simp [winEdited, winEdit₂, winEdit₁, winPair, editFirst, editSecond, editLook] at h
    rcases h with ⟨⟨_, rfl⟩, _⟩ | ⟨⟨_, rfl⟩, _⟩ <;> exact ⟨rfl, rfl⟩
  · intro i s o h
    simp [winEdited, winEdit₂, winEdit₁, winPair, editFirst, editSecond, editLook] at h
    rcases h with ⟨⟨_, rfl⟩, _⟩ | ⟨⟨_, rfl⟩, _⟩
    · exact ⟨[97, 13, 10, 98, 99, 13, 10], rfl⟩
    · exact ⟨[98, 99, 13, 10], rfl⟩

theorem AllWinEdit.take {a b : TextTrace C} : ∀ {tr : TextTrace C} {w : TextTogether C}, AllWinEdit guess tr w (a ++ b) →
    AllWinEdit guess tr w a := by
  induction a with
  | nil => intro tr w _; trivial
  | cons x a ih => intro tr w h; exact ⟨h.1, h.2.1, ih h.2.2⟩

-- the first update, on the lock system
example : (∃ ls w ev, WinTextJoint (WinEditRules quotient) quotient [97, 13, 98] (0, 7) winEdit₁ (replay quotient unopened winEdit₁) ls w ev) ∧
    UpdateTrace winEdit₁ (edits.take 1) := by
  refine ⟨?_, winEdit₁_updates⟩
  have e1 : (Win.sane (winBefore 1)).map (fun x => heldOf x.2) = some [⟨1, 0, (0, 7), false, 0, none⟩] := by decide +kernel
  cases hr1 : Win.sane (winBefore 1) with
  | none => rw [hr1] at e1; cases e1
  | some x =>
    rw [hr1] at e1
    simp only [Option.map_some, Option.some.injEq] at e1
    have j0 := WinTextJoint.run (P := WinEditRules (C := latin1) quotient) (guess := quotient) (d := [97, 13, 98]) (u := (0, 7)) rfl
      .init hr1
    have hp : AllWinEdit quotient [] unopened winEdit₁ := by
      have := winEdit_proper
      simp only [winEdited, winEdit₂, List.append_assoc] at this
      exact this.take
    have j1 := WinTextJoint.items winEdit₁ j0 (by decide +kernel) hp.rules (by
      intro i o hm
      simp [winEdit₁, editFirst, winPair] at hm
      obtain ⟨rfl, _⟩ := hm
      intro a ha
      obtain rfl := List.mem_singleton.1 ha
      exact ⟨_, by rw [e1]; exact List.mem_cons_self, rfl, rfl, rfl, by simp [Covers]⟩)
    exact ⟨_, _, _, j1⟩

end Verif.Props
