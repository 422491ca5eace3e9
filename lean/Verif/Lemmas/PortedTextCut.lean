import Verif.Lemmas.PortedAppendTexts
import Verif.Lemmas.PortedTruncate
import Verif.Spec.WinTextCut

/-!
# `truncate` of text streams in append mode, on windows against unix
-/

set_option autoImplicit false

namespace Verif

open Verif.Spec
open Verif.Txt (Op Out)

variable {C : Codec} {nl : Newline} {ls : Text} {k : BufKind}

namespace Txt

/-- A file is cut, after a flush. -/
theorem resize_ports {t : Txt C} {f : Sink} (h : t.Portable) (hr : t.ported.Resting) (ho : Outlet C nl ls k t.ported.plain f) {z : Int}
    (hz : z ≤ f.data.length) :
    onBuf (Buf.truncate (some z)) t.ported =
        ((onBuf (Buf.truncate (some z)) t).1, (onBuf (Buf.truncate (some z)) t).2.ported) ∧
      (onBuf (Buf.truncate (some z)) t).2.Portable := by
  have hA : Buf.Appends t.buf.ported ⟨⟨f.data, f.pos, false, f.log⟩, false⟩ := .of_plain hr.1.1.2 hr.2 hr.1.2 ho.buf
  obtain ⟨h1, h2⟩ := hA.truncate_ports (n := some z) h (by simp [AppendUnsafe, Unsafe]) (fun hc => by
    have := hc.2
    simp only [Option.getD_some] at this
    omega)
  unfold onBuf
  rw [show t.ported.buf = t.buf.ported from rfl, h1]
  generalize Buf.truncate (some z) t.buf = q at *
  obtain ⟨q, b⟩ := q
  exact ⟨rfl, h2⟩

theorem truncate_ports (guess : Nat × Nat → Nat → Nat) {t : Txt C} {f : Sink} (h : t.Portable) (hl : Logbook C nl ls k t.ported f)
    {n : Option Int} (hz : n.getD f.pos ≤ f.data.length) :
    truncate guess n t.ported = ((truncate guess n t).1, (truncate guess n t).2.ported) ∧ (truncate guess n t).2.Portable := by
  obtain ⟨t', g1, _, g2, g3⟩ := hl.flush
  obtain ⟨h1, h2⟩ := flush_ports t h
  rw [g1] at h1
  generalize hq : Txt.flush t = q at h1 h2
  obtain ⟨r, t1⟩ := q
  dsimp only at h1 h2
  cases h1
  unfold truncate
  rw [PyM.bind_ok g1, PyM.bind_ok hq]
  cases n with
  | some z => exact resize_ports h2 g2 g3 hz
  | none =>
    obtain ⟨t2, e1, e2⟩ := g3.tell guess
    obtain ⟨f1, f2⟩ := tell_flag guess t1.ported g2
    obtain ⟨p1, p2⟩ := tell_ports guess t1 h2
    rw [f1] at e1
    generalize hs : Txt.tell guess t1 = q at p1 p2
    obtain ⟨r, t3⟩ := q
    dsimp only at p1 p2
    rw [p1] at e1 f2
    dsimp only at e1 f2
    cases e1
    dsimp only
    rw [PyM.bind_ok p1, PyM.bind_ok hs]
    have := resize_ports p2 f2 e2 (z := f.pos) hz
    simpa [offset] using this

end Txt

namespace Spec

/-- All but `truncate` is as before. -/
theorem WinCutProper.plain {tr : TextTrace C} {it : TextItem C} (h : WinCutProper tr it) (hn : ∀ i a, it ≠ .did i (.truncate a)) :
    WinLogProper tr it := by
  cases it with
  | did i op => exact ⟨h.1, h.2.1, h.2.2.1, fun a e => hn i a (e ▸ rfl), h.2.2.2⟩
  | _ => exact h

theorem WinCutProper.ported {tr : TextTrace C} {it : TextItem C} (h : WinCutProper tr it) : LogProper (portedTrace tr) it.ported := by
  by_cases hn : ∀ i a, it ≠ .did i (.truncate a)
  · exact (h.plain hn).ported
  · cases it with
    | did i op => exact ⟨by rw [lockers_ported]; exact h.1, h.2.1, h.2.2.1⟩
    | _ => exact absurd (fun i a e => by cases e) hn

end Spec

/-- An item does the same with both backends. -/
theorem TextTogether.cut_ports (guess : Nat × Nat → Nat → Nat) {tr : TextTrace C} {w : TextTogether C} {s : TextPool} (hw : w.Portable)
    (hb : Desks (portedTrace tr) w.ported s) {it : TextItem C} (hp : WinCutProper tr it) (hx : ¬ s.Stretches it) :
    w.ported.step guess it.ported = ((w.step guess it).1, (w.step guess it).2.ported) ∧ (w.step guess it).2.Portable := by
  by_cases hn : ∀ i a, it ≠ .did i (.truncate a)
  · exact TextTogether.log_ports guess hw (hp.plain hn)
  · cases it with
    | did i op =>
      cases op with
      | truncate a =>
        refine on_ports hw (fun t => t.step guess (.truncate a)) fun t ht => ?_
        have ht' : w.ported.txts i = some t.ported := by simp [ported, ht]
        have hi : i ∈ lockers (portedTrace tr) := by rw [lockers_ported]; exact hp.1
        obtain ⟨_, t', h2, h3⟩ := hb.locker hi
        rw [ht'] at h2
        cases h2
        obtain ⟨v, nl, ls, p1, _, _, p4⟩ := hb.pens i t.ported ht'
        obtain ⟨log, hl⟩ := p4 hi
        have hsame : load t w.file = t := by
          have : t.buf.raw.data = w.file := h3
          rw [← this]; rfl
        rw [hsame]
        obtain ⟨h4, h5⟩ := Txt.truncate_ports guess (hw i t ht) hl (n := a) (by
          apply Decidable.byContradiction
          intro hc
          exact hx ⟨v, p1, by dsimp only at hc; omega⟩)
        simp only [Txt.step, h4]
        generalize Txt.truncate guess a t = q at *
        obtain ⟨q, t1⟩ := q
        cases q <;> exact ⟨rfl, h5⟩
      | _ => exact absurd (fun i a e => by cases e) hn
    | _ => exact absurd (fun i a e => by cases e) hn

/-- A history on windows, up to the first call that the code gets wrong. -/
theorem Spec.WinCutRun.desks (hC : LawfulEncoder C) {guess : Nat × Nat → Nat → Nat} {d : Bytes} {tr : TextTrace C} {w : TextTogether C}
    (h : WinCutRun guess d tr w) :
    ∃ pre post s, tr = pre ++ post ∧ TextPooled C (.start d) pre s ∧
      (post = [] → TextTogether.Desks (portedTrace tr) w.ported s ∧ w.Portable) ∧
      (post = [] ∨ ∃ x rest, post = x :: rest ∧ (s.Unsafe C x.1 ∨ s.Stretches x.1)) := by
  induction h with
  | start =>
    have hn : ∀ (i : Sid) (t : Txt C), (⟨d, fun _ => none⟩ : TextTogether C).ported.txts i = some t → False := fun i t h => by cases h
    refine ⟨[], [], _, rfl, .nil _, fun _ => ⟨?_, fun i t h => by cases h⟩, .inl rfl⟩
    exact ⟨fun i t h => (hn i t h).elim, fun _ _ => rfl, .inl ⟨rfl, rfl⟩, fun i t h => (hn i t h).elim, fun i t h => (hn i t h).elim⟩
  | @item tr w it _ hp ih =>
    obtain ⟨pre, post, s, e1, e2, e3, e4⟩ := ih
    rcases e4 with rfl | ⟨x, rest, rfl, hu⟩
    · rw [List.append_nil] at e1
      subst e1
      by_cases hu : s.Unsafe C it ∨ s.Stretches it
      · exact ⟨tr, [(it, (w.step guess it).1)], s, rfl, e2, nofun, .inr ⟨_, [], rfl, hu⟩⟩
      · obtain ⟨hb, hw⟩ := e3 rfl
        have hu' : ¬ s.Unsafe C it.ported := fun hc => hu (.inl (by cases it <;> exact hc))
        obtain ⟨s', g1, g2⟩ := TextTogether.step_desks hC guess hb hp.ported hu'
        obtain ⟨h1, h2⟩ := TextTogether.cut_ports guess hw hb hp fun hc => hu (.inr hc)
        rw [h1] at g1 g2
        refine ⟨tr ++ [(it, (w.step guess it).1)], [], s', by simp, .snoc e2 (by cases it <;> exact g1), fun _ => ⟨?_, h2⟩, .inl rfl⟩
        rw [portedTrace_append]
        exact g2
    · exact ⟨pre, x :: (rest ++ [(it, (w.step guess it).1)]), s, by rw [e1]; simp, e2, nofun, .inr ⟨x, _, rfl, hu⟩⟩

end Verif
