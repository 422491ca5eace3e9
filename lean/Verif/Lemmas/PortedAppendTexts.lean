import Verif.Lemmas.PortedTextTogether
import Verif.Lemmas.AppendTexts
import Verif.Spec.WinAppendTexts

/-!
# Text streams in append mode that take turns, on windows against unix
-/

set_option autoImplicit false

namespace Verif

open Verif.Spec
open Verif.Txt (Op Out)

variable {C : Codec}

namespace Spec

/-- A stream of windows does what one of unix does. -/
theorem WinTextLogOpened.ported {nl : Newline} {ls : Text} {k : BufKind} {raw : Raw} {t : Txt C}
    (h : Props.WinTextLogOpened C nl ls k raw t) : Props.TextLogOpened C nl ls k raw.ported t.ported ∧ t.Portable := by
  obtain ⟨n, b, lb, h1, h2⟩ := h.built
  obtain ⟨g1, g2⟩ := h1.ported h.blocking
  obtain ⟨g3, g4⟩ := Txt.create_ports (C := C) nl lb ls g2
  rw [h2] at g3 g4
  exact ⟨⟨⟨n, _, lb, g1, g3⟩, h.blocking⟩, g4⟩

/-- All but opening a stream is as for other streams. -/
theorem WinLogProper.weaken {tr : TextTrace C} {it : TextItem C} (h : WinLogProper tr it) (hn : ∀ i t, it ≠ .opened i t) :
    WinTextProper tr it := by
  cases it with
  | opened i t => exact absurd rfl (hn i t)
  | did i op => exact ⟨h.1, h.2.1, h.2.2.2.1, h.2.2.2.2⟩
  | gone p => trivial
  | close i => trivial
  | ask i => exact h
  | granted i => exact h
  | unlock i => exact h
  | exit i => exact h

theorem WinLogProper.ported {tr : TextTrace C} {it : TextItem C} (h : WinLogProper tr it) : LogProper (portedTrace tr) it.ported := by
  cases it with
  | opened i t =>
    obtain ⟨h1, nl, ls, k, raw, h2⟩ := h
    refine ⟨?_, nl, ls, k, raw.ported, (WinTextLogOpened.ported h2).1⟩
    intro x hx
    obtain ⟨y, hy, rfl⟩ := List.mem_map.1 hx
    dsimp only
    rw [stream_ported]
    exact h1 y hy
  | ask i =>
    have h : i ∉ lockers tr := h
    change i ∉ _
    rw [lockers_ported]; exact h
  | granted i =>
    obtain ⟨h1, h2⟩ : lastCall tr i = some (.ask i, .done) ∧ lockers tr = [] := h
    refine ⟨?_, by rw [lockers_ported]; exact h2⟩
    rw [lastCall_ported, h1]; rfl
  | did i op => exact ⟨by rw [lockers_ported]; exact h.1, h.2.1, h.2.2.1⟩
  | unlock i =>
    have h : i ∈ lockers tr := h
    change i ∈ _
    rw [lockers_ported]; exact h
  | exit i =>
    obtain ⟨h1, h2⟩ : i ∈ lockers tr ∧ lastCall tr i = some (.did i .flush, .done) := h
    refine ⟨by rw [lockers_ported]; exact h1, ?_⟩
    rw [lastCall_ported, h2]; rfl
  | close i => trivial
  | gone p =>
    have h : ∀ i ∈ lockers tr, i.1 ≠ p := h
    change ∀ i ∈ lockers (portedTrace tr), i.1 ≠ p
    rw [lockers_ported]; exact h

/-- The array does not depend on the backend. -/
theorem TextPooled.unported {s₀ s : TextPool} {tr : TextTrace C} (h : TextPooled C s₀ (portedTrace tr) s) : TextPooled C s₀ tr s := by
  unfold portedTrace at h
  generalize hg : tr.map (fun e => (e.1.ported, e.2)) = g at h
  induction h generalizing tr with
  | nil =>
    rw [List.map_eq_nil_iff] at hg
    subst hg
    exact .nil _
  | @snoc s' s'' tr' it out _ h2 ih =>
    obtain ⟨a, b, rfl, ha, hb⟩ := List.map_eq_append_iff.1 hg
    cases b with
    | nil => cases hb
    | cons e b =>
      obtain ⟨x, o⟩ := e
      simp only [List.map_cons, List.cons.injEq, Prod.mk.injEq, List.map_eq_nil_iff] at hb
      obtain ⟨⟨rfl, rfl⟩, rfl⟩ := hb
      refine .snoc (ih ha) ?_
      cases x <;> exact h2

end Spec

/-- An item does the same with both backends. -/
theorem TextTogether.log_ports (guess : Nat × Nat → Nat → Nat) {tr : TextTrace C} {w : TextTogether C} (hw : w.Portable)
    {it : TextItem C} (hp : WinLogProper tr it) :
    w.ported.step guess it.ported = ((w.step guess it).1, (w.step guess it).2.ported) ∧ (w.step guess it).2.Portable := by
  by_cases hn : ∀ i t, it ≠ .opened i t
  · exact TextTogether.step_ports guess hw (hp.weaken hn)
  · cases it with
    | opened i t =>
      refine ⟨?_, ?_⟩
      · change (Out.done, _) = (Out.done, _)
        congr 1
        unfold ported step
        simp only [TextTogether.mk.injEq, true_and]
        funext j
        split <;> rfl
      · intro j c hc
        change (if j = i then some t else w.txts j) = some c at hc
        split at hc
        · cases hc
          obtain ⟨_, nl, ls, k, raw, h2⟩ := hp
          exact (WinTextLogOpened.ported h2).2
        · exact hw j c hc
    | _ => exact absurd (fun i t e => by cases e) hn

/-- A history on windows is one on unix. -/
theorem Spec.WinLogHistory.ported {guess : Nat × Nat → Nat → Nat} {d : Bytes} {tr : TextTrace C} {w : TextTogether C}
    (h : WinLogHistory guess d tr w) : LogHistory guess d (portedTrace tr) w.ported ∧ w.Portable := by
  induction h with
  | start =>
    refine ⟨?_, ?_⟩
    · exact LogHistory.start
    · intro i t ht
      cases ht
  | @item tr w it h hp hq ih =>
    obtain ⟨h1, h2⟩ := TextTogether.log_ports guess ih.2 hp
    refine ⟨?_, h2⟩
    have h3 := LogHistory.item ih.1 hp.ported
    generalize w.ported.step guess it.ported = r at h1 h3
    generalize w.step guess it = r' at h1 h2 ⊢
    subst h1
    dsimp only at h3
    rw [portedTrace_append]
    exact h3

end Verif
