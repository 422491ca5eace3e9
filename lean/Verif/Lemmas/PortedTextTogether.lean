import Verif.Lemmas.PortedText
import Verif.Lemmas.TextTogether
import Verif.Spec.WinTextTogether

/-!
# Several text streams on windows against several text streams on unix
-/

set_option autoImplicit false

namespace Verif

open Verif.Spec
open Verif.Txt (Op Out)

variable {C : Codec}

/-- The same item, with the other backend. -/
def TextItem.ported : TextItem C → TextItem C
  | .opened i t => .opened i t.ported
  | it => it

namespace Spec

/-- The same history, with the other backend. -/
def portedTrace (tr : TextTrace C) : TextTrace C := tr.map fun x => (x.1.ported, x.2)

theorem portedTrace_append (a b : TextTrace C) : portedTrace (a ++ b) = portedTrace a ++ portedTrace b := List.map_append

theorem stream_ported (it : TextItem C) : TextItem.stream it.ported = TextItem.stream it := by cases it <;> rfl

theorem lockers_ported (tr : TextTrace C) : lockers (portedTrace tr) = lockers tr := by
  unfold lockers portedTrace
  generalize ([] : List Sid) = H
  induction tr generalizing H with
  | nil => rfl
  | cons x tr ih =>
    rw [List.map_cons, List.foldl_cons, List.foldl_cons, show lockStep H (x.1.ported, x.2) = lockStep H x by
      obtain ⟨it, o⟩ := x; cases it <;> rfl]
    exact ih _

theorem lastCall_ported (tr : TextTrace C) (i : Sid) :
    lastCall (portedTrace tr) i = (lastCall tr i).map fun x => (x.1.ported, x.2) := by
  unfold lastCall portedTrace
  rw [← List.map_reverse, List.find?_map]
  congr 2
  funext x
  simp [stream_ported]

theorem callsOf_ported (i : Sid) (tr : TextTrace C) : callsOf i (portedTrace tr) = callsOf i tr := by
  unfold callsOf portedTrace
  rw [List.filterMap_map]
  congr 1
  funext x
  obtain ⟨it, o⟩ := x
  cases it <;> rfl

theorem Within.ported {i : Sid} {tr : TextTrace C} (h : Within i tr) : Within i (portedTrace tr) := by
  intro x hx
  obtain ⟨y, hy, rfl⟩ := List.mem_map.1 hx
  obtain ⟨h1, h2⟩ := h y hy
  refine ⟨fun hs => ?_, ?_⟩
  · dsimp only at hs
    rw [stream_ported] at hs
    obtain ⟨op, e⟩ := h1 hs
    exact ⟨op, by dsimp only; rw [e]; rfl⟩
  · intro e
    apply h2
    obtain ⟨it, o⟩ := y
    cases it <;> first | exact e | cases e

theorem LogTrace.ported {tr : TextTrace C} {l : List (Sid × Text)} (h : LogTrace tr l) : LogTrace (portedTrace tr) l := by
  induction h with
  | start => exact .start
  | @other tr l x h hx ih =>
    rw [portedTrace_append]
    refine .other ih ?_
    intro i e
    obtain ⟨it, o⟩ := x
    cases it <;> first | exact hx i e | cases e
  | @entry tr mid l i s o o' o'' h hm hc ih =>
    rw [portedTrace_append, portedTrace_append]
    exact .entry (mid := portedTrace mid) (o'' := o'') ih hm.ported (by rw [callsOf_ported]; exact hc)

theorem WinTextProper.ported {tr : TextTrace C} {it : TextItem C} (h : WinTextProper tr it) :
    TextProper (portedTrace tr) it.ported := by
  cases it with
  | opened i t =>
    obtain ⟨h1, nl, ls, raw, h2⟩ := h
    refine ⟨?_, nl, ls, raw.ported, ?_⟩
    · intro x hx
      obtain ⟨y, hy, rfl⟩ := List.mem_map.1 hx
      dsimp only
      rw [stream_ported]
      exact h1 y hy
    · obtain ⟨n, b, lb, h3, h4⟩ := h2.built
      obtain ⟨g1, g2, _⟩ := h3.ported h2.blocking
      obtain ⟨g3, _⟩ := Txt.create_ports (C := C) nl lb ls g2
      rw [h4] at g3
      exact ⟨⟨n, _, lb, g1, g3⟩, h2.writes, h2.blocking⟩
  | ask i =>
    have h : i ∉ lockers tr := h
    change i ∉ _
    rw [lockers_ported]; exact h
  | granted i =>
    obtain ⟨h1, h2⟩ : lastCall tr i = some (.ask i, .done) ∧ lockers tr = [] := h
    refine ⟨?_, by rw [lockers_ported]; exact h2⟩
    rw [lastCall_ported, h1]; rfl
  | did i op => exact ⟨by rw [lockers_ported]; exact h.1, h.2.1⟩
  | unlock i =>
    have h : i ∈ lockers tr := h
    change i ∈ _
    rw [lockers_ported]; exact h
  | exit i =>
    obtain ⟨h1, h2⟩ : i ∈ lockers tr ∧ lastCall tr i = some (.did i .flush, .done) := h
    refine ⟨by rw [lockers_ported]; exact h1, ?_⟩
    rw [lastCall_ported, h2]; rfl
  | close i => trivial
  | gone p => trivial

end Spec

namespace TextTogether

/-- The same streams, with the other backend. -/
def ported (w : TextTogether C) : TextTogether C := ⟨w.file, fun i => (w.txts i).map Txt.ported⟩

/-- All streams are over such a file. -/
def Portable (w : TextTogether C) : Prop := ∀ i t, w.txts i = some t → t.Portable

theorem load_portable {t : Txt C} (h : t.Portable) (d : Bytes) : (load t d).Portable :=
  ⟨h.windows, h.zeros, h.seekable, h.moves, h.appending⟩

theorem on_ports {w : TextTogether C} (hw : w.Portable) {i : Sid} (m : Txt C → Out × Txt C)
    (h : ∀ t, w.txts i = some t → m (load t w.file).ported = ((m (load t w.file)).1, (m (load t w.file)).2.ported) ∧
      (m (load t w.file)).2.Portable) :
    w.ported.on i m = ((w.on i m).1, (w.on i m).2.ported) ∧ (w.on i m).2.Portable := by
  unfold on
  cases hb : w.txts i with
  | none =>
    rw [show w.ported.txts i = none by simp [ported, hb]]
    exact ⟨rfl, hw⟩
  | some t =>
    rw [show w.ported.txts i = some t.ported by simp [ported, hb]]
    obtain ⟨h1, h2⟩ := h t hb
    dsimp only
    rw [show load t.ported w.ported.file = (load t w.file).ported from rfl, h1]
    refine ⟨Prod.ext rfl ?_, ?_⟩
    · unfold keep ported
      simp only [TextTogether.mk.injEq]
      refine ⟨rfl, funext fun j => ?_⟩
      split <;> rfl
    · intro j c hc
      unfold keep at hc
      dsimp only at hc
      split at hc
      · cases hc; exact h2
      · exact hw j c hc

theorem prepare_ports (guess : Nat × Nat → Nat → Nat) : Txt.Agrees (C := C) (prepare guess) :=
  (Txt.resetBuffers_ports guess).bind fun _ => Txt.onBuf_ports Buf.resetBuffers_ports

/-- An item does the same with both backends. -/
theorem step_ports (guess : Nat × Nat → Nat → Nat) {tr : TextTrace C} {w : TextTogether C} (hw : w.Portable) {it : TextItem C}
    (hp : WinTextProper tr it) :
    w.ported.step guess it.ported = ((w.step guess it).1, (w.step guess it).2.ported) ∧ (w.step guess it).2.Portable := by
  cases it with
  | opened i t =>
    refine ⟨?_, ?_⟩
    · change (Out.done, _) = (Out.done, _)
      congr 1
      unfold ported step
      simp only [TextTogether.mk.injEq, true_and]
      funext j
      split <;> rfl
    · intro j c hc
      change (if j = i then some t else w.txts j) = some c at hc
      split at hc
      · cases hc
        obtain ⟨_, nl, ls, raw, h2⟩ := hp
        obtain ⟨n, b, lb, h3, h4⟩ := h2.built
        obtain ⟨_, g2, _⟩ := h3.ported h2.blocking
        obtain ⟨_, g4⟩ := Txt.create_ports (C := C) nl lb ls g2
        rw [h4] at g4
        exact g4
      · exact hw j c hc
  | ask i =>
    exact on_ports hw (fun t => Out.of (fun _ => .done) (prepare guess t)) fun t ht =>
      Txt.of_ports (prepare_ports guess) _ (load_portable (hw i t ht) _)
  | granted i =>
    exact on_ports hw (fun t => Out.of (fun _ => .done) (Txt.onBuf (Buf.onRaw (Raw.lockFile t.buf.raw.data)) t)) fun t ht =>
      Txt.of_ports (Txt.onBuf_ports (Buf.onRaw_ports (Raw.lockFile_ports _))) _ (load_portable (hw i t ht) _)
  | did i op =>
    refine on_ports hw (fun t => t.step guess op) fun t ht => Txt.step_ports guess (load_portable (hw i t ht) _) ?_
    obtain ⟨_, _, h1, h2⟩ := hp
    intro hs
    cases op with
    | truncate a => exact h1 a rfl
    | sync a m f => exact h2 a m f rfl
    | _ => exact hs
  | unlock i =>
    exact on_ports hw (fun t => t.step guess .unlock) fun t ht => Txt.step_ports guess (load_portable (hw i t ht) _) id
  | exit i =>
    exact on_ports hw (fun t => Out.of (fun _ => .done) (Txt.onBuf Buf.exitLock t)) fun t ht =>
      Txt.of_ports (Txt.onBuf_ports Buf.exitLock_ports) _ (load_portable (hw i t ht) _)
  | close i =>
    obtain ⟨h1, h2⟩ := on_ports hw (i := i) (fun t => t.step guess .close) fun t ht =>
      Txt.step_ports guess (load_portable (hw i t ht) w.file) id
    change (match w.ported.on i (fun t => t.step guess .close) with
      | (out, w') => (out, ({ w' with txts := fun j => if j = i then none else w'.txts j } : TextTogether C))) = _ ∧ _
    rw [h1]
    refine ⟨?_, ?_⟩
    · unfold step
      refine Prod.ext rfl ?_
      unfold ported
      simp only [TextTogether.mk.injEq, true_and]
      funext j
      split <;> rfl
    · intro j c hc
      change (if j = i then none else _) = some c at hc
      split at hc
      · cases hc
      · exact h2 j c hc
  | gone p =>
    refine ⟨?_, ?_⟩
    · change (Out.done, _) = (Out.done, _)
      congr 1
      unfold ported step
      simp only [TextTogether.mk.injEq, true_and]
      funext j
      split <;> rfl
    · intro j c hc
      change (if j.1 = p then none else w.txts j) = some c at hc
      split at hc
      · cases hc
      · exact hw j c hc

end TextTogether

/-- A history on windows is one on unix. -/
theorem Spec.WinTextHistory.ported {guess : Nat × Nat → Nat → Nat} {d : Bytes} {tr : TextTrace C} {w : TextTogether C}
    (h : WinTextHistory guess d tr w) : TextHistory guess d (portedTrace tr) w.ported ∧ w.Portable := by
  induction h with
  | start =>
    refine ⟨?_, ?_⟩
    · exact TextHistory.start
    · intro i t ht
      cases ht
  | @item tr w it h hp hq ih =>
    obtain ⟨h1, h2⟩ := TextTogether.step_ports guess ih.2 hp
    refine ⟨?_, h2⟩
    have h3 := TextHistory.item ih.1 hp.ported
    generalize w.ported.step guess it.ported = r at h1 h3
    generalize w.step guess it = r' at h1 h2 ⊢
    subst h1
    dsimp only at h3
    rw [portedTrace_append]
    exact h3

end Verif
