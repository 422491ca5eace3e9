import Verif.Lemmas.PortedTogether
import Verif.Lemmas.AppendTogether
import Verif.Lemmas.PortedTruncate
import Verif.Spec.WinAppendTogether

/-!
# Several streams on windows, in append mode or not, against several streams on unix
-/

set_option autoImplicit false

namespace Verif

open Verif.Spec

/-- A fresh stream of windows is one of unix. -/
theorem WinFreshAny.ported {b : Buf} (h : WinFreshAny b) : FreshAny b.ported ∧ b.Portable := by
  obtain ⟨⟨k, n, raw, hc⟩, h1, h2, h4, h5, h6⟩ := h
  obtain ⟨rfl, h0, g1, g2, g3⟩ := Props.create_ok hc
  dsimp only at h1 h2 h4 h5 h6
  refine ⟨⟨⟨k, n, raw.ported, ?_⟩, rfl, h4, h5, h6⟩, h1, h2, h4, ?_, fun _ => h5⟩
  · have hle : ¬ n ≤ 0 := by omega
    unfold Buf.create
    rw [show raw.ported.closed = raw.closed from rfl, show raw.ported.seekable = raw.seekable from rfl,
      show raw.ported.readable = raw.readable from rfl, show raw.ported.writable = raw.writable from rfl, g1, h4]
    cases k <;> simp_all [Buf.ported]
  · intro a ha e
    obtain ⟨j, e', hj⟩ := h5 a ha
    rw [e'] at e
    cases e
    omega

theorem WinProperAny.ported {h : List Item} {it : Item} (hp : WinProperAny h it) : ProperAny (h.map Item.ported) it.ported := by
  cases it with
  | opened i b => exact ⟨by rw [openIn_ported]; exact hp.1, (WinFreshAny.ported hp.2).1⟩
  | ask i => exact WinProper.ported (it := .ask i) hp
  | granted i sh => exact WinProper.ported (it := .granted i sh) hp
  | did i op => exact WinProper.ported (it := .did i op) hp
  | unlock i => exact WinProper.ported (it := .unlock i) hp
  | exit i => exact WinProper.ported (it := .exit i) hp
  | close i => exact WinProper.ported (it := .close i) hp
  | gone p => exact WinProper.ported (it := .gone p) hp

namespace Together

/-- An item does the same with both backends. -/
theorem step_same {h : List Item} {w : Together} (hw : w.Portable) {it : Item} (hp : WinProperAny h it)
    (ht : ∀ i a, it ≠ .did i (.truncate a)) :
    w.ported.step it.ported = ((w.step it).1, (w.step it).2.ported) ∧ (w.step it).2.Portable := by
  cases it with
  | opened i b =>
    refine ⟨?_, ?_⟩
    · change (StreamOut.done, _) = (StreamOut.done, _)
      congr 1
      unfold ported step
      simp only [Together.mk.injEq, true_and]
      funext j
      split <;> rfl
    · intro j c hc
      change (if j = i then some b else w.bufs j) = some c at hc
      split at hc
      · cases hc; exact (WinFreshAny.ported hp.2).2
      · exact hw j c hc
  | ask i =>
    exact on_ports hw (fun b => (.ofUnit (Buf.resetBuffers b).1, (Buf.resetBuffers b).2)) fun b hb =>
      unit_ports Buf.resetBuffers_ports (load_portable (hw i b hb) _)
  | granted i sh =>
    exact on_ports hw (fun b => (.ofUnit (Buf.onRaw (Raw.lockFile b.raw.data) b).1, (Buf.onRaw (Raw.lockFile b.raw.data) b).2))
      fun b hb => unit_ports (Buf.onRaw_ports (Raw.lockFile_ports _)) (load_portable (hw i b hb) _)
  | did i op =>
    exact on_ports hw (fun b => b.step op) fun b hb =>
      Buf.step_same (load_portable (hw i b hb) _) fun a e => ht i a (by rw [e])
  | unlock i =>
    exact on_ports hw (fun b => (.ofUnit (Buf.unlockFile b).1, (Buf.unlockFile b).2)) fun b hb =>
      unit_ports Buf.unlockFile_ports (load_portable (hw i b hb) _)
  | exit i =>
    exact on_ports hw (fun b => (.ofUnit (Buf.exitLock b).1, (Buf.exitLock b).2)) fun b hb =>
      unit_ports Buf.exitLock_ports (load_portable (hw i b hb) _)
  | close i =>
    obtain ⟨h1, h2⟩ := on_ports hw (i := i) (fun b => (.ofUnit (Buf.close b).1, (Buf.close b).2)) fun b hb =>
      unit_ports Buf.close_ports (load_portable (hw i b hb) w.file)
    change (match w.ported.on i (fun b => (.ofUnit (Buf.close b).1, (Buf.close b).2)) with
      | (out, w') => (out, ({ w' with bufs := fun j => if j = i then none else w'.bufs j } : Together))) = _ ∧ _
    rw [h1]
    refine ⟨?_, ?_⟩
    · unfold step
      refine Prod.ext rfl ?_
      unfold ported
      simp only [Together.mk.injEq, true_and]
      funext j
      split <;> rfl
    · intro j c hc
      change (if j = i then none else _) = some c at hc
      split at hc
      · cases hc
      · exact h2 j c hc
  | gone p =>
    refine ⟨?_, ?_⟩
    · change (StreamOut.done, _) = (StreamOut.done, _)
      congr 1
      unfold ported step
      simp only [Together.mk.injEq, true_and]
      funext j
      split <;> rfl
    · intro j c hc
      change (if j.1 = p then none else w.bufs j) = some c at hc
      split at hc
      · cases hc
      · exact hw j c hc

/-- A history, without `truncate`. -/
theorem play_ports {h : List Item} (hd : WinDisciplinedAny h) (ht : ∀ i a, .did i (.truncate a) ∉ h) (d : Bytes) :
    (play ⟨d, fun _ => none⟩ (h.map Item.ported)).1 = (play ⟨d, fun _ => none⟩ h).1.map (fun e => (e.1.ported, e.2)) ∧
      (play ⟨d, fun _ => none⟩ (h.map Item.ported)).2 = (play ⟨d, fun _ => none⟩ h).2.ported ∧
      (play ⟨d, fun _ => none⟩ h).2.Portable ∧ DisciplinedAny (h.map Item.ported) := by
  induction hd with
  | nil => exact ⟨rfl, rfl, nofun, .nil⟩
  | @snoc h it hd hp hx ih =>
    obtain ⟨e1, e2, e3, e4⟩ := ih fun i a hc => ht i a (List.mem_append_left _ hc)
    obtain ⟨k1, k2⟩ := step_same e3 hp fun i a e => ht i a (by rw [e]; simp)
    rw [List.map_append, List.map_cons, List.map_nil, play_snoc, play_snoc, e1, e2, k1, List.map_append]
    refine ⟨rfl, rfl, k2, .snoc e4 (WinProperAny.ported hp) ?_⟩
    rw [show h.map Item.ported ++ [it.ported] = (h ++ [it]).map Item.ported by simp, holding_ported]
    exact hx

/-- With `truncate`, as long as it does not lengthen the file. -/
theorem turn_ports {h : List Item} {w : Together} {s : Pool} (hw : w.Portable) (hi : Turns (h.map Item.ported) w.ported s)
    {it : Item} (hp : WinProperAny h it) (hu : ¬ s.WinUnsafe it) :
    w.ported.step it.ported = ((w.step it).1, (w.step it).2.ported) ∧ (w.step it).2.Portable := by
  by_cases ht : ∃ i a, it = .did i (.truncate a)
  · obtain ⟨i, a, rfl⟩ := ht
    refine on_ports hw (fun b => b.step (.truncate a)) fun b hb => ?_
    have hp : Proper h (.did i (.truncate a)) := hp
    have hh : ∃ sh, (i, sh) ∈ holding h := hp.elim (fun h => h.2) (fun h => ⟨_, h.2⟩)
    obtain ⟨sh, hh⟩ := hh
    have hb' : w.ported.bufs i = some b.ported := by simp [ported, hb]
    obtain ⟨log, hr⟩ := hi.holds i b.ported sh hb' (by rw [holding_ported]; exact hh)
    have hr : Rep (load b w.file).ported (s.view i log) := hr
    have hk : (load b w.file).kind = s.kind i := (hi.kind i _ hb').symm
    have hap : b.raw.append = s.append i := (hi.append i _ hb').symm
    have hx : ¬ Stretches (load b w.file).kind (s.view i log).file (.truncate a) := fun hc => hu (.inr (by rw [← hk]; exact hc))
    cases ha : b.raw.append with
    | false => exact Buf.step_ports (load_portable (hw i b hb) _) (hr.plain ha) hx
    | true =>
      exact Buf.Appends.step_ports (load_portable (hw i b hb) _) (hr.append ha)
        (fun hc => hu (.inl (.inl ⟨hap.symm.trans ha, by rw [← hk]; exact hc⟩))) hx
  · exact step_same hw hp fun i a e => ht ⟨i, a, e⟩

end Together

theorem Pool.step_unported {s s' : Pool} {it : Item} {out : StreamOut} (h : s.Step it.ported out s') : s.Step it out s' := by
  cases it <;> exact h

theorem WinDisciplinedAny.history {h : List Item} (hd : WinDisciplinedAny h) (d : Bytes) :
    ∃ pre post s, h = pre ++ post ∧ WinDisciplinedAny pre ∧
      Pooled (.start d) (Together.play ⟨d, fun _ => none⟩ pre).1 s ∧
      Turns (pre.map Item.ported) (Together.play ⟨d, fun _ => none⟩ pre).2.ported s ∧
      (Together.play ⟨d, fun _ => none⟩ pre).2.Portable ∧
      (post = [] ∨ ∃ it rest, post = it :: rest ∧ s.WinUnsafe it) := by
  induction hd with
  | nil => exact ⟨[], [], .start d, rfl, .nil, .nil _, Turns.start d, nofun, Or.inl rfl⟩
  | @snoc h it hd hp hx ih =>
    obtain ⟨pre, post, s, rfl, e0, e1, e2, e3, e4⟩ := ih
    rcases e4 with rfl | ⟨it', rest, rfl, e4⟩
    · rw [List.append_nil] at hp hx
      by_cases hu : s.WinUnsafe it
      · exact ⟨pre, [it], s, by simp, e0, e1, e2, e3, Or.inr ⟨it, [], rfl, hu⟩⟩
      · have hu' : ¬ s.Unsafe it.ported := by
          intro hc
          cases it <;> first | exact hc.elim | exact hu (Or.inl hc)
        obtain ⟨k1, k2⟩ := Together.turn_ports e3 e2 hp hu
        obtain ⟨s', g1, g2⟩ := e2.step (WinProperAny.ported hp) (by
          rw [show pre.map Item.ported ++ [it.ported] = (pre ++ [it]).map Item.ported by simp, holding_ported]; exact hx) hu'
        rw [k1] at g1 g2
        refine ⟨pre ++ [it], [], s', by simp, .snoc e0 hp hx, ?_, ?_, ?_, Or.inl rfl⟩
        · rw [Together.play_snoc]; exact .snoc e1 (Pool.step_unported g1)
        · rw [Together.play_snoc, List.map_append]; exact g2
        · rw [Together.play_snoc]; exact k2
    · exact ⟨pre, (it' :: rest) ++ [it], s, by simp, e0, e1, e2, e3, Or.inr ⟨it', rest ++ [it], by simp, e4⟩⟩

/-- The array does not depend on the backend. -/
theorem Pooled.unported {s₀ s : Pool} {tr : List (Item × StreamOut)} (h : Pooled s₀ (tr.map fun e => (e.1.ported, e.2)) s) :
    Pooled s₀ tr s := by
  generalize hg : tr.map (fun e => (e.1.ported, e.2)) = g at h
  induction h generalizing tr with
  | nil =>
    rw [List.map_eq_nil_iff] at hg
    subst hg
    exact .nil _
  | @snoc s' s'' tr' it out _ h2 ih =>
    obtain ⟨a, b, rfl, ha, hb⟩ := List.map_eq_append_iff.1 hg
    cases b with
    | nil => cases hb
    | cons e b =>
      obtain ⟨x, o⟩ := e
      simp only [List.map_cons, List.cons.injEq, Prod.mk.injEq, List.map_eq_nil_iff] at hb
      obtain ⟨⟨rfl, rfl⟩, rfl⟩ := hb
      refine .snoc (ih ha) ?_
      cases x <;> exact h2

end Verif
