import Verif.Lemmas.PortedRuns
import Verif.Lemmas.Together
import Verif.Spec.WinTogether

/-!
# Several streams on windows against several streams on unix
-/

set_option autoImplicit false

namespace Verif

open Verif.Spec

/-- The same item, with the other backend. -/
def Item.ported : Item → Item
  | .opened i b => .opened i b.ported
  | it => it

namespace Spec

theorem holding_ported (h : List Item) : holding (h.map Item.ported) = holding h := by
  unfold holding
  generalize ([] : List (Sid × Bool)) = H
  induction h generalizing H with
  | nil => rfl
  | cons it its ih =>
    rw [List.map_cons, List.foldl_cons, List.foldl_cons, show holdStep H it.ported = holdStep H it by cases it <;> rfl]
    exact ih _

theorem openIn_ported (h : List Item) : openIn (h.map Item.ported) = openIn h := by
  unfold openIn
  generalize ([] : List Sid) = S
  induction h generalizing S with
  | nil => rfl
  | cons it its ih =>
    rw [List.map_cons, List.foldl_cons, List.foldl_cons, show openStep S it.ported = openStep S it by cases it <;> rfl]
    exact ih _

theorem lastOf_ported (h : List Item) (i : Sid) : lastOf (h.map Item.ported) i = (lastOf h i).map Item.ported := by
  unfold lastOf
  rw [← List.map_reverse, List.find?_map]
  congr 2
  funext it
  cases it <;> rfl

theorem lastOf_same {h : List Item} {i : Sid} {it : Item} (hl : lastOf h i = some it) :
    lastOf (h.map Item.ported) i = some it.ported := by rw [lastOf_ported, hl]; rfl

end Spec

/-- A fresh stream of windows is one of unix. -/
theorem WinFresh.ported {b : Buf} (h : WinFresh b) : FreshStream b.ported ∧ b.Portable := by
  obtain ⟨⟨k, n, raw, hc⟩, h1, h2, h3, h4, h5⟩ := h
  obtain ⟨rfl, h0, g1, g2, g3⟩ := Props.create_ok hc
  dsimp only at h1 h2 h3 h4 h5
  refine ⟨⟨⟨k, n, raw.ported, ?_⟩, rfl, h3, h4, h5⟩, h1, h2, h4, ?_, fun _ => h5⟩
  · have hle : ¬ n ≤ 0 := by omega
    unfold Buf.create
    rw [show raw.ported.closed = raw.closed from rfl, show raw.ported.seekable = raw.seekable from rfl,
      show raw.ported.readable = raw.readable from rfl, show raw.ported.writable = raw.writable from rfl, g1, h4]
    cases k <;> simp_all [Buf.ported]
  · intro a ha e
    obtain ⟨j, e', hj⟩ := h5 a ha
    rw [e'] at e
    cases e
    omega

theorem WinProper.ported {h : List Item} {it : Item} (hp : WinProper h it) : Proper (h.map Item.ported) it.ported := by
  cases it with
  | opened i b => exact ⟨by rw [openIn_ported]; exact hp.1, (WinFresh.ported hp.2).1⟩
  | ask i =>
    have hp : Proper h (.ask i) := hp
    exact ⟨by rw [openIn_ported]; exact hp.1, by rw [holding_ported]; exact hp.2⟩
  | granted i sh =>
    have hp : Proper h (.granted i sh) := hp
    exact ⟨by rw [openIn_ported]; exact hp.1, lastOf_same hp.2⟩
  | did i op =>
    have hp : Proper h (.did i op) := hp
    change Proper _ (.did i op)
    unfold Proper at hp ⊢
    rw [holding_ported]; exact hp
  | unlock i =>
    have hp : Proper h (.unlock i) := hp
    change Proper _ (.unlock i)
    unfold Proper at hp ⊢
    rw [holding_ported]; exact hp
  | exit i =>
    have hp : Proper h (.exit i) := hp
    change Proper _ (.exit i)
    unfold Proper at hp ⊢
    rw [holding_ported]
    exact hp.imp id fun hp => ⟨hp.1, lastOf_same hp.2⟩
  | close i =>
    have hp : Proper h (.close i) := hp
    change Proper _ (.close i)
    unfold Proper at hp ⊢
    rw [openIn_ported]; exact hp
  | gone p =>
    have hp : Proper h (.gone p) := hp
    change Proper _ (.gone p)
    unfold Proper at hp ⊢
    rw [holding_ported]; exact hp

namespace Together

/-- The same streams, with the other backend. -/
def ported (w : Together) : Together := ⟨w.file, fun i => (w.bufs i).map Buf.ported⟩

/-- All streams are over such a file. -/
def Portable (w : Together) : Prop := ∀ i b, w.bufs i = some b → b.Portable

theorem load_portable {b : Buf} (h : b.Portable) (d : Bytes) : (load b d).Portable :=
  ⟨h.windows, h.zeros, h.seekable, h.moves, h.appending⟩

theorem on_ports {w : Together} (hw : w.Portable) {i : Sid} (m : Buf → StreamOut × Buf)
    (h : ∀ b, w.bufs i = some b → m (load b w.file).ported = ((m (load b w.file)).1, (m (load b w.file)).2.ported) ∧
      (m (load b w.file)).2.Portable) :
    w.ported.on i m = ((w.on i m).1, (w.on i m).2.ported) ∧ (w.on i m).2.Portable := by
  unfold on
  cases hb : w.bufs i with
  | none =>
    rw [show w.ported.bufs i = none by simp [ported, hb]]
    exact ⟨rfl, hw⟩
  | some b =>
    rw [show w.ported.bufs i = some b.ported by simp [ported, hb]]
    obtain ⟨h1, h2⟩ := h b hb
    dsimp only
    rw [show load b.ported w.ported.file = (load b w.file).ported from rfl, h1]
    refine ⟨Prod.ext rfl ?_, ?_⟩
    · unfold keep ported
      simp only [Together.mk.injEq]
      refine ⟨rfl, funext fun j => ?_⟩
      split <;> rfl
    · intro j c hc
      unfold keep at hc
      dsimp only at hc
      split at hc
      · cases hc; exact h2
      · exact hw j c hc

theorem unit_ports {m : PyM Buf Unit} (hm : Ports Buf.Portable Buf.ported m) {b : Buf} (h : b.Portable) :
    (StreamOut.ofUnit (m b.ported).1, (m b.ported).2) = (StreamOut.ofUnit (m b).1, (m b).2.ported) ∧ (m b).2.Portable := by
  obtain ⟨h1, h2⟩ := hm b h
  rw [h1]
  exact ⟨rfl, h2⟩

/-- An item does the same with both backends. -/
theorem step_ports {h : List Item} {w : Together} {s : Common} (hw : w.Portable) (hi : InTurn (h.map Item.ported) w.ported s)
    {it : Item} (hp : WinProper h it) (hu : ¬ s.WinUnsafe it) :
    w.ported.step it.ported = ((w.step it).1, (w.step it).2.ported) ∧ (w.step it).2.Portable := by
  cases it with
  | opened i b =>
    refine ⟨?_, ?_⟩
    · change (StreamOut.done, _) = (StreamOut.done, _)
      congr 1
      unfold ported step
      simp only [Together.mk.injEq, true_and]
      funext j
      split <;> rfl
    · intro j c hc
      change (if j = i then some b else w.bufs j) = some c at hc
      split at hc
      · cases hc; exact (WinFresh.ported hp.2).2
      · exact hw j c hc
  | ask i =>
    exact on_ports hw (fun b => (.ofUnit (Buf.resetBuffers b).1, (Buf.resetBuffers b).2)) fun b hb =>
      unit_ports Buf.resetBuffers_ports (load_portable (hw i b hb) _)
  | granted i sh =>
    exact on_ports hw (fun b => (.ofUnit (Buf.onRaw (Raw.lockFile b.raw.data) b).1, (Buf.onRaw (Raw.lockFile b.raw.data) b).2))
      fun b hb => unit_ports (Buf.onRaw_ports (Raw.lockFile_ports _)) (load_portable (hw i b hb) _)
  | did i op =>
    refine on_ports hw (fun b => b.step op) fun b hb => ?_
    have hp : Proper h (.did i op) := hp
    have hh : ∃ sh, (i, sh) ∈ holding h := hp.elim (fun h => h.2) (fun h => ⟨_, h.2⟩)
    obtain ⟨sh, hh⟩ := hh
    have hb' : w.ported.bufs i = some b.ported := by simp [ported, hb]
    obtain ⟨log, hr⟩ := hi.holds i b.ported sh hb' (by rw [holding_ported]; exact hh)
    have hr : Buf.R (load b w.file).ported (s.view i log) := hr
    refine Buf.step_ports (load_portable (hw i b hb) _) hr fun hc => hu (Or.inr ?_)
    rw [hi.kind i _ hb']
    cases op <;> (first | exact hc.elim | exact hc)
  | unlock i =>
    exact on_ports hw (fun b => (.ofUnit (Buf.unlockFile b).1, (Buf.unlockFile b).2)) fun b hb =>
      unit_ports Buf.unlockFile_ports (load_portable (hw i b hb) _)
  | exit i =>
    exact on_ports hw (fun b => (.ofUnit (Buf.exitLock b).1, (Buf.exitLock b).2)) fun b hb =>
      unit_ports Buf.exitLock_ports (load_portable (hw i b hb) _)
  | close i =>
    obtain ⟨h1, h2⟩ := on_ports hw (i := i) (fun b => (.ofUnit (Buf.close b).1, (Buf.close b).2)) fun b hb =>
      unit_ports Buf.close_ports (load_portable (hw i b hb) w.file)
    change (match w.ported.on i (fun b => (.ofUnit (Buf.close b).1, (Buf.close b).2)) with
      | (out, w') => (out, ({ w' with bufs := fun j => if j = i then none else w'.bufs j } : Together))) = _ ∧ _
    rw [h1]
    refine ⟨?_, ?_⟩
    · unfold step
      refine Prod.ext rfl ?_
      unfold ported
      simp only [Together.mk.injEq, true_and]
      funext j
      split <;> rfl
    · intro j c hc
      change (if j = i then none else _) = some c at hc
      split at hc
      · cases hc
      · exact h2 j c hc
  | gone p =>
    refine ⟨?_, ?_⟩
    · change (StreamOut.done, _) = (StreamOut.done, _)
      congr 1
      unfold ported step
      simp only [Together.mk.injEq, true_and]
      funext j
      split <;> rfl
    · intro j c hc
      change (if j.1 = p then none else w.bufs j) = some c at hc
      split at hc
      · cases hc
      · exact hw j c hc

end Together

/-- A step of the array does not depend on the backend. -/
theorem Common.step_ported {s s' : Common} {it : Item} {out : StreamOut} (h : s.Step it.ported out s') : s.Step it out s' := by
  cases it <;> exact h

theorem WinDisciplined.history {h : List Item} (hd : WinDisciplined h) (d : Bytes) :
    ∃ pre post s, h = pre ++ post ∧ WinDisciplined pre ∧
      Serially (.start d) (Together.play ⟨d, fun _ => none⟩ pre).1 s ∧
      InTurn (pre.map Item.ported) (Together.play ⟨d, fun _ => none⟩ pre).2.ported s ∧
      (Together.play ⟨d, fun _ => none⟩ pre).2.Portable ∧
      (post = [] ∨ ∃ it rest, post = it :: rest ∧ s.WinUnsafe it) := by
  induction hd with
  | nil => exact ⟨[], [], .start d, rfl, .nil, .nil _, InTurn.start d, nofun, Or.inl rfl⟩
  | @snoc h it hd hp hx ih =>
    obtain ⟨pre, post, s, rfl, e0, e1, e2, e3, e4⟩ := ih
    rcases e4 with rfl | ⟨it', rest, rfl, e4⟩
    · rw [List.append_nil] at hp hx
      by_cases hu : s.WinUnsafe it
      · exact ⟨pre, [it], s, by simp, e0, e1, e2, e3, Or.inr ⟨it, [], rfl, hu⟩⟩
      · have hu' : ¬ s.Unsafe it.ported := by
          intro hc
          cases it <;> first | exact hc.elim | exact hu (Or.inl hc)
        obtain ⟨k1, k2⟩ := Together.step_ports e3 e2 hp hu
        obtain ⟨s', g1, g2⟩ := e2.step (WinProper.ported hp) (by
          rw [show pre.map Item.ported ++ [it.ported] = (pre ++ [it]).map Item.ported by simp, holding_ported]; exact hx) hu'
        rw [k1] at g1 g2
        refine ⟨pre ++ [it], [], s', by simp, .snoc e0 hp hx, ?_, ?_, ?_, Or.inl rfl⟩
        · rw [Together.play_snoc]; exact .snoc e1 (Common.step_ported g1)
        · rw [Together.play_snoc, List.map_append]; exact g2
        · rw [Together.play_snoc]; exact k2
    · exact ⟨pre, (it' :: rest) ++ [it], s, by simp, e0, e1, e2, e3, Or.inr ⟨it', rest ++ [it], by simp, e4⟩⟩

end Verif
