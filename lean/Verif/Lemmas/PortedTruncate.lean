import Verif.Lemmas.PortedRuns
import Verif.Lemmas.AppendRefine

/-!
# Cutting files in append mode on windows
-/

set_option autoImplicit false

namespace Verif

open Verif.Spec

namespace Buf

theorem Appends.writerTruncate_ports {b : Buf} {f : AppendFile} (h : b.Portable) (hA : Appends b.ported f) {arg : Option Int}
    (harg : arg = none → b.kind = .writer) (hz : arg.getD f.file.pos ≤ f.file.data.length) :
    writerTruncate arg b.ported = ((writerTruncate arg b).1, (writerTruncate arg b).2.ported) ∧
      (writerTruncate arg b).2.Portable := by
  have hk : b.kind ≠ .reader := hA.kind
  obtain ⟨h1, h2⟩ := flushUnlocked_ports b h
  obtain ⟨b', g1, g3, g5, g4, _, g2, _⟩ := hA.flushUnlocked
  rw [g1] at h1
  have e1 : (Buf.flushUnlocked b).1 = .ok () := (congrArg Prod.fst h1).symm
  have e2 : b' = (Buf.flushUnlocked b).2.ported := congrArg Prod.snd h1
  subst e2
  generalize hr : Buf.flushUnlocked b = r at *
  obtain ⟨r, b1⟩ := r
  dsimp only at e1 g1 g2 g3 g4 g5 h2
  subst e1
  have hl := g2.live
  have hdata : b1.raw.data = f.file.data := g2.data' g3
  have key : ∀ z : Int, z ≤ f.file.data.length →
      onRaw (Raw.truncate (some z) true) b1.ported =
        ((onRaw (Raw.truncate (some z) true) b1).1, (onRaw (Raw.truncate (some z) true) b1).2.ported) ∧
      (onRaw (Raw.truncate (some z) true) b1).2.Portable := by
    intro z hz
    obtain ⟨k1, k2⟩ := Raw.truncate_ports (s := b1.raw) h2 hl.opened (hl.writable (by
      intro h0
      exact hk (g4.symm.trans h0))) hl.blocking (z := z) (by rw [hdata]; exact hz)
    unfold onRaw
    rw [show b1.ported.raw = b1.raw.ported from rfl, k1]
    generalize Raw.truncate (some z) true b1.raw = q at *
    obtain ⟨q, s'⟩ := q
    exact ⟨rfl, k2⟩
  unfold writerTruncate
  rw [PyM.bind_ok g1, PyM.bind_ok hr]
  cases arg with
  | some z => exact key z hz
  | none =>
    have hpos : b1.raw.pos = f.file.pos := by
      have h3 : b1.raw.pos = _ := g2.pos' g3
      have h4 : b1.ported.plain.readBuf = [] := g2.writer (g4.trans (harg rfl))
      have h5 : b1.ported.plain.extra = 0 := by unfold extra; rw [h4]; simp
      rw [h5] at h3
      exact h3
    dsimp only
    rw [PyM.bind_ok (onRaw_eq (Raw.tell_ok (s := b1.ported.raw) hl.opened hl.seekable)),
      PyM.bind_ok (onRaw_eq (Raw.tell_ok (s := b1.raw) hl.opened hl.seekable))]
    rw [show b1.ported.raw.pos = f.file.pos from hpos, hpos]
    exact key _ hz

theorem Appends.truncate_ports {b : Buf} {f : AppendFile} (h : b.Portable) (hA : Appends b.ported f) {n : Option Int}
    (hu : ¬ AppendUnsafe b.kind f (.truncate n)) (hx : ¬ Stretches b.kind f.file (.truncate n)) :
    truncate n b.ported = ((truncate n b).1, (truncate n b).2.ported) ∧ (truncate n b).2.Portable := by
  unfold truncate
  rw [show b.ported.kind = b.kind from rfl]
  have hk : b.kind ≠ .reader := hA.kind
  have hz : n.getD f.file.pos ≤ (f.file.data.length : Int) := by
    apply Decidable.byContradiction
    intro hc
    exact hx ⟨hk, by omega⟩
  cases hkk : b.kind with
  | reader => exact absurd hkk hk
  | writer => cases n <;> exact hA.writerTruncate_ports h (fun _ => hkk) hz
  | random =>
    cases n with
    | some z => exact hA.writerTruncate_ports h nofun hz
    | none =>
      have hlate : f.late = false := by
        cases hl : f.late with
        | false => rfl
        | true => exact absurd (.inr ⟨hl, .inr ⟨hkk, rfl⟩⟩) hu
      have ht : b.ported.tell = (.ok f.file.pos, b.ported) := hA.tell hlate
      have htell : Buf.tell b = (.ok f.file.pos, b) := by
        obtain ⟨h1, _⟩ := tell_ports b h
        have hst : (Buf.tell b).2 = b := by
          have ho : b.raw.closed = false := (placed_same b.ported).2.2.2.2.2.2.2.1.symm.trans hA.rel.live.opened
          unfold Buf.tell
          rw [PyM.bind_ok (onRaw_eq (Raw.tell_ok (s := b.raw) ho h.seekable))]
          rfl
        rw [ht] at h1
        exact Prod.ext (congrArg Prod.fst h1).symm hst
      dsimp only
      rw [PyM.bind_ok ht, PyM.bind_ok htell]
      exact hA.writerTruncate_ports h nofun hz

theorem Appends.step_ports {b : Buf} {f : AppendFile} (h : b.Portable) (hA : Appends b.ported f) {op : StreamOp}
    (hu : ¬ AppendUnsafe b.kind f op) (hx : ¬ Stretches b.kind f.file op) :
    b.ported.step op = ((b.step op).1, (b.step op).2.ported) ∧ (b.step op).2.Portable := by
  by_cases ht : ∃ a, op = .truncate a
  · obtain ⟨a, rfl⟩ := ht
    obtain ⟨h1, h2⟩ := hA.truncate_ports h hu hx
    simp only [Buf.step, h1]
    exact ⟨trivial, h2⟩
  · exact step_same h fun a e => ht ⟨a, e⟩

theorem Appends.run_ported (ops : List StreamOp) : ∀ (b : Buf) (f : AppendFile), b.Portable → Appends b.ported f →
    ∃ pre post f', ops = pre ++ post ∧ AppendConforms b.kind f (pre.zip (b.run pre).1) f' ∧ Appends (b.run pre).2.ported f' ∧
      (b.run pre).2.Portable ∧
      (post = [] ∨ ∃ op rest, post = op :: rest ∧ (AppendUnsafe b.kind f' op ∨ Stretches b.kind f'.file op)) := by
  induction ops with
  | nil => intro b f h hR; exact ⟨[], [], f, rfl, .nil f, hR, h, Or.inl rfl⟩
  | cons op ops ih =>
    intro b f h hR
    by_cases hu : AppendUnsafe b.kind f op ∨ Stretches b.kind f.file op
    · exact ⟨[], op :: ops, f, rfl, .nil f, hR, h, Or.inr ⟨op, ops, rfl, hu⟩⟩
    · obtain ⟨f1, h1, h2⟩ := hR.step op fun hc => hu (Or.inl hc)
      obtain ⟨h3, h4⟩ := hR.step_ports h (fun hc => hu (Or.inl hc)) fun hc => hu (Or.inr hc)
      rw [h3] at h1 h2
      have hk := (step_keeps b op).1
      obtain ⟨pre, post, f', e1, e2, e3, e4, e6⟩ := ih _ f1 h4 h2
      rw [hk] at e2 e6
      exact ⟨op :: pre, post, f', by rw [e1]; rfl, .cons h1 e2, e3, e4, e6⟩

end Buf

end Verif
