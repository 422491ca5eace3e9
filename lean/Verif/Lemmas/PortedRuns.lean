import Verif.Lemmas.Ported
import Verif.Lemmas.BufferedRefine
import Verif.Spec.Stretches

/-!
# Histories of buffered streams on windows
-/

set_option autoImplicit false

namespace Verif

open Verif.Spec

namespace Raw

/-- Cutting a file does the same on both systems. -/
theorem resize_ports {s : Raw} (h : s.Portable) (ho : s.closed = false) (hb : Blocking s.sched) {n : Nat}
    (hn : n ≤ s.data.length) :
    resize n true s.ported = ((resize n true s).1, (resize n true s).2.ported) ∧ (resize n true s).2.Portable ∧
      (resize n true s).1 = .ok () := by
  have hs1 : size s = (.ok s.data.length, s) := size_open ho
  have hs2 : size s.ported = (.ok s.data.length, s.ported) := size_open (s := s.ported) ho
  unfold resize
  rw [PyM.bind_ok hs1, PyM.bind_ok hs2]
  by_cases he : n = s.data.length
  · rw [if_pos he]; exact ⟨rfl, h, rfl⟩
  rw [if_neg he, if_pos (by omega)]
  have hcut : ∀ fill : Nat → Byte, (extendTo fill s.data n).take n = s.data.take n := by
    intro fill
    unfold extendTo
    rw [List.take_append_of_le_length (by omega)]
  -- the system call
  have hos : ∀ t : Raw, t.sched = s.sched → t.data = s.data → ∃ sched', (∀ a ∈ sched', a ∈ s.sched) ∧
      osTruncate n t = (.ok (), { t with data := s.data.take n, disk := t.disk ++ [.content (s.data.take n)], sched := sched' }) ∧
      (∀ t' : Raw, t'.sched = s.sched → t'.data = s.data →
        osTruncate n t' = (.ok (), { t' with data := s.data.take n, disk := t'.disk ++ [.content (s.data.take n)], sched := sched' })) := by
    intro t h1 h2
    refine ⟨s.sched.tail, fun a ha => List.mem_of_mem_tail ha, ?_⟩
    have key : ∀ t' : Raw, t'.sched = s.sched → t'.data = s.data →
        osTruncate n t' =
          (.ok (), { t' with data := s.data.take n, disk := t'.disk ++ [.content (s.data.take n)], sched := s.sched.tail }) := by
      intro t' h1 h2
      unfold osTruncate nextAns
      rw [h1]
      cases hs : s.sched with
      | nil =>
        rw [hs] at h1
        simp only [h2, hcut, List.tail_nil, h1]
      | cons a rest =>
        obtain ⟨k, rfl, _⟩ := hb a (by rw [hs]; exact List.mem_cons_self)
        simp only [h2, hcut, List.tail_cons]
    exact ⟨key t h1 h2, key⟩
  obtain ⟨sched', hsub, _, hos⟩ := hos s rfl rfl
  unfold innerReduce
  split
  · split
    · rename_i hp; rw [h.windows] at hp; cases hp
    · rw [hos s.ported rfl rfl]
      have hseek : ∀ (t : Raw) (m : Nat), t.seekable = true → innerSeek (m : Int) .set t = (.ok m, { t with pos := m }) := by
        intro t m ht
        simp [innerSeek, ht]
      rw [PyM.bind_ok (show innerTell s = (.ok s.pos, s) by simp [innerTell, h.seekable]),
        PyM.bind_ok (show seek (n : Int) .set s = (.ok n, { s with pos := n }) by
          unfold seek; rw [PyM.bind_ok (checkClosed_ok ho)]; exact hseek s n h.seekable),
        PyM.bind_ok (hos { s with pos := n } rfl rfl),
        PyM.bind_ok (hseek { s with pos := n, data := s.data.take n, disk := s.disk ++ [.content (s.data.take n)], sched := sched' }
          s.pos h.seekable)]
      exact ⟨rfl, ⟨h.windows, h.zeros, h.seekable, fun a ha => h.moves a (hsub a ha),
        fun hA a ha => h.appending hA a (hsub a ha)⟩, rfl⟩
  · rename_i hp; exact absurd hp (by simp [ported])

theorem truncate_ports {s : Raw} (h : s.Portable) (ho : s.closed = false) (hw : s.writable = true) (hb : Blocking s.sched)
    {z : Int} (hz : z ≤ s.data.length) :
    truncate (some z) true s.ported = ((truncate (some z) true s).1, (truncate (some z) true s).2.ported) ∧
      (truncate (some z) true s).2.Portable := by
  rw [truncate_open _ true ho hw h.seekable, truncate_open (s := s.ported) _ true ho hw h.seekable]
  by_cases hneg : z < 0
  · have : ∀ t : Raw, truncateTarget (some z) t = (.error (.ioError 22), t) := by intro t; simp [truncateTarget, hneg]
    rw [PyM.bind_error (this _), PyM.bind_error (this _)]
    exact ⟨rfl, h⟩
  · have : ∀ t : Raw, truncateTarget (some z) t = (.ok z.toNat, t) := by intro t; simp [truncateTarget, hneg]
    rw [PyM.bind_ok (this _), PyM.bind_ok (this _)]
    obtain ⟨h1, h2, h3⟩ := resize_ports (n := z.toNat) h ho hb (by omega)
    rw [PyM.bind_apply, PyM.bind_apply, h1]
    generalize resize z.toNat true s = r at *
    obtain ⟨r, s'⟩ := r
    dsimp only at h3
    subst h3
    exact size_ports s' h2

end Raw

namespace Buf

theorem writerTruncate_ports {b : Buf} {f : File} (h : b.Portable) (hR : R b.ported f) (hk : b.kind ≠ .reader) {arg : Option Int}
    (harg : arg = none → b.kind = .writer) (hz : arg.getD f.pos ≤ f.data.length) :
    writerTruncate arg b.ported = ((writerTruncate arg b).1, (writerTruncate arg b).2.ported) ∧
      (writerTruncate arg b).2.Portable := by
  obtain ⟨h1, h2⟩ := flushUnlocked_ports b h
  obtain ⟨b', g1, g2, g3, g4, g5, g6⟩ := flushUnlocked_R hR hk
  rw [g1] at h1
  have e1 : (flushUnlocked b).1 = .ok () := (congrArg Prod.fst h1).symm
  have e2 : b' = (flushUnlocked b).2.ported := congrArg Prod.snd h1
  subst e2
  generalize hr : flushUnlocked b = r at *
  obtain ⟨r, b1⟩ := r
  dsimp only at e1 g1 g2 g3 g4 g5 h2
  subst e1
  have hl := g2.live
  have hdata : b1.raw.data = f.data := g2.data' g3
  have key : ∀ z : Int, z ≤ f.data.length →
      onRaw (Raw.truncate (some z) true) b1.ported =
        ((onRaw (Raw.truncate (some z) true) b1).1, (onRaw (Raw.truncate (some z) true) b1).2.ported) ∧
      (onRaw (Raw.truncate (some z) true) b1).2.Portable := by
    intro z hz
    obtain ⟨k1, k2⟩ := Raw.truncate_ports (s := b1.raw) h2 hl.opened (hl.writable (by rw [g4]; exact hk)) hl.blocking (z := z)
      (by rw [hdata]; exact hz)
    unfold onRaw
    rw [show b1.ported.raw = b1.raw.ported from rfl, k1]
    generalize Raw.truncate (some z) true b1.raw = q at *
    obtain ⟨q, s'⟩ := q
    exact ⟨rfl, k2⟩
  unfold writerTruncate
  rw [PyM.bind_ok g1, PyM.bind_ok hr]
  cases arg with
  | some z => exact key z hz
  | none =>
    have hpos : b1.raw.pos = f.pos := by
      have h3 : b1.ported.raw.pos = _ := g2.pos' g3
      have h4 : b1.ported.readBuf = [] := by rw [g5]; exact hR.writer (harg rfl)
      have h5 : b1.ported.extra = 0 := by unfold extra; rw [h4]; simp
      rw [h5] at h3
      exact h3
    dsimp only
    rw [PyM.bind_ok (onRaw_eq (Raw.tell_ok (s := b1.ported.raw) hl.opened hl.seekable)),
      PyM.bind_ok (onRaw_eq (Raw.tell_ok (s := b1.raw) hl.opened hl.seekable))]
    rw [show b1.ported.raw.pos = f.pos from hpos, hpos]
    exact key _ hz

theorem truncate_ports {b : Buf} {f : File} (h : b.Portable) (hR : R b.ported f) {n : Option Int}
    (hx : ¬ Stretches b.kind f (.truncate n)) :
    truncate n b.ported = ((truncate n b).1, (truncate n b).2.ported) ∧ (truncate n b).2.Portable := by
  unfold truncate
  rw [show b.ported.kind = b.kind from rfl]
  have hz : b.kind ≠ .reader → n.getD f.pos ≤ (f.data.length : Int) := by
    intro hk
    apply Decidable.byContradiction
    intro hc
    exact hx ⟨hk, by omega⟩
  have htell : tell b = (.ok f.pos, b) := by
    obtain ⟨h1, _⟩ := tell_ports b h
    have h3 : b.ported.tell = (.ok f.pos, b.ported) := tell_R hR
    have hst : (tell b).2 = b := by
      unfold tell
      rw [PyM.bind_ok (onRaw_eq (Raw.tell_ok (s := b.raw) hR.live.opened h.seekable))]
      rfl
    rw [h3] at h1
    exact Prod.ext (congrArg Prod.fst h1).symm hst
  cases hk : b.kind with
  | reader => exact (checkClosed_ports.bind fun _ => Ports.raise _) b h
  | writer =>
    have hkr : b.kind ≠ .reader := by rw [hk]; nofun
    cases n with
    | some z => exact writerTruncate_ports h hR hkr nofun (hz hkr)
    | none => exact writerTruncate_ports h hR hkr (fun _ => hk) (hz hkr)
  | random =>
    have hkr : b.kind ≠ .reader := by rw [hk]; nofun
    cases n with
    | some z => exact writerTruncate_ports h hR hkr nofun (hz hkr)
    | none =>
      dsimp only
      rw [PyM.bind_ok (tell_R hR), PyM.bind_ok htell]
      exact writerTruncate_ports h hR hkr nofun (hz hkr)

theorem step_same {b : Buf} (h : b.Portable) {op : StreamOp} (hx : ∀ a, op ≠ .truncate a) :
    b.ported.step op = ((b.step op).1, (b.step op).2.ported) ∧ (b.step op).2.Portable := by
  cases op with
  | read n => obtain ⟨h1, h2⟩ := read_ports n b h; simp only [step, h1]; exact ⟨trivial, h2⟩
  | read1 n => obtain ⟨h1, h2⟩ := read1_ports n b h; simp only [step, h1]; exact ⟨trivial, h2⟩
  | peek n => obtain ⟨h1, h2⟩ := peek_ports n b h; simp only [step, h1]; exact ⟨trivial, h2⟩
  | readline n => obtain ⟨h1, h2⟩ := readline_ports n b h; simp only [step, h1]; exact ⟨trivial, h2⟩
  | write d => obtain ⟨h1, h2⟩ := write_ports d b h; simp only [step, h1]; exact ⟨trivial, h2⟩
  | seek o w => obtain ⟨h1, h2⟩ := seek_ports o w b h; simp only [step, h1]; exact ⟨trivial, h2⟩
  | tell => obtain ⟨h1, h2⟩ := tell_ports b h; simp only [step, h1]; exact ⟨trivial, h2⟩
  | flush => obtain ⟨h1, h2⟩ := flush_ports b h; simp only [step, h1]; exact ⟨trivial, h2⟩
  | truncate n => exact absurd rfl (hx n)
  | size => obtain ⟨h1, h2⟩ := size_ports b h; simp only [step, h1]; exact ⟨trivial, h2⟩
  | lock o => obtain ⟨h1, h2⟩ := lockFile_ports o b h; simp only [step, h1]; exact ⟨trivial, h2⟩
  | unlock => obtain ⟨h1, h2⟩ := unlockFile_ports b h; simp only [step, h1]; exact ⟨trivial, h2⟩

theorem step_ports {b : Buf} {f : File} (h : b.Portable) (hR : R b.ported f) {op : StreamOp} (hx : ¬ Stretches b.kind f op) :
    b.ported.step op = ((b.step op).1, (b.step op).2.ported) ∧ (b.step op).2.Portable := by
  by_cases ht : ∃ a, op = .truncate a
  · obtain ⟨a, rfl⟩ := ht
    obtain ⟨h1, h2⟩ := truncate_ports h hR hx
    simp only [step, h1]
    exact ⟨trivial, h2⟩
  · exact step_same h fun a e => ht ⟨a, e⟩

theorem run_ported (ops : List StreamOp) : ∀ (b : Buf) (f : File), b.Portable → R b.ported f →
    ∃ pre post f', ops = pre ++ post ∧ Conforms b.kind f (pre.zip (b.run pre).1) f' ∧ R (b.run pre).2.ported f' ∧
      (b.run pre).2.Portable ∧ (b.run pre).2.kind = b.kind ∧
      (post = [] ∨ ∃ op rest, post = op :: rest ∧ (Unsafe b.kind f' op ∨ Stretches b.kind f' op)) := by
  induction ops with
  | nil => intro b f h hR; exact ⟨[], [], f, rfl, .nil f, hR, h, rfl, Or.inl rfl⟩
  | cons op ops ih =>
    intro b f h hR
    by_cases hu : Unsafe b.kind f op ∨ Stretches b.kind f op
    · exact ⟨[], op :: ops, f, rfl, .nil f, hR, h, rfl, Or.inr ⟨op, ops, rfl, hu⟩⟩
    · obtain ⟨f1, h1, h2⟩ := step_R hR op fun hc => hu (Or.inl hc)
      obtain ⟨h3, h4⟩ := step_ports h hR fun hc => hu (Or.inr hc)
      rw [h3] at h1 h2
      have hk := (step_keeps b op).1
      obtain ⟨pre, post, f', e1, e2, e3, e4, e5, e6⟩ := ih _ f1 h4 h2
      rw [hk] at e2 e5 e6
      exact ⟨op :: pre, post, f', by rw [e1]; rfl, .cons h1 e2, e3, e4, e5, e6⟩

end Buf

end Verif
