import Verif.Model.Kernel
import Verif.Spec.KernelView
import Verif.Lemmas.Registry

/-! Byte-level meaning of the kernel lock table. -/

namespace Verif

open Spec

theorem cut_has (k : KLock) (s : Int) (e : Option Int) (b : Int) :
    (∃ k' ∈ k.cut s e, Covers k'.start k'.stop b) ↔ (Covers k.start k.stop b ∧ ¬ Covers s e b) := by
  obtain ⟨p, u, sh, ks, ke⟩ := k
  cases e with
  | none =>
    simp only [KLock.cut, KLock.before, List.mem_singleton, exists_eq_left, covers_iff]
    cases ke <;> simp <;> omega
  | some x =>
    simp only [KLock.cut, KLock.before, KLock.after, List.mem_cons, List.not_mem_nil, or_false,
      exists_eq_or_imp, exists_eq_left, covers_iff]
    cases ke <;> simp <;> omega

theorem cut_attrs {k : KLock} {s : Int} {e : Option Int} {k' : KLock} (h : k' ∈ k.cut s e) :
    k'.pid = k.pid ∧ k'.uid = k.uid ∧ k'.shared = k.shared := by
  cases e <;> simp only [KLock.cut, KLock.before, KLock.after, List.mem_cons, List.not_mem_nil, or_false] at h
  · subst h; simp
  · rcases h with rfl | rfl <;> simp

theorem kHas_unlock (t : KTable) (p : Nat) (u : Uid) (s : Int) (e : Option Int)
    (p' : Nat) (u' : Uid) (sh : Bool) (b : Int) :
    KHas (kUnlock t p u s e) p' u' sh b ↔ KHas t p' u' sh b ∧ ¬ (p' = p ∧ u' = u ∧ Covers s e b) := by
  simp only [KHas, kUnlock, List.mem_flatMap]
  constructor
  · rintro ⟨k', ⟨k, hk, hk'⟩, rfl, rfl, rfl, hc⟩
    split at hk'
    · rename_i hc'
      obtain ⟨a1, a2, a3⟩ := cut_attrs hk'
      have := (cut_has k s e b).1 ⟨k', hk', hc⟩
      exact ⟨⟨k, hk, a1.symm, a2.symm, a3.symm, this.1⟩, fun h => this.2 h.2.2⟩
    · rename_i hc'
      simp only [List.mem_singleton] at hk'
      subst hk'
      exact ⟨⟨k', hk, rfl, rfl, rfl, hc⟩, fun h => hc' ⟨h.1, h.2.1⟩⟩
  · rintro ⟨⟨k, hk, rfl, rfl, rfl, hc⟩, hn⟩
    by_cases hpu : k.pid = p ∧ k.uid = u
    · have hn' : ¬ Covers s e b := fun h => hn ⟨hpu.1, hpu.2, h⟩
      obtain ⟨k', hk', hc'⟩ := (cut_has k s e b).2 ⟨hc, hn'⟩
      obtain ⟨a1, a2, a3⟩ := cut_attrs hk'
      exact ⟨k', ⟨k, hk, by rw [if_pos hpu]; exact hk'⟩, a1, a2, a3, hc'⟩
    · exact ⟨k, ⟨k, hk, by rw [if_neg hpu]; simp⟩, rfl, rfl, rfl, hc⟩

theorem kHas_lock (t : KTable) (p : Nat) (u : Uid) (m : Bool) (s : Int) (e : Option Int)
    (p' : Nat) (u' : Uid) (sh : Bool) (b : Int) :
    KHas (kLock t p u m s e) p' u' sh b ↔
      (KHas t p' u' sh b ∧ ¬ (p' = p ∧ u' = u ∧ Covers s e b)) ∨ (p' = p ∧ u' = u ∧ sh = m ∧ Covers s e b) := by
  have h1 : KHas (kLock t p u m s e) p' u' sh b ↔
      KHas (kUnlock t p u s e) p' u' sh b ∨ (p' = p ∧ u' = u ∧ sh = m ∧ Covers s e b) := by
    simp only [KHas, kLock, List.mem_append, List.mem_singleton]
    constructor
    · rintro ⟨k, hk | rfl, rfl, rfl, rfl, hc⟩
      · exact Or.inl ⟨k, hk, rfl, rfl, rfl, hc⟩
      · exact Or.inr ⟨rfl, rfl, rfl, hc⟩
    · rintro (⟨k, hk, h⟩ | ⟨rfl, rfl, rfl, hc⟩)
      · exact ⟨k, Or.inl hk, h⟩
      · exact ⟨_, Or.inr rfl, rfl, rfl, rfl, hc⟩
  rw [h1, kHas_unlock]

theorem kHas_drop (t : KTable) (p : Nat) (u : Uid) (p' : Nat) (u' : Uid) (sh : Bool) (b : Int) :
    KHas (kDrop t p u) p' u' sh b ↔ KHas t p' u' sh b ∧ ¬ (p' = p ∧ u' = u) := by
  simp only [KHas, kDrop, List.mem_filter, decide_eq_true_eq]
  constructor
  · rintro ⟨k, ⟨hk, hn⟩, rfl, rfl, rfl, hc⟩; exact ⟨⟨k, hk, rfl, rfl, rfl, hc⟩, hn⟩
  · rintro ⟨⟨k, hk, rfl, rfl, rfl, hc⟩, hn⟩; exact ⟨k, ⟨hk, hn⟩, rfl, rfl, rfl, hc⟩

theorem kHas_dropPid (t : KTable) (p p' : Nat) (u' : Uid) (sh : Bool) (b : Int) :
    KHas (kDropPid t p) p' u' sh b ↔ KHas t p' u' sh b ∧ ¬ p' = p := by
  simp only [KHas, kDropPid, List.mem_filter, decide_eq_true_eq]
  constructor
  · rintro ⟨k, ⟨hk, hn⟩, rfl, rfl, rfl, hc⟩; exact ⟨⟨k, hk, rfl, rfl, rfl, hc⟩, hn⟩
  · rintro ⟨⟨k, hk, rfl, rfl, rfl, hc⟩, hn⟩; exact ⟨k, ⟨hk, hn⟩, rfl, rfl, rfl, hc⟩

/-- No conflict: every byte of the range is free of incompatible locks of other processes. -/
theorem kConflict_false_iff (t : KTable) (p : Nat) (u : Uid) (m : Bool) (s : Int) (e : Option Int) :
    kConflict t p u m s e = false ↔
      ∀ p' sh b, p' ≠ p → KHas t p' u sh b → Covers s e b → sh = true ∧ m = true := by
  simp only [kConflict, List.any_eq_false]
  constructor
  · rintro h p' sh b hp ⟨k, hk, rfl, rfl, rfl, hc⟩ hb
    have := h k hk
    have ho : k.overlaps s e = true := (areasOverlap_iff _ _ _).2 ⟨b, hc, hb⟩
    simp only [ho] at this
    simp only [Bool.and_true, Bool.and_eq_true, decide_eq_true_eq, Bool.not_eq_true', not_and,
      Bool.not_eq_false] at this
    exact this ⟨hp, trivial⟩
  · intro h k hk hc
    simp only [Bool.and_eq_true, decide_eq_true_eq, Bool.not_eq_true', Bool.and_eq_false_iff] at hc
    obtain ⟨⟨⟨hp, rfl⟩, ho⟩, hs⟩ := hc
    obtain ⟨b, hb, hb'⟩ := (areasOverlap_iff _ _ _).1 ho
    have := h k.pid k.shared b hp ⟨k, hk, rfl, rfl, rfl, hb⟩ hb'
    simp [this] at hs

/-- Locks of different processes on a byte are all shared. -/
def KCompat (t : KTable) : Prop :=
  ∀ p p' u sh sh' b, p ≠ p' → KHas t p u sh b → KHas t p' u sh' b → sh = true ∧ sh' = true

theorem KCompat.mono {t t' : KTable} (h : KCompat t)
    (hs : ∀ p u sh b, KHas t' p u sh b → KHas t p u sh b) : KCompat t' :=
  fun p p' u sh sh' b hp h1 h2 => h p p' u sh sh' b hp (hs _ _ _ _ h1) (hs _ _ _ _ h2)

theorem KCompat.lock {t : KTable} (h : KCompat t) {p : Nat} {u : Uid} {m : Bool} {s : Int} {e : Option Int}
    (hc : kConflict t p u m s e = false) : KCompat (kLock t p u m s e) := by
  rw [kConflict_false_iff] at hc
  intro q q' u' sh sh' b hq h1 h2
  rw [kHas_lock] at h1 h2
  rcases h1 with ⟨h1, _⟩ | ⟨rfl, rfl, rfl, h1⟩ <;> rcases h2 with ⟨h2, _⟩ | ⟨h3, h4, rfl, h2⟩
  · exact h _ _ _ _ _ _ hq h1 h2
  · subst h3; subst h4; exact hc q sh b hq h1 h2
  · have := hc q' sh' b (fun h => hq h.symm) h2 h1; exact ⟨this.2, this.1⟩
  · exact absurd h3.symm hq

end Verif
