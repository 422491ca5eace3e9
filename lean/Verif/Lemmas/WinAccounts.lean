import Verif.Lemmas.WinWorld

/-!
# The accounts of the windows lock system: registry, held locks and kernel locks of a process agree
-/

set_option autoImplicit false

namespace Verif.Win

open Verif Spec

/-! ## Small facts -/

/-- The locks registered for a handle. -/
def tab (pid : Nat) (p : Proc) (h : Nat) : List LockRec := tableOf pid p.reg (key h)

theorem key_inj {a b : Nat} : key a = key b ↔ a = b := by simp [key]

/-- The request of a thread whose registration has succeeded. -/
def PC.regd : PC → Option Req
  | .atKern q => some q
  | .checkKern q => some q
  | .unwinding q => some q
  | _ => none

theorem regd_req {pc : PC} {q : Req} (h : pc.regd = some q) : pc.req = some q := by
  cases pc <;> simp only [PC.regd] at h <;> first | cases h; rfl | cases h

/-- A range that was asked for with a length. -/
def Asked (s : Int) (e : Option Int) : Prop := ∃ n : Option Nat, FitsIn n s ∧ e = newEnd s (n.map Int.ofNat)

theorem Asked.meet {s : Int} {e : Option Int} (h : Asked s e) : Meet s e s e := by
  obtain ⟨n, _, rfl⟩ := h
  refine ⟨s, ⟨Int.le_refl _, ?_⟩, ⟨Int.le_refl _, ?_⟩⟩ <;>
  · intro t ht
    cases n with
    | none => cases ht
    | some m =>
      simp only [newEnd, Option.map_some] at ht
      split at ht
      · cases ht
      · rename_i h0
        cases ht
        have : m ≠ 0 := fun h => h0 (by rw [h]; rfl)
        have : (Int.ofNat m) > 0 := by simp; omega
        omega

/-- The length that `close` computes for a range. -/
theorem osRange_stop {s : Int} {e : Option Int} {o l : Nat} (h : At s e o l) :
    osRange (e.map (fun t => t - s)) s = some (l, o) := by
  cases e with
  | none =>
    obtain ⟨l', o', h1, h2⟩ := osRange_fits (len := none) (s := s) ⟨h.small, fun n hn => by cases hn⟩ h.nonneg
    obtain ⟨a, b⟩ := h.uniq h2
    subst a; subst b; exact h1
  | some t =>
    obtain ⟨a1, a2, a3⟩ := h.fin t rfl
    have hl : ((t - s).toNat : Int) = t - s := by omega
    obtain ⟨l', o', h1, h2⟩ := osRange_fits (len := some (t - s).toNat) (s := s)
      ⟨h.small, fun n hn => by cases hn; omega⟩ h.nonneg
    have he : newEnd s (Option.map Int.ofNat (some (t - s).toNat)) = some t := by
      simp only [newEnd, Option.map_some]
      rw [if_neg (by show ¬ ((t - s).toNat : Int) = 0; omega)]
      show some (s + ((t - s).toNat : Int)) = some t
      rw [hl]; congr 1; omega
    rw [he] at h2
    obtain ⟨a, b⟩ := h.uniq h2
    subst a; subst b
    simp only [Option.map_some] at h1 ⊢
    rw [← hl]; exact h1

theorem kUnlock_none {t : KTable} {pid obj o l : Nat} (h : kUnlock t pid obj o l = none) {y : KLock} (hy : y ∈ t)
    (hp : y.pid = pid) (ho : y.obj = obj) (h1 : y.off = o) (h2 : y.len = l) : False := by
  unfold kUnlock at h
  split at h
  · cases h
  · split at h
    · cases h
    · rename_i hn
      apply hn
      exact List.any_eq_true.2 ⟨y, hy, by simp [KLock.isAt, hp, ho, h1, h2]⟩

/-- Two kernel locks of one owner on one range. -/
def SamePlace (a b : KLock) : Prop := a.pid = b.pid ∧ a.obj = b.obj ∧ a.off = b.off ∧ a.len = b.len

theorem eraseP_pairwise {α : Type} {R : α → α → Prop} {L : List α} (f g : α → Bool)
    (h : L.Pairwise R) (hs : ∀ a b, R a b → g a = true → g b = true → False) (hf : ∀ a, f a = true → g a = true)
    (hex : L.any f = true) : ∀ a ∈ L.eraseP f, g a = false := by
  induction L with
  | nil => simp at hex
  | cons x xs ih =>
    intro a ha
    rw [List.pairwise_cons] at h
    by_cases e : f x = true
    · rw [List.eraseP_cons_of_pos e] at ha
      cases hg : g a with
      | false => rfl
      | true => exact (hs x a (h.1 a ha) (hf x e) hg).elim
    · rw [List.eraseP_cons_of_neg e] at ha
      have hex' : xs.any f = true := by
        rw [List.any_cons] at hex
        simpa [e] using hex
      rcases List.mem_cons.1 ha with rfl | ha
      · obtain ⟨y, hy, hfy⟩ := List.any_eq_true.1 hex'
        cases hg : g a with
        | false => rfl
        | true => exact (hs a y (h.1 y hy) hg (hf y hfy)).elim
      · exact ih h.2 hex' a ha

/-- After `UnlockFileEx` the owner has no lock on this range any more. -/
theorem kUnlock_gone {t t' : KTable} {pid obj o l : Nat} (hu : t.Pairwise (fun a b => ¬ SamePlace a b))
    (h : kUnlock t pid obj o l = some t') {y : KLock} (hy : y ∈ t')
    (hp : y.pid = pid) (ho : y.obj = obj) (h1 : y.off = o) (h2 : y.len = l) : False := by
  have key : ∀ f : KLock → Bool, (∀ a, f a = true → KLock.isAt pid obj o l a = true) → t.any f = true →
      y ∈ t.eraseP f → False := by
    intro f hf hex hm
    have := eraseP_pairwise f (KLock.isAt pid obj o l) hu (fun a b hn ha hb => by
      simp only [KLock.isAt, decide_eq_true_eq] at ha hb
      obtain ⟨a1, a2, a3, a4⟩ := ha
      obtain ⟨b1, b2, b3, b4⟩ := hb
      exact hn ⟨a1.trans b1.symm, a2.trans b2.symm, a3.trans b3.symm, a4.trans b4.symm⟩) hf hex y hm
    simp [KLock.isAt, hp, ho, h1, h2] at this
  unfold kUnlock at h
  split at h
  · rename_i hex
    cases h
    exact key _ (fun a ha => by simp at ha; exact ha.1) hex hy
  · split at h
    · rename_i hex
      cases h
      exact key _ (fun a ha => ha) hex hy
    · cases h

/-! ## The accounts -/

/-- The accounts of a process agree. -/
structure RInv (pid : Nat) (p : Proc) (k : KTable) (H : List Held) : Prop where
  own : p.reg.originalPid = pid
  recs : ∀ h r, r ∈ tab pid p h → r.handle = h ∧ Asked r.start r.stop ∧
    ∃ sid st, p.streams sid = some st ∧ st.isOpen = true ∧ st.handle = h
  apart : ∀ h, (tab pid p h).Pairwise (fun a b => ¬ Meet a.start a.stop b.start b.stop)
  flight : ∀ tid q, (p.threads tid).regd = some q → q.record ∈ tab pid p q.handle ∧
    (∀ x ∈ H, x.pid = pid → x.sid = q.sid → ¬ (x.start = q.start ∧ x.stop = q.stop))
  heldRec : ∀ x ∈ H, x.pid = pid → ∃ st, p.streams x.sid = some st ∧ st.isOpen = true ∧
    (⟨st.handle, x.shared, x.start, x.stop⟩ ∈ tab pid p st.handle ∨
      ∃ h f len, Micro.unlock x.sid h f x.start len ∈ p.crit ∧ newEnd x.start len = x.stop)
  recWhy : ∀ h r, r ∈ tab pid p h → (∃ tid q, (p.threads tid).regd = some q ∧ q.handle = h ∧ q.record = r) ∨
    ∃ x ∈ H, x.pid = pid ∧ r = ⟨h, x.shared, x.start, x.stop⟩ ∧
      ∃ st, p.streams x.sid = some st ∧ st.isOpen = true ∧ st.handle = h
  kernWhy : ∀ y ∈ k, y.pid = pid →
    (∃ x ∈ H, x.pid = pid ∧ y.shared = x.shared ∧ y.file = x.uid ∧ At x.start x.stop y.off y.len ∧
      ∃ st, p.streams x.sid = some st ∧ st.isOpen = true ∧ st.obj = y.obj) ∨
    ∃ h s len hd, Micro.cunlock h s len ∈ p.crit ∧ p.target h = some hd ∧ hd.obj = y.obj ∧
      osRange len s = some (y.len, y.off)
  cun : ∀ h s len, Micro.cunlock h s len ∈ p.crit → ∃ hd l o, p.target h = some hd ∧ osRange len s = some (l, o) ∧
    ∃ y ∈ k, y.pid = pid ∧ y.obj = hd.obj ∧ y.off = o ∧ y.len = l
  cunApart : p.crit.Pairwise (fun m m' => ∀ h s len h' s' len', m = .cunlock h s len → m' = .cunlock h' s' len' →
    osRange len s ≠ osRange len' s')
  unlk : ∀ sid h f s len, Micro.unlock sid h f s len ∈ p.crit → ∀ r ∈ tab pid p h, ¬ (r.start = s ∧ r.stop = newEnd s len)

/-- The streams are still there; new ones may have been made. -/
def Ext (p p' : Proc) : Prop :=
  ∀ sid st, p.streams sid = some st → ∃ b, p'.streams sid = some { st with busy := b }

theorem SameStreams.ext {p p' : Proc} (h : SameStreams p p') : Ext p p' := fun _ _ hs => h.some hs

theorem RInv.frame {pid : Nat} {p p' : Proc} {k k' : KTable} {H H' : List Held} (h : RInv pid p k H)
    (ho : p'.reg.originalPid = pid) (ht : ∀ a, tab pid p' a = tab pid p a)
    (hr : ∀ tid, (p'.threads tid).regd = (p.threads tid).regd) (hx : Ext p p') (hc : p'.crit = p.crit)
    (htg : ∀ m ∈ p.crit, p'.target m.handle = p.target m.handle) (hk : ∀ y, y.pid = pid → (y ∈ k' ↔ y ∈ k))
    (hH : ∀ x : Held, x.pid = pid → (x ∈ H' ↔ x ∈ H)) :
    RInv pid p' k' H' := by
  constructor
  · exact ho
  · intro a r hm
    rw [ht] at hm
    obtain ⟨h1, h2, sid, st, h3, h4, h5⟩ := h.recs a r hm
    obtain ⟨b, hb⟩ := hx sid st h3
    exact ⟨h1, h2, sid, _, hb, h4, h5⟩
  · intro a; rw [ht]; exact h.apart a
  · intro tid q hq
    rw [hr] at hq
    obtain ⟨h1, h2⟩ := h.flight tid q hq
    rw [ht]
    exact ⟨h1, fun x hx' hp => h2 x ((hH x hp).1 hx') hp⟩
  · intro x hx' hp
    obtain ⟨st, h1, ho, h2⟩ := h.heldRec x ((hH x hp).1 hx') hp
    obtain ⟨b, hb⟩ := hx _ st h1
    refine ⟨_, hb, ho, ?_⟩
    rw [ht, hc]; exact h2
  · intro a r hm
    rw [ht] at hm
    rcases h.recWhy a r hm with ⟨tid, q, h1, h2⟩ | ⟨x, h1, h2, h3, st, h4, h5, h6⟩
    · exact Or.inl ⟨tid, q, by rw [hr]; exact h1, h2⟩
    · obtain ⟨b, hb⟩ := hx _ st h4
      exact Or.inr ⟨x, (hH x h2).2 h1, h2, h3, _, hb, h5, h6⟩
  · intro y hy hp
    rcases h.kernWhy y ((hk y hp).1 hy) hp with ⟨x, h1, h2, h3, h4, h5, st, h6, h7, h8⟩ | ⟨a, s, len, hd, h1, h2, h3⟩
    · obtain ⟨b, hb⟩ := hx _ st h6
      exact Or.inl ⟨x, (hH x h2).2 h1, h2, h3, h4, h5, _, hb, h7, h8⟩
    · exact Or.inr ⟨a, s, len, hd, by rw [hc]; exact h1, by rw [← h2]; exact htg _ h1, h3⟩
  · intro a s len hm
    rw [hc] at hm
    obtain ⟨hd, l, o, h1, h2, y, h3, h4, h5⟩ := h.cun a s len hm
    exact ⟨hd, l, o, by rw [← h1]; exact htg _ hm, h2, y, (hk y h4).2 h3, h4, h5⟩
  · rw [hc]; exact h.cunApart
  · intro sid a f s len hm
    rw [hc] at hm; rw [ht]
    exact h.unlk sid a f s len hm

/-- A registered lock of a stream that no thread uses is held. -/
theorem RInv.rec_held {pid n : Nat} {p : Proc} {k : KTable} {H : List Held} (h : RInv pid p k H) (hi : PInv n p)
    {sid : Nat} {st : Stream} (hs : p.streams sid = some st) (ho : st.isOpen = true) (hb : st.busy = none)
    {r : LockRec} (hr : r ∈ tab pid p st.handle) :
    ∃ x ∈ H, x.pid = pid ∧ x.sid = sid ∧ r = ⟨st.handle, x.shared, x.start, x.stop⟩ := by
  rcases h.recWhy _ r hr with ⟨tid, q, h1, h2, h3⟩ | ⟨x, h1, h2, h3, st', h4, h5, h6⟩
  · obtain ⟨_, st', g1, g2, g3, g4, g5⟩ := hi.threads tid q (regd_req h1)
    have := hi.distinct _ _ _ _ g1 hs g2 ho (g4.trans h2)
    rw [this, hs] at g1
    cases g1
    rw [hb] at g3; cases g3
  · have := hi.distinct _ _ _ _ h4 hs h5 ho h6
    exact ⟨x, h1, h2, this, h3⟩

/-- No kernel lock belongs to a handle without an open stream and without a `close` in progress. -/
theorem RInv.no_lock {pid n : Nat} {p : Proc} {k : KTable} {H : List Held} (h : RInv pid p k H) (hi : PInv n p)
    {a : Nat} {hd : Handle} (ha : p.target a = some hd)
    (hu : ∀ sid st, p.streams sid = some st → st.isOpen = true → st.handle ≠ a)
    (hc : ∀ s len, Micro.cunlock a s len ∉ p.crit) {y : KLock} (hy : y ∈ k) (hp : y.pid = pid) : y.obj ≠ hd.obj := by
  intro e
  rcases h.kernWhy y hy hp with ⟨x, _, _, _, _, _, st, h6, h7, h8⟩ | ⟨b, s, len, hd', h1, h2, h3, _⟩
  · exact hu _ st h6 h7 (hi.single _ (mem_of_target (hi.streams _ _ h6 h7)) _ (mem_of_target ha) (h8.trans e))
  · have : b = a := hi.single _ (mem_of_target h2) _ (mem_of_target ha) (h3.trans e)
    subst this
    exact hc s len h1

end Verif.Win
