import Verif.Model.WinSystem
import Verif.Lemmas.Registry
import Verif.Props.Dwords

/-!
# Invariants of the windows lock system: handles, streams, and the kernel locks behind the held locks
-/

set_option autoImplicit false

namespace Verif.Win

open Verif Spec

/-! ## Ranges -/

/-- The bytes from `start` to `stop` are denoted by this offset and this length. -/
structure At (s : Int) (e : Option Int) (o l : Nat) : Prop where
  nonneg : 0 ≤ s
  small : s < 2 ^ 64
  off : o = s.toNat
  inf : e = none → l = 2 ^ 64 - 1
  fin : ∀ t, e = some t → s < t ∧ t - s < 2 ^ 64 - 1 ∧ l = (t - s).toNat

theorem At.inj {s s' : Int} {e e' : Option Int} {o l : Nat} (h : At s e o l) (h' : At s' e' o l) : s = s' ∧ e = e' := by
  have h1 := h.off; have h2 := h'.off; have h3 := h.nonneg; have h4 := h'.nonneg
  have hs : s = s' := by omega
  refine ⟨hs, ?_⟩
  subst hs
  cases e with
  | none =>
    cases e' with
    | none => rfl
    | some t' =>
      have a := h.inf rfl
      obtain ⟨b1, b2, b3⟩ := h'.fin t' rfl
      omega
  | some t =>
    obtain ⟨a1, a2, a3⟩ := h.fin t rfl
    cases e' with
    | none => have b := h'.inf rfl; omega
    | some t' =>
      obtain ⟨b1, b2, b3⟩ := h'.fin t' rfl
      have : t = t' := by omega
      rw [this]

theorem At.uniq {s : Int} {e : Option Int} {o l o' l' : Nat} (h : At s e o l) (h' : At s e o' l') : o = o' ∧ l = l' := by
  refine ⟨h.off.trans h'.off.symm, ?_⟩
  cases e with
  | none => rw [h.inf rfl, h'.inf rfl]
  | some t => rw [(h.fin t rfl).2.2, (h'.fin t rfl).2.2]

theorem osRange_neg (len : Option Int) {s : Int} (h : s < 0) : osRange len s = none := by
  rw [osRange, Props.C58_negative _ _ (Or.inl h)]; rfl

theorem osRange_fits {len : Option Nat} {s : Int} (hf : FitsIn len s) (h0 : 0 ≤ s) :
    ∃ l o, osRange (len.map Int.ofNat) s = some (l, o) ∧ At s (newEnd s (len.map Int.ofNat)) o l := by
  have inf : ∀ len : Option Int, (len = none ∨ len = some 0) →
      ∃ l o, osRange len s = some (l, o) ∧ At s (newEnd s len) o l := by
    intro len hl
    obtain ⟨olo, ohi, f1, f2, f3, _, f4⟩ := Props.C55_split s 32 h0 (by simpa using hf.1)
    have c : convertFileRange len (some s) = some ⟨maxDword, maxDword, olo, ohi⟩ := by
      rcases hl with rfl | rfl <;> simp only [convertFileRange, if_true, Option.getD_some, f1]
    have d : ∀ n : Nat, n < 2 ^ 32 → ctypesDword n = n := by intro n h; unfold ctypesDword; omega
    have hc : ctypesDword maxDword = 4294967295 := by decide
    refine ⟨2 ^ 64 - 1, s.toNat, ?_, ?_⟩
    · rw [osRange, c]
      simp only [Option.map_some, osRangeCtypes, hc, d _ f2, d _ f3, Option.some.injEq, Prod.mk.injEq]
      omega
    · refine ⟨h0, hf.1, rfl, fun _ => rfl, fun t ht => ?_⟩
      rcases hl with rfl | rfl <;> simp [newEnd] at ht
  cases len with
  | none => exact inf none (Or.inl rfl)
  | some n =>
    by_cases hn : n = 0
    · subst hn; exact inf (some 0) (Or.inr rfl)
    · have hlt := hf.2 n rfl
      obtain ⟨r, a, b, _⟩ := Props.C58_finite n s (by omega) (by omega) h0 hf.1
      refine ⟨n, s.toNat, ?_, h0, hf.1, rfl, ?_, ?_⟩
      · show osRange (some (n : Int)) s = _
        rw [osRange, a]; simp only [Option.map_some, b, Int.toNat_natCast]
      · intro h
        rw [show newEnd s (Option.map Int.ofNat (some n)) = some (s + n) from by
          simp only [newEnd, Option.map_some]; rw [if_neg (by simpa using hn)]; rfl] at h
        cases h
      · intro t h
        rw [show newEnd s (Option.map Int.ofNat (some n)) = some (s + n) from by
          simp only [newEnd, Option.map_some]; rw [if_neg (by simpa using hn)]; rfl] at h
        cases h
        omega

theorem osRange_at {len : Option Nat} {s : Int} (hf : FitsIn len s) {l o : Nat}
    (h : osRange (len.map Int.ofNat) s = some (l, o)) : At s (newEnd s (len.map Int.ofNat)) o l := by
  by_cases h0 : 0 ≤ s
  · obtain ⟨l', o', h1, h2⟩ := osRange_fits hf h0
    rw [h] at h1
    cases h1
    exact h2
  · rw [osRange_neg _ (by omega)] at h; cases h

/-! ## Handles -/

theorem mem_of_target {p : Proc} {h : Nat} {hd : Handle} (ht : p.target h = some hd) : (h, hd) ∈ p.handles := by
  unfold Proc.target at ht
  generalize p.handles = L at *
  induction L with
  | nil => simp at ht
  | cons x xs ih =>
    obtain ⟨a, b⟩ := x
    rw [List.lookup_cons] at ht
    split at ht
    · rename_i he; simp at he ht; subst he; subst ht; exact List.mem_cons_self
    · exact List.mem_cons_of_mem _ (ih ht)

theorem target_append {p : Proc} {h : Nat} (hd : Handle) (hn : p.target h = none) (a : Nat) :
    (p.handles ++ [(h, hd)]).lookup a = if a = h then some hd else p.target a := by
  unfold Proc.target at *
  generalize p.handles = L at *
  induction L with
  | nil =>
    by_cases e : a = h
    · simp [e]
    · have : (a == h) = false := by simpa using e
      simp [List.lookup_cons, e, this]
  | cons x xs ih =>
    obtain ⟨y, z⟩ := x
    rw [List.lookup_cons] at hn
    by_cases e : h = y
    · simp [e] at hn
    · have : (h == y) = false := by simpa using e
      simp only [this] at hn
      rw [List.cons_append, List.lookup_cons, List.lookup_cons]
      by_cases f : a = y
      · subst f
        simp only [beq_self_eq_true]
        rw [if_neg (fun q => e q.symm)]
      · have : (a == y) = false := by simpa using f
        simp only [this]
        exact ih hn

theorem target_filter (p : Proc) (h a : Nat) :
    (p.handles.filter (fun x => ¬ x.1 = h)).lookup a = if a = h then none else p.target a := by
  unfold Proc.target
  induction p.handles with
  | nil => simp
  | cons x xs ih =>
    obtain ⟨y, z⟩ := x
    by_cases e : y = h
    · rw [List.filter_cons_of_neg (by simpa using e), ih, List.lookup_cons]
      by_cases f : a = h
      · simp [f]
      · have : (a == y) = false := by simpa [e] using f
        simp only [this]
    · rw [List.filter_cons_of_pos (by simpa using e), List.lookup_cons, List.lookup_cons]
      by_cases f : a = y
      · subst f; simp [e]
      · have : (a == y) = false := by simpa using f
        simp only [this]
        exact ih

/-! ## The kernel -/

/-- Two kernel locks that can exist together. -/
def Compat (k k' : KLock) : Prop :=
  k.file = k'.file → ∀ b, (k.off ≤ b ∧ b < k.off + k.len) → (k'.off ≤ b ∧ b < k'.off + k'.len) →
    (k.pid = k'.pid ∧ k.obj = k'.obj) ∨ (k.shared = true ∧ k'.shared = true)

theorem compat_grant {t : KTable} {pid : Nat} {hd : Handle} {sh : Bool} {o l : Nat} (ht : t.Pairwise Compat)
    (hc : kConflict t pid hd.obj hd.file sh o l = false) : (kGrant pid t hd sh o l).Pairwise Compat := by
  rw [kGrant, List.pairwise_append]
  refine ⟨ht, List.pairwise_singleton _ _, ?_⟩
  intro a ha b hb
  rw [List.mem_singleton] at hb
  subst hb
  intro hf i hi hi'
  rw [kConflict, List.any_eq_false] at hc
  have := hc a ha
  simp only [KLock.meets] at this hf hi'
  have hm : max a.off o < min (a.off + a.len) (o + l) := by omega
  simp only [hf, hm, decide_true, Bool.true_and, Bool.not_eq_true, Bool.not_eq_false', Bool.and_eq_true, Bool.or_eq_true,
    decide_eq_true_eq] at this
  rcases this with ⟨h1, h2 | h2⟩
  · exact Or.inr ⟨h2, h1⟩
  · exact Or.inl h2

theorem kUnlock_sublist {t t' : KTable} {pid obj o l : Nat} (h : kUnlock t pid obj o l = some t') : t'.Sublist t := by
  unfold kUnlock at h
  split at h
  · cases h; exact List.eraseP_sublist
  · split at h
    · cases h; exact List.eraseP_sublist
    · cases h

theorem kUnlock_keeps {t t' : KTable} {pid obj o l : Nat} (h : kUnlock t pid obj o l = some t') {k : KLock} (hk : k ∈ t)
    (hn : KLock.isAt pid obj o l k = false) : k ∈ t' := by
  unfold kUnlock at h
  split at h
  · cases h
    exact (List.mem_eraseP_of_neg (by simp [hn])).2 hk
  · split at h
    · cases h; exact (List.mem_eraseP_of_neg (by simp [hn])).2 hk
    · cases h

theorem isAt_false {pid obj o l : Nat} {k : KLock} (h : ¬ (k.pid = pid ∧ k.obj = obj ∧ k.off = o ∧ k.len = l)) :
    KLock.isAt pid obj o l k = false := by
  simpa [KLock.isAt] using h

/-! ## Processes -/

/-- The request of a thread. -/
def PC.req : PC → Option Req
  | .idle => none
  | .atReg q => some q
  | .checkReg q => some q
  | .atKern q => some q
  | .checkKern q => some q
  | .unwinding q => some q

/-- Only `_inner_file_unlock` calls of `close` are followed by something. -/
def Shape : List Micro → Prop
  | [] => True
  | .cunlock _ _ _ :: rest => Shape rest
  | .cclose _ :: rest => rest = []
  | .unlock _ _ _ _ _ :: rest => rest = []

theorem Shape.tail {m : Micro} {rest : List Micro} (h : Shape (m :: rest)) : Shape rest := by
  cases m
  · exact (show rest = [] from h) ▸ trivial
  · exact h
  · exact (show rest = [] from h) ▸ trivial

/-- What a system call of the owner of the mutex relies on. -/
def MicroFor (p : Proc) : Micro → Prop
  | .unlock sid h f s len => (∃ st, p.streams sid = some st ∧ st.isOpen = true ∧ st.handle = h ∧ st.file = f) ∧
      ∃ n : Option Nat, len = n.map Int.ofNat ∧ FitsIn n s
  | .cunlock h _ _ => ∀ sid st, p.streams sid = some st → st.isOpen = true → st.handle ≠ h
  | .cclose h => ∀ sid st, p.streams sid = some st → st.isOpen = true → st.handle ≠ h

/-- The handle is open, too. -/
def MicroOk (p : Proc) (m : Micro) : Prop := p.target m.handle ≠ none ∧ MicroFor p m

/-- Invariant of a process. -/
structure PInv (next : Nat) (p : Proc) : Prop where
  objs : ∀ x ∈ p.handles, x.2.obj < next
  single : ∀ x ∈ p.handles, ∀ y ∈ p.handles, x.2.obj = y.2.obj → x.1 = y.1
  streams : ∀ sid st, p.streams sid = some st → st.isOpen = true → p.target st.handle = some ⟨st.obj, st.file⟩
  distinct : ∀ sid st sid' st', p.streams sid = some st → p.streams sid' = some st' → st.isOpen = true →
    st'.isOpen = true → st.handle = st'.handle → sid = sid'
  crit : ∀ m ∈ p.crit, MicroOk p m
  shape : Shape p.crit
  threads : ∀ tid q, (p.threads tid).req = some q → FitsIn q.length q.start ∧
    ∃ st, p.streams q.sid = some st ∧ st.isOpen = true ∧ st.busy = some tid ∧ st.handle = q.handle ∧ st.file = q.file

/-- A held lock is backed by a kernel lock of the file object of its stream. -/
def BackedP (pid : Nat) (p : Proc) (k : KTable) (x : Held) : Prop :=
  ∃ st, p.streams x.sid = some st ∧ st.isOpen = true ∧ st.file = x.uid ∧
    ∃ y ∈ k, y.pid = pid ∧ y.obj = st.obj ∧ y.file = x.uid ∧ y.shared = x.shared ∧ At x.start x.stop y.off y.len

/-- The streams change at most in the field `busy`. -/
def SameStreams (p p' : Proc) : Prop :=
  ∀ sid, (p'.streams sid).map (fun st => { st with busy := none }) = (p.streams sid).map (fun st => { st with busy := none })

theorem SameStreams.rfl {p p' : Proc} (h : p'.streams = p.streams) : SameStreams p p' := fun sid => by rw [h]

theorem SameStreams.some {p p' : Proc} (h : SameStreams p p') {sid : Nat} {st : Stream} (hs : p.streams sid = some st) :
    ∃ b, p'.streams sid = some { st with busy := b } := by
  have := h sid
  rw [hs, Option.map_some] at this
  cases e : p'.streams sid with
  | none => rw [e] at this; cases this
  | some st' =>
    rw [e, Option.map_some, Option.some.injEq, Stream.mk.injEq] at this
    refine ⟨st'.busy, ?_⟩
    obtain ⟨a, b, c, d, f, _⟩ := this
    cases st'; simp_all

theorem SameStreams.symm {p p' : Proc} (h : SameStreams p p') : SameStreams p' p := fun sid => (h sid).symm

theorem BackedP.mono {pid : Nat} {p p' : Proc} {k k' : KTable} {x : Held} (h : BackedP pid p k x)
    (hs : SameStreams p p') (hk : ∀ y ∈ k, y.pid = pid → y ∈ k') : BackedP pid p' k' x := by
  obtain ⟨st, h1, h2, h3, y, h4, h5, h6⟩ := h
  obtain ⟨b, e⟩ := hs.some h1
  exact ⟨_, e, h2, h3, y, hk y h4 h5, h5, h6⟩

/-- What an action that does not touch handles, nor open or close streams, has to respect. -/
theorem PInv.same {next : Nat} {p p' : Proc} (h : PInv next p) (hh : p'.handles = p.handles) (hs : SameStreams p p')
    (hc : ∀ m ∈ p'.crit, MicroOk p m) (hsh : Shape p'.crit)
    (ht : ∀ tid q, (p'.threads tid).req = some q → FitsIn q.length q.start ∧
      ∃ st, p'.streams q.sid = some st ∧ st.isOpen = true ∧ st.busy = some tid ∧ st.handle = q.handle ∧
        st.file = q.file) : PInv next p' := by
  have hs' := hs.symm
  constructor
  · rw [hh]; exact h.objs
  · rw [hh]; exact h.single
  · intro sid st h1 h2
    obtain ⟨b, e⟩ := hs'.some h1
    rw [Proc.target, hh]
    have := h.streams _ _ e h2
    exact this
  · intro sid st sid' st' h1 h2 h3 h4 h5
    obtain ⟨b, e⟩ := hs'.some h1
    obtain ⟨b', e'⟩ := hs'.some h2
    exact h.distinct sid _ sid' _ e e' h3 h4 h5
  · intro m hm
    obtain ⟨live, this⟩ := hc m hm
    refine ⟨by rw [Proc.target, hh]; exact live, ?_⟩
    cases m with
    | unlock sid hd f s len =>
      obtain ⟨⟨st, h1, h2⟩, h3⟩ := this
      obtain ⟨b, e⟩ := hs.some h1
      exact ⟨⟨_, e, h2⟩, h3⟩
    | cunlock hd s len =>
      intro sid st h1 h2
      obtain ⟨b, e⟩ := hs'.some h1
      have := this _ _ e h2
      exact this
    | cclose hd =>
      intro sid st h1 h2
      obtain ⟨b, e⟩ := hs'.some h1
      have := this _ _ e h2
      exact this
  · exact hsh
  · exact ht

end Verif.Win
