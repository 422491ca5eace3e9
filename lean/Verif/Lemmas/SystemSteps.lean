import Verif.Lemmas.SystemView

/-! Preservation of the invariants by the elementary changes of a view. -/

namespace Verif

open Spec

theorem toClose_append (a b : List Micro) : toClose (a ++ b) = toClose a ++ toClose b := by
  simp [toClose]

theorem mem_toClose {c : List Micro} {fd : Nat} :
    fd ∈ toClose c ↔ Micro.nclose fd ∈ c ∨ ∃ u, Micro.addData u fd ∈ c := by
  simp only [toClose, List.mem_filterMap]
  constructor
  · rintro ⟨m, hm, h⟩
    cases m <;> simp [Micro.closing] at h
    · subst h; exact Or.inl hm
    · subst h; exact Or.inr ⟨_, hm⟩
  · rintro (h | ⟨u, h⟩)
    · exact ⟨_, h, rfl⟩
    · exact ⟨_, h, rfl⟩

/-- Only the threads change, keeping their requests. -/
theorem VInv.threads {v : View} (h : VInv v) (th : Nat → PC)
    (h1 : ∀ t q, (th t).req = some q → (v.threads t).req = some q)
    (h2 : ∀ t q, (th t).registered = some q → (v.threads t).registered = some q) :
    VInv { v with threads := th } where
  distinct := h.distinct
  live := h.live
  pend := h.pend
  closing := h.closing
  nodup := h.nodup
  critN := h.critN
  critA := h.critA
  critU := h.critU
  shaped := h.shaped
  compat := h.compat
  nonempty := h.nonempty
  thr := fun t q hq => h.thr t q (h1 t q hq)
  reged := fun t q hq => h.reged t q (h2 t q hq)

theorem VHeld.threads {pid : Nat} {v : View} {H : List Held} (h : VHeld pid v H) (th : Nat → PC)
    (h2 : ∀ t q, (th t).registered = some q ↔ (v.threads t).registered = some q) :
    VHeld pid { v with threads := th } H where
  held := h.held
  notInflight := fun t q hq => h.notInflight t q ((h2 t q).1 hq)
  owner := fun u x hx => by
    rcases h.owner u x hx with h' | ⟨t, q, hq, h'⟩
    · exact Or.inl h'
    · exact Or.inr ⟨t, q, (h2 t q).2 hq, h'⟩

theorem updMap_cases {α β : Type} [DecidableEq α] {f : α → β} {a x : α} {b c : β} (h : updMap f a b x = c) :
    (x = a ∧ b = c) ∨ (x ≠ a ∧ f x = c) := by
  unfold updMap at h; split at h
  · exact Or.inl ⟨by assumption, h⟩
  · exact Or.inr ⟨by assumption, h⟩

/-- The streams change only in their `busy` field. -/
def SameStreams (a b : Nat → Option Stream) : Prop :=
  ∀ s, (a s = none ∧ b s = none) ∨ ∃ x y, a s = some x ∧ b s = some y ∧ x.fd = y.fd ∧ x.uid = y.uid ∧
    x.closefd = y.closefd ∧ x.isOpen = y.isOpen

theorem SameStreams.refl (a : Nat → Option Stream) : SameStreams a a := by
  intro s; cases h : a s with
  | none => exact Or.inl ⟨rfl, rfl⟩
  | some x => exact Or.inr ⟨x, x, rfl, rfl, rfl, rfl, rfl, rfl⟩

theorem SameStreams.get {a b : Nat → Option Stream} (h : SameStreams a b) {s : Nat} {y : Stream}
    (hy : b s = some y) : ∃ x, a s = some x ∧ x.fd = y.fd ∧ x.uid = y.uid ∧ x.closefd = y.closefd ∧
      x.isOpen = y.isOpen := by
  rcases h s with ⟨_, h2⟩ | ⟨x, y', h1, h2, h3⟩
  · rw [hy] at h2; cases h2
  · rw [hy] at h2; cases h2; exact ⟨x, h1, h3⟩

theorem SameStreams.symm {a b : Nat → Option Stream} (h : SameStreams a b) : SameStreams b a := by
  intro s
  rcases h s with ⟨h1, h2⟩ | ⟨x, y, h1, h2, h3, h4, h5, h6⟩
  · exact Or.inl ⟨h2, h1⟩
  · exact Or.inr ⟨y, x, h2, h1, h3.symm, h4.symm, h5.symm, h6.symm⟩

theorem SameStreams.noOpen {a b : Nat → Option Stream} (h : SameStreams a b) {fd : Nat} (ha : NoOpen a fd) :
    NoOpen b fd := by
  intro s y hy ho
  obtain ⟨x, hx, h1, _, _, h4⟩ := h.get hy
  rw [← h1]; exact ha s x hx (h4.trans ho)

/-- Threads and `busy` marks change; requests and registrations of threads stay within what is justified. -/
theorem VInv.calls {v : View} (h : VInv v) (th : Nat → PC) (ss : Nat → Option Stream)
    (hs : SameStreams v.streams ss)
    (h1 : ∀ t q, (th t).req = some q → ∃ st, ss q.sid = some st ∧ st.isOpen = true ∧
      st.fd = q.fd ∧ st.uid = q.uid ∧ st.busy = some t)
    (h2 : ∀ t q, (th t).registered = some q → (v.threads t).registered = some q) :
    VInv { v with threads := th, streams := ss } where
  distinct := by
    intro s₁ s₂ y₁ y₂ e₁ e₂ o₁ o₂ hf
    obtain ⟨x₁, a₁, b₁, _, _, c₁⟩ := hs.get e₁
    obtain ⟨x₂, a₂, b₂, _, _, c₂⟩ := hs.get e₂
    exact h.distinct s₁ s₂ x₁ x₂ a₁ a₂ (c₁.trans o₁) (c₂.trans o₂) (by rw [b₁, b₂]; exact hf)
  live := by
    intro s y e o
    obtain ⟨x, a, b, c, _, d⟩ := hs.get e
    show v.fds y.fd = some y.uid
    rw [← b, ← c]; exact h.live s x a (d.trans o)
  pend := fun u fd hfd => ⟨(h.pend u fd hfd).1, hs.noOpen (h.pend u fd hfd).2⟩
  closing := fun fd hfd => ⟨(h.closing fd hfd).1, hs.noOpen (h.closing fd hfd).2⟩
  nodup := h.nodup
  critN := h.critN
  critA := h.critA
  critU := h.critU
  shaped := h.shaped
  compat := h.compat
  nonempty := h.nonempty
  thr := h1
  reged := fun t q hq => h.reged t q (h2 t q hq)

theorem VHeld.calls {pid : Nat} {v : View} {H : List Held} (h : VHeld pid v H) (th : Nat → PC)
    (ss : Nat → Option Stream) (hs : SameStreams v.streams ss)
    (h2 : ∀ t q, (th t).registered = some q ↔ (v.threads t).registered = some q) :
    VHeld pid { v with threads := th, streams := ss } H where
  held := by
    intro x hx hp
    obtain ⟨st, a, b, c, d⟩ := h.held x hx hp
    obtain ⟨y, a', b', c', _, d'⟩ := hs.symm.get a
    exact ⟨y, a', d'.trans b, c'.trans c, by rw [b']; exact d⟩
  notInflight := fun t q hq => h.notInflight t q ((h2 t q).1 hq)
  owner := fun u x hx => by
    rcases h.owner u x hx with ⟨hh, m, p1, p2, p3, p4, p5, st, s1, s2, s3⟩ | ⟨t, q, hq, h'⟩
    · obtain ⟨y, a', b', c', _, d'⟩ := hs.symm.get s1
      exact Or.inl ⟨hh, m, p1, p2, p3, p4, p5, y, a', d'.trans s2, b'.trans s3⟩
    · exact Or.inr ⟨t, q, (h2 t q).2 hq, h'⟩

/-- A registration is accepted. -/
theorem VInv.register {v : View} (h : VInv v) (t : Nat) (q : Req) (hc : v.crit = [])
    (hq : (v.threads t).req = some q)
    (hs : scanLocks q.fd q.shared q.start q.stop (v.T q.uid) = .ok true) :
    VInv { v with threads := updMap v.threads t (.atKern q),
                  T := updMap v.T q.uid (v.T q.uid ++ [q.record]) } where
  distinct := h.distinct
  live := h.live
  pend := h.pend
  closing := h.closing
  nodup := h.nodup
  critN := by intro fd hfd; simp only [hc] at hfd; cases hfd
  critA := h.critA
  critU := by intro fd u s l hfd; simp only [hc] at hfd; cases hfd
  shaped := h.shaped
  compat := by
    intro u
    show (updMap v.T q.uid (v.T q.uid ++ [q.record]) u).Pairwise Compat
    by_cases hu : u = q.uid
    · subst hu
      rw [updMap_same, List.pairwise_append]
      refine ⟨h.compat _, List.pairwise_singleton _ _, ?_⟩
      intro x hx y hy
      simp only [List.mem_singleton] at hy
      subst hy
      intro hcf
      refine (scan_true_iff _ _ _ _ _).1 hs x hx ⟨hcf.1, ?_⟩
      simpa [Req.record] using hcf.2
    · rw [updMap_other _ _ hu]; exact h.compat u
  nonempty := by
    intro u x hx
    change x ∈ updMap v.T q.uid (v.T q.uid ++ [q.record]) u at hx
    by_cases hu : u = q.uid
    · subst hu
      rw [updMap_same, List.mem_append, List.mem_singleton] at hx
      rcases hx with hx | rfl
      · exact h.nonempty _ _ hx
      · simp only [covers_iff, Req.record, Req.stop, Req.len, newEnd]
        rcases q.length with _ | n
        · simp
        · simp only [Option.map_some]
          refine ⟨Int.le_refl _, ?_⟩
          by_cases hn : (Int.ofNat n) = 0
          · simp only [hn, if_true]
          · simp only [hn, if_false]
            have : (0 : Int) ≤ Int.ofNat n := Int.natCast_nonneg n
            omega
    · rw [updMap_other _ _ hu] at hx; exact h.nonempty u x hx
  thr := by
    intro t' q' hq'
    change (updMap v.threads t (.atKern q) t').req = some q' at hq'
    by_cases ht : t' = t
    · subst ht
      rw [updMap_same] at hq'
      simp only [PC.req, Option.some.injEq] at hq'
      subst hq'
      exact h.thr t' q hq
    · rw [updMap_other _ _ ht] at hq'
      exact h.thr t' q' hq'
  reged := by
    intro t' q' hq'
    change (updMap v.threads t (.atKern q) t').registered = some q' at hq'
    change q'.record ∈ updMap v.T q.uid (v.T q.uid ++ [q.record]) q'.uid
    by_cases ht : t' = t
    · subst ht
      rw [updMap_same] at hq'
      simp only [PC.registered, Option.some.injEq] at hq'
      subst hq'
      rw [updMap_same]; simp
    · rw [updMap_other _ _ ht] at hq'
      have := h.reged t' q' hq'
      by_cases hu : q'.uid = q.uid
      · rw [hu, updMap_same]; rw [hu] at this; simp [this]
      · rw [updMap_other _ _ hu]; exact this

theorem VHeld.register {pid : Nat} {v : View} {H : List Held} (hv : VInv v) (h : VHeld pid v H) (t : Nat)
    (q : Req) (hq : (v.threads t).req = some q) (hr : (v.threads t).registered = none)
    (hs : scanLocks q.fd q.shared q.start q.stop (v.T q.uid) = .ok true) :
    VHeld pid { v with threads := updMap v.threads t (.atKern q),
                       T := updMap v.T q.uid (v.T q.uid ++ [q.record]) } H where
  held := by
    intro x hx hp
    obtain ⟨st, a, b, c, d⟩ := h.held x hx hp
    refine ⟨st, a, b, c, ?_⟩
    show _ ∈ updMap v.T q.uid (v.T q.uid ++ [q.record]) x.uid
    by_cases hu : x.uid = q.uid
    · rw [hu, updMap_same]; rw [hu] at d; simp [d]
    · rw [updMap_other _ _ hu]; exact d
  notInflight := by
    intro t' q' hq' x hx hp hsid heq
    change (updMap v.threads t (.atKern q) t').registered = some q' at hq'
    by_cases ht : t' = t
    · subst ht
      rw [updMap_same] at hq'
      simp only [PC.registered, Option.some.injEq] at hq'
      subst hq'
      obtain ⟨st, a, b, c, d⟩ := h.held x hx hp
      obtain ⟨st', a', b', c', d', _⟩ := hv.thr t' q hq
      rw [hsid, a'] at a
      cases a
      have hu : x.uid = q.uid := by rw [← c, d']
      rw [hu] at d
      have hne := hv.nonempty _ _ d
      refine (scan_true_iff _ _ _ _ _).1 hs _ d ⟨⟨x.start, hne, ?_⟩, Or.inl c'⟩
      rw [← heq.1, ← heq.2]; exact hne
    · rw [updMap_other _ _ ht] at hq'
      exact h.notInflight t' q' hq' x hx hp hsid heq
  owner := by
    intro u x hx
    change x ∈ updMap v.T q.uid (v.T q.uid ++ [q.record]) u at hx
    have key : x ∈ v.T u ∨ (x = q.record ∧ u = q.uid) := by
      by_cases hu : u = q.uid
      · subst hu
        rw [updMap_same, List.mem_append, List.mem_singleton] at hx
        rcases hx with hx | hx
        · exact Or.inl hx
        · exact Or.inr ⟨hx, rfl⟩
      · rw [updMap_other _ _ hu] at hx; exact Or.inl hx
    rcases key with hx | ⟨rfl, rfl⟩
    · rcases h.owner u x hx with h' | ⟨t', q', hq', h'⟩
      · exact Or.inl h'
      · refine Or.inr ⟨t', q', ?_, h'⟩
        show (updMap v.threads t (.atKern q) t').registered = some q'
        have ht : t' ≠ t := by rintro rfl; rw [hr] at hq'; cases hq'
        rw [updMap_other _ _ ht]; exact hq'
    · exact Or.inr ⟨t, q, by simp [PC.registered], rfl, rfl⟩

/-- Records are removed from the table (which must stay justified). -/
theorem VInv.shrink {v : View} (h : VInv v) (T' : Uid → List LockRec) (hsub : ∀ u, (T' u).Sublist (v.T u))
    (hr : ∀ t q, (v.threads t).registered = some q → q.record ∈ T' q.uid) :
    VInv { v with T := T' } where
  distinct := h.distinct
  live := h.live
  pend := h.pend
  closing := h.closing
  nodup := h.nodup
  critN := by
    intro fd hfd u hu
    have := hsub u
    rw [h.critN fd hfd u hu] at this
    exact List.sublist_nil.1 this
  critA := h.critA
  critU := by
    intro fd u s l hfd
    obtain ⟨a, b, c, d⟩ := h.critU fd u s l hfd
    exact ⟨a, b, c, fun x hx => d x ((hsub u).subset hx)⟩
  shaped := h.shaped
  compat := fun u => (h.compat u).sublist (hsub u)
  nonempty := fun u x hx => h.nonempty u x ((hsub u).subset hx)
  thr := h.thr
  reged := hr


theorem pairwise_compat_ne {L : List LockRec} (h : L.Pairwise Compat) {x y : LockRec} (hx : x ∈ L) (hy : y ∈ L)
    (hne : x ≠ y) : Compat x y := by
  induction h with
  | nil => cases hx
  | cons ha _ ih =>
    rename_i a l
    rcases List.mem_cons.1 hx with rfl | hx' <;> rcases List.mem_cons.1 hy with rfl | hy'
    · exact absurd rfl hne
    · exact ha _ hy'
    · exact (ha _ hx').symm
    · exact ih hx' hy'

/-- After erasing the record with this range, no record of the table has the same range and handle, and exclusive
ones do not meet the range. -/
theorem erase_compat {L : List LockRec} (hc : L.Pairwise Compat)
    (hn : ∀ x ∈ L, Covers x.start x.stop x.start) {h : Nat} {s : Int} {e : Option Int}
    (hm : (∃ x ∈ L, x.matchesRange h s e = true) ∨ L = []) {x : LockRec}
    (hx : x ∈ L.eraseP (LockRec.matchesRange h s e)) :
    ¬ (x.handle = h ∧ x.start = s ∧ x.stop = e) ∧ (x.shared = false → ¬ Meet x.start x.stop s e) := by
  rcases hm with ⟨z, hz, hzm⟩ | rfl
  · obtain ⟨y, l₁, l₂, _, hy, heq, her⟩ := List.exists_of_eraseP hz hzm
    rw [matchesRange_iff] at hy
    obtain ⟨y1, y2, y3⟩ := hy
    rw [her] at hx
    have hyL : y ∈ L := by rw [heq]; simp
    have hxL : x ∈ L := by
      rw [heq]; rcases List.mem_append.1 hx with h' | h' <;> simp [h']
    have hxy : Compat x y := by
      rw [heq, List.pairwise_append] at hc
      obtain ⟨_, hc2, hc3⟩ := hc
      rcases List.mem_append.1 hx with h' | h'
      · exact hc3 x h' y (by simp)
      · exact ((List.pairwise_cons.1 hc2).1 x h').symm
    refine ⟨?_, ?_⟩
    · rintro ⟨e1, e2, e3⟩
      refine hxy ⟨⟨x.start, hn x hxL, ?_⟩, Or.inl (e1.trans y1.symm)⟩
      rw [y2, y3, ← e2, ← e3]; exact hn x hxL
    · intro hsh hmeet
      refine hxy ⟨?_, Or.inr (Or.inl hsh)⟩
      rw [y2, y3]; exact hmeet
  · simp at hx

theorem notify_req (uid : Uid) (th : Nat → PC) (t : Nat) :
    (notifyAll uid th t).req = (th t).req ∧ (notifyAll uid th t).registered = (th t).registered := by
  unfold notifyAll
  rcases h : th t with _ | q | ⟨q, b⟩ | q | q | q | q
  case waiting =>
    by_cases hu : q.uid = uid
    · simp [hu, PC.req, PC.registered]
    · simp [hu, PC.req, PC.registered]
  all_goals exact ⟨rfl, rfl⟩

/-- Two open streams with the same descriptor are the same. -/
theorem VInv.same {v : View} (h : VInv v) {s₁ s₂ : Nat} {st₁ st₂ : Stream} (e₁ : v.streams s₁ = some st₁)
    (e₂ : v.streams s₂ = some st₂) (o₁ : st₁.isOpen = true) (o₂ : st₂.isOpen = true) (hf : st₁.fd = st₂.fd) :
    s₁ = s₂ := h.distinct s₁ s₂ st₁ st₂ e₁ e₂ o₁ o₂ hf

/-- An open stream's descriptor is not pending. -/
theorem VInv.notPending {v : View} (h : VInv v) {s : Nat} {st : Stream} (e : v.streams s = some st)
    (o : st.isOpen = true) (u : Uid) : st.fd ∉ v.D u :=
  fun hd => (h.pend u st.fd hd).2 s st e o rfl

/-- `unlock_file` succeeds: table, threads and critical section. -/
theorem VInv.unlock {v : View} (h : VInv v) {sid : Nat} {st : Stream} (hst : v.streams sid = some st)
    (ho : st.isOpen = true) (hb : st.busy = none) (hcrit : v.crit = []) (s : Int) (l : Option Int)
    (hm : (∃ x ∈ v.T st.uid, x.matchesRange st.fd s (newEnd s l) = true) ∨ v.T st.uid = [])
    (th : Nat → PC)
    (h1 : ∀ t q, (th t).req = some q → (v.threads t).req = some q)
    (h2 : ∀ t q, (th t).registered = some q → (v.threads t).registered = some q) :
    VInv { v with T := updMap v.T st.uid ((v.T st.uid).eraseP (LockRec.matchesRange st.fd s (newEnd s l))),
                  threads := th, crit := unlockMicros st.fd st.uid s l } := by
  have hshr : VInv { v with
      T := updMap v.T st.uid ((v.T st.uid).eraseP (LockRec.matchesRange st.fd s (newEnd s l))) } := by
    apply h.shrink
    · intro u
      by_cases hu : u = st.uid
      · subst hu; rw [updMap_same]; exact List.eraseP_sublist
      · rw [updMap_other _ _ hu]; exact List.Sublist.refl _
    · intro t q hq
      have hin := h.reged t q hq
      obtain ⟨st', a, b, c, d, e⟩ := h.thr t q (PC.req_of_registered hq)
      by_cases hu : q.uid = st.uid
      · rw [hu, updMap_same]
        rw [hu] at hin
        have hnp : ¬ (LockRec.matchesRange st.fd s (newEnd s l) q.record = true) := by
          rw [matchesRange_iff]
          rintro ⟨e1, _, _⟩
          have : q.sid = sid := h.same a hst b ho (c.trans e1)
          rw [this, hst] at a; cases a
          rw [hb] at e; cases e
        exact (List.mem_eraseP_of_neg hnp).2 hin
      · rw [updMap_other _ _ hu]; exact hin
  have hth := hshr.threads th h1 h2
  refine { hth with closing := ?_, nodup := ?_, critN := ?_, critA := ?_, critU := ?_, shaped := ?_ }
  · intro fd hfd; simp [unlockMicros, toClose, Micro.closing] at hfd
  · intro u
    have := h.nodup u
    rw [hcrit] at this
    exact this
  · intro fd hfd; simp [unlockMicros] at hfd
  · intro u fd hfd; simp [unlockMicros] at hfd
  · intro fd u s' l' hfd
    simp only [unlockMicros, List.mem_cons, Micro.kunlock.injEq, reduceCtorEq, List.not_mem_nil, or_false] at hfd
    obtain ⟨rfl, rfl, rfl, rfl⟩ := hfd
    refine ⟨h.live sid st hst ho, h.notPending hst ho _, by simp [unlockMicros], ?_⟩
    intro x hx
    change x ∈ updMap v.T st.uid _ st.uid at hx
    rw [updMap_same] at hx
    exact (erase_compat (h.compat _) (fun y hy => h.nonempty _ y hy) hm hx).2
  · simp [unlockMicros, Shaped]

theorem VHeld.unlock {pid : Nat} {v : View} {H : List Held} (hv : VInv v) (h : VHeld pid v H) {sid : Nat}
    {st : Stream} (hst : v.streams sid = some st)
    (ho : st.isOpen = true) (s : Int) (l : Option Int)
    (hm : (∃ x ∈ v.T st.uid, x.matchesRange st.fd s (newEnd s l) = true) ∨ v.T st.uid = [])
    (th : Nat → PC) (c : List Micro)
    (h2 : ∀ t q, (th t).registered = some q ↔ (v.threads t).registered = some q) :
    VHeld pid { v with T := updMap v.T st.uid ((v.T st.uid).eraseP (LockRec.matchesRange st.fd s (newEnd s l))),
                       threads := th, crit := c }
      (heldStep H (.unlocked pid sid st.uid s (newEnd s l))) where
  held := by
    intro x hx hp
    simp only [heldStep, List.mem_filter, decide_eq_true_eq] at hx
    obtain ⟨hxH, hxn⟩ := hx
    obtain ⟨st', a, b, c, d⟩ := h.held x hxH hp
    refine ⟨st', a, b, c, ?_⟩
    show _ ∈ updMap v.T st.uid _ x.uid
    by_cases hu : x.uid = st.uid
    · rw [hu, updMap_same]; rw [hu] at d
      refine (List.mem_eraseP_of_neg ?_).2 d
      rw [matchesRange_iff]
      rintro ⟨e1, e2, e3⟩
      exact hxn ⟨hp, hv.same a hst b ho e1, e2, e3⟩
    · rw [updMap_other _ _ hu]; exact d
  notInflight := by
    intro t q hq x hx
    simp only [heldStep, List.mem_filter, decide_eq_true_eq] at hx
    exact h.notInflight t q ((h2 t q).1 hq) x hx.1
  owner := by
    intro u x hx
    change x ∈ updMap v.T st.uid _ u at hx
    have hxu : x ∈ v.T u := by
      by_cases hu : u = st.uid
      · subst hu; rw [updMap_same] at hx; exact List.mem_of_mem_eraseP hx
      · rw [updMap_other _ _ hu] at hx; exact hx
    rcases h.owner u x hxu with ⟨hh, m, p1, p2, p3, p4, p5, st', s1, s2, s3⟩ | ⟨t, q, hq, h'⟩
    · refine Or.inl ⟨hh, ?_, p1, p2, p3, p4, p5, st', s1, s2, s3⟩
      simp only [heldStep, List.mem_filter, decide_eq_true_eq]
      refine ⟨m, ?_⟩
      rintro ⟨_, e1, e2, e3⟩
      have hst' : st' = st := by rw [e1, hst] at s1; cases s1; rfl
      subst hst'
      have hu : u = st'.uid := by
        obtain ⟨st2, a2, _, c2, _⟩ := h.held hh m p1
        rw [s1] at a2; cases a2; rw [← p2, c2]
      subst hu
      rw [updMap_same] at hx
      exact (erase_compat (hv.compat _) (fun y hy => hv.nonempty _ y hy) hm hx).1
        ⟨s3.symm, p4.symm.trans e2, p5.symm.trans e3⟩
    · exact Or.inr ⟨t, q, (h2 t q).2 hq, h'⟩

/-- The end of a failed `lock_file` whose range was registered. -/
theorem VInv.unwind {v : View} (h : VInv v) (t : Nat) (q : Req)
    (hq : (v.threads t).registered = some q)
    (th : Nat → PC) (ss : Nat → Option Stream) (hs : SameStreams v.streams ss)
    (hss : ∀ s, s ≠ q.sid → ss s = v.streams s)
    (h1 : ∀ t' q', (th t').req = some q' → t' ≠ t ∧ (v.threads t').req = some q')
    (h2 : ∀ t' q', (th t').registered = some q' → (v.threads t').registered = some q') :
    VInv { v with T := updMap v.T q.uid ((v.T q.uid).eraseP (LockRec.matchesRange q.fd q.start q.stop)),
                  threads := th, streams := ss } := by
  obtain ⟨st, a, b, c, d, e⟩ := h.thr t q (PC.req_of_registered hq)
  have hsid : ∀ t' q', (th t').req = some q' → q'.sid ≠ q.sid := by
    intro t' q' hq' hsid
    obtain ⟨hne, hq''⟩ := h1 t' q' hq'
    obtain ⟨st', a', b', c', d', e'⟩ := h.thr t' q' hq''
    rw [hsid, a] at a'; cases a'
    rw [e] at e'; cases e'; exact hne rfl
  have hcalls := h.calls th ss hs (by
      intro t' q' hq'
      obtain ⟨hne, hq''⟩ := h1 t' q' hq'
      rw [hss q'.sid (hsid t' q' hq')]
      exact h.thr t' q' hq'') h2
  have := hcalls.shrink (updMap v.T q.uid ((v.T q.uid).eraseP (LockRec.matchesRange q.fd q.start q.stop)))
    (by
      intro u
      by_cases hu : u = q.uid
      · subst hu; rw [updMap_same]; exact List.eraseP_sublist
      · rw [updMap_other _ _ hu]; exact List.Sublist.refl _)
    (by
      intro t' q' hq'
      have hreq := PC.req_of_registered hq'
      have hin := h.reged t' q' (h2 t' q' hq')
      by_cases hu : q'.uid = q.uid
      · rw [hu, updMap_same]
        rw [hu] at hin
        refine (List.mem_eraseP_of_neg ?_).2 hin
        rw [matchesRange_iff]
        rintro ⟨e1, _, _⟩
        obtain ⟨st', a', b', c', d', e'⟩ := h.thr t' q' (h1 t' q' hreq).2
        exact hsid t' q' hreq (h.same a' a b' b (c'.trans (e1.trans c.symm)))
      · rw [updMap_other _ _ hu]; exact hin)
  exact this

theorem VHeld.unwind {pid : Nat} {v : View} {H : List Held} (hv : VInv v) (h : VHeld pid v H) (t : Nat) (q : Req)
    (hq : (v.threads t).registered = some q)
    (th : Nat → PC) (ss : Nat → Option Stream) (hs : SameStreams v.streams ss)
    (h2 : ∀ t' q', (th t').registered = some q' ↔ t' ≠ t ∧ (v.threads t').registered = some q') :
    VHeld pid { v with T := updMap v.T q.uid ((v.T q.uid).eraseP (LockRec.matchesRange q.fd q.start q.stop)),
                       threads := th, streams := ss } H where
  held := by
    intro x hx hp
    obtain ⟨st', a, b, c, d⟩ := h.held x hx hp
    obtain ⟨y, a', b', c', _, d'⟩ := hs.symm.get a
    refine ⟨y, a', d'.trans b, c'.trans c, ?_⟩
    show _ ∈ updMap v.T q.uid _ x.uid
    rw [b']
    by_cases hu : x.uid = q.uid
    · rw [hu, updMap_same]; rw [hu] at d
      refine (List.mem_eraseP_of_neg ?_).2 d
      rw [matchesRange_iff]
      rintro ⟨e1, e2, e3⟩
      obtain ⟨st, a2, b2, c2, d2, e2'⟩ := hv.thr t q (PC.req_of_registered hq)
      exact h.notInflight t q hq x hx hp (hv.same a a2 b b2 (e1.trans c2.symm)) ⟨e2, e3⟩
    · rw [updMap_other _ _ hu]; exact d
  notInflight := by
    intro t' q' hq' x hx
    exact h.notInflight t' q' ((h2 t' q').1 hq').2 x hx
  owner := by
    intro u x hx
    change x ∈ updMap v.T q.uid _ u at hx
    have hxu : x ∈ v.T u := by
      by_cases hu : u = q.uid
      · subst hu; rw [updMap_same] at hx; exact List.mem_of_mem_eraseP hx
      · rw [updMap_other _ _ hu] at hx; exact hx
    rcases h.owner u x hxu with ⟨hh, m, p1, p2, p3, p4, p5, st, s1, s2, s3⟩ | ⟨t', q', hq', hrec, hu'⟩
    · obtain ⟨y, a', b', c', _, d'⟩ := hs.symm.get s1
      exact Or.inl ⟨hh, m, p1, p2, p3, p4, p5, y, a', d'.trans s2, b'.trans s3⟩
    · refine Or.inr ⟨t', q', (h2 t' q').2 ⟨?_, hq'⟩, hrec, hu'⟩
      rintro rfl
      rw [hq] at hq'; cases hq'
      subst hu'
      rw [updMap_same] at hx
      have hm : q.record.matchesRange q.fd q.start q.stop = true := matchesRange_iff.2 ⟨rfl, rfl, rfl⟩
      have := (erase_compat (hv.compat _) (fun y hy => hv.nonempty _ y hy)
        (Or.inl ⟨q.record, hv.reged t' q hq, hm⟩) hx).1
      exact this (by rw [← hrec]; exact ⟨rfl, rfl, rfl⟩)


theorem newEnd_len {x : LockRec} (h : Covers x.start x.stop x.start) :
    newEnd x.start (x.stop.map (fun t => t - x.start)) = x.stop := by
  rw [covers_iff] at h
  rcases hx : x.stop with _ | e
  · rfl
  · rw [hx] at h
    simp only [Option.map_some, newEnd]
    rw [if_neg (by omega)]
    congr 1; omega

theorem shaped_nclose (l : List Nat) {c : List Micro} (h : Shaped c) : Shaped (l.map .nclose ++ c) := by
  induction l with
  | nil => simpa using h
  | cons a l ih => simpa [Shaped] using ih

theorem Shaped.tail {m : Micro} {c : List Micro} (h : Shaped (m :: c)) : Shaped c := by
  cases m <;> first | exact h | exact h.2

theorem shaped_close (xs : List LockRec) (f : LockRec → List Micro)
    (hf : ∀ x, ∃ fd u s l, f x = unlockMicros fd u s l) (c : List Micro) (hc : Shaped c) :
    Shaped (xs.flatMap f ++ c) := by
  induction xs with
  | nil => simpa using hc
  | cons x xs ih =>
    obtain ⟨fd, u, s, l, he⟩ := hf x
    simp only [List.flatMap_cons, he, unlockMicros, List.cons_append, List.nil_append, Shaped]
    exact ih

/-- The critical section of `close`. -/
def closeCrit (st : Stream) (removed : List LockRec) : List Micro :=
  removed.flatMap (fun x => unlockMicros st.fd st.uid x.start (x.stop.map (fun t => t - x.start))) ++ closeMicros st

theorem closeCrit_mem {st : Stream} {rm : List LockRec} {m : Micro} (h : m ∈ closeCrit st rm) :
    (∃ x ∈ rm, m = .kunlock st.fd st.uid x.start (x.stop.map (fun t => t - x.start))) ∨
    m = .purge st.uid ∨ m = .addData st.uid st.fd ∨ m = .delEntry st.uid := by
  simp only [closeCrit, List.mem_append, List.mem_flatMap] at h
  rcases h with ⟨x, hx, h⟩ | h
  · simp only [unlockMicros, List.mem_cons, List.not_mem_nil, or_false] at h
    rcases h with rfl | rfl
    · exact Or.inl ⟨x, hx, rfl⟩
    · simp
  · unfold closeMicros at h
    split at h
    · simp only [List.mem_cons, List.not_mem_nil, or_false] at h
      rcases h with rfl | rfl | rfl <;> simp
    · simp at h

theorem toClose_closeCrit (st : Stream) (rm : List LockRec) :
    toClose (closeCrit st rm) = if st.closefd then [st.fd] else [] := by
  have : toClose (rm.flatMap (fun x => unlockMicros st.fd st.uid x.start (x.stop.map (fun t => t - x.start)))) = [] := by
    induction rm with
    | nil => rfl
    | cons x xs ih =>
      rw [List.flatMap_cons, toClose_append, ih]; simp [unlockMicros, toClose, Micro.closing]
  rw [closeCrit, toClose_append, this]
  unfold closeMicros
  split <;> simp [toClose, Micro.closing]

/-- `close` of an open stream that no thread is using. -/
theorem VInv.close {v : View} (h : VInv v) {sid : Nat} {st : Stream} (hst : v.streams sid = some st)
    (ho : st.isOpen = true) (hb : st.busy = none) (hcrit : v.crit = []) :
    VInv { v with T := updMap v.T st.uid ((v.T st.uid).filter (fun x => ¬ x.handle = st.fd)),
                  streams := updMap v.streams sid (some { st with isOpen := false }),
                  crit := closeCrit st ((v.T st.uid).filter (fun x => x.handle = st.fd)) } := by
  have hopen : ∀ s' st', updMap v.streams sid (some { st with isOpen := false }) s' = some st' →
      st'.isOpen = true → s' ≠ sid ∧ v.streams s' = some st' := by
    intro s' st' he ho'
    rcases updMap_cases he with ⟨rfl, h'⟩ | ⟨hne, h'⟩
    · cases h'; cases ho'
    · exact ⟨hne, h'⟩
  have hno : NoOpen (updMap v.streams sid (some { st with isOpen := false })) st.fd := by
    intro s' st' he ho' hf
    obtain ⟨hne, he'⟩ := hopen s' st' he ho'
    exact hne (h.same he' hst ho' ho hf)
  have hmono : ∀ fd, NoOpen v.streams fd → NoOpen (updMap v.streams sid (some { st with isOpen := false })) fd := by
    intro fd hfd s' st' he ho'
    exact hfd s' st' (hopen s' st' he ho').2 ho'
  have hsub : ∀ u, (updMap v.T st.uid ((v.T st.uid).filter (fun x => ¬ x.handle = st.fd)) u).Sublist (v.T u) := by
    intro u
    by_cases hu : u = st.uid
    · subst hu; rw [updMap_same]; exact List.filter_sublist
    · rw [updMap_other _ _ hu]; exact List.Sublist.refl _
  constructor
  case distinct =>
    intro s₁ s₂ y₁ y₂ e₁ e₂ o₁ o₂ hf
    exact h.distinct s₁ s₂ y₁ y₂ (hopen _ _ e₁ o₁).2 (hopen _ _ e₂ o₂).2 o₁ o₂ hf
  case live => intro s' st' he ho'; exact h.live s' st' (hopen _ _ he ho').2 ho'
  case pend => intro u fd hfd; exact ⟨(h.pend u fd hfd).1, hmono fd (h.pend u fd hfd).2⟩
  case closing =>
    intro fd hfd
    change fd ∈ toClose (closeCrit st _) at hfd
    rw [toClose_closeCrit] at hfd
    split at hfd
    · simp only [List.mem_singleton] at hfd; subst hfd
      exact ⟨⟨_, h.live sid st hst ho⟩, hno⟩
    · simp at hfd
  case nodup =>
    intro u
    show (toClose (closeCrit st _) ++ v.D u).Nodup
    rw [toClose_closeCrit]
    have hd : (v.D u).Nodup := by have := h.nodup u; rw [hcrit] at this; simpa [toClose] using this
    split
    · simp only [List.singleton_append, List.nodup_cons]
      exact ⟨h.notPending hst ho u, hd⟩
    · simpa using hd
  case critN =>
    intro fd hfd
    rcases closeCrit_mem hfd with ⟨x, _, hx⟩ | hx | hx | hx <;> cases hx
  case critA =>
    intro u fd hfd
    rcases closeCrit_mem hfd with ⟨x, _, hx⟩ | hx | hx | hx <;> cases hx
    exact h.live sid st hst ho
  case critU =>
    intro fd u s l hfd
    rcases closeCrit_mem hfd with ⟨x, hxm, hx⟩ | hx | hx | hx <;> cases hx
    have hxT : x ∈ v.T st.uid := (List.mem_filter.1 hxm).1
    have hxf : x.handle = st.fd := by simpa using (List.mem_filter.1 hxm).2
    refine ⟨h.live sid st hst ho, h.notPending hst ho _, ?_, ?_⟩
    · intro hc
      rcases closeCrit_mem hc with ⟨x, _, hx⟩ | hx | hx | hx <;> cases hx
    · intro y hy hsh
      change y ∈ updMap v.T st.uid _ st.uid at hy
      rw [updMap_same, List.mem_filter] at hy
      have hyf : ¬ y.handle = st.fd := by simpa using hy.2
      rw [newEnd_len (h.nonempty _ x hxT)]
      intro hm
      have hne : y ≠ x := by rintro rfl; exact hyf hxf
      exact pairwise_compat_ne (h.compat _) hy.1 hxT hne ⟨hm, Or.inr (Or.inl hsh)⟩
  case shaped =>
    apply shaped_close
    · intro x; exact ⟨_, _, _, _, rfl⟩
    · unfold closeMicros; split <;> simp [Shaped]
  case compat => intro u; exact (h.compat u).sublist (hsub u)
  case nonempty => intro u x hx; exact h.nonempty u x ((hsub u).subset hx)
  case thr =>
    intro t q hq
    obtain ⟨st', a, b, c, d, e⟩ := h.thr t q hq
    refine ⟨st', ?_, b, c, d, e⟩
    show updMap v.streams sid _ q.sid = some st'
    rw [updMap_other _ _ ?_]; exact a
    rintro rfl
    rw [hst] at a; cases a; rw [hb] at e; cases e
  case reged =>
    intro t q hq
    have hin := h.reged t q hq
    obtain ⟨st', a, b, c, d, e⟩ := h.thr t q (PC.req_of_registered hq)
    show q.record ∈ updMap v.T st.uid _ q.uid
    by_cases hu : q.uid = st.uid
    · rw [hu, updMap_same, List.mem_filter]
      rw [hu] at hin
      refine ⟨hin, ?_⟩
      refine decide_eq_true ?_
      intro hf
      have : q.sid = sid := h.same a hst b ho (c.trans hf)
      rw [this, hst] at a; cases a; rw [hb] at e; cases e
    · rw [updMap_other _ _ hu]; exact hin

theorem VHeld.close {pid : Nat} {v : View} {H : List Held} (hv : VInv v) (h : VHeld pid v H) {sid : Nat}
    {st : Stream} (hst : v.streams sid = some st) (ho : st.isOpen = true)
    (c : List Micro) :
    VHeld pid { v with T := updMap v.T st.uid ((v.T st.uid).filter (fun x => ¬ x.handle = st.fd)),
                       streams := updMap v.streams sid (some { st with isOpen := false }),
                       crit := c }
      (heldStep H (.closed pid sid st.uid)) where
  held := by
    intro x hx hp
    simp only [heldStep, List.mem_filter, decide_eq_true_eq] at hx
    obtain ⟨hxH, hxn⟩ := hx
    have hsid : x.sid ≠ sid := fun h => hxn ⟨hp, h⟩
    obtain ⟨st', a, b, c, d⟩ := h.held x hxH hp
    refine ⟨st', ?_, b, c, ?_⟩
    · show updMap v.streams sid _ x.sid = some st'
      rw [updMap_other _ _ hsid]; exact a
    · show _ ∈ updMap v.T st.uid _ x.uid
      by_cases hu : x.uid = st.uid
      · rw [hu, updMap_same, List.mem_filter]; rw [hu] at d
        refine ⟨d, ?_⟩
        simp only [decide_eq_true_eq]
        exact fun hf => hsid (hv.same a hst b ho hf)
      · rw [updMap_other _ _ hu]; exact d
  notInflight := by
    intro t q hq x hx
    simp only [heldStep, List.mem_filter, decide_eq_true_eq] at hx
    exact h.notInflight t q hq x hx.1
  owner := by
    intro u x hx
    change x ∈ updMap v.T st.uid _ u at hx
    have hxu : x ∈ v.T u ∧ (u = st.uid → x.handle ≠ st.fd) := by
      by_cases hu : u = st.uid
      · subst hu; rw [updMap_same, List.mem_filter] at hx; exact ⟨hx.1, fun _ => by simpa using hx.2⟩
      · rw [updMap_other _ _ hu] at hx; exact ⟨hx, fun h => absurd h hu⟩
    rcases h.owner u x hxu.1 with ⟨hh, m, p1, p2, p3, p4, p5, st', s1, s2, s3⟩ | ⟨t, q, hq, hrec, hu'⟩
    · have hsid : hh.sid ≠ sid := by
        intro e1
        rw [e1, hst] at s1; cases s1
        have hu : u = st.uid := by
          obtain ⟨st2, a2, _, c2, _⟩ := h.held hh m p1
          rw [e1, hst] at a2; cases a2; rw [← p2, c2]
        exact hxu.2 hu s3.symm
      refine Or.inl ⟨hh, ?_, p1, p2, p3, p4, p5, st', ?_, s2, s3⟩
      · simp only [heldStep, List.mem_filter, decide_eq_true_eq]
        exact ⟨m, fun hc => hsid hc.2⟩
      · show updMap v.streams sid _ hh.sid = some st'
        rw [updMap_other _ _ hsid]; exact s1
    · exact Or.inr ⟨t, q, hq, hrec, hu'⟩

/-! Micro steps -/

theorem VInv.tailCrit {v : View} (h : VInv v) {m : Micro} {rest : List Micro} (hc : v.crit = m :: rest) :
    VInv { v with crit := rest } where
  distinct := h.distinct
  live := h.live
  pend := h.pend
  closing := by
    intro fd hfd
    apply h.closing fd
    rw [hc, mem_toClose]
    rcases mem_toClose.1 hfd with h' | ⟨u, h'⟩
    · exact Or.inl (List.mem_cons_of_mem _ h')
    · exact Or.inr ⟨u, List.mem_cons_of_mem _ h'⟩
  nodup := by
    intro u
    have := h.nodup u
    rw [hc] at this
    refine this.sublist (List.Sublist.append ?_ (List.Sublist.refl _))
    simp only [toClose]
    exact (List.sublist_cons_self m rest).filterMap _
  critN := fun fd hfd => h.critN fd (by rw [hc]; exact List.mem_cons_of_mem _ hfd)
  critA := fun u fd hfd => h.critA u fd (by rw [hc]; exact List.mem_cons_of_mem _ hfd)
  critU := by
    intro fd u s l hfd
    obtain ⟨a, b, c, d⟩ := h.critU fd u s l (by rw [hc]; exact List.mem_cons_of_mem _ hfd)
    refine ⟨a, b, fun hh => c (by rw [hc]; exact List.mem_cons_of_mem _ hh), d⟩
  shaped := by have := h.shaped; rw [hc] at this; exact this.tail
  compat := h.compat
  nonempty := h.nonempty
  thr := h.thr
  reged := h.reged

theorem VInv.emptyCrit {v : View} (h : VInv v) : VInv { v with crit := [] } where
  distinct := h.distinct
  live := h.live
  pend := h.pend
  closing := by intro fd hfd; simp [toClose] at hfd
  nodup := by
    intro u
    exact (h.nodup u).sublist (List.Sublist.append (by simp [toClose]) (List.Sublist.refl _))
  critN := by intro fd hfd; cases hfd
  critA := by intro u fd hfd; cases hfd
  critU := by intro fd u s l hfd; cases hfd
  shaped := trivial
  compat := h.compat
  nonempty := h.nonempty
  thr := h.thr
  reged := h.reged

/-- The pending descriptors of a file without locks go to the critical section. -/
theorem VInv.purge {v : View} (h : VInv v) {uid : Uid} {rest : List Micro} (hc : v.crit = .purge uid :: rest)
    (hT : v.T uid = []) :
    VInv { v with D := updMap v.D uid [], crit := (v.D uid).map .nclose ++ rest } := by
  have h' := h.tailCrit hc
  have hmem : ∀ m, m ∈ (v.D uid).map Micro.nclose ++ rest → (∃ fd ∈ v.D uid, m = .nclose fd) ∨ m ∈ rest := by
    intro m hm
    rcases List.mem_append.1 hm with hm | hm
    · obtain ⟨fd, hfd, rfl⟩ := List.mem_map.1 hm; exact Or.inl ⟨fd, hfd, rfl⟩
    · exact Or.inr hm
  have htc : toClose ((v.D uid).map Micro.nclose ++ rest) = v.D uid ++ toClose rest := by
    rw [toClose_append]; congr 1
    simp only [toClose, List.filterMap_map]
    have : (Micro.closing ∘ Micro.nclose) = some := by funext x; rfl
    rw [this]; simp
  have hdsub : ∀ u fd, fd ∈ updMap v.D uid [] u → fd ∈ v.D u ∧ u ≠ uid := by
    intro u fd hfd
    by_cases hu : u = uid
    · subst hu; rw [updMap_same] at hfd; cases hfd
    · rw [updMap_other _ _ hu] at hfd; exact ⟨hfd, hu⟩
  constructor
  case distinct => exact h.distinct
  case live => exact h.live
  case pend => intro u fd hfd; exact h.pend u fd (hdsub u fd hfd).1
  case closing =>
    intro fd hfd
    change fd ∈ toClose _ at hfd
    rw [htc] at hfd
    rcases List.mem_append.1 hfd with hfd | hfd
    · exact ⟨⟨_, (h.pend uid fd hfd).1⟩, (h.pend uid fd hfd).2⟩
    · exact h'.closing fd hfd
  case nodup =>
    intro u
    show (toClose _ ++ updMap v.D uid [] u).Nodup
    rw [htc]
    have hb : (v.D uid ++ toClose rest).Nodup := by
      have := h'.nodup uid
      exact (List.perm_append_comm.nodup_iff).1 this
    by_cases hu : u = uid
    · subst hu; rw [updMap_same]; simpa using hb
    · rw [updMap_other _ _ hu]
      rw [List.nodup_append] at hb ⊢
      have h3 := h'.nodup u
      rw [List.nodup_append] at h3
      refine ⟨List.nodup_append.2 hb, h3.2.1, ?_⟩
      intro a ha b hb' hab
      subst hab
      rcases List.mem_append.1 ha with ha | ha
      · have e1 := (h.pend uid a ha).1
        have e2 := (h.pend u a hb').1
        rw [e1] at e2; cases e2; exact hu rfl
      · exact h3.2.2 a ha a hb' rfl
  case critN =>
    intro fd hfd u hu
    rcases hmem _ hfd with ⟨fd', hfd', he⟩ | hfd
    · cases he
      rw [show v.fds fd = some uid from (h.pend uid fd hfd').1] at hu; cases hu; exact hT
    · exact h'.critN fd hfd u hu
  case critA =>
    intro u fd hfd
    rcases hmem _ hfd with ⟨fd', _, he⟩ | hfd
    · cases he
    · exact h'.critA u fd hfd
  case critU =>
    intro fd u s l hfd
    rcases hmem _ hfd with ⟨fd', _, he⟩ | hfd
    · cases he
    · obtain ⟨a, b, c, d⟩ := h'.critU fd u s l hfd
      refine ⟨a, fun hh => b (hdsub u fd hh).1, ?_, d⟩
      intro hn
      rcases hmem _ hn with ⟨fd', hfd', he⟩ | hn
      · cases he
        have e1 := (h.pend uid fd hfd').1
        have e2 : v.fds fd = some u := a
        rw [e1] at e2; cases e2; exact b hfd'
      · exact c hn
  case shaped => exact shaped_nclose _ h'.shaped
  case compat => exact h.compat
  case nonempty => exact h.nonempty
  case thr => exact h.thr
  case reged => exact h.reged

/-- A descriptor is really closed. -/
theorem VInv.nclose {v : View} (h : VInv v) {fd : Nat} {rest : List Micro} (hc : v.crit = .nclose fd :: rest) :
    VInv { v with fds := updMap v.fds fd none, crit := rest } := by
  have h' := h.tailCrit hc
  have hcl := h.closing fd (by rw [hc, mem_toClose]; simp)
  have hnd : ∀ u, fd ∉ toClose rest ∧ fd ∉ v.D u := by
    intro u
    have := h.nodup u
    rw [hc] at this
    simp only [toClose, List.filterMap_cons, Micro.closing, List.cons_append, List.nodup_cons,
      List.mem_append, not_or] at this
    exact this.1
  have hof : ∀ {fd' u}, v.fds fd' = some u → fd' ≠ fd → updMap v.fds fd none fd' = some u := by
    intro fd' u h1 h2; rw [updMap_other _ _ h2]; exact h1
  constructor
  case distinct => exact h.distinct
  case live => intro s st e o; exact hof (h.live s st e o) (hcl.2 s st e o)
  case pend =>
    intro u fd' hfd'
    refine ⟨hof (h.pend u fd' hfd').1 ?_, (h.pend u fd' hfd').2⟩
    rintro rfl; exact (hnd u).2 hfd'
  case closing =>
    intro fd' hfd'
    obtain ⟨⟨u, hu⟩, hn⟩ := h'.closing fd' hfd'
    refine ⟨⟨u, hof hu ?_⟩, hn⟩
    rintro rfl; exact (hnd u).1 hfd'
  case nodup => exact h'.nodup
  case critN =>
    intro fd' hfd' u hu
    change updMap v.fds fd none fd' = some u at hu
    rcases updMap_cases hu with ⟨_, h2⟩ | ⟨_, h2⟩
    · cases h2
    · exact h'.critN fd' hfd' u h2
  case critA =>
    intro u fd' hfd'
    refine hof (h'.critA u fd' hfd') ?_
    rintro rfl; exact (hnd u).1 (mem_toClose.2 (Or.inr ⟨u, hfd'⟩))
  case critU =>
    intro fd' u s l hfd'
    obtain ⟨a, b, c, d⟩ := h.critU fd' u s l (by rw [hc]; exact List.mem_cons_of_mem _ hfd')
    refine ⟨hof a ?_, b, (h'.critU fd' u s l hfd').2.2.1, d⟩
    rintro rfl; exact c (by rw [hc]; simp)
  case shaped => exact h'.shaped
  case compat => exact h.compat
  case nonempty => exact h.nonempty
  case thr => exact h.thr
  case reged => exact h.reged

/-- A descriptor is queued. -/
theorem VInv.addData {v : View} (h : VInv v) {uid : Uid} {fd : Nat} {rest : List Micro}
    (hc : v.crit = .addData uid fd :: rest) :
    VInv { v with D := updMap v.D uid (v.D uid ++ [fd]), crit := rest } := by
  have h' := h.tailCrit hc
  have hcl := h.closing fd (by rw [hc, mem_toClose]; exact Or.inr ⟨uid, by simp⟩)
  have hA := h.critA uid fd (by rw [hc]; simp)
  have hsh := h.shaped
  rw [hc] at hsh
  constructor
  case distinct => exact h.distinct
  case live => exact h.live
  case pend =>
    intro u fd' hfd'
    change fd' ∈ updMap v.D uid (v.D uid ++ [fd]) u at hfd'
    by_cases hu : u = uid
    · subst hu; rw [updMap_same, List.mem_append, List.mem_singleton] at hfd'
      rcases hfd' with hfd' | rfl
      · exact h.pend u fd' hfd'
      · exact ⟨hA, hcl.2⟩
    · rw [updMap_other _ _ hu] at hfd'; exact h.pend u fd' hfd'
  case closing => exact h'.closing
  case nodup =>
    intro u
    show (toClose rest ++ updMap v.D uid (v.D uid ++ [fd]) u).Nodup
    by_cases hu : u = uid
    · subst hu
      rw [updMap_same]
      have := h.nodup u
      rw [hc] at this
      simp only [toClose, List.filterMap_cons, Micro.closing] at this
      rw [← List.append_assoc]
      exact (List.perm_append_singleton _ _).nodup_iff.2 this
    · rw [updMap_other _ _ hu]; exact h'.nodup u
  case critN => exact h'.critN
  case critA => exact h'.critA
  case critU => intro fd' u s l hfd'; exact absurd hfd' (hsh.1 fd' u s l)
  case shaped => exact h'.shaped
  case compat => exact h.compat
  case nonempty => exact h.nonempty
  case thr => exact h.thr
  case reged => exact h.reged

/-- `VHeld` does not depend on descriptors, pending descriptors and critical section. -/
theorem VHeld.frame {pid : Nat} {v : View} {H : List Held} (h : VHeld pid v H) (D : Uid → List Nat)
    (fds : Nat → Option Uid) (c : List Micro) : VHeld pid { v with D := D, fds := fds, crit := c } H where
  held := h.held
  notInflight := h.notInflight
  owner := h.owner

end Verif
