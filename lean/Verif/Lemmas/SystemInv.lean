import Verif.Lemmas.SystemSteps

/-!
# Invariants of the system: every action preserves them
-/

namespace Verif

open Spec

theorem VInv.osOpen {v : View} (h : VInv v) {fd : Nat} (uid : Uid) (hf : v.fds fd = none) :
    VInv { v with fds := updMap v.fds fd (some uid) } := by
  have hof : ∀ {f u}, v.fds f = some u → updMap v.fds fd (some uid) f = some u := by
    intro f u hu
    rw [updMap_other]; exact hu
    rintro rfl; rw [hf] at hu; cases hu
  exact
    { distinct := h.distinct
      live := fun s st e o => hof (h.live s st e o)
      pend := fun u f hfd => ⟨hof (h.pend u f hfd).1, (h.pend u f hfd).2⟩
      closing := fun f hfd => by
        obtain ⟨⟨u, hu⟩, hn⟩ := h.closing f hfd
        exact ⟨⟨u, hof hu⟩, hn⟩
      nodup := h.nodup
      critN := fun f hfd u hu => by
        obtain ⟨⟨u', hu'⟩, _⟩ := h.closing f (mem_toClose.2 (Or.inl hfd))
        have := hof hu'
        change updMap v.fds fd (some uid) f = some u at hu
        rw [this] at hu; cases hu
        exact h.critN f hfd _ hu'
      critA := fun u f hfd => hof (h.critA u f hfd)
      critU := fun f u s l hfd => ⟨hof (h.critU f u s l hfd).1, (h.critU f u s l hfd).2⟩
      shaped := h.shaped
      compat := h.compat
      nonempty := h.nonempty
      thr := h.thr
      reged := h.reged }

theorem VInv.addStream {v : View} (h : VInv v) {sid fd : Nat} {uid : Uid} (cf : Bool) (hs : v.streams sid = none)
    (hf : v.fds fd = some uid) (hn : NoOpen v.streams fd) (hd : ∀ u, fd ∉ v.D u) (hc : fd ∉ toClose v.crit) :
    VInv { v with streams := updMap v.streams sid (some ⟨fd, uid, cf, true, none⟩) } where
  distinct := by
    intro s₁ s₂ y₁ y₂ e₁ e₂ o₁ o₂ hfd
    rcases updMap_cases e₁ with ⟨rfl, h1⟩ | ⟨_, h1⟩ <;> rcases updMap_cases e₂ with ⟨rfl, h2⟩ | ⟨_, h2⟩
    · rfl
    · cases h1; exact absurd hfd.symm (hn s₂ y₂ h2 o₂)
    · cases h2; exact absurd hfd (hn s₁ y₁ h1 o₁)
    · exact h.distinct s₁ s₂ y₁ y₂ h1 h2 o₁ o₂ hfd
  live := by
    intro s st e o
    rcases updMap_cases e with ⟨rfl, h1⟩ | ⟨_, h1⟩
    · cases h1; exact hf
    · exact h.live s st h1 o
  pend := by
    intro u f hfd
    refine ⟨(h.pend u f hfd).1, fun s st e o => ?_⟩
    rcases updMap_cases e with ⟨rfl, h1⟩ | ⟨_, h1⟩
    · cases h1; rintro rfl; exact hd u hfd
    · exact (h.pend u f hfd).2 s st h1 o
  closing := by
    intro f hfd
    refine ⟨(h.closing f hfd).1, fun s st e o => ?_⟩
    rcases updMap_cases e with ⟨rfl, h1⟩ | ⟨_, h1⟩
    · cases h1; rintro rfl; exact hc hfd
    · exact (h.closing f hfd).2 s st h1 o
  nodup := h.nodup
  critN := h.critN
  critA := h.critA
  critU := h.critU
  shaped := h.shaped
  compat := h.compat
  nonempty := h.nonempty
  thr := by
    intro t q hq
    obtain ⟨st, a, r⟩ := h.thr t q hq
    refine ⟨st, ?_, r⟩
    show updMap v.streams sid _ q.sid = some st
    rw [updMap_other _ _ ?_]; exact a
    intro he; rw [he, hs] at a; cases a
  reged := h.reged

theorem VHeld.addStream {pid : Nat} {v : View} {H : List Held} (h : VHeld pid v H) {sid : Nat} (x : Stream)
    (hs : v.streams sid = none) : VHeld pid { v with streams := updMap v.streams sid (some x) } H where
  held := by
    intro y hy hp
    obtain ⟨st, a, r⟩ := h.held y hy hp
    refine ⟨st, ?_, r⟩
    show updMap v.streams sid _ y.sid = some st
    rw [updMap_other _ _ ?_]; exact a
    intro he; rw [he, hs] at a; cases a
  notInflight := h.notInflight
  owner := by
    intro u y hy
    rcases h.owner u y hy with ⟨hh, m, p1, p2, p3, p4, p5, st, s1, s2⟩ | h'
    · refine Or.inl ⟨hh, m, p1, p2, p3, p4, p5, st, ?_, s2⟩
      show updMap v.streams sid _ hh.sid = some st
      rw [updMap_other _ _ ?_]; exact s1
      intro he; rw [he, hs] at s1; cases s1
    · exact Or.inr h'

/-- Streams after the thread has left the method. -/
def relStreams (ss : Nat → Option Stream) (sid : Nat) : Nat → Option Stream :=
  fun s => if s = sid then (ss s).map (fun st => { st with busy := none }) else ss s

theorem release_eq (p : Proc) (sid : Nat) : p.release sid = { p with streams := relStreams p.streams sid } := by
  unfold Proc.release
  have : ∀ ss : Nat → Option Stream, ss = p.streams → (match ss sid with
      | some st => { p with streams := updMap p.streams sid (some { st with busy := none }) }
      | none => p) = { p with streams := relStreams p.streams sid } := by
    intro ss hss
    cases hs : ss sid with
    | none =>
      have : relStreams p.streams sid = p.streams := by
        funext s; unfold relStreams; split
        · rename_i h; subst h; rw [← hss, hs]; rfl
        · rfl
      rw [this]
    | some st =>
      have : relStreams p.streams sid = updMap p.streams sid (some { st with busy := none }) := by
        funext s; unfold relStreams updMap; split
        · rename_i h; subst h; rw [← hss, hs]; rfl
        · rfl
      rw [this]
  exact this _ rfl

theorem relStreams_other (ss : Nat → Option Stream) {sid s : Nat} (h : s ≠ sid) : relStreams ss sid s = ss s := by
  simp [relStreams, h]

theorem relStreams_same (ss : Nat → Option Stream) (sid : Nat) : SameStreams ss (relStreams ss sid) := by
  intro s
  unfold relStreams
  cases h : ss s with
  | none => left; simp
  | some x =>
    right
    by_cases hs : s = sid
    · exact ⟨x, { x with busy := none }, rfl, by simp [hs], rfl, rfl, rfl, rfl⟩
    · exact ⟨x, x, rfl, by simp [hs], rfl, rfl, rfl, rfl⟩

/-- A thread gives up or is done: the thread is idle, the stream is free. -/
theorem VInv.leave {v : View} (h : VInv v) (t : Nat) (q : Req) (hq : (v.threads t).req = some q) :
    VInv { v with threads := updMap v.threads t .idle, streams := relStreams v.streams q.sid } := by
  obtain ⟨st, a, b, c, d, e⟩ := h.thr t q hq
  apply h.calls _ _ (relStreams_same _ _)
  · intro t' q' hq'
    by_cases ht : t' = t
    · subst ht; rw [updMap_same] at hq'; cases hq'
    · rw [updMap_other _ _ ht] at hq'
      obtain ⟨st', a', b', c', d', e'⟩ := h.thr t' q' hq'
      refine ⟨st', ?_, b', c', d', e'⟩
      rw [relStreams_other]; exact a'
      intro hs; rw [hs, a] at a'; cases a'; rw [e] at e'; cases e'; exact ht rfl
  · intro t' q' hq'
    by_cases ht : t' = t
    · subst ht; rw [updMap_same] at hq'; cases hq'
    · rw [updMap_other _ _ ht] at hq'; exact hq'

theorem VHeld.leave {pid : Nat} {v : View} {H : List Held} (h : VHeld pid v H) (t : Nat) (q : Req)
    (hr : (v.threads t).registered = none) :
    VHeld pid { v with threads := updMap v.threads t .idle, streams := relStreams v.streams q.sid } H := by
  apply h.calls _ _ (relStreams_same _ _)
  intro t' q'
  by_cases ht : t' = t
  · subst ht; rw [updMap_same, hr]; simp [PC.registered]
  · rw [updMap_other _ _ ht]

/-- A lock is granted. -/
theorem VHeld.grant {pid : Nat} {v : View} {H : List Held} (hv : VInv v) (h : VHeld pid v H) (t : Nat) (q : Req)
    (hr : (v.threads t).registered = some q) :
    VHeld pid { v with threads := updMap v.threads t .idle, streams := relStreams v.streams q.sid }
      (heldStep H (.locked pid q.sid q.uid q.shared q.start q.stop)) := by
  obtain ⟨st, a, b, c, d, e⟩ := hv.thr t q (PC.req_of_registered hr)
  have hss := relStreams_same v.streams q.sid
  constructor
  case held =>
    intro x hx hp
    simp only [heldStep, List.mem_append, List.mem_singleton] at hx
    rcases hx with hx | rfl
    · obtain ⟨st', a', b', c', d'⟩ := h.held x hx hp
      obtain ⟨y, a2, b2, c2, _, d2⟩ := hss.symm.get a'
      exact ⟨y, a2, d2.trans b', c2.trans c', by rw [b2]; exact d'⟩
    · obtain ⟨y, a2, b2, c2, _, d2⟩ := hss.symm.get a
      refine ⟨y, a2, d2.trans b, c2.trans d, ?_⟩
      rw [b2, c]; exact hv.reged t q hr
  case notInflight =>
    intro t' q' hq' x hx hp hsid
    change (updMap v.threads t PC.idle t').registered = some q' at hq'
    by_cases ht : t' = t
    · subst ht; rw [updMap_same] at hq'; cases hq'
    · rw [updMap_other _ _ ht] at hq'
      simp only [heldStep, List.mem_append, List.mem_singleton] at hx
      rcases hx with hx | rfl
      · exact h.notInflight t' q' hq' x hx hp hsid
      · obtain ⟨st', a', b', c', d', e'⟩ := hv.thr t' q' (PC.req_of_registered hq')
        simp only at hsid
        rw [← hsid, a] at a'; cases a'; rw [e] at e'; cases e'; exact absurd rfl ht
  case owner =>
    intro u x hx
    simp only [heldStep]
    rcases h.owner u x hx with ⟨hh, m, p1, p2, p3, p4, p5, st', s1, s2, s3⟩ | ⟨t', q', hq', hrec, hu⟩
    · obtain ⟨y, a2, b2, c2, _, d2⟩ := hss.symm.get s1
      exact Or.inl ⟨hh, List.mem_append_left _ m, p1, p2, p3, p4, p5, y, a2, d2.trans s2, b2.trans s3⟩
    · by_cases ht : t' = t
      · subst ht
        rw [hr] at hq'; cases hq'
        obtain ⟨y, a2, b2, c2, _, d2⟩ := hss.symm.get a
        subst hrec
        exact Or.inl ⟨_, List.mem_append_right _ (List.mem_singleton.2 rfl), rfl, hu, rfl, rfl, rfl, y, a2,
          d2.trans b, b2.trans c⟩
      · refine Or.inr ⟨t', q', ?_, hrec, hu⟩
        show (updMap v.threads t PC.idle t').registered = some q'
        rw [updMap_other _ _ ht]; exact hq'

/-! Kernel part -/

theorem KOK.sub {k : KTable} {H H' : List Held} (h : KOK k H) (hs : ∀ x ∈ H', x ∈ H) : KOK k H' :=
  ⟨fun x hx => h.backed x (hs x hx), h.compat⟩

/-- The range being acquired does not meet an exclusive lock already held by the process. -/
theorem inflight_disjoint {pid : Nat} {v : View} {H : List Held} (hv : VInv v) (hh : VHeld pid v H) {t : Nat} {q : Req}
    (hr : (v.threads t).registered = some q) {x : Held} (hx : x ∈ H) (hp : x.pid = pid) (hu : x.uid = q.uid)
    (hs : x.shared = false ∨ q.shared = false) : ¬ Meet x.start x.stop q.start q.stop := by
  obtain ⟨st, a, b, c, d⟩ := hh.held x hx hp
  obtain ⟨st', a', b', c', d', e'⟩ := hv.thr t q (PC.req_of_registered hr)
  have hin := hv.reged t q hr
  rw [hu] at d
  intro hm
  have hne : (⟨st.fd, x.shared, x.start, x.stop⟩ : LockRec) ≠ q.record := by
    intro he
    simp only [Req.record, LockRec.mk.injEq] at he
    obtain ⟨e1, e2, e3, e4⟩ := he
    have : x.sid = q.sid := hv.same a a' b b' (e1.trans c'.symm)
    exact hh.notInflight t q hr x hx hp this ⟨e3, e4⟩
  refine pairwise_compat_ne (hv.compat _) d hin hne ⟨hm, ?_⟩
  rcases hs with hs | hs
  · exact Or.inr (Or.inl hs)
  · exact Or.inr (Or.inr hs)

theorem KOK.lock {pid : Nat} {v : View} {k : KTable} {H : List Held} (hv : VInv v) (hh : VHeld pid v H) (hk : KOK k H)
    {t : Nat} {q : Req} (hr : (v.threads t).registered = some q)
    (hc : kConflict k pid q.uid q.shared q.start q.stop = false) :
    KOK (kLock k pid q.uid q.shared q.start q.stop) H := by
  refine ⟨fun x hx hs b hb => ?_, hk.compat.lock hc⟩
  rw [kHas_lock]
  refine Or.inl ⟨hk.backed x hx hs b hb, ?_⟩
  rintro ⟨h1, h2, h3⟩
  exact inflight_disjoint hv hh hr hx h1 h2 (Or.inl hs) ⟨b, hb, h3⟩

theorem KOK.locked {pid : Nat} {v : View} {k : KTable} {H : List Held} (hv : VInv v) (hh : VHeld pid v H)
    (hk : KOK k H) {t : Nat} {q : Req} (hr : (v.threads t).registered = some q)
    (hc : kConflict k pid q.uid q.shared q.start q.stop = false) :
    KOK (kLock k pid q.uid q.shared q.start q.stop)
      (heldStep H (.locked pid q.sid q.uid q.shared q.start q.stop)) := by
  have h1 := KOK.lock hv hh hk hr hc
  refine ⟨fun x hx hs b hb => ?_, h1.compat⟩
  simp only [heldStep, List.mem_append, List.mem_singleton] at hx
  rcases hx with hx | rfl
  · exact h1.backed x hx hs b hb
  · rw [kHas_lock]; exact Or.inr ⟨rfl, rfl, hs.symm, hb⟩

/-! Actions of a process -/

/-- What an action of process `pid` guarantees. -/
structure PStep (pid : Nat) (p : Proc) (k : KTable) (H : List Held) (a : Act) : Prop where
  inv : VInv (view pid a.1)
  held : VHeld pid (view pid a.1) (a.2.2.foldl heldStep H)
  kok : KOK a.2.1 (a.2.2.foldl heldStep H)
  others : ∀ h, h.pid ≠ pid → (h ∈ a.2.2.foldl heldStep H ↔ h ∈ H)
  mine : ∀ h ∈ a.2.2.foldl heldStep H, h ∈ H ∨ h.pid = pid
  kothers : ∀ pid' u sh b, pid' ≠ pid → (KHas a.2.1 pid' u sh b ↔ KHas k pid' u sh b)
  alive : a.1.alive = p.alive
  orig : a.1.reg.originalPid = p.reg.originalPid ∨ a.1.reg.originalPid = pid

/-- An action without effect on the set of held locks and on the kernel. -/
theorem PStep.quiet {pid : Nat} {p p' : Proc} {k : KTable} {H : List Held} {e : List Event}
    (hk : KOK k H) (he : e.foldl heldStep H = H) (hi : VInv (view pid p')) (hh : VHeld pid (view pid p') H)
    (ha : p'.alive = p.alive) (ho : p'.reg.originalPid = p.reg.originalPid ∨ p'.reg.originalPid = pid) :
    PStep pid p k H (p', k, e) where
  inv := hi
  held := by simpa only [he] using hh
  kok := by simpa only [he] using hk
  others := by simp [he]
  mine := by intro h hh; simp only [he] at hh; exact Or.inl hh
  kothers := by simp
  alive := ha
  orig := ho

/-- An action that only removes locks of the process from the set of held locks. -/
theorem PStep.removes {pid : Nat} {p p' : Proc} {k : KTable} {H : List Held} {e : List Event}
    (hk : KOK k H) (h1 : ∀ h ∈ e.foldl heldStep H, h ∈ H) (h2 : ∀ h ∈ H, h.pid ≠ pid → h ∈ e.foldl heldStep H)
    (hi : VInv (view pid p')) (hh : VHeld pid (view pid p') (e.foldl heldStep H))
    (ha : p'.alive = p.alive) (ho : p'.reg.originalPid = p.reg.originalPid ∨ p'.reg.originalPid = pid) :
    PStep pid p k H (p', k, e) where
  inv := hi
  held := hh
  kok := hk.sub h1
  others := fun h hp => ⟨h1 h, fun hh => h2 h hh hp⟩
  mine := fun h hh => Or.inl (h1 h hh)
  kothers := by simp
  alive := ha
  orig := ho

theorem view_reg {pid : Nat} {p : Proc} {r : Registry} (hT : ∀ u, tableOf pid r u = tableOf pid p.reg u)
    (hD : ∀ u, pendingOf pid r u = pendingOf pid p.reg u) : view pid { p with reg := r } = view pid p := by
  simp only [view]
  rw [show tableOf pid r = tableOf pid p.reg from funext hT, show pendingOf pid r = pendingOf pid p.reg from funext hD]

theorem view_setPC (pid : Nat) (p : Proc) (t : Nat) (pc : PC) :
    view pid (p.setPC t pc) = { view pid p with threads := updMap p.threads t pc } := rfl

theorem view_failLock (pid : Nat) (p : Proc) (k : KTable) (t : Nat) (q : Req) :
    view pid (failLock pid p k t q).1 =
      { view pid p with threads := updMap p.threads t .idle, streams := relStreams p.streams q.sid } := by
  simp only [failLock, release_eq]; rfl

theorem failLock_alive (pid : Nat) (p : Proc) (k : KTable) (t : Nat) (q : Req) :
    (failLock pid p k t q).1.alive = p.alive ∧ (failLock pid p k t q).1.reg = p.reg := by
  simp only [failLock, release_eq]; exact ⟨rfl, rfl⟩

theorem PStep.failLock {pid : Nat} {p p₀ : Proc} {k : KTable} {H : List Held} (hi : VInv (view pid p))
    (hh : VHeld pid (view pid p) H) (hk : KOK k H) {t : Nat} {q : Req} (hq : (p.threads t).req = some q)
    (hr : (p.threads t).registered = none) (ha : p.alive = p₀.alive)
    (ho : p.reg.originalPid = p₀.reg.originalPid ∨ p.reg.originalPid = pid) :
    PStep pid p₀ k H (failLock pid p k t q) := by
  have h1 := view_failLock pid p k t q
  have h2 := failLock_alive pid p k t q
  refine PStep.quiet (p' := (Verif.failLock pid p k t q).1) hk rfl ?_ ?_ (by rw [h2.1, ha]) (by rw [h2.2]; exact ho)
  · rw [h1]; exact hi.leave t q hq
  · rw [h1]; exact hh.leave t q hr

/-- Changing the program counter without changing request and registration. -/
theorem PStep.setPC {pid : Nat} {p p₀ : Proc} {k : KTable} {H : List Held} (hi : VInv (view pid p))
    (hh : VHeld pid (view pid p) H) (hk : KOK k H) {t : Nat} {pc : PC} {e : List Event}
    (he : e.foldl heldStep H = H)
    (hq : pc.req = (p.threads t).req) (hr : pc.registered = (p.threads t).registered) (ha : p.alive = p₀.alive)
    (ho : p.reg.originalPid = p₀.reg.originalPid ∨ p.reg.originalPid = pid) :
    PStep pid p₀ k H (p.setPC t pc, k, e) := by
  refine PStep.quiet hk he ?_ ?_ ha ho
  · rw [view_setPC]
    apply hi.threads
    · intro t' q'
      by_cases ht : t' = t
      · subst ht; rw [updMap_same, hq]; exact id
      · rw [updMap_other _ _ ht]; exact id
    · intro t' q'
      by_cases ht : t' = t
      · subst ht; rw [updMap_same, hr]; exact id
      · rw [updMap_other _ _ ht]; exact id
  · rw [view_setPC]
    apply hh.threads
    intro t' q'
    by_cases ht : t' = t
    · subst ht; rw [updMap_same, hr]; exact Iff.rfl
    · rw [updMap_other _ _ ht]; exact Iff.rfl

theorem incWaiting_view {pid : Nat} {r r' : Registry} {uid : Uid} (hp : r.originalPid = pid)
    (h : r.incWaiting uid = .ok r') :
    r'.originalPid = pid ∧ (∀ u, tableOf pid r' u = tableOf pid r u) ∧ (∀ u, pendingOf pid r' u = pendingOf pid r u) ∧
    (∀ u, waitingOf pid r' u = if u = uid then waitingOf pid r uid + 1 else waitingOf pid r u) := by
  unfold Registry.incWaiting at h
  split at h
  · cases h
  · rename_i e he
    cases h
    refine ⟨hp, fun u => ?_, fun u => ?_, fun u => ?_⟩
    · rw [tableOf_set hp]; split
      · rename_i hu; subst hu; simp [tableOf, hp, he]
      · rfl
    · rw [pendingOf_set hp]; split
      · rename_i hu; subst hu; simp [pendingOf, hp, he]
      · rfl
    · rw [waitingOf_set hp]; split
      · rename_i hu; subst hu; simp [waitingOf, hp, he]
      · rfl

/-- `decWaiting` is called without `_check_forking`; in a forked child no thread is waiting. -/
theorem decWaiting_view {pid : Nat} {r r' : Registry} {uid : Uid} (h : r.decWaiting uid = .ok r') :
    r'.originalPid = r.originalPid ∧ (∀ u, tableOf pid r' u = tableOf pid r u) ∧
    (∀ u, pendingOf pid r' u = pendingOf pid r u) ∧
    (∀ u, waitingOf pid r' u = if u = uid then waitingOf pid r uid - 1 else waitingOf pid r u) ∧
    (∀ u, r'.entries u = none ↔ r.entries u = none) := by
  unfold Registry.decWaiting at h
  split at h
  · cases h
  · rename_i e he
    cases h
    by_cases hp : r.originalPid = pid
    · refine ⟨rfl, fun u => ?_, fun u => ?_, fun u => ?_, fun u => ?_⟩
      · rw [tableOf_set hp]; split
        · rename_i hu; subst hu; simp [tableOf, hp, he]
        · rfl
      · rw [pendingOf_set hp]; split
        · rename_i hu; subst hu; simp [pendingOf, hp, he]
        · rfl
      · rw [waitingOf_set hp]; split
        · rename_i hu; subst hu; simp [waitingOf, hp, he]
        · rfl
      · by_cases hu : u = uid
        · subst hu; simp [he]
        · rw [set_entries_other _ _ hu]
    · refine ⟨rfl, ?_, ?_, ?_, fun u => ?_⟩
      · simp [tableOf, hp]
      · simp [pendingOf, hp]
      · simp [waitingOf, hp]
      · by_cases hu : u = uid
        · subst hu; simp [he]
        · rw [set_entries_other _ _ hu]

theorem PStep.attemptReg {pid : Nat} {p p₀ : Proc} {k : KTable} {H : List Held} (hi : VInv (view pid p))
    (hh : VHeld pid (view pid p) H) (hk : KOK k H) {t : Nat} {q : Req} (hq : (p.threads t).req = some q)
    (hr : (p.threads t).registered = none) (hc : p.crit = []) (ha : p.alive = p₀.alive) :
    PStep pid p₀ k H (attemptReg pid p k t q) := by
  unfold Verif.attemptReg
  have hf := register_fst pid p.reg q.uid q.fd q.len q.start q.shared
  split
  · -- same area locked twice
    rename_i x r hreg
    obtain ⟨h1, h2, h3, h4, h5, h6⟩ := register_nok hreg (by simp)
    have hv := view_reg (p := p) h2 h3
    exact PStep.failLock (p := { p with reg := r }) (by rw [hv]; exact hi) (by rw [hv]; exact hh) hk hq hr ha
      (Or.inr h1)
  · -- registered
    rename_i r hreg
    obtain ⟨h1, h2, h3, h4, h5, h6⟩ := register_ok hreg
    have hs : scanLocks q.fd q.shared q.start q.stop (tableOf pid p.reg q.uid) = .ok true := by
      rw [hreg] at hf; exact hf.symm
    have hv : view pid (({ p with reg := r } : Proc).setPC t (.atKern q)) =
        { view pid p with threads := updMap p.threads t (.atKern q),
                          T := updMap (tableOf pid p.reg) q.uid (tableOf pid p.reg q.uid ++ [q.record]) } := by
      rw [view_setPC]
      simp only [view]
      rw [show tableOf pid r = updMap (tableOf pid p.reg) q.uid (tableOf pid p.reg q.uid ++ [q.record]) from
          funext (fun u => by rw [h2 u]; rfl),
        show pendingOf pid r = pendingOf pid p.reg from funext h3]
    refine PStep.quiet hk rfl ?_ ?_ ha (Or.inr h1)
    · rw [hv]; exact hi.register t q hc hq hs
    · rw [hv]; exact hh.register hi t q hq hr hs
  · -- refused
    rename_i r hreg
    obtain ⟨h1, h2, h3, h4, h5, h6⟩ := register_nok hreg (by simp)
    have hv := view_reg (p := p) h2 h3
    split
    · split
      · rename_i r' hinc
        obtain ⟨i1, i2, i3, _⟩ := incWaiting_view h1 hinc
        have hv' : view pid { p with reg := r' } = view pid p :=
          view_reg (fun u => (i2 u).trans (h2 u)) (fun u => (i3 u).trans (h3 u))
        exact PStep.setPC (p := { p with reg := r' }) (by rw [hv']; exact hi) (by rw [hv']; exact hh) hk rfl
          hq.symm hr.symm ha (Or.inr i1)
      · have := PStep.failLock (p := { p with reg := r }) (p₀ := p₀) (by rw [hv]; exact hi) (by rw [hv]; exact hh) hk
          hq hr ha (Or.inr h1)
        exact ⟨this.inv, this.held, this.kok, this.others, this.mine, this.kothers, this.alive, this.orig⟩
    · exact PStep.setPC (p := { p with reg := r }) (by rw [hv]; exact hi) (by rw [hv]; exact hh) hk rfl
          hq.symm hr.symm ha (Or.inr h1)

theorem unregisterN_ok {pid : Nat} {p p' : Proc} {uid : Uid} {fd : Nat} {len : Option Int} {s : Int} {b : Bool}
    (h : unregisterN pid p uid fd len s = (.ok b, p')) :
    p'.reg.originalPid = pid ∧ p'.alive = p.alive ∧ p'.fds = p.fds ∧ p'.streams = p.streams ∧ p'.crit = p.crit ∧
    (∀ t, (p'.threads t).req = (p.threads t).req ∧ (p'.threads t).registered = (p.threads t).registered) ∧
    view pid p' = { view pid p with
      T := updMap (tableOf pid p.reg) uid ((tableOf pid p.reg uid).eraseP (LockRec.matchesRange fd s (newEnd s len))),
      threads := p'.threads } ∧
    ((∃ x ∈ tableOf pid p.reg uid, x.matchesRange fd s (newEnd s len) = true) ∨
      (tableOf pid p.reg uid = [] ∧ (p.reg.checkForking pid).entries uid = none)) := by
  unfold unregisterN at h
  split at h
  · rename_i b' r hr
    simp only [Prod.mk.injEq, Except.ok.injEq] at h
    obtain ⟨_, rfl⟩ := h
    obtain ⟨h1, h2, h3, h4, h5, h6⟩ := unregister_ok hr
    refine ⟨h1, rfl, rfl, rfl, rfl, ?_, ?_, h6⟩
    · intro t
      dsimp only
      split
      · exact notify_req _ _ _
      · exact ⟨rfl, rfl⟩
    · simp only [view]
      rw [show tableOf pid r = updMap (tableOf pid p.reg) uid
          ((tableOf pid p.reg uid).eraseP (LockRec.matchesRange fd s (newEnd s len))) from
            funext (fun u => by rw [h2 u]; rfl),
        show pendingOf pid r = pendingOf pid p.reg from funext h3]
  · cases h

theorem unregisterN_error {pid : Nat} {p p' : Proc} {uid : Uid} {fd : Nat} {len : Option Int} {s : Int} {x : Exn}
    (h : unregisterN pid p uid fd len s = (.error x, p')) :
    x = .runtimeError ∧ p' = { p with reg := p.reg.checkForking pid } ∧
    ∀ y ∈ tableOf pid p.reg uid, y.matchesRange fd s (newEnd s len) = false := by
  unfold unregisterN at h
  split at h
  · cases h
  · rename_i x' r hr
    simp only [Prod.mk.injEq, Except.error.injEq] at h
    obtain ⟨rfl, rfl⟩ := h
    obtain ⟨h1, h2, h3⟩ := unregister_error hr
    exact ⟨h1, by rw [h2], h3⟩

theorem view_checkForking (pid : Nat) (p : Proc) : view pid { p with reg := p.reg.checkForking pid } = view pid p :=
  view_reg (by simp) (by simp)

theorem PStep.unwind {pid : Nat} {p : Proc} {k : KTable} {H : List Held} (hi : VInv (view pid p))
    (hh : VHeld pid (view pid p) H) (hk : KOK k H) {t : Nat} {q : Req} (hr : (p.threads t).registered = some q) :
    PStep pid p k H (Verif.failLock pid (unregisterN pid p q.uid q.fd q.len q.start).2 k t q) := by
  have hin := hi.reged t q hr
  rcases hu : unregisterN pid p q.uid q.fd q.len q.start with ⟨o, p'⟩
  cases o with
  | error x =>
    obtain ⟨_, _, h3⟩ := unregisterN_error hu
    have := h3 q.record hin
    rw [Bool.eq_false_iff] at this
    exact absurd (matchesRange_iff.2 ⟨rfl, rfl, rfl⟩) this
  | ok b =>
    obtain ⟨h1, h2, h3, h4, h5, h6, h7, h8⟩ := unregisterN_ok hu
    have hvf := view_failLock pid p' k t q
    have haf := failLock_alive pid p' k t q
    have hreq : ∀ t' q', (updMap p'.threads t PC.idle t').req = some q' → t' ≠ t ∧ (p.threads t').req = some q' := by
      intro t' q' hq'
      by_cases ht : t' = t
      · subst ht; rw [updMap_same] at hq'; cases hq'
      · rw [updMap_other _ _ ht, (h6 t').1] at hq'; exact ⟨ht, hq'⟩
    have hreg : ∀ t' q', (updMap p'.threads t PC.idle t').registered = some q' ↔
        t' ≠ t ∧ (p.threads t').registered = some q' := by
      intro t' q'
      by_cases ht : t' = t
      · subst ht; rw [updMap_same]; simp [PC.registered]
      · rw [updMap_other _ _ ht, (h6 t').2]; simp [ht]
    refine PStep.quiet (p' := (Verif.failLock pid p' k t q).1) hk rfl ?_ ?_ (by rw [haf.1, h2]) (by rw [haf.2]; exact Or.inr h1)
    · rw [hvf, h7, h4]
      exact hi.unwind t q hr (updMap p'.threads t .idle) (relStreams p.streams q.sid) (relStreams_same _ _)
        (fun s hs => relStreams_other _ hs) hreq (fun t' q' h => ((hreg t' q').1 h).2)
    · rw [hvf, h7, h4]
      exact hh.unwind hi t q hr (updMap p'.threads t .idle) (relStreams p.streams q.sid) (relStreams_same _ _) hreg


theorem PStep.unlock {pid : Nat} {p : Proc} {k : KTable} {H : List Held} (hi : VInv (view pid p))
    (hh : VHeld pid (view pid p) H) (hk : KOK k H) {sid : Nat} {st : Stream} (hst : p.streams sid = some st)
    (ho : st.isOpen = true) (hb : st.busy = none) (hc : p.crit = []) (len : Option Nat) (s : Int) :
    PStep pid p k H (unlockStream pid p k sid st len s) := by
  unfold unlockStream
  dsimp only
  split
  · rename_i x p' hu
    obtain ⟨_, rfl, _⟩ := unregisterN_error hu
    have hv := view_checkForking pid p
    exact PStep.quiet hk rfl (by rw [hv]; exact hi) (by rw [hv]; exact hh) rfl (Or.inr (by simp))
  · rename_i b p' hu
    obtain ⟨h1, h2, h3, h4, h5, h6, h7, h8⟩ := unregisterN_ok hu
    have hv : view pid { p' with crit := unlockMicros st.fd st.uid s (len.map Int.ofNat) } =
        { view pid p' with crit := unlockMicros st.fd st.uid s (len.map Int.ofNat) } := rfl
    have hm : (∃ x ∈ (view pid p).T st.uid, x.matchesRange st.fd s (newEnd s (len.map Int.ofNat)) = true) ∨
        (view pid p).T st.uid = [] := by
      rcases h8 with h8 | h8
      · exact Or.inl h8
      · exact Or.inr h8.1
    refine PStep.removes hk ?_ ?_ ?_ ?_ h2 (Or.inr h1)
    · intro h hh'
      simp only [List.foldl_cons, List.foldl_nil, heldStep, List.mem_filter] at hh'
      exact hh'.1
    · intro h hh' hp
      simp only [List.foldl_cons, List.foldl_nil, heldStep, List.mem_filter, decide_eq_true_eq]
      exact ⟨hh', fun hc => hp hc.1⟩
    · rw [hv, h7]
      exact hi.unlock hst ho hb hc s (len.map Int.ofNat) hm p'.threads
        (fun t q h => (h6 t).1.symm.trans h) (fun t q h => (h6 t).2.symm.trans h)
    · rw [hv, h7]
      exact hh.unlock hi hst ho s (len.map Int.ofNat) hm p'.threads _
        (fun t q => ⟨fun h => (h6 t).2.symm.trans h, fun h => (h6 t).2.trans h⟩)

theorem PStep.close {pid : Nat} {p : Proc} {k : KTable} {H : List Held} (hi : VInv (view pid p))
    (hh : VHeld pid (view pid p) H) (hk : KOK k H) {sid : Nat} {st : Stream} (hst : p.streams sid = some st)
    (ho : st.isOpen = true) (hb : st.busy = none) (hc : p.crit = []) :
    PStep pid p k H (closeStream pid p k sid st) := by
  obtain ⟨h1, h2, h3, h4, h5, h6⟩ := removeFileLocks_view pid p.reg st.uid st.fd
  have hv : view pid (closeStream pid p k sid st).1 = { view pid p with
      T := updMap (tableOf pid p.reg) st.uid ((tableOf pid p.reg st.uid).filter (fun x => ¬ x.handle = st.fd)),
      streams := updMap p.streams sid (some { st with isOpen := false }),
      crit := closeCrit st ((tableOf pid p.reg st.uid).filter (fun x => x.handle = st.fd)) } := by
    simp only [closeStream, view, closeCrit, h1]
    rw [show tableOf pid (p.reg.removeFileLocks pid st.uid st.fd).2 = updMap (tableOf pid p.reg) st.uid
          ((tableOf pid p.reg st.uid).filter (fun x => ¬ x.handle = st.fd)) from
            funext (fun u => by rw [h3 u]; rfl),
        show pendingOf pid (p.reg.removeFileLocks pid st.uid st.fd).2 = pendingOf pid p.reg from funext h4]
  refine PStep.removes (p' := (closeStream pid p k sid st).1) hk ?_ ?_ ?_ ?_ rfl (Or.inr h2)
  · intro h hh'
    simp only [List.foldl_cons, List.foldl_nil, heldStep, List.mem_filter] at hh'
    exact hh'.1
  · intro h hh' hp
    simp only [List.foldl_cons, List.foldl_nil, heldStep, List.mem_filter, decide_eq_true_eq]
    exact ⟨hh', fun hc => hp hc.1⟩
  · rw [hv]; exact hi.close hst ho hb hc
  · rw [hv]; exact hh.close hi hst ho _

theorem PStep.micro {pid : Nat} {p : Proc} {k : KTable} {H : List Held} (hi : VInv (view pid p))
    (hh : VHeld pid (view pid p) H) (hk : KOK k H) {m : Micro} {rest : List Micro} (hc : p.crit = m :: rest) :
    PStep pid p k H (doMicro pid p k m rest) := by
  have hc' : (view pid p).crit = m :: rest := hc
  have htail := hi.tailCrit hc'
  cases m with
  | kunlock fd uid s len =>
    obtain ⟨a, b, c, d⟩ := hi.critU fd uid s len (by rw [hc']; simp)
    have a' : p.fds fd = some uid := a
    simp only [doMicro, a']
    refine ⟨htail, hh.frame _ _ _, ⟨?_, ?_⟩, by simp, fun h hm => Or.inl hm, ?_, rfl, Or.inl rfl⟩
    · intro x hx hs b' hb'
      rw [kHas_unlock]
      refine ⟨hk.backed x hx hs b' hb', ?_⟩
      rintro ⟨e1, e2, e3⟩
      obtain ⟨st, _, _, _, hin⟩ := hh.held x hx e1
      rw [e2] at hin
      exact d _ hin hs ⟨b', hb', e3⟩
    · exact hk.compat.mono (fun p' u sh b' h => ((kHas_unlock _ _ _ _ _ _ _ _ _).1 h).1)
    · intro pid' u sh b' hp
      rw [kHas_unlock]; simp [hp]
  | purge uid =>
    obtain ⟨h1, h2⟩ := hasLocks_view pid p.reg uid
    simp only [doMicro]
    split
    · have hv : view pid { p with reg := (p.reg.hasLocks pid uid).2, crit := rest } =
          { view pid p with crit := rest } := by
        have := view_reg (pid := pid) (p := p) (r := (p.reg.hasLocks pid uid).2) (by simp [h2]) (by simp [h2])
        rw [← this]; rfl
      refine PStep.quiet hk rfl ?_ ?_ rfl (Or.inr (by simp [h2]))
      · rw [hv]; exact htail
      · rw [hv]; exact hh.frame _ _ _
    · rename_i hn
      have hT : tableOf pid p.reg uid = [] := by
        rw [h1] at hn; simpa using hn
      obtain ⟨r1, r2, r3, r4, r5, r6⟩ := removeData_view pid (p.reg.checkForking pid) uid
      rw [h2]
      have hv : view pid { p with
            reg := ((p.reg.checkForking pid).removeData pid uid).2,
            crit := ((p.reg.checkForking pid).removeData pid uid).1.map .nclose ++ rest } =
          { view pid p with D := updMap (pendingOf pid p.reg) uid [],
                            crit := (pendingOf pid p.reg uid).map .nclose ++ rest } := by
        simp only [view, r1, pendingOf_checkForking]
        rw [show tableOf pid ((p.reg.checkForking pid).removeData pid uid).2 = tableOf pid p.reg from
              funext (fun u => by rw [r3 u, tableOf_checkForking]),
            show pendingOf pid ((p.reg.checkForking pid).removeData pid uid).2 = updMap (pendingOf pid p.reg) uid [] from
              funext (fun u => by rw [r4 u, pendingOf_checkForking]; rfl)]
      refine PStep.quiet hk rfl ?_ ?_ rfl (Or.inr r2)
      · rw [hv]; exact hi.purge hc' hT
      · rw [hv]; exact hh.frame _ _ _
  | nclose fd =>
    obtain ⟨⟨u, hu⟩, hn⟩ := hi.closing fd (by rw [hc', mem_toClose]; simp)
    have hu' : p.fds fd = some u := hu
    have hT := hi.critN fd (by rw [hc']; simp) u hu
    simp only [doMicro, hu']
    refine ⟨hi.nclose hc', hh.frame _ _ _, ⟨?_, ?_⟩, by simp [heldStep], fun h hm => Or.inl hm, ?_, rfl, Or.inl rfl⟩
    · intro x hx hs b' hb'
      simp only [List.foldl_cons, List.foldl_nil, heldStep] at hx
      rw [kHas_drop]
      refine ⟨hk.backed x hx hs b' hb', ?_⟩
      rintro ⟨e1, e2⟩
      obtain ⟨st, _, _, _, hin⟩ := hh.held x hx e1
      rw [e2, hT] at hin; cases hin
    · exact hk.compat.mono (fun p' u sh b' h => ((kHas_drop _ _ _ _ _ _ _).1 h).1)
    · intro pid' u sh b' hp
      rw [kHas_drop]; simp [hp]
  | addData uid fd =>
    simp only [doMicro]
    by_cases hfd : fd = 0
    · have : p.reg.addData pid uid fd = (.error .assertionError, p.reg) := by simp [Registry.addData, hfd]
      rw [this]
      exact PStep.quiet hk rfl hi.emptyCrit (hh.frame _ _ _) rfl (Or.inl rfl)
    · obtain ⟨a1, a2, a3, a4, a5, a6, _⟩ := addData_view pid p.reg uid hfd
      rcases har : p.reg.addData pid uid fd with ⟨o, r⟩
      rw [har] at a1 a2 a3 a4
      simp only at a1 a2 a3 a4
      subst a1
      simp only
      have hv : view pid { p with reg := r, crit := rest } =
          { view pid p with D := updMap (pendingOf pid p.reg) uid (pendingOf pid p.reg uid ++ [fd]), crit := rest } := by
        simp only [view]
        rw [show tableOf pid r = tableOf pid p.reg from funext a3,
            show pendingOf pid r = updMap (pendingOf pid p.reg) uid (pendingOf pid p.reg uid ++ [fd]) from
              funext (fun u => by rw [a4 u]; rfl)]
      refine PStep.quiet hk rfl ?_ ?_ rfl (Or.inr a2)
      · rw [hv]; exact hi.addData hc'
      · rw [hv]; exact hh.frame _ _ _
  | delEntry uid =>
    obtain ⟨h1, h2, h3, h4, _⟩ := tryDelete_view pid p.reg uid
    simp only [doMicro]
    have hv : view pid { p with reg := (p.reg.tryDeleteEntry pid uid).2, crit := rest } =
        { view pid p with crit := rest } := by
      have := view_reg (pid := pid) (p := p) (r := (p.reg.tryDeleteEntry pid uid).2) h2 h3
      rw [← this]; rfl
    refine PStep.quiet hk rfl ?_ ?_ rfl (Or.inr h1)
    · rw [hv]; exact htail
    · rw [hv]; exact hh.frame _ _ _

theorem isPending_false {pid : Nat} {p : Proc} {fd : Nat} {uid : Uid} (hi : VInv (view pid p))
    (hf : p.fds fd = some uid) (h : p.isPending pid fd uid = false) :
    (∀ u, fd ∉ (view pid p).D u) ∧ fd ∉ toClose (view pid p).crit := by
  simp only [Proc.isPending, Bool.or_eq_false_iff, Bool.and_eq_false_iff, decide_eq_false_iff_not] at h
  obtain ⟨⟨h1, h2⟩, h3⟩ := h
  constructor
  · intro u hd
    have hu := (hi.pend u fd hd).1
    change p.fds fd = some u at hu
    rw [hf] at hu; cases hu
    change fd ∈ pendingOf pid p.reg uid at hd
    unfold pendingOf at hd
    split at hd
    · rename_i hp
      split at hd
      · rename_i e he
        rcases h1 with h1 | h1
        · exact h1 hp
        · rw [he] at h1; simp at h1; exact h1 hd
      · cases hd
    · cases hd
  · intro hd
    rcases mem_toClose.1 hd with hd | ⟨u, hd⟩
    · have : Micro.nclose fd ∈ p.crit := hd
      simp [this] at h2
    · have hu := hi.critA u fd hd
      change p.fds fd = some u at hu
      rw [hf] at hu; cases hu
      have : Micro.addData uid fd ∈ p.crit := hd
      simp [this] at h3

/-- Every action of a process preserves the invariants. -/
theorem stepProc_inv {pid : Nat} {p : Proc} {k : KTable} {H : List Held} {l : PLabel} {a : Act}
    (hi : VInv (view pid p)) (hh : VHeld pid (view pid p) H) (hk : KOK k H)
    (hw : ∀ sid fd cf, l = .wrapS sid fd cf → NoOpen p.streams fd)
    (h : stepProc pid p k l = some a) : PStep pid p k H a := by
  cases l with
  | osOpen fd uid =>
    simp only [stepProc] at h
    split at h
    · rename_i hf
      cases h
      exact PStep.quiet hk rfl (hi.osOpen uid hf) (hh.frame _ _ _) rfl (Or.inl rfl)
    · cases h
  | openS sid fd uid =>
    simp only [stepProc] at h
    split at h
    · rename_i hf
      cases h
      have h1 := hi.osOpen (fd := fd) uid hf.1
      refine PStep.quiet hk rfl ?_ ?_ rfl (Or.inl rfl)
      · refine h1.addStream (sid := sid) (fd := fd) (uid := uid) true hf.2 (updMap_same _ _ _) ?_ ?_ ?_
        · intro s st e o he
          have := hi.live s st e o
          change p.fds st.fd = _ at this
          rw [he, hf.1] at this; cases this
        · intro u hd
          have := (hi.pend u fd hd).1
          change p.fds fd = _ at this
          rw [hf.1] at this; cases this
        · intro hd
          obtain ⟨⟨u, this⟩, _⟩ := hi.closing fd hd
          change p.fds fd = _ at this
          rw [hf.1] at this; cases this
      · exact (hh.frame (view pid p).D (updMap p.fds fd (some uid)) (view pid p).crit).addStream _ hf.2
    · cases h
  | wrapS sid fd cf =>
    simp only [stepProc] at h
    split at h
    · cases h
    · rename_i uid hf
      split at h
      · rename_i hc
        cases h
        obtain ⟨p1, p2⟩ := isPending_false hi hf hc.2
        exact PStep.quiet hk rfl (hi.addStream cf hc.1 hf (hw _ _ _ rfl) p1 p2) (hh.addStream _ hc.1) rfl (Or.inl rfl)
      · cases h
  | lockCall tid sid len start shared llb =>
    simp only [stepProc] at h
    split at h
    · rename_i st hidle hst
      split at h
      · rename_i hc
        cases h
        have hss : SameStreams p.streams (updMap p.streams sid (some { st with busy := some tid })) := by
          intro s
          by_cases hs : s = sid
          · subst hs; rw [updMap_same]; exact Or.inr ⟨st, _, hst, rfl, rfl, rfl, rfl, rfl⟩
          · rw [updMap_other _ _ hs]; exact SameStreams.refl _ s
        have hreg : ∀ t q, (updMap p.threads tid (PC.atReg ⟨sid, st.fd, st.uid, len, start, shared, llb⟩) t).registered
            = some q ↔ (p.threads t).registered = some q := by
          intro t q
          by_cases ht : t = tid
          · subst ht; rw [updMap_same, hidle]; simp [PC.registered]
          · rw [updMap_other _ _ ht]
        refine PStep.quiet hk rfl ?_ ?_ rfl (Or.inl rfl)
        · refine hi.calls _ _ hss ?_ (fun t q => (hreg t q).1)
          intro t q hq
          change (updMap p.threads tid _ t).req = some q at hq
          by_cases ht : t = tid
          · subst ht; rw [updMap_same] at hq; cases hq
            exact ⟨_, updMap_same _ _ _, hc.1, rfl, rfl, rfl⟩
          · rw [updMap_other _ _ ht] at hq
            obtain ⟨st', a', b', c', d', e'⟩ := hi.thr t q hq
            refine ⟨st', ?_, b', c', d', e'⟩
            show updMap p.streams sid _ q.sid = some st'
            rw [updMap_other]; exact a'
            intro hs
            change p.streams q.sid = some st' at a'
            rw [hs, hst] at a'; cases a'; rw [hc.2] at e'; cases e'
        · exact hh.calls _ _ hss hreg
      · cases h
    · cases h
  | reg tid =>
    simp only [stepProc] at h
    split at h
    · rename_i q hpc hc
      cases h
      exact PStep.attemptReg hi hh hk (by rw [hpc]; rfl) (by rw [hpc]; rfl) hc rfl
    · cases h
  | wake tid =>
    simp only [stepProc] at h
    split at h
    · rename_i q hpc hc
      split at h
      · rename_i r hr
        cases h
        obtain ⟨d1, d2, d3, _⟩ := decWaiting_view (pid := pid) hr
        have hv := view_reg (p := p) d2 d3
        exact PStep.attemptReg (p := { p with reg := r }) (by rw [hv]; exact hi) (by rw [hv]; exact hh) hk
          (by rw [hpc]; rfl) (by rw [hpc]; rfl) hc rfl
      · cases h
        have := PStep.failLock (p := p) (p₀ := p) hi hh hk (t := tid) (q := q) (by rw [hpc]; rfl) (by rw [hpc]; rfl)
          rfl (Or.inl rfl)
        exact ⟨this.inv, this.held, this.kok, this.others, this.mine, this.kothers, this.alive, this.orig⟩
    · cases h
  | kern tid =>
    simp only [stepProc] at h
    split at h
    · rename_i q hpc
      split at h
      · cases h
        exact PStep.setPC hi hh hk rfl (by rw [hpc]; rfl) (by rw [hpc]; rfl) rfl (Or.inl rfl)
      · split at h
        · cases h
          exact PStep.setPC hi hh hk rfl (by rw [hpc]; rfl) (by rw [hpc]; rfl) rfl (Or.inl rfl)
        · split at h
          · split at h
            · cases h
            · cases h
              exact PStep.setPC hi hh hk rfl (by rw [hpc]; rfl) (by rw [hpc]; rfl) rfl (Or.inl rfl)
          · rename_i hconf
            cases h
            have hreg : ((view pid p).threads tid).registered = some q := by
              show (p.threads tid).registered = some q
              rw [hpc]; rfl
            have hconf' : kConflict k pid q.uid q.shared q.start q.stop = false := by simpa using hconf
            have hv : view pid (grant pid p k tid q).1 =
                { view pid p with threads := updMap p.threads tid .idle, streams := relStreams p.streams q.sid } := by
              simp only [grant, release_eq]; rfl
            refine ⟨?_, ?_, ?_, ?_, ?_, ?_, ?_, ?_⟩
            · rw [hv]; exact hi.leave tid q (PC.req_of_registered hreg)
            · rw [hv]; exact hh.grant hi tid q hreg
            · exact KOK.locked hi hh hk hreg hconf'
            · intro x hx
              simp only [grant, List.foldl_cons, List.foldl_nil, heldStep, List.mem_append, List.mem_singleton]
              constructor
              · rintro (hx' | rfl)
                · exact hx'
                · exact absurd rfl hx
              · exact Or.inl
            · intro x hx
              simp only [grant, List.foldl_cons, List.foldl_nil, heldStep, List.mem_append, List.mem_singleton] at hx
              rcases hx with hx | rfl
              · exact Or.inl hx
              · exact Or.inr rfl
            · intro pid' u sh b hp
              simp only [grant]
              rw [kHas_lock]; simp [hp]
            · simp only [grant, release_eq]; rfl
            · left; simp only [grant, release_eq]; rfl
    · cases h
  | kernErr tid =>
    simp only [stepProc] at h
    split at h
    · rename_i q hpc
      cases h
      exact PStep.setPC hi hh hk rfl (by rw [hpc]; rfl) (by rw [hpc]; rfl) rfl (Or.inl rfl)
    · cases h
  | kernExc tid =>
    simp only [stepProc] at h
    split at h
    · rename_i q hpc
      cases h
      exact PStep.setPC hi hh hk rfl (by rw [hpc]; rfl) (by rw [hpc]; rfl) rfl (Or.inl rfl)
    · cases h
  | kernIntr tid =>
    simp only [stepProc] at h
    split at h
    · rename_i q hpc
      split at h
      · cases h
      · rename_i hcond
        cases h
        simp only [not_or, Bool.not_eq_true] at hcond
        have hreg : ((view pid p).threads tid).registered = some q := by
          show (p.threads tid).registered = some q
          rw [hpc]; rfl
        have := PStep.setPC (p₀ := p) hi hh hk (t := tid) (pc := .unwinding q) (e := []) rfl (by rw [hpc]; rfl)
          (by rw [hpc]; rfl) rfl (Or.inl rfl)
        refine ⟨this.inv, this.held, KOK.lock hi hh hk hreg hcond.2.2, this.others, this.mine, ?_, rfl, Or.inl rfl⟩
        intro pid' u sh b hp
        simp only
        rw [kHas_lock]; simp [hp]
    · cases h
  | unwind tid =>
    simp only [stepProc] at h
    split at h
    · rename_i q hpc hc
      cases h
      exact PStep.unwind hi hh hk (by rw [hpc]; rfl)
    · cases h
  | retry tid =>
    simp only [stepProc] at h
    split at h
    · rename_i q hpc
      cases h
      exact PStep.setPC hi hh hk rfl (by rw [hpc]; rfl) (by rw [hpc]; rfl) rfl (Or.inl rfl)
    · rename_i q hpc
      cases h
      exact PStep.setPC hi hh hk rfl (by rw [hpc]; rfl) (by rw [hpc]; rfl) rfl (Or.inl rfl)
    · cases h
  | expire tid =>
    simp only [stepProc] at h
    split at h
    · rename_i q hpc
      split at h
      · cases h
      · cases h
        exact PStep.failLock hi hh hk (by rw [hpc]; rfl) (by rw [hpc]; rfl) rfl (Or.inl rfl)
    · rename_i q hpc
      split at h
      · cases h
      · cases h
        exact PStep.setPC hi hh hk rfl (by rw [hpc]; rfl) (by rw [hpc]; rfl) rfl (Or.inl rfl)
    · cases h
  | unlock sid len start =>
    simp only [stepProc] at h
    split at h
    · rename_i st hst hc
      split at h
      · rename_i hob
        cases h
        exact PStep.unlock hi hh hk hst hob.1 hob.2 hc len start
      · cases h
    · cases h
  | close sid =>
    simp only [stepProc] at h
    split at h
    · rename_i st hst hc
      split at h
      · cases h
      · rename_i hb
        split at h
        · rename_i ho
          cases h
          exact PStep.close hi hh hk hst ho (by simpa using hb) hc
        · cases h
          exact PStep.quiet hk rfl hi hh rfl (Or.inl rfl)
    · cases h
  | micro =>
    simp only [stepProc] at h
    split at h
    · rename_i m rest hc
      cases h
      exact PStep.micro hi hh hk hc
    · cases h

/-! The whole system -/

theorem VHeld.foreign {pid : Nat} {v : View} {H H' : List Held} (h : VHeld pid v H)
    (he : ∀ x, x.pid = pid → (x ∈ H' ↔ x ∈ H)) : VHeld pid v H' where
  held := fun x hx hp => h.held x ((he x hp).1 hx) hp
  notInflight := fun t q hq x hx hp => h.notInflight t q hq x ((he x hp).1 hx) hp
  owner := fun u x hx => by
    rcases h.owner u x hx with ⟨hh, m, p1, r⟩ | h'
    · exact Or.inl ⟨hh, (he hh p1).2 m, p1, r⟩
    · exact Or.inr h'

theorem tableOf_foreign {pid : Nat} {r : Registry} (h : r.originalPid ≠ pid) (u : Uid) :
    tableOf pid r u = [] ∧ pendingOf pid r u = [] ∧ waitingOf pid r u = 0 := by
  simp [tableOf, pendingOf, waitingOf, h]

theorem Inv.step {w w' : World} {H : List Held} {l : Label} {e : List Event} (hi : Inv w H) (hw : WellWrapped w l)
    (h : step w l = some (w', e)) : Inv w' (e.foldl heldStep H) := by
  cases l with
  | newProc pid =>
    simp only [Verif.step] at h
    split at h
    · rename_i hn
      cases h
      have hnone : ∀ x ∈ H, x.pid ≠ pid := by
        intro x hx he
        obtain ⟨p, hp, _⟩ := hi.heldAlive x hx
        rw [he, hn] at hp; cases hp
      refine ⟨?_, hi.kern, ?_, ?_, ?_⟩
      · intro pid' p hp ha
        rcases updMap_cases hp with ⟨rfl, h'⟩ | ⟨_, h'⟩
        · cases h'
          have hT : (view pid' (Proc.fresh pid')).T = fun _ => [] := by
            funext u; simp [view, tableOf, Proc.fresh, Registry.init]
          have hD : (view pid' (Proc.fresh pid')).D = fun _ => [] := by
            funext u; simp [view, pendingOf, Proc.fresh, Registry.init]
          constructor
          · constructor <;> (try simp [hT, hD]) <;> simp [view, Proc.fresh, Shaped, toClose, PC.req, PC.registered]
          · constructor
            · intro x hx hp; exact absurd hp (hnone x hx)
            · intro t q hq; simp [view, Proc.fresh, PC.registered] at hq
            · intro u x hx; rw [hT] at hx; cases hx
        · exact hi.proc pid' p h' ha
      · intro x hx
        obtain ⟨p, hp, ha⟩ := hi.heldAlive x hx
        exact ⟨p, by simp only; rw [updMap_other _ _ (hnone x hx)]; exact hp, ha⟩
      · intro pid' u sh b hk
        obtain ⟨p, hp, ha⟩ := hi.kernAlive pid' u sh b hk
        refine ⟨p, ?_, ha⟩
        simp only; rw [updMap_other]; exact hp
        rintro rfl; rw [hn] at hp; cases hp
      · intro pid' p hp
        rcases updMap_cases hp with ⟨rfl, h'⟩ | ⟨_, h'⟩
        · cases h'
          simp [Proc.fresh, Registry.init]
        · have := hi.orig pid' p h'
          simp only
          intro hc
          rcases updMap_cases hc with ⟨_, h2⟩ | ⟨_, h2⟩
          · cases h2
          · exact this h2
    · cases h
  | act pid l =>
    simp only [Verif.step] at h
    split at h
    · cases h
    · rename_i p hp
      split at h
      · rename_i ha
        split at h
        · rename_i p' k ev hs
          cases h
          obtain ⟨hv, hh⟩ := hi.proc pid p hp ha
          have hps := stepProc_inv hv hh hi.kern (fun sid fd cf hl s st e o => by
            subst hl; exact hw p hp s st e o) hs
          refine ⟨?_, hps.kok, ?_, ?_, ?_⟩
          · intro pid' p'' hp' ha'
            rcases updMap_cases hp' with ⟨rfl, h'⟩ | ⟨hne, h'⟩
            · cases h'; exact ⟨hps.inv, hps.held⟩
            · obtain ⟨hv', hh'⟩ := hi.proc pid' p'' h' ha'
              refine ⟨hv', hh'.foreign ?_⟩
              intro x hx
              exact hps.others x (by rw [hx]; exact hne)
          · intro x hx
            by_cases hxp : x.pid = pid
            · exact ⟨p', by simp only; rw [hxp, updMap_same], hps.alive.trans ha⟩
            · rw [hps.others x hxp] at hx
              obtain ⟨p'', h1, h2⟩ := hi.heldAlive x hx
              exact ⟨p'', by simp only; rw [updMap_other _ _ hxp]; exact h1, h2⟩
          · intro pid' u sh b hk
            by_cases hxp : pid' = pid
            · exact ⟨p', by simp only; rw [hxp, updMap_same], hps.alive.trans ha⟩
            · rw [hps.kothers pid' u sh b hxp] at hk
              obtain ⟨p'', h1, h2⟩ := hi.kernAlive pid' u sh b hk
              exact ⟨p'', by simp only; rw [updMap_other _ _ hxp]; exact h1, h2⟩
          · intro pid' p'' hp' hc
            rcases updMap_cases hc with ⟨_, h2⟩ | ⟨hne2, h2⟩
            · cases h2
            · rcases updMap_cases hp' with ⟨rfl, h'⟩ | ⟨hne, h'⟩
              · cases h'
                rcases hps.orig with ho | ho
                · simp only at ho
                  rw [ho] at h2; exact hi.orig pid' p hp h2
                · exact hne2 ho
              · exact hi.orig pid' p'' h' h2
        · cases h
      · cases h
  | fork parent child =>
    simp only [Verif.step] at h
    split at h
    · rename_i p hp hn
      split at h
      · rename_i ha
        cases h
        obtain ⟨hv, hh⟩ := hi.proc parent p hp ha
        have hnone : ∀ x ∈ H, x.pid ≠ child := by
          intro x hx he
          obtain ⟨p, hp, _⟩ := hi.heldAlive x hx
          rw [he, hn] at hp; cases hp
        have horig : p.reg.originalPid ≠ child := by
          intro he; have := hi.orig parent p hp; rw [he] at this; exact this hn
        refine ⟨?_, hi.kern, ?_, ?_, ?_⟩
        · intro pid' p'' hp' ha'
          rcases updMap_cases hp' with ⟨rfl, h'⟩ | ⟨_, h'⟩
          · cases h'
            have hT : (view pid' p.forked).T = fun _ => [] := funext (fun u => (tableOf_foreign horig u).1)
            have hD : (view pid' p.forked).D = fun _ => [] := funext (fun u => (tableOf_foreign horig u).2.1)
            have hstr : ∀ {s st}, (view pid' p.forked).streams s = some st →
                ∃ st', p.streams s = some st' ∧ st'.fd = st.fd ∧ st'.uid = st.uid ∧ st'.isOpen = st.isOpen := by
              intro s st h1
              simp only [view, Proc.forked, Option.map_eq_some_iff] at h1
              obtain ⟨st', h2, rfl⟩ := h1
              exact ⟨st', h2, rfl, rfl, rfl⟩
            constructor
            · constructor
              case distinct =>
                intro s₁ s₂ y₁ y₂ e₁ e₂ o₁ o₂ hf
                obtain ⟨z₁, a₁, b₁, _, c₁⟩ := hstr e₁
                obtain ⟨z₂, a₂, b₂, _, c₂⟩ := hstr e₂
                exact hv.distinct s₁ s₂ z₁ z₂ a₁ a₂ (c₁.trans o₁) (c₂.trans o₂) (by rw [b₁, b₂]; exact hf)
              case live =>
                intro s y e o
                obtain ⟨z, a, b, c, d⟩ := hstr e
                rw [← b, ← c]
                exact hv.live s z a (d.trans o)
              all_goals try simp [hT, hD]
              all_goals simp [view, Proc.forked, Shaped, toClose, PC.req, PC.registered]
            · constructor
              · intro x hx hp; exact absurd hp (hnone x hx)
              · intro t q hq; simp [view, Proc.forked, PC.registered] at hq
              · intro u x hx; rw [hT] at hx; cases hx
          · exact hi.proc pid' p'' h' ha'
        · intro x hx
          obtain ⟨p, hp, ha⟩ := hi.heldAlive x hx
          exact ⟨p, by simp only; rw [updMap_other _ _ (hnone x hx)]; exact hp, ha⟩
        · intro pid' u sh b hk
          obtain ⟨p, hp, ha⟩ := hi.kernAlive pid' u sh b hk
          refine ⟨p, ?_, ha⟩
          simp only; rw [updMap_other]; exact hp
          rintro rfl; rw [hn] at hp; cases hp
        · intro pid' p'' hp' hc
          rcases updMap_cases hc with ⟨_, h2⟩ | ⟨_, h2⟩
          · cases h2
          · rcases updMap_cases hp' with ⟨rfl, h'⟩ | ⟨_, h'⟩
            · cases h'; exact hi.orig parent p hp h2
            · exact hi.orig pid' p'' h' h2
      · cases h
    · cases h
  | exit pid =>
    simp only [Verif.step] at h
    split at h
    · cases h
    · rename_i p hp
      split at h
      · rename_i ha
        cases h
        have hmem : ∀ x, x ∈ heldStep H (.exited pid) ↔ x ∈ H ∧ x.pid ≠ pid := by
          intro x; simp [heldStep]
        refine ⟨?_, ⟨?_, ?_⟩, ?_, ?_, ?_⟩
        · intro pid' p'' hp' ha'
          rcases updMap_cases hp' with ⟨rfl, h'⟩ | ⟨hne, h'⟩
          · cases h'; cases ha'
          · obtain ⟨hv', hh'⟩ := hi.proc pid' p'' h' ha'
            refine ⟨hv', hh'.foreign ?_⟩
            intro x hx
            simp only [List.foldl_cons, List.foldl_nil, hmem]
            exact ⟨fun h => h.1, fun h => ⟨h, by rw [hx]; exact hne⟩⟩
        · intro x hx hs b hb
          simp only [List.foldl_cons, List.foldl_nil, hmem] at hx
          rw [kHas_dropPid]; exact ⟨hi.kern.backed x hx.1 hs b hb, hx.2⟩
        · exact hi.kern.compat.mono (fun p' u sh b' h => ((kHas_dropPid _ _ _ _ _ _).1 h).1)
        · intro x hx
          simp only [List.foldl_cons, List.foldl_nil, hmem] at hx
          obtain ⟨p'', h1, h2⟩ := hi.heldAlive x hx.1
          exact ⟨p'', by simp only; rw [updMap_other _ _ hx.2]; exact h1, h2⟩
        · intro pid' u sh b hk
          rw [kHas_dropPid] at hk
          obtain ⟨p'', h1, h2⟩ := hi.kernAlive pid' u sh b hk.1
          exact ⟨p'', by simp only; rw [updMap_other _ _ hk.2]; exact h1, h2⟩
        · intro pid' p'' hp' hc
          rcases updMap_cases hc with ⟨_, h2⟩ | ⟨_, h2⟩
          · cases h2
          · rcases updMap_cases hp' with ⟨rfl, h'⟩ | ⟨_, h'⟩
            · cases h'; exact hi.orig pid' p hp h2
            · exact hi.orig pid' p'' h' h2
      · cases h

theorem Inv.init : Inv World.init [] where
  proc := by intro pid p hp; cases hp
  kern := ⟨(by intro h hh; cases hh), (by intro p p' u sh sh' b _ h1; obtain ⟨k, hk, _⟩ := h1; cases hk)⟩
  heldAlive := by intro h hh; cases hh
  kernAlive := by intro pid u sh b h; obtain ⟨k, hk, _⟩ := h; cases hk
  orig := by intro pid p hp; cases hp

/-- The invariant holds in every reachable state. -/
theorem Reach.inv {ls : List Label} {w : World} {tr : List Event} (h : Reach ls w tr) : Inv w (heldOf tr) := by
  induction h with
  | init => exact Inv.init
  | step _ hw hs ih =>
    have := ih.step hw hs
    simpa only [heldOf, List.foldl_append] using this

end Verif
