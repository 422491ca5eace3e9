import Verif.Lemmas.WinAccounts

/-!
# The accounts of the windows lock system are kept by every action
-/

set_option autoImplicit false

namespace Verif.Win

open Verif Spec

theorem unregister_tab (pid : Nat) (r : Registry) (uid : Uid) (h : Nat) (len : Option Int) (s : Int) :
    (r.unregister pid uid h len s).2.originalPid = pid ∧ ∀ u, tableOf pid (r.unregister pid uid h len s).2 u =
      if u = uid then (tableOf pid r uid).eraseP (LockRec.matchesRange h s (newEnd s len)) else tableOf pid r u := by
  cases hr : r.unregister pid uid h len s with
  | mk o r' =>
    cases o with
    | ok b => exact ⟨(unregister_ok hr).1, (unregister_ok hr).2.1⟩
    | error x =>
      obtain ⟨_, rfl, h3⟩ := unregister_error hr
      refine ⟨by simp, fun u => ?_⟩
      rw [tableOf_checkForking]
      split
      · rename_i e
        subst e
        rw [List.eraseP_of_forall_not]
        intro a ha
        rw [h3 a ha]; nofun
      · rfl

/-- What remains after the removal of one range. -/
theorem RInv.mem_erase {pid : Nat} {p : Proc} {k : KTable} {H : List Held} (h : RInv pid p k H) (a : Nat) (s : Int)
    (e : Option Int) (r : LockRec) :
    r ∈ (tab pid p a).eraseP (LockRec.matchesRange a s e) ↔ r ∈ tab pid p a ∧ ¬ (r.start = s ∧ r.stop = e) := by
  have hm : ∀ r ∈ tab pid p a, (r.matchesRange a s e = true ↔ r.start = s ∧ r.stop = e) := by
    intro r hr
    rw [matchesRange_iff]
    exact ⟨fun q => q.2, fun q => ⟨(h.recs a r hr).1, q⟩⟩
  constructor
  · intro hr
    have hr' := List.mem_of_mem_eraseP hr
    refine ⟨hr', fun q => ?_⟩
    have ht := (hm r hr').2 q
    by_cases hex : (tab pid p a).any (LockRec.matchesRange a s e) = true
    · have := eraseP_pairwise (R := fun x y => x ∈ tab pid p a ∧ ¬ Meet x.start x.stop y.start y.stop)
        (LockRec.matchesRange a s e) (LockRec.matchesRange a s e) (L := tab pid p a)
        ((h.apart a).imp_of_mem (fun hx _ hn => ⟨hx, hn⟩)) (fun x y hxy hx hy => by
          obtain ⟨hxm, hn⟩ := hxy
          obtain ⟨_, x1, x2⟩ := matchesRange_iff.1 hx
          obtain ⟨_, y1, y2⟩ := matchesRange_iff.1 hy
          apply hn
          rw [y1, y2, ← x1, ← x2]
          exact (h.recs a x hxm).2.1.meet) (fun _ q => q) hex r hr
      rw [this] at ht; cases ht
    · exact hex (List.any_eq_true.2 ⟨r, hr', ht⟩)
  · rintro ⟨hr, hn⟩
    exact (List.mem_eraseP_of_neg (by rw [hm r hr]; exact hn)).2 hr

theorem RInv.erase_apart {pid : Nat} {p : Proc} {k : KTable} {H : List Held} (h : RInv pid p k H) (a : Nat) (s : Int)
    (e : Option Int) : ((tab pid p a).eraseP (LockRec.matchesRange a s e)).Pairwise
      (fun x y => ¬ Meet x.start x.stop y.start y.stop) := (h.apart a).sublist List.eraseP_sublist

theorem setPC_ext (p : Proc) (r : Registry) (tid : Nat) (pc : PC) : Ext p (({ p with reg := r } : Proc).setPC tid pc) :=
  fun _ st hs => ⟨st.busy, hs⟩

theorem finished_ext (p : Proc) (r : Registry) (tid sid : Nat) (pc : PC) :
    Ext p ((({ p with reg := r } : Proc).setPC tid pc).release sid) := by
  intro s st hs
  exact (release_streams (({ p with reg := r } : Proc).setPC tid pc) sid).ext s st hs

/-- Two threads that have registered a lock on one handle are one. -/
theorem PInv.same_thread {n : Nat} {p : Proc} (hi : PInv n p) {t t' : Nat} {q q' : Req} (h : (p.threads t).req = some q)
    (h' : (p.threads t').req = some q') (he : q.handle = q'.handle) : t = t' := by
  obtain ⟨_, st, a1, a2, a3, a4, _⟩ := hi.threads t q h
  obtain ⟨_, st', b1, b2, b3, b4, _⟩ := hi.threads t' q' h'
  have := hi.distinct _ _ _ _ a1 b1 a2 b2 (a4.trans (he.trans b4.symm))
  rw [this, b1] at a1
  cases a1
  rw [a3] at b3
  cases b3; rfl

theorem PInv.same_thread_sid {n : Nat} {p : Proc} (hi : PInv n p) {t t' : Nat} {q q' : Req}
    (h : (p.threads t).req = some q) (h' : (p.threads t').req = some q') (he : q.sid = q'.sid) : t = t' := by
  obtain ⟨_, st, a1, a2, a3, a4, _⟩ := hi.threads t q h
  obtain ⟨_, st', b1, b2, b3, b4, _⟩ := hi.threads t' q' h'
  rw [he, b1] at a1
  cases a1
  rw [a3] at b3
  cases b3; rfl

/-- `lock_file` registers the lock. -/
theorem RInv.registered {pid n : Nat} {p : Proc} {k : KTable} {H : List Held} (h : RInv pid p k H) (hi : PInv n p)
    {tid : Nat} {q : Req} (ht : p.threads tid = .atReg q) (hc : p.crit = []) {r' : Registry}
    (hr : p.reg.register pid (key q.handle) q.handle q.len q.start q.shared = (.ok true, r')) :
    RInv pid (({ p with reg := r' } : Proc).setPC tid (.atKern q)) k H := by
  obtain ⟨r1, r2, _⟩ := register_ok hr
  have hq : (p.threads tid).req = some q := by rw [ht]; rfl
  obtain ⟨hfit, st, s1, s2, s3, s4, s5⟩ := hi.threads tid q hq
  have hscan := register_fst pid p.reg (key q.handle) q.handle q.len q.start q.shared
  rw [hr] at hscan
  have hno := (scan_true_iff _ _ _ _ _).1 hscan.symm
  have hT : ∀ a, tab pid (({ p with reg := r' } : Proc).setPC tid (.atKern q)) a =
      if a = q.handle then tab pid p a ++ [q.record] else tab pid p a := by
    intro a
    show tableOf pid r' (key a) = _
    rw [r2]
    by_cases e : a = q.handle
    · subst e; rw [if_pos rfl, if_pos rfl]; rfl
    · rw [if_neg (fun x => e (key_inj.1 x)), if_neg e]; rfl
  have sub : ∀ a r, r ∈ tab pid p a → r ∈ tab pid (({ p with reg := r' } : Proc).setPC tid (.atKern q)) a := by
    intro a r hm
    rw [hT]; split
    · exact List.mem_append_left _ hm
    · exact hm
  have inv : ∀ a r, r ∈ tab pid (({ p with reg := r' } : Proc).setPC tid (.atKern q)) a →
      r ∈ tab pid p a ∨ (a = q.handle ∧ r = q.record) := by
    intro a r hm
    rw [hT] at hm; split at hm
    · rename_i e
      rcases List.mem_append.1 hm with hm | hm
      · exact Or.inl hm
      · exact Or.inr ⟨e, List.mem_singleton.1 hm⟩
    · exact Or.inl hm
  have hask : Asked q.start q.stop := ⟨q.length, hfit, rfl⟩
  have thr : ∀ t, t ≠ tid → ((({ p with reg := r' } : Proc).setPC tid (.atKern q)).threads t) = p.threads t :=
    fun t e => updMap_other _ _ e
  have thr' : (({ p with reg := r' } : Proc).setPC tid (.atKern q)).threads tid = .atKern q := updMap_same _ _ _
  constructor
  · exact r1
  · intro a r hm
    rcases inv a r hm with hm | ⟨rfl, rfl⟩
    · exact h.recs a r hm
    · exact ⟨rfl, hask, q.sid, st, s1, s2, s4⟩
  · intro a
    rw [hT]; split
    · rename_i e
      subst e
      rw [List.pairwise_append]
      refine ⟨h.apart _, List.pairwise_singleton _ _, ?_⟩
      intro x hx y hy hm
      rw [List.mem_singleton] at hy
      subst hy
      exact hno x hx ⟨hm, Or.inl (h.recs _ x hx).1⟩
    · exact h.apart a
  · intro t q' hq'
    by_cases e : t = tid
    · subst e
      rw [thr'] at hq'
      cases hq'
      refine ⟨by rw [hT, if_pos rfl]; exact List.mem_append_right _ List.mem_cons_self, ?_⟩
      intro x hx hp hs ⟨e1, e2⟩
      obtain ⟨st', g1, go, g2⟩ := h.heldRec x hx hp
      rw [hs, s1] at g1
      cases g1
      rcases g2 with g2 | ⟨_, _, _, g3, _⟩
      · rw [s4] at g2
        have := hno _ g2
        apply this
        refine ⟨?_, Or.inl rfl⟩
        rw [e1, e2]
        exact hask.meet
      · rw [hc] at g3; cases g3
    · rw [thr t e] at hq'
      obtain ⟨g1, g2⟩ := h.flight t q' hq'
      exact ⟨sub _ _ g1, g2⟩
  · intro x hx hp
    obtain ⟨st', g1, go, g2⟩ := h.heldRec x hx hp
    refine ⟨st', g1, go, ?_⟩
    rcases g2 with g2 | g2
    · exact Or.inl (sub _ _ g2)
    · exact Or.inr g2
  · intro a r hm
    rcases inv a r hm with hm | ⟨rfl, rfl⟩
    · rcases h.recWhy a r hm with ⟨t, q', g1, g2⟩ | g
      · have e : t ≠ tid := by rintro rfl; rw [ht] at g1; cases g1
        exact Or.inl ⟨t, q', by rw [thr t e]; exact g1, g2⟩
      · exact Or.inr g
    · exact Or.inl ⟨tid, q, by rw [thr']; rfl, rfl, rfl⟩
  · exact h.kernWhy
  · exact h.cun
  · exact h.cunApart
  · intro sid a f s len hm
    have : Micro.unlock sid a f s len ∈ p.crit := hm
    rw [hc] at this; cases this

/-- `lock_file` takes the registration back. -/
theorem RInv.unwound {pid n : Nat} {p : Proc} {k : KTable} {H : List Held} (h : RInv pid p k H) (hi : PInv n p)
    {tid : Nat} {q : Req} (ht : p.threads tid = .unwinding q) :
    RInv pid ((({ p with reg := (p.reg.unregister pid (key q.handle) q.handle q.len q.start).2 } : Proc).setPC tid
      .idle).release q.sid) k H := by
  have hq : (p.threads tid).req = some q := by rw [ht]; rfl
  obtain ⟨hfit, st, s1, s2, s3, s4, s5⟩ := hi.threads tid q hq
  obtain ⟨u1, u2⟩ := unregister_tab pid p.reg (key q.handle) q.handle q.len q.start
  generalize hp' : ((({ p with reg := (p.reg.unregister pid (key q.handle) q.handle q.len q.start).2 } : Proc).setPC tid
      .idle).release q.sid) = p'
  have ext : Ext p p' := by rw [← hp']; exact finished_ext _ _ _ _ _
  have crit' : p'.crit = p.crit := by rw [← hp', release_crit]; rfl
  have hands : p'.handles = p.handles := by rw [← hp', release_handles]; rfl
  have tgt : ∀ a, p'.target a = p.target a := fun a => by unfold Proc.target; rw [hands]
  have hT : ∀ a, tab pid p' a = if a = q.handle then
      (tab pid p a).eraseP (LockRec.matchesRange a q.start q.stop) else tab pid p a := by
    intro a
    show tableOf pid p'.reg (key a) = _
    rw [← hp', release_reg]
    show tableOf pid (p.reg.unregister pid (key q.handle) q.handle q.len q.start).2 (key a) = _
    rw [u2]
    by_cases e : a = q.handle
    · subst e; rw [if_pos rfl, if_pos rfl]; rfl
    · rw [if_neg (fun x => e (key_inj.1 x)), if_neg e]; rfl
  have mem : ∀ a r, r ∈ tab pid p' a ↔ r ∈ tab pid p a ∧ ¬ (a = q.handle ∧ r.start = q.start ∧ r.stop = q.stop) := by
    intro a r
    rw [hT]; split
    · rename_i e
      rw [h.mem_erase]
      exact ⟨fun g => ⟨g.1, fun z => g.2 z.2⟩, fun g => ⟨g.1, fun z => g.2 ⟨e, z⟩⟩⟩
    · rename_i e
      exact ⟨fun g => ⟨g, fun z => e z.1⟩, fun g => g.1⟩
  have thr : ∀ t, t ≠ tid → p'.threads t = p.threads t := by
    intro t e
    rw [← hp', release_threads]; exact updMap_other _ _ e
  have thr' : p'.threads tid = .idle := by rw [← hp', release_threads]; exact updMap_same _ _ _
  have hqr : (p.threads tid).regd = some q := by rw [ht]; rfl
  constructor
  · rw [← hp', release_reg]; exact u1
  · intro a r hm
    obtain ⟨g1, g2, sid, st, g3, g4, g5⟩ := h.recs a r ((mem a r).1 hm).1
    obtain ⟨b, hb⟩ := ext _ _ g3
    exact ⟨g1, g2, sid, _, hb, g4, g5⟩
  · intro a
    rw [hT]; split
    · exact h.erase_apart _ _ _
    · exact h.apart a
  · intro t q' hq'
    by_cases e : t = tid
    · subst e; rw [thr'] at hq'; cases hq'
    · rw [thr t e] at hq'
      obtain ⟨g1, g2⟩ := h.flight t q' hq'
      refine ⟨(mem _ _).2 ⟨g1, fun z => ?_⟩, g2⟩
      exact e (hi.same_thread (regd_req hq') hq z.1)
  · intro x hx hp
    obtain ⟨st', g1, go, g2⟩ := h.heldRec x hx hp
    obtain ⟨b, hb⟩ := ext _ _ g1
    refine ⟨_, hb, go, ?_⟩
    rw [crit']
    rcases g2 with g2 | g2
    · refine Or.inl ((mem _ _).2 ⟨g2, fun z => ?_⟩)
      obtain ⟨z1, z2⟩ := z
      have hs : x.sid = q.sid := hi.distinct _ _ _ _ g1 s1 go s2 (z1.trans s4.symm)
      exact (h.flight tid q hqr).2 x hx hp hs z2
    · exact Or.inr g2
  · intro a r hm
    obtain ⟨m1, m2⟩ := (mem a r).1 hm
    rcases h.recWhy a r m1 with ⟨t, q', g1, g2, g3⟩ | ⟨x, g1, g2, g3, st', g4, g5, g6⟩
    · have e : t ≠ tid := by
        rintro rfl
        rw [hqr] at g1; cases g1
        exact m2 ⟨g2.symm, by rw [← g3]; exact ⟨rfl, rfl⟩⟩
      exact Or.inl ⟨t, q', by rw [thr t e]; exact g1, g2, g3⟩
    · obtain ⟨b, hb⟩ := ext _ _ g4
      exact Or.inr ⟨x, g1, g2, g3, _, hb, g5, g6⟩
  · intro y hy hp
    rcases h.kernWhy y hy hp with ⟨x, g1, g2, g3, g4, g5, st', g6, g7, g8⟩ | ⟨a, s, len, hd, g1, g2, g3⟩
    · obtain ⟨b, hb⟩ := ext _ _ g6
      exact Or.inl ⟨x, g1, g2, g3, g4, g5, _, hb, g7, g8⟩
    · exact Or.inr ⟨a, s, len, hd, by rw [crit']; exact g1, by rw [tgt]; exact g2, g3⟩
  · intro a s len hm
    rw [crit'] at hm
    obtain ⟨hd, l, o, g1, g2⟩ := h.cun a s len hm
    exact ⟨hd, l, o, by rw [tgt]; exact g1, g2⟩
  · rw [crit']; exact h.cunApart
  · intro sid a f s len hm r hr
    rw [crit'] at hm
    exact h.unlk sid a f s len hm r ((mem a r).1 hr).1

/-- `lock_file` returns. -/
theorem RInv.granted {pid n : Nat} {p : Proc} {k : KTable} {H : List Held} (h : RInv pid p k H) (hi : PInv n p)
    (hu : k.Pairwise (fun a b => ¬ SamePlace a b)) {tid : Nat} {q : Req} (ht : p.threads tid = .atKern q) {l o : Nat}
    (hr : osRange q.len q.start = some (l, o)) {hd : Handle} (hh : p.target q.handle = some hd) :
    RInv pid ((p.setPC tid .idle).release q.sid) (kGrant pid k hd q.shared o l)
      (H ++ [⟨pid, q.sid, q.file, q.shared, q.start, q.stop⟩]) ∧
    (kGrant pid k hd q.shared o l).Pairwise (fun a b => ¬ SamePlace a b) := by
  have hq : (p.threads tid).req = some q := by rw [ht]; rfl
  have hqr : (p.threads tid).regd = some q := by rw [ht]; rfl
  obtain ⟨hfit, st, s1, s2, s3, s4, s5⟩ := hi.threads tid q hq
  have hat : At q.start q.stop o l := osRange_at hfit hr
  have htgt := hi.streams _ _ s1 s2
  rw [s4, hh] at htgt
  cases htgt
  obtain ⟨f1, f2⟩ := h.flight tid q hqr
  generalize hp' : (p.setPC tid .idle).release q.sid = p'
  have ext : Ext p p' := by rw [← hp']; exact finished_ext p p.reg _ _ _
  have crit' : p'.crit = p.crit := by rw [← hp', release_crit]; rfl
  have hands : p'.handles = p.handles := by rw [← hp', release_handles]; rfl
  have tgt : ∀ a, p'.target a = p.target a := fun a => by unfold Proc.target; rw [hands]
  have hT : ∀ a, tab pid p' a = tab pid p a := by
    intro a
    show tableOf pid p'.reg (key a) = _
    rw [← hp', release_reg]; rfl
  have thr : ∀ t, t ≠ tid → p'.threads t = p.threads t := by
    intro t e
    rw [← hp', release_threads]; exact updMap_other _ _ e
  have thr' : p'.threads tid = .idle := by rw [← hp', release_threads]; exact updMap_same _ _ _
  have memH : ∀ x, x ∈ H ++ [(⟨pid, q.sid, q.file, q.shared, q.start, q.stop⟩ : Held)] →
      x ∈ H ∨ x = ⟨pid, q.sid, q.file, q.shared, q.start, q.stop⟩ := by
    intro x hx
    rcases List.mem_append.1 hx with hx | hx
    · exact Or.inl hx
    · exact Or.inr (List.mem_singleton.1 hx)
  have newH : (⟨pid, q.sid, q.file, q.shared, q.start, q.stop⟩ : Held) ∈
      H ++ [(⟨pid, q.sid, q.file, q.shared, q.start, q.stop⟩ : Held)] := List.mem_append_right _ List.mem_cons_self
  obtain ⟨b₀, hb₀⟩ := ext _ _ s1
  refine ⟨?_, ?_⟩
  · constructor
    · rw [← hp', release_reg]; exact h.own
    · intro a r hm
      rw [hT] at hm
      obtain ⟨g1, g2, sid, st, g3, g4, g5⟩ := h.recs a r hm
      obtain ⟨b, hb⟩ := ext _ _ g3
      exact ⟨g1, g2, sid, _, hb, g4, g5⟩
    · intro a; rw [hT]; exact h.apart a
    · intro t q' hq'
      by_cases e : t = tid
      · subst e; rw [thr'] at hq'; cases hq'
      · rw [thr t e] at hq'
        obtain ⟨g1, g2⟩ := h.flight t q' hq'
        refine ⟨by rw [hT]; exact g1, ?_⟩
        intro x hx hp hs
        rcases memH x hx with hx | rfl
        · exact g2 x hx hp hs
        · exact absurd (hi.same_thread_sid (regd_req hq') hq hs.symm) e
    · intro x hx hp
      rcases memH x hx with hx | rfl
      · obtain ⟨st', g1, go, g2⟩ := h.heldRec x hx hp
        obtain ⟨b, hb⟩ := ext _ _ g1
        refine ⟨_, hb, go, ?_⟩
        rw [crit', hT]; exact g2
      · refine ⟨_, hb₀, s2, Or.inl ?_⟩
        rw [hT]
        show (⟨st.handle, q.shared, q.start, q.stop⟩ : LockRec) ∈ tab pid p st.handle
        rw [s4]; exact f1
    · intro a r hm
      rw [hT] at hm
      rcases h.recWhy a r hm with ⟨t, q', g1, g2, g3⟩ | ⟨x, g1, g2, g3, st', g4, g5, g6⟩
      · by_cases e : t = tid
        · subst e
          rw [hqr] at g1
          cases g1
          refine Or.inr ⟨_, newH, rfl, ?_, _, hb₀, s2, ?_⟩
          · rw [← g3, ← g2]; rfl
          · rw [← g2]; exact s4
        · exact Or.inl ⟨t, q', by rw [thr t e]; exact g1, g2, g3⟩
      · obtain ⟨b, hb⟩ := ext _ _ g4
        exact Or.inr ⟨x, List.mem_append_left _ g1, g2, g3, _, hb, g5, g6⟩
    · intro y hy hp
      rcases List.mem_append.1 hy with hy | hy
      · rcases h.kernWhy y hy hp with ⟨x, g1, g2, g3, g4, g5, st', g6, g7, g8⟩ | ⟨a, s, len, hd, g1, g2, g3⟩
        · obtain ⟨b, hb⟩ := ext _ _ g6
          exact Or.inl ⟨x, List.mem_append_left _ g1, g2, g3, g4, g5, _, hb, g7, g8⟩
        · exact Or.inr ⟨a, s, len, hd, by rw [crit']; exact g1, by rw [tgt]; exact g2, g3⟩
      · rw [List.mem_singleton] at hy
        subst hy
        exact Or.inl ⟨_, newH, rfl, rfl, s5, hat, _, hb₀, s2, rfl⟩
    · intro a s len hm
      rw [crit'] at hm
      obtain ⟨hd, l, o, g1, g2, y, g3, g4⟩ := h.cun a s len hm
      exact ⟨hd, l, o, by rw [tgt]; exact g1, g2, y, List.mem_append_left _ g3, g4⟩
    · rw [crit']; exact h.cunApart
    · intro sid a f s len hm r hr
      rw [crit'] at hm; rw [hT] at hr
      exact h.unlk sid a f s len hm r hr
  · rw [kGrant, List.pairwise_append]
    refine ⟨hu, List.pairwise_singleton _ _, ?_⟩
    intro y hy z hz
    rw [List.mem_singleton] at hz
    subst hz
    rintro ⟨e1, e2, e3, e4⟩
    simp only at e1 e2 e3 e4
    rcases h.kernWhy y hy e1 with ⟨x, g1, g2, g3, g4, g5, st', g6, g7, g8⟩ | ⟨a, s, len, hd, g1, g2, g3, g4⟩
    · have hsid : x.sid = q.sid := by
        refine hi.distinct _ _ _ _ g6 s1 g7 s2 ?_
        exact hi.single _ (mem_of_target (hi.streams _ _ g6 g7)) _ (mem_of_target (hi.streams _ _ s1 s2)) (g8.trans e2)
      rw [e3, e4] at g5
      exact f2 x g1 g2 hsid (g5.inj hat)
    · have := hi.single _ (mem_of_target g2) _ (mem_of_target (hi.streams _ _ s1 s2)) (g3.trans e2)
      exact (hi.crit _ g1).2 _ _ s1 s2 this.symm

/-- `unlock_file` takes the registration back and is about to call the system. -/
theorem RInv.unlocking {pid n : Nat} {p : Proc} {k : KTable} {H : List Held} (h : RInv pid p k H) (hi : PInv n p)
    {sid : Nat} {st : Stream} (hst : p.streams sid = some st) (ho : st.isOpen = true) (hb : st.busy = none)
    (hc : p.crit = []) {l : Option Int} {s : Int} {r' : Registry} {b : Bool}
    (hr : p.reg.unregister pid (key st.handle) st.handle l s = (.ok b, r')) :
    RInv pid { p with reg := r', crit := [.unlock sid st.handle st.file s l] } k H := by
  obtain ⟨u1, u2⟩ := unregister_tab pid p.reg (key st.handle) st.handle l s
  rw [hr] at u1 u2
  generalize hp' : ({ p with reg := r', crit := [.unlock sid st.handle st.file s l] } : Proc) = p'
  have strm : p'.streams = p.streams := by rw [← hp']
  have thrd : p'.threads = p.threads := by rw [← hp']
  have tgt : ∀ a, p'.target a = p.target a := fun a => by rw [← hp']; rfl
  have crit' : p'.crit = [.unlock sid st.handle st.file s l] := by rw [← hp']
  have hT : ∀ a, tab pid p' a = if a = st.handle then
      (tab pid p a).eraseP (LockRec.matchesRange a s (newEnd s l)) else tab pid p a := by
    intro a
    show tableOf pid p'.reg (key a) = _
    rw [← hp']
    show tableOf pid r' (key a) = _
    rw [u2]
    by_cases e : a = st.handle
    · subst e; rw [if_pos rfl, if_pos rfl]; rfl
    · rw [if_neg (fun x => e (key_inj.1 x)), if_neg e]; rfl
  have mem : ∀ a r, r ∈ tab pid p' a ↔ r ∈ tab pid p a ∧ ¬ (a = st.handle ∧ r.start = s ∧ r.stop = newEnd s l) := by
    intro a r
    rw [hT]; split
    · rename_i e
      rw [h.mem_erase]
      exact ⟨fun g => ⟨g.1, fun z => g.2 z.2⟩, fun g => ⟨g.1, fun z => g.2 ⟨e, z⟩⟩⟩
    · rename_i e
      exact ⟨fun g => ⟨g, fun z => e z.1⟩, fun g => g.1⟩
  constructor
  · rw [← hp']; exact u1
  · intro a r hm
    rw [strm]; exact h.recs a r ((mem a r).1 hm).1
  · intro a
    rw [hT]; split
    · exact h.erase_apart _ _ _
    · exact h.apart a
  · intro t q' hq'
    rw [thrd] at hq'
    obtain ⟨g1, g2⟩ := h.flight t q' hq'
    refine ⟨(mem _ _).2 ⟨g1, fun z => ?_⟩, g2⟩
    obtain ⟨_, st', a1, a2, a3, a4, _⟩ := hi.threads t q' (regd_req hq')
    have := hi.distinct _ _ _ _ a1 hst a2 ho (a4.trans z.1)
    rw [this, hst] at a1
    cases a1
    rw [hb] at a3; cases a3
  · intro x hx hp
    obtain ⟨st', g1, go, g2⟩ := h.heldRec x hx hp
    rw [strm, crit']
    refine ⟨_, g1, go, ?_⟩
    rcases g2 with g2 | ⟨_, _, _, g3, _⟩
    · by_cases e : st'.handle = st.handle ∧ x.start = s ∧ x.stop = newEnd s l
      · obtain ⟨e1, e2, e3⟩ := e
        have := hi.distinct _ _ _ _ g1 hst go ho e1
        refine Or.inr ⟨st.handle, st.file, l, ?_, ?_⟩
        · rw [this, e2]; exact List.mem_cons_self
        · rw [e2, e3]
      · exact Or.inl ((mem _ _).2 ⟨g2, e⟩)
    · rw [hc] at g3; cases g3
  · intro a r hm
    rw [strm, thrd]; exact h.recWhy a r ((mem a r).1 hm).1
  · intro y hy hp
    rcases h.kernWhy y hy hp with ⟨x, g1, g2, g3, g4, g5, st', g6, g7⟩ | ⟨a, s, len, hd, g1, g2, g3⟩
    · exact Or.inl ⟨x, g1, g2, g3, g4, g5, st', by rw [strm]; exact g6, g7⟩
    · rw [hc] at g1; cases g1
  · intro a s len hm
    rw [crit', List.mem_singleton] at hm
    cases hm
  · rw [crit']; exact List.pairwise_singleton _ _
  · intro sid' a f s' len hm r hr hz
    rw [crit', List.mem_singleton] at hm
    cases hm
    exact ((mem _ r).1 hr).2 ⟨rfl, hz⟩

/-- The critical section of `unlock_file` ends, and nothing that is held waits for it. -/
theorem RInv.ended {pid : Nat} {p : Proc} {k k' : KTable} {H H' : List Held} (h : RInv pid p k H)
    (hm : ∀ m ∈ p.crit, ∀ a s len, m ≠ .cunlock a s len) (hk : ∀ y ∈ k', y ∈ k)
    (hH : ∀ x ∈ H', x ∈ H)
    (hheld : ∀ x ∈ H', x.pid = pid → ∀ a f len, Micro.unlock x.sid a f x.start len ∈ p.crit → newEnd x.start len ≠ x.stop)
    (hgone : ∀ x ∈ H, x.pid = pid → x ∉ H' →
      (∀ st, p.streams x.sid = some st → st.isOpen = true →
        (⟨st.handle, x.shared, x.start, x.stop⟩ : LockRec) ∉ tab pid p st.handle ∧
        ∀ y ∈ k', y.pid = pid → y.obj = st.obj → ¬ At x.start x.stop y.off y.len)) :
    RInv pid { p with crit := [] } k' H' := by
  constructor
  · exact h.own
  · exact h.recs
  · exact h.apart
  · intro t q hq
    exact ⟨(h.flight t q hq).1, fun x hx => (h.flight t q hq).2 x (hH x hx)⟩
  · intro x hx hp
    obtain ⟨st, g1, go, g2⟩ := h.heldRec x (hH x hx) hp
    refine ⟨st, g1, go, ?_⟩
    rcases g2 with g2 | ⟨a, f, len, g3, g4⟩
    · exact Or.inl g2
    · exact absurd g4 (hheld x hx hp a f len g3)
  · intro a r hr
    rcases h.recWhy a r hr with g | ⟨x, g1, g2, g3, st, g4, g5, g6⟩
    · exact Or.inl g
    · by_cases e : x ∈ H'
      · exact Or.inr ⟨x, e, g2, g3, st, g4, g5, g6⟩
      · refine absurd ?_ (hgone x g1 g2 e st g4 g5).1
        rw [g6, ← g3]; exact hr
  · intro y hy hp
    rcases h.kernWhy y (hk y hy) hp with ⟨x, g1, g2, g3, g4, g5, st, g6, g7, g8⟩ | ⟨a, s, len, hd, g1, _⟩
    · by_cases e : x ∈ H'
      · exact Or.inl ⟨x, e, g2, g3, g4, g5, st, g6, g7, g8⟩
      · exact absurd g5 ((hgone x g1 g2 e st g6 g7).2 y hy hp g8.symm)
    · exact absurd rfl (hm _ g1 a s len)
  · intro a s len hm'; cases hm'
  · exact List.Pairwise.nil
  · intro sid a f s len hm'; cases hm'

/-- `unlock_file` calls the system. -/
theorem RInv.micro_unlock {pid n : Nat} {p p' : Proc} {k k' : KTable} {H : List Held} {e : List Event}
    (h : RInv pid p k H) (hi : PInv n p) (hb : ∀ x ∈ H, x.pid = pid → BackedP pid p k x)
    (hu : k.Pairwise (fun a b => ¬ SamePlace a b)) {sid a : Nat} {f : Uid} {s : Int} {len : Option Int}
    {rest : List Micro} (hc : p.crit = .unlock sid a f s len :: rest)
    (hs : doMicro pid p k (.unlock sid a f s len) rest = (p', k', e)) :
    RInv pid p' k' (after H e) ∧ k'.Pairwise (fun a b => ¬ SamePlace a b) := by
  have hin : Micro.unlock sid a f s len ∈ p.crit := by rw [hc]; exact List.mem_cons_self
  obtain ⟨hlive, ⟨st, t1, t2, t3, t4⟩, len', hl, hfit⟩ := hi.crit _ hin
  have hrest : rest = [] := by have := hi.shape; rw [hc] at this; exact this
  subst hrest
  have noc : ∀ m ∈ p.crit, ∀ a s len, m ≠ .cunlock a s len := by
    intro m hm a' s' l'
    rw [hc, List.mem_singleton] at hm
    rw [hm]; nofun
  have htgt := hi.streams _ _ t1 t2
  rw [t3] at htgt
  -- what is held and waits for this call is at the place that the call releases
  have wait : ∀ x ∈ H, x.pid = pid → ∀ a' f' len₂, Micro.unlock x.sid a' f' x.start len₂ ∈ p.crit →
      newEnd x.start len₂ = x.stop → x.sid = sid ∧ x.start = s ∧ x.stop = newEnd s len := by
    intro x _ _ a' f' len₂ hm he
    rw [hc, List.mem_singleton] at hm
    cases hm
    exact ⟨rfl, rfl, he.symm⟩
  -- nothing changes unless the system releases a lock
  have fail : (∀ x ∈ H, x.pid = pid → ¬ (x.sid = sid ∧ x.start = s ∧ x.stop = newEnd s len)) →
      RInv pid { p with crit := [] } k H := by
    intro hn
    refine h.ended noc (fun _ g => g) (fun _ g => g) ?_ (fun x hx _ hnx => absurd hx hnx)
    intro x hx hp a' f' len₂ hm he
    exact hn x hx hp (wait x hx hp a' f' len₂ hm he)
  simp only [doMicro] at hs
  subst hl
  split at hs
  · rename_i hr
    cases hs
    refine ⟨fail ?_, hu⟩
    rintro x hx hp ⟨_, e2, e3⟩
    obtain ⟨_, _, _, _, y, _, _, _, _, _, hat⟩ := hb x hx hp
    have h0 := hat.nonneg
    rw [e2] at h0
    obtain ⟨l, o, g, _⟩ := osRange_fits hfit h0
    rw [g] at hr; cases hr
  · rename_i l o hr
    have hat := osRange_at hfit hr
    rw [htgt] at hs
    simp only at hs
    split at hs
    · rename_i hk
      cases hs
      refine ⟨fail ?_, hu⟩
      rintro x hx hp ⟨e1, e2, e3⟩
      obtain ⟨st', g1, _, _, y, g2, g3, g4, _, _, g5⟩ := hb x hx hp
      rw [e1, t1] at g1; cases g1
      rw [e2, e3] at g5
      obtain ⟨q1, q2⟩ := g5.uniq hat
      exact kUnlock_none hk g2 g3 g4 q1 q2
    · rename_i k₁ hk
      cases hs
      refine ⟨?_, hu.sublist (kUnlock_sublist hk)⟩
      have memH : ∀ x, x ∈ after H [.unlocked pid sid f s (newEnd s (len'.map Int.ofNat))] ↔
          x ∈ H ∧ ¬ (x.pid = pid ∧ x.sid = sid ∧ x.start = s ∧ x.stop = newEnd s (len'.map Int.ofNat)) := by
        intro x
        simp only [after, List.foldl_cons, List.foldl_nil, heldStep, List.mem_filter, decide_eq_true_eq]
      refine h.ended noc (fun y hy => (kUnlock_sublist hk).subset hy) (fun x hx => ((memH x).1 hx).1) ?_ ?_
      · intro x hx hp a' f' len₂ hm he
        exact ((memH x).1 hx).2 ⟨hp, wait x ((memH x).1 hx).1 hp a' f' len₂ hm he⟩
      · intro x hx hp hnx st' g1 g2
        have hz : x.sid = sid ∧ x.start = s ∧ x.stop = newEnd s (len'.map Int.ofNat) := by
          apply Classical.byContradiction
          intro hn
          exact hnx ((memH x).2 ⟨hx, fun z => hn z.2⟩)
        obtain ⟨e1, e2, e3⟩ := hz
        rw [e1, t1] at g1; cases g1
        refine ⟨?_, ?_⟩
        · intro hr'
          rw [t3] at hr'
          exact h.unlk _ _ _ _ _ hin _ hr' ⟨e2, e3⟩
        · intro y hy hyp hyo hya
          rw [e2, e3] at hya
          obtain ⟨q1, q2⟩ := hya.uniq hat
          exact kUnlock_gone hu hk hy hyp hyo q1 q2

/-- `close` releases one lock. -/
theorem RInv.micro_cunlock {pid n : Nat} {p p' : Proc} {k k' : KTable} {H : List Held} {e : List Event}
    (h : RInv pid p k H) (hi : PInv n p)
    (hu : k.Pairwise (fun a b => ¬ SamePlace a b)) {a : Nat} {s : Int} {len : Option Int}
    {rest : List Micro} (hc : p.crit = .cunlock a s len :: rest)
    (hs : doMicro pid p k (.cunlock a s len) rest = (p', k', e)) :
    RInv pid p' k' (after H e) ∧ k'.Pairwise (fun a b => ¬ SamePlace a b) ∧ p'.crit = rest := by
  have hin : Micro.cunlock a s len ∈ p.crit := by rw [hc]; exact List.mem_cons_self
  obtain ⟨hd, l, o, c1, c2, y₀, c3, c4, c5, c6, c7⟩ := h.cun a s len hin
  have sub : ∀ m ∈ rest, m ∈ p.crit := fun m hm => by rw [hc]; exact List.mem_cons_of_mem _ hm
  have hap := h.cunApart
  rw [hc, List.pairwise_cons] at hap
  simp only [doMicro, c1, c2] at hs
  split at hs
  · rename_i hk
    exact (kUnlock_none hk c3 c4 c5 c6 c7).elim
  · rename_i k₁ hk
    cases hs
    refine ⟨?_, hu.sublist (kUnlock_sublist hk), rfl⟩
    constructor
    · exact h.own
    · exact h.recs
    · exact h.apart
    · exact h.flight
    · intro x hx hp
      obtain ⟨st, g1, go, g2⟩ := h.heldRec x hx hp
      refine ⟨st, g1, go, ?_⟩
      rcases g2 with g2 | ⟨a', f, len', g3, g4⟩
      · exact Or.inl g2
      · refine Or.inr ⟨a', f, len', ?_, g4⟩
        rw [hc] at g3
        rcases List.mem_cons.1 g3 with g3 | g3
        · cases g3
        · exact g3
    · exact h.recWhy
    · intro y hy hp
      rcases h.kernWhy y ((kUnlock_sublist hk).subset hy) hp with g | ⟨a', s', len', hd', g1, g2, g3, g4⟩
      · exact Or.inl g
      · rw [hc] at g1
        rcases List.mem_cons.1 g1 with g1 | g1
        · cases g1
          rw [c1] at g2; cases g2
          rw [c2] at g4
          cases g4
          exact (kUnlock_gone hu hk hy hp g3.symm rfl rfl).elim
        · exact Or.inr ⟨a', s', len', hd', g1, g2, g3, g4⟩
    · intro a' s' len' hm
      obtain ⟨hd', l', o', g1, g2, y, g3, g4, g5, g6, g7⟩ := h.cun a' s' len' (sub _ hm)
      refine ⟨hd', l', o', g1, g2, y, kUnlock_keeps hk g3 (isAt_false ?_), g4, g5, g6, g7⟩
      rintro ⟨_, _, z1, z2⟩
      apply hap.1 _ hm a s len a' s' len' rfl rfl
      rw [c2, g2, ← z1, ← z2, g6, g7]
    · exact hap.2
    · intro sid a' f s' len' hm
      exact h.unlk sid a' f s' len' (sub _ hm)

/-- A handle without stream is closed: its file object has no locks. -/
theorem RInv.drop {pid n : Nat} {p : Proc} {k : KTable} {H : List Held} (h : RInv pid p k H) (hi : PInv n p)
    {a : Nat} {hd : Handle} (ha : p.target a = some hd)
    (hu : ∀ sid st, p.streams sid = some st → st.isOpen = true → st.handle ≠ a)
    (hc : ∀ s len, Micro.cunlock a s len ∉ p.crit) (y : KLock) (hp : y.pid = pid) :
    y ∈ kDrop k pid hd.obj ↔ y ∈ k := by
  unfold kDrop
  rw [List.mem_filter]
  refine ⟨fun g => g.1, fun g => ⟨g, ?_⟩⟩
  have := h.no_lock hi ha hu hc g hp
  simp [this]

/-- `close` closes the handle. -/
theorem RInv.micro_close {pid n : Nat} {p p' : Proc} {k k' : KTable} {H : List Held} {e : List Event}
    (h : RInv pid p k H) (hi : PInv n p)
    (hu : k.Pairwise (fun a b => ¬ SamePlace a b)) {a : Nat} {rest : List Micro} (hc : p.crit = .cclose a :: rest)
    (hs : doMicro pid p k (.cclose a) rest = (p', k', e)) :
    RInv pid p' k' (after H e) ∧ k'.Pairwise (fun a b => ¬ SamePlace a b) := by
  have hin : Micro.cclose a ∈ p.crit := by rw [hc]; exact List.mem_cons_self
  obtain ⟨hlive, hno⟩ := hi.crit _ hin
  have hrest : rest = [] := by have := hi.shape; rw [hc] at this; exact this
  subst hrest
  have noc : ∀ m ∈ p.crit, ∀ a s len, m ≠ .cunlock a s len := by
    intro m hm a' s' l'
    rw [hc, List.mem_singleton] at hm
    rw [hm]; nofun
  simp only [doMicro] at hs
  cases ha : p.target a with
  | none => exact absurd ha hlive
  | some hd =>
    rw [ha] at hs
    simp only at hs
    rw [hi.closeHandle ha] at hs
    cases hs
    refine ⟨?_, hu.sublist (kDrop_sublist _ _ _)⟩
    have hd' := h.drop hi ha hno (fun s len hm => noc _ hm a s len rfl)
    have h1 : RInv pid { p with crit := [] } k H := by
      refine h.ended noc (fun _ g => g) (fun _ g => g) ?_ (fun x hx _ hnx => absurd hx hnx)
      intro x hx hp a' f' len hm he
      rw [hc, List.mem_singleton] at hm
      cases hm
    refine h1.frame h.own (fun _ => rfl) (fun _ => rfl) (fun sid st g => ⟨st.busy, g⟩) rfl (fun m hm => by cases hm) hd'
      (fun x _ => ?_)
    exact Iff.rfl

/-- `close` begins. -/
theorem RInv.closing {pid n : Nat} {p : Proc} {k : KTable} {H : List Held} (h : RInv pid p k H) (hi : PInv n p)
    (hb : ∀ x ∈ H, x.pid = pid → BackedP pid p k x) {sid : Nat} {st : Stream} (hst : p.streams sid = some st)
    (ho : st.isOpen = true) (hbusy : st.busy = none) (hc : p.crit = []) :
    RInv pid (closeStream pid p k sid st).1 k (after H (closeStream pid p k sid st).2.2) := by
  obtain ⟨v1, v2, v3, _⟩ := removeFileLocks_view pid p.reg (key st.handle) st.handle
  have htgt := hi.streams _ _ hst ho
  generalize hp' : (closeStream pid p k sid st).1 = p'
  have memH : ∀ x, x ∈ after H (closeStream pid p k sid st).2.2 ↔ x ∈ H ∧ ¬ (x.pid = pid ∧ x.sid = sid) := by
    intro x
    simp only [closeStream, after, List.foldl_cons, List.foldl_nil, heldStep, List.mem_filter, decide_eq_true_eq]
  have thrd : p'.threads = p.threads := by rw [← hp']; rfl
  have tgt : ∀ a, p'.target a = p.target a := fun a => by rw [← hp']; rfl
  have strm : ∀ s, s ≠ sid → p'.streams s = p.streams s := fun s e => by rw [← hp']; exact updMap_other _ _ e
  have all : (tab pid p st.handle).filter (fun x => x.handle = st.handle) = tab pid p st.handle := by
    rw [List.filter_eq_self]
    intro r hr
    simp [(h.recs _ r hr).1]
  have hT : ∀ a, tab pid p' a = if a = st.handle then [] else tab pid p a := by
    intro a
    show tableOf pid p'.reg (key a) = _
    rw [← hp']
    show tableOf pid (p.reg.removeFileLocks pid (key st.handle) st.handle).2 (key a) = _
    rw [v3]
    by_cases e : a = st.handle
    · subst e
      rw [if_pos rfl, if_pos rfl, List.filter_eq_nil_iff]
      intro r hr
      have := (h.recs _ r hr).1
      simp [this]
    · rw [if_neg (fun x => e (key_inj.1 x)), if_neg e]; rfl
  have critm : p'.crit = (tab pid p st.handle).map
      (fun x => Micro.cunlock st.handle x.start (x.stop.map (fun t => t - x.start))) ++
        (if st.closefd then [.cclose st.handle] else []) := by
    rw [← hp']
    show (p.reg.removeFileLocks pid (key st.handle) st.handle).1.map _ ++ _ = _
    rw [v1]
    show ((tab pid p st.handle).filter (fun x => x.handle = st.handle)).map _ ++ _ = _
    rw [all]
  have cmem : ∀ a s len, Micro.cunlock a s len ∈ p'.crit ↔ a = st.handle ∧
      ∃ r ∈ tab pid p st.handle, s = r.start ∧ len = r.stop.map (fun t => t - r.start) := by
    intro a s len
    rw [critm, List.mem_append, List.mem_map]
    constructor
    · rintro (⟨r, hr, e⟩ | hm)
      · cases e; exact ⟨rfl, r, hr, rfl, rfl⟩
      · split at hm
        · rw [List.mem_singleton] at hm; cases hm
        · cases hm
    · rintro ⟨rfl, r, hr, rfl, rfl⟩
      exact Or.inl ⟨r, hr, rfl⟩
  have nounl : ∀ s a f x len, Micro.unlock s a f x len ∉ p'.crit := by
    intro s a f x len hm
    rw [critm, List.mem_append, List.mem_map] at hm
    rcases hm with ⟨r, _, e⟩ | hm
    · cases e
    · split at hm
      · rw [List.mem_singleton] at hm; cases hm
      · cases hm
  -- the kernel locks behind the registered ones
  have back : ∀ r ∈ tab pid p st.handle, ∃ y ∈ k, y.pid = pid ∧ y.obj = st.obj ∧ At r.start r.stop y.off y.len := by
    intro r hr
    obtain ⟨x, g1, g2, g3, g4⟩ := h.rec_held hi hst ho hbusy hr
    obtain ⟨st', f1, _, _, y, f2, f3, f4, _, _, f5⟩ := hb x g1 g2
    rw [g3, hst] at f1; cases f1
    rw [g4]
    exact ⟨y, f2, f3, f4, f5⟩
  have none_flies : ∀ t q, (p.threads t).regd = some q → q.handle ≠ st.handle := by
    intro t q hq e
    obtain ⟨_, st', a1, a2, a3, a4, _⟩ := hi.threads t q (regd_req hq)
    have := hi.distinct _ _ _ _ a1 hst a2 ho (a4.trans e)
    rw [this, hst] at a1
    cases a1
    rw [hbusy] at a3; cases a3
  have other : ∀ s st', p.streams s = some st' → st'.isOpen = true → st'.handle ≠ st.handle → s ≠ sid := by
    rintro s st' g1 _ g3 rfl
    rw [hst] at g1; cases g1
    exact g3 rfl
  constructor
  · rw [← hp']; exact v2
  · intro a r hm
    rw [hT] at hm; split at hm
    · cases hm
    · rename_i ne
      obtain ⟨g1, g2, s, st', g3, g4, g5⟩ := h.recs a r hm
      exact ⟨g1, g2, s, st', by rw [strm s (other s st' g3 g4 (by rw [g5]; exact ne))]; exact g3, g4, g5⟩
  · intro a
    rw [hT]; split
    · exact List.Pairwise.nil
    · exact h.apart a
  · intro t q hq
    rw [thrd] at hq
    obtain ⟨g1, g2⟩ := h.flight t q hq
    rw [hT, if_neg (none_flies t q hq)]
    exact ⟨g1, fun x hx => g2 x ((memH x).1 hx).1⟩
  · intro x hx hp
    obtain ⟨hx, hn⟩ := (memH x).1 hx
    obtain ⟨st', g1, go, g2⟩ := h.heldRec x hx hp
    have hne : x.sid ≠ sid := fun e => hn ⟨hp, e⟩
    refine ⟨st', by rw [strm _ hne]; exact g1, go, ?_⟩
    rcases g2 with g2 | ⟨_, _, _, g3, _⟩
    · rw [hT, if_neg (fun e => hne (hi.distinct _ _ _ _ g1 hst go ho e))]
      exact Or.inl g2
    · rw [hc] at g3; cases g3
  · intro a r hm
    rw [hT] at hm; split at hm
    · cases hm
    · rename_i ne
      rcases h.recWhy a r hm with g | ⟨x, g1, g2, g3, st', g4, g5, g6⟩
      · rw [thrd]; exact Or.inl g
      · have hne := other x.sid st' g4 g5 (by rw [g6]; exact ne)
        exact Or.inr ⟨x, (memH x).2 ⟨g1, fun z => hne z.2⟩, g2, g3, st', by rw [strm _ hne]; exact g4, g5, g6⟩
  · intro y hy hp
    rcases h.kernWhy y hy hp with ⟨x, g1, g2, g3, g4, g5, st', g6, g7, g8⟩ | ⟨_, _, _, _, g1, _⟩
    · by_cases e : x.sid = sid
      · rw [e, hst] at g6; cases g6
        obtain ⟨st', f1, _, f2⟩ := h.heldRec x g1 g2
        rw [e, hst] at f1; cases f1
        rcases f2 with f2 | ⟨_, _, _, f3, _⟩
        · exact Or.inr ⟨st.handle, x.start, x.stop.map (fun t => t - x.start), ⟨st.obj, st.file⟩,
            (cmem _ _ _).2 ⟨rfl, _, f2, rfl, rfl⟩, by rw [tgt]; exact htgt, g8, osRange_stop g5⟩
        · rw [hc] at f3; cases f3
      · exact Or.inl ⟨x, (memH x).2 ⟨g1, fun z => e z.2⟩, g2, g3, g4, g5, st', by rw [strm _ e]; exact g6, g7, g8⟩
    · rw [hc] at g1; cases g1
  · intro a s len hm
    obtain ⟨rfl, r, hr, rfl, rfl⟩ := (cmem a s len).1 hm
    obtain ⟨y, f1, f2, f3, f4⟩ := back r hr
    exact ⟨⟨st.obj, st.file⟩, y.len, y.off, by rw [tgt]; exact htgt, osRange_stop f4, y, f1, f2, f3, rfl, rfl⟩
  · rw [critm, List.pairwise_append, List.pairwise_map]
    refine ⟨?_, ?_, ?_⟩
    · refine (h.apart st.handle).imp_of_mem ?_
      intro r r' hr hr' hn a s len a' s' len' e e' hz
      cases e; cases e'
      obtain ⟨y, _, _, _, f4⟩ := back r hr
      obtain ⟨y', _, _, _, f4'⟩ := back r' hr'
      rw [osRange_stop f4, osRange_stop f4', Option.some.injEq, Prod.mk.injEq] at hz
      rw [hz.1, hz.2] at f4
      obtain ⟨z1, z2⟩ := f4.inj f4'
      apply hn
      rw [← z1, ← z2]
      exact (h.recs _ r hr).2.1.meet
    · split
      · exact List.pairwise_singleton _ _
      · exact List.Pairwise.nil
    · intro m _ m' hm' a s len a' s' len' _ e'
      split at hm'
      · rw [List.mem_singleton] at hm'; subst hm'; cases e'
      · cases hm'
  · intro s a f x len hm
    exact absurd hm (nounl s a f x len)

end Verif.Win
