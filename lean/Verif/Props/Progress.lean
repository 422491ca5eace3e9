import Verif.Model.Forking
import Verif.Lemmas.Registry

/-!
# C102: nobody waits for ever for the registry

The calls that release locks, and those with a timeout, complete by actions of their own process, from every state.
-/

set_option autoImplicit false

namespace Verif.Props

open Verif Verif.Spec

/-! ## What the owner of the mutex has still to do -/

/-- The descriptors that wait to be closed. -/
def pend (r : Registry) (u : Uid) : Nat :=
  match r.entries u with
  | none => 0
  | some e => e.data.length

def purges : List Micro → Nat
  | [] => 0
  | .purge _ :: rest => 1 + purges rest
  | _ :: rest => purges rest

/-- A bound on the actions to come. -/
def cost (r : Registry) : List Micro → Nat
  | [] => 0
  | .purge u :: rest => 1 + pend r u + cost r rest
  | .addData _ _ :: rest => 1 + purges rest + cost r rest
  | _ :: rest => 1 + cost r rest

theorem cost_mono {r r' : Registry} (h : ∀ u, pend r' u ≤ pend r u) (c : List Micro) : cost r' c ≤ cost r c := by
  induction c with
  | nil => exact Nat.le_refl _
  | cons m c ih =>
    cases m with
    | purge u => have := h u; simp only [cost]; omega
    | _ => simp only [cost]; omega

theorem cost_add {r r' : Registry} (h : ∀ u, pend r' u ≤ pend r u + 1) (c : List Micro) : cost r' c ≤ cost r c + purges c := by
  induction c with
  | nil => exact Nat.le_refl _
  | cons m c ih =>
    cases m with
    | purge u => have := h u; simp only [cost, purges]; omega
    | _ => simp only [cost, purges]; omega

theorem cost_ncloses (r : Registry) (l : List Nat) (c : List Micro) : cost r (l.map .nclose ++ c) = l.length + cost r c := by
  induction l with
  | nil => simp
  | cons a l ih => simp only [List.map_cons, List.cons_append, cost, ih, List.length_cons]; omega

theorem pend_checkForking (pid : Nat) (r : Registry) (u : Uid) : pend (r.checkForking pid) u ≤ pend r u := by
  unfold Registry.checkForking
  split
  · exact Nat.zero_le _
  · exact Nat.le_refl _

theorem pend_set (r : Registry) (v : Uid) (e : Entry) (u : Uid) :
    pend (r.set v e) u = if u = v then e.data.length else pend r u := by
  unfold pend Registry.set
  dsimp only
  by_cases h : u = v
  · subst h; simp
  · rw [updMap_other _ _ h, if_neg h]

theorem pend_hasLocks (pid : Nat) (r : Registry) (v u : Uid) : pend (r.hasLocks pid v).2 u ≤ pend r u := by
  have := pend_checkForking pid r u
  unfold Registry.hasLocks
  dsimp only
  split <;> exact this

theorem pend_removeData (pid : Nat) (r : Registry) (v u : Uid) : pend (r.removeData pid v).2 u ≤ pend r u := by
  have := pend_checkForking pid r u
  unfold Registry.removeData
  dsimp only
  split
  · exact this
  · dsimp only
    rw [pend_set]
    split
    · exact Nat.zero_le _
    · exact this

theorem length_removeData (pid : Nat) (r : Registry) (v : Uid) : (r.removeData pid v).1.length ≤ pend r v := by
  have := pend_checkForking pid r v
  unfold Registry.removeData
  dsimp only
  unfold pend at this ⊢
  split
  · exact Nat.zero_le _
  · rename_i e he
    rw [he] at this
    exact this

theorem pend_addData {pid : Nat} {r r' : Registry} {v : Uid} {fd : Nat} {x : Except Exn Unit} (h : r.addData pid v fd = (x, r'))
    (u : Uid) : pend r' u ≤ pend r u + 1 := by
  have := pend_checkForking pid r u
  unfold Registry.addData at h
  split at h
  · cases h; omega
  · cases h
    rw [pend_set]
    split
    · rename_i hu
      subst hu
      unfold Registry.getOrCreate
      split
      · rename_i e he
        have h2 : pend (r.checkForking pid) u = e.data.length := by unfold pend; rw [he]
        simp only [List.length_append, List.length_singleton]
        omega
      · simp [Entry.empty]
    · omega

theorem pend_tryDelete (pid : Nat) (r : Registry) (v u : Uid) : pend (r.tryDeleteEntry pid v).2 u ≤ pend r u := by
  have := pend_checkForking pid r u
  unfold Registry.tryDeleteEntry
  dsimp only
  split
  · exact this
  · split
    · exact this
    · unfold pend Registry.del
      dsimp only
      by_cases h : u = v
      · subst h; simp
      · rw [updMap_other _ _ h]
        exact this

/-- Every action of the owner brings the end nearer, and changes neither streams nor threads. -/
theorem doMicro_cost (pid : Nat) (p : Proc) (k : KTable) (m : Micro) (rest : List Micro) (hc : p.crit = m :: rest) :
    cost (doMicro pid p k m rest).1.reg (doMicro pid p k m rest).1.crit < cost p.reg p.crit ∧
    (doMicro pid p k m rest).1.streams = p.streams ∧ (doMicro pid p k m rest).1.threads = p.threads ∧
    (doMicro pid p k m rest).1.alive = p.alive := by
  rw [hc]
  cases m with
  | kunlock fd u s len =>
    unfold doMicro
    dsimp only
    split <;> exact ⟨by simp only [cost]; omega, rfl, rfl, rfl⟩
  | nclose fd =>
    unfold doMicro
    dsimp only
    split <;> exact ⟨by simp only [cost]; omega, rfl, rfl, rfl⟩
  | delEntry u =>
    have := cost_mono (pend_tryDelete pid p.reg u) rest
    exact ⟨by simp only [cost, doMicro]; omega, rfl, rfl, rfl⟩
  | addData u fd =>
    unfold doMicro
    dsimp only
    split
    · exact ⟨by simp only [cost]; omega, rfl, rfl, rfl⟩
    · rename_i h
      have := cost_add (pend_addData h) rest
      exact ⟨by simp only [cost]; omega, rfl, rfl, rfl⟩
  | purge u =>
    unfold doMicro
    dsimp only
    have h1 := cost_mono (pend_hasLocks pid p.reg u) rest
    split
    · exact ⟨by simp only [cost]; omega, rfl, rfl, rfl⟩
    · have h2 := cost_mono (pend_removeData pid (p.reg.hasLocks pid u).2 u) rest
      have h3 := length_removeData pid (p.reg.hasLocks pid u).2 u
      have h4 := pend_hasLocks pid p.reg u u
      refine ⟨?_, rfl, rfl, rfl⟩
      dsimp only
      rw [cost_ncloses]
      simp only [cost]
      omega

/-! ## Whatever the others do -/

theorem release_keeps (p : Proc) (s : Nat) : (p.release s).reg = p.reg ∧ (p.release s).crit = p.crit ∧
    (p.release s).threads = p.threads ∧ (p.release s).alive = p.alive := by
  unfold Proc.release
  split <;> exact ⟨rfl, rfl, rfl, rfl⟩

theorem failLock_keeps (pid : Nat) (p : Proc) (k : KTable) (t : Nat) (q : Req) :
    (failLock pid p k t q).1.reg = p.reg ∧ (failLock pid p k t q).1.crit = p.crit ∧
    (failLock pid p k t q).1.threads = updMap p.threads t .idle ∧ (failLock pid p k t q).1.alive = p.alive := by
  unfold failLock
  obtain ⟨h1, h2, h3, h4⟩ := release_keeps (p.setPC t .idle) q.sid
  exact ⟨h1, h2, h3, h4⟩

theorem grant_keeps (pid : Nat) (p : Proc) (k : KTable) (t : Nat) (q : Req) :
    (grant pid p k t q).1.reg = p.reg ∧ (grant pid p k t q).1.crit = p.crit ∧
    (grant pid p k t q).1.threads = updMap p.threads t .idle ∧ (grant pid p k t q).1.alive = p.alive := by
  unfold grant
  obtain ⟨h1, h2, h3, h4⟩ := release_keeps (p.setPC t .idle) q.sid
  exact ⟨h1, h2, h3, h4⟩

/-- While the mutex is owned, only its owner changes the registry and what remains to be done. -/
theorem stepProc_held {pid : Nat} {p p' : Proc} {k k' : KTable} {e : List Event} {l : PLabel}
    (h : stepProc pid p k l = some (p', k', e)) (hc : p.crit ≠ []) (hl : l ≠ .micro) : p'.reg = p.reg ∧ p'.crit = p.crit := by
  cases l with
  | micro => exact absurd rfl hl
  | osOpen fd uid =>
    simp only [stepProc] at h
    split at h <;> cases h
    exact ⟨rfl, rfl⟩
  | openS sid fd uid =>
    simp only [stepProc] at h
    split at h <;> cases h
    exact ⟨rfl, rfl⟩
  | wrapS sid fd cf =>
    simp only [stepProc] at h
    split at h
    · cases h
    · split at h <;> cases h
      exact ⟨rfl, rfl⟩
  | lockCall tid sid len start shared llb =>
    simp only [stepProc] at h
    split at h
    · split at h <;> cases h
      exact ⟨rfl, rfl⟩
    · cases h
  | kern tid =>
    simp only [stepProc] at h
    split at h
    · rename_i q _
      repeat' split at h
      all_goals first | (cases h; done) | (cases h; exact ⟨rfl, rfl⟩) | skip
      have := grant_keeps pid p k tid q
      rw [Option.some.inj h] at this
      exact ⟨this.1, this.2.1⟩
    · cases h
  | kernErr tid => simp only [stepProc] at h; split at h <;> cases h; exact ⟨rfl, rfl⟩
  | kernExc tid => simp only [stepProc] at h; split at h <;> cases h; exact ⟨rfl, rfl⟩
  | kernIntr tid =>
    simp only [stepProc] at h
    split at h
    · split at h <;> cases h
      exact ⟨rfl, rfl⟩
    · cases h
  | retry tid => simp only [stepProc] at h; split at h <;> cases h <;> exact ⟨rfl, rfl⟩
  | expire tid =>
    simp only [stepProc] at h
    split at h
    · rename_i q _
      split at h
      · cases h
      · have := failLock_keeps pid p k tid q
        rw [Option.some.inj h] at this
        exact ⟨this.1, this.2.1⟩
    · split at h <;> cases h
      exact ⟨rfl, rfl⟩
    · cases h
  | reg tid =>
    simp only [stepProc] at h
    split at h
    · rename_i hq; exact absurd hq hc
    · cases h
  | wake tid =>
    simp only [stepProc] at h
    split at h
    · rename_i hq; exact absurd hq hc
    · cases h
  | unwind tid =>
    simp only [stepProc] at h
    split at h
    · rename_i hq; exact absurd hq hc
    · cases h
  | unlock sid len start =>
    simp only [stepProc] at h
    split at h
    · rename_i hq; exact absurd hq hc
    · cases h
  | close sid =>
    simp only [stepProc] at h
    split at h
    · rename_i hq; exact absurd hq hc
    · cases h

/-- An action of a process. -/
theorem fstep_act {f f' : Forest} {pid : Nat} {l : PLabel} {e : List Event} (h : fstep f (.act pid l) = some (f', e)) :
    ∃ p p' k', f.world.procs pid = some p ∧ p.alive = true ∧ (f.stuck pid && p.takesMutex l) = false ∧
      stepProc pid p f.world.kern l = some (p', k', e) ∧ f' = ⟨⟨updMap f.world.procs pid (some p'), k'⟩, f.stuck⟩ := by
  simp only [fstep] at h
  split at h
  · cases h
  · rename_i p hp
    split at h
    · cases h
    · rename_i hm
      simp only [step, hp] at h
      split at h
      · rename_i w e' hs
        split at hs
        · rename_i ha
          split at hs
          · rename_i p' k' e'' hq
            cases hs
            cases h
            exact ⟨p, p', k', hp, ha, by simpa using hm, hq, rfl⟩
          · cases hs
        · cases hs
      · cases h

theorem fstep_act_of {f : Forest} {pid : Nat} {l : PLabel} {e : List Event} {p p' : Proc} {k' : KTable}
    (hp : f.world.procs pid = some p) (ha : p.alive = true) (hm : (f.stuck pid && p.takesMutex l) = false)
    (hs : stepProc pid p f.world.kern l = some (p', k', e)) :
    fstep f (.act pid l) = some (⟨⟨updMap f.world.procs pid (some p'), k'⟩, f.stuck⟩, e) := by
  simp only [fstep, hp, hm, step, ha, hs]
  simp

/-- The state after an action of the process. -/
def _root_.Verif.Forest.put (f : Forest) (pid : Nat) (p : Proc) (k : KTable) : Forest :=
  ⟨⟨updMap f.world.procs pid (some p), k⟩, f.stuck⟩

theorem put_procs (f : Forest) (pid : Nat) (p : Proc) (k : KTable) : (f.put pid p k).world.procs pid = some p := by
  simp [Forest.put]

/-- Another action. -/
theorem fstep_other {f f' : Forest} {pid : Nat} {l : Label} {e : List Event} {p : Proc} (h : fstep f l = some (f', e))
    (hp : f.world.procs pid = some p) (hl : ∀ l', l ≠ .act pid l') :
    ∃ p', f'.world.procs pid = some p' ∧ p'.reg = p.reg ∧ p'.crit = p.crit := by
  cases l with
  | act pid' l' =>
    have hne : pid ≠ pid' := by rintro rfl; exact hl l' rfl
    obtain ⟨_, _, _, _, _, _, _, rfl⟩ := fstep_act h
    exact ⟨p, by dsimp only; rw [updMap_other _ _ hne]; exact hp, rfl, rfl⟩
  | newProc pid' =>
    simp only [fstep, step] at h
    cases hq : f.world.procs pid' with
    | some _ => rw [hq] at h; cases h
    | none =>
      rw [hq] at h
      cases h
      have hne : pid ≠ pid' := by rintro rfl; rw [hp] at hq; cases hq
      exact ⟨p, by dsimp only; rw [updMap_other _ _ hne]; exact hp, rfl, rfl⟩
  | fork parent child =>
    simp only [fstep, step] at h
    cases hq : f.world.procs parent with
    | none => rw [hq] at h; cases h
    | some p0 =>
      rw [hq] at h
      dsimp only at h
      cases hc : f.world.procs child with
      | some _ => rw [hc] at h; cases h
      | none =>
        rw [hc] at h
        dsimp only at h
        have hne : pid ≠ child := by rintro rfl; rw [hp] at hc; cases hc
        split at h
        · rename_i heq
          split at heq <;> cases heq
          cases h
          exact ⟨p, by dsimp only; rw [updMap_other _ _ hne]; exact hp, rfl, rfl⟩
        · cases h
  | exit pid' =>
    simp only [fstep, step] at h
    cases hq : f.world.procs pid' with
    | none => rw [hq] at h; cases h
    | some p0 =>
      rw [hq] at h
      dsimp only at h
      split at h
      · rename_i heq
        split at heq <;> cases heq
        cases h
        by_cases he : pid = pid'
        · subst he
          rw [hp] at hq
          cases hq
          exact ⟨{ p with alive := false }, by dsimp only; rw [updMap_same], rfl, rfl⟩
        · exact ⟨p, by dsimp only; rw [updMap_other _ _ he]; exact hp, rfl, rfl⟩
      · cases h

/-- The mutex of the process is owned before each of the actions. -/
def HeldThrough (pid : Nat) (f : Forest) (ls : List Label) : Prop :=
  ∀ ls1 l ls2 f1 e p, ls = ls1 ++ l :: ls2 → frun f ls1 = some (f1, e) → f1.world.procs pid = some p → p.crit ≠ []

theorem HeldThrough.tail {pid : Nat} {f f1 : Forest} {l : Label} {ls : List Label} {e : List Event}
    (h : HeldThrough pid f (l :: ls)) (hs : fstep f l = some (f1, e)) : HeldThrough pid f1 ls := by
  intro ls1 l' ls2 f2 e2 p hls hr hp
  refine h (l :: ls1) l' ls2 f2 (e ++ e2) p (by rw [hls]; rfl) ?_ hp
  simp only [frun, hs, hr]

/-- C102: the owner of the registry mutex can always go on. -/
theorem C102_owner (f : Forest) (pid : Nat) (p : Proc) (hp : f.world.procs pid = some p) (ha : p.alive = true)
    (hc : p.crit ≠ []) : (fstep f (.act pid .micro)).isSome = true := by
  cases hq : p.crit with
  | nil => exact absurd hq hc
  | cons m rest =>
    rw [fstep_act_of (p' := (doMicro pid p f.world.kern m rest).1) (k' := (doMicro pid p f.world.kern m rest).2.1)
      (e := (doMicro pid p f.world.kern m rest).2.2) hp ha (by simp [Proc.takesMutex]) (by simp [stepProc, hq])]
    rfl

/-- C102: from every state, in every execution, whatever other threads and processes do: the owner of the registry mutex releases
it after a bounded number of its actions. -/
theorem C102_release (f : Forest) (pid : Nat) (p : Proc) (hp : f.world.procs pid = some p) :
    ∃ N, ∀ ls f' e, frun f ls = some (f', e) → HeldThrough pid f ls → ls.count (.act pid .micro) ≤ N := by
  refine ⟨cost p.reg p.crit, ?_⟩
  intro ls
  induction ls generalizing f p with
  | nil => intro _ _ _ _; exact Nat.zero_le _
  | cons l ls ih =>
    intro f' e h hh
    have hc := hh [] l ls f [] p rfl rfl hp
    simp only [frun] at h
    split at h
    · cases h
    · rename_i f1 e1 h1
      split at h
      · cases h
      · rename_i f2 e2 h2
        by_cases hm : l = .act pid .micro
        · subst hm
          rw [List.count_cons_self]
          obtain ⟨p0, p', k', g1, g2, g3, g4, rfl⟩ := fstep_act h1
          rw [hp] at g1
          cases g1
          simp only [stepProc] at g4
          split at g4
          · rename_i m rest hq
            have hd := doMicro_cost pid p f.world.kern m rest hq
            rw [Option.some.inj g4] at hd
            have := ih _ p' (by simp) _ _ h2 (hh.tail h1)
            have := hd.1
            dsimp only at this
            omega
          · cases g4
        · rw [List.count_cons_of_ne hm]
          by_cases hl : ∃ l', l = .act pid l'
          · obtain ⟨l', rfl⟩ := hl
            obtain ⟨p0, p', k', g1, g2, g3, g4, rfl⟩ := fstep_act h1
            rw [hp] at g1
            cases g1
            obtain ⟨k1, k2⟩ := stepProc_held g4 hc (by rintro rfl; exact hm rfl)
            rw [← k1, ← k2]
            exact ih _ p' (by simp) _ _ h2 (hh.tail h1)
          · obtain ⟨p', g1, g2, g3⟩ := fstep_other h1 hp (fun l' hx => hl ⟨l', hx⟩)
            rw [← g2, ← g3]
            exact ih _ p' g1 _ _ h2 (hh.tail h1)

/-! ## Calls complete -/

theorem frun_append {f f1 f2 : Forest} {l1 l2 : List Label} {e1 e2 : List Event} (h1 : frun f l1 = some (f1, e1))
    (h2 : frun f1 l2 = some (f2, e2)) : frun f (l1 ++ l2) = some (f2, e1 ++ e2) := by
  induction l1 generalizing f e1 with
  | nil => cases h1; exact h2
  | cons l l1 ih =>
    simp only [frun] at h1
    split at h1
    · cases h1
    · rename_i g e hs
      split at h1
      · cases h1
      · rename_i g' e' hr
        cases h1
        simp only [List.cons_append, frun, hs, ih hr, List.append_assoc]

theorem frun_one {f f' : Forest} {l : Label} {e : List Event} (h : fstep f l = some (f', e)) : frun f [l] = some (f', e) := by
  simp [frun, h]

/-- The owner finishes. -/
theorem drain (pid : Nat) (n : Nat) : ∀ (f : Forest) (p : Proc), f.world.procs pid = some p → p.alive = true →
    cost p.reg p.crit ≤ n → ∃ ls f' e p', (∀ l ∈ ls, l = .act pid .micro) ∧ frun f ls = some (f', e) ∧
      f'.world.procs pid = some p' ∧ p'.crit = [] ∧ p'.alive = true ∧ p'.streams = p.streams ∧ p'.threads = p.threads ∧
      f'.stuck = f.stuck := by
  induction n with
  | zero =>
    intro f p hp ha hn
    refine ⟨[], f, [], p, by simp, rfl, hp, ?_, ha, rfl, rfl, rfl⟩
    cases hq : p.crit with
    | nil => rfl
    | cons m rest => rw [hq] at hn; cases m <;> simp only [cost] at hn <;> omega
  | succ n ih =>
    intro f p hp ha hn
    cases hq : p.crit with
    | nil => exact ⟨[], f, [], p, by simp, rfl, hp, hq, ha, rfl, rfl, rfl⟩
    | cons m rest =>
      obtain ⟨d1, d2, d3, d4⟩ := doMicro_cost pid p f.world.kern m rest hq
      have hs := fstep_act_of (p' := (doMicro pid p f.world.kern m rest).1) (k' := (doMicro pid p f.world.kern m rest).2.1)
        (e := (doMicro pid p f.world.kern m rest).2.2) (l := .micro) hp ha (by simp [Proc.takesMutex]) (by simp [stepProc, hq])
      obtain ⟨ls, f', e, p', g1, g2, g3, g4, g5, g6, g7, g8⟩ := ih (f.put pid (doMicro pid p f.world.kern m rest).1 (doMicro pid p f.world.kern m rest).2.1)
        (doMicro pid p f.world.kern m rest).1 (put_procs ..) (d4.trans ha) (by omega)
      refine ⟨.act pid .micro :: ls, f', _, p', ?_, frun_append (frun_one hs) g2, g3, g4, g5, g6.trans d2, g7.trans d3, g8⟩
      intro l hl
      rcases List.mem_cons.1 hl with rfl | hl
      · rfl
      · exact g1 l hl

/-- Actions of the process `pid`, of the thread `t` only (and of the owner of the mutex, while it is owned). -/
def Own (pid : Nat) (mine : PLabel → Prop) (ls : List Label) : Prop :=
  ∀ l ∈ ls, ∃ l', l = .act pid l' ∧ (l' = .micro ∨ mine l')

theorem Own.append {pid : Nat} {mine : PLabel → Prop} {a b : List Label} (ha : Own pid mine a) (hb : Own pid mine b) :
    Own pid mine (a ++ b) := by
  intro l hl
  rcases List.mem_append.1 hl with h | h
  · exact ha l h
  · exact hb l h

theorem Own.micros {pid : Nat} {mine : PLabel → Prop} {ls : List Label} (h : ∀ l ∈ ls, l = .act pid .micro) : Own pid mine ls :=
  fun l hl => ⟨.micro, h l hl, .inl rfl⟩

theorem Own.one {pid : Nat} {mine : PLabel → Prop} {l : PLabel} (h : mine l) : Own pid mine [.act pid l] := by
  intro x hx
  rw [List.mem_singleton] at hx
  exact ⟨l, hx, .inr h⟩

/-- C102: `close()` completes, by actions of the process itself: it waits for no lock and for no other process.
Missing: children of `fork` that are stuck, see `C102_fork_refuted`. -/
theorem C102_close_partial (f : Forest) (pid : Nat) (p : Proc) (hp : f.world.procs pid = some p) (ha : p.alive = true)
    (hf : f.stuck pid = false) (sid : Nat) (st : Stream) (hs : p.streams sid = some st) (hb : st.busy = none) :
    ∃ ls f' e p' st', Own pid (· = .close sid) ls ∧ frun f ls = some (f', e) ∧ f'.world.procs pid = some p' ∧
      p'.streams sid = some st' ∧ st'.isOpen = false ∧ p'.crit = [] := by
  obtain ⟨l1, f1, e1, p1, a1, a2, a3, a4, a5, a6, a7, a8⟩ := drain pid _ f p hp ha (Nat.le_refl _)
  have hs1 : p1.streams sid = some st := by rw [a6]; exact hs
  have hm : (f1.stuck pid && p1.takesMutex (.close sid)) = false := by rw [a8, hf]; rfl
  cases ho : st.isOpen with
  | false => exact ⟨l1, f1, e1, p1, st, Own.micros a1, a2, a3, hs1, ho, a4⟩
  | true =>
    have hstep := fstep_act_of (l := .close sid) (p' := (closeStream pid p1 f1.world.kern sid st).1)
      (k' := (closeStream pid p1 f1.world.kern sid st).2.1) (e := (closeStream pid p1 f1.world.kern sid st).2.2) a3 a5 hm
      (by simp [stepProc, hs1, a4, hb, ho])
    obtain ⟨l2, f2, e2, p2, b1, b2, b3, b4, b5, b6, b7, b8⟩ := drain pid _
      (f1.put pid (closeStream pid p1 f1.world.kern sid st).1 (closeStream pid p1 f1.world.kern sid st).2.1)
      (closeStream pid p1 f1.world.kern sid st).1 (put_procs ..) a5 (Nat.le_refl _)
    refine ⟨l1 ++ ([.act pid (.close sid)] ++ l2), f2, _, p2, { st with isOpen := false }, ?_,
      frun_append a2 (frun_append (frun_one hstep) b2), b3, ?_, rfl, b4⟩
    · exact (Own.micros a1).append ((Own.one (mine := (· = .close sid)) (l := .close sid) rfl).append (Own.micros b1))
    · rw [b6]
      show updMap _ _ _ _ = _
      simp

/-- C102: `unlock_file()` completes.  Missing: as above. -/
theorem C102_unlock_partial (f : Forest) (pid : Nat) (p : Proc) (hp : f.world.procs pid = some p) (ha : p.alive = true)
    (hf : f.stuck pid = false) (sid : Nat) (st : Stream) (hs : p.streams sid = some st) (ho : st.isOpen = true)
    (hb : st.busy = none) (len : Option Nat) (start : Int) :
    ∃ ls f' e p', Own pid (· = .unlock sid len start) ls ∧ frun f ls = some (f', e) ∧ f'.world.procs pid = some p' ∧
      (.unlocked pid sid st.uid start (newEnd start (len.map Int.ofNat)) ∈ e ∨
        .unlockFailed pid sid st.uid start (newEnd start (len.map Int.ofNat)) ∈ e) ∧ p'.crit = [] := by
  obtain ⟨l1, f1, e1, p1, a1, a2, a3, a4, a5, a6, a7, a8⟩ := drain pid _ f p hp ha (Nat.le_refl _)
  have hs1 : p1.streams sid = some st := by rw [a6]; exact hs
  have hm : (f1.stuck pid && p1.takesMutex (.unlock sid len start)) = false := by rw [a8, hf]; rfl
  have hstep := fstep_act_of (l := .unlock sid len start) (p' := (unlockStream pid p1 f1.world.kern sid st len start).1)
    (k' := (unlockStream pid p1 f1.world.kern sid st len start).2.1) (e := (unlockStream pid p1 f1.world.kern sid st len start).2.2)
    a3 a5 hm (by simp [stepProc, hs1, a4, hb, ho])
  have hev : .unlocked pid sid st.uid start (newEnd start (len.map Int.ofNat)) ∈ (unlockStream pid p1 f1.world.kern sid st len start).2.2 ∨
      .unlockFailed pid sid st.uid start (newEnd start (len.map Int.ofNat)) ∈ (unlockStream pid p1 f1.world.kern sid st len start).2.2 := by
    unfold unlockStream
    dsimp only
    split
    · exact .inr (List.mem_singleton_self _)
    · exact .inl (List.mem_singleton_self _)
  have hal : (unlockStream pid p1 f1.world.kern sid st len start).1.alive = true := by
    unfold unlockStream unregisterN
    dsimp only
    split
    · rename_i h; split at h <;> cases h; exact a5
    · rename_i h; split at h <;> cases h; exact a5
  obtain ⟨l2, f2, e2, p2, b1, b2, b3, b4, _⟩ := drain pid _
    (f1.put pid (unlockStream pid p1 f1.world.kern sid st len start).1 (unlockStream pid p1 f1.world.kern sid st len start).2.1)
    (unlockStream pid p1 f1.world.kern sid st len start).1 (put_procs ..) hal (Nat.le_refl _)
  refine ⟨l1 ++ ([.act pid (.unlock sid len start)] ++ l2), f2, _, p2, ?_, frun_append a2 (frun_append (frun_one hstep) b2), b3, ?_, b4⟩
  · exact (Own.micros a1).append ((Own.one (mine := (· = .unlock sid len start)) (l := .unlock sid len start) rfl).append (Own.micros b1))
  · simp only [List.mem_append]
    exact hev.imp (fun h => .inr (.inl h)) (fun h => .inr (.inl h))

/-- The request of a thread in `lock_file`. -/
def asking : PC → Option Req
  | .atReg q | .checkReg q | .atKern q | .checkKern q | .unwinding q | .waiting q _ => some q
  | .idle => none

/-- The actions of the thread `t` in `lock_file`. -/
def LockAction (t : Nat) (l : PLabel) : Prop := l = .reg t ∨ l = .kern t ∨ l = .expire t ∨ l = .unwind t

/-- The result of a call of `lock_file`. -/
def Ended (pid : Nat) (q : Req) (e : List Event) : Prop :=
  .locked pid q.sid q.uid q.shared q.start q.stop ∈ e ∨ .lockFailed pid q.sid q.uid q.shared q.start q.stop ∈ e

/-- `lock_file` ends from here. -/
def CanEnd (f : Forest) (pid t : Nat) (q : Req) : Prop :=
  ∃ ls f' e p', Own pid (LockAction t) ls ∧ frun f ls = some (f', e) ∧ f'.world.procs pid = some p' ∧
    p'.threads t = .idle ∧ Ended pid q e

theorem CanEnd.step {f f1 : Forest} {pid t : Nat} {q : Req} {ls : List Label} {e : List Event} (ho : Own pid (LockAction t) ls)
    (hr : frun f ls = some (f1, e)) (h : CanEnd f1 pid t q) : CanEnd f pid t q := by
  obtain ⟨l2, f2, e2, p2, b1, b2, b3, b4, b5⟩ := h
  exact ⟨ls ++ l2, f2, _, p2, ho.append b1, frun_append hr b2, b3, b4,
    b5.imp (fun h => List.mem_append.2 (.inr h)) (fun h => List.mem_append.2 (.inr h))⟩

theorem canEnd_unwinding {f : Forest} {pid t : Nat} {p : Proc} {q : Req} (hp : f.world.procs pid = some p) (ha : p.alive = true)
    (hf : f.stuck pid = false) (ht : p.threads t = .unwinding q) : CanEnd f pid t q := by
  obtain ⟨l1, f1, e1, p1, a1, a2, a3, a4, a5, a6, a7, a8⟩ := drain pid _ f p hp ha (Nat.le_refl _)
  refine CanEnd.step (Own.micros a1) a2 ?_
  have ht1 : p1.threads t = .unwinding q := by rw [a7]; exact ht
  have hm : (f1.stuck pid && p1.takesMutex (.unwind t)) = false := by rw [a8, hf]; rfl
  have hstep := fstep_act_of (l := .unwind t) (e := (failLock pid (unregisterN pid p1 q.uid q.fd q.len q.start).2 f1.world.kern t q).2.2)
    (p' := (failLock pid (unregisterN pid p1 q.uid q.fd q.len q.start).2 f1.world.kern t q).1)
    (k' := (failLock pid (unregisterN pid p1 q.uid q.fd q.len q.start).2 f1.world.kern t q).2.1) a3 a5 hm
    (by simp [stepProc, ht1, a4])
  refine ⟨[.act pid (.unwind t)], _, _, _, Own.one (.inr (.inr (.inr rfl))), frun_one hstep,
    show updMap f1.world.procs pid _ pid = _ from updMap_same .., ?_, .inr (List.mem_singleton_self _)⟩
  rw [(failLock_keeps ..).2.2.1]
  simp

theorem canEnd_checkKern {f : Forest} {pid t : Nat} {p : Proc} {q : Req} (hp : f.world.procs pid = some p) (ha : p.alive = true)
    (hf : f.stuck pid = false) (ht : p.threads t = .checkKern q) (hq : q.llb = false) : CanEnd f pid t q := by
  have hstep := fstep_act_of (l := .expire t) (p' := p.setPC t (.unwinding q)) (k' := f.world.kern) (e := []) hp ha
    (by simp [Proc.takesMutex]) (by simp [stepProc, ht, hq])
  refine CanEnd.step (Own.one (.inr (.inr (.inl rfl)))) (frun_one hstep) ?_
  exact canEnd_unwinding (p := p.setPC t (.unwinding q)) (show updMap f.world.procs pid _ pid = _ from updMap_same ..) ha hf
    (by simp [Proc.setPC])

theorem canEnd_atKern {f : Forest} {pid t : Nat} {p : Proc} {q : Req} (hp : f.world.procs pid = some p) (ha : p.alive = true)
    (hf : f.stuck pid = false) (ht : p.threads t = .atKern q) (hq : q.llb = false) : CanEnd f pid t q := by
  have again : ∀ e, stepProc pid p f.world.kern (.kern t) = some (p.setPC t (.checkKern q), f.world.kern, e) → CanEnd f pid t q := by
    intro e hs
    have hstep := fstep_act_of hp ha (by simp [Proc.takesMutex]) hs
    refine CanEnd.step (Own.one (.inr (.inl rfl))) (frun_one hstep) ?_
    exact canEnd_checkKern (p := p.setPC t (.checkKern q)) (show updMap f.world.procs pid _ pid = _ from updMap_same ..) ha hf
      (by simp [Proc.setPC]) hq
  by_cases h1 : p.fds q.fd = none
  · exact again _ (by simp [stepProc, ht, h1]; rfl)
  · by_cases h2 : q.start < 0
    · exact again _ (by simp [stepProc, ht, h1, h2]; rfl)
    · by_cases h3 : kConflict f.world.kern pid q.uid q.shared q.start q.stop = true
      · exact again _ (by simp [stepProc, ht, h1, h2, h3, hq]; rfl)
      · have hstep := fstep_act_of (l := .kern t) (p' := (grant pid p f.world.kern t q).1) (k' := (grant pid p f.world.kern t q).2.1)
          (e := (grant pid p f.world.kern t q).2.2) hp ha (by simp [Proc.takesMutex]) (by simp [stepProc, ht, h1, h2, h3])
        refine ⟨[.act pid (.kern t)], _, _, _, Own.one (.inr (.inl rfl)), frun_one hstep,
          show updMap f.world.procs pid _ pid = _ from updMap_same .., ?_, .inl (List.mem_singleton_self _)⟩
        rw [(grant_keeps ..).2.2.1]
        simp

theorem canEnd_checkReg {f : Forest} {pid t : Nat} {p : Proc} {q : Req} (hp : f.world.procs pid = some p) (ha : p.alive = true)
    (ht : p.threads t = .checkReg q) (hq : q.llb = false) : CanEnd f pid t q := by
  have hstep := fstep_act_of (l := .expire t) (p' := (failLock pid p f.world.kern t q).1) (k' := (failLock pid p f.world.kern t q).2.1)
    (e := (failLock pid p f.world.kern t q).2.2) hp ha (by simp [Proc.takesMutex]) (by simp [stepProc, ht, hq])
  refine ⟨[.act pid (.expire t)], _, _, _, Own.one (.inr (.inr (.inl rfl))), frun_one hstep,
    show updMap f.world.procs pid _ pid = _ from updMap_same .., ?_, .inr (List.mem_singleton_self _)⟩
  rw [(failLock_keeps ..).2.2.1]
  simp

theorem canEnd_atReg {f : Forest} {pid t : Nat} {p : Proc} {q : Req} (hp : f.world.procs pid = some p) (ha : p.alive = true)
    (hf : f.stuck pid = false) (ht : p.threads t = .atReg q) (hq : q.llb = false) : CanEnd f pid t q := by
  obtain ⟨l1, f1, e1, p1, a1, a2, a3, a4, a5, a6, a7, a8⟩ := drain pid _ f p hp ha (Nat.le_refl _)
  refine CanEnd.step (Own.micros a1) a2 ?_
  have ht1 : p1.threads t = .atReg q := by rw [a7]; exact ht
  have hm : (f1.stuck pid && p1.takesMutex (.reg t)) = false := by rw [a8, hf]; rfl
  have hf1 : f1.stuck pid = false := by rw [a8]; exact hf
  have hstep : ∀ a : Act, attemptReg pid p1 f1.world.kern t q = a →
      fstep f1 (.act pid (.reg t)) = some (⟨⟨updMap f1.world.procs pid (some a.1), a.2.1⟩, f1.stuck⟩, a.2.2) := by
    rintro a rfl
    exact fstep_act_of (l := .reg t) a3 a5 hm (by simp [stepProc, ht1, a4])
  cases hr : p1.reg.register pid q.uid q.fd q.len q.start q.shared with
  | mk x r =>
    cases x with
    | error y =>
      have h := hstep (failLock pid { p1 with reg := r } f1.world.kern t q) (by simp [attemptReg, hr])
      refine ⟨[.act pid (.reg t)], _, _, _, Own.one (.inl rfl), frun_one h,
        show updMap f1.world.procs pid _ pid = _ from updMap_same .., ?_, .inr (List.mem_singleton_self _)⟩
      rw [(failLock_keeps ..).2.2.1]
      simp
    | ok b =>
      cases b with
      | true =>
        have h := hstep (({ p1 with reg := r } : Proc).setPC t (.atKern q), f1.world.kern, []) (by simp [attemptReg, hr])
        refine CanEnd.step (Own.one (.inl rfl)) (frun_one h) ?_
        exact canEnd_atKern (p := ({ p1 with reg := r } : Proc).setPC t (.atKern q))
          (show updMap f1.world.procs pid _ pid = _ from updMap_same ..) a5 hf1 (by simp [Proc.setPC]) hq
      | false =>
        have h := hstep (({ p1 with reg := r } : Proc).setPC t (.checkReg q), f1.world.kern, []) (by simp [attemptReg, hr, hq])
        refine CanEnd.step (Own.one (.inl rfl)) (frun_one h) ?_
        exact canEnd_checkReg (p := ({ p1 with reg := r } : Proc).setPC t (.checkReg q))
          (show updMap f1.world.procs pid _ pid = _ from updMap_same ..) a5 (by simp [Proc.setPC]) hq

/-- Only calls without a timeout wait for the notification. -/
def Waits (p : Proc) : Prop := ∀ t q b, p.threads t = .waiting q b → q.llb = true

theorem Waits.of_eq {p p' : Proc} (h : Waits p) (he : p'.threads = p.threads) : Waits p' := by
  intro t q b hx
  rw [he] at hx
  exact h t q b hx

theorem Waits.upd {p p' : Proc} (h : Waits p) {t : Nat} {pc : PC} (he : p'.threads = updMap p.threads t pc)
    (hpc : ∀ q b, pc = .waiting q b → q.llb = true) : Waits p' := by
  intro t' q b hx
  rw [he] at hx
  by_cases hx' : t' = t
  · subst hx'
    rw [updMap_same] at hx
    exact hpc q b hx
  · rw [updMap_other _ _ hx'] at hx
    exact h t' q b hx

theorem Waits.failLock {p : Proc} (h : Waits p) (pid : Nat) (k : KTable) (t : Nat) (q : Req) : Waits (failLock pid p k t q).1 :=
  h.upd (failLock_keeps pid p k t q).2.2.1 (by simp)

theorem Waits.unregisterN {p : Proc} (h : Waits p) (pid : Nat) (u : Uid) (fd : Nat) (len : Option Int) (s : Int) :
    Waits (unregisterN pid p u fd len s).2 := by
  unfold Verif.unregisterN
  split
  · intro t q b hx
    dsimp only at hx
    split at hx
    · unfold notifyAll at hx
      cases hp : p.threads t with
      | waiting q' b' =>
        rw [hp] at hx
        dsimp only at hx
        split at hx <;> cases hx <;> exact h t _ _ hp
      | _ => rw [hp] at hx; cases hx
    · exact h t q b hx
  · exact h.of_eq rfl

theorem Waits.attemptReg {p : Proc} (h : Waits p) (pid : Nat) (k : KTable) (t : Nat) (q : Req) : Waits (attemptReg pid p k t q).1 := by
  unfold Verif.attemptReg
  split
  · exact Waits.failLock (p := { p with reg := ‹Registry› }) (h.of_eq rfl) pid k t q
  · exact h.upd rfl (by simp)
  · split
    · rename_i hl
      split
      · exact h.upd rfl (by simp [hl])
      · exact Waits.failLock (p := { p with reg := ‹Registry› }) (h.of_eq rfl) pid k t q
    · exact h.upd rfl (by simp)

theorem stepProc_waits {pid : Nat} {p p' : Proc} {k k' : KTable} {e : List Event} {l : PLabel}
    (h : stepProc pid p k l = some (p', k', e)) (hw : Waits p) : Waits p' := by
  cases l with
  | micro =>
    simp only [stepProc] at h
    split at h
    · rename_i m rest hq
      have hd := doMicro_cost pid p k m rest hq
      rw [Option.some.inj h] at hd
      exact hw.of_eq hd.2.2.1
    · cases h
  | osOpen fd uid =>
    simp only [stepProc] at h
    split at h <;> cases h
    exact hw.of_eq rfl
  | openS sid fd uid =>
    simp only [stepProc] at h
    split at h <;> cases h
    exact hw.of_eq rfl
  | wrapS sid fd cf =>
    simp only [stepProc] at h
    split at h
    · cases h
    · split at h <;> cases h
      exact hw.of_eq rfl
  | lockCall tid sid len start shared llb =>
    simp only [stepProc] at h
    split at h
    · split at h <;> cases h
      exact hw.upd rfl (by simp)
    · cases h
  | kern tid =>
    simp only [stepProc] at h
    split at h
    · rename_i q _
      repeat' split at h
      all_goals first | (cases h; done) | (cases h; exact hw.upd rfl (by simp)) | skip
      have := grant_keeps pid p k tid q
      rw [Option.some.inj h] at this
      exact hw.upd this.2.2.1 (by simp)
    · cases h
  | kernErr tid => simp only [stepProc] at h; split at h <;> cases h; exact hw.upd rfl (by simp)
  | kernExc tid => simp only [stepProc] at h; split at h <;> cases h; exact hw.upd rfl (by simp)
  | kernIntr tid =>
    simp only [stepProc] at h
    split at h
    · split at h <;> cases h
      exact hw.upd rfl (by simp)
    · cases h
  | retry tid => simp only [stepProc] at h; split at h <;> cases h <;> exact hw.upd rfl (by simp)
  | expire tid =>
    simp only [stepProc] at h
    split at h
    · rename_i q _
      split at h
      · cases h
      · have := Waits.failLock hw pid k tid q
        rw [Option.some.inj h] at this
        exact this
    · split at h <;> cases h
      exact hw.upd rfl (by simp)
    · cases h
  | reg tid =>
    simp only [stepProc] at h
    split at h
    · rename_i q _ _
      have := hw.attemptReg pid k tid q
      rw [Option.some.inj h] at this
      exact this
    · cases h
  | wake tid =>
    simp only [stepProc] at h
    repeat' split at h
    all_goals first | (cases h; done) | skip
    · have := Waits.attemptReg (p := { p with reg := ‹Registry› }) (hw.of_eq rfl) pid k tid ‹Req›
      rw [Option.some.inj h] at this
      exact this
    · have := Waits.failLock hw pid k tid ‹Req›
      cases h
      exact this
  | unwind tid =>
    simp only [stepProc] at h
    split at h
    · rename_i q _ _
      have := Waits.failLock (hw.unregisterN pid q.uid q.fd q.len q.start) pid k tid q
      rw [Option.some.inj h] at this
      exact this
    · cases h
  | unlock sid len start =>
    simp only [stepProc] at h
    split at h
    · rename_i st _ _
      split at h
      · have := hw.unregisterN pid st.uid st.fd (len.map Int.ofNat) start
        have h2 : Waits (unlockStream pid p k sid st len start).1 := by
          unfold unlockStream
          dsimp only
          split
          · rename_i hu; rw [hu] at this; exact this
          · rename_i hu; rw [hu] at this; exact this.of_eq rfl
        rw [Option.some.inj h] at h2
        exact h2
      · cases h
    · cases h
  | close sid =>
    simp only [stepProc] at h
    split at h
    · split at h
      · cases h
      · split at h <;> cases h
        · exact hw.of_eq rfl
        · exact hw
    · cases h

theorem fstep_waits {f f' : Forest} {l : Label} {e : List Event} (h : fstep f l = some (f', e))
    (hw : ∀ pid p, f.world.procs pid = some p → Waits p) : ∀ pid p, f'.world.procs pid = some p → Waits p := by
  have key : ∀ {w : World} {pid0 : Nat} {p0 : Proc} {k : KTable} {g : Nat → Bool}, w = f.world → Waits p0 →
      f' = ⟨⟨updMap w.procs pid0 (some p0), k⟩, g⟩ → ∀ pid p, f'.world.procs pid = some p → Waits p := by
    rintro w pid0 p0 k g rfl h0 rfl pid p hp
    by_cases he : pid = pid0
    · subst he
      dsimp only at hp
      rw [updMap_same] at hp
      cases hp
      exact h0
    · dsimp only at hp
      rw [updMap_other _ _ he] at hp
      exact hw pid p hp
  cases l with
  | act pid' l' =>
    obtain ⟨p, p', k', g1, _, _, g4, g5⟩ := fstep_act h
    exact key rfl (stepProc_waits g4 (hw _ _ g1)) g5
  | newProc pid' =>
    simp only [fstep, step] at h
    cases hq : f.world.procs pid' with
    | some _ => rw [hq] at h; cases h
    | none =>
      rw [hq] at h
      cases h
      exact key (p0 := Proc.fresh pid') rfl (fun t q b hx => by cases hx) rfl
  | fork parent child =>
    simp only [fstep, step] at h
    cases hq : f.world.procs parent with
    | none => rw [hq] at h; cases h
    | some p0 =>
      rw [hq] at h
      dsimp only at h
      cases hc : f.world.procs child with
      | some _ => rw [hc] at h; cases h
      | none =>
        rw [hc] at h
        dsimp only at h
        split at h
        · rename_i heq
          split at heq <;> cases heq
          cases h
          exact key (p0 := p0.forked) rfl (fun t q b hx => by cases hx) rfl
        · cases h
  | exit pid' =>
    simp only [fstep, step] at h
    cases hq : f.world.procs pid' with
    | none => rw [hq] at h; cases h
    | some p0 =>
      rw [hq] at h
      dsimp only at h
      split at h
      · rename_i heq
        split at heq <;> cases heq
        cases h
        exact key (p0 := { p0 with alive := false }) rfl ((hw _ _ hq).of_eq rfl) rfl
      · cases h

theorem frun_waits {f f' : Forest} {ls : List Label} {e : List Event} (h : frun f ls = some (f', e))
    (hw : ∀ pid p, f.world.procs pid = some p → Waits p) : ∀ pid p, f'.world.procs pid = some p → Waits p := by
  induction ls generalizing f e with
  | nil => cases h; exact hw
  | cons l ls ih =>
    simp only [frun] at h
    split at h
    · cases h
    · rename_i f1 e1 h1
      split at h
      · cases h
      · rename_i h2
        cases h
        exact ih h2 (fstep_waits h1 hw)

/-- C102: in every execution, a call of `lock_file()` with a timeout ends when its time is over, wherever it is, by actions of
its own thread.  Missing: as above. -/
theorem C102_lock_partial (ls0 : List Label) (f : Forest) (e0 : List Event) (hr : frun Forest.init ls0 = some (f, e0)) (pid : Nat)
    (p : Proc) (hp : f.world.procs pid = some p) (ha : p.alive = true) (hf : f.stuck pid = false) (t : Nat) (q : Req)
    (ht : asking (p.threads t) = some q) (hq : q.llb = false) : CanEnd f pid t q := by
  have hw := frun_waits hr (fun _ _ h => by cases h) pid p hp
  cases hx : p.threads t with
  | idle => rw [hx] at ht; cases ht
  | waiting q' b =>
    rw [hx] at ht
    cases ht
    rw [hw t q b hx] at hq
    cases hq
  | atReg q' => rw [hx] at ht; cases ht; exact canEnd_atReg hp ha hf hx hq
  | checkReg q' => rw [hx] at ht; cases ht; exact canEnd_checkReg hp ha hx hq
  | atKern q' => rw [hx] at ht; cases ht; exact canEnd_atKern hp ha hf hx hq
  | checkKern q' => rw [hx] at ht; cases ht; exact canEnd_checkKern hp ha hf hx hq
  | unwinding q' => rw [hx] at ht; cases ht; exact canEnd_unwinding hp ha hf hx

/-! ## Fork -/

/-- The parent's mutex is free at every `fork`. -/
def ForksFree (f : Forest) (ls : List Label) : Prop :=
  ∀ ls1 parent child ls2 f1 e p, ls = ls1 ++ .fork parent child :: ls2 → frun f ls1 = some (f1, e) →
    f1.world.procs parent = some p → p.crit = []

theorem fstep_stuck {f f' : Forest} {l : Label} {e : List Event} (h : fstep f l = some (f', e)) :
    (∃ parent child p, l = .fork parent child ∧ f.world.procs parent = some p ∧ f.world.procs child = none ∧
      f'.stuck = updMap f.stuck child (f.stuck parent || !p.crit.isEmpty)) ∨ f'.stuck = f.stuck := by
  cases l with
  | act pid' l' =>
    obtain ⟨p, p', k', _, _, _, _, rfl⟩ := fstep_act h
    exact .inr rfl
  | newProc pid' =>
    simp only [fstep] at h
    split at h <;> cases h
    exact .inr rfl
  | fork parent child =>
    simp only [fstep, step] at h
    cases hq : f.world.procs parent with
    | none => rw [hq] at h; cases h
    | some p0 =>
      rw [hq] at h
      dsimp only at h
      cases hc : f.world.procs child with
      | some _ => rw [hc] at h; cases h
      | none =>
        rw [hc] at h
        dsimp only at h
        split at h
        · cases h
          exact .inl ⟨parent, child, p0, rfl, hq, hc, rfl⟩
        · cases h
  | exit pid' =>
    simp only [fstep] at h
    split at h <;> cases h
    exact .inr rfl

/-- C102: processes that were created by `fork` while no thread of the parent owned the mutex are like others.
Missing: other children, see `C102_fork_refuted`. -/
theorem C102_fork_partial (ls : List Label) (f : Forest) (e : List Event) (hr : frun Forest.init ls = some (f, e))
    (hfree : ForksFree Forest.init ls) (pid : Nat) : f.stuck pid = false := by
  have key : ∀ (ls : List Label) (f0 f : Forest) (e : List Event), frun f0 ls = some (f, e) → ForksFree f0 ls →
      (∀ pid, f0.stuck pid = false) → ∀ pid, f.stuck pid = false := by
    intro ls
    induction ls with
    | nil => intro f0 f e h _ h0; cases h; exact h0
    | cons l ls ih =>
      intro f0 f e h hff h0
      simp only [frun] at h
      split at h
      · cases h
      · rename_i f1 e1 h1
        split at h
        · cases h
        · rename_i f2 e2 h2
          cases h
          refine ih f1 _ _ h2 ?_ ?_
          · intro ls1 parent child ls2 f3 e3 p hls h3 hp
            refine hff (l :: ls1) parent child ls2 f3 (e1 ++ e3) p (by rw [hls]; rfl) ?_ hp
            simp only [frun, h1, h3]
          · rcases fstep_stuck h1 with ⟨parent, child, p, rfl, hp, _, hs⟩ | hs
            · intro x
              rw [hs, h0 parent, hff [] parent child ls f0 [] p rfl rfl hp]
              by_cases hx : x = child
              · subst hx; simp
              · rw [updMap_other _ _ hx]; exact h0 x
            · intro x; rw [hs]; exact h0 x
  exact key ls _ f e hr hfree (fun _ => rfl) pid

/-- A stuck process stays so. -/
theorem stuck_for_ever {f f' : Forest} {ls : List Label} {e : List Event} {pid : Nat} {p : Proc} (h : frun f ls = some (f', e))
    (hp : f.world.procs pid = some p) (hf : f.stuck pid = true) : f'.stuck pid = true := by
  induction ls generalizing f e p with
  | nil => cases h; exact hf
  | cons l ls ih =>
    simp only [frun] at h
    split at h
    · cases h
    · rename_i f1 e1 h1
      split at h
      · cases h
      · rename_i h2
        cases h
        have hp1 : ∃ p1, f1.world.procs pid = some p1 := by
          by_cases hl : ∃ l', l = .act pid l'
          · obtain ⟨l', rfl⟩ := hl
            obtain ⟨_, p', _, _, _, _, _, rfl⟩ := fstep_act h1
            exact ⟨p', updMap_same ..⟩
          · obtain ⟨p1, hp1, _⟩ := fstep_other h1 hp (fun l' hx => hl ⟨l', hx⟩)
            exact ⟨p1, hp1⟩
        obtain ⟨p1, hp1⟩ := hp1
        refine ih h2 hp1 ?_
        rcases fstep_stuck h1 with ⟨parent, child, p2, rfl, _, hc, hs⟩ | hs
        · have hne : pid ≠ child := by rintro rfl; rw [hp] at hc; cases hc
          rw [hs, updMap_other _ _ hne]
          exact hf
        · rw [hs]; exact hf

/-- The execution: a process with two streams forks while a thread is inside `close()` of one. -/
def badFork : List Label :=
  [.newProc 1, .act 1 (.openS 0 3 ⟨1, 7⟩), .act 1 (.openS 1 4 ⟨1, 8⟩), .act 1 (.close 0), .fork 1 2]

/-- C102 refuted for children of `fork`: in no continuation does the child ever close or unlock its stream, register a lock or
give one back, although it owns the stream `1` and no thread exists but its own. -/
theorem C102_fork_refuted : ∃ f e p st, frun Forest.init badFork = some (f, e) ∧ f.world.procs 2 = some p ∧ p.alive = true ∧
    p.streams 1 = some st ∧ st.isOpen = true ∧ st.busy = none ∧ (∀ t, p.threads t = .idle) ∧
    ∀ ls f' e', frun f ls = some (f', e') →
      (∀ sid len start, fstep f' (.act 2 (.unlock sid len start)) = none) ∧ (∀ t, fstep f' (.act 2 (.reg t)) = none) ∧
      (∀ p', f'.world.procs 2 = some p' → ∀ sid st', p'.streams sid = some st' → st'.isOpen = true →
        fstep f' (.act 2 (.close sid)) = none) := by
  refine ⟨_, _, _, _, rfl, rfl, rfl, rfl, rfl, rfl, fun _ => rfl, ?_⟩
  intro ls f' e' h
  have hs := stuck_for_ever (pid := 2) h rfl rfl
  refine ⟨?_, ?_, ?_⟩
  · intro sid len start
    simp only [fstep, hs, Proc.takesMutex]
    split <;> simp
  · intro t
    simp only [fstep, hs, Proc.takesMutex]
    split <;> simp
  · intro p' hp' sid st' hst ho
    simp [fstep, hs, Proc.takesMutex, hp', hst, ho]

/-! ## Instances -/

/-- Another process holds the lock. -/
def contended : List Label :=
  [.newProc 1, .act 1 (.openS 0 3 ⟨1, 7⟩), .newProc 2, .act 2 (.openS 0 3 ⟨1, 7⟩), .act 1 (.lockCall 0 0 none 0 false false),
    .act 1 (.reg 0), .act 1 (.kern 0), .act 2 (.lockCall 5 0 none 0 false false), .act 2 (.reg 5), .act 2 (.kern 5)]

/-- `C102_lock_partial`: the call of process 2 can end; here it waits for a lock of process 1. -/
example : ∃ f e p q, frun Forest.init contended = some (f, e) ∧ f.world.procs 2 = some p ∧ asking (p.threads 5) = some q ∧
    CanEnd f 2 5 q :=
  ⟨_, _, _, _, rfl, rfl, rfl, C102_lock_partial contended _ _ rfl 2 _ rfl rfl rfl 5 _ rfl rfl⟩

/-- `C102_release`, `C102_owner`, `C102_close_partial`: a thread is inside `close()`, another closes the other stream. -/
example : ∃ f e p, frun Forest.init (badFork.take 4) = some (f, e) ∧ f.world.procs 1 = some p ∧ p.crit ≠ [] ∧
    (fstep f (.act 1 .micro)).isSome = true ∧
    ∃ ls f' e' p' st', Own 1 (· = .close 1) ls ∧ frun f ls = some (f', e') ∧ f'.world.procs 1 = some p' ∧
      p'.streams 1 = some st' ∧ st'.isOpen = false ∧ p'.crit = [] :=
  ⟨_, _, _, rfl, rfl, by decide, C102_owner _ 1 _ rfl rfl (by decide), C102_close_partial _ 1 _ rfl rfl rfl 1 _ rfl rfl⟩

/-- `C102_fork_partial`: a fork after the close. -/
example : ∃ f e, frun Forest.init [.newProc 1, .act 1 (.openS 0 3 ⟨1, 7⟩), .fork 1 2] = some (f, e) ∧ f.stuck 2 = false :=
  ⟨_, _, rfl, rfl⟩

end Verif.Props
