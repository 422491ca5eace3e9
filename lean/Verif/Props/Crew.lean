import Verif.Lemmas.Crew

/-!
# C116: threads that share thread-safe streams and lock files one at a time can always go on
-/

set_option autoImplicit false

namespace Verif.Crew

/-- What every call has been begun with. -/
def Begun (P : Nat → Nat → Order → Bool → Prop) (w : Crew) : Prop :=
  ∀ t, match w.thread t with
    | .idle => True
    | .asking s c => P t s c true
    | .inside s c l => P t s c l

theorem Begun.set {P : Nat → Nat → Order → Bool → Prop} {w v : Crew} (h : Begun P w) {t : Nat}
    (ho : ∀ u, u ≠ t → v.thread u = w.thread u)
    (ht : match v.thread t with
      | .idle => True
      | .asking s c => P t s c true
      | .inside s c l => P t s c l) : Begun P v := by
  intro u
  by_cases hu : u = t
  · subst hu; exact ht
  · rw [ho u hu]; exact h u

theorem Step.begun {file : Nat → Nat} {may : Crew → Nat → Nat → Order → Bool → Prop} {P : Nat → Nat → Order → Bool → Prop}
    (hm : ∀ w t s c p, may w t s c p → P t s c p) {t : Nat} {w w' : Crew} (hs : Step file may t w w') (h : Begun P w) : Begun P w' := by
  refine h.set (t := t) (fun u hu => hs.thread_other hu) ?_
  cases hs with
  | call s c hi h' => simpa [Crew.set] using hm _ _ _ _ _ h'
  | direct s c hi h' => simpa [Crew.set] using hm _ _ _ _ _ h'
  | enter s c hi h' =>
    have := h t
    rw [hi] at this
    simpa [Crew.set] using this
  | _ => simp [leave]

theorem Steps.begun {file : Nat → Nat} {may : Crew → Nat → Nat → Order → Bool → Prop} {P : Nat → Nat → Order → Bool → Prop}
    (hm : ∀ w t s c p, may w t s c p → P t s c p) {w w' : Crew} (hs : Steps file may w w') (h : Begun P w) : Begun P w' := by
  induction hs with
  | refl => exact h
  | step t _ s ih => exact s.begun hm ih

theorem new_begun (P : Nat → Nat → Order → Bool → Prop) : Begun P new := fun _ => trivial

/-- Threads that wait for each other: `d t` is what thread `t` of the set `B` does, `L` the oldest locks, which they have. -/
structure Knot (file : Nat → Nat) (B : Nat → Prop) (d : Nat → Duty) (L : List Holding) : Prop where
  own : ∀ x ∈ L, B x.owner
  waits : ∀ t, B t →
    (∃ s c u e, d t = .asking s c ∧ B u ∧ d u = .inside s e true) ∨
    ∃ s sh a n, d t = .inside s (.lock sh a n true) true ∧
      ∀ M, scanLocks s sh a (newEnd a (some (n : Int))) (((L ++ M).filter fun x => file x.lock.handle = file s).map Holding.lock) = .ok false

theorem Knot.step {file : Nat → Nat} {B : Nat → Prop} {d : Nat → Duty} {L : List Holding} (hk : Knot file B d L) {w w' : Crew} {t : Nat}
    (hs : Step file OneLock t w w') (hw : w.Inv) (hd : ∀ u, B u → w.thread u = d u) (hl : ∃ M, w.locks = L ++ M) :
    (∀ u, B u → w'.thread u = d u) ∧ ∃ M, w'.locks = L ++ M := by
  have hB : ¬ B t := by
    intro hb
    have ht := hd t hb
    obtain ⟨M, hM⟩ := hl
    rcases hk.waits t hb with ⟨s, c, u, e, h1, h2, h3⟩ | ⟨s, sh, a, n, h1, h2⟩
    · have := hw.has s u e (by rw [hd u h2, h3])
      rw [h1] at ht
      cases hs with
      | enter s' c' hi hm => rw [hi] at ht; cases ht; rw [hm] at this; cases this
      | _ => simp_all
    · rw [h1] at ht
      have h2 := h2 M
      rw [← hM] at h2
      cases hs with
      | grant s' sh' a' n' p l hi hv => rw [hi] at ht; cases ht; exact absurd (hv.symm.trans h2) nofun
      | refuse s' sh' a' n' p l e hi hv => rw [hi] at ht; cases ht; exact absurd (hv.symm.trans h2) nofun
      | _ => simp_all
  refine ⟨fun u hu => ?_, ?_⟩
  · rw [hs.thread_other (fun e => hB (e ▸ hu))]
    exact hd u hu
  · obtain ⟨M, hM⟩ := hl
    cases hs with
    | grant s sh a n p l hi hv => exact ⟨M ++ [⟨t, ⟨s, sh, a, newEnd a (some (n : Int))⟩⟩], by simp [leave, hM]⟩
    | unlock s a n l hi =>
      refine ⟨M.eraseP (matching s a n), ?_⟩
      change w.locks.eraseP _ = _
      rw [hM, List.eraseP_append_right]
      intro x hx hm
      obtain ⟨y, hy, hyo, hym⟩ := hw.ul t s a n (by rw [hi]; rfl)
      have := only_one hw.keys (x := x) (y := y) (by rw [hM]; exact List.mem_append_left _ hx) hy hm hym
      subst this
      exact hB (hyo ▸ hk.own x hx)
    | _ => exact ⟨M, hM⟩

theorem Knot.hangs {file : Nat → Nat} {B : Nat → Prop} {d : Nat → Duty} {L : List Holding} (hk : Knot file B d L)
    {may : Crew → Nat → Nat → Order → Bool → Prop} (hm : ∀ w t s c p, may w t s c p → OneLock w t s c p) {w : Crew}
    (hs : Steps file may new w) (hd : ∀ u, B u → w.thread u = d u) (hl : w.locks = L) {t : Nat} (ht : B t) : Hangs file may t w := by
  have key : ∀ w', Steps file OneLock w w' → (∀ u, B u → w'.thread u = d u) ∧ ∃ M, w'.locks = L ++ M := by
    intro w' h
    induction h with
    | refl => exact ⟨hd, [], by rw [hl, List.append_nil]⟩
    | step u h h' ih => exact hk.step h' (((hs.mono hm).trans h).inv (fun _ _ _ _ _ h => h) new_inv) ih.1 ih.2
  intro w' h
  rw [(key w' (h.mono hm)).1 t ht, hd t ht]
  refine ⟨rfl, ?_⟩
  rcases hk.waits t ht with ⟨s, c, u, e, h1, _⟩ | ⟨s, sh, a, n, h1, _⟩ <;> rw [h1] <;> nofun

theorem one_releases {w : Crew} {h : Holding} (hh : h ∈ w.locks) {a n : Nat} (hm : matching h.lock.handle a n h = true) (p : Bool) :
    OneLock w h.owner h.lock.handle (.unlock a n) p :=
  ⟨h, hh, rfl, (matching_iff _ _ _ _).1 hm⟩

theorem Inv.one {w : Crew} (hw : w.Inv) {x y : Holding} (hx : x ∈ w.locks) (hy : y ∈ w.locks) (h : x.owner = y.owner) : x = y := by
  have hp := hw.single
  revert hx hy hp
  generalize w.locks = l
  intro hx hy hp
  induction l with
  | nil => cases hx
  | cons z zs ih =>
    have hp' := List.pairwise_cons.1 hp
    rcases List.mem_cons.1 hx with hx | hx
    · rcases List.mem_cons.1 hy with hy | hy
      · rw [hx, hy]
      · exact absurd (hx ▸ h) (hp'.1 y hy)
    · rcases List.mem_cons.1 hy with hy | hy
      · exact absurd (hy ▸ h.symm) (hp'.1 x hx)
      · exact ih hx hy hp'.2

theorem spans_of {k a n : Nat} (h : a ≤ k ∧ (n = 0 ∨ k < a + n)) : Spans k a (newEnd a (some (n : Int))) := by
  refine ⟨by omega, fun e he => ?_⟩
  unfold newEnd at he
  dsimp only at he
  split at he
  · cases he
  · cases he
    omega

/-- What every lock has been asked for with. -/
theorem Steps.granted {file : Nat → Nat} {may : Crew → Nat → Nat → Order → Bool → Prop} {Q : Holding → Prop}
    (hm : ∀ w t s sh a n pt p, may w t s (.lock sh a n pt) p → Q ⟨t, ⟨s, sh, a, newEnd a (some (n : Int))⟩⟩) {w : Crew}
    (hs : Steps file may new w) : ∀ x ∈ w.locks, Q x := by
  have hb : ∀ v, Steps file may new v →
      Begun (fun t s c _ => ∀ sh a n pt, c = .lock sh a n pt → Q ⟨t, ⟨s, sh, a, newEnd a (some (n : Int))⟩⟩) v := fun v hv =>
    hv.begun (fun w t s c p h sh a n pt e => by subst e; exact hm w t s sh a n pt p h) (new_begun _)
  generalize hn : new = v at hs
  induction hs with
  | refl => subst hn; nofun
  | step t h' h ih =>
    subst hn
    intro x hx
    cases h with
    | grant s sh a n p l hi hv =>
      rcases List.mem_append.1 hx with hx | hx
      · exact ih x hx
      · cases List.mem_singleton.1 hx
        have := hb _ h' t
        rw [hi] at this
        exact this sh a n p rfl
    | unlock s a n l hi => exact ih x (List.mem_of_mem_eraseP hx)
    | _ => exact ih x hx

theorem Steps.users {file user : Nat → Nat} {w : Crew} (hs : Steps file (Private user) new w) :
    ∀ x ∈ w.locks, user x.lock.handle = x.owner :=
  hs.granted (Q := fun x => user x.lock.handle = x.owner) fun _ _ _ _ _ _ _ _ h => h.2

theorem Steps.spans {file : Nat → Nat} {k : Nat} {w : Crew} (hs : Steps file (Central k) new w) :
    ∀ x ∈ w.locks, Spans k x.lock.start x.lock.stop :=
  hs.granted (Q := fun x => Spans k x.lock.start x.lock.stop) fun _ _ _ _ _ _ _ _ h => spans_of (h.2 _ _ _ _ rfl)

/-- A thread that waits for a mutex has locked with the stream of the mutex, if it has a lock. -/
theorem Steps.faithful {file : Nat → Nat} {k : Nat} {w : Crew} (hs : Steps file (Central k) new w) :
    ∀ t s c, w.thread t = .asking s c → ∀ x ∈ w.locks, x.owner = t → x.lock.handle = s := by
  generalize hn : new = v at hs
  induction hs with
  | refl => subst hn; nofun
  | step t h' h ih =>
    intro u s c ha x hx ho
    by_cases hu : u = t
    · subst hu
      cases h with
      | call s' c' hi hm =>
        simp only [Crew.set, if_true] at ha
        cases ha
        exact hm.1.2 rfl x hx ho
      | _ => simp [leave, Crew.set] at ha
    · have hb := ih u s c (by rw [← h.thread_other hu]; exact ha)
      rcases h.locks_owner hx with hx | hx
      · exact hb x hx ho
      · exact absurd (ho.symm.trans hx) hu

end Verif.Crew

namespace Verif.Props

open Crew

/-! ## Streams that are not shared, or not wrapped; timeouts -/

/-- When each stream is used by one thread, all calls can end, from every state that is reached. -/
theorem C116_private (file user : Nat → Nat) (way : Nat → Bool) (w : Crew) (h : Steps file (Private user) new w) :
    Finishes file (Private user) way w := by
  refine finishes (fun _ _ _ _ _ h => h.1) ?_ ?_ h
  · intro v hv x hx a n hm
    exact ⟨one_releases hx hm _, hv.users x hx⟩
  · intro v hv f x rest _ s c ha u sh a n hu
    have hb := hv.begun (P := fun t s _ _ => user s = t) (fun _ _ _ _ _ h => h.2) (new_begun _)
    have h1 := hb x.owner
    rw [ha] at h1
    have h2 := hb u
    rw [hu] at h2
    have : u = x.owner := by rw [← h2, h1]
    rw [this, ha] at hu
    cases hu

/-- Streams without wrappers. -/
theorem C116_unwrapped (file : Nat → Nat) (w : Crew) (h : Steps file Unwrapped new w) :
    Finishes file Unwrapped (fun _ => false) w := by
  refine finishes (fun _ _ _ _ _ h => h.1) ?_ ?_ h
  · intro v _ x hx a n hm
    exact ⟨one_releases hx hm false, rfl⟩
  · intro v hv f x rest _ s c ha
    have hb := hv.begun (P := fun _ _ _ p => p = false) (fun _ _ _ _ _ h => h.2) (new_begun _) x.owner
    rw [ha] at hb
    cases hb

/-- Calls of `lock_file` with timeouts. -/
theorem C116_timed (file : Nat → Nat) (way : Nat → Bool) (w : Crew) (h : Steps file Timed new w) : Finishes file Timed way w := by
  refine finishes (fun _ _ _ _ _ h => h.1) ?_ ?_ h
  · intro v _ x hx a n hm
    exact ⟨one_releases hx hm _, nofun⟩
  · intro v hv f x rest _ s c _ u sh a n hu
    have hb := hv.begun (P := fun _ _ c _ => ∀ sh a n pt, c = .lock sh a n pt → pt = false) (fun _ _ _ _ _ h => h.2) (new_begun _) u
    rw [hu] at hb
    exact absurd (hb _ _ _ _ rfl) nofun

/-! ## Shared wrappers -/

/-- When all locks include one byte, and threads that have a lock call through wrappers only methods of the stream that they
have locked with, all calls can end, from every state that is reached: the owner of the oldest lock of a file never waits for a
mutex for ever, since another call of `lock_file` of the same stream raises `RuntimeError` and does not wait.  (What is missing:
other programs, see `C116_other_refuted` and `C116_cross_refuted`.) -/
theorem C116_shared_partial (file : Nat → Nat) (k : Nat) (way : Nat → Bool) (w : Crew) (h : Steps file (Central k) new w) :
    Finishes file (Central k) way w := by
  refine finishes (fun _ _ _ _ _ h => h.1.1) ?_ ?_ h
  · intro v hv x hx a n hm
    refine ⟨⟨one_releases hx hm _, fun _ y hy ho => ?_⟩, nofun⟩
    rw [(hv.inv (fun _ _ _ _ _ h => h.1.1) new_inv).one hy hx ho]
  · intro v hv f x rest hf s c ha u sh a n hu hc
    have hx : x ∈ v.locks := (List.mem_filter.1 (hf ▸ List.mem_cons_self : x ∈ v.locks.filter fun y => file y.lock.handle = f)).1
    have hf' : file x.lock.handle = f := by
      have := (List.mem_filter.1 (hf ▸ List.mem_cons_self : x ∈ v.locks.filter fun y => file y.lock.handle = f)).2
      simpa using this
    have hs : x.lock.handle = s := hv.faithful x.owner s c ha x hx rfl
    have hb := hv.begun (P := fun _ _ c _ => ∀ sh a n pt, c = .lock sh a n pt → Spans k a (newEnd a (some (n : Int))))
      (fun _ _ _ _ _ h sh a n pt e => spans_of (h.2 sh a n pt e)) (new_begun _) u
    rw [hu] at hb
    have ov := overlap_of_spans (hv.spans x hx) (hb sh a n true rfl)
    unfold verdict entry at hc
    rw [← hs, hf', hf] at hc
    simp [scanLocks, ov] at hc

/-! ## Refutations -/

theorem Hangs.unfinished {file : Nat → Nat} {may : Crew → Nat → Nat → Order → Bool → Prop} {way : Nat → Bool} {t : Nat} {w : Crew}
    (h : Hangs file may t w) : ¬ Finishes file may way w := by
  rintro ⟨w', hs, hi, _⟩
  exact (h w' (hs.mono fun _ _ _ _ _ h => h.1)).2 (hi t)

/-- Thread `t` is in a call of the wrapper of stream `s`. -/
def inCall (w : Crew) (t s : Nat) (c : Order) : Crew :=
  ({ (w.set t (.asking s c)) with mutex := fun r => if r = s then some t else w.mutex r } : Crew).set t (.inside s c true)

theorem through {file : Nat → Nat} {may : Crew → Nat → Nat → Order → Bool → Prop} {t s : Nat} {c : Order} {v w : Crew}
    (hs : Steps file may v w) (hi : w.thread t = .idle) (hm : may w t s c true) (hf : w.mutex s = none) :
    Steps file may v (inCall w t s c) :=
  .step t (.step t hs (.call w s c hi hm)) (.enter (w.set t (.asking s c)) s c (by simp [Crew.set]) hf)

/-- Thread `t` has locked bytes with the wrapper of stream `s`. -/
def crewLock (w : Crew) (t s a n : Nat) : Crew :=
  ({ (inCall w t s (.lock false a n true)) with
      locks := w.locks ++ [⟨t, ⟨s, false, a, newEnd a (some (n : Int))⟩⟩] } : Crew).leave t s true

theorem lockedBy {file : Nat → Nat} {may : Crew → Nat → Nat → Order → Bool → Prop} {t s a n : Nat} {v w : Crew}
    (hs : Steps file may v w) (hi : w.thread t = .idle) (hm : may w t s (.lock false a n true) true) (hf : w.mutex s = none)
    (hv : w.verdict file s false a n = .ok true) : Steps file may v (crewLock w t s a n) :=
  .step t (through hs hi hm hf)
    (.grant (inCall w t s (.lock false a n true)) s false a n true true (by simp [inCall, Crew.set]) hv)

/-- Two streams, 1 and 2, on one file.  Thread 0 locks the file with stream 1; thread 1 waits in `lock_file` of stream 2; thread
0 calls a method of stream 2. -/
def exOther : Crew := (inCall (crewLock new 0 1 0 0) 1 2 (.lock false 0 0 true)).set 0 (.asking 2 .use)

def exOtherHeld : List Holding := [⟨0, ⟨1, false, 0, none⟩⟩]

def exOtherDuty : Nat → Duty
  | 0 => .asking 2 .use
  | _ => .inside 2 (.lock false 0 0 true) true

/-- The claim is false when a thread that has a lock uses another wrapper, even if all locks are locks of the whole file: both
threads hang. -/
theorem C116_other_refuted : ∃ (file : Nat → Nat) (w : Crew), Steps file OneLock new w ∧ Hangs file OneLock 0 w ∧ Hangs file OneLock 1 w ∧
    ∀ x ∈ w.locks, x.lock.start = 0 ∧ x.lock.stop = none := by
  have hs : Steps (fun _ => 0) OneLock new exOther := by
    refine .step 0 (through (lockedBy (.refl _) rfl nofun rfl rfl) rfl ?_ rfl) (.call _ 2 .use rfl trivial)
    intro h hh
    cases List.mem_singleton.1 hh
    nofun
  have hk : Knot (fun _ => 0) (fun t => t < 2) exOtherDuty exOtherHeld := by
    refine ⟨?_, ?_⟩
    · intro x hx
      cases List.mem_singleton.1 hx
      exact Nat.zero_lt_two
    · intro t ht
      match t, ht with
      | 0, _ => exact .inl ⟨2, .use, 1, _, rfl, Nat.one_lt_two, rfl⟩
      | 1, _ => exact .inr ⟨2, false, 0, 0, rfl, fun M => rfl⟩
  have hd : ∀ u, u < 2 → exOther.thread u = exOtherDuty u := by
    intro u hu
    match u, hu with
    | 0, _ => rfl
    | 1, _ => rfl
  refine ⟨_, exOther, hs, hk.hangs (fun _ _ _ _ _ h => h) hs hd rfl Nat.zero_lt_two,
    hk.hangs (fun _ _ _ _ _ h => h) hs hd rfl Nat.one_lt_two, ?_⟩
  intro x hx
  cases List.mem_singleton.1 hx
  exact ⟨rfl, rfl⟩

/-- Thread 0 locks byte 0 with stream 1 and thread 1 locks byte 1 with stream 2; thread 2 waits for byte 1 in `lock_file` of
stream 1, thread 3 for byte 0 in `lock_file` of stream 2; threads 0 and 1 call `unlock_file`. -/
def exCross : Crew :=
  ((inCall (inCall (crewLock (crewLock new 0 1 0 1) 1 2 1 1) 2 1 (.lock false 1 1 true)) 3 2 (.lock false 0 1 true)).set 0
    (.asking 1 (.unlock 0 1))).set 1 (.asking 2 (.unlock 1 1))

def exCrossHeld : List Holding := [⟨0, ⟨1, false, 0, some 1⟩⟩, ⟨1, ⟨2, false, 1, some 2⟩⟩]

def exCrossDuty : Nat → Duty
  | 0 => .asking 1 (.unlock 0 1)
  | 1 => .asking 2 (.unlock 1 1)
  | 2 => .inside 1 (.lock false 1 1 true) true
  | _ => .inside 2 (.lock false 0 1 true) true

/-- The claim is false even when threads that have a lock use only the stream that they have locked with: all threads hang, those
that only want to remove their locks too. -/
theorem C116_cross_refuted : ∃ (file : Nat → Nat) (w : Crew), Steps file Faithful new w ∧ (∀ t, t < 4 → Hangs file Faithful t w) ∧
    w.thread 0 = .asking 1 (.unlock 0 1) ∧ w.thread 1 = .asking 2 (.unlock 1 1) := by
  have hs : Steps (fun _ => 0) Faithful new exCross := by
    have h1 : Steps (fun _ => 0) Faithful new (crewLock new 0 1 0 1) := lockedBy (.refl _) rfl ⟨nofun, nofun⟩ rfl rfl
    have h2 : Steps (fun _ => 0) Faithful new (crewLock (crewLock new 0 1 0 1) 1 2 1 1) := by
      refine lockedBy h1 rfl ⟨?_, fun _ => ?_⟩ rfl rfl
      · intro h hh; cases List.mem_singleton.1 hh; nofun
      · intro h hh; cases List.mem_singleton.1 hh; nofun
    have none : ∀ t, 2 ≤ t → ∀ h ∈ exCrossHeld, h.owner ≠ t := by
      intro t ht h hh e
      simp only [exCrossHeld, List.mem_cons, List.not_mem_nil, or_false] at hh
      rcases hh with rfl | rfl <;> simp at e <;> omega
    have h3 := through (t := 2) (s := 1) (c := .lock false 1 1 true) h2 rfl ⟨none 2 (by omega), fun _ h hh e => absurd e (none 2 (by omega) h hh)⟩ rfl
    have h4 := through (t := 3) (s := 2) (c := .lock false 0 1 true) h3 rfl ⟨none 3 (by omega), fun _ h hh e => absurd e (none 3 (by omega) h hh)⟩ rfl
    refine .step 1 (.step 0 h4 (.call _ 1 (.unlock 0 1) rfl ⟨?_, fun _ => ?_⟩)) (.call _ 2 (.unlock 1 1) rfl ⟨?_, fun _ => ?_⟩)
    · exact ⟨_, List.mem_cons_self, rfl, rfl, rfl, rfl⟩
    · intro h hh e
      change h ∈ exCrossHeld at hh
      simp only [exCrossHeld, List.mem_cons, List.not_mem_nil, or_false] at hh
      rcases hh with rfl | rfl
      · rfl
      · cases e
    · exact ⟨_, List.mem_cons_of_mem _ List.mem_cons_self, rfl, rfl, rfl, rfl⟩
    · intro h hh e
      change h ∈ exCrossHeld at hh
      simp only [exCrossHeld, List.mem_cons, List.not_mem_nil, or_false] at hh
      rcases hh with rfl | rfl
      · cases e
      · rfl
  have hk : Knot (fun _ => 0) (fun t => t < 4) exCrossDuty exCrossHeld := by
    refine ⟨?_, ?_⟩
    · intro x hx
      simp only [exCrossHeld, List.mem_cons, List.not_mem_nil, or_false] at hx
      rcases hx with rfl | rfl <;> decide
    · intro t ht
      match t, ht with
      | 0, _ => exact .inl ⟨1, _, 2, _, rfl, by decide, rfl⟩
      | 1, _ => exact .inl ⟨2, _, 3, _, rfl, by decide, rfl⟩
      | 2, _ => exact .inr ⟨1, false, 1, 1, rfl, fun M => rfl⟩
      | 3, _ => exact .inr ⟨2, false, 0, 1, rfl, fun M => rfl⟩
  have hd : ∀ u, u < 4 → exCross.thread u = exCrossDuty u := by
    intro u hu
    match u, hu with
    | 0, _ => rfl
    | 1, _ => rfl
    | 2, _ => rfl
    | 3, _ => rfl
  exact ⟨_, exCross, hs, fun t ht => hk.hangs (fun _ _ _ _ _ h => h.1) hs hd rfl ht, rfl, rfl⟩

/-! ## Examples -/

/-- Thread 0 has locked the file with stream 1 and calls a method of it; thread 1 waits in `lock_file` of stream 2. -/
example : ∃ w, Steps (fun _ => 0) (Central 0) new w ∧ w.thread 0 = .asking 1 .use ∧
    w.thread 1 = .inside 2 (.lock false 0 0 true) true ∧ w.verdict (fun _ => 0) 2 false 0 0 = .ok false := by
  refine ⟨(inCall (crewLock new 0 1 0 0) 1 2 (.lock false 0 0 true)).set 0 (.asking 1 .use), ?_, rfl, rfl, rfl⟩
  refine .step 0 (through (lockedBy (.refl _) rfl ⟨⟨nofun, nofun⟩, ?_⟩ rfl rfl) rfl ⟨⟨?_, fun _ => ?_⟩, ?_⟩ rfl) (.call _ 1 .use rfl ⟨⟨trivial, fun _ => ?_⟩, nofun⟩)
  · intro _ _ _ _ e; cases e; exact ⟨Nat.le_refl _, .inl rfl⟩
  · intro h hh; cases List.mem_singleton.1 hh; nofun
  · intro h hh; cases List.mem_singleton.1 hh; nofun
  · intro _ _ _ _ e; cases e; exact ⟨Nat.le_refl _, .inl rfl⟩
  · intro h hh; cases List.mem_singleton.1 hh; exact fun _ => rfl

/-- The same with a stream for each thread. -/
example : ∃ w, Steps (fun _ => 0) (Private fun s => s - 1) new w ∧ w.thread 1 = .inside 2 (.lock false 0 0 true) true ∧
    w.verdict (fun _ => 0) 2 false 0 0 = .ok false := by
  refine ⟨inCall (crewLock new 0 1 0 0) 1 2 (.lock false 0 0 true), ?_, rfl, rfl⟩
  refine through (lockedBy (.refl _) rfl ⟨nofun, rfl⟩ rfl rfl) rfl ⟨?_, rfl⟩ rfl
  intro h hh; cases List.mem_singleton.1 hh; nofun

/-- Calls with timeouts, in the position of `C116_other_refuted`. -/
example : ∃ w, Steps (fun _ => 0) Timed new w ∧ w.thread 0 = .asking 2 .use ∧ w.thread 1 = .inside 2 (.lock false 0 0 false) true ∧
    w.verdict (fun _ => 0) 2 false 0 0 = .ok false := by
  have h0 : Steps (fun _ => 0) Timed new (inCall new 0 1 (.lock false 0 0 false)) :=
    through (.refl _) rfl ⟨nofun, by intro _ _ _ _ e; cases e; rfl⟩ rfl
  have h1 := Steps.step 0 h0 (.grant _ 1 false 0 0 false true rfl rfl)
  refine ⟨_, .step 0 (through (t := 1) (s := 2) (c := .lock false 0 0 false) h1 rfl ⟨?_, by intro _ _ _ _ e; cases e; rfl⟩ rfl)
    (.call _ 2 .use rfl ⟨trivial, nofun⟩), rfl, rfl, rfl⟩
  intro h hh; cases List.mem_singleton.1 hh; nofun

/-- A thread waits for a lock of a stream without a wrapper. -/
example : ∃ w, Steps (fun _ => 0) Unwrapped new w ∧ w.thread 1 = .inside 2 (.lock false 0 0 true) false ∧
    w.verdict (fun _ => 0) 2 false 0 0 = .ok false := by
  have h0 := Steps.step 0 (.refl new) (Step.direct (file := fun _ => 0) (may := Unwrapped) new 1 (.lock false 0 0 true) rfl ⟨nofun, rfl⟩)
  have h1 := Steps.step 0 h0 (.grant _ 1 false 0 0 true false rfl rfl)
  refine ⟨_, .step 1 h1 (.direct _ 2 (.lock false 0 0 true) rfl ⟨?_, rfl⟩), rfl, rfl⟩
  intro h hh; cases List.mem_singleton.1 hh; nofun

end Verif.Props
