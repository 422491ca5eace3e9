import Verif.Spec.Crew

/-!
# Threads that share streams: what holds in every state, and when all calls can end
-/

set_option autoImplicit false

namespace Verif

theorem scan_true {s : Nat} {sh : Bool} {a : Int} {e : Option Int} {l : List LockRec} (h : scanLocks s sh a e l = .ok true) :
    ∀ r ∈ l, r.handle = s → areasOverlap r a e = false := by
  induction l with
  | nil => intro r hr; cases hr
  | cons x xs ih =>
    unfold scanLocks at h
    intro r hr hs
    by_cases h1 : x.handle ≠ s ∧ x.shared = true ∧ sh = true
    · rw [if_pos h1] at h
      rcases List.mem_cons.1 hr with rfl | hr
      · exact absurd hs h1.1
      · exact ih h r hr hs
    · rw [if_neg h1] at h
      by_cases h2 : areasOverlap x a e = true
      · rw [if_pos h2] at h
        split at h <;> cases h
      · rw [if_neg h2] at h
        rcases List.mem_cons.1 hr with rfl | hr
        · simpa using h2
        · exact ih h r hr hs

theorem scan_false {s : Nat} {sh : Bool} {a : Int} {e : Option Int} {l : List LockRec} (h : scanLocks s sh a e l = .ok false) : l ≠ [] := by
  rintro rfl
  cases h

theorem overlap_self {r : LockRec} {s a n : Nat} (h : r.matchesRange s a (newEnd a (some (n : Int))) = true) :
    areasOverlap r a (newEnd a (some (n : Int))) = true := by
  unfold LockRec.matchesRange at h
  have ⟨_, h1, h2⟩ := of_decide_eq_true h
  unfold areasOverlap
  rw [h2, h1]
  unfold newEnd minEnd
  dsimp only
  by_cases hn : (n : Int) = 0
  · rw [if_pos hn]
  · rw [if_neg hn]
    have hp : (0 : Int) < n := by omega
    simp only [Int.lt_irrefl, if_false, decide_eq_true_eq]
    omega

/-- The bytes of the range include byte `k`. -/
def Spans (k : Nat) (start : Int) (stop : Option Int) : Prop := start ≤ k ∧ ∀ e, stop = some e → (k : Int) < e

theorem overlap_of_spans {k : Nat} {r : LockRec} {a : Int} {e : Option Int} (h1 : Spans k r.start r.stop) (h2 : Spans k a e) :
    areasOverlap r a e = true := by
  unfold areasOverlap
  cases hr : r.stop with
  | none =>
    cases e with
    | none => rfl
    | some y =>
      have := h2.2 y rfl
      have := h1.1
      have := h2.1
      simp [minEnd]
      omega
  | some x =>
    have := h1.2 x hr
    have := h1.1
    have := h2.1
    cases e with
    | none => simp [minEnd]; omega
    | some y =>
      have := h2.2 y rfl
      simp only [minEnd]
      by_cases hxy : y < x <;> simp [hxy] <;> omega

namespace Crew

theorem matching_iff (s a n : Nat) (h : Holding) : matching s a n h = true ↔
    h.lock.handle = s ∧ h.lock.start = a ∧ h.lock.stop = (if n = 0 then none else some ((a : Int) + n)) := by
  have e : newEnd (a : Int) (some (n : Int)) = (if n = 0 then none else some ((a : Int) + n)) := by
    unfold newEnd
    by_cases hn : n = 0
    · simp [hn]
    · have : ¬ (n : Int) = 0 := by omega
      simp [hn]
  unfold matching LockRec.matchesRange
  rw [e]
  exact ⟨of_decide_eq_true, decide_eq_true⟩

/-- The call in which a thread is. -/
def order : Duty → Option (Nat × Order)
  | .idle => none
  | .asking s c => some (s, c)
  | .inside s c _ => some (s, c)

structure Inv (w : Crew) : Prop where
  taken : ∀ s t, w.mutex s = some t → ∃ c, w.thread t = .inside s c true
  has : ∀ s t c, w.thread t = .inside s c true → w.mutex s = some t
  lk : ∀ t s sh a n p, order (w.thread t) = some (s, .lock sh a n p) → ∀ h ∈ w.locks, h.owner ≠ t
  ul : ∀ t s a n, order (w.thread t) = some (s, .unlock a n) → ∃ h ∈ w.locks, h.owner = t ∧ matching s a n h = true
  keys : w.locks.Pairwise fun x y => ∀ s a n, ¬ (matching s a n x = true ∧ matching s a n y = true)
  shape : ∀ h ∈ w.locks, ∃ a n, matching h.lock.handle a n h = true
  single : w.locks.Pairwise fun x y => x.owner ≠ y.owner

theorem only_one {l : List Holding} (hp : l.Pairwise fun x y => ∀ s a n, ¬ (matching s a n x = true ∧ matching s a n y = true))
    {s a n : Nat} {x y : Holding} (hx : x ∈ l) (hy : y ∈ l) (h1 : matching s a n x = true) (h2 : matching s a n y = true) : x = y := by
  induction l with
  | nil => cases hx
  | cons z zs ih =>
    have hp' := List.pairwise_cons.1 hp
    rcases List.mem_cons.1 hx with rfl | hx
    · rcases List.mem_cons.1 hy with rfl | hy
      · rfl
      · exact absurd ⟨h1, h2⟩ (hp'.1 y hy s a n)
    · rcases List.mem_cons.1 hy with hy | hy
      · exact absurd ⟨hy ▸ h2, h1⟩ (hp'.1 x hx s a n)
      · exact ih hp'.2 hx hy

/-- The locks of the other threads stay when a thread removes one of its own. -/
theorem Inv.stays {w : Crew} (hw : w.Inv) {t s a n : Nat} (hu : order (w.thread t) = some (s, .unlock a n)) {h : Holding}
    (hh : h ∈ w.locks) (ho : h.owner ≠ t) : h ∈ w.locks.eraseP (matching s a n) := by
  obtain ⟨x, hx, hxo, hxm⟩ := hw.ul t s a n hu
  by_cases hm : matching s a n h = true
  · have := only_one hw.keys hx hh hxm hm
    subst this
    exact absurd hxo ho
  · exact (List.mem_eraseP_of_neg hm).2 hh

theorem Inv.fewer {w : Crew} (hw : w.Inv) {t s a n : Nat} (hu : order (w.thread t) = some (s, .unlock a n)) :
    (w.locks.eraseP (matching s a n)).length + 1 = w.locks.length := by
  obtain ⟨x, hx, _, hxm⟩ := hw.ul t s a n hu
  have := List.length_eraseP_of_mem hx hxm
  have := List.length_pos_of_mem hx
  omega

theorem new_inv : new.Inv :=
  ⟨nofun, nofun, nofun, nofun, List.Pairwise.nil, nofun, List.Pairwise.nil⟩

/-- The end of a call: the invariant from what is known of the locks. -/
theorem Inv.left {w : Crew} (hw : w.Inv) {t s : Nat} {c : Order} {l : Bool} (hi : w.thread t = .inside s c l) (L : List Holding)
    (hlk : ∀ u, u ≠ t → (∀ h ∈ w.locks, h.owner ≠ u) → ∀ h ∈ L, h.owner ≠ u)
    (hul : ∀ u, u ≠ t → ∀ h ∈ w.locks, h.owner = u → h ∈ L)
    (hk : L.Pairwise fun x y => ∀ s a n, ¬ (matching s a n x = true ∧ matching s a n y = true))
    (hs : ∀ h ∈ L, ∃ a n, matching h.lock.handle a n h = true) (hg : L.Pairwise fun x y => x.owner ≠ y.owner) :
    (({ w with locks := L } : Crew).leave t s l).Inv where
  taken := by
    intro r u hm
    dsimp only [leave] at hm ⊢
    by_cases hr : l = true ∧ r = s
    · rw [if_pos hr] at hm; cases hm
    · rw [if_neg hr] at hm
      obtain ⟨d, hd⟩ := hw.taken r u hm
      by_cases hu : u = t
      · subst hu
        rw [hi] at hd
        cases hd
        exact absurd ⟨rfl, rfl⟩ hr
      · rw [if_neg hu]
        exact ⟨d, hd⟩
  has := by
    intro r u d hd
    dsimp only [leave] at hd ⊢
    by_cases hu : u = t
    · rw [if_pos hu] at hd; cases hd
    · rw [if_neg hu] at hd
      have hm := hw.has r u d hd
      by_cases hr : l = true ∧ r = s
      · obtain ⟨rfl, rfl⟩ := hr
        have := hw.has r t c hi
        rw [hm] at this
        exact absurd (Option.some.inj this) hu
      · rw [if_neg hr]; exact hm
  lk := by
    intro u r sh a n p ho
    dsimp only [leave] at ho ⊢
    by_cases hu : u = t
    · rw [if_pos hu] at ho; cases ho
    · rw [if_neg hu] at ho
      exact hlk u hu (hw.lk u r sh a n p ho)
  ul := by
    intro u r a n ho
    dsimp only [leave] at ho ⊢
    by_cases hu : u = t
    · rw [if_pos hu] at ho; cases ho
    · rw [if_neg hu] at ho
      obtain ⟨h, hh, ho', hm⟩ := hw.ul u r a n ho
      exact ⟨h, hul u hu h hh ho', ho', hm⟩
  keys := hk
  shape := hs
  single := hg

theorem Inv.began {w : Crew} (hw : w.Inv) {t s : Nat} {c : Order} {p : Bool} (hi : w.thread t = .idle) (hm : OneLock w t s c p)
    (d : Duty) (hd : order d = some (s, c)) (hn : ∀ r e, d ≠ .inside r e true) : (w.set t d).Inv where
  taken := by
    intro r u hr
    obtain ⟨e, he⟩ := hw.taken r u hr
    dsimp only [set]
    by_cases hu : u = t
    · subst hu; rw [hi] at he; cases he
    · rw [if_neg hu]; exact ⟨e, he⟩
  has := by
    intro r u e he
    dsimp only [set] at he ⊢
    by_cases hu : u = t
    · rw [if_pos hu] at he; exact absurd he (hn r e)
    · rw [if_neg hu] at he; exact hw.has r u e he
  lk := by
    intro u r sh a n p' ho
    dsimp only [set] at ho ⊢
    by_cases hu : u = t
    · rw [if_pos hu, hd] at ho
      cases ho
      subst hu
      exact hm
    · rw [if_neg hu] at ho; exact hw.lk u r sh a n p' ho
  ul := by
    intro u r a n ho
    dsimp only [set] at ho ⊢
    by_cases hu : u = t
    · rw [if_pos hu, hd] at ho
      cases ho
      subst hu
      obtain ⟨h, h1, h2, h3⟩ := hm
      exact ⟨h, h1, h2, (matching_iff _ _ _ h).2 h3⟩
    · rw [if_neg hu] at ho; exact hw.ul u r a n ho
  keys := hw.keys
  shape := hw.shape
  single := hw.single

theorem matching_self (t s : Nat) (sh : Bool) (a n : Nat) : matching s a n ⟨t, ⟨s, sh, a, newEnd a (some (n : Int))⟩⟩ = true := by
  simp [matching, LockRec.matchesRange]

theorem Step.inv {file : Nat → Nat} {may : Crew → Nat → Nat → Order → Bool → Prop}
    (hmay : ∀ w t s c p, may w t s c p → OneLock w t s c p) {t : Nat} {w w' : Crew} (hs : Step file may t w w') (hw : w.Inv) :
    w'.Inv := by
  cases hs with
  | call s c hi hm => exact hw.began hi (hmay _ _ _ _ _ hm) _ rfl (by intro r e h; cases h)
  | direct s c hi hm => exact hw.began hi (hmay _ _ _ _ _ hm) _ rfl (by intro r e h; cases h)
  | enter s c hi hm =>
    refine ⟨?_, ?_, ?_, ?_, hw.keys, hw.shape, hw.single⟩
    · intro r u hr
      dsimp only [set] at hr ⊢
      by_cases hrs : r = s
      · rw [if_pos hrs] at hr
        cases hr
        exact ⟨c, by rw [if_pos rfl, hrs]⟩
      · rw [if_neg hrs] at hr
        obtain ⟨e, he⟩ := hw.taken r u hr
        by_cases hu : u = t
        · subst hu; rw [hi] at he; cases he
        · exact ⟨e, by rw [if_neg hu]; exact he⟩
    · intro r u e he
      dsimp only [set] at he ⊢
      by_cases hu : u = t
      · rw [if_pos hu] at he
        cases he
        rw [if_pos rfl, hu]
      · rw [if_neg hu] at he
        have := hw.has r u e he
        by_cases hrs : r = s
        · subst hrs; rw [hm] at this; cases this
        · rw [if_neg hrs]; exact this
    · intro u r sh a n p ho
      dsimp only [set] at ho ⊢
      by_cases hu : u = t
      · rw [if_pos hu] at ho
        exact hw.lk u r sh a n p (by rw [hu, hi]; exact ho)
      · rw [if_neg hu] at ho; exact hw.lk u r sh a n p ho
    · intro u r a n ho
      dsimp only [set] at ho ⊢
      by_cases hu : u = t
      · rw [if_pos hu] at ho
        exact hw.ul u r a n (by rw [hu, hi]; exact ho)
      · rw [if_neg hu] at ho; exact hw.ul u r a n ho
  | grant s sh a n p l hi hv =>
    refine hw.left hi _ ?_ ?_ ?_ ?_ ?_
    · intro u hu hx h hh
      rcases List.mem_append.1 hh with hh | hh
      · exact hx h hh
      · cases List.mem_singleton.1 hh
        exact fun e => hu e.symm
    · intro u _ h hh _
      exact List.mem_append_left _ hh
    · refine List.pairwise_append.2 ⟨hw.keys, List.pairwise_singleton _ _, ?_⟩
      intro x hx y hy s' a' n' ⟨h1, h2⟩
      cases List.mem_singleton.1 hy
      obtain ⟨e1, e2, e3⟩ := of_decide_eq_true h2
      dsimp only at e1 e2 e3
      have e2 : a = a' := by omega
      subst e1 e2
      have e1 := h1
      simp only [matching] at e1
      have hx1 : x.lock.handle = s := by
        exact (of_decide_eq_true h1).1
      have := scan_true hv x.lock (by
        unfold entry
        exact List.mem_map.2 ⟨x, List.mem_filter.2 ⟨hx, by simp [hx1]⟩, rfl⟩) hx1
      rw [e3, overlap_self e1] at this
      cases this
    · intro h hh
      rcases List.mem_append.1 hh with hh | hh
      · exact hw.shape h hh
      · cases List.mem_singleton.1 hh
        exact ⟨a, n, matching_self t s sh a n⟩
    · refine List.pairwise_append.2 ⟨hw.single, List.pairwise_singleton _ _, ?_⟩
      intro x hx y hy
      cases List.mem_singleton.1 hy
      exact hw.lk t s sh a n p (by rw [hi]; rfl) x hx
  | refuse s sh a n p l e hi hv =>
    exact hw.left hi w.locks (fun _ _ h => h) (fun _ _ _ h _ => h) hw.keys hw.shape hw.single
  | expire s sh a n l hi =>
    exact hw.left hi w.locks (fun _ _ h => h) (fun _ _ _ h _ => h) hw.keys hw.shape hw.single
  | unlock s a n l hi =>
    have ho : order (w.thread t) = some (s, .unlock a n) := by rw [hi]; rfl
    refine hw.left hi _ ?_ ?_ ?_ ?_ ?_
    · intro u _ hx h hh
      exact hx h (List.mem_of_mem_eraseP hh)
    · intro u hu h hh hhu
      exact hw.stays ho hh (by rw [hhu]; exact hu)
    · exact hw.keys.sublist List.eraseP_sublist
    · intro h hh
      exact hw.shape h (List.mem_of_mem_eraseP hh)
    · exact hw.single.sublist List.eraseP_sublist
  | use s l hi =>
    exact hw.left hi w.locks (fun _ _ h => h) (fun _ _ _ h _ => h) hw.keys hw.shape hw.single

theorem Steps.inv {file : Nat → Nat} {may : Crew → Nat → Nat → Order → Bool → Prop}
    (hmay : ∀ w t s c p, may w t s c p → OneLock w t s c p) {w w' : Crew} (hs : Steps file may w w') (hw : w.Inv) : w'.Inv := by
  induction hs with
  | refl => exact hw
  | step t _ h ih => exact h.inv hmay ih

theorem Steps.head {file : Nat → Nat} {may : Crew → Nat → Nat → Order → Bool → Prop} {t : Nat} {w w' w'' : Crew}
    (h : Step file may t w w') (hs : Steps file may w' w'') : Steps file may w w'' := by
  induction hs with
  | refl => exact .step t (.refl _) h
  | step u _ h' ih => exact .step u ih h'

/-! ## Work that is left -/

/-- The steps that are left of a call, and of the removal of a lock. -/
def weight : Duty → Nat
  | .idle => 2
  | .asking _ (.unlock _ _) => 1
  | .inside _ (.unlock _ _) _ => 0
  | .asking _ .use => 4
  | .inside _ .use _ => 3
  | .asking _ (.lock _ _ _ _) => 8
  | .inside _ (.lock _ _ _ _) _ => 7

def total (f : Nat → Nat) : Nat → Nat
  | 0 => 0
  | n + 1 => total f n + f n

theorem total_same {f g : Nat → Nat} {n : Nat} (h : ∀ u, u < n → g u = f u) : total g n = total f n := by
  induction n with
  | zero => rfl
  | succ k ih =>
    simp only [total]
    rw [ih (fun u hu => h u (by omega)), h k (by omega)]

theorem total_one {f g : Nat → Nat} {t : Nat} (h : ∀ u, u ≠ t → g u = f u) {n : Nat} (ht : t < n) :
    total g n + f t = total f n + g t := by
  induction n with
  | zero => omega
  | succ k ih =>
    simp only [total]
    by_cases hk : t = k
    · subst hk
      rw [total_same (f := f) (g := g) (n := t) (fun u hu => h u (by omega))]
      omega
    · have := ih (by omega)
      rw [h k (fun e => hk e.symm)]
      omega

def work (N : Nat) (w : Crew) : Nat := 4 * w.locks.length + total (fun t => weight (w.thread t)) N

/-- The threads from `N` on have not been used. -/
def Below (N : Nat) (w : Crew) : Prop := (∀ t, N ≤ t → w.thread t = .idle) ∧ ∀ h ∈ w.locks, h.owner < N

theorem work_less {N t : Nat} {w w' : Crew} (ht : t < N) (h : ∀ u, u ≠ t → w'.thread u = w.thread u)
    (hl : 4 * w'.locks.length + weight (w'.thread t) < 4 * w.locks.length + weight (w.thread t)) : work N w' < work N w := by
  unfold work
  have := total_one (f := fun u => weight (w.thread u)) (g := fun u => weight (w'.thread u)) (t := t) (fun u hu => by rw [h u hu]) ht
  omega

theorem Step.thread_other {file : Nat → Nat} {may : Crew → Nat → Nat → Order → Bool → Prop} {t : Nat} {w w' : Crew}
    (hs : Step file may t w w') {u : Nat} (hu : u ≠ t) : w'.thread u = w.thread u := by
  cases hs <;> simp [set, leave, hu]

theorem Step.locks_owner {file : Nat → Nat} {may : Crew → Nat → Nat → Order → Bool → Prop} {t : Nat} {w w' : Crew}
    (hs : Step file may t w w') {h : Holding} (hh : h ∈ w'.locks) : h ∈ w.locks ∨ h.owner = t := by
  cases hs with
  | grant s sh a n p l hi hv =>
    rcases List.mem_append.1 hh with hh | hh
    · exact .inl hh
    · cases List.mem_singleton.1 hh; exact .inr rfl
  | unlock s a n l hi => exact .inl (List.mem_of_mem_eraseP hh)
  | _ => exact .inl hh

theorem Step.stillBelow {file : Nat → Nat} {may : Crew → Nat → Nat → Order → Bool → Prop} {t N : Nat} {w w' : Crew}
    (hs : Step file may t w w') (ht : t < N) (hb : Below N w) : Below N w' := by
  refine ⟨fun u hu => ?_, fun h hh => ?_⟩
  · rw [hs.thread_other (by omega)]
    exact hb.1 u hu
  · rcases hs.locks_owner hh with h' | h'
    · exact hb.2 h h'
    · omega

theorem Below.mono {N M : Nat} {w : Crew} (h : Below N w) (hm : N ≤ M) : Below M w :=
  ⟨fun t ht => h.1 t (by omega), fun x hx => by have := h.2 x hx; omega⟩

theorem Steps.someBelow {file : Nat → Nat} {may : Crew → Nat → Nat → Order → Bool → Prop} {w : Crew} (hs : Steps file may new w) :
    ∃ N, Below N w := by
  generalize hn : new = v at hs
  induction hs with
  | refl => exact ⟨0, by subst hn; exact ⟨fun _ _ => rfl, nofun⟩⟩
  | step t _ h ih =>
    obtain ⟨N, hN⟩ := ih
    exact ⟨max N (t + 1), h.stillBelow (by omega) (hN.mono (by omega))⟩

/-- An idle owner of a lock can remove it. -/
def Releases (may : Crew → Nat → Nat → Order → Bool → Prop) (way : Nat → Bool) (w : Crew) : Prop :=
  ∀ h ∈ w.locks, ∀ a n, matching h.lock.handle a n h = true → may w h.owner h.lock.handle (.unlock a n) (way h.owner)

/-- The new calls are removals of locks. -/
def Only (may : Crew → Nat → Nat → Order → Bool → Prop) (way : Nat → Bool) (w : Crew) (t s : Nat) (c : Order) (p : Bool) : Prop :=
  may w t s c p ∧ (∃ a n, c = .unlock a n) ∧ p = way t

/-- The owner of the oldest lock of a file does not wait for a mutex whose owner waits for a lock. -/
def Clear (file : Nat → Nat) (w : Crew) : Prop :=
  ∀ f h rest, (w.locks.filter fun x => file x.lock.handle = f) = h :: rest → ∀ s c, w.thread h.owner = .asking s c →
    ∀ u sh a n, w.thread u = .inside s (.lock sh a n true) true → w.verdict file s sh a n ≠ .ok false

theorem Step.mono {file : Nat → Nat} {may may' : Crew → Nat → Nat → Order → Bool → Prop}
    (hm : ∀ w t s c p, may w t s c p → may' w t s c p) {t : Nat} {w w' : Crew} (h : Step file may t w w') : Step file may' t w w' := by
  cases h with
  | call s c hi h => exact .call w s c hi (hm _ _ _ _ _ h)
  | direct s c hi h => exact .direct w s c hi (hm _ _ _ _ _ h)
  | enter s c hi h => exact .enter w s c hi h
  | grant s sh a n p l hi hv => exact .grant w s sh a n p l hi hv
  | refuse s sh a n p l e hi hv => exact .refuse w s sh a n p l e hi hv
  | expire s sh a n l hi => exact .expire w s sh a n l hi
  | unlock s a n l hi => exact .unlock w s a n l hi
  | use s l hi => exact .use w s l hi

theorem Steps.mono {file : Nat → Nat} {may may' : Crew → Nat → Nat → Order → Bool → Prop}
    (hm : ∀ w t s c p, may w t s c p → may' w t s c p) {w w' : Crew} (h : Steps file may w w') : Steps file may' w w' := by
  induction h with
  | refl => exact .refl _
  | step t _ h ih => exact .step t ih (h.mono hm)

theorem Steps.trans {file : Nat → Nat} {may : Crew → Nat → Nat → Order → Bool → Prop} {w w' w'' : Crew} (h : Steps file may w w')
    (h' : Steps file may w' w'') : Steps file may w w'' := by
  induction h' with
  | refl => exact h
  | step t _ s ih => exact .step t ih s

theorem progress {file : Nat → Nat} {may : Crew → Nat → Nat → Order → Bool → Prop} {way : Nat → Bool} {w : Crew} (hw : w.Inv) (hr : Releases may way w)
    (hc : Clear file w) {N : Nat} (hb : Below N w) (hn : ¬ ((∀ t, w.thread t = .idle) ∧ w.locks = [])) :
    ∃ t w', t < N ∧ Step file (Only may way) t w w' ∧ work N w' < work N w := by
  refine Classical.byContradiction fun hno => ?_
  have below : ∀ t, w.thread t ≠ .idle → t < N := fun t ht => Nat.lt_of_not_le fun h => ht (hb.1 t h)
  have stop : ∀ t w', t < N → Step file (Only may way) t w w' →
      ¬ 4 * w'.locks.length + weight (w'.thread t) < 4 * w.locks.length + weight (w.thread t) :=
    fun t w' ht hs hl => hno ⟨t, w', ht, hs, work_less ht (fun u hu => hs.thread_other hu) hl⟩
  have ins : ∀ t s c l, w.thread t = .inside s c l → ∃ sh a n, c = .lock sh a n true ∧ w.verdict file s sh a n = .ok false := by
    intro t s c l hi
    have ht := below t (by rw [hi]; nofun)
    cases c with
    | lock sh a n p =>
      cases p with
      | false => exact absurd (by simp [leave, hi, weight]) (stop t _ ht (.expire w s sh a n l hi))
      | true =>
        refine ⟨sh, a, n, rfl, ?_⟩
        match hv : w.verdict file s sh a n with
        | .error e => exact absurd (by simp [leave, hi, weight]) (stop t _ ht (.refuse w s sh a n true l e hi hv))
        | .ok true =>
          refine absurd ?_ (stop t _ ht (.grant w s sh a n true l hi hv))
          simp [leave, hi, weight]
          omega
        | .ok false => rfl
    | unlock a n =>
      refine absurd ?_ (stop t _ ht (.unlock w s a n l hi))
      have := hw.fewer (t := t) (s := s) (a := a) (n := n) (by rw [hi]; rfl)
      simp only [leave, hi, if_true, weight]
      omega
    | use => exact absurd (by simp [leave, hi, weight]) (stop t _ ht (.use w s l hi))
  have ask : ∀ t s c, w.thread t = .asking s c → ∃ u sh a n, w.thread u = .inside s (.lock sh a n true) true ∧ w.verdict file s sh a n = .ok false := by
    intro t s c hi
    have ht := below t (by rw [hi]; nofun)
    match hm : w.mutex s with
    | none =>
      refine absurd ?_ (stop t _ ht (.enter w s c hi hm))
      cases c <;> simp [set, hi, weight]
    | some u =>
      obtain ⟨d, hd⟩ := hw.taken s u hm
      obtain ⟨sh, a, n, rfl, hv⟩ := ins u s d true hd
      exact ⟨u, sh, a, n, hd, hv⟩
  have own : ∀ h ∈ w.locks, w.thread h.owner ≠ .idle := by
    intro h hh hi
    obtain ⟨a, n, hm⟩ := hw.shape h hh
    have hp : Only may way w h.owner h.lock.handle (.unlock a n) (way h.owner) := ⟨hr h hh a n hm, ⟨a, n, rfl⟩, rfl⟩
    have ht := hb.2 h hh
    generalize way h.owner = q at hp
    cases q with
    | true => exact absurd (by simp [set, hi, weight]) (stop _ _ ht (.call w _ _ hi hp))
    | false => exact absurd (by simp [set, hi, weight]) (stop _ _ ht (.direct w _ _ hi hp))
  have some_active : ∃ t, w.thread t ≠ .idle := by
    refine Classical.byContradiction fun h => hn ⟨fun t => Classical.byContradiction fun ht => h ⟨t, ht⟩, ?_⟩
    cases hl : w.locks with
    | nil => rfl
    | cons x xs => exact absurd ⟨_, own x (by rw [hl]; exact List.mem_cons_self)⟩ h
  obtain ⟨t, ht⟩ := some_active
  have wait : ∃ s sh a n, w.verdict file s sh a n = .ok false := by
    cases hi : w.thread t with
    | idle => exact absurd hi ht
    | asking s c => obtain ⟨u, sh, a, n, _, hv⟩ := ask t s c hi; exact ⟨s, sh, a, n, hv⟩
    | inside s c l => obtain ⟨sh, a, n, _, hv⟩ := ins t s c l hi; exact ⟨s, sh, a, n, hv⟩
  obtain ⟨s, sh, a, n, hv⟩ := wait
  have hne := scan_false hv
  unfold entry at hne
  match hf : (w.locks.filter fun x => file x.lock.handle = file s) with
  | [] => rw [hf] at hne; exact hne rfl
  | h :: rest =>
    have hh : h ∈ w.locks := (List.mem_filter.1 (hf ▸ List.mem_cons_self : h ∈ w.locks.filter fun x => file x.lock.handle = file s)).1
    cases hi : w.thread h.owner with
    | idle => exact own h hh hi
    | asking s' c =>
      obtain ⟨u, sh', a', n', hu, hv'⟩ := ask h.owner s' c hi
      exact hc (file s) h rest hf s' c hi u sh' a' n' hu hv'
    | inside s' c l =>
      obtain ⟨sh', a', n', rfl, _⟩ := ins h.owner s' c l hi
      exact hw.lk h.owner s' sh' a' n' true (by rw [hi]; rfl) h hh rfl

theorem finishes {file : Nat → Nat} {may : Crew → Nat → Nat → Order → Bool → Prop}
    (hmay : ∀ w t s c p, may w t s c p → OneLock w t s c p) {way : Nat → Bool}
    (hr : ∀ w, Steps file may new w → Releases may way w)
    (hc : ∀ w, Steps file may new w → Clear file w) {w : Crew} (hs : Steps file may new w) : Finishes file may way w := by
  obtain ⟨N, hb⟩ := hs.someBelow
  generalize hk : work N w = k
  induction k using Nat.strongRecOn generalizing w with
  | ind k ih =>
    by_cases hd : (∀ t, w.thread t = .idle) ∧ w.locks = []
    · exact ⟨w, .refl w, hd.1, hd.2⟩
    · obtain ⟨t, w', ht, h, hl⟩ := progress (hs.inv hmay new_inv) (hr w hs) (hc w hs) hb hd
      obtain ⟨w'', h1, h2⟩ := ih _ (by omega) (.step t hs (h.mono fun _ _ _ _ _ h => h.1)) (h.stillBelow ht hb) rfl
      exact ⟨w'', .head h h1, h2⟩

end Crew

end Verif
