import Verif.Model.Wrapper

/-!
# The thread-safe wrapper: C51 and C52
-/

set_option autoImplicit false

namespace Verif.Props

open Verif Wrap

variable {σ : Type}

@[simp] theorem set_same (w : Wrap σ) (t : Nat) (s : Thread σ) : (w.set t s).thread t = s := by simp [Wrap.set]

theorem set_other (w : Wrap σ) {t u : Nat} (h : u ≠ t) (s : Thread σ) : (w.set t s).thread u = w.thread u := by
  simp [Wrap.set, h]

/-! ## C51 -/

/-- The number of protected calls that a thread is in. -/
def depth : Thread σ → Nat
  | .idle => 0
  | .looking _ => 0
  | .asking _ ks => (ks.filter Prod.fst).length
  | .active _ l ks => l.toNat + (ks.filter Prod.fst).length

/-- The mutex is owned by the thread that is in protected calls, once for each of them. -/
def Owned (w : Wrap σ) : Prop :=
  (∀ t, 0 < depth (w.thread t) → w.mutex = some (t, depth (w.thread t))) ∧
  ∀ t d, w.mutex = some (t, d) → d = depth (w.thread t) ∧ 0 < d

theorem Owned.other {w : Wrap σ} (h : Owned w) {t u d : Nat} (hm : w.mutex = some (t, d)) (hu : u ≠ t) :
    depth (w.thread u) = 0 := by
  rcases Nat.eq_zero_or_pos (depth (w.thread u)) with h0 | h0
  · exact h0
  · have := h.1 u h0
    rw [hm] at this
    cases this
    exact absurd rfl hu

/-- A step that changes neither the mutex nor the depth. -/
theorem Owned.keep {w w' : Wrap σ} {t : Nat} {s : Thread σ} (h : Owned w) (hm : w'.mutex = w.mutex)
    (ht : ∀ u, w'.thread u = if u = t then s else w.thread u) (hd : depth s = depth (w.thread t)) : Owned w' := by
  have hall : ∀ u, depth (w'.thread u) = depth (w.thread u) := by
    intro u
    rw [ht]
    split
    · rename_i hu; rw [hu]; exact hd
    · rfl
  constructor
  · intro u hu
    rw [hall] at hu ⊢
    rw [hm]
    exact h.1 u hu
  · intro u d hu
    rw [hm] at hu
    rw [hall]
    exact h.2 u d hu

theorem Owned.release {w w' : Wrap σ} {t : Nat} {s : Thread σ} (h : Owned w) {l : Bool} 
    (hm : w'.mutex = if l then w.mutex.bind fun o => if o.2 = 1 then none else some (o.1, o.2 - 1) else w.mutex)
    (ht : ∀ u, w'.thread u = if u = t then s else w.thread u) (hd : depth (w.thread t) = l.toNat + depth s) : Owned w' := by
  cases l with
  | false => exact h.keep hm ht (by rw [hd]; simp)
  | true =>
    have hpos : 0 < depth (w.thread t) := by rw [hd]; simp; omega
    have how := h.1 t hpos
    rw [how, hd] at hm
    simp only [if_true, Option.bind_some, Bool.toNat_true] at hm
    have hoth : ∀ u, u ≠ t → depth (w'.thread u) = 0 := by
      intro u hu
      rw [ht, if_neg hu]
      exact h.other how hu
    have hself : depth (w'.thread t) = depth s := by rw [ht, if_pos rfl]
    by_cases h0 : depth s = 0
    · rw [if_pos (by omega)] at hm
      constructor
      · intro u hu
        by_cases hut : u = t
        · rw [hut, hself] at hu; omega
        · rw [hoth u hut] at hu; omega
      · intro u d hu
        rw [hm] at hu; cases hu
    · rw [if_neg (by omega)] at hm
      constructor
      · intro u hu
        by_cases hut : u = t
        · rw [hut, hself, hm]
          simp
        · rw [hoth u hut] at hu; omega
      · intro u d hu
        rw [hm] at hu
        cases hu
        rw [hself]
        omega

theorem depth_begin (body : String → Int → Prog σ) (h : Handle) (arg : Int)
    (ks : List (Bool × (Except Exn Int → Prog σ))) : depth (begin body h arg ks) = (ks.filter Prod.fst).length := by
  cases h <;> simp [Wrap.begin, depth]

theorem Owned.step {body : String → Int → Prog σ} {t : Nat} {w w' : Wrap σ} (h : Owned w) (hs : Step body t w w') :
    Owned w' := by
  cases hs with
  | hit name hi hc => exact h
  | miss name hi hc => exact h.keep rfl (fun _ => rfl) (by rw [hi]; rfl)
  | store name hi => exact h.keep rfl (fun _ => rfl) (by rw [hi]; rfl)
  | invoke hd arg hi hh => exact h.keep rfl (fun _ => rfl) (by rw [hi, depth_begin]; rfl)
  | enter p ks hi hm =>
    have h0 : ∀ u, depth (w.thread u) = 0 := by
      intro u
      rcases Nat.eq_zero_or_pos (depth (w.thread u)) with h0 | h0
      · exact h0
      · have := h.1 u h0
        rw [hm] at this; cases this
    have hks : (ks.filter Prod.fst).length = 0 := by have := h0 t; rw [hi] at this; exact this
    constructor
    · intro u hu
      by_cases hut : u = t
      · subst hut
        rw [set_same]
        simp [Wrap.set, depth, hks]
      · rw [set_other _ hut] at hu
        exact absurd hu (by rw [show depth _ = 0 from h0 u]; omega)
    · intro u d hu
      cases hu
      rw [set_same]
      simp [depth, hks]
  | reenter p ks d hi hm =>
    obtain ⟨hd, hpos⟩ := h.2 t d hm
    rw [hi] at hd
    constructor
    · intro u hu
      by_cases hut : u = t
      · subst hut
        rw [set_same]
        simp only [Wrap.set, depth, Bool.toNat_true]
        rw [hd]
        simp [depth, Nat.add_comm]
      · rw [set_other _ hut] at hu
        exact absurd hu (by rw [show depth _ = 0 from h.other hm hut]; omega)
    · intro u d' hu
      cases hu
      rw [set_same]
      simp only [depth, Bool.toNat_true] at hd ⊢
      omega
  | act f k l ks hi => exact h.keep rfl (fun _ => rfl) (by rw [hi]; rfl)
  | call hd arg k l ks hi =>
    refine h.keep rfl (fun _ => rfl) ?_
    rw [hi, depth_begin]
    cases l <;> simp [depth, Nat.add_comm]
  | leave r l k l' ks hi =>
    refine h.release (l := l) rfl (fun _ => rfl) ?_
    rw [hi]
    cases l <;> cases l' <;> simp [depth, Nat.add_comm]
  | finish r l hi =>
    refine h.release (l := l) rfl (fun _ => rfl) ?_
    rw [hi]
    cases l <;> simp [depth]

theorem reach_owned {body : String → Int → Prog σ} {s0 : σ} {w : Wrap σ} (h : Reach body s0 w) : Owned w := by
  induction h with
  | new => exact ⟨by intro t h; simp [Wrap.new, depth] at h, by intro t d h; simp [Wrap.new] at h⟩
  | step t _ hs ih => exact ih.step hs

/-- The claim of C51: a thread that is in a method, all callables handed out being those of public names, owns the mutex. -/
def AlwaysProtected : Prop :=
  ∀ (σ : Type) (body : String → Int → Prog σ) (s0 : σ) (w : Wrap σ), Reach body s0 w →
    (∀ n, .direct n ∈ w.handles ∨ .proxy n ∈ w.handles → isPrivate n = false) →
    ∀ t p l ks, w.thread t = .active p l ks → ∃ d, w.mutex = some (t, d)

/-- A method that adds one to a number, in two steps. -/
def addOne : Prog Nat := .act (fun s => (s, s)) fun v => .act (fun _ => (v.toNat + 1, 0)) fun _ => .ret (.ok 0)

/-- Thread 1 has got the method for the first time and has called it. -/
def firstCall : Wrap Nat :=
  ({ Wrap.new 0 with cache := ["add"], handles := [.direct "add"] }.set 1 .idle).set 1 (.active addOne false [])

theorem firstCall_reach : Reach (fun _ _ => addOne) 0 firstCall := by
  have h1 := Reach.step 1 (Reach.new (body := fun _ _ => addOne) (s0 := 0)) (.miss _ "add" rfl (by simp [Wrap.new]))
  have h2 := Reach.step 1 h1 (.store _ "add" (set_same _ _ _))
  have h3 := Reach.step 1 h2 (.invoke _ (.direct "add") 0 (set_same _ _ _) (by simp [Wrap.set]))
  have he : firstCall = ({ ((Wrap.new 0).set 1 (.looking "add")) with
      cache := if isPrivate "add" then (Wrap.new 0).cache else "add" :: (Wrap.new 0).cache
      handles := .direct "add" :: (Wrap.new 0).handles }.set 1 .idle).set 1
        (Wrap.begin (fun _ _ => addOne) (.direct "add") 0 []) := by
    have hp : isPrivate "add" = false := by decide
    simp only [firstCall, Wrap.set, Wrap.begin, hp, Bool.false_eq_true, if_false]
    congr 1
    funext u
    by_cases hu : u = 1 <;> simp [hu]
  rw [he]
  exact h3

/-- C51 is false: the first call of every method goes to the stream itself, without the mutex. -/
theorem C51_refuted : ¬ AlwaysProtected := by
  intro h
  obtain ⟨d, hd⟩ := h Nat _ 0 firstCall firstCall_reach (by
    intro n hn
    simp [firstCall, Wrap.set] at hn
    rw [hn]
    decide) 1 addOne false [] (set_same _ _ _)
  simp [firstCall, Wrap.set, Wrap.new] at hd

/-- C51: a call that went through a proxy runs while its thread owns the mutex.
Missing: calls of what the first access to a name returned (`C51_refuted`), and of private names. -/
theorem C51_partial {body : String → Int → Prog σ} {s0 : σ} {w : Wrap σ} (h : Reach body s0 w) {t : Nat} {p : Prog σ}
    {ks : List (Bool × (Except Exn Int → Prog σ))} (ht : w.thread t = .active p true ks) :
    ∃ d, w.mutex = some (t, d) ∧ 0 < d := by
  have hpos : 0 < depth (w.thread t) := by rw [ht]; simp [depth]; omega
  exact ⟨_, (reach_owned h).1 t hpos, hpos⟩

/-- C51: no other thread is in a protected call at the same time. -/
theorem C51_exclusive {body : String → Int → Prog σ} {s0 : σ} {w : Wrap σ} (h : Reach body s0 w) {t u : Nat} {p q : Prog σ}
    {ks js : List (Bool × (Except Exn Int → Prog σ))} (ht : w.thread t = .active p true ks)
    (hu : w.thread u = .active q true js) : t = u := by
  obtain ⟨d, h1, _⟩ := C51_partial h ht
  obtain ⟨e, h2, _⟩ := C51_partial h hu
  rw [h1] at h2
  cases h2
  rfl

theorem cache_mono {body : String → Int → Prog σ} {t : Nat} {w w' : Wrap σ} (hs : Step body t w w') :
    ∀ n ∈ w.cache, n ∈ w'.cache := by
  intro n hn
  cases hs with
  | store name hi =>
    simp only [Wrap.set]
    split
    · exact hn
    · exact List.mem_cons_of_mem _ hn
  | _ => exact hn

/-- Zero or more steps of any threads. -/
inductive Later (body : String → Int → Prog σ) (w : Wrap σ) : Wrap σ → Prop
  | refl : Later body w w
  | step {w' w'' : Wrap σ} (t : Nat) : Later body w w' → Step body t w' w'' → Later body w w''

/-- C51: once an access to a public name has returned, no thread begins to look that name up on the stream any more,
all further accesses return the protected proxy.  Missing: see `C51_partial`. -/
theorem C51_later_partial {body : String → Int → Prog σ} {s0 : σ} {w w' : Wrap σ} (h : Reach body s0 w) {n : String}
    (hd : .direct n ∈ w.handles) (hp : isPrivate n = false) (hl : Later body w w') :
    n ∈ w'.cache ∧ ∀ t, w.thread t ≠ .looking n → w'.thread t ≠ .looking n := by
  have hc : ∀ {w : Wrap σ}, Reach body s0 w → .direct n ∈ w.handles → n ∈ w.cache := by
    intro w h
    induction h with
    | new => intro hd; simp [Wrap.new] at hd
    | step t _ hs ih =>
      intro hd
      cases hs with
      | hit name hi hc =>
        refine ih ?_
        simpa using hd
      | store name hi =>
        simp only [Wrap.set, List.mem_cons, Handle.direct.injEq] at hd ⊢
        rcases hd with rfl | hd
        · rw [hp]; simp
        · split
          · exact ih hd
          · exact List.mem_cons_of_mem _ (ih hd)
      | _ => exact ih hd
  induction hl with
  | refl => exact ⟨hc h hd, fun _ ht => ht⟩
  | step u _ hs ih =>
    obtain ⟨hm, hnl⟩ := ih
    refine ⟨cache_mono hs n hm, fun t ht => ?_⟩
    have hn := hnl t ht
    by_cases htu : t = u
    · subst htu
      cases hs with
      | hit name hi hc => exact hn
      | miss name hi hc =>
        rw [set_same]
        intro he
        injection he with he
        exact hc (he ▸ hm)
      | invoke hd arg hi hh => rw [set_same]; cases hd <;> simp [Wrap.begin]
      | call hd arg k l ks hi => rw [set_same]; cases hd <;> simp [Wrap.begin]
      | store | enter | reenter | act | leave | finish => rw [set_same]; simp
    · cases hs with
      | hit name hi hc => exact hn
      | miss | store | invoke | enter | reenter | act | call | leave | finish => rw [set_other _ htu]; exact hn

/-- C51: names that begin with an underscore are never protected. -/
theorem C51_private {body : String → Int → Prog σ} {s0 : σ} {w : Wrap σ} (h : Reach body s0 w) {n : String}
    (hp : isPrivate n = true) : .proxy n ∉ w.handles := by
  have hc : ∀ {w : Wrap σ}, Reach body s0 w → n ∉ w.cache ∧ .proxy n ∉ w.handles := by
    intro w h
    induction h with
    | new => simp [Wrap.new]
    | step t _ hs ih =>
      cases hs with
      | hit name hi hc =>
        refine ⟨ih.1, ?_⟩
        simp only [List.mem_cons, Handle.proxy.injEq, not_or]
        exact ⟨fun he => ih.1 (he ▸ hc), ih.2⟩
      | store name hi =>
        simp only [Wrap.set, List.mem_cons, reduceCtorEq, false_or]
        refine ⟨?_, ih.2⟩
        split
        · exact ih.1
        · rename_i hnp
          simp only [List.mem_cons, not_or]
          exact ⟨fun he => hnp (he ▸ hp), ih.1⟩
      | _ => exact ih
  exact (hc h).2

/-! ## C52 -/

/-- What a method does to the stream when nothing else runs: the result and the state it ends with.
A method called by a method runs in its place. -/
inductive Runs (body : String → Int → Prog σ) : Prog σ → σ → Except Exn Int → σ → Prop
  | ret (r : Except Exn Int) (s : σ) : Runs body (.ret r) s r s
  | act (f : σ → σ × Int) (k : Int → Prog σ) {s s' : σ} {r : Except Exn Int} :
      Runs body (k (f s).2) (f s).1 r s' → Runs body (.act f k) s r s'
  | call (h : Handle) (arg : Int) (k : Except Exn Int → Prog σ) {s s1 s' : σ} {r1 r : Except Exn Int} :
      Runs body (body h.name arg) s r1 s1 → Runs body (k r1) s1 r s' → Runs body (.call h arg k) s r s'

/-- The calls of `order`, made one after the other from `s`, return `results` and leave `s'`. -/
def OneByOne (body : String → Int → Prog σ) : List (Nat × Prog σ) → σ → List (Nat × Except Exn Int) → σ → Prop
  | [], s, results, s' => results = [] ∧ s' = s
  | (t, p) :: order, s, results, s' =>
    ∃ r s1 rest, results = (t, r) :: rest ∧ Runs body p s r s1 ∧ OneByOne body order s1 rest s'

theorem OneByOne.snoc {body : String → Int → Prog σ} {t : Nat} {p : Prog σ} {r : Except Exn Int} {s1 s' : σ} :
    ∀ {order : List (Nat × Prog σ)} {s : σ} {results : List (Nat × Except Exn Int)},
      OneByOne body order s results s1 → Runs body p s1 r s' →
      OneByOne body (order ++ [(t, p)]) s (results ++ [(t, r)]) s'
  | [], s, results, h, hr => by
    obtain ⟨rfl, rfl⟩ := h
    exact ⟨r, s', [], rfl, hr, rfl, rfl⟩
  | (u, q) :: order, s, results, h, hr => by
    obtain ⟨r0, s2, rest, rfl, h1, h2⟩ := h
    exact ⟨r0, s2, rest ++ [(t, r)], rfl, h1, OneByOne.snoc h2 hr⟩

/-- The rest of a call that is waiting for the calls it made. -/
inductive RunsStack (body : String → Int → Prog σ) :
    Prog σ → List (Bool × (Except Exn Int → Prog σ)) → σ → Except Exn Int → σ → Prop
  | last {p : Prog σ} {s s' : σ} {r : Except Exn Int} : Runs body p s r s' → RunsStack body p [] s r s'
  | next {p : Prog σ} {l : Bool} {k : Except Exn Int → Prog σ} {ks : List (Bool × (Except Exn Int → Prog σ))}
      {s s1 s' : σ} {r1 r : Except Exn Int} :
      Runs body p s r1 s1 → RunsStack body (k r1) ks s1 r s' → RunsStack body p ((l, k) :: ks) s r s'

theorem RunsStack.act {body : String → Int → Prog σ} {f : σ → σ × Int} {k : Int → Prog σ}
    {ks : List (Bool × (Except Exn Int → Prog σ))} {s s' : σ} {r : Except Exn Int}
    (h : RunsStack body (k (f s).2) ks (f s).1 r s') : RunsStack body (.act f k) ks s r s' := by
  generalize hp : k (f s).2 = p at h
  generalize hs : (f s).1 = s0 at h
  cases h with
  | last h => exact .last (.act f k (by rw [hp, hs]; exact h))
  | next h1 h2 => exact .next (.act f k (by rw [hp, hs]; exact h1)) h2

theorem RunsStack.call {body : String → Int → Prog σ} {h : Handle} {arg : Int} {k : Except Exn Int → Prog σ} {l : Bool}
    {ks : List (Bool × (Except Exn Int → Prog σ))} {s s' : σ} {r : Except Exn Int}
    (hr : RunsStack body (body h.name arg) ((l, k) :: ks) s r s') : RunsStack body (.call h arg k) ks s r s' := by
  cases hr with
  | next h1 h2 =>
    cases h2 with
    | last h2 => exact .last (.call h arg k h1 h2)
    | next h2 h3 => exact .next (.call h arg k h1 h2) h3

/-- No call of a direct method is going on. -/
def NoDirect (w : Wrap σ) : Prop :=
  ∀ t p l ks, w.thread t = .active p l ks → l = true

/-- The runs in which all calls go through proxies. -/
inductive Guarded (body : String → Int → Prog σ) (s0 : σ) : Wrap σ → Prop
  | new : Guarded body s0 (Wrap.new s0)
  | step {w w' : Wrap σ} (t : Nat) : Guarded body s0 w → Step body t w w' → NoDirect w' → Guarded body s0 w'

theorem Guarded.reach {body : String → Int → Prog σ} {s0 : σ} {w : Wrap σ} (h : Guarded body s0 w) : Reach body s0 w := by
  induction h with
  | new => exact .new
  | step t _ hs _ ih => exact .step t ih hs

/-- The thread is in no call, or still waits for the mutex of its outermost one. -/
def Outside : Thread σ → Prop
  | .idle => True
  | .looking _ => True
  | .asking _ ks => ks = []
  | .active _ _ _ => False

/-- The thread is in the outermost call `p0`, begun in the state `s1`; it is `d` protected calls deep. -/
def Within (body : String → Int → Prog σ) (s1 s : σ) (p0 : Prog σ) (d : Nat) : Thread σ → Prop
  | .idle => False
  | .looking _ => False
  | .asking p ks => d = ks.length ∧ ks ≠ [] ∧ (∀ e ∈ ks, e.1 = true) ∧
      ∀ r s', RunsStack body p ks s r s' → Runs body p0 s1 r s'
  | .active p l ks => d = ks.length + 1 ∧ l = true ∧ (∀ e ∈ ks, e.1 = true) ∧
      ∀ r s', RunsStack body p ks s r s' → Runs body p0 s1 r s'

structure Serial (body : String → Int → Prog σ) (s0 : σ) (w : Wrap σ) : Prop where
  free : w.mutex = none → (∀ t, Outside (w.thread t)) ∧ OneByOne body w.order s0 w.results w.state
  held : ∀ t d, w.mutex = some (t, d) → (∀ u, u ≠ t → Outside (w.thread u)) ∧
    ∃ pre p0 s1, w.order = pre ++ [(t, p0)] ∧ OneByOne body pre s0 w.results s1 ∧
      Within body s1 w.state p0 d (w.thread t)

theorem Serial.outside {body : String → Int → Prog σ} {s0 : σ} {w w' : Wrap σ} {t : Nat} {s : Thread σ}
    (h : Serial body s0 w) (ho : Outside (w.thread t)) (ho' : Outside s) (hm : w'.mutex = w.mutex)
    (hst : w'.state = w.state) (hor : w'.order = w.order) (hres : w'.results = w.results)
    (ht : ∀ u, w'.thread u = if u = t then s else w.thread u) : Serial body s0 w' := by
  constructor
  · intro hn
    rw [hm] at hn
    obtain ⟨h1, h2⟩ := h.free hn
    rw [hst, hor, hres]
    refine ⟨fun u => ?_, h2⟩
    rw [ht]
    split
    · exact ho'
    · exact h1 u
  · intro u d hu
    rw [hm] at hu
    obtain ⟨h1, pre, p0, s1, h2, h3, h4⟩ := h.held u d hu
    have hut : u ≠ t := by
      rintro rfl
      cases hth : w.thread u with
      | idle => rw [hth] at h4; exact h4
      | looking n => rw [hth] at h4; exact h4
      | asking p ks => rw [hth] at h4 ho; exact h4.2.1 ho
      | active p l ks => rw [hth] at ho; exact ho
    rw [hst, hor, hres]
    refine ⟨fun v hv => ?_, pre, p0, s1, h2, h3, ?_⟩
    · rw [ht]
      split
      · exact ho'
      · exact h1 v hv
    · rw [ht, if_neg hut]
      exact h4

/-- The thread that is not outside is the owner. -/
theorem Serial.owner {body : String → Int → Prog σ} {s0 : σ} {w : Wrap σ} {t : Nat} (h : Serial body s0 w)
    (ho : ¬ Outside (w.thread t)) : ∃ d, w.mutex = some (t, d) := by
  cases hm : w.mutex with
  | none => exact absurd ((h.free hm).1 t) ho
  | some o =>
    obtain ⟨u, d⟩ := o
    by_cases hu : t = u
    · exact ⟨d, by rw [hu]⟩
    · exact absurd ((h.held u d hm).1 t hu) ho

/-- A step of the owner within its call. -/
theorem Serial.inside {body : String → Int → Prog σ} {s0 : σ} {w w' : Wrap σ} {t d d' : Nat} {s : Thread σ}
    (h : Serial body s0 w) (hm : w.mutex = some (t, d)) (hm' : w'.mutex = some (t, d')) 
    (hor : w'.order = w.order) (hres : w'.results = w.results)
    (ht : ∀ u, w'.thread u = if u = t then s else w.thread u)
    (hw : ∀ s1 p0, Within body s1 w.state p0 d (w.thread t) → Within body s1 w'.state p0 d' s) : Serial body s0 w' := by
  constructor
  · intro hn; rw [hm'] at hn; cases hn
  · intro u e hu
    rw [hm'] at hu
    cases hu
    obtain ⟨h1, pre, p0, s1, h2, h3, h4⟩ := h.held t d hm
    rw [hor, hres]
    refine ⟨fun v hv => ?_, pre, p0, s1, h2, h3, ?_⟩
    · rw [ht, if_neg hv]; exact h1 v hv
    · rw [ht, if_pos rfl]; exact hw s1 p0 h4

theorem Serial.step {body : String → Int → Prog σ} {s0 : σ} {t : Nat} {w w' : Wrap σ} (h : Serial body s0 w)
    (hs : Step body t w w') (hn : NoDirect w') : Serial body s0 w' := by
  cases hs with
  | hit name hi hc => exact ⟨h.free, h.held⟩
  | miss name hi hc => exact h.outside (by rw [hi]; trivial) (s := .looking name) trivial rfl rfl rfl rfl (fun _ => rfl)
  | store name hi => exact h.outside (by rw [hi]; trivial) (s := .idle) trivial rfl rfl rfl rfl (fun _ => rfl)
  | invoke hd arg hi hh =>
    cases hd with
    | direct n => exact absurd (hn t _ _ _ (set_same _ _ _)) (by simp)
    | proxy n => exact h.outside (by rw [hi]; trivial) (s := .asking (body n arg) []) rfl rfl rfl rfl rfl (fun _ => rfl)
  | enter p ks hi hm =>
    obtain ⟨h1, h2⟩ := h.free hm
    have hks : ks = [] := by have := h1 t; rw [hi] at this; exact this
    subst hks
    constructor
    · intro hf; cases hf
    · intro u d hu
      cases hu
      refine ⟨fun v hv => ?_, w.order, p, w.state, by simp [Wrap.set], h2, ?_⟩
      · rw [set_other _ hv]; exact h1 v
      · rw [set_same]
        refine ⟨rfl, rfl, by simp, ?_⟩
        intro r s' hr
        cases hr with
        | last hr => exact hr
  | reenter p ks d hi hm =>
    refine h.inside hm (w' := _) rfl rfl rfl (fun _ => rfl) ?_
    intro s1 p0 hw
    rw [hi] at hw
    obtain ⟨h1, h2, h3, h4⟩ := hw
    exact ⟨by omega, rfl, h3, h4⟩
  | act f k l ks hi =>
    obtain ⟨d, hm⟩ := h.owner (t := t) (by rw [hi]; simp [Outside])
    refine h.inside hm (w' := _) hm rfl rfl (fun _ => rfl) ?_
    intro s1 p0 hw
    rw [hi] at hw
    obtain ⟨h1, h2, h3, h4⟩ := hw
    exact ⟨h1, h2, h3, fun r s' hr => h4 r s' hr.act⟩
  | call hd arg k l ks hi =>
    obtain ⟨d, hm⟩ := h.owner (t := t) (by rw [hi]; simp [Outside])
    cases hd with
    | direct n => exact absurd (hn t _ _ _ (set_same _ _ _)) (by simp)
    | proxy n =>
      refine h.inside hm (w' := _) hm rfl rfl (fun _ => rfl) ?_
      intro s1 p0 hw
      rw [hi] at hw
      obtain ⟨h1, h2, h3, h4⟩ := hw
      refine ⟨by simpa using h1, by simp, ?_, fun r s' hr => h4 r s' (RunsStack.call (h := .proxy n) hr)⟩
      intro e he
      rcases List.mem_cons.1 he with rfl | he
      · exact h2
      · exact h3 e he
  | leave r l k l' ks hi =>
    obtain ⟨d, hm⟩ := h.owner (t := t) (by rw [hi]; simp [Outside])
    obtain ⟨_, _, _, _, _, _, hw⟩ := h.held t d hm
    rw [hi] at hw
    obtain ⟨hd, hl, _, _⟩ := hw
    subst hl
    have hd1 : d ≠ 1 := by simp at hd; omega
    refine h.inside hm (w' := _) (d' := d - 1) ?_ rfl ?_ (fun _ => rfl) ?_
    · simp [Wrap.set, hm, hd1]
    · simp [Wrap.set, hm, hd1]
    · intro s1 p0 hw
      rw [hi] at hw
      obtain ⟨h1, h2, h3, h4⟩ := hw
      refine ⟨by simp at h1; omega, h3 (l', k) (by simp), fun e he => h3 e (by simp [he]), ?_⟩
      intro r' s' hr
      exact h4 r' s' (.next (.ret r _) hr)
  | finish r l hi =>
    obtain ⟨d, hm⟩ := h.owner (t := t) (by rw [hi]; simp [Outside])
    obtain ⟨h1, pre, p0, s1, h2, h3, hw⟩ := h.held t d hm
    rw [hi] at hw
    obtain ⟨hd, hl, _, h4⟩ := hw
    subst hl
    have hd1 : d = 1 := by simpa using hd
    subst hd1
    constructor
    · intro _
      constructor
      · intro u
        by_cases hu : u = t
        · subst hu; rw [set_same]; trivial
        · rw [set_other _ hu]; exact h1 u hu
      · simp only [Wrap.set, h2, hm, and_self, if_true]
        exact h3.snoc (h4 r w.state (.last (.ret r _)))
    · intro u e hu
      simp [Wrap.set, hm] at hu

theorem Guarded.serial {body : String → Int → Prog σ} {s0 : σ} {w : Wrap σ} (h : Guarded body s0 w) : Serial body s0 w := by
  induction h with
  | new =>
    refine ⟨fun _ => ⟨fun _ => trivial, rfl, rfl⟩, ?_⟩
    intro t d h
    simp [Wrap.new] at h
  | step t _ hs hn ih => exact ih.step hs hn

/-- C52: when no thread is in a call, the stream is as if the calls had been made one after the other, in the order in
which they got the mutex, and they returned the same results.  The property is about protected calls; those that
bypass the proxies are not serialised (`C52_direct_refuted`). -/
theorem C52_serial {body : String → Int → Prog σ} {s0 : σ} {w : Wrap σ} (h : Guarded body s0 w)
    (hq : ∀ t, Outside (w.thread t)) : OneByOne body w.order s0 w.results w.state := by
  cases hm : w.mutex with
  | none => exact (h.serial.free hm).2
  | some o =>
    obtain ⟨t, d⟩ := o
    obtain ⟨_, pre, p0, s1, _, _, hw⟩ := h.serial.held t d hm
    have ho := hq t
    cases hth : w.thread t with
    | idle => rw [hth] at hw; exact hw.elim
    | looking n => rw [hth] at hw; exact hw.elim
    | asking p ks => rw [hth] at hw ho; exact absurd ho hw.2.1
    | active p l ks => rw [hth] at ho; exact ho.elim

/-- C52: while a call is going on, the calls before it have run one after the other, and however the rest of it goes, the
whole of it will be a run of its method from the state they left. -/
theorem C52_during {body : String → Int → Prog σ} {s0 : σ} {w : Wrap σ} (h : Guarded body s0 w) {t : Nat}
    {p : Prog σ} {l : Bool} {ks : List (Bool × (Except Exn Int → Prog σ))} (ht : w.thread t = .active p l ks) :
    ∃ pre p0 s1, w.order = pre ++ [(t, p0)] ∧ OneByOne body pre s0 w.results s1 ∧
      ∀ r s', RunsStack body p ks w.state r s' → Runs body p0 s1 r s' := by
  obtain ⟨d, hm⟩ := h.serial.owner (t := t) (by rw [ht]; simp [Outside])
  obtain ⟨_, pre, p0, s1, h2, h3, hw⟩ := h.serial.held t d hm
  rw [ht] at hw
  exact ⟨pre, p0, s1, h2, h3, hw.2.2.2⟩

/-- C52: the mutex is free whenever no thread is in a call; this holds of all runs, also after calls that raised. -/
theorem C52_free {body : String → Int → Prog σ} {s0 : σ} {w : Wrap σ} (h : Reach body s0 w)
    (hq : ∀ t, depth (w.thread t) = 0) : w.mutex = none := by
  cases hm : w.mutex with
  | none => rfl
  | some o =>
    obtain ⟨h1, h2⟩ := (reach_owned h).2 o.1 o.2 hm
    rw [hq] at h1
    omega

/-- C52: a thread that waits for the mutex gets it when it is free or its own, otherwise the owner can go on: the wrapper
never makes its threads wait for each other. -/
theorem C52_progress {body : String → Int → Prog σ} {s0 : σ} {w : Wrap σ} (h : Reach body s0 w) {t : Nat} {p : Prog σ}
    {ks : List (Bool × (Except Exn Int → Prog σ))} (ht : w.thread t = .asking p ks) :
    (∃ w', Step body t w w' ∧ w'.thread t = .active p true ks) ∨
    ∃ u d w', u ≠ t ∧ w.mutex = some (u, d) ∧ Step body u w w' := by
  cases hm : w.mutex with
  | none => exact .inl ⟨_, .enter w p ks ht hm, set_same _ _ _⟩
  | some o =>
    obtain ⟨u, d⟩ := o
    by_cases hu : u = t
    · subst hu
      exact .inl ⟨_, .reenter w p ks d ht hm, set_same _ _ _⟩
    · refine .inr ⟨u, d, ?_⟩
      obtain ⟨h1, h2⟩ := (reach_owned h).2 u d hm
      cases hth : w.thread u with
      | idle => rw [hth] at h1; simp [depth] at h1; omega
      | looking n => rw [hth] at h1; simp [depth] at h1; omega
      | asking q js => exact ⟨_, hu, rfl, .reenter w q js d hth hm⟩
      | active q l js =>
        cases q with
        | ret r =>
          cases js with
          | nil => exact ⟨_, hu, rfl, .finish w r l hth⟩
          | cons e js => exact ⟨_, hu, rfl, .leave w r l e.2 e.1 js hth⟩
        | act f k => exact ⟨_, hu, rfl, .act w f k l js hth⟩
        | call hd arg k => exact ⟨_, hu, rfl, .call w hd arg k l js hth⟩

/-! ## Runs -/

/-- What a thread is told to do next. -/
inductive Cmd where
  | get (name : String)
  | call (h : Handle) (arg : Int)
  | go

/-- The step of thread `t`, if it can do that. -/
def next (body : String → Int → Prog σ) (t : Nat) (c : Cmd) (w : Wrap σ) : Option (Wrap σ) :=
  match w.thread t, c with
  | .idle, .get n => some (if n ∈ w.cache then { w with handles := .proxy n :: w.handles } else w.set t (.looking n))
  | .idle, .call h arg => if h ∈ w.handles then some (w.set t (begin body h arg [])) else none
  | .looking n, .go => some ({ w with
      cache := if isPrivate n then w.cache else n :: w.cache
      handles := .direct n :: w.handles }.set t .idle)
  | .asking p ks, .go =>
    match w.mutex with
    | none => some ({ w with mutex := some (t, 1), order := w.order ++ [(t, p)] }.set t (.active p true ks))
    | some (u, d) => if u = t then some ({ w with mutex := some (t, d + 1) }.set t (.active p true ks)) else none
  | .active (.act f k) l ks, .go =>
    some ({ w with state := (f w.state).1 }.set t (.active (k (f w.state).2) l ks))
  | .active (.call h arg k) l ks, .go => some (w.set t (begin body h arg ((l, k) :: ks)))
  | .active (.ret r) l ((l', k) :: ks), .go => some ({ w with
      mutex := if l then w.mutex.bind fun o => if o.2 = 1 then none else some (o.1, o.2 - 1) else w.mutex
      results := if l ∧ w.mutex = some (t, 1) then w.results ++ [(t, r)] else w.results }.set t (.active (k r) l' ks))
  | .active (.ret r) l [], .go => some ({ w with
      mutex := if l then w.mutex.bind fun o => if o.2 = 1 then none else some (o.1, o.2 - 1) else w.mutex
      results := if l ∧ w.mutex = some (t, 1) then w.results ++ [(t, r)] else w.results
      ended := w.ended + 1 }.set t .idle)
  | _, _ => none

theorem next_step {body : String → Int → Prog σ} {t : Nat} {c : Cmd} {w w' : Wrap σ} (h : next body t c w = some w') :
    Step body t w w' := by
  unfold next at h
  split at h
  · split at h
    · cases h; exact .hit w _ ‹_› ‹_›
    · cases h; exact .miss w _ ‹_› ‹_›
  · split at h
    · cases h; exact .invoke w _ _ ‹_› ‹_›
    · cases h
  · cases h; exact .store w _ ‹_›
  · split at h
    · cases h; exact .enter w _ _ ‹_› ‹_›
    · split at h
      · rename_i hu
        subst hu
        cases h; exact .reenter w _ _ _ ‹_› ‹_›
      · cases h
  · cases h; exact .act w _ _ _ _ ‹_›
  · cases h; exact .call w _ _ _ _ _ ‹_›
  · cases h; exact .leave w _ _ _ _ _ ‹_›
  · cases h; exact .finish w _ _ ‹_›
  · cases h

theorem step_other {body : String → Int → Prog σ} {t u : Nat} {w w' : Wrap σ} (h : Step body t w w') (hu : u ≠ t) :
    w'.thread u = w.thread u := by
  cases h <;> first | rfl | exact set_other _ hu _

/-- Whether the thread is in a direct call. -/
def inDirect : Thread σ → Bool
  | .active _ l _ => !l
  | _ => false

/-- The threads run as told, if they can; `strict` stops them before direct calls. -/
def runAll (body : String → Int → Prog σ) (strict : Bool) : List (Nat × Cmd) → Wrap σ → Option (Wrap σ)
  | [], w => some w
  | (t, c) :: cs, w =>
    match next body t c w with
    | none => none
    | some w' => if strict && inDirect (w'.thread t) then none else runAll body strict cs w'

theorem runAll_reach {body : String → Int → Prog σ} {strict : Bool} {s0 : σ} : ∀ {cs : List (Nat × Cmd)} {w w' : Wrap σ},
    Reach body s0 w → runAll body strict cs w = some w' → Reach body s0 w'
  | [], w, w', h, hr => by cases hr; exact h
  | (t, c) :: cs, w, w', h, hr => by
    unfold runAll at hr
    split at hr
    · cases hr
    · rename_i w1 hn
      split at hr
      · cases hr
      · exact runAll_reach (h.step t (next_step hn)) hr

theorem runAll_guarded {body : String → Int → Prog σ} {s0 : σ} : ∀ {cs : List (Nat × Cmd)} {w w' : Wrap σ},
    Guarded body s0 w → NoDirect w → runAll body true cs w = some w' → Guarded body s0 w'
  | [], w, w', h, _, hr => by cases hr; exact h
  | (t, c) :: cs, w, w', h, hn, hr => by
    unfold runAll at hr
    split at hr
    · cases hr
    · rename_i w1 hx
      split at hr
      · cases hr
      · rename_i hd
        have hs := next_step hx
        have hn' : NoDirect w1 := by
          intro u p l ks hu
          by_cases hut : u = t
          · subst hut
            rw [hu] at hd
            simpa [inDirect] using hd
          · rw [step_other hs hut] at hu
            exact hn u p l ks hu
        exact runAll_guarded (h.step t hs hn') hn' hr

/-- Threads that are not told anything stay as they are. -/
theorem runAll_other {body : String → Int → Prog σ} {strict : Bool} {u : Nat} : ∀ {cs : List (Nat × Cmd)} {w w' : Wrap σ},
    (∀ e ∈ cs, e.1 ≠ u) → runAll body strict cs w = some w' → w'.thread u = w.thread u
  | [], w, w', _, hr => by cases hr; rfl
  | (t, c) :: cs, w, w', hu, hr => by
    unfold runAll at hr
    split at hr
    · cases hr
    · rename_i w1 hx
      split at hr
      · cases hr
      · rw [runAll_other (fun e he => hu e (by simp [he])) hr]
        exact step_other (next_step hx) (fun he => hu (t, c) (by simp) he.symm)

/-- Two threads add one to a number through proxies; the second waits for the first. -/
def guardedRun : List (Nat × Cmd) :=
  [(1, .get "add"), (1, .go), (1, .get "add"), (1, .call (.proxy "add") 0), (2, .call (.proxy "add") 0), (1, .go),
   (1, .go), (1, .go), (1, .go), (2, .go), (2, .go), (2, .go), (2, .go)]

def idleIn : Thread σ → Bool
  | .idle => true
  | _ => false

theorem idleIn_iff {s : Thread σ} : idleIn s = true ↔ s = .idle := by
  cases s <;> simp [idleIn]

/-- The hypotheses of `C52_serial` can be met. -/
theorem guarded_run : ∃ w : Wrap Nat, Guarded (fun _ _ => addOne) 0 w ∧ (∀ t, Outside (w.thread t)) ∧
    w.order.map Prod.fst = [1, 2] ∧ w.results.length = 2 ∧ w.state = 2 ∧ w.ended = 2 := by
  have hx : ∃ w, runAll (fun _ _ => addOne) true guardedRun (Wrap.new 0) = some w := ⟨_, rfl⟩
  obtain ⟨w, hw⟩ := hx
  have hall : ((runAll (fun _ _ => addOne) true guardedRun (Wrap.new 0)).map fun w =>
      (w.order.map Prod.fst, w.results.length, w.state, w.ended, idleIn (w.thread 1), idleIn (w.thread 2))) =
      some ([1, 2], 2, 2, 2, true, true) := by rfl
  rw [hw] at hall
  simp only [Option.map_some, Option.some.injEq, Prod.mk.injEq] at hall
  obtain ⟨h1, h2, h3, h4, h5, h6⟩ := hall
  refine ⟨w, runAll_guarded .new ?_ hw, ?_, h1, h2, h3, h4⟩
  · intro t p l ks h; cases h
  · intro t
    by_cases ht1 : t = 1
    · rw [ht1, idleIn_iff.1 h5]; trivial
    · by_cases ht2 : t = 2
      · rw [ht2, idleIn_iff.1 h6]; trivial
      · rw [runAll_other (u := t) (by
          intro e he
          have : e.1 = 1 ∨ e.1 = 2 := by revert e; decide
          omega) hw]
        trivial

/-- The hypotheses of `C51_partial`, `C52_during` and `C52_progress` can be met: thread 1 is in a protected call,
thread 2 waits. -/
example : ∃ w : Wrap Nat, Guarded (fun _ _ => addOne) 0 w ∧ (∃ p ks, w.thread 1 = .active p true ks) ∧
    (∃ p ks, w.thread 2 = .asking p ks) ∧ w.mutex = some (1, 1) := by
  have hx : ∃ w, runAll (fun _ _ => addOne) true (guardedRun.take 7) (Wrap.new 0) = some w := ⟨_, rfl⟩
  obtain ⟨w, hw⟩ := hx
  refine ⟨w, runAll_guarded .new (by intro t p l ks h; cases h) hw, ?_⟩
  cases hw
  exact ⟨⟨_, _, rfl⟩, ⟨_, _, rfl⟩, rfl⟩

/-- The hypotheses of `C51_later_partial` can be met. -/
example : Reach (fun _ _ => addOne) 0 firstCall ∧ .direct "add" ∈ firstCall.handles ∧ isPrivate "add" = false :=
  ⟨firstCall_reach, by simp [firstCall, Wrap.set], by decide⟩

/-- The claim of C52 for a method that adds one: when all calls have ended, the number is that of the calls. -/
def NothingLost : Prop :=
  ∀ w : Wrap Nat, Reach (fun _ _ => addOne) 0 w → (∀ t, w.thread t = .idle) → w.state = w.ended

/-- The first call of a method, by thread 1, and a protected one by thread 2. -/
def directRun : List (Nat × Cmd) :=
  [(1, .get "add"), (1, .go), (1, .call (.direct "add") 0), (1, .go), (2, .get "add"), (2, .call (.proxy "add") 0),
   (2, .go), (2, .go), (2, .go), (2, .go), (1, .go), (1, .go)]

/-- C52 is false of calls that bypass the proxies: the first call of a method, which has no mutex, and a protected call
of another thread read the same number, and one of the two additions is lost. -/
theorem C52_direct_refuted : ¬ NothingLost := by
  intro hclaim
  have hx : ∃ w, runAll (fun _ _ => addOne) false directRun (Wrap.new 0) = some w := ⟨_, rfl⟩
  obtain ⟨w, hw⟩ := hx
  have hall : ((runAll (fun _ _ => addOne) false directRun (Wrap.new 0)).map fun w =>
      (w.state, w.ended, idleIn (w.thread 1), idleIn (w.thread 2))) = some (1, 2, true, true) := by rfl
  rw [hw] at hall
  simp only [Option.map_some, Option.some.injEq, Prod.mk.injEq] at hall
  obtain ⟨h1, h2, h3, h4⟩ := hall
  have := hclaim w (runAll_reach .new hw) (by
    intro t
    by_cases ht1 : t = 1
    · rw [ht1, idleIn_iff.1 h3]
    · by_cases ht2 : t = 2
      · rw [ht2, idleIn_iff.1 h4]
      · rw [runAll_other (u := t) (by
          intro e he
          have : e.1 = 1 ∨ e.1 = 2 := by revert e; decide
          omega) hw]
        rfl)
  omega

end Verif.Props
