import Verif.Props.Wrapper
import Verif.Props.Buffered

/-!
# C108: threads that share a buffered stream through the thread-safe wrapper
-/

set_option autoImplicit false

namespace Verif.Props

open Verif Verif.Spec Wrap

variable {σ : Type}

/-! ## The calls in the order of the mutex -/

/-- A thread that waits for the mutex has called a method. -/
theorem asking_named {body : String → Int → Prog σ} {s0 : σ} {w : Wrap σ} (h : Reach body s0 w) :
    ∀ t p ks, w.thread t = .asking p ks → ∃ n a, p = body n a := by
  induction h with
  | new => intro t p ks h; cases h
  | @step w w' u _ hs ih =>
    intro t p ks ht
    by_cases htu : t = u
    · subst htu
      cases hs with
      | hit name hi hc => exact ih t p ks ht
      | invoke h arg hi hh =>
        rw [set_same] at ht
        cases h <;> simp only [begin] at ht
        · cases ht
        · cases ht; exact ⟨_, _, rfl⟩
      | call h arg k l ks hi =>
        rw [set_same] at ht
        cases h <;> simp only [begin] at ht
        · cases ht
        · cases ht; exact ⟨_, _, rfl⟩
      | _ => rw [set_same] at ht; cases ht
    · rw [step_other hs htu] at ht
      exact ih t p ks ht

/-- The protected calls are calls of methods. -/
theorem order_named {body : String → Int → Prog σ} {s0 : σ} {w : Wrap σ} (h : Reach body s0 w) :
    ∃ calls : List (Nat × String × Int), w.order = calls.map fun c => (c.1, body c.2.1 c.2.2) := by
  induction h with
  | new => exact ⟨[], rfl⟩
  | @step w w' u hr hs ih =>
    obtain ⟨calls, hc⟩ := ih
    cases hs with
    | enter p ks hi hm =>
      obtain ⟨n, a, rfl⟩ := asking_named hr u p ks hi
      exact ⟨calls ++ [(u, n, a)], by simp [Wrap.set, hc]⟩
    | _ => exact ⟨calls, hc⟩

/-- The methods of the wrapped stream are those of the buffered stream: each of them, when no other thread interferes, does what
`Buf.step` does.  A method is any number of atomic actions.  `code` tells how results are represented. -/
def Implements (body : String → Int → Prog Buf) (op : String → Int → StreamOp) (code : StreamOut → Except Exn Int) : Prop :=
  ∀ n a b r b', Runs body (body n a) b r b' → r = code (b.step (op n a)).1 ∧ b' = (b.step (op n a)).2

/-- Calls made one after the other are a history of the buffered stream. -/
theorem OneByOne.run {body : String → Int → Prog Buf} {op : String → Int → StreamOp} {code : StreamOut → Except Exn Int}
    (hi : Implements body op code) : ∀ (calls : List (Nat × String × Int)) (b : Buf) (results : List (Nat × Except Exn Int)) (b' : Buf),
    OneByOne body (calls.map fun c => (c.1, body c.2.1 c.2.2)) b results b' →
    results = (calls.map Prod.fst).zip ((b.run (calls.map fun c => op c.2.1 c.2.2)).1.map code) ∧
      b' = (b.run (calls.map fun c => op c.2.1 c.2.2)).2
  | [], b, results, b', h => by
    obtain ⟨rfl, rfl⟩ := h
    exact ⟨rfl, rfl⟩
  | (t, n, a) :: calls, b, results, b', h => by
    obtain ⟨r, b1, rest, rfl, h1, h2⟩ := h
    obtain ⟨rfl, rfl⟩ := hi n a b r b1 h1
    obtain ⟨h3, h4⟩ := OneByOne.run hi calls _ rest b' h2
    exact ⟨by rw [h3]; simp [Buf.run], by rw [h4]; simp [Buf.run]⟩

/-- C108.  Threads share a buffered stream through the wrapper; the calls go through proxies.  In every interleaving, when no call is
in progress, the results are those of one byte array with one position, for the calls in the order in which they obtained the mutex, up
to the first call that a single thread could not make safely either; and flushing puts the bytes of the array into the file.
Missing: what C23 lacks; calls that bypass the proxies (`C52_direct_refuted`, `C108_iteration_refuted`). -/
theorem C108_shared_partial {k : BufKind} {n : Int} {raw : Raw} {b : Buf} (ho : Opened k n raw b) (hb : Blocking raw.sched)
    {body : String → Int → Prog Buf} {op : String → Int → StreamOp} {code : StreamOut → Except Exn Int} (hi : Implements body op code)
    {w : Wrap Buf} (hw : Guarded body b w) (hq : ∀ t, Outside (w.thread t)) :
    ∃ (calls : List (Nat × String × Int)) (outs : List StreamOut), w.order = calls.map (fun c => (c.1, body c.2.1 c.2.2)) ∧
      w.results = (calls.map Prod.fst).zip (outs.map code) ∧ outs.length = calls.length ∧
      ∃ pre post f, calls = pre ++ post ∧ Conforms k (fileOf raw) ((pre.map fun c => op c.2.1 c.2.2).zip outs) f ∧
        (post = [] ∨ ∃ c rest, post = c :: rest ∧ Unsafe k f (op c.2.1 c.2.2)) ∧
        (post = [] → (Buf.flush w.state).1 = .ok () ∧ (Buf.flush w.state).2.raw.data = f.data) := by
  obtain ⟨calls, hc⟩ := order_named hw.reach
  have hs := C52_serial hw hq
  rw [hc] at hs
  obtain ⟨h1, h2⟩ := OneByOne.run hi calls b _ _ hs
  have hlen : ∀ (l : List StreamOp) (b : Buf), (b.run l).1.length = l.length := by
    intro l
    induction l with
    | nil => intro b; rfl
    | cons x l ih => intro b; simp [Buf.run, ih]
  obtain ⟨pre, post, f, e1, e2, e3, e4, e5⟩ := C23_refines_partial ho hb (calls.map fun c => op c.2.1 c.2.2)
  refine ⟨calls, (b.run (calls.map fun c => op c.2.1 c.2.2)).1, hc, h1, by simp [hlen], calls.take pre.length, calls.drop pre.length, f,
    (List.take_append_drop _ _).symm, ?_, ?_, ?_⟩
  · have hpre : (calls.take pre.length).map (fun c => op c.2.1 c.2.2) = pre := by
      rw [List.map_take, e1, List.take_left']; rfl
    rw [hpre, e1]
    have hz : pre.zip (b.run (pre ++ post)).1 = pre.zip (b.run pre).1 := by
      have : ∀ (l m : List StreamOp) (b : Buf), l.zip (b.run (l ++ m)).1 = l.zip (b.run l).1 := by
        intro l m
        induction l with
        | nil => intro b; rfl
        | cons x l ih => intro b; simp [Buf.run, ih]
      exact this pre post b
    rw [hz]
    exact e2
  · have hpost : (calls.drop pre.length).map (fun c => op c.2.1 c.2.2) = post := by
      rw [List.map_drop, e1, List.drop_left']; rfl
    rcases e3 with e3 | ⟨o, rest, e3, e3'⟩
    · rw [e3] at hpost; exact .inl (List.map_eq_nil_iff.1 hpost)
    · rw [e3] at hpost
      cases hd : calls.drop pre.length with
      | nil => rw [hd] at hpost; cases hpost
      | cons c cs =>
        rw [hd] at hpost
        refine .inr ⟨c, cs, rfl, ?_⟩
        have := (List.cons.inj hpost).1
        dsimp only at this
        rw [this]
        exact e3'
  · intro hpost
    have hall : calls.map (fun c => op c.2.1 c.2.2) = pre := by
      have : calls = calls.take pre.length := by
        have := (List.take_append_drop pre.length calls).symm
        rw [hpost, List.append_nil] at this
        exact this
      rw [this, List.map_take, e1, List.take_left']; rfl
    rw [h2, hall]
    exact ⟨e4, e5⟩

/-! ## A call can end by its own steps -/

/-- Steps of one thread. -/
inductive Solo (body : String → Int → Prog σ) (t : Nat) : Wrap σ → Wrap σ → Prop
  | refl (w : Wrap σ) : Solo body t w w
  | step {w w' w'' : Wrap σ} : Step body t w w' → Solo body t w' w'' → Solo body t w w''

theorem Solo.trans {body : String → Int → Prog σ} {t : Nat} {w w' w'' : Wrap σ} (h : Solo body t w w') (h' : Solo body t w' w'') :
    Solo body t w w'' := by
  induction h with
  | refl => exact h'
  | step hs _ ih => exact .step hs (ih h')

/-- What a thread has done that runs a method while it owns the mutex. -/
structure Done (t : Nat) (w w' : Wrap σ) (s : σ) (th : Thread σ) : Prop where
  thread : w'.thread t = th
  state : w'.state = s
  mutex : w'.mutex = w.mutex
  results : w'.results = w.results
  order : w'.order = w.order
  ended : w'.ended = w.ended

theorem Done.trans {t : Nat} {w w' w'' : Wrap σ} {s s' : σ} {th th' : Thread σ} (h : Done t w w' s th) (h' : Done t w' w'' s' th') :
    Done t w w'' s' th' :=
  ⟨h'.thread, h'.state, h'.mutex.trans h.mutex, h'.results.trans h.results, h'.order.trans h.order, h'.ended.trans h.ended⟩

/-- A method that ends when it is alone can be run to its end by a thread that owns the mutex. -/
theorem solo_runs {body : String → Int → Prog σ} {t : Nat} {p : Prog σ} {s s' : σ} {r : Except Exn Int} (h : Runs body p s r s') :
    ∀ {w : Wrap σ} {l : Bool} {ks : List (Bool × (Except Exn Int → Prog σ))} {d : Nat}, w.thread t = .active p l ks → w.state = s →
      w.mutex = some (t, d + 1) → ∃ w', Solo body t w w' ∧ Done t w w' s' (.active (.ret r) l ks) := by
  induction h with
  | ret r s =>
    intro w l ks d ht hs _
    exact ⟨w, .refl w, ht, hs, rfl, rfl, rfl, rfl⟩
  | act f k hr ih =>
    intro w l ks d ht hs hm
    have hst := Step.act (body := body) w f k l ks ht
    subst hs
    obtain ⟨w', h1, h2⟩ := ih (w := { w with state := (f w.state).1 }.set t (.active (k (f w.state).2) l ks)) (l := l) (ks := ks) (d := d)
      (set_same _ _ _) rfl hm
    exact ⟨w', .step hst h1, h2.1, h2.2, h2.3, h2.4, h2.5, h2.6⟩
  | @call h arg k s s1 s' r1 r hr1 hr2 ih1 ih2 =>
    intro w l ks d ht hs hm
    have hst := Step.call (body := body) w h arg k l ks ht
    cases h with
    | direct n =>
      obtain ⟨w1, g1, g2⟩ := ih1 (w := w.set t (begin body (.direct n) arg ((l, k) :: ks))) (l := false) (ks := (l, k) :: ks) (d := d)
        (set_same _ _ _) hs hm
      have hlv := Step.leave (body := body) w1 r1 false k l ks g2.thread
      obtain ⟨w2, q1, q2⟩ := ih2 (w := { w1 with
        mutex := if false then w1.mutex.bind fun o => if o.2 = 1 then none else some (o.1, o.2 - 1) else w1.mutex
        results := if false ∧ w1.mutex = some (t, 1) then w1.results ++ [(t, r1)] else w1.results }.set t (.active (k r1) l ks))
        (l := l) (ks := ks) (d := d) (set_same _ _ _) g2.state (by simp [Wrap.set, g2.mutex, hm])
      refine ⟨w2, .step hst (g1.trans (.step hlv q1)), q2.1, q2.2, ?_, ?_, ?_, ?_⟩
      · rw [q2.mutex]; simp [Wrap.set, g2.mutex]
      · rw [q2.results]; simp [Wrap.set, g2.results]
      · rw [q2.order]; simp [Wrap.set, g2.order]
      · rw [q2.ended]; simp [Wrap.set, g2.ended]
    | proxy n =>
      have hen := Step.reenter (body := body) (t := t) (w.set t (begin body (.proxy n) arg ((l, k) :: ks))) (body n arg) ((l, k) :: ks) (d + 1)
        (set_same _ _ _) hm
      obtain ⟨w1, g1, g2⟩ := ih1 (w := { w.set t (begin body (.proxy n) arg ((l, k) :: ks)) with mutex := some (t, d + 1 + 1) }.set t
        (.active (body n arg) true ((l, k) :: ks))) (l := true) (ks := (l, k) :: ks) (d := d + 1) (set_same _ _ _) hs rfl
      have hlv := Step.leave (body := body) w1 r1 true k l ks g2.thread
      have hm1 : w1.mutex = some (t, d + 1 + 1) := g2.mutex
      obtain ⟨w2, q1, q2⟩ := ih2 (w := { w1 with
        mutex := if true then w1.mutex.bind fun o => if o.2 = 1 then none else some (o.1, o.2 - 1) else w1.mutex
        results := if true ∧ w1.mutex = some (t, 1) then w1.results ++ [(t, r1)] else w1.results }.set t (.active (k r1) l ks))
        (l := l) (ks := ks) (d := d) (set_same _ _ _) g2.state (by simp [Wrap.set, hm1])
      refine ⟨w2, .step hst (.step hen (g1.trans (.step hlv q1))), q2.1, q2.2, ?_, ?_, ?_, ?_⟩
      · rw [q2.mutex]; simp [Wrap.set, hm1, hm]
      · rw [q2.results]; simp [Wrap.set, hm1, g2.results]
      · rw [q2.order]; simp [Wrap.set, g2.order]
      · rw [q2.ended]; simp [Wrap.set, g2.ended]

/-- C108: when the mutex is free, a call that waits for it can end by steps of its own thread alone, whatever the other threads are
doing, and does what it would do alone.
Missing: when the mutex is not free (`C108_wait_refuted`). -/
theorem C108_alone_partial {body : String → Int → Prog σ} {t : Nat} {w : Wrap σ} {p : Prog σ} (ht : w.thread t = .asking p [])
    (hm : w.mutex = none) {r : Except Exn Int} {s' : σ} (hr : Runs body p w.state r s') :
    ∃ w', Solo body t w w' ∧ w'.thread t = .idle ∧ w'.state = s' ∧ w'.mutex = none ∧ w'.results = w.results ++ [(t, r)] ∧
      w'.ended = w.ended + 1 := by
  have hen := Step.enter (body := body) w p [] ht hm
  obtain ⟨w1, g1, g2⟩ := solo_runs hr (w := { w with mutex := some (t, 1), order := w.order ++ [(t, p)] }.set t (.active p true []))
    (l := true) (ks := []) (d := 0) (set_same _ _ _) rfl rfl
  have hm1 : w1.mutex = some (t, 1) := g2.mutex
  refine ⟨_, .step hen (g1.trans (.step (.finish w1 r true g2.thread) (.refl _))), set_same _ _ _, g2.state, ?_, ?_, ?_⟩
  · simp [Wrap.set, hm1]
  · simp [Wrap.set, hm1, g2.results]
  · simp [Wrap.set, g2.ended]

/-! ## A call can wait for another -/

/-- `lock_file` of the raw stream, `rsfileio_abstract.py:592-638`: the system is asked for the lock again and again, until it is
granted or the time is over; here the time allows `n` attempts after the first.  The state is 1 while another process holds the lock. -/
def attempts : Nat → Prog Nat
  | 0 => .act (fun s => (s, s)) fun v => if v = 0 then .ret (.ok 0) else .ret (.error (.lockingException 0))
  | n + 1 => .act (fun s => (s, s)) fun v => if v = 0 then .ret (.ok 0) else attempts n

/-- The wrapped stream: `lock_file(timeout=arg)`; other methods take one action. -/
def locking (name : String) (arg : Int) : Prog Nat :=
  if name = "lock_file" then attempts arg.toNat else .act (fun s => (s, s)) fun _ => .ret (.ok 0)

/-- Calls of the method with the argument do not wait longer than a fixed number of steps for their turn. -/
def Prompt (name : String) (arg : Int) : Prop :=
  ∃ N, ∀ (t : Nat) (path : Nat → Wrap Nat), Reach locking 1 (path 0) → (path 0).thread t = .asking (locking name arg) [] →
    (∀ i, i ≤ N → ∃ u, Step locking u (path i) (path (i + 1))) → ∃ i, i ≤ N ∧ ∃ w', Step locking t (path i) w'

/-- Thread 1 is in `lock_file` and may try `n` times; thread 2 wants to call a method. -/
def crowded (name : String) (arg : Int) (first : Nat) (n : Nat) : Wrap Nat where
  state := 1
  mutex := some (1, 1)
  cache := if name = "lock_file" then ["lock_file"] else [name, "lock_file"]
  handles := if name = "lock_file" then [.proxy "lock_file", .direct "lock_file"] else
    [.proxy name, .direct name, .proxy "lock_file", .direct "lock_file"]
  thread u := if u = 1 then .active (attempts n) true [] else if u = 2 then .asking (locking name arg) [] else .idle
  order := [(1, attempts first)]
  results := []
  ended := 0

theorem wrap_ext {w w' : Wrap σ} (h1 : w.state = w'.state) (h2 : w.mutex = w'.mutex) (h3 : w.cache = w'.cache) (h4 : w.handles = w'.handles)
    (h5 : ∀ t, w.thread t = w'.thread t) (h6 : w.order = w'.order) (h7 : w.results = w'.results) (h8 : w.ended = w'.ended) : w = w' := by
  obtain ⟨_, _, _, _, th, _, _, _⟩ := w
  obtain ⟨_, _, _, _, th', _, _, _⟩ := w'
  dsimp only at *
  obtain rfl : th = th' := funext h5
  subst h1 h2 h3 h4 h6 h7 h8
  rfl

theorem crowded_step (name : String) (arg : Int) (first n : Nat) :
    Step locking 1 (crowded name arg first (n + 1)) (crowded name arg first n) := by
  have h := Step.act (body := locking) (t := 1) (crowded name arg first (n + 1)) (fun s : Nat => (s, (s : Int)))
    (fun v => if v = 0 then .ret (.ok 0) else attempts n) true [] rfl
  have he : crowded name arg first n = { crowded name arg first (n + 1) with
      state := ((fun s : Nat => (s, (s : Int))) (crowded name arg first (n + 1)).state).1 }.set 1
        (.active ((fun v : Int => if v = 0 then Prog.ret (.ok 0) else attempts n) ((fun s : Nat => (s, (s : Int))) (crowded name arg first (n + 1)).state).2)
          true []) := by
    refine wrap_ext rfl rfl rfl rfl (fun t => ?_) rfl rfl rfl
    by_cases h1 : t = 1
    · subst h1; simp [crowded, Wrap.set]
    · simp [crowded, Wrap.set, h1]
  rw [he]
  exact h

theorem crowded_stuck (name : String) (arg : Int) (first n : Nat) (w' : Wrap Nat) : ¬ Step locking 2 (crowded name arg first n) w' := by
  intro h
  have ht : (crowded name arg first n).thread 2 = .asking (locking name arg) [] := rfl
  have hm : (crowded name arg first n).mutex = some (1, 1) := rfl
  generalize crowded name arg first n = w at h ht hm
  cases h <;> simp_all

/-- The calls that lead there. -/
def crowdRun (name : String) (arg : Int) (first : Nat) : List (Nat × Cmd) :=
  [(1, .get "lock_file"), (1, .go), (1, .get "lock_file")] ++
  (if name = "lock_file" then [] else [(2, .get name), (2, .go), (2, .get name)]) ++
  [(2, .call (.proxy name) arg), (1, .call (.proxy "lock_file") first), (1, .go)]

theorem crowded_of {name : String} {arg : Int} {first : Nat} {w : Wrap Nat}
    (hw : runAll locking false (crowdRun name arg first) (Wrap.new 1) = some w)
    (h1 : w.state = 1 ∧ w.mutex = some (1, 1) ∧ w.cache = (crowded name arg first first).cache ∧
      w.handles = (crowded name arg first first).handles ∧ w.thread 1 = .active (attempts first) true [] ∧
      w.thread 2 = .asking (locking name arg) [] ∧ w.order = [(1, attempts first)] ∧ w.results = [] ∧ w.ended = 0) :
    Reach locking 1 (crowded name arg first first) := by
  have h := runAll_reach (.new (body := locking) (s0 := 1)) hw
  obtain ⟨e1, e2, e3, e4, e5, e6, e7, e8, e9⟩ := h1
  have he : w = crowded name arg first first := by
    refine wrap_ext e1 e2 e3 e4 (fun t => ?_) e7 e8 e9
    by_cases h1 : t = 1
    · subst h1; exact e5
    · by_cases h2 : t = 2
      · subst h2; exact e6
      · rw [runAll_other (u := t) (by
          intro e he
          have : e.1 = 1 ∨ e.1 = 2 := by
            simp only [crowdRun] at he
            split at he <;> simp at he <;> grind
          omega) hw]
        simp [crowded, h1, h2, Wrap.new]
  rw [← he]
  exact h

theorem crowded_lock (first : Nat) : Reach locking 1 (crowded "lock_file" 0 first first) := by
  have hx : ∃ w, runAll locking false (crowdRun "lock_file" 0 first) (Wrap.new 1) = some w := ⟨_, rfl⟩
  obtain ⟨w, hw⟩ := hx
  refine crowded_of hw ?_
  cases hw
  exact ⟨rfl, rfl, rfl, rfl, rfl, rfl, rfl, rfl, rfl⟩

theorem crowded_close (first : Nat) : Reach locking 1 (crowded "close" 0 first first) := by
  have hx : ∃ w, runAll locking false (crowdRun "close" 0 first) (Wrap.new 1) = some w := ⟨_, rfl⟩
  obtain ⟨w, hw⟩ := hx
  refine crowded_of hw ?_
  cases hw
  exact ⟨rfl, rfl, rfl, rfl, rfl, rfl, rfl, rfl, rfl⟩

theorem not_prompt {name : String} {arg : Int} (h : ∀ first, Reach locking 1 (crowded name arg first first)) : ¬ Prompt name arg := by
  rintro ⟨N, hN⟩
  obtain ⟨i, hi, w', hs⟩ := hN 2 (fun i => crowded name arg (N + 1) (N + 1 - i)) (h (N + 1)) rfl (fun i hi => ⟨1, by
    have : N + 1 - i = (N + 1 - (i + 1)) + 1 := by omega
    rw [this]
    exact crowded_step name arg (N + 1) _⟩)
  exact crowded_stuck _ _ _ _ _ hs

/-- C108: a thread that waits in `lock_file` keeps the mutex.  So the other threads can do nothing with the stream: `lock_file(timeout=0)`
and `close()` do not return before the first thread gives up, however long that takes. -/
theorem C108_wait_refuted : ¬ Prompt "lock_file" 0 ∧ ¬ Prompt "close" 0 :=
  ⟨not_prompt crowded_lock, not_prompt crowded_close⟩

/-! ## Iteration -/

/-- Every call of `next` on an iterator of the stream, here one that counts, gets an element of its own. -/
def EachOnce : Prop :=
  ∀ w : Wrap Nat, Reach (fun _ _ => addOne) 0 w → (∀ h ∈ w.handles, h.name = "__next__") → (∀ t, w.thread t = .idle) → w.state = w.ended

/-- Two threads iterate over the wrapper.  `iter(wrapper)` is `iter` of the wrapped stream, `rsfile_streams.py:188-189`, that is the
stream itself, `_pyio:554-556`; so `next` calls its `__next__`, as `getattr(wrapper, "__next__")` would give it. -/
def iterRun : List (Nat × Cmd) :=
  [(1, .get "__next__"), (1, .go), (2, .get "__next__"), (2, .go), (1, .call (.direct "__next__") 0), (2, .call (.direct "__next__") 0),
   (1, .go), (2, .go), (1, .go), (2, .go), (1, .go), (2, .go)]

/-- C108: iterations are not protected: two threads get the same element. -/
theorem C108_iteration_refuted : ¬ EachOnce := by
  intro hclaim
  have hx : ∃ w, runAll (fun _ _ => addOne) false iterRun (Wrap.new 0) = some w := ⟨_, rfl⟩
  obtain ⟨w, hw⟩ := hx
  have hall : ((runAll (fun _ _ => addOne) false iterRun (Wrap.new 0)).map fun w =>
      (w.state, w.ended, idleIn (w.thread 1), idleIn (w.thread 2), w.handles)) =
        some (1, 2, true, true, [.direct "__next__", .direct "__next__"]) := by rfl
  rw [hw] at hall
  simp only [Option.map_some, Option.some.injEq, Prod.mk.injEq] at hall
  obtain ⟨h1, h2, h3, h4, h5⟩ := hall
  have := hclaim w (runAll_reach .new hw) (by
    intro h hh
    rw [h5] at hh
    simp at hh
    rw [hh]
    rfl) (by
    intro t
    by_cases ht1 : t = 1
    · rw [ht1, idleIn_iff.1 h3]
    · by_cases ht2 : t = 2
      · rw [ht2, idleIn_iff.1 h4]
      · rw [runAll_other (u := t) (by
          intro e he
          have : e.1 = 1 ∨ e.1 = 2 := by revert e; decide
          omega) hw]
        rfl)
  omega

/-! ## Examples -/

/-- Methods of two actions. -/
def twoActions (op : String → Int → StreamOp) (code : StreamOut → Int) (name : String) (arg : Int) : Prog Buf :=
  .act (fun b => (b, 0)) fun _ => .act (fun b => ((b.step (op name arg)).2, code (b.step (op name arg)).1)) fun v => .ret (.ok v)

theorem twoActions_implements (op : String → Int → StreamOp) (code : StreamOut → Int) :
    Implements (twoActions op code) op (fun o => .ok (code o)) := by
  intro n a b r b' h
  unfold twoActions at h
  cases h with
  | act _ _ h =>
    cases h with
    | act _ _ h =>
      cases h
      exact ⟨rfl, rfl⟩

/-- `write(b"X")`, and `tell` under all other names. -/
def xOrTell (name : String) (_ : Int) : StreamOp := if name = "write" then .write [88] else .tell

def numberOf : StreamOut → Int
  | .num n => n
  | _ => -1

/-- Two threads write and ask for the position. -/
def togetherRun : List (Nat × Cmd) :=
  [(1, .get "write"), (1, .go), (1, .get "write"), (2, .get "tell"), (2, .go), (2, .get "tell"), (1, .call (.proxy "write") 0),
   (2, .call (.proxy "tell") 0), (1, .go), (1, .go), (1, .go), (1, .go), (2, .go), (2, .go), (1, .call (.proxy "write") 0), (2, .go), (2, .go),
   (1, .go), (1, .go), (1, .go), (1, .go)]

-- the hypotheses of `C108_shared_partial`
example : ∃ w : Wrap Buf, Guarded (twoActions xOrTell numberOf) (opened .random 4 digits []) w ∧ (∀ t, Outside (w.thread t)) ∧
    w.results.map (fun x => (x.1, x.2.toOption)) = [(1, some 1), (2, some 1), (1, some 1)] ∧ w.state.writeBuf = [88, 88] := by
  have hx : ∃ w, runAll (twoActions xOrTell numberOf) true togetherRun (Wrap.new (opened .random 4 digits [])) = some w := ⟨_, rfl⟩
  obtain ⟨w, hw⟩ := hx
  have hall : ((runAll (twoActions xOrTell numberOf) true togetherRun (Wrap.new (opened .random 4 digits []))).map fun w =>
      (w.results.map (fun x => (x.1, x.2.toOption)), w.state.writeBuf, idleIn (w.thread 1), idleIn (w.thread 2))) =
        some ([(1, some 1), (2, some 1), (1, some 1)], [88, 88], true, true) := by decide +kernel
  rw [hw] at hall
  simp only [Option.map_some, Option.some.injEq, Prod.mk.injEq] at hall
  obtain ⟨h1, h2, h3, h4⟩ := hall
  refine ⟨w, runAll_guarded .new (by intro t p l ks h; cases h) hw, ?_, h1, h2⟩
  intro t
  by_cases ht1 : t = 1
  · rw [ht1, idleIn_iff.1 h3]; trivial
  · by_cases ht2 : t = 2
    · rw [ht2, idleIn_iff.1 h4]; trivial
    · rw [runAll_other (u := t) (by
        intro e he
        have : e.1 = 1 ∨ e.1 = 2 := by revert e; decide
        omega) hw]
      trivial

-- the hypotheses of `C108_alone_partial`: `lock_file(timeout=0)` when nobody is in the way
example : Runs locking (locking "lock_file" 0) 1 (.error (.lockingException 0)) 1 := .act _ _ (.ret _ _)

end Verif.Props
