import Verif.Model.LockCall
import Verif.Spec.Ranges
import Verif.Lemmas.Registry
import Mathlib.Tactic.Linarith
import Mathlib.Tactic.Ring
import Mathlib.Tactic.NormNum
import Mathlib.Algebra.Order.Field.Rat

/-!
# C10 to C15, C17 to C19: one call of `lock_file` / `unlock_file`
-/

namespace Verif.Spec

/-- The time limit of a call: its own timeout, or else the enforced one. -/
def limitOf (timeout enforced : Option Num) : Option Num := timeout <|> enforced

/-- The time since the start has reached the limit. -/
def Expired (limit : Num) (start now : Rat) : Prop := (∃ t, limit = .fin t ∧ t ≤ now - start) ∨ limit = .ninf

/-- The clock does not go backwards, and every failed attempt that does not end the call is followed by a sleep of at
least `d`. -/
def Ticks (d : Rat) : Rat → List Answer → Prop
  | _, [] => True
  | last, a :: rest =>
    last ≤ a.now ∧ Ticks d (match a.ans with | .fail _ => a.now + d | _ => a.now) rest

/-- The environment never answers with an exception that is an `EnvironmentError` other than as a failed attempt
(an `EnvironmentError` of the kernel call is `Ans.fail`). -/
def ExnOk (env : List Answer) : Prop := ∀ a ∈ env, ∀ n, a.ans ≠ .exn (.lockingException n) ∧ a.ans ≠ .exn (.ioError n)

/-- Argument values accepted by `lock_file`, as documented. -/
structure ValidArgs (timeout length offset whence shared : PyArg) : Prop where
  timeout : timeout = .none ∨ ∃ x, timeout.num? = some x ∧ ¬ (x = .ninf ∨ ∃ q < 0, x = .fin q)
  length : length = .none ∨ ∃ n, length.int? = some n ∧ 0 ≤ n
  offset : offset = .none ∨ ∃ n, offset.int? = some n
  whence : ∃ n : Int, whence.num? = some (.fin n) ∧ n ∈ [0, 1, 2]
  shared : shared = .none ∨ ∃ n : Int, shared.num? = some (.fin n) ∧ n ∈ [0, 1]

end Verif.Spec

namespace Verif.Props

open Verif Verif.Spec

private theorem reached_iff (x : Num) (start now : Rat) : x.reached (now - start) = true ↔ Expired x start now := by
  cases x <;> simp [Num.reached, Expired]

/-- What ended the call. -/
private theorem kern_raised {timeout enforced : Option Num} {start : Rat} {env : List Answer} {e : Exn}
    (h : (kernLoop timeout enforced start env).2 = .raised e) :
    ∃ pre a post, env = pre ++ a :: post ∧
      (a.ans = .exn e ∨ ∃ n, a.ans = .fail n ∧ checkTimeout timeout enforced start n a.now = some e) ∧
      ∀ b ∈ pre, ∃ n m, b.ans = .fail n ∧ checkTimeout timeout enforced start m b.now = none := by
  induction env with
  | nil => cases h
  | cons a rest ih =>
    unfold kernLoop at h
    split at h
    · cases h
    · rename_i errno ha
      split at h
      · rename_i e' hc
        cases h
        exact ⟨[], a, rest, rfl, Or.inr ⟨errno, ha, hc⟩, by simp⟩
      · rename_i hc
        obtain ⟨pre, b, post, rfl, h1, h2⟩ := ih h
        refine ⟨a :: pre, b, post, rfl, h1, ?_⟩
        intro c hc'
        rcases List.mem_cons.1 hc' with rfl | hc'
        · exact ⟨errno, errno, ha, hc⟩
        · exact h2 c hc'
    · rename_i e' ha
      cases h
      exact ⟨[], a, rest, rfl, Or.inl ha, by simp⟩

private theorem reg_raised {timeout enforced : Option Num} {start : Rat} {env : List Answer} {e : Exn}
    (h : (regLoop timeout enforced start env).2 = .raised e) :
    ∃ pre a post, env = pre ++ a :: post ∧
      (a.ans = .exn e ∨ ∃ n m, a.ans = .fail n ∧ checkTimeout timeout enforced start m a.now = some e) ∧
      ∀ b ∈ pre, b.ans = .ok ∨ ∃ n m, b.ans = .fail n ∧ checkTimeout timeout enforced start m b.now = none := by
  induction env with
  | nil => cases h
  | cons a rest ih =>
    unfold regLoop at h
    split at h
    · rename_i ha
      obtain ⟨pre, b, post, rfl, h1, h2⟩ := kern_raised h
      refine ⟨a :: pre, b, post, rfl, ?_, ?_⟩
      · rcases h1 with h1 | ⟨n, h1, h3⟩
        · exact Or.inl h1
        · exact Or.inr ⟨n, n, h1, h3⟩
      · intro c hc
        rcases List.mem_cons.1 hc with rfl | hc
        · exact Or.inl ha
        · exact Or.inr (h2 c hc)
    · rename_i errno ha
      split at h
      · rename_i e' hc
        cases h
        exact ⟨[], a, rest, rfl, Or.inr ⟨errno, 1, ha, hc⟩, by simp⟩
      · rename_i hc
        obtain ⟨pre, b, post, rfl, h1, h2⟩ := ih h
        refine ⟨a :: pre, b, post, rfl, h1, ?_⟩
        intro c hc'
        rcases List.mem_cons.1 hc' with rfl | hc'
        · exact Or.inr ⟨errno, 1, ha, hc⟩
        · exact h2 c hc'
    · rename_i e' ha
      cases h
      exact ⟨[], a, rest, rfl, Or.inl ha, by simp⟩

private theorem args_ok {v : LockView} {timeout length offset whence shared : PyArg} {plan : LockPlan}
    (h : lockArgs v timeout length offset whence shared = .ok plan) :
    v.checkSeekable = .ok () ∧ badTimeout timeout = false ∧ badNatural length = false ∧ badInteger offset = false ∧
    badWhence whence = false ∧ badShared shared = false ∧
    plan = ⟨timeout.num?, length.int?, absOffset v offset whence, askedShared v shared,
      timeout.num?.isNone && v.enforced.isNone⟩ := by
  unfold lockArgs at h
  split at h
  · cases h
  · rename_i hc
    split at h; · cases h
    split at h; · cases h
    split at h; · cases h
    split at h; · cases h
    split at h; · cases h
    dsimp only at h
    split at h; · cases h
    rename_i h1 h2 h3 h4 h5 _
    cases h
    simp only [Bool.not_eq_true] at h1 h2 h3 h4 h5
    exact ⟨hc, h1, h2, h3, h4, h5, rfl⟩

private theorem args_error {v : LockView} {timeout length offset whence shared : PyArg} {e : Exn}
    (h : lockArgs v timeout length offset whence shared = .error e) :
    e = .valueError ∨ e = .unsupported ∨ e = .badValueType ∨ e = .ioError 0 := by
  unfold lockArgs at h
  split at h
  · rename_i hc
    cases h
    unfold LockView.checkSeekable at hc
    split at hc
    · cases hc; simp
    · split at hc
      · cases hc
      · cases hc; simp
  · split at h; · cases h; simp
    split at h; · cases h; simp
    split at h; · cases h; simp
    split at h; · cases h; simp
    split at h; · cases h; simp
    dsimp only at h
    split at h
    · cases h; simp
    · cases h

private theorem lockFile_ok {v : LockView} {timeout length offset whence shared : PyArg} {plan : LockPlan}
    (h : lockArgs v timeout length offset whence shared = .ok plan) : plan.timeout = timeout.num? := by
  obtain ⟨_, _, _, _, _, _, rfl⟩ := args_ok h
  rfl

private theorem check_some {timeout enforced : Option Num} {start : Rat} {n : Nat} {now : Rat} {e : Exn}
    (h : checkTimeout timeout enforced start n now = some e) :
    (∃ t, timeout = some t ∧ Expired t start now ∧ e = .lockingException n) ∨
    (timeout = none ∧ ∃ t, enforced = some t ∧ Expired t start now ∧ e = .runtimeError) := by
  unfold checkTimeout at h
  split at h
  · rename_i t
    split at h
    · rename_i hr
      cases h
      exact Or.inl ⟨t, rfl, (reached_iff _ _ _).1 hr, rfl⟩
    · cases h
  · split at h
    · rename_i t
      split at h
      · rename_i hr
        cases h
        exact Or.inr ⟨rfl, t, rfl, (reached_iff _ _ _).1 hr, rfl⟩
      · cases h
    · cases h

private theorem check_none {timeout enforced : Option Num} {start : Rat} {n : Nat} {now : Rat}
    (h : checkTimeout timeout enforced start n now = none) (t : Num) (ht : limitOf timeout enforced = some t) :
    ¬ Expired t start now := by
  rw [← reached_iff]
  unfold checkTimeout at h
  unfold limitOf at ht
  split at h
  · simp only [Option.orElse_eq_orElse, Option.orElse_eq_or, Option.some_or, Option.some.injEq] at ht
    subst ht
    split at h
    · cases h
    · rename_i hh; exact hh
  · split at h
    · simp only [Option.orElse_eq_orElse, Option.orElse_eq_or, Option.none_or, Option.some.injEq] at ht
      subst ht
      split at h
      · cases h
      · rename_i hh; exact hh
    · simp at ht

/-! ## C11 -/

/-- C11: `LockingException` is raised only if a timeout was given, and then by a failed attempt observed at least
`timeout` after the start; all earlier attempts had been observed before the deadline or had succeeded. -/
theorem C11_raised_after_deadline {v : LockView} {timeout length offset whence shared : PyArg} {start : Rat}
    {env : List Answer} (henv : ExnOk env) {n : Nat}
    (h : (lockFile v timeout length offset whence shared start env).2 = .raised (.lockingException n)) :
    ∃ t, timeout.num? = some t ∧ ∃ pre a post, env = pre ++ a :: post ∧ (∃ m, a.ans = .fail m) ∧ Expired t start a.now ∧
      ∀ b ∈ pre, b.ans = .ok ∨ ((∃ m, b.ans = .fail m) ∧ ¬ Expired t start b.now) := by
  unfold lockFile at h
  split at h
  · rename_i e he
    simp only [Outcome.raised.injEq] at h
    subst h
    rcases args_error he with h | h | h | h <;> cases h
  · rename_i plan hp
    rw [lockFile_ok hp] at h
    obtain ⟨pre, a, post, rfl, h1, h2⟩ := reg_raised h
    rcases h1 with h1 | ⟨m, k, h1, h3⟩
    · exact absurd h1 (henv a (by simp) n).1
    · rcases check_some h3 with ⟨t, ht, hx, _⟩ | ⟨_, t, _, _, hx⟩
      · refine ⟨t, ht, pre, a, post, rfl, ⟨m, h1⟩, hx, fun b hb => ?_⟩
        rcases h2 b hb with h4 | ⟨m', k', h4, h5⟩
        · exact Or.inl h4
        · exact Or.inr ⟨⟨m', h4⟩, check_none h5 t (by rw [ht]; rfl)⟩
      · cases hx

/-- C11: a call whose attempts succeed returns normally, whatever the clock says and whatever the timeouts are. -/
theorem C11_success_returns {v : LockView} {timeout length offset whence shared : PyArg} {start t₁ t₂ : Rat}
    {rest : List Answer} {plan : LockPlan} (hok : lockArgs v timeout length offset whence shared = .ok plan) :
    lockFile v timeout length offset whence shared start (⟨.ok, t₁⟩ :: ⟨.ok, t₂⟩ :: rest) =
      ([.register, .kernel], .locked) := by
  simp [lockFile, hok, regLoop, kernLoop]

/-- C11: an attempt that succeeds after failed ones returns normally even if the deadline is over by then. -/
theorem C11_late_success_returns {v : LockView} {timeout length offset whence shared : PyArg} {start t₁ t₂ : Rat}
    {pre mid post : List Answer} {plan : LockPlan} (hok : lockArgs v timeout length offset whence shared = .ok plan)
    (hp : ∀ b ∈ pre ++ mid, (∃ m, b.ans = .fail m) ∧
      ∀ t, limitOf timeout.num? v.enforced = some t → ¬ Expired t start b.now) :
    (lockFile v timeout length offset whence shared start (pre ++ ⟨.ok, t₁⟩ :: (mid ++ ⟨.ok, t₂⟩ :: post))).2 = .locked := by
  have hc : ∀ (b : Answer) (n : Nat), (∀ t, limitOf timeout.num? v.enforced = some t → ¬ Expired t start b.now) →
      checkTimeout timeout.num? v.enforced start n b.now = none := by
    intro b n hb
    cases hcc : checkTimeout timeout.num? v.enforced start n b.now with
    | none => rfl
    | some e =>
      exfalso
      rcases check_some hcc with ⟨t, ht, hx, _⟩ | ⟨ht, t, ht', hx, _⟩
      · exact hb t (by rw [ht]; rfl) hx
      · exact hb t (by rw [ht, ht']; rfl) hx
  have hk : ∀ mid : List Answer, (∀ b ∈ mid, (∃ m, b.ans = .fail m) ∧
      ∀ t, limitOf timeout.num? v.enforced = some t → ¬ Expired t start b.now) →
      (kernLoop timeout.num? v.enforced start (mid ++ ⟨.ok, t₂⟩ :: post)).2 = .locked := by
    intro mid
    induction mid with
    | nil => intro _; simp [kernLoop]
    | cons b mid ih =>
      intro hm
      obtain ⟨⟨m, hb⟩, hb'⟩ := hm b List.mem_cons_self
      rw [List.cons_append, kernLoop]
      simp only [hb, hc b m hb']
      exact ih (fun c hc => hm c (List.mem_cons_of_mem _ hc))
  rw [lockFile, hok]
  dsimp only
  rw [lockFile_ok hok]
  clear hok
  induction pre with
  | nil =>
    simp only [List.nil_append, regLoop]
    exact hk mid (fun b hb => hp b (by simpa using hb))
  | cons b pre ih =>
    obtain ⟨⟨m, hb⟩, hb'⟩ := hp b (by simp)
    rw [List.cons_append, regLoop]
    simp only [hb, hc b 1 hb']
    exact ih (fun c hc => hp c (List.mem_cons_of_mem _ hc))

/-- C11: with `timeout=0` there is at most one attempt at each level, no sleep, and the call ends. -/
theorem C11_zero_timeout {v : LockView} {timeout length offset whence shared : PyArg} {start : Rat} {env : List Answer}
    (ht : timeout.num? = some (.fin 0)) (hclk : ∀ a ∈ env, start ≤ a.now) :
    let r := lockFile v timeout length offset whence shared start env
    Effect.sleep ∉ r.1 ∧ r.1.count .register ≤ 1 ∧ r.1.count .kernel ≤ 1 ∧ (2 ≤ env.length → r.2 ≠ .running) := by
  have hc : ∀ a ∈ env, ∀ n, checkTimeout (some (.fin 0)) v.enforced start n a.now = some (.lockingException n) := by
    intro a ha n
    have := hclk a ha
    unfold checkTimeout
    dsimp only
    rw [if_pos]
    rw [reached_iff]
    exact Or.inl ⟨0, rfl, by linarith⟩
  dsimp only
  unfold lockFile
  split
  · simp
  · rename_i plan hp
    rw [lockFile_ok hp, ht]
    match env, hc with
    | [], _ => simp [regLoop]
    | a :: rest, hc =>
      rw [regLoop]
      split
      · match rest, hc with
        | [], _ => simp [kernLoop]
        | b :: rest, hc =>
          rw [kernLoop]
          split
          · simp
          · rw [hc b (by simp)]; simp
          · simp
      · rw [hc a (by simp)]; simp
      · simp

example : (lockFile ⟨false, true, true, true, 0, 0, none⟩ (.int 1) .none .none (.int 0) .none 0
    [⟨.fail 1, 1/2⟩, ⟨.ok, 7⟩, ⟨.ok, 9⟩]) = ([.register, .sleep, .register, .kernel], .locked) := by decide +kernel

example : (lockFile ⟨false, true, true, true, 0, 0, none⟩ (.int 0) .none .none (.int 0) .none 0
    [⟨.ok, 0⟩, ⟨.fail 11, 0⟩]) = ([.register, .kernel, .unregister], .raised (.lockingException 11)) := by
  decide +kernel

/-! ## C12 -/

/-- C12: a blocking call raises `RuntimeError` only when the registry or the kernel call raised it, or when the option
is set and a failed attempt was observed at least that long after the start. -/
theorem C12_enforced {v : LockView} {length offset whence shared : PyArg} {start : Rat} {env : List Answer} {e : Exn}
    {plan : LockPlan} (hok : lockArgs v .none length offset whence shared = .ok plan)
    (h : (lockFile v .none length offset whence shared start env).2 = .raised e) :
    (∃ a ∈ env, a.ans = .exn e) ∨
    (e = .runtimeError ∧ ∃ t, v.enforced = some t ∧ ∃ a ∈ env, (∃ m, a.ans = .fail m) ∧ Expired t start a.now) := by
  rw [lockFile, hok] at h
  dsimp only at h
  rw [lockFile_ok hok] at h
  obtain ⟨pre, a, post, rfl, h1, _⟩ := reg_raised h
  rcases h1 with h1 | ⟨m, k, h1, h3⟩
  · exact Or.inl ⟨a, by simp, h1⟩
  · rcases check_some h3 with ⟨t, ht, _⟩ | ⟨_, t, ht, hx, he⟩
    · cases ht
    · exact Or.inr ⟨he, t, ht, a, by simp, ⟨m, h1⟩, hx⟩

/-- C12: without the option a blocking call raises only what the registry or the kernel call raised. -/
theorem C12_no_option {v : LockView} {length offset whence shared : PyArg} {start : Rat} {env : List Answer} {e : Exn}
    {plan : LockPlan} (hok : lockArgs v .none length offset whence shared = .ok plan) (hv : v.enforced = none)
    (h : (lockFile v .none length offset whence shared start env).2 = .raised e) : ∃ a ∈ env, a.ans = .exn e := by
  rcases C12_enforced hok h with h | ⟨_, t, ht, _⟩
  · exact h
  · rw [hv] at ht; cases ht

/-- C12: the option has no influence at all on a call with a timeout. -/
theorem C12_own_timeout {v : LockView} {timeout length offset whence shared : PyArg} {start : Rat} {env : List Answer}
    (ht : timeout ≠ .none) (enforced' : Option Num) :
    lockFile { v with enforced := enforced' } timeout length offset whence shared start env =
      lockFile v timeout length offset whence shared start env := by
  have hk : ∀ (t : Num) (en en' : Option Num) (env : List Answer),
      kernLoop (some t) en start env = kernLoop (some t) en' start env := by
    intro t en en' env
    induction env with
    | nil => rfl
    | cons a rest ih => simp only [kernLoop, checkTimeout, ih]
  have hr : ∀ (t : Num) (en en' : Option Num) (env : List Answer),
      regLoop (some t) en start env = regLoop (some t) en' start env := by
    intro t en en' env
    induction env with
    | nil => rfl
    | cons a rest ih => simp only [regLoop, checkTimeout, ih, hk t en en' rest]
  cases hn : timeout.num? with
  | none =>
    have hb : badTimeout timeout = true := by
      cases timeout <;> simp_all [badTimeout, PyArg.num?]
    unfold lockFile lockArgs
    simp only [hb, if_true]
    have : (LockView.checkSeekable { v with enforced := enforced' }) = v.checkSeekable := rfl
    rw [this]
    cases v.checkSeekable <;> rfl
  | some t =>
    have ha : lockArgs { v with enforced := enforced' } timeout length offset whence shared =
        lockArgs v timeout length offset whence shared := by
      unfold lockArgs
      simp only [hn, Option.isNone_some, Bool.false_and]
      rfl
    unfold lockFile
    rw [ha]
    cases h : lockArgs v timeout length offset whence shared with
    | error e => rfl
    | ok plan =>
      dsimp only
      rw [lockFile_ok h, hn]
      exact hr t _ _ env

example : (lockFile ⟨false, true, true, true, 0, 0, some (.fin 2)⟩ .none .none .none (.int 0) .none 0
    [⟨.fail 1, 1⟩, ⟨.ok, 7⟩, ⟨.fail 11, 9⟩]) =
      ([.register, .sleep, .register, .kernel, .unregister], .raised .runtimeError) := by decide +kernel

/-! ## C13 -/

private theorem kern_bound {timeout enforced : Option Num} {t d start : Rat} (hl : limitOf timeout enforced = some (.fin t))
    (hd : 0 < d) (env : List Answer) (last : Rat) (k : Nat) (hk : start + k * d ≤ last) (htk : Ticks d last env)
    (hpos : 0 ≤ t) (hprev : k = 0 ∨ ((k : Rat) - 1) * d < t) :
    let r := kernLoop timeout enforced start env
    (((k + r.1.count .sleep : Nat) : Rat) * d < t + d) ∧ (r.2 = .running → r.1.count .sleep = env.length) ∧
      r.1.count .kernel ≤ r.1.count .sleep + 1 ∧ r.1.count .register = 0 := by
  induction env generalizing last k with
  | nil =>
    dsimp only
    simp only [kernLoop, List.count_nil, Nat.add_zero, List.length_nil, implies_true, and_true, Nat.zero_le]
    rcases hprev with rfl | h
    · simp; linarith
    · linarith
  | cons a rest ih =>
    obtain ⟨h1, h2⟩ := htk
    have base : ((k : Nat) : Rat) * d < t + d := by
      rcases hprev with rfl | h
      · simp; linarith
      · linarith
    dsimp only
    unfold kernLoop
    split
    · simp; exact base
    · rename_i n ha
      split
      · simp; exact base
      · rename_i hc
        have hne := check_none hc _ hl
        have hlt : a.now - start < t := by
          by_contra hcon
          exact hne (Or.inl ⟨t, rfl, not_lt.1 hcon⟩)
        rw [ha] at h2
        dsimp only at h2
        have := ih (a.now + d) (k + 1) (by push_cast; linarith) h2 (Or.inr (by push_cast; linarith))
        dsimp only at this
        obtain ⟨i1, i2, i3, i4⟩ := this
        simp only [List.count_cons, beq_iff_eq, reduceCtorEq, if_false, BEq.rfl, if_true, Nat.add_zero,
          List.length_cons]
        refine ⟨?_, ?_, by simpa using i3, by simpa using i4⟩
        · convert i1 using 2
          push_cast; ring
        · intro hr; simp [i2 hr]
    · simp; exact base

private theorem reg_bound {timeout enforced : Option Num} {t d start : Rat} (hl : limitOf timeout enforced = some (.fin t))
    (hd : 0 < d) (env : List Answer) (last : Rat) (k : Nat) (hk : start + k * d ≤ last) (htk : Ticks d last env)
    (hpos : 0 ≤ t) (hprev : k = 0 ∨ ((k : Rat) - 1) * d < t) :
    let r := regLoop timeout enforced start env
    (((k + r.1.count .sleep : Nat) : Rat) * d < t + d) ∧ (r.2 = .running → env.length ≤ r.1.count .sleep + 1) ∧
      r.1.count .register + r.1.count .kernel ≤ r.1.count .sleep + 2 := by
  induction env generalizing last k with
  | nil =>
    dsimp only
    simp only [regLoop, List.count_nil, Nat.add_zero, List.length_nil, and_true, Nat.zero_le, implies_true]
    rcases hprev with rfl | h
    · simp; linarith
    · linarith
  | cons a rest ih =>
    obtain ⟨h1, h2⟩ := htk
    have base : ((k : Nat) : Rat) * d < t + d := by
      rcases hprev with rfl | h
      · simp; linarith
      · linarith
    dsimp only
    unfold regLoop
    split
    · rename_i ha
      rw [ha] at h2
      dsimp only at h2
      have := kern_bound (start := start) hl hd rest a.now k (by linarith) h2 hpos hprev
      dsimp only at this
      obtain ⟨i1, i2, i3, i4⟩ := this
      simp only [List.count_cons, beq_iff_eq, reduceCtorEq, if_false, BEq.rfl, if_true, Nat.add_zero,
        List.length_cons]
      refine ⟨i1, ?_, by omega⟩
      intro hr; rw [i2 hr]
    · rename_i n ha
      split
      · simp; exact base
      · rename_i hc
        have hne := check_none hc _ hl
        have hlt : a.now - start < t := by
          by_contra hcon
          exact hne (Or.inl ⟨t, rfl, not_lt.1 hcon⟩)
        rw [ha] at h2
        dsimp only at h2
        have := ih (a.now + d) (k + 1) (by push_cast; linarith) h2 (Or.inr (by push_cast; linarith))
        dsimp only at this
        obtain ⟨i1, i2, i3⟩ := this
        simp only [List.count_cons, beq_iff_eq, reduceCtorEq, if_false, BEq.rfl, if_true, Nat.add_zero,
          List.length_cons]
        refine ⟨?_, ?_, by omega⟩
        · convert i1 using 2
          push_cast; ring
        · intro hr; have := i2 hr; omega
    · simp; exact base

/-- C13: a call with a finite limit `t` (its own timeout, or the enforced one) sleeps at most `⌈t/d⌉` times; it makes
at most two attempts more than it sleeps; and it has ended when the environment has given `⌈t/d⌉ + 2` answers. -/
theorem C13_terminates {v : LockView} {timeout length offset whence shared : PyArg} {start t d : Rat} {env : List Answer}
    (hl : limitOf timeout.num? v.enforced = some (.fin t)) (ht : 0 ≤ t) (hd : 0 < d) (hclk : Ticks d start env) :
    let r := lockFile v timeout length offset whence shared start env
    ((r.1.count .sleep : Nat) : Rat) * d < t + d ∧
    r.1.count .register + r.1.count .kernel ≤ r.1.count .sleep + 2 ∧
    (t + 2 * d ≤ env.length * d → r.2 ≠ .running) := by
  dsimp only
  unfold lockFile
  split
  · simp; linarith
  · rename_i plan hp
    rw [lockFile_ok hp]
    obtain ⟨h1, h2, h3⟩ := reg_bound (start := start) hl hd env start 0 (by simp) hclk ht (Or.inl rfl)
    simp only [Nat.zero_add] at h1
    refine ⟨h1, h3, ?_⟩
    intro hlen hr
    have h4 := h2 hr
    have h5 : ((env.length : Nat) : Rat) ≤ ((regLoop timeout.num? v.enforced start env).1.count .sleep : Nat) + 1 := by
      exact_mod_cast h4
    nlinarith

example : Ticks (1 : Rat) 0 [⟨.fail 11, 0⟩, ⟨.fail 11, 1⟩, ⟨.ok, 3⟩, ⟨.fail 11, 3⟩] ∧
    (lockFile ⟨false, true, true, true, 0, 0, none⟩ (.float (.fin (3/2))) .none .none (.int 0) .none 0
      [⟨.fail 11, 0⟩, ⟨.fail 11, 1⟩, ⟨.ok, 3⟩, ⟨.fail 11, 3⟩]) =
      ([.register, .sleep, .register, .sleep, .register, .kernel, .unregister], .raised (.lockingException 11)) := by
  refine ⟨?_, by decide +kernel⟩
  simp only [Ticks]; norm_num

/-! ## C14 -/

/-- C14 is false of the code: a blocking call never reports a permanent error of the kernel; it tries again for ever. -/
theorem C14_refuted (n errno : Nat) (v : LockView) (length offset whence shared : PyArg) (plan : LockPlan)
    (hok : lockArgs v .none length offset whence shared = .ok plan) (hv : v.enforced = none) (start : Rat)
    (clock : Nat → Rat) :
    (lockFile v .none length offset whence shared start
      (⟨.ok, start⟩ :: (List.range n).map (fun i => ⟨.fail errno, clock i⟩))).2 = .running := by
  rw [lockFile, hok]
  dsimp only
  rw [lockFile_ok hok, hv]
  simp only [regLoop, PyArg.num?]
  generalize List.range n = l
  induction l with
  | nil => rfl
  | cons i l ih => simp only [List.map_cons, kernLoop, checkTimeout]; exact ih

/-- C14 (partial): with a finite limit, a permanent error ends the call with an exception: `LockingException` with the
errno of the kernel if the call has its own timeout, `RuntimeError` if only the enforced one exists.  Missing: blocking
calls without enforced timeout (`C14_refuted`). -/
theorem C14_reported_partial {v : LockView} {timeout length offset whence shared : PyArg} {plan : LockPlan}
    (hok : lockArgs v timeout length offset whence shared = .ok plan) {start t₀ t d : Rat} {errno : Nat}
    {env : List Answer} (hl : limitOf timeout.num? v.enforced = some (.fin t)) (ht : 0 ≤ t) (hd : 0 < d)
    (hclk : Ticks d start (⟨.ok, t₀⟩ :: env)) (henv : ∀ a ∈ env, a.ans = .fail errno)
    (hlen : t + 2 * d ≤ ((⟨.ok, t₀⟩ :: env : List Answer).length : Nat) * d) :
    (lockFile v timeout length offset whence shared start (⟨.ok, t₀⟩ :: env)).2 =
      .raised (if timeout = .none then .runtimeError else .lockingException errno) := by
  have hterm := (C13_terminates (v := v) (timeout := timeout) (length := length) (offset := offset) (whence := whence)
    (shared := shared) hl ht hd hclk).2.2 hlen
  rw [lockFile, hok] at hterm ⊢
  dsimp only at hterm ⊢
  rw [lockFile_ok hok] at hterm ⊢
  have htm : timeout = .none ↔ timeout.num? = none := by
    constructor
    · rintro rfl; rfl
    · intro hn
      cases timeout <;> simp_all [PyArg.num?]
      have := (args_ok hok).2.1
      simp [badTimeout, PyArg.num?] at this
  simp only [regLoop] at hterm ⊢
  clear hok hclk hlen hl
  induction env with
  | nil => exact absurd rfl hterm
  | cons a rest ih =>
    simp only [kernLoop, henv a List.mem_cons_self] at hterm ⊢
    cases hc : checkTimeout timeout.num? v.enforced start errno a.now with
    | none =>
      rw [hc] at hterm
      exact ih (fun b hb => henv b (List.mem_cons_of_mem _ hb)) hterm
    | some e =>
      dsimp only
      rcases check_some hc with ⟨x, hx, _, rfl⟩ | ⟨hx, x, _, _, rfl⟩
      · rw [if_neg (by rw [htm, hx]; simp)]
      · rw [if_pos (htm.2 hx)]

example : lockArgs ⟨false, true, true, true, 0, 0, none⟩ .none .none .none (.int 0) .none =
    .ok ⟨none, none, 0, false, true⟩ := by decide +kernel

/-- A timeout that is not a number is accepted and never expires. -/
theorem C11_nan_never_expires (n errno : Nat) (v : LockView) (length offset whence shared : PyArg) (start : Rat)
    (clock : Nat → Rat) (plan : LockPlan) (hok : lockArgs v (.float .nan) length offset whence shared = .ok plan) :
    (lockFile v (.float .nan) length offset whence shared start
      (⟨.ok, start⟩ :: (List.range n).map (fun i => ⟨.fail errno, clock i⟩))).2 = .running := by
  rw [lockFile, hok]
  dsimp only
  rw [lockFile_ok hok]
  simp only [regLoop, PyArg.num?]
  generalize List.range n = l
  induction l with
  | nil => rfl
  | cons i l ih => simp only [List.map_cons, kernLoop, checkTimeout, Num.reached]; exact ih

/-! ## C10 at the level of one call -/

/-- C10: a registration is undone exactly when the call fails: if the call returns, there is one granted registration
more than there are cancellations; if it raises, every granted registration was cancelled.  (`granted` counts the
registrations that the registry accepted.) -/
theorem C10_balanced {v : LockView} {timeout length offset whence shared : PyArg} {start : Rat} {env : List Answer} :
    let r := lockFile v timeout length offset whence shared start env
    (r.2 = .locked → Effect.unregister ∉ r.1 ∧ r.1.count .kernel ≥ 1) ∧
    (∀ e, r.2 = .raised e → (Effect.kernel ∈ r.1 ↔ r.1.count .unregister = 1) ∧ r.1.count .unregister ≤ 1 ∧
      (Effect.unregister ∈ r.1 → r.1.getLast? = some .unregister)) := by
  have hk : ∀ (en t : Option Num) (env : List Answer), let r := kernLoop t en start env
      (r.2 = .locked → Effect.unregister ∉ r.1 ∧ r.1.count .kernel ≥ 1) ∧
      (∀ e, r.2 = .raised e → Effect.kernel ∈ r.1 ∧ r.1.count .unregister = 1 ∧ r.1.getLast? = some .unregister) := by
    intro en t env
    induction env with
    | nil => simp [kernLoop]
    | cons a rest ih =>
      dsimp only at ih ⊢
      unfold kernLoop
      split
      · simp
      · split
        · simp
        · refine ⟨fun h => ?_, fun e h => ?_⟩
          · have := ih.1 h; simp [this.1]
          · obtain ⟨i1, i2, i3⟩ := ih.2 e h
            refine ⟨by simp, by simpa using i2, ?_⟩
            rw [List.getLast?_cons, List.getLast?_cons, i3]; rfl
      · simp
  have hr : ∀ (en t : Option Num) (env : List Answer), let r := regLoop t en start env
      (r.2 = .locked → Effect.unregister ∉ r.1 ∧ r.1.count .kernel ≥ 1) ∧
      (∀ e, r.2 = .raised e → (Effect.kernel ∈ r.1 ↔ r.1.count .unregister = 1) ∧ r.1.count .unregister ≤ 1 ∧
        (Effect.unregister ∈ r.1 → r.1.getLast? = some .unregister)) := by
    intro en t env
    induction env with
    | nil => simp [regLoop]
    | cons a rest ih =>
      dsimp only at ih ⊢
      unfold regLoop
      split
      · have := hk en t rest
        dsimp only at this ⊢
        refine ⟨fun h => ?_, fun e h => ?_⟩
        · have := this.1 h; simp [this.1, this.2]
        · obtain ⟨i1, i2, i3⟩ := this.2 e h
          refine ⟨by simp [i1, i2], by simp [i2], fun _ => ?_⟩
          rw [List.getLast?_cons, i3]; rfl
      · split
        · simp
        · refine ⟨fun h => ?_, fun e h => ?_⟩
          · have := ih.1 h; simp [this.1, this.2]
          · obtain ⟨i1, i2, i3⟩ := ih.2 e h
            refine ⟨by simpa using i1, by simpa using i2, fun hm => ?_⟩
            rw [List.getLast?_cons, List.getLast?_cons, i3 (by simpa using hm)]; rfl
      · simp
  dsimp only
  unfold lockFile
  split
  · simp
  · exact hr _ _ _

/-! ## C15 -/

private theorem eqInt_iff (a : PyArg) (n : Int) : a.eqInt n = true ↔ a.num? = some (.fin n) := by
  unfold PyArg.eqInt
  split
  · rename_i q hq
    rw [hq]; simp
  · rename_i h
    constructor
    · intro h'; cases h'
    · intro h'; exact absurd h' (h _)

private theorem badTimeout_iff (a : PyArg) : badTimeout a = false ↔
    (a = .none ∨ ∃ x, a.num? = some x ∧ ¬ (x = .ninf ∨ ∃ q < 0, x = .fin q)) := by
  have neg_iff : ∀ x : Num, x.neg = false ↔ ¬ (x = .ninf ∨ ∃ q < 0, x = .fin q) := by
    intro x; cases x <;> simp [Num.neg]
  cases a <;> simp only [badTimeout, PyArg.num?, true_or, reduceCtorEq, false_or, Option.some.injEq, exists_eq_left',
    neg_iff, false_and, exists_false]

private theorem badNatural_iff (a : PyArg) : badNatural a = false ↔ (a = .none ∨ ∃ n, a.int? = some n ∧ 0 ≤ n) := by
  cases a <;> simp [badNatural, PyArg.int?]

private theorem badInteger_iff (a : PyArg) : badInteger a = false ↔ (a = .none ∨ ∃ n, a.int? = some n) := by
  cases a <;> simp [badInteger, PyArg.int?]

private theorem badWhence_iff (a : PyArg) : badWhence a = false ↔ ∃ n : Int, a.num? = some (.fin n) ∧ n ∈ [0, 1, 2] := by
  simp only [badWhence, Bool.not_eq_false', Bool.or_eq_true, eqInt_iff]
  constructor
  · rintro ((h | h) | h)
    · exact ⟨0, h, by simp⟩
    · exact ⟨1, h, by simp⟩
    · exact ⟨2, h, by simp⟩
  · rintro ⟨n, h, hn⟩
    simp only [List.mem_cons, List.not_mem_nil, or_false] at hn
    rcases hn with rfl | rfl | rfl
    · exact Or.inl (Or.inl h)
    · exact Or.inl (Or.inr h)
    · exact Or.inr h

private theorem badShared_iff (a : PyArg) : badShared a = false ↔
    (a = .none ∨ ∃ n : Int, a.num? = some (.fin n) ∧ n ∈ [0, 1]) := by
  have h : ∀ b : PyArg, (b.eqInt 1 || b.eqInt 0) = true ↔ ∃ n : Int, b.num? = some (.fin n) ∧ n ∈ [0, 1] := by
    intro b
    simp only [Bool.or_eq_true, eqInt_iff]
    constructor
    · rintro (h | h)
      · exact ⟨1, h, by simp⟩
      · exact ⟨0, h, by simp⟩
    · rintro ⟨n, h, hn⟩
      simp only [List.mem_cons, List.not_mem_nil, or_false] at hn
      rcases hn with rfl | rfl
      · exact Or.inr h
      · exact Or.inl h
  cases a with
  | none => simp [badShared]
  | _ =>
    simp only [badShared, Bool.not_eq_false', h, reduceCtorEq, false_or]

/-- The sharing mode asked for by the argument `shared` on a stream. -/
def sharedAsked (writable : Bool) (shared : PyArg) : Bool :=
  match shared with
  | .none => !writable
  | a => decide (a.num? = some (.fin 1))

/-- C15: the complete decision of `lock_file` before any lock is attempted.  An open, seekable stream rejects invalid
arguments by `BadValueTypeError`, then a sharing mode that the stream does not allow by `IOError`; otherwise the lock is
attempted with that sharing mode, which without argument is exclusive iff the stream is writable. -/
theorem C15_rules (v : LockView) (timeout length offset whence shared : PyArg) (ho : v.closed = false)
    (hs : v.seekable = true) :
    (¬ ValidArgs timeout length offset whence shared →
      lockArgs v timeout length offset whence shared = .error .badValueType) ∧
    (ValidArgs timeout length offset whence shared →
      (sharedAsked v.writable shared = true ∧ v.readable = false ∨
        sharedAsked v.writable shared = false ∧ v.writable = false) →
      lockArgs v timeout length offset whence shared = .error (.ioError 0)) ∧
    (ValidArgs timeout length offset whence shared →
      (sharedAsked v.writable shared = true → v.readable = true) →
      (sharedAsked v.writable shared = false → v.writable = true) →
      ∃ plan, lockArgs v timeout length offset whence shared = .ok plan ∧
        plan.shared = sharedAsked v.writable shared) := by
  have hsh : askedShared v shared = sharedAsked v.writable shared := by
    have h : ∀ a : PyArg, a.eqInt 1 = decide (a.num? = some (.fin 1)) := by
      intro a
      have := eqInt_iff a 1
      rw [Bool.eq_iff_iff, this, decide_eq_true_iff]; rfl
    unfold sharedAsked askedShared
    cases shared <;> simp only [h]
  have hval : ValidArgs timeout length offset whence shared ↔
      (badTimeout timeout = false ∧ badNatural length = false ∧ badInteger offset = false ∧ badWhence whence = false ∧
        badShared shared = false) := by
    rw [badTimeout_iff, badNatural_iff, badInteger_iff, badWhence_iff, badShared_iff]
    exact ⟨fun h => ⟨h.1, h.2, h.3, h.4, h.5⟩, fun h => ⟨h.1, h.2.1, h.2.2.1, h.2.2.2.1, h.2.2.2.2⟩⟩
  have hcs : v.checkSeekable = .ok () := by simp [LockView.checkSeekable, ho, hs]
  refine ⟨fun hn => ?_, fun hv hc => ?_, fun hv h1 h2 => ?_⟩
  · rw [hval] at hn
    unfold lockArgs
    rw [hcs]
    dsimp only
    (repeat' split) <;> first | rfl | (exfalso; simp_all)
  · obtain ⟨v1, v2, v3, v4, v5⟩ := hval.1 hv
    unfold lockArgs
    rw [hcs]
    dsimp only
    simp only [v1, v2, v3, v4, v5, Bool.false_eq_true, if_false]
    rw [hsh, if_pos]
    rcases hc with ⟨a, b⟩ | ⟨a, b⟩
    · rw [a, b]; rfl
    · rw [a, b]; simp
  · obtain ⟨v1, v2, v3, v4, v5⟩ := hval.1 hv
    unfold lockArgs
    rw [hcs]
    dsimp only
    simp only [v1, v2, v3, v4, v5, Bool.false_eq_true, if_false]
    rw [hsh, if_neg]
    · exact ⟨_, rfl, rfl⟩
    · cases hx : sharedAsked v.writable shared <;> simp_all

/-- C15: a call that is rejected by its arguments makes no attempt at all. -/
theorem C15_rejected_attempts_nothing {v : LockView} {timeout length offset whence shared : PyArg} {start : Rat}
    {env : List Answer} {e : Exn} (h : lockArgs v timeout length offset whence shared = .error e) :
    lockFile v timeout length offset whence shared start env = ([], .raised e) := by
  rw [lockFile, h]

example : ValidArgs (.float (.fin (1/2))) (.int 10) (.int (-3)) (.int 2) (.bool true) :=
  ⟨Or.inr ⟨_, rfl, by simp⟩, Or.inr ⟨10, rfl, by decide⟩, Or.inr ⟨-3, rfl⟩, ⟨2, rfl, by simp⟩,
    Or.inr ⟨1, by simp [PyArg.num?], by simp⟩⟩

/-! ## C33: locking on closed streams -/

/-- C33: on a closed stream `lock_file` and `unlock_file` raise `ValueError` without any attempt, whatever the
arguments. -/
theorem C33_closed_lock (v : LockView) (hc : v.closed = true) (timeout length offset whence shared : PyArg) (start : Rat)
    (env : List Answer) :
    lockFile v timeout length offset whence shared start env = ([], .raised .valueError) ∧
    unlockArgs v length offset whence = .error .valueError := by
  simp [lockFile, lockArgs, unlockArgs, LockView.checkSeekable, hc]

/-! ## C17 -/

/-- C17 (partial): a `with` block that ends normally calls `unlock_file` on exactly the range that was locked, if the
stream is still open.  Missing: blocks that end by an exception (`C17_refuted`). -/
theorem C17_normal_exit_partial {v v' : LockView} {timeout length offset whence shared : PyArg} {plan : LockPlan}
    (hok : lockArgs v timeout length offset whence shared = .ok plan) (hs : 0 ≤ plan.start) (ho : v'.closed = false)
    (hk : v'.seekable = true) :
    ∃ l o w, lockRemoverExit plan .normal = some (l, o, w) ∧ unlockArgs v' l o w = .ok (plan.length, plan.start) := by
  have hl : ∀ n, plan.length = some n → 0 ≤ n := by
    intro n hn
    obtain ⟨_, _, h2, _, _, _, rfl⟩ := args_ok hok
    dsimp only at hn
    have := (badNatural_iff length).1 h2
    rcases this with rfl | ⟨m, hm, hm'⟩
    · simp [PyArg.int?] at hn
    · rw [hm] at hn; cases hn; exact hm'
  refine ⟨_, _, _, rfl, ?_⟩
  simp only [unlockArgs, LockView.checkSeekable, ho, hk]
  cases hpl : plan.length with
  | none => simp [badNatural, badWhence, PyArg.int?, PyArg.eqInt, PyArg.num?, absOffset, hs]
  | some n =>
    have := hl n hpl
    have h1 : ¬ n < 0 := by omega
    have h2 : ¬ plan.start < 0 := by omega
    simp [badNatural, badWhence, PyArg.int?, PyArg.eqInt, PyArg.num?, absOffset, h1, h2]

/-- C17 is false of the code: when the block ends by an exception, no call of `unlock_file` is made. -/
theorem C17_refuted (plan : LockPlan) (e : Exn) : lockRemoverExit plan (.raised e) = none := rfl

/-! ## C18 -/

/-- C18: the absolute range is computed from the position and the size at the time of the call. -/
theorem C18_resolved {v : LockView} {timeout length offset whence shared : PyArg} {plan : LockPlan}
    (hok : lockArgs v timeout length offset whence shared = .ok plan) :
    plan.length = length.int? ∧
    (whence.num? = some (.fin 0) → plan.start = offset.int?.getD 0) ∧
    (whence.num? = some (.fin 1) → plan.start = v.pos + offset.int?.getD 0) ∧
    (whence.num? = some (.fin 2) → plan.start = v.size + offset.int?.getD 0) := by
  have h01 : (1 : Rat) ≠ 0 := by norm_num
  have h02 : (2 : Rat) ≠ 0 := by norm_num
  have h12 : (2 : Rat) ≠ 1 := by norm_num
  obtain ⟨_, _, _, _, _, _, rfl⟩ := args_ok hok
  refine ⟨rfl, fun h => ?_, fun h => ?_, fun h => ?_⟩ <;> simp [absOffset, PyArg.eqInt, h]

/-- C18: whatever position, size and content the file has when the `with` block ends or the stream is closed, the range
released is the range that was locked: by the context manager, and by `close()` from the registered record. -/
theorem C18_released_range {v v' : LockView} {timeout length offset whence shared : PyArg} {plan : LockPlan}
    (hok : lockArgs v timeout length offset whence shared = .ok plan) (hs : 0 ≤ plan.start) (ho : v'.closed = false)
    (hk : v'.seekable = true) (stop : Option Int) (hstop : EndOf plan.start plan.length stop) (fd : Nat) :
    (∃ l o w l' s', lockRemoverExit plan .normal = some (l, o, w) ∧ unlockArgs v' l o w = .ok (l', s') ∧
      s' = plan.start ∧ EndOf s' l' stop) ∧
    (EndOf (closeUnlockArgs ⟨fd, plan.shared, plan.start, stop⟩).2 (closeUnlockArgs ⟨fd, plan.shared, plan.start, stop⟩).1 stop ∧
      (closeUnlockArgs ⟨fd, plan.shared, plan.start, stop⟩).2 = plan.start) := by
  refine ⟨?_, ?_, rfl⟩
  · obtain ⟨l, o, w, h1, h2⟩ := C17_normal_exit_partial hok hs ho hk
    exact ⟨l, o, w, _, _, h1, h2, rfl, hstop⟩
  · rcases hstop with ⟨h, rfl⟩ | ⟨n, h, hn, rfl⟩
    · exact Or.inl ⟨Or.inl rfl, rfl⟩
    · refine Or.inr ⟨n, ?_, hn, rfl⟩
      simp [closeUnlockArgs]

/-- C18: `None` and `0` denote the same range. -/
theorem C18_zero_is_none (start : Int) (stop : Option Int) : EndOf start none stop ↔ EndOf start (some 0) stop := by
  constructor
  · rintro (⟨_, h⟩ | ⟨l, h, _⟩)
    · exact Or.inl ⟨Or.inr rfl, h⟩
    · cases h
  · rintro (⟨_, h⟩ | ⟨l, h, hl, _⟩)
    · exact Or.inl ⟨Or.inl rfl, h⟩
    · cases h; exact absurd rfl hl

example : lockArgs ⟨false, true, true, true, 4, 20, none⟩ (.int 3) (.int 5) (.int (-2)) (.int 1) (.bool true) =
    .ok ⟨some (.fin 3), some 5, 2, true, false⟩ ∧ EndOf 2 (some 5) (some 7) :=
  ⟨by decide +kernel, Or.inr ⟨5, rfl, by decide, rfl⟩⟩

/-! ## C19 -/

/-- C19 (partial): `unlock_file` resolves the same arguments to the same range as `lock_file`, if the given offset is
not negative.  Missing: negative offsets (`C19_refuted`). -/
theorem C19_same_range_partial {v v' : LockView} {timeout length offset whence shared : PyArg} {plan : LockPlan}
    (hok : lockArgs v timeout length offset whence shared = .ok plan) (ho : v'.closed = v.closed)
    (hk : v'.seekable = v.seekable) (hpos : v'.pos = v.pos) (hsize : v'.size = v.size)
    (hoff : ∀ n, offset.int? = some n → 0 ≤ n) :
    unlockArgs v' length offset whence = .ok (plan.length, plan.start) := by
  have hcs : v'.checkSeekable = v.checkSeekable := by simp [LockView.checkSeekable, ho, hk]
  have ha : absOffset v' offset whence = absOffset v offset whence := by simp [absOffset, hpos, hsize]
  obtain ⟨hc, _, h2, h3, h4, _, rfl⟩ := args_ok hok
  have hb : badNatural offset = false := by
    rw [badNatural_iff]
    rcases (badInteger_iff offset).1 h3 with h | ⟨n, hn⟩
    · exact Or.inl h
    · exact Or.inr ⟨n, hn, hoff n hn⟩
  unfold unlockArgs
  rw [hcs, ha, hc]
  simp [h2, hb, h4]

/-- C19 is false of the code: `lock_file(length=3, offset=-3, whence=SEEK_END)` is accepted on a file of 10 bytes, and
`unlock_file` with the same arguments is rejected. -/
theorem C19_refuted : ¬ ∀ (v : LockView) (length offset whence : PyArg) (plan : LockPlan),
    lockArgs v .none length offset whence .none = .ok plan → 0 ≤ plan.start →
    unlockArgs v length offset whence = .ok (plan.length, plan.start) := by
  intro h
  have h1 : lockArgs ⟨false, true, true, true, 0, 10, none⟩ .none (.int 3) (.int (-3)) (.int 2) .none =
      .ok ⟨none, some 3, 7, false, true⟩ := by decide +kernel
  have h2 := h _ _ _ _ _ h1 (by decide)
  exact absurd h2 (by decide +kernel)

end Verif.Props
