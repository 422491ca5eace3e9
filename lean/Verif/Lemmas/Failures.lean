import Verif.Spec.Failures

set_option autoImplicit false

/-!
# The operations end at their first fault

`Obeys`: the outcome of a computation in one state.  Before an error converter the exception is that of the backend,
afterwards an `OSError`.
-/

namespace Verif.Native

variable {α β : Type}

/-- What the caller is told: `_inner_close_streams` says `EBADF` whatever `os.close` said. -/
def toldOf (env : Env) (c : Call) (code : Int) : Int :=
  if c = .crtClose then 9 else errnoOf env winerrorToErrno c code

/-- `Reported` with any relation between the fault and the exception. -/
def Obeys (env : Env) (R : Call → Int → Exc → Prop) (own : Exc → Prop) (m : M α) (s : St) : Prop :=
  ∃ L, (m s).2.log = s.log ++ L ∧
    (((∀ x ∈ L, ¬ Fault env winerrorToErrno x) ∧ ∀ e, (m s).1 = .error e → own e) ∨
      ∃ L₀ c code e, L = L₀ ++ [(c, .fail code)] ∧ (∀ x ∈ L₀, ¬ Fault env winerrorToErrno x) ∧
        Fault env winerrorToErrno (c, .fail code) ∧ (m s).1 = .error e ∧ R c code e)

/-- The exceptions behind the converters. -/
def Told (env : Env) (c : Call) (code : Int) (e : Exc) : Prop := e = .os (toldOf env c code) none

/-- The exceptions before them: those of the backend too. -/
def Raw' (env : Env) (c : Call) (code : Int) (e : Exc) : Prop :=
  e = .os (toldOf env c code) none ∨ (c ≠ .crtClose ∧ e = thrown env c code)

theorem Obeys.pure (env : Env) (R : Call → Int → Exc → Prop) (own : Exc → Prop) (a : α) (s : St) :
    Obeys env R own (Pure.pure a : M α) s :=
  ⟨[], by simp [Pure.pure], .inl ⟨by simp, by intro e h; cases h⟩⟩

theorem Obeys.raise (env : Env) (R : Call → Int → Exc → Prop) {own : Exc → Prop} {e : Exc} (h : own e) (s : St) :
    Obeys env R own (Native.raise e : M α) s :=
  ⟨[], by simp [Native.raise], .inl ⟨by simp, by intro e' h'; cases h'; exact h⟩⟩

theorem Obeys.bind {env : Env} {R : Call → Int → Exc → Prop} {own : Exc → Prop} {m : M α} {f : α → M β} {s : St}
    (hm : Obeys env R own m s) (hf : ∀ a s', m s = (.ok a, s') → Obeys env R own (f a) s') :
    Obeys env R own (m >>= f) s := by
  obtain ⟨L, hL, h⟩ := hm
  have e : (m >>= f) s = match m s with
      | (.ok a, s') => f a s'
      | (.error e, s') => (.error e, s') := rfl
  rcases hms : m s with ⟨r, s'⟩
  rw [hms] at hL h e
  cases r with
  | error x =>
    refine ⟨L, by rw [e]; exact hL, ?_⟩
    rw [e]
    rcases h with ⟨h1, h2⟩ | ⟨L₀, c, code, x', h1, h2, h3, h4, h5⟩
    · exact .inl ⟨h1, fun y hy => h2 y (by cases hy; rfl)⟩
    · exact .inr ⟨L₀, c, code, x', h1, h2, h3, by cases h4; rfl, h5⟩
  | ok a =>
    obtain ⟨L', hL', h'⟩ := hf a s' hms
    dsimp only at e hL h
    rw [Obeys, e]
    refine ⟨L ++ L', by rw [hL', hL, List.append_assoc], ?_⟩
    rcases h with ⟨h1, _⟩ | ⟨_, _, _, _, _, _, _, h4, _⟩
    · rcases h' with ⟨h1', h2'⟩ | ⟨L₀, c, code, x', h1', h2', h3', h4', h5'⟩
      · refine .inl ⟨?_, h2'⟩
        intro x hx
        rcases List.mem_append.1 hx with hx | hx
        · exact h1 x hx
        · exact h1' x hx
      · refine .inr ⟨L ++ L₀, c, code, x', by rw [h1', List.append_assoc], ?_, h3', h4', h5'⟩
        intro x hx
        rcases List.mem_append.1 hx with hx | hx
        · exact h1 x hx
        · exact h2' x hx
    · cases h4

theorem Obeys.mono {env : Env} {R R' : Call → Int → Exc → Prop} {own own' : Exc → Prop} {m : M α} {s : St}
    (h : Obeys env R own m s) (hR : ∀ c code e, R c code e → R' c code e) (ho : ∀ e, own e → own' e) :
    Obeys env R' own' m s := by
  obtain ⟨L, hL, h⟩ := h
  refine ⟨L, hL, ?_⟩
  rcases h with ⟨h1, h2⟩ | ⟨L₀, c, code, x', h1, h2, h3, h4, h5⟩
  · exact .inl ⟨h1, fun e he => ho e (h2 e he)⟩
  · exact .inr ⟨L₀, c, code, x', h1, h2, h3, h4, hR _ _ _ h5⟩

theorem thrown_crt {env : Env} {c : Call} {code : Int} (hc : c ≠ .crtClose) (h : c.crt = true) :
    thrown env c code = .os (toldOf env c code) none := by
  rcases hb : env.backend with _ | _ | _ <;> cases c <;> simp_all [thrown, toldOf, errnoOf, Call.crt]

/-- The converter turns the exceptions of the backend into those for the caller. -/
theorem converted_raw {env : Env} {c : Call} {code : Int} {e : Exc} (h : Raw' env c code e) :
    Told env c code (converted env e) := by
  rcases h with rfl | ⟨hc, rfl⟩
  · rcases hb : env.backend with _ | _ | _ <;> simp [Told, converted, hb]
  · rcases hb : env.backend with _ | _ | _ <;> cases c <;>
      simp_all [Told, converted, thrown, toldOf, errnoOf, Call.crt]

theorem Obeys.convert {env : Env} {own own' : Exc → Prop} {m : M α} {s : St} (h : Obeys env (Raw' env) own m s)
    (ho : ∀ e, own e → own' (converted env e)) : Obeys env (Told env) own' (Native.convert env m) s := by
  obtain ⟨L, hL, h⟩ := h
  have e : Native.convert env m s = match m s with
      | (.ok a, s') => (.ok a, s')
      | (.error e, s') => (.error (converted env e), s') := rfl
  rcases hms : m s with ⟨r, s'⟩
  rw [hms] at hL h e
  rw [Obeys, e]
  refine ⟨L, by cases r <;> exact hL, ?_⟩
  rcases h with ⟨h1, h2⟩ | ⟨L₀, c, code, x', h1, h2, h3, h4, h5⟩
  · refine .inl ⟨h1, ?_⟩
    intro y hy
    cases r with
    | ok a => cases hy
    | error x => cases hy; exact ho _ (h2 x rfl)
  · dsimp only at h4
    subst h4
    exact .inr ⟨L₀, c, code, _, h1, h2, h3, rfl, converted_raw h5⟩

/-- What a call that fails leads to, if the failure is a fault. -/
theorem call_obeys (env : Env) (own : Exc → Prop) {c : Call} (hr : c ≠ .read) (hw : c ≠ .write) (h1 : c ≠ .crtWrite)
    (h2 : c ≠ .fullFlush) (h3 : c ≠ .dataFlush) (h4 : c ≠ .crtClose) (s : St) :
    Obeys env (Raw' env) own (call env c) s := by
  refine ⟨[(c, s.answers.headD (.done 0 []))], ?_, ?_⟩
  · unfold call
    dsimp only
    split
    · rfl
    · split <;> rfl
  · have hp : ∀ code, pending env c code = false := by
      intro code
      simp [pending, hr, hw]
    rcases ha : s.answers.headD (.done 0 []) with ⟨n, b⟩ | code
    · refine .inl ⟨?_, ?_⟩
      · simp [Fault]
      · intro e he
        simp only [call, ha] at he
        cases he
    · refine .inr ⟨[], c, code, thrown env c code, rfl, by simp, ?_, ?_, .inr ⟨h4, rfl⟩⟩
      · simp only [Fault, EndOfPipe, WouldWait, GoesOn, Attempt, hr, hw, h1, h2, h3, false_and, and_false, or_self,
          not_false_eq_true, and_true, if_false_left]
      · simp only [call, ha, hp, Bool.false_eq_true, if_false]

/-- The next answer. -/
def nxt (s : St) : Ans := s.answers.headD (.done 0 [])

/-- The state after a call. -/
def after (c : Call) (s : St) : St := { s with answers := s.answers.tail, log := s.log ++ [(c, nxt s)] }

theorem call_done {env : Env} {c : Call} {s : St} {n : Nat} {b : List UInt8} (h : nxt s = .done n b) :
    call env c s = (.ok (n, b), after c s) := by
  unfold call
  dsimp only
  unfold nxt at h
  rw [h, after, nxt, h]

theorem call_fail {env : Env} {c : Call} {s : St} {code : Int} (h : nxt s = .fail code) :
    call env c s = (if pending env c code then .ok (0, []) else .error (thrown env c code), after c s) := by
  unfold call
  dsimp only
  unfold nxt at h
  rw [h, after, nxt, h]
  dsimp only
  split <;> rfl

theorem bind_ok {m : M α} {f : α → M β} {s s' : St} {a : α} (h : m s = (.ok a, s')) : (m >>= f) s = f a s' := by
  change M.bind m f s = _
  rw [M.bind, h]

theorem bind_error {m : M α} {f : α → M β} {s s' : St} {e : Exc} (h : m s = (.error e, s')) :
    (m >>= f) s = (.error e, s') := by
  change M.bind m f s = _
  rw [M.bind, h]

theorem catching_ok {m : M α} {h : Exc → Except Exc α} {s s' : St} {a : α} (e : m s = (.ok a, s')) :
    catching m h s = (.ok a, s') := by
  rw [catching, e]

theorem catching_error {m : M α} {h : Exc → Except Exc α} {s s' : St} {x : Exc} (e : m s = (.error x, s')) :
    catching m h s = (h x, s') := by
  rw [catching, e]

/-- A computation that makes one call. -/
theorem Obeys.of_one {env : Env} {R : Call → Int → Exc → Prop} {own : Exc → Prop} {m : M α} {s : St} {c : Call}
    (hlog : (m s).2.log = s.log ++ [(c, nxt s)])
    (hdone : ∀ n b, nxt s = .done n b → ∀ e, (m s).1 = .error e → own e)
    (hfail : ∀ code, nxt s = .fail code →
      (¬ Fault env winerrorToErrno (c, .fail code) ∧ ∀ e, (m s).1 = .error e → own e) ∨
      (Fault env winerrorToErrno (c, .fail code) ∧ ∃ e, (m s).1 = .error e ∧ R c code e)) : Obeys env R own m s := by
  refine ⟨_, hlog, ?_⟩
  rcases ha : nxt s with ⟨n, b⟩ | code
  · exact .inl ⟨by simp [Fault], hdone n b ha⟩
  · rcases hfail code ha with ⟨h1, h2⟩ | ⟨h1, e, h2, h3⟩
    · refine .inl ⟨?_, h2⟩
      intro x hx
      rw [List.mem_singleton] at hx
      subst hx
      exact h1
    · exact .inr ⟨[], c, code, e, rfl, by simp, h1, h2, h3⟩

/-- One call, a function of its result, and `except` clauses. -/
theorem one_done {env : Env} {c : Call} {s : St} {n : Nat} {b : List UInt8} (f : Nat × List UInt8 → α)
    (h : nxt s = .done n b) : (call env c >>= fun r => (Pure.pure (f r) : M α)) s = (.ok (f (n, b)), after c s) := by
  rw [bind_ok (call_done h)]
  rfl

theorem one_fail {env : Env} {c : Call} {s : St} {code : Int} (f : Nat × List UInt8 → α) (h : nxt s = .fail code) :
    (call env c >>= fun r => (Pure.pure (f r) : M α)) s =
      (if pending env c code then .ok (f (0, [])) else .error (thrown env c code), after c s) := by
  by_cases hp : pending env c code = true
  · rw [bind_ok (a := (0, [])) (s' := after c s) (by rw [call_fail h, if_pos hp]), if_pos hp]
    rfl
  · rw [bind_error (e := thrown env c code) (s' := after c s) (by rw [call_fail h, if_neg hp]), if_neg hp]

/-- The result of `_inner_read` by the answer of the system. -/
def readResult (env : Env) (c : Int) : Except Exc (Option (List UInt8)) :=
  if pending env .read c then .ok (some [])
  else
    match env.backend with
    | .unix =>
      match unixRead env (thrown env .read c) with
      | .ok v => .ok v
      | .error e => .error (converted env e)
    | _ =>
      match noData env (thrown env .read c) with
      | .ok v => .ok v
      | .error e => if brokenPipe env (converted env e) then .ok (some []) else .error (converted env e)

theorem innerRead_unix {env : Env} (hb : env.backend = .unix) :
    innerRead env =
      convert env (catching (call env .read >>= fun r => (Pure.pure (some r.2) : M _)) (unixRead env)) := by
  unfold innerRead
  rw [hb]

theorem innerRead_win {env : Env} (hb : env.backend ≠ .unix) :
    innerRead env =
      ignorePipe env (convert env (catching (call env .read >>= fun r => (Pure.pure (some r.2) : M _)) (noData env))) := by
  unfold innerRead
  split
  · contradiction
  · rfl

theorem innerRead_done {env : Env} {s : St} {n : Nat} {b : List UInt8} (h : nxt s = .done n b) :
    innerRead env s = (.ok (some b), after .read s) := by
  by_cases hb : env.backend = .unix
  · rw [innerRead_unix hb]
    exact catching_ok (catching_ok (one_done (fun r => some r.2) h))
  · rw [innerRead_win hb]
    exact catching_ok (catching_ok (catching_ok (one_done (fun r => some r.2) h)))

theorem innerRead_fail {env : Env} {s : St} {c : Int} (h : nxt s = .fail c) :
    innerRead env s = (readResult env c, after .read s) := by
  have e1 := one_fail (env := env) (c := .read) (fun r => some r.2) h
  unfold readResult
  by_cases hp : pending env .read c = true
  · rw [if_pos hp] at e1
    rw [if_pos hp]
    by_cases hb : env.backend = .unix
    · rw [innerRead_unix hb]
      exact catching_ok (catching_ok e1)
    · rw [innerRead_win hb]
      exact catching_ok (catching_ok (catching_ok e1))
  · rw [if_neg hp] at e1
    rw [if_neg hp]
    split
    · rename_i hb
      rw [innerRead_unix hb]
      have e2 := catching_error (h := unixRead env) e1
      rcases hu : unixRead env (thrown env .read c) with e | v
      · rw [hu] at e2
        exact catching_error (h := fun e => .error (converted env e)) e2
      · rw [hu] at e2
        exact catching_ok e2
    · rename_i hb
      rw [innerRead_win hb]
      have e2 := catching_error (h := noData env) e1
      rcases hu : noData env (thrown env .read c) with e | v
      · rw [hu] at e2
        exact catching_error (h := fun e => if brokenPipe env e then .ok (some []) else .error e)
          (catching_error (h := fun e => .error (converted env e)) e2)
      · rw [hu] at e2
        exact catching_ok (catching_ok e2)

theorem innerRead_obeys (env : Env) (own : Exc → Prop) (s : St) : Obeys env (Told env) own (innerRead env) s := by
  apply Obeys.of_one (c := .read)
  · rcases ha : nxt s with ⟨n, b⟩ | code
    · rw [innerRead_done ha, ← ha]
      rfl
    · rw [innerRead_fail ha, ← ha]
      rfl
  · intro n b ha e he
    rw [innerRead_done ha] at he
    cases he
  · intro code ha
    rw [innerRead_fail ha]
    rcases hb : env.backend with _ | _ | _ <;>
      simp only [readResult, pending, unixRead, noData, thrown, converted, brokenPipe, hb, Fault, EndOfPipe, WouldWait,
        GoesOn, Attempt, errnoOf, Told, toldOf, Call.crt] <;>
      grind

/-- `catching` around one call. -/
theorem caught_obeys {env : Env} {R : Call → Int → Exc → Prop} {own : Exc → Prop} {c : Call} {s : St}
    (f : Nat × List UInt8 → α) (h : Exc → Except Exc α)
    (hfail : ∀ code, pending env c code = false →
      (¬ Fault env winerrorToErrno (c, .fail code) ∧ ∀ e, h (thrown env c code) = .error e → own e) ∨
      (Fault env winerrorToErrno (c, .fail code) ∧ ∃ e, h (thrown env c code) = .error e ∧ R c code e)) :
    Obeys env R own (catching (call env c >>= fun r => (Pure.pure (f r) : M α)) h) s := by
  apply Obeys.of_one (c := c)
  · rcases ha : nxt s with ⟨n, b⟩ | code
    · rw [catching_ok (one_done f ha), ← ha]
      rfl
    · by_cases hp : pending env c code = true
      · have e1 := one_fail (env := env) (c := c) f ha
        rw [if_pos hp] at e1
        rw [catching_ok e1, ← ha]
        rfl
      · have e1 := one_fail (env := env) (c := c) f ha
        rw [if_neg hp] at e1
        rw [catching_error e1, ← ha]
        rfl
  · intro n b ha e he
    rw [catching_ok (one_done f ha)] at he
    cases he
  · intro code ha
    by_cases hp : pending env c code = true
    · have e1 := one_fail (env := env) (c := c) f ha
      rw [if_pos hp] at e1
      rw [catching_ok e1]
      refine .inl ⟨?_, by intro e he; cases he⟩
      simp only [pending, Bool.and_eq_true, bne_iff_ne, ne_eq, Bool.or_eq_true, beq_iff_eq] at hp
      simp only [Fault, GoesOn]
      intro hf
      exact hf.2.2.1 hp
    · have e1 := one_fail (env := env) (c := c) f ha
      rw [if_neg hp] at e1
      rw [catching_error e1]
      exact hfail code (by simpa using hp)

/-- One call. -/
theorem one_obeys (env : Env) (own : Exc → Prop) {c : Call} (f : Nat × List UInt8 → α) (hr : c ≠ .read)
    (h1 : c ≠ .crtWrite) (hw : env.backend = .unix → c ≠ .write) (h2 : env.backend = .unix → c ≠ .fullFlush)
    (h3 : env.backend = .unix → c ≠ .dataFlush) (h4 : c ≠ .crtClose) (s : St) :
    Obeys env (Raw' env) own (call env c >>= fun r => (Pure.pure (f r) : M α)) s := by
  have hcatch : catching (call env c >>= fun r => (Pure.pure (f r) : M α)) (fun e => .error e) =
      (call env c >>= fun r => (Pure.pure (f r) : M α)) := by
    funext s
    unfold catching
    split <;> rename_i heq <;> rw [heq]
  rw [← hcatch]
  apply caught_obeys
  intro code hp
  refine .inr ⟨?_, _, rfl, .inr ⟨h4, rfl⟩⟩
  simp only [pending, Bool.and_eq_false_iff, bne_eq_false_iff_eq, Bool.or_eq_false_iff, beq_eq_false_iff_ne] at hp
  simp only [Fault, EndOfPipe, WouldWait, GoesOn, Attempt]
  grind

/-- A computation that looks at the state first. -/
theorem Obeys.of_apply {env : Env} {R : Call → Int → Exc → Prop} {own : Exc → Prop} {m m' : M α} {s : St}
    (e : m s = m' s) (h : Obeys env R own m' s) : Obeys env R own m s := by
  rw [Obeys, e]
  exact h

theorem Obeys.loosen {env : Env} {own : Exc → Prop} {m : M α} {s : St} (h : Obeys env (Told env) own m s) :
    Obeys env (Raw' env) own m s := h.mono (fun _ _ _ he => .inl he) fun _ he => he

theorem innerSize_obeys (env : Env) (own : Exc → Prop) (s : St) : Obeys env (Told env) own (innerSize env) s :=
  (one_obeys env (fun _ => False) _ (by simp) (by simp) (by simp) (by simp) (by simp) (by simp) s).convert
    (by intro e h; exact h.elim)

theorem innerTell_obeys (env : Env) (own : Exc → Prop) (s : St) : Obeys env (Told env) own (innerTell env) s :=
  (one_obeys env (fun _ => False) _ (by simp) (by simp) (by simp) (by simp) (by simp) (by simp) s).convert
    (by intro e h; exact h.elim)

theorem innerSeek_obeys (env : Env) (own : Exc → Prop) (s : St) : Obeys env (Told env) own (innerSeek env) s :=
  (one_obeys env (fun _ => False) _ (by simp) (by simp) (by simp) (by simp) (by simp) (by simp) s).convert
    (by intro e h; exact h.elim)

theorem winSend_obeys (env : Env) (hb : env.backend ≠ .unix) (own : Exc → Prop) (s : St) :
    Obeys env (Raw' env) own (winSend env) s := by
  by_cases hh : s.hack = true
  · refine Obeys.of_apply (m' := catching (call env .crtWrite >>= fun r => (Pure.pure r.1 : M Nat)) (crtBlocked env))
      (by rw [winSend, if_pos hh]) ?_
    apply caught_obeys
    intro code _
    rcases hb' : env.backend with _ | _ | _ <;>
      simp only [crtBlocked, thrown, hb', Fault, EndOfPipe, WouldWait, GoesOn, Attempt, errnoOf, Raw', toldOf,
        Call.crt] <;>
      grind
  · refine Obeys.of_apply (m' := call env .write >>= fun r => (Pure.pure r.1 : M Nat))
      (by rw [winSend, if_neg hh]) ?_
    exact one_obeys env own (fun r => r.1) (by simp) (by simp) (fun h => (hb h).elim) (by simp) (by simp) (by simp) s

theorem innerWrite_unix {env : Env} (hb : env.backend = .unix) :
    innerWrite env =
      convert env (catching (call env .write >>= fun r => (Pure.pure (some r.1) : M _)) (unixWrite env)) := by
  unfold innerWrite
  rw [hb]

/-- What `_inner_write` does on windows. -/
def winWrite (env : Env) (append : Bool) : M (Option Nat) := do
  if append then
    let _ ← innerSeek env
  let _ ← innerTell env
  let _ ← innerSize env
  let n ← winSend env
  pure (if n = 0 then none else some n)

theorem innerWrite_win {env : Env} (hb : env.backend ≠ .unix) :
    innerWrite env = convert env (fun s => winWrite env s.append s) := by
  unfold innerWrite
  split
  · contradiction
  · rfl

theorem innerWrite_obeys (env : Env) (own : Exc → Prop) (s : St) : Obeys env (Told env) own (innerWrite env) s := by
  by_cases hb : env.backend = .unix
  · rw [innerWrite_unix hb]
    refine Obeys.convert (own := fun _ => False) ?_ (by intro e h; exact h.elim)
    apply caught_obeys
    intro code _
    simp only [unixWrite, thrown, hb, Fault, EndOfPipe, WouldWait, GoesOn, Attempt, errnoOf, Raw', toldOf]
    grind
  · rw [innerWrite_win hb]
    refine Obeys.convert (own := fun _ => False) ?_ (by intro e h; exact h.elim)
    refine Obeys.of_apply (m' := winWrite env s.append) rfl ?_
    have hrest : ∀ s, Obeys env (Raw' env) (fun _ => False) (do
        let _ ← innerTell env
        let _ ← innerSize env
        let n ← winSend env
        pure (if n = 0 then none else some n)) s := by
      intro s
      refine (innerTell_obeys env _ s).loosen.bind fun _ s _ => ?_
      refine (innerSize_obeys env _ s).loosen.bind fun _ s _ => ?_
      exact (winSend_obeys env hb _ s).bind fun _ s _ => Obeys.pure _ _ _ _ _
    unfold winWrite
    by_cases ha : s.append = true
    · rw [ha]
      exact (innerSeek_obeys env _ s).loosen.bind fun _ s _ => hrest s
    · rw [Bool.not_eq_true] at ha
      rw [ha]
      exact hrest s

theorem checkClosed_obeys {env : Env} {R : Call → Int → Exc → Prop} {own : Exc → Prop} (h : own (.other .valueError))
    (s : St) : Obeys env R own checkClosed s := by
  by_cases hc : s.closed = true
  · exact Obeys.of_apply (m' := raise (.other .valueError)) (by rw [checkClosed, if_pos hc]; rfl) (Obeys.raise _ _ h s)
  · exact Obeys.of_apply (m' := Pure.pure ()) (by rw [checkClosed, if_neg hc]; rfl) (Obeys.pure _ _ _ _ s)

theorem check_obeys {env : Env} {R : Call → Int → Exc → Prop} {own : Exc → Prop} (ok : St → Bool)
    (h : own (.other .valueError)) (h' : own (.other .unsupported)) (s : St) : Obeys env R own (check ok) s := by
  by_cases hc : s.closed = true
  · exact Obeys.of_apply (m' := raise (.other .valueError)) (by rw [check, if_pos hc]; rfl) (Obeys.raise _ _ h s)
  · by_cases ho : ok s = true
    · exact Obeys.of_apply (m' := Pure.pure ()) (by rw [check, if_neg hc, if_pos ho]; rfl) (Obeys.pure _ _ _ _ s)
    · exact Obeys.of_apply (m' := raise (.other .unsupported)) (by rw [check, if_neg hc, if_neg ho]; rfl)
        (Obeys.raise _ _ h' s)

theorem size_obeys {env : Env} {own : Exc → Prop} (h : own (.other .valueError)) (s : St) :
    Obeys env (Told env) own (size env) s :=
  (checkClosed_obeys h s).bind fun _ s _ => innerSize_obeys env own s

theorem tell_obeys {env : Env} {own : Exc → Prop} (h : own (.other .valueError)) (s : St) :
    Obeys env (Told env) own (tell env) s :=
  (checkClosed_obeys h s).bind fun _ s _ => innerTell_obeys env own s

theorem seek_obeys {env : Env} {own : Exc → Prop} (h : own (.other .valueError)) (s : St) :
    Obeys env (Told env) own (seek env) s :=
  (checkClosed_obeys h s).bind fun _ s _ => innerSeek_obeys env own s

theorem setEnd_obeys (env : Env) (own : Exc → Prop) (s : St) :
    Obeys env (Raw' env) own (call env .setEnd) s :=
  call_obeys env own (by simp) (by simp) (by simp) (by simp) (by simp) (by simp) s

/-- Changing the size natively on windows. -/
theorem winResize_obeys {env : Env} {own : Exc → Prop} (h : own (.other .valueError)) (s : St) :
    Obeys env (Told env) own (convert env (do
      let _ ← innerTell env
      let _ ← seek env
      let _ ← call env .setEnd
      let _ ← innerSeek env
      pure ())) s := by
  refine Obeys.convert (own := (· = .other .valueError)) ?_ (by rintro e rfl; exact h)
  refine (innerTell_obeys env _ s).loosen.bind fun _ s _ => ?_
  refine (seek_obeys (own := (· = .other .valueError)) rfl s).loosen.bind fun _ s _ => ?_
  refine (setEnd_obeys env _ s).bind fun _ s _ => ?_
  exact (innerSeek_obeys env _ s).loosen.bind fun _ s _ => Obeys.pure _ _ _ _ _

theorem unixResize_obeys (env : Env) (own : Exc → Prop) (s : St) :
    Obeys env (Told env) own (convert env (do
      let _ ← call env .setEnd
      pure ())) s := by
  refine Obeys.convert (own := fun _ => False) ?_ (by intro e h; exact h.elim)
  exact (setEnd_obeys env _ s).bind fun _ s _ => Obeys.pure _ _ _ _ _

theorem innerReduce_obeys {env : Env} {own : Exc → Prop} (h : own (.other .valueError)) (s : St) :
    Obeys env (Told env) own (innerReduce env) s := by
  rcases hb : env.backend with _ | _ | _ <;> simp only [innerReduce, hb]
  · exact unixResize_obeys env own s
  · exact winResize_obeys h s
  · exact winResize_obeys h s

theorem innerExtend_obeys {env : Env} {own : Exc → Prop} (h : own (.other .valueError)) (z : Bool) (s : St) :
    Obeys env (Told env) own (innerExtend env z) s := by
  rcases hb : env.backend with _ | _ | _ <;> cases z <;>
    simp only [innerExtend, hb, if_true, Bool.false_eq_true, if_false]
  · exact unixResize_obeys env own s
  · exact unixResize_obeys env own s
  · exact winResize_obeys h s
  · exact Obeys.pure _ _ _ _ s
  · exact winResize_obeys h s
  · exact Obeys.pure _ _ _ _ s

theorem attempt_obeys {env : Env} (hb : env.backend = .unix) {c : Call} (hc : c = .fullFlush ∨ c = .dataFlush)
    (own : Exc → Prop) (b : Bool) (s : St) : Obeys env (Raw' env) own (attempt env b c) s := by
  unfold attempt
  split
  case isFalse => exact Obeys.pure _ _ _ _ s
  apply caught_obeys
  intro code _
  refine .inl ⟨?_, ?_⟩
  · simp only [Fault, Attempt]
    intro h
    exact h.2.2.2 ⟨hb, hc⟩
  · intro e he
    simp [thrown, hb] at he

theorem flush_obeys (env : Env) (own : Exc → Prop) (s : St) :
    Obeys env (Raw' env) own (do
      let _ ← call env .flush
      pure ()) s :=
  (call_obeys env own (by simp) (by simp) (by simp) (by simp) (by simp) (by simp) s).bind
    fun _ s _ => Obeys.pure _ _ _ _ _

theorem innerSync_obeys (env : Env) (metadata fullFlush : Bool) (own : Exc → Prop) (s : St) :
    Obeys env (Told env) own (innerSync env metadata fullFlush) s := by
  rcases hb : env.backend with _ | _ | _ <;> simp only [innerSync, hb]
  · refine Obeys.convert (own := fun _ => False) ?_ (by intro e h; exact h.elim)
    refine (attempt_obeys hb (.inl rfl) _ _ s).bind fun full s _ => ?_
    split
    · exact Obeys.pure _ _ _ _ s
    · refine (attempt_obeys hb (.inr rfl) _ _ s).bind fun data s _ => ?_
      split
      · exact Obeys.pure _ _ _ _ s
      · exact flush_obeys env _ s
  · exact (flush_obeys env (fun _ => False) s).convert (by intro e h; exact h.elim)
  · exact (flush_obeys env (fun _ => False) s).convert (by intro e h; exact h.elim)

theorem fileInfo_obeys (env : Env) (own : Exc → Prop) (s : St) : Obeys env (Raw' env) own (fileInfo env) s := by
  unfold fileInfo
  refine (call_obeys env own (by simp) (by simp) (by simp) (by simp) (by simp) (by simp) s).bind fun _ s _ => ?_
  split
  · refine (call_obeys env own (by simp) (by simp) (by simp) (by simp) (by simp) (by simp) s).bind fun _ s _ => ?_
    refine (call_obeys env own (by simp) (by simp) (by simp) (by simp) (by simp) (by simp) s).bind fun _ s _ => ?_
    exact Obeys.pure _ _ _ _ s
  · exact Obeys.pure _ _ _ _ s

theorem innerUniqueId_obeys {env : Env} {own : Exc → Prop} (h1 : env.backend = .ctypes → own (.os 50 none))
    (h2 : env.backend = .pywin32 → own (.os 22 none)) (s : St) :
    Obeys env (Told env) own (innerUniqueId env) s := by
  refine Obeys.convert (own := fun e => env.backend ≠ .unix ∧ e = notSupported env) ?_ ?_
  · refine (fileInfo_obeys env _ s).bind fun r s _ => ?_
    split
    · rename_i hr
      exact Obeys.raise _ _ ⟨hr.1, rfl⟩ s
    · exact Obeys.pure _ _ _ _ s
  · rintro e ⟨hu, rfl⟩
    rcases hb : env.backend with _ | _ | _
    · contradiction
    · simpa [notSupported, converted, hb] using h1 hb
    · have h50 : winerrorToErrno 50 = 22 := by decide
      simpa [notSupported, converted, hb, h50] using h2 hb

theorem innerFileno_obeys {env : Env} {own : Exc → Prop} (h : own (.other .assertionError)) (s : St) :
    Obeys env (Told env) own (innerFileno env) s := by
  by_cases hb : env.backend = .unix
  · simp only [innerFileno, hb]
    rcases hf : s.fd with _ | _ | n
    · exact Obeys.of_apply (m' := raise (.other .assertionError)) (by simp only [hf]; rfl) (Obeys.raise _ _ h s)
    · exact Obeys.of_apply (m' := raise (.other .assertionError)) (by simp only [hf]; rfl) (Obeys.raise _ _ h s)
    · exact Obeys.of_apply (m' := Pure.pure (n + 1)) (by simp only [hf]; rfl) (Obeys.pure _ _ _ _ s)
  · have key : ∀ m : M Nat, Obeys env (Raw' env) (· = .other .assertionError) m s →
        Obeys env (Told env) own (convert env m) s :=
      fun m hm => hm.convert (by rintro e rfl; exact h)
    unfold innerFileno
    split
    · contradiction
    · apply key
      rcases hf : s.fd with _ | _ | n
      · refine Obeys.of_apply (m' := call env .crtDescriptor >>= fun r s =>
          if r.1 = 0 then (.error (.other .assertionError), { s with fd := some 0 })
          else (.ok r.1, { s with fd := some r.1 })) (by simp only [hf]) ?_
        refine (call_obeys env _ (by simp) (by simp) (by simp) (by simp) (by simp) (by simp) s).bind fun r s _ => ?_
        refine ⟨[], ?_, .inl ⟨by simp, ?_⟩⟩
        · split <;> simp
        · intro e he
          split at he
          · cases he; rfl
          · cases he
      · exact Obeys.of_apply (m' := raise (.other .assertionError)) (by simp only [hf]; rfl)
          (Obeys.raise (own := (· = .other .assertionError)) _ _ rfl s)
      · exact Obeys.of_apply (m' := Pure.pure (n + 1)) (by simp only [hf]; rfl) (Obeys.pure _ _ _ _ s)

theorem innerClose_obeys (env : Env) (own : Exc → Prop) (s : St) : Obeys env (Told env) own (innerClose env) s := by
  refine Obeys.convert (own := fun _ => False) ?_ (by intro e h; exact h.elim)
  have hclose : Obeys env (Raw' env) (fun _ => False) (call env .close >>= fun _ => (Pure.pure () : M Unit)) s :=
    (call_obeys env _ (by simp) (by simp) (by simp) (by simp) (by simp) (by simp) s).bind
      fun _ s _ => Obeys.pure _ _ _ _ _
  by_cases hc : s.closefd = true
  · by_cases hb : env.backend = .unix
    · exact Obeys.of_apply (by simp only [if_pos hc, hb]) hclose
    · by_cases hf : s.fd.isSome = true
      · refine Obeys.of_apply (m' := catching (call env .crtClose >>= fun _ => (Pure.pure () : M Unit)) badDescriptor)
          ?_ ?_
        · simp only [if_pos hc, if_pos hf]
        · apply caught_obeys
          intro code _
          rcases hb' : env.backend with _ | _ | _
          · contradiction
          all_goals
            simp [badDescriptor, thrown, hb', Fault, EndOfPipe, WouldWait, GoesOn, Attempt, Raw', toldOf, Call.crt]
      · refine Obeys.of_apply ?_ hclose
        simp only [if_pos hc, if_neg hf]
  · exact Obeys.of_apply (m' := Pure.pure ()) (by simp only [if_neg hc]; rfl) (Obeys.pure _ _ _ _ s)

end Verif.Native
