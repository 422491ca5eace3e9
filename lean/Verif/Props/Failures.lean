import Verif.Lemmas.Failures
import Verif.Props.Dwords

set_option autoImplicit false

/-!
# C99: failures of system calls reach the caller

Any answers, any failures, the three backends.
-/

namespace Verif.Props

open Verif.Native

variable {α : Type}

theorem mapM_obeys {β : Type} {env : Env} {R : Call → Int → Exc → Prop} {own : Exc → Prop} {m : M α} {f : α → β}
    {s : St} (h : Obeys env R own m s) : Obeys env R own (mapM' f m) s :=
  h.bind fun _ _ _ => Obeys.pure _ _ _ _ _

/-- Reading uses up an answer, if there is one. -/
theorem innerRead_answers (env : Env) (s : St) : (innerRead env s).2.answers = s.answers.tail := by
  rcases ha : nxt s with ⟨n, b⟩ | c
  · rw [innerRead_done ha]
    rfl
  · rw [innerRead_fail ha]
    rfl

/-- If there are no answers left, reading finds the end. -/
theorem innerRead_exhausted (env : Env) {s : St} (h : s.answers = []) : (innerRead env s).1 = .ok (some []) := by
  rw [innerRead_done (n := 0) (b := []) (by rw [nxt, h]; rfl)]

theorem checkClosed_state {s s' : St} {a : Unit} (h : checkClosed s = (.ok a, s')) : s' = s := by
  unfold checkClosed at h
  split at h
  · cases h
  · cases h; rfl

theorem check_state {ok : St → Bool} {s s' : St} {a : Unit} (h : check ok s = (.ok a, s')) : s' = s := by
  unfold check at h
  split at h
  · cases h
  · split at h
    · cases h; rfl
    · cases h

theorem readallLoop_obeys {env : Env} {own : Exc → Prop} (h1 : own (.other .valueError))
    (h2 : own (.other .unsupported)) (fuel : Nat) (chunks : List UInt8) (s : St) (hf : s.answers.length < fuel) :
    Obeys env (Told env) own (readallLoop env fuel chunks) s := by
  induction fuel generalizing chunks s with
  | zero => omega
  | succ fuel ih =>
    unfold readallLoop
    refine (checkClosed_obeys h1 s).bind fun _ s₁ e1 => ?_
    rw [checkClosed_state e1]
    refine (check_obeys _ h1 h2 s).bind fun _ s₂ e2 => ?_
    rw [check_state e2]
    refine (innerRead_obeys env own s).bind fun d s₃ e3 => ?_
    have e4 := innerRead_answers env s
    rw [e3] at e4
    dsimp only at e4
    split
    · rename_i b bs
      apply ih
      rw [e4, List.length_tail]
      rcases hl : s.answers with _ | ⟨a, as⟩
      · have := innerRead_exhausted env hl
        rw [e3] at this
        cases this
      · rw [hl] at hf
        simp only [List.length_cons] at hf ⊢
        omega
    · exact Obeys.pure _ _ _ _ _

theorem read_obeys {env : Env} {own : Exc → Prop} (h1 : own (.other .valueError)) (h2 : own (.other .unsupported))
    (all : Bool) (s : St) : Obeys env (Told env) own (read env all) s := by
  refine Obeys.of_apply (m' := do
    checkClosed
    check (·.readable)
    if all then readallLoop env (s.answers.length + 1) [] else innerRead env) rfl ?_
  refine (checkClosed_obeys h1 s).bind fun _ s₁ e1 => ?_
  rw [checkClosed_state e1]
  refine (check_obeys _ h1 h2 s).bind fun _ s₂ e2 => ?_
  rw [check_state e2]
  split
  · exact readallLoop_obeys h1 h2 _ _ s (by omega)
  · exact innerRead_obeys env own s

theorem readinto_obeys {env : Env} {own : Exc → Prop} (h1 : own (.other .valueError)) (h2 : own (.other .unsupported))
    (h3 : own (.other .typeError)) (s : St) : Obeys env (Told env) own (readinto env) s := by
  refine (checkClosed_obeys h1 s).bind fun _ s _ => ?_
  refine (check_obeys _ h1 h2 s).bind fun _ s _ => ?_
  refine (innerRead_obeys env own s).bind fun r s _ => ?_
  cases r with
  | none => exact Obeys.raise _ _ h3 s
  | some b => exact Obeys.pure _ _ _ _ s

theorem write_obeys {env : Env} {own : Exc → Prop} (h1 : own (.other .valueError)) (h2 : own (.other .unsupported))
    (h3 : own (.other .assertionError)) (h4 : own (.other .runtimeError)) (len : Nat) (s : St) :
    Obeys env (Told env) own (write env len) s := by
  refine (checkClosed_obeys h1 s).bind fun _ s _ => ?_
  refine (check_obeys _ h1 h2 s).bind fun _ s _ => ?_
  refine (innerWrite_obeys env own s).bind fun r s _ => ?_
  split
  · exact Obeys.raise _ _ h3 s
  · cases r with
    | none => exact Obeys.pure _ _ _ _ s
    | some n =>
      dsimp only
      split
      · exact Obeys.raise _ _ h4 s
      · exact Obeys.pure _ _ _ _ s

theorem padLoop_obeys (env : Env) (own : Exc → Prop) (q : Nat) (s : St) :
    Obeys env (Told env) own (padLoop env q) s := by
  induction q generalizing s with
  | zero => exact Obeys.pure _ _ _ _ s
  | succ q ih => exact (innerWrite_obeys env own s).bind fun _ s _ => ih s

theorem fillZeros_obeys {env : Env} {own : Exc → Prop} (h1 : own (.other .valueError))
    (h2 : own (.other .assertionError)) (h3 : env.backend = .unix → own (.other .typeError)) (n : Nat) (s : St) :
    Obeys env (Told env) own (fillZeros env n) s := by
  unfold fillZeros
  refine (size_obeys h1 s).bind fun cur s _ => ?_
  split
  · exact Obeys.pure _ _ _ _ s
  · split
    · exact Obeys.raise _ _ h2 s
    · refine (innerTell_obeys env own s).bind fun _ s _ => ?_
      refine (innerSeek_obeys env own s).bind fun _ s _ => ?_
      refine (padLoop_obeys env own _ s).bind fun _ s _ => ?_
      refine (innerWrite_obeys env own s).bind fun _ s _ => ?_
      split
      · split
        · rename_i hb
          exact Obeys.raise _ _ (h3 hb) s
        · exact (innerSeek_obeys env own s).bind fun _ s _ => Obeys.pure _ _ _ _ s
      · exact Obeys.raise _ _ h2 s

theorem truncate_obeys {env : Env} {own : Exc → Prop} (h1 : own (.other .valueError)) (h2 : own (.other .unsupported))
    (h3 : own (.other .assertionError)) (h4 : env.backend = .unix → own (.other .typeError)) (z : Option Int)
    (h5 : ∀ n, z = some n → n < 0 → own (.os 22 none)) (f : Bool) (s : St) :
    Obeys env (Told env) own (truncate env z f) s := by
  have hresize : ∀ n s, Obeys env (Told env) own (resize env n f) s := by
    intro n s
    unfold resize
    refine (size_obeys h1 s).bind fun cur s _ => ?_
    split
    · exact Obeys.pure _ _ _ _ s
    · split
      · exact innerReduce_obeys h1 s
      · exact (innerExtend_obeys h1 f s).bind fun _ s _ => fillZeros_obeys h1 h3 h4 n s
  have hrest : ∀ n s, Obeys env (Told env) own (do
      resize env n f
      size env) s := fun n s => (hresize n s).bind fun _ s _ => size_obeys h1 s
  unfold truncate
  refine (check_obeys _ h1 h2 s).bind fun _ s _ => ?_
  refine (check_obeys _ h1 h2 s).bind fun _ s _ => ?_
  cases z with
  | none => exact (tell_obeys h1 s).bind fun n s _ => hrest n s
  | some z =>
    dsimp only
    split
    · rename_i hz
      exact Obeys.bind (Obeys.raise _ _ (h5 z rfl hz) s) fun n s _ => hrest n s
    · exact Obeys.bind (Obeys.pure _ _ _ _ s) fun n s _ => hrest n s

theorem run_obeys (env : Env) (op : Op) (s : St) : Obeys env (Told env) (OwnError env op) (run env op) s := by
  cases op with
  | read n => exact mapM_obeys (read_obeys (.inl rfl) (.inr rfl) false s)
  | readall => exact mapM_obeys (read_obeys (.inl rfl) (.inr rfl) true s)
  | readinto n => exact mapM_obeys (readinto_obeys (.inl rfl) (.inr (.inl rfl)) (.inr (.inr rfl)) s)
  | write b =>
    exact mapM_obeys (write_obeys (.inl rfl) (.inr (.inl rfl)) (.inr (.inr (.inl rfl))) (.inr (.inr (.inr rfl))) _ s)
  | seek o => exact mapM_obeys (seek_obeys (own := OwnError env (.seek o)) rfl s)
  | tell => exact mapM_obeys (tell_obeys (own := OwnError env .tell) rfl s)
  | size => exact mapM_obeys (size_obeys (own := OwnError env .size) rfl s)
  | truncate z f =>
    exact mapM_obeys (truncate_obeys (.inl rfl) (.inr (.inl rfl)) (.inr (.inr (.inl rfl)))
      (fun hb => .inr (.inr (.inr (.inl ⟨rfl, hb⟩)))) z
      (fun n hz hn => .inr (.inr (.inr (.inr ⟨rfl, n, hz, hn⟩)))) f s)
  | sync m f => exact mapM_obeys ((checkClosed_obeys (own := OwnError env (.sync m f)) rfl s).bind
      fun _ s _ => innerSync_obeys env m f _ s)
  | uniqueId =>
    refine mapM_obeys ((checkClosed_obeys (.inl rfl) s).bind fun _ s _ => ?_)
    rcases hu : s.uid with _ | u
    · refine Obeys.of_apply (m' := innerUniqueId env >>= fun u s => (.ok u, { s with uid := some u }))
        (by simp only [hu]) ?_
      refine (innerUniqueId_obeys (fun hb => .inr (.inl ⟨rfl, hb⟩)) (fun hb => .inr (.inr ⟨rfl, hb⟩)) s).bind
        fun u s _ => ?_
      exact ⟨[], by simp, .inl ⟨by simp, by intro e h; cases h⟩⟩
    · exact Obeys.of_apply (m' := Pure.pure u) (by simp only [hu]; rfl) (Obeys.pure _ _ _ _ s)
  | times =>
    refine mapM_obeys ((checkClosed_obeys (own := OwnError env .times) rfl s).bind fun _ s _ => ?_)
    exact (fileInfo_obeys env (fun _ => False) s).convert (by intro e h; exact h.elim)
  | fileno => exact mapM_obeys ((checkClosed_obeys (.inl rfl) s).bind fun _ s _ => innerFileno_obeys (.inr rfl) s)
  | close =>
    refine mapM_obeys ?_
    by_cases hc : s.closed = true
    · exact Obeys.of_apply (m' := Pure.pure ()) (by rw [close, if_pos hc]; rfl) (Obeys.pure _ _ _ _ s)
    · obtain ⟨L, h1, h2⟩ := innerClose_obeys env (OwnError env .close) { s with closed := true }
      have e : close env s = innerClose env { s with closed := true } := by rw [close, if_neg hc]
      refine ⟨L, by rw [e]; exact h1, ?_⟩
      rw [e]
      exact h2

/-- The number that the caller is told.  `errnoSpec` is the table of C59.  When `os.close` fails it is `EBADF`. -/
def number (env : Env) (c : Call) (code : Int) : Int :=
  if c = .crtClose then 9 else errnoOf env errnoSpec c code

theorem winerror_spec : winerrorToErrno = errnoSpec := funext C59_mapping

/-- C99: every method of raw streams, with every backend, whatever the system answers.  The first failure that is not
the end of a pipe, a call that would have to wait, or an attempt after which others are made, ends the operation; the
exception is an `OSError` with the number of that failure.  Without such a failure the method raises nothing but the
exceptions that are its own. -/
theorem C99_reported_partial (env : Env) (op : Op) (s : St) :
    ∃ L, (run env op s).2.log = s.log ++ L ∧
      Reported env errnoSpec (number env) (OwnError env op) L (run env op s).1 := by
  obtain ⟨L, h1, h2⟩ := run_obeys env op s
  refine ⟨L, h1, ?_⟩
  rw [winerror_spec] at h2
  rcases h2 with h2 | ⟨L₀, c, code, e, h3, h4, h5, h6, h7⟩
  · exact .inl h2
  · refine .inr ⟨L₀, c, code, h3, h4, h5, ?_⟩
    rw [h6, h7, toldOf, winerror_spec]
    rfl

/-- C99: the exceptions of pywin32, which are no `OSError`, do not get out. -/
theorem C99_no_backend_error (env : Env) (op : Op) (s : St) (w : Int) : (run env op s).1 ≠ .error (.pywin w) := by
  intro h
  obtain ⟨L, _, h2⟩ := C99_reported_partial env op s
  rw [h] at h2
  rcases h2 with ⟨_, h2⟩ | ⟨_, _, _, _, _, _, h2⟩
  · have := h2 _ rfl
    cases op <;> simp [OwnError] at this
  · cases h2

/-- C99: an operation that returns has seen no fault; one that raises anything else than an `OSError` neither. -/
theorem C99_success (env : Env) (op : Op) (s : St) {L : List (Call × Ans)}
    (hL : (run env op s).2.log = s.log ++ L) (h : ∀ n, (run env op s).1 ≠ .error (.os n none)) :
    ∀ x ∈ L, ¬ Fault env errnoSpec x := by
  obtain ⟨L', h1, h2⟩ := C99_reported_partial env op s
  have : L = L' := List.append_cancel_left (hL.symm.trans h1)
  subst this
  rcases h2 with ⟨h2, _⟩ | ⟨_, _, _, _, _, _, h2⟩
  · exact h2
  · exact (h _ h2).elim

/-- What `read(n)` of an open readable stream gives if its only call fails. -/
theorem C99_read (env : Env) (n : Nat) (s : St) (code : Int) (rest : List Ans) (h1 : s.closed = false)
    (h2 : s.readable = true) (ha : s.answers = .fail code :: rest) :
    (WouldWait env .read code → (run env (.read n) s).1 = .ok .none) ∧
    (EndOfPipe env errnoSpec .read code → ¬ WouldWait env .read code → (run env (.read n) s).1 = .ok (.bytes [])) ∧
    (Fault env errnoSpec (.read, .fail code) →
      (run env (.read n) s).1 = .error (.os (errnoOf env errnoSpec .read code) none)) := by
  have e1 : run env (.read n) s = mapM' Val.ofBytes (innerRead env) s := by
    change (Native.read env false >>= fun a => (Pure.pure (Val.ofBytes a) : M Val)) s = _
    have e2 : Native.read env false s = innerRead env s := by
      unfold Native.read
      rw [bind_ok (a := ()) (s' := s) (by simp [checkClosed, h1]),
        bind_ok (a := ()) (s' := s) (by simp [check, h1, h2])]
      rfl
    change M.bind _ _ s = M.bind _ _ s
    rw [M.bind, M.bind, e2]
  have e3 := innerRead_fail (env := env) (s := s) (c := code) (by rw [nxt, ha]; rfl)
  have e4 : (run env (.read n) s).1 = (readResult env code).map Val.ofBytes := by
    rw [e1]
    change (M.bind _ _ s).1 = _
    rw [M.bind, e3]
    cases readResult env code <;> rfl
  rw [e4, ← winerror_spec]
  rcases hb : env.backend with _ | _ | _ <;>
    simp only [readResult, pending, unixRead, noData, thrown, converted, brokenPipe, hb, Fault, EndOfPipe, WouldWait,
      GoesOn, Attempt, errnoOf, Call.crt] <;>
    refine ⟨?_, ?_, ?_⟩ <;> intros <;> grind [Except.map, Val.ofBytes]

/-! ## The two backends of windows -/

/-- Exceptions that are not those of a backend. -/
def Plain (e : Exc) : Prop := (∃ n, e = .os n none) ∨ ∃ x, e = .other x

/-- The exceptions of the two backends for one failure. -/
def ExSim (table : Int → Int) : Exc → Exc → Prop := fun e e' =>
  (e = e' ∧ Plain e) ∨ ∃ w, e = .os (table w) (some w) ∧ e' = .pywin w

/-- Two computations that do the same, up to the exceptions of the backends. -/
def Sim (table : Int → Int) (m m' : M α) : Prop := ∀ s, (m s).2 = (m' s).2 ∧
  match (m s).1, (m' s).1 with
  | .ok a, .ok a' => a = a'
  | .error e, .error e' => ExSim table e e'
  | _, _ => False

/-- The same computation, whose exceptions are those for the caller. -/
def Same (m m' : M α) : Prop := m = m' ∧ ∀ s e, (m s).1 = .error e → Plain e

theorem Same.sim {table : Int → Int} {m m' : M α} (h : Same m m') : Sim table m m' := by
  obtain ⟨rfl, h⟩ := h
  intro s
  refine ⟨rfl, ?_⟩
  rcases hr : (m s).1 with e | a
  · exact .inl ⟨rfl, h s e hr⟩
  · rfl

theorem Same.pure (a : α) : Same (Pure.pure a : M α) (Pure.pure a) :=
  ⟨rfl, fun s e h => by cases h⟩

theorem Sim.bind {β : Type} {table : Int → Int} {m m' : M α} {f f' : α → M β} (h : Sim table m m')
    (hf : ∀ a, Sim table (f a) (f' a)) : Sim table (m >>= f) (m' >>= f') := by
  intro s
  have h1 := h s
  rcases e : m s with ⟨r, s1⟩
  rcases e' : m' s with ⟨r', s1'⟩
  rw [e, e'] at h1
  obtain ⟨h2, h3⟩ := h1
  dsimp only at h2 h3
  subst h2
  cases r with
  | error x =>
    cases r' with
    | error x' => rw [bind_error e, bind_error e']; exact ⟨rfl, h3⟩
    | ok a' => exact h3.elim
  | ok a =>
    cases r' with
    | error x' => exact h3.elim
    | ok a' =>
      dsimp only at h3
      subst h3
      rw [bind_ok e, bind_ok e']
      exact hf a s1

theorem Same.bind {β : Type} {m m' : M α} {f f' : α → M β} (h : Same m m') (hf : ∀ a, Same (f a) (f' a)) :
    Same (m >>= f) (m' >>= f') := by
  obtain ⟨rfl, h⟩ := h
  refine ⟨by rw [funext fun a => (hf a).1], ?_⟩
  intro s y
  rcases e : m s with ⟨r, s1⟩
  cases r with
  | error x =>
    rw [bind_error e]
    intro hx
    cases hx
    exact h s y (by rw [e])
  | ok a =>
    rw [bind_ok e]
    exact (hf a).2 s1 y

/-- The two environments, with the same table. -/
def withCtypes (env : Env) : Env := { env with backend := .ctypes }

def withPywin32 (env : Env) : Env := { env with backend := .pywin32 }

section same

variable {env : Env} (ht : ∀ w, env.table w = errnoSpec w)

include ht

theorem sim_convert {m m' : M α} (h : Sim env.table m m') :
    Same (convert (withCtypes env) m) (convert (withPywin32 env) m') := by
  have key : ∀ s, convert (withCtypes env) m s = convert (withPywin32 env) m' s ∧
      ∀ e, (convert (withCtypes env) m s).1 = .error e → Plain e := by
    intro s
    have h1 := h s
    rcases e : m s with ⟨r, s1⟩
    rcases e' : m' s with ⟨r', s1'⟩
    rw [e, e'] at h1
    obtain ⟨h2, h3⟩ := h1
    dsimp only at h2 h3
    subst h2
    cases r with
    | error x =>
      cases r' with
      | ok a' => exact h3.elim
      | error x' =>
        have c1 : convert (withCtypes env) m s = (.error (converted (withCtypes env) x), s1) :=
          catching_error (h := fun e => .error (converted (withCtypes env) e)) e
        have c2 : convert (withPywin32 env) m' s = (.error (converted (withPywin32 env) x'), s1) :=
          catching_error (h := fun e => .error (converted (withPywin32 env) e)) e'
        rw [c1, c2]
        rcases h3 with ⟨rfl, ⟨n, rfl⟩ | ⟨y, rfl⟩⟩ | ⟨w, rfl, rfl⟩
        · refine ⟨by simp [converted, withCtypes, withPywin32], ?_⟩
          intro y hy
          cases hy
          exact .inl ⟨n, by simp [converted, withCtypes]⟩
        · refine ⟨by simp [converted], ?_⟩
          intro z hz
          cases hz
          exact .inr ⟨y, by simp [converted]⟩
        · refine ⟨by simp [converted, withCtypes, withPywin32, ht, C59_mapping], ?_⟩
          intro z hz
          cases hz
          exact .inl ⟨env.table w, by simp [converted, withCtypes]⟩
    | ok a =>
      cases r' with
      | error x' => exact h3.elim
      | ok a' =>
        dsimp only at h3
        subst h3
        have c1 : convert (withCtypes env) m s = (.ok a, s1) := catching_ok e
        have c2 : convert (withPywin32 env) m' s = (.ok a, s1) := catching_ok e'
        rw [c1, c2]
        exact ⟨rfl, by simp⟩
  exact ⟨funext fun s => (key s).1, fun s => (key s).2⟩

omit ht in
theorem sim_call (c : Call) : Sim env.table (call (withCtypes env) c) (call (withPywin32 env) c) := by
  intro s
  have hp : ∀ code, pending (withCtypes env) c code = pending (withPywin32 env) c code := by
    intro code
    rfl
  rcases ha : nxt s with ⟨n, b⟩ | code
  · rw [call_done ha, call_done ha]
    exact ⟨rfl, rfl⟩
  · rw [call_fail ha, call_fail ha, hp code]
    refine ⟨rfl, ?_⟩
    by_cases h : pending (withPywin32 env) c code = true
    · simp only [if_pos h]
    · simp only [if_neg h]
      by_cases hc : c.crt = true
      · exact .inl ⟨by simp [thrown, withCtypes, withPywin32, hc],
          .inl ⟨code, by simp [thrown, withCtypes, hc]⟩⟩
      · exact .inr ⟨code, by simp [thrown, withCtypes, withPywin32, hc]⟩

omit ht in
theorem same_check (ok : St → Bool) : Same (check ok) (check ok) := by
  refine ⟨rfl, ?_⟩
  intro s e he
  unfold check at he
  split at he
  · cases he; exact .inr ⟨_, rfl⟩
  · split at he
    · cases he
    · cases he; exact .inr ⟨_, rfl⟩

omit ht in
theorem same_checkClosed : Same checkClosed checkClosed := by
  refine ⟨rfl, ?_⟩
  intro s e he
  unfold checkClosed at he
  split at he
  · cases he; exact .inr ⟨_, rfl⟩
  · cases he

omit ht in
theorem same_raise (x : Exn) : Same (raise (.other x) : M α) (raise (.other x)) :=
  ⟨rfl, fun s e he => by cases he; exact .inr ⟨_, rfl⟩⟩

theorem same_innerSize : Same (innerSize (withCtypes env)) (innerSize (withPywin32 env)) :=
  sim_convert ht ((sim_call _).bind fun _ => (Same.pure _).sim)

theorem same_innerTell : Same (innerTell (withCtypes env)) (innerTell (withPywin32 env)) :=
  sim_convert ht ((sim_call _).bind fun _ => (Same.pure _).sim)

theorem same_innerSeek : Same (innerSeek (withCtypes env)) (innerSeek (withPywin32 env)) :=
  sim_convert ht ((sim_call _).bind fun _ => (Same.pure _).sim)

omit ht in
/-- `except` clauses that treat corresponding exceptions alike. -/
theorem sim_catching {table : Int → Int} {m m' : M α} (hm : Sim table m m') {h h' : Exc → Except Exc α}
    (hh : ∀ e e', ExSim table e e' → match h e, h' e' with
      | .ok a, .ok a' => a = a'
      | .error e, .error e' => ExSim table e e'
      | _, _ => False) : Sim table (catching m h) (catching m' h') := by
  intro s
  have h1 := hm s
  rcases e : m s with ⟨r, s1⟩
  rcases e' : m' s with ⟨r', s1'⟩
  rw [e, e'] at h1
  obtain ⟨h2, h3⟩ := h1
  dsimp only at h2 h3
  subst h2
  cases r with
  | error x =>
    cases r' with
    | ok a' => exact h3.elim
    | error x' =>
      rw [catching_error e, catching_error e']
      exact ⟨rfl, hh x x' h3⟩
  | ok a =>
    cases r' with
    | error x' => exact h3.elim
    | ok a' =>
      rw [catching_ok e, catching_ok e']
      exact ⟨rfl, h3⟩

omit ht in
theorem same_ignorePipe {m m' : M (Option (List UInt8))} (h : Same m m') :
    Same (ignorePipe (withCtypes env) m) (ignorePipe (withPywin32 env) m') := by
  obtain ⟨rfl, h⟩ := h
  have e : ∀ x, brokenPipe (withCtypes env) x = brokenPipe (withPywin32 env) x := by
    intro x
    cases x <;> rfl
  refine ⟨by unfold ignorePipe; simp only [e], ?_⟩
  intro s y hy
  rcases hm : m s with ⟨r, s1⟩
  cases r with
  | ok a =>
    rw [ignorePipe, catching_ok hm] at hy
    cases hy
  | error x =>
    rw [ignorePipe, catching_error hm] at hy
    dsimp only at hy
    split at hy
    · cases hy
    · cases hy
      exact h s y (by rw [hm])

theorem same_innerRead : Same (innerRead (withCtypes env)) (innerRead (withPywin32 env)) := by
  rw [innerRead_win (env := withCtypes env) (by simp [withCtypes]),
    innerRead_win (env := withPywin32 env) (by simp [withPywin32])]
  refine same_ignorePipe (sim_convert ht (sim_catching ((sim_call _).bind fun _ => (Same.pure _).sim) ?_))
  rintro e e' (⟨rfl, ⟨n, rfl⟩ | ⟨y, rfl⟩⟩ | ⟨w, rfl, rfl⟩)
  · simpa [noData, withCtypes, withPywin32] using .inl ⟨rfl, .inl ⟨n, rfl⟩⟩
  · simpa [noData] using .inl ⟨rfl, .inr ⟨y, rfl⟩⟩
  · by_cases hw : w = 232
    · simp [noData, withCtypes, withPywin32, hw]
    · simpa [noData, withCtypes, withPywin32, hw] using .inr ⟨w, rfl, rfl⟩

omit ht in
theorem same_crt {c : Call} (hc : c.crt = true) : Same (call (withCtypes env) c) (call (withPywin32 env) c) := by
  have e : ∀ code, thrown (withCtypes env) c code = thrown (withPywin32 env) c code := by
    intro code
    simp [thrown, withCtypes, withPywin32, hc]
  constructor
  · funext s
    rcases ha : nxt s with ⟨n, b⟩ | code
    · rw [call_done ha, call_done ha]
    · rw [call_fail ha, call_fail ha, e]
      rfl
  · intro s y hy
    rcases ha : nxt s with ⟨n, b⟩ | code
    · rw [call_done ha] at hy
      cases hy
    · rw [call_fail ha] at hy
      dsimp only at hy
      split at hy
      · cases hy
      · cases hy
        exact .inl ⟨code, by simp [thrown, withCtypes, hc]⟩

omit ht in
theorem Same.catching {m m' : M α} (hm : Same m m') {h h' : Exc → Except Exc α}
    (hh : ∀ e, Plain e → h e = h' e ∧ ∀ x, h e = .error x → Plain x) :
    Same (Native.catching m h) (Native.catching m' h') := by
  obtain ⟨rfl, hm⟩ := hm
  have key : ∀ s, Native.catching m h s = Native.catching m h' s ∧
      ∀ x, (Native.catching m h s).1 = .error x → Plain x := by
    intro s
    rcases e : m s with ⟨r, s1⟩
    cases r with
    | ok a =>
      rw [catching_ok e, catching_ok e]
      exact ⟨rfl, fun x hx => by cases hx⟩
    | error x =>
      have hp := hh x (hm s x (by rw [e]))
      rw [catching_error e, catching_error e, hp.1]
      exact ⟨rfl, fun y hy => hp.2 y (by rw [hp.1]; exact hy)⟩
  exact ⟨funext fun s => (key s).1, fun s => (key s).2⟩

omit ht in
theorem sim_winSend : Sim env.table (winSend (withCtypes env)) (winSend (withPywin32 env)) := by
  intro s
  unfold winSend
  by_cases hh : s.hack = true
  · simp only [if_pos hh]
    refine (Same.catching ((same_crt rfl).bind fun _ => Same.pure _) ?_).sim s
    rintro e (⟨n, rfl⟩ | ⟨y, rfl⟩)
    · refine ⟨rfl, ?_⟩
      intro x hx
      simp only [crtBlocked] at hx
      split at hx
      · cases hx
      · cases hx; exact .inl ⟨n, rfl⟩
    · refine ⟨rfl, ?_⟩
      intro x hx
      cases hx
      exact .inr ⟨y, rfl⟩
  · simp only [if_neg hh]
    exact (sim_call .write).bind (fun _ => (Same.pure _).sim) s

theorem same_innerWrite : Same (innerWrite (withCtypes env)) (innerWrite (withPywin32 env)) := by
  rw [innerWrite_win (env := withCtypes env) (by simp [withCtypes]),
    innerWrite_win (env := withPywin32 env) (by simp [withPywin32])]
  apply sim_convert ht
  intro s
  have hrest : Sim env.table (do
      let _ ← innerTell (withCtypes env)
      let _ ← innerSize (withCtypes env)
      let n ← winSend (withCtypes env)
      pure (if n = 0 then none else some n)) (do
      let _ ← innerTell (withPywin32 env)
      let _ ← innerSize (withPywin32 env)
      let n ← winSend (withPywin32 env)
      pure (if n = 0 then none else some n)) :=
    (same_innerTell ht).sim.bind fun _ => (same_innerSize ht).sim.bind fun _ =>
      sim_winSend.bind fun _ => (Same.pure _).sim
  have hall : ∀ a, Sim env.table (winWrite (withCtypes env) a) (winWrite (withPywin32 env) a) := by
    intro a
    cases a with
    | true => exact (same_innerSeek ht).sim.bind (fun _ => hrest)
    | false => exact hrest
  exact hall s.append s

theorem same_size : Same (size (withCtypes env)) (size (withPywin32 env)) :=
  same_checkClosed.bind fun _ => same_innerSize ht

theorem same_tell : Same (tell (withCtypes env)) (tell (withPywin32 env)) :=
  same_checkClosed.bind fun _ => same_innerTell ht

theorem same_seek : Same (seek (withCtypes env)) (seek (withPywin32 env)) :=
  same_checkClosed.bind fun _ => same_innerSeek ht

theorem same_innerReduce : Same (innerReduce (withCtypes env)) (innerReduce (withPywin32 env)) :=
  sim_convert ht ((same_innerTell ht).sim.bind fun _ => (same_seek ht).sim.bind fun _ => (sim_call _).bind fun _ =>
    (same_innerSeek ht).sim.bind fun _ => (Same.pure _).sim)

theorem same_innerExtend (z : Bool) : Same (innerExtend (withCtypes env) z) (innerExtend (withPywin32 env) z) := by
  cases z with
  | true => exact Same.pure ()
  | false => exact same_innerReduce ht

theorem same_readallLoop (fuel : Nat) (chunks : List UInt8) :
    Same (readallLoop (withCtypes env) fuel chunks) (readallLoop (withPywin32 env) fuel chunks) := by
  induction fuel generalizing chunks with
  | zero => exact same_raise _
  | succ fuel ih =>
    refine same_checkClosed.bind fun _ => (same_check _).bind fun _ => (same_innerRead ht).bind fun d => ?_
    rcases d with _ | _ | ⟨b, bs⟩
    · exact Same.pure _
    · exact Same.pure _
    · exact ih _

theorem same_read (all : Bool) : Same (Native.read (withCtypes env) all) (Native.read (withPywin32 env) all) := by
  have key : ∀ k, Same (do
      checkClosed
      check (·.readable)
      if all then readallLoop (withCtypes env) k [] else innerRead (withCtypes env)) (do
      checkClosed
      check (·.readable)
      if all then readallLoop (withPywin32 env) k [] else innerRead (withPywin32 env)) := by
    intro k
    refine same_checkClosed.bind fun _ => (same_check _).bind fun _ => ?_
    cases all with
    | true => exact same_readallLoop ht _ _
    | false => exact same_innerRead ht
  exact ⟨funext fun s => congrFun (key (s.answers.length + 1)).1 s, fun s => (key (s.answers.length + 1)).2 s⟩

theorem same_readinto : Same (readinto (withCtypes env)) (readinto (withPywin32 env)) := by
  refine same_checkClosed.bind fun _ => (same_check _).bind fun _ => (same_innerRead ht).bind fun d => ?_
  rcases d with _ | b
  · exact same_raise _
  · exact Same.pure _

theorem same_write (len : Nat) : Same (write (withCtypes env) len) (write (withPywin32 env) len) := by
  refine same_checkClosed.bind fun _ => (same_check _).bind fun _ => (same_innerWrite ht).bind fun r => ?_
  split
  · exact same_raise _
  · rcases r with _ | n
    · exact Same.pure _
    · dsimp only
      split
      · exact same_raise _
      · exact Same.pure _

theorem same_padLoop (q : Nat) : Same (padLoop (withCtypes env) q) (padLoop (withPywin32 env) q) := by
  induction q with
  | zero => exact Same.pure _
  | succ q ih => exact (same_innerWrite ht).bind fun _ => ih

theorem same_fillZeros (n : Nat) : Same (fillZeros (withCtypes env) n) (fillZeros (withPywin32 env) n) := by
  refine (same_size ht).bind fun cur => ?_
  split
  · exact Same.pure _
  · split
    · exact same_raise _
    · refine (same_innerTell ht).bind fun _ => (same_innerSeek ht).bind fun _ => (same_padLoop ht _).bind fun _ =>
        (same_innerWrite ht).bind fun _ => ?_
      split
      · exact (same_innerSeek ht).bind fun _ => Same.pure _
      · exact same_raise _

theorem same_truncate (z : Option Int) (f : Bool) :
    Same (truncate (withCtypes env) z f) (truncate (withPywin32 env) z f) := by
  have hrest : ∀ n, Same (do
      resize (withCtypes env) n f
      size (withCtypes env)) (do
      resize (withPywin32 env) n f
      size (withPywin32 env)) := by
    intro n
    refine Same.bind ((same_size ht).bind fun cur => ?_) fun _ => same_size ht
    split
    · exact Same.pure _
    · split
      · exact same_innerReduce ht
      · exact (same_innerExtend ht f).bind fun _ => same_fillZeros ht n
  refine (same_check _).bind fun _ => (same_check _).bind fun _ => ?_
  cases z with
  | none => exact (same_tell ht).bind hrest
  | some z =>
    dsimp only
    split
    · refine Same.bind (m := raise (.os 22 none)) ⟨rfl, fun s e he => by cases he; exact .inl ⟨_, rfl⟩⟩ hrest
    · exact Same.bind (Same.pure _) hrest

theorem same_innerFileno : Same (innerFileno (withCtypes env)) (innerFileno (withPywin32 env)) := by
  apply sim_convert ht
  intro s
  rcases hf : s.fd with _ | _ | n
  · simp only [hf]
    refine (sim_call _).bind (fun r => ?_) s
    refine Same.sim ⟨rfl, ?_⟩
    intro s e he
    dsimp only at he
    split at he
    · cases he; exact .inr ⟨_, rfl⟩
    · cases he
  · simp only [hf]
    exact ⟨trivial, .inl ⟨rfl, .inr ⟨_, rfl⟩⟩⟩
  · simp only [hf]
    exact ⟨trivial, trivial⟩

theorem same_innerClose : Same (innerClose (withCtypes env)) (innerClose (withPywin32 env)) := by
  apply sim_convert ht
  intro s
  have b1 : (withCtypes env).backend = .ctypes := rfl
  have b2 : (withPywin32 env).backend = .pywin32 := rfl
  by_cases hc : s.closefd = true
  · simp only [if_pos hc, b1, b2]
    by_cases hf : s.fd.isSome = true
    · simp only [if_pos hf]
      have key := (Same.catching (h := badDescriptor) (h' := badDescriptor)
        ((same_crt (env := env) (c := .crtClose) rfl).bind fun _ => Same.pure ()) (by
          rintro e (⟨n, rfl⟩ | ⟨y, rfl⟩)
          · exact ⟨rfl, fun x hx => by cases hx; exact .inl ⟨9, rfl⟩⟩
          · exact ⟨rfl, fun x hx => by cases hx; exact .inr ⟨y, rfl⟩⟩)).sim (table := env.table) s
      simpa only using key
    · simp only [if_neg hf]
      have key := (sim_call (env := env) .close).bind (fun _ => (Same.pure ()).sim) s
      simpa only using key
  · simp only [if_neg hc]
    exact ⟨trivial, trivial⟩

/-- C99: both backends of windows do the same, whatever the system answers, if the table of the interpreter is the one
of rsfile.  `times` and `unique_id` make different calls (C95). -/
theorem C99_backends_partial (op : Op) (h1 : op ≠ .times) (h2 : op ≠ .uniqueId) (s : St) :
    run (withCtypes env) op s = run (withPywin32 env) op s := by
  have key : ∀ {β γ : Type} {f : β → γ} {m m' : M β}, Same m m' → mapM' f m s = mapM' f m' s := by
    rintro β γ f m m' ⟨rfl, _⟩
    rfl
  cases op with
  | read n => exact key (same_read ht false)
  | readall => exact key (same_read ht true)
  | readinto n => exact key (same_readinto ht)
  | write b => exact key (same_write ht _)
  | seek o => exact key (same_seek ht)
  | tell => exact key (same_tell ht)
  | size => exact key (same_size ht)
  | truncate z f => exact key (same_truncate ht z f)
  | sync m f =>
    exact key (same_checkClosed.bind fun _ => sim_convert ht ((sim_call .flush).bind fun _ => (Same.pure _).sim))
  | uniqueId => exact (h2 rfl).elim
  | times => exact (h1 rfl).elim
  | fileno => exact key (same_checkClosed.bind fun _ => same_innerFileno ht)
  | close =>
    have e : close (withCtypes env) = close (withPywin32 env) := by
      funext s
      unfold close
      rw [(same_innerClose ht).1]
    change mapM' _ (close (withCtypes env)) s = _
    rw [e]
    rfl

end same

/-! ## Cases -/

/-- A stream on windows that reads and writes, and the answers to come. -/
def winStream (answers : List Ans) : St :=
  { closed := false, readable := true, writable := true, seekable := true, append := false, closefd := true,
    hack := false, fd := none, uid := none, answers := answers, log := [] }

/-- The interpreter, with the table of rsfile. -/
def interpreter (b : Backend) : Env :=
  { backend := b, table := winerrorToErrno, eagain := 11, eshutdown := 10058, wouldBlock := fun n => n == 11,
    hasDataSync := true }

/-- `truncate` on windows: the fourth call, `SetEndOfFile`, fails because the disk is full (112). -/
example (b : Backend) (hb : b ≠ .unix) :
    run (interpreter b) (.truncate (some 5) false) (winStream [.done 3 [], .done 0 [], .done 5 [], .fail 112]) =
      (.error (.os 28 none),
        { winStream [] with log :=
          [(.size, .done 3 []), (.seek, .done 0 []), (.seek, .done 5 []), (.setEnd, .fail 112)] }) := by
  cases b
  · contradiction
  · decide +kernel
  · decide +kernel

/-- The failure of that call is a fault. -/
example : Fault (interpreter .pywin32) errnoSpec (.setEnd, .fail 112) := by
  simp [Fault, EndOfPipe, WouldWait, GoesOn, Attempt, interpreter]

/-- The end of a pipe: 109, and nothing there yet: 232. -/
example (b : Backend) (hb : b ≠ .unix) :
    (run (interpreter b) (.read 4) (winStream [.fail 109])).1 = .ok (.bytes []) ∧
    (run (interpreter b) (.read 4) (winStream [.fail 232])).1 = .ok .none ∧
    (run (interpreter b) (.read 4) (winStream [.fail 33])).1 = .error (.os 13 none) := by
  cases b
  · contradiction
  · decide +kernel
  · decide +kernel

/-! ## Where C99 is false -/

/-- The claim: an operation during which a call fails, in another way than by the end of a pipe or because it would have
to wait, raises an `OSError` with the number of that failure. -/
def ReportsAll (env : Env) (op : Op) : Prop :=
  ∀ s L c code, (run env op s).2.log = s.log ++ L → (c, Ans.fail code) ∈ L →
    ¬ EndOfPipe env errnoSpec c code → ¬ WouldWait env c code → ¬ GoesOn env c code →
    (run env op s).1 = .error (.os (errnoOf env errnoSpec c code) none)

/-- C99 is false: `close()` on windows hides the error of `os.close` (here an I/O error, 5) behind `EBADF`, and
`sync()` on unix hides that of `fdatasync`. -/
theorem C99_refuted :
    (∀ b, b ≠ .unix → ¬ ReportsAll (interpreter b) .close) ∧ ¬ ReportsAll (interpreter .unix) (.sync false false) := by
  constructor
  · intro b hb h
    have h1 := h { winStream [.fail 5] with fd := some 7 } [(.crtClose, .fail 5)] .crtClose 5
    cases b
    · contradiction
    all_goals
      have h2 := h1 (by decide +kernel) (by simp) (by simp [EndOfPipe]) (by simp [WouldWait, interpreter])
        (by simp [GoesOn])
      revert h2
      decide +kernel
  · intro h
    have h1 := h (winStream [.fail 5, .done 0 []]) [(.dataFlush, .fail 5), (.flush, .done 0 [])] .dataFlush 5
      (by decide +kernel) (by simp) (by simp [EndOfPipe]) (by simp [WouldWait, interpreter]) (by simp [GoesOn])
    revert h1
    decide +kernel

/-- C99 is false: where the system gives no number for the file, `unique_id()` raises an `OSError` whose number depends
on the backend, and is a windows error code with ctypes. -/
theorem C99_unique_id_refuted :
    (run (interpreter .ctypes) .uniqueId (winStream [])).1 = .error (.os 50 none) ∧
    (run (interpreter .pywin32) .uniqueId (winStream [])).1 = .error (.os 22 none) := by
  decide +kernel

end Verif.Props
