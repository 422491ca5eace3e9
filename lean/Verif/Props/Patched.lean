import Verif.Model.Patched
import Verif.Props.OpenLayers

/-!
# The patched `open` (C50)
-/

set_option autoImplicit false

namespace Verif.Props

open Verif Host OpenArgs

/-! ## Binding of arguments -/

/-- The declarative meaning of a python call: the value of each parameter. -/
structure Binds (sig : List (String × PyVal)) (args : List PyVal) (kwargs : List (String × PyVal))
    (env : List (String × PyVal)) : Prop where
  positional : ∀ (i : Nat) (v : PyVal), args[i]? = some v → ∃ p : String × PyVal, sig[i]? = some p ∧ valueOf env p.1 = v
  keyword : ∀ (i : Nat) (p : String × PyVal), args.length ≤ i → sig[i]? = some p → ∀ v, kwargs.lookup p.1 = some v → valueOf env p.1 = v
  default : ∀ (i : Nat) (p : String × PyVal), args.length ≤ i → sig[i]? = some p → kwargs.lookup p.1 = none → valueOf env p.1 = p.2

theorem lookup_map_value (l : List (String × PyVal)) (f : String × PyVal → PyVal) (hn : (l.map Prod.fst).Nodup)
    {p : String × PyVal} (hp : p ∈ l) : (l.map fun p => (p.1, f p)).lookup p.1 = some (f p) := by
  induction l with
  | nil => cases hp
  | cons q l ih =>
    rw [List.map_cons, List.nodup_cons] at hn
    rw [List.map_cons, List.lookup_cons]
    rw [List.mem_cons] at hp
    rcases hp with rfl | hp
    · simp
    · have : (p.1 == q.1) = false := by
        rw [beq_eq_false_iff_ne]
        intro h
        exact hn.1 (by rw [← h]; exact List.mem_map_of_mem hp)
      rw [this]
      exact ih hn.2 hp

theorem bound_env (sig : List (String × PyVal)) (args : List PyVal) (kwargs : List (String × PyVal))
    (hn : (sig.map Prod.fst).Nodup) (hl : args.length ≤ sig.length) :
    Binds sig args kwargs (((sig.map Prod.fst).zip args) ++
      (sig.drop args.length).map fun p => (p.1, (kwargs.lookup p.1).getD p.2)) := by
  induction args generalizing sig with
  | nil =>
    simp only [List.zip_nil_right, List.nil_append, List.length_nil, List.drop_zero]
    refine ⟨by simp, ?_, ?_⟩
    · intro i p _ hp v hv
      unfold valueOf
      rw [lookup_map_value sig (fun p => (kwargs.lookup p.1).getD p.2) hn (List.mem_of_getElem? hp), hv]
      rfl
    · intro i p _ hp hv
      unfold valueOf
      rw [lookup_map_value sig (fun p => (kwargs.lookup p.1).getD p.2) hn (List.mem_of_getElem? hp), hv]
      rfl
  | cons a as ih =>
    cases sig with
    | nil => simp at hl
    | cons s ss =>
      rw [List.map_cons, List.nodup_cons] at hn
      have ih := ih ss hn.2 (by simpa using hl)
      simp only [List.map_cons, List.zip_cons_cons, List.cons_append, List.length_cons, List.drop_succ_cons]
      have hskip : ∀ p ∈ ss, ∀ rest : List (String × PyVal), valueOf ((s.1, a) :: rest) p.1 = valueOf rest p.1 := by
        intro p hp rest
        unfold valueOf
        rw [List.lookup_cons]
        have : (p.1 == s.1) = false := by
          rw [beq_eq_false_iff_ne]
          intro h
          exact hn.1 (by rw [← h]; exact List.mem_map_of_mem hp)
        rw [this]
      refine ⟨?_, ?_, ?_⟩
      · intro i v hv
        cases i with
        | zero =>
          simp at hv
          subst hv
          exact ⟨s, rfl, by simp [valueOf]⟩
        | succ i =>
          rw [List.getElem?_cons_succ] at hv
          obtain ⟨p, hp, h⟩ := ih.positional i v hv
          exact ⟨p, by simpa using hp, by rw [hskip p (List.mem_of_getElem? hp)]; exact h⟩
      · intro i p hi hp v hv
        cases i with
        | zero => simp at hi
        | succ i =>
          rw [List.getElem?_cons_succ] at hp
          rw [hskip p (List.mem_of_getElem? hp)]
          exact ih.keyword i p (by simpa using hi) hp v hv
      · intro i p hi hp hv
        cases i with
        | zero => simp at hi
        | succ i =>
          rw [List.getElem?_cons_succ] at hp
          rw [hskip p (List.mem_of_getElem? hp)]
          exact ih.default i p (by simpa using hi) hp hv

theorem sig_nodup : (rsopenSig.map Prod.fst).Nodup := by decide

theorem bindArgs_ok {args : List PyVal} {kwargs env : List (String × PyVal)}
    (h : bindArgs rsopenSig args kwargs = .ok env) : args.length ≤ 15 ∧
      (∀ kw ∈ kwargs, kw.1 ∈ (rsopenSig.drop args.length).map Prod.fst) ∧ Binds rsopenSig args kwargs env := by
  unfold bindArgs at h
  split at h
  · cases h
  rename_i h1
  split at h
  · cases h
  rename_i h2
  cases h
  refine ⟨by simpa [rsopenSig] using h1, ?_, bound_env _ _ _ sig_nodup (by omega)⟩
  simpa using h2

/-! ## The parameters of the patched function -/

/-- The defaults of the patched function. -/
def patchedDefaults : List (String × PyVal) :=
  [("handle", .none), ("locking", .bool false), ("timeout", .int 0), ("thread_safe", .bool false),
    ("mutex", .none), ("permissions", .int 511)]

theorem lookup_append' (l m : List (String × PyVal)) (k : String) : (l ++ m).lookup k = (l.lookup k).or (m.lookup k) := by
  induction l with
  | nil => simp
  | cons x l ih =>
    rw [List.cons_append, List.lookup_cons, List.lookup_cons]
    split
    · rfl
    · exact ih

theorem lookup_filter_ne (l new : List (String × PyVal)) (k : String) (hk : new.lookup k = none) :
    (l.filter fun kw => !((new.map Prod.fst).contains kw.1)).lookup k = l.lookup k := by
  have hk' : k ∉ new.map Prod.fst := by
    intro h
    rw [List.mem_map] at h
    obtain ⟨p, hp, rfl⟩ := h
    rw [List.lookup_eq_none_iff] at hk
    simpa using hk p hp
  induction l with
  | nil => rfl
  | cons x l ih =>
    rw [List.filter_cons]
    by_cases hx : k = x.1
    · have : (!((new.map Prod.fst).contains x.1)) = true := by
        rw [← hx]
        simpa using hk'
      rw [if_pos this, List.lookup_cons, List.lookup_cons]
      simp [hx]
    · have hb : (k == x.1) = false := by simpa using hx
      split
      · rw [List.lookup_cons, List.lookup_cons, hb]
        exact ih
      · rw [List.lookup_cons, hb]
        exact ih

theorem lookup_params (kwargs : List (String × PyVal)) (k : String) :
    (patchedParams kwargs).lookup k = (kwargs.lookup k).or (patchedDefaults.lookup k) := by
  unfold patchedParams dictUpdate
  rw [lookup_append']
  cases h : kwargs.lookup k with
  | some v => rfl
  | none =>
    rw [Option.none_or, Option.none_or]
    exact lookup_filter_ne _ _ _ h

/-- `handle` is always passed as a keyword: at most seven positional arguments can be given. -/
theorem params_handle (kwargs : List (String × PyVal)) : ∃ v, ("handle", v) ∈ patchedParams kwargs := by
  have h : ((patchedParams kwargs).lookup "handle").isSome := by
    rw [lookup_params]
    cases kwargs.lookup "handle" <;> rfl
  rw [Option.isSome_iff_exists] at h
  obtain ⟨v, hv⟩ := h
  rw [List.lookup_eq_some_iff] at hv
  obtain ⟨l1, l2, he, _⟩ := hv
  exact ⟨v, by rw [he]; simp⟩

theorem handle_place {n : Nat} (h : "handle" ∈ (rsopenSig.drop n).map Prod.fst) : n ≤ 7 := by
  by_cases hn : n ≤ 7
  · exact hn
  · exfalso
    obtain ⟨m, rfl⟩ : ∃ m, n = 8 + m := ⟨n - 8, by omega⟩
    rw [← List.drop_drop] at h
    have := (List.map_subset Prod.fst (List.drop_subset m (rsopenSig.drop 8))) h
    revert this
    decide

/-- The values of the parameters in a call of the patched function. -/
theorem patched_binds {args : List PyVal} {kwargs env : List (String × PyVal)}
    (h : bindArgs rsopenSig args (patchedParams kwargs) = .ok env) :
    args.length ≤ 7 ∧ (∀ kw ∈ kwargs, kw.1 ∈ (rsopenSig.drop args.length).map Prod.fst) ∧
      Binds (rsopenSig.map fun p => (p.1, (patchedDefaults.lookup p.1).getD p.2)) args kwargs env := by
  obtain ⟨_, h2, h3⟩ := bindArgs_ok h
  have h7 : args.length ≤ 7 := by
    obtain ⟨v, hv⟩ := params_handle kwargs
    exact handle_place (h2 _ hv)
  refine ⟨h7, ?_, ?_, ?_, ?_⟩
  · intro kw hk
    exact h2 kw (by unfold patchedParams dictUpdate; exact List.mem_append_left _ hk)
  · intro i v hv
    obtain ⟨p, hp, hv⟩ := h3.positional i v hv
    exact ⟨(p.1, (patchedDefaults.lookup p.1).getD p.2), by rw [List.getElem?_map, hp]; rfl, hv⟩
  · intro i p hi hp v hv
    rw [List.getElem?_map, Option.map_eq_some_iff] at hp
    obtain ⟨q, hq, rfl⟩ := hp
    refine h3.keyword i q hi hq v ?_
    rw [lookup_params]
    rw [show kwargs.lookup q.1 = some v from hv]
    rfl
  · intro i p hi hp hv
    rw [List.getElem?_map, Option.map_eq_some_iff] at hp
    obtain ⟨q, hq, rfl⟩ := hp
    have hv : kwargs.lookup q.1 = none := hv
    cases hd : patchedDefaults.lookup q.1 with
    | none => exact h3.default i q hi hq (by rw [lookup_params, hv, hd]; rfl)
    | some v => exact h3.keyword i q hi hq v (by rw [lookup_params, hv, hd]; rfl)

/-! ## C50 -/

theorem openArgs_some {enc : List Char → Bytes} {env : List (String × PyVal)} {a : OpenArgs} (h : openArgs enc env = some a) :
    a.locking = (valueOf env "locking").truthy ∧ a.threadSafe = (valueOf env "thread_safe").truthy ∧
    openerArg (valueOf env "opener") = some a.opener := by
  unfold openArgs at h
  cases h1 : fdArg (valueOf env "fileno") with
  | none => rw [h1] at h; cases h
  | some f =>
    cases h2 : fdArg (valueOf env "handle") with
    | none => rw [h1, h2] at h; cases h
    | some g =>
      cases h3 : openerArg (valueOf env "opener") with
      | none => rw [h1, h2, h3] at h; cases h
      | some o =>
        rw [h1, h2, h3] at h
        cases h
        exact ⟨rfl, rfl, rfl⟩

/-- What a call of the patched function does: it is refused, or runs the body of `rsopen` with arguments of which
`locking` and `thread_safe` are false unless given by keyword. -/
theorem patched_course {py : Python} {enc : List Char → Bytes} {args : List PyVal} {kwargs : List (String × PyVal)}
    {m : PyM Host Opened} (h : callPatched py enc args kwargs = some m) :
    m = PyM.raise .typeError ∨ ∃ a, m = rsopen py a ∧
      a.locking = ((kwargs.lookup "locking").getD (.bool false)).truthy ∧
      a.threadSafe = ((kwargs.lookup "thread_safe").getD (.bool false)).truthy ∧
      ∀ f, a.opener = some f → kwargs.lookup "opener" = some (.func f) := by
  unfold callPatched callRsopen at h
  cases hb : bindArgs rsopenSig args (patchedParams kwargs) with
  | error e =>
    rw [hb] at h
    cases h
    left
    unfold bindArgs at hb
    split at hb
    · cases hb; rfl
    · split at hb
      · cases hb; rfl
      · cases hb
  | ok env =>
    rw [hb] at h
    dsimp only at h
    rw [Option.map_eq_some_iff] at h
    obtain ⟨a, ha, rfl⟩ := h
    obtain ⟨h7, _, hbd⟩ := patched_binds hb
    obtain ⟨h1, h2, h3⟩ := openArgs_some ha
    refine .inr ⟨a, rfl, ?_, ?_, ?_⟩
    · rw [h1]
      cases hk : kwargs.lookup "locking" with
      | some v => rw [hbd.keyword 10 _ (by omega) rfl v hk]; rfl
      | none => rw [hbd.default 10 _ (by omega) rfl hk]; rfl
    · rw [h2]
      cases hk : kwargs.lookup "thread_safe" with
      | some v => rw [hbd.keyword 12 _ (by omega) rfl v hk]; rfl
      | none => rw [hbd.default 12 _ (by omega) rfl hk]; rfl
    · intro f hf
      rw [hf] at h3
      cases hk : kwargs.lookup "opener" with
      | none =>
        have := hbd.default 9 _ (by omega) rfl hk
        rw [show valueOf env "opener" = .none from this] at h3
        cases h3
      | some v =>
        have := hbd.keyword 9 _ (by omega) rfl v hk
        rw [show valueOf env "opener" = v from this] at h3
        cases v <;> cases h3
        rfl

theorem closeRaw_held (c : Bool) (ino fd : Nat) (w : Host) : ∀ l ∈ (closeRaw c ino fd w).held, l ∈ w.held := by
  intro l hl
  rw [closeRaw_locks] at hl
  exact (List.mem_filter.1 hl).1

/-- The body of `rsopen` takes no lock without `locking`. -/
theorem rsopen_no_lock {py : Python} {a : OpenArgs} (hl : a.locking = false) {w w' : Host} {r : Except Exn Opened}
    (h : rsopen py a w = (r, w')) : ∃ w0 evs, Began a w w0 ∧ w'.log = w0.log ++ evs ∧ (∀ i f, .locked i f ∉ evs) ∧
      ∀ l ∈ w'.held, l ∈ w0.held := by
  rcases rsopen_course h with ⟨e, _, hw⟩ | ⟨kw0, kw, ext, t, hp, hpar, hext, hc⟩
  · refine ⟨w', [], ?_, by simp, by simp, fun _ h => h⟩
    rcases hw with ⟨rfl, _⟩ | ⟨rfl, _⟩
    · exact .inl rfl
    · exact .inr rfl
  refine ⟨start a w, ?_⟩
  rcases hc with ⟨e, _, hc⟩ | ⟨raw, w1, hc, hfin⟩
  · obtain ⟨hk, evs, hev, hq⟩ := create_not_made hc
    refine ⟨evs, .inr rfl, hev, fun i f hm => (hq _ hm).1 i f rfl, ?_⟩
    -- the registry
    cases hck : RawObj.check kw with
    | error e' =>
      unfold RawObj.create at hc
      rw [PyM.bind_apply, hck] at hc
      cases hc
      exact fun _ h => h
    | ok u =>
      rcases source_cases hck with ⟨p, hp, hf, hh⟩ | ⟨z, hz⟩
      · rcases RawObj.create_course hp hf hh hc with ⟨e, _, _, rfl⟩ | ⟨_, ⟨e, he, hs⟩ | ⟨hfl, h31, ino, base, hin, hc⟩⟩
        · exact fun _ h => h
        · obtain ⟨rfl, _⟩ := sysOpen_error hs
          exact fun _ h => h
        · have hsame := hin.same.2.2.1
          rcases hc with ⟨e, k, b, _, rfl, _⟩ | ⟨hj, n, hn, hd, ⟨e, e', k, _, _, _, rfl⟩ | ⟨k, _, _, he, _⟩⟩
          · intro l hl
            rw [← hsame]; exact hl
          · intro l hl
            have := closeRaw_held _ _ _ _ l hl
            rw [← hsame]; exact this
          · cases he
      · rcases RawObj.create_fd_course hz hc with ⟨e, _, _, rfl⟩ | ⟨_, ⟨e, e', k, _, rfl, _⟩ | ⟨h0, d, n, hl, hn, hc⟩⟩
        · exact fun _ h => h
        · exact fun _ h => h
        · rcases hc with ⟨e, e', k, c, _, rfl, _⟩ | ⟨hd, k, rfl, he⟩
          · exact closeRaw_held _ _ _ _
          · cases he
  · obtain ⟨_, fd, ino, n, d, evs, k, rfl, hn, _, _, _, hheld, _, _, hev, hq, hk, _⟩ := create_made hc
    obtain ⟨k', l, tr, hl', htr, hfc⟩ := finish_course hfin
    have hlf : l = false := by
      cases l with
      | false => rfl
      | true => have := (hl' rfl).2; rw [hl] at this; cases this
    subst hlf
    have hlog : ∀ c, ∃ evs', (closeRaw c ino fd (effect false tr (RawObj.built kw fd ino (decide (n.kind = .regular)))
        (w1.ticks k'))).log = (start a w).log ++ (evs ++ ((if tr then [.truncated ino] else []) ++ evs')) ∧
        ∀ ev ∈ evs', (∃ f, ev = .closed f) ∨ ∃ f, ev = .postponed f := by
      intro c
      obtain ⟨evs', h1, h2⟩ := closeRaw_log c ino fd
        (effect false tr (RawObj.built kw fd ino (decide (n.kind = .regular))) (w1.ticks k'))
      refine ⟨evs', ?_, h2⟩
      rw [h1]
      simp [effect, ticks, hev, RawObj.built]
    have hnl : ∀ evs', (∀ ev ∈ evs', (∃ f, ev = .closed f) ∨ ∃ f, ev = .postponed f) →
        ∀ i f, .locked i f ∉ evs ++ ((if tr then [OpenEv.truncated ino] else []) ++ evs') := by
      intro evs' h2 i f hm
      rw [List.mem_append, List.mem_append] at hm
      rcases hm with hm | hm | hm
      · rcases hq _ hm with ⟨_, _, h⟩ | ⟨_, _, h⟩ <;> cases h
      · cases tr <;> simp at hm
      · rcases h2 _ hm with ⟨_, h⟩ | ⟨_, h⟩ <;> cases h
    rcases hfc with ⟨e, _, rfl, _⟩ | ⟨_, rfl, _⟩
    · obtain ⟨evs', h1, h2⟩ := hlog kw.closefd
      refine ⟨_, .inr rfl, h1, hnl evs' h2, ?_⟩
      intro x hx
      have := closeRaw_held _ _ _ _ x hx
      rw [← hheld]
      exact this
    · refine ⟨evs ++ ((if tr then [.truncated ino] else []) ++ []), .inr rfl, ?_, hnl [] (by simp), ?_⟩
      · simp [effect, ticks, hev, RawObj.built]
      · intro x hx
        rw [← hheld]
        exact hx

/-- C50: the patched `open` takes no lock unless a true `locking` is given by keyword. -/
theorem C50_no_lock {py : Python} {enc : List Char → Bytes} {args : List PyVal} {kwargs : List (String × PyVal)}
    {m : PyM Host Opened} (h : callPatched py enc args kwargs = some m)
    (hk : ∀ v, kwargs.lookup "locking" = some v → v.truthy = false) {w w' : Host} {r : Except Exn Opened}
    (hr : m w = (r, w')) : ∃ w0 evs, (w0 = w ∨ ∃ f, kwargs.lookup "opener" = some (.func f) ∧ w0 = (f w).2) ∧ w'.log = w0.log ++ evs ∧
      (∀ i f, .locked i f ∉ evs) ∧ ∀ l ∈ w'.held, l ∈ w0.held := by
  rcases patched_course h with rfl | ⟨a, rfl, hl, _, ho⟩
  · cases hr
    exact ⟨w, [], .inl rfl, by simp, by simp, fun _ h => h⟩
  · have : a.locking = false := by
      rw [hl]
      cases hlk : kwargs.lookup "locking" with
      | none => rfl
      | some v => exact hk v hlk
    obtain ⟨w0, evs, hb, h1, h2, h3⟩ := rsopen_no_lock this hr
    refine ⟨w0, evs, ?_, h1, h2, h3⟩
    rcases hb with rfl | rfl
    · exact .inl rfl
    · unfold start
      split
      · exact .inl rfl
      · rename_i f hf
        exact .inr ⟨f, ho f hf, rfl⟩

/-- C50: the patched `open` adds no thread-safe wrapper unless a true `thread_safe` is given by keyword. -/
theorem C50_no_wrapper {py : Python} {enc : List Char → Bytes} {args : List PyVal} {kwargs : List (String × PyVal)}
    {m : PyM Host Opened} (h : callPatched py enc args kwargs = some m)
    (hk : ∀ v, kwargs.lookup "thread_safe" = some v → v.truthy = false) {w w' : Host} {s : Opened}
    (hr : m w = (.ok s, w')) : s.wrapper = none := by
  rcases patched_course h with rfl | ⟨a, rfl, _, ht, _⟩
  · cases hr
  · refine (C43_mutex hr).2.2.2 ?_
    rw [ht]
    cases hlk : kwargs.lookup "thread_safe" with
    | none => rfl
    | some v => exact hk v hlk

/-- Two calls with the same values of the parameters that are used. -/
theorem openArgs_congr (enc : List Char → Bytes) {env env' : List (String × PyVal)}
    (h : ∀ p ∈ ["name", "mode", "buffering", "encoding", "errors", "newline", "fileno", "handle", "closefd", "opener",
      "locking", "thread_safe", "mutex"], valueOf env p = valueOf env' p) : openArgs enc env = openArgs enc env' := by
  simp only [List.mem_cons, List.not_mem_nil, or_false, forall_eq_or_imp, forall_eq] at h
  obtain ⟨h1, h2, h3, h4, h5, h6, h7, h8, h9, h10, h11, h12, h13⟩ := h
  simp only [openArgs, h1, h2, h3, h4, h5, h6, h7, h8, h9, h10, h11, h12, h13]

/-- C50: otherwise, with at most seven positional arguments, the patched `open` behaves as `rsopen` with the same
arguments and the defaults `locking=False, thread_safe=False` (an entry of `kwargs` goes first).
Missing: more positional arguments (`C50_positional_refuted`), and calls with a true `locking`, for which the timeouts
differ (`C50_timeout`; the timeout has no other use, and the model of the body leaves it out). -/
theorem C50_same_partial (py : Python) (enc : List Char → Bytes) {args : List PyVal} (h7 : args.length ≤ 7)
    {kwargs : List (String × PyVal)} (_h1 : ∀ v, kwargs.lookup "locking" = some v → v.truthy = false) :
    callPatched py enc args kwargs =
      callRsopen py enc args (kwargs ++ [("locking", .bool false), ("thread_safe", .bool false)]) := by
  have hdrop : ∀ p ∈ ["handle", "locking", "timeout", "thread_safe", "mutex", "permissions"],
      p ∈ (rsopenSig.drop args.length).map Prod.fst := by
    intro p hp
    have hsub : (rsopenSig.drop 7).map Prod.fst ⊆ (rsopenSig.drop args.length).map Prod.fst := by
      refine List.map_subset _ ?_
      obtain ⟨m, hm⟩ : ∃ m, 7 = args.length + m := ⟨7 - args.length, by omega⟩
      rw [hm, ← List.drop_drop]
      exact List.drop_subset _ _
    refine hsub ?_
    revert p
    decide
  have hbad : ∀ kw : List (String × PyVal), (∀ x ∈ kw, x.1 ∈ (rsopenSig.drop args.length).map Prod.fst) ↔
      ¬ (kw.any fun kw => !(((rsopenSig.drop args.length).map Prod.fst).contains kw.1)) = true := by
    intro kw
    simp
  have hlen : ¬ rsopenSig.length < args.length := by
    have : rsopenSig.length = 15 := rfl
    omega
  by_cases hg : ∀ x ∈ kwargs, x.1 ∈ (rsopenSig.drop args.length).map Prod.fst
  · have hgl : ∀ x ∈ kwargs ++ [("locking", .bool false), ("thread_safe", .bool false)],
        x.1 ∈ (rsopenSig.drop args.length).map Prod.fst := by
      intro x hx
      simp only [List.mem_append, List.mem_cons, List.not_mem_nil, or_false] at hx
      rcases hx with hx | rfl | rfl
      · exact hg x hx
      · exact hdrop _ (by decide)
      · exact hdrop _ (by decide)
    have hgp : ∀ x ∈ patchedParams kwargs, x.1 ∈ (rsopenSig.drop args.length).map Prod.fst := by
      intro x hx
      unfold patchedParams dictUpdate at hx
      rw [List.mem_append, List.mem_filter] at hx
      rcases hx with hx | ⟨hx, _⟩
      · exact hg x hx
      · refine hdrop _ ?_
        have : x.1 ∈ (List.map Prod.fst [("handle", PyVal.none), ("locking", .bool false), ("timeout", .int 0),
          ("thread_safe", .bool false), ("mutex", .none), ("permissions", .int 511)]) := List.mem_map_of_mem hx
        simpa using this
    have hp : ∃ env, bindArgs rsopenSig args (patchedParams kwargs) = .ok env := by
      unfold bindArgs
      rw [if_neg hlen, if_neg ((hbad _).1 hgp)]
      exact ⟨_, rfl⟩
    have hl : ∃ env, bindArgs rsopenSig args (kwargs ++ [("locking", .bool false), ("thread_safe", .bool false)]) = .ok env := by
      unfold bindArgs
      rw [if_neg hlen, if_neg ((hbad _).1 hgl)]
      exact ⟨_, rfl⟩
    obtain ⟨env, he⟩ := hp
    obtain ⟨env', he'⟩ := hl
    unfold callPatched callRsopen
    rw [he, he']
    dsimp only
    congr 1
    obtain ⟨_, _, hb⟩ := patched_binds he
    obtain ⟨_, _, hb'⟩ := bindArgs_ok he'
    have hlk : ∀ k, (kwargs ++ [("locking", PyVal.bool false), ("thread_safe", .bool false)]).lookup k =
        (kwargs.lookup k).or (List.lookup k [("locking", PyVal.bool false), ("thread_safe", .bool false)]) :=
      fun k => lookup_append' _ _ k
    have key : ∀ (i : Nat) (p : String × PyVal), rsopenSig[i]? = some p →
        (List.lookup p.1 [("locking", PyVal.bool false), ("thread_safe", .bool false)]).getD p.2 =
          (patchedDefaults.lookup p.1).getD p.2 → valueOf env p.1 = valueOf env' p.1 := by
      intro i p hp hd
      have hp' : (rsopenSig.map fun p => (p.1, (patchedDefaults.lookup p.1).getD p.2))[i]? =
          some (p.1, (patchedDefaults.lookup p.1).getD p.2) := by rw [List.getElem?_map, hp]; rfl
      by_cases hi : i < args.length
      · obtain ⟨q, hq, hv⟩ := hb.positional i args[i] (by simp [hi])
        obtain ⟨q', hq', hv'⟩ := hb'.positional i args[i] (by simp [hi])
        rw [hp'] at hq
        rw [hp] at hq'
        cases hq
        cases hq'
        rw [hv', ← hv]
      · have hi : args.length ≤ i := by omega
        cases hk : kwargs.lookup p.1 with
        | some v =>
          rw [hb.keyword i _ hi hp' v hk, hb'.keyword i _ hi hp v (by rw [hlk, hk]; rfl)]
        | none =>
          rw [hb.default i _ hi hp' hk]
          dsimp only
          rw [← hd]
          cases hx : List.lookup p.1 [("locking", PyVal.bool false), ("thread_safe", .bool false)] with
          | none => rw [hb'.default i _ hi hp (by rw [hlk, hk, hx]; rfl)]; rfl
          | some v => rw [hb'.keyword i _ hi hp v (by rw [hlk, hk, hx]; rfl)]; rfl
    refine openArgs_congr enc ?_
    simp only [List.mem_cons, List.not_mem_nil, or_false, forall_eq_or_imp, forall_eq]
    exact ⟨key 0 _ rfl rfl, key 1 _ rfl rfl, key 2 _ rfl rfl, key 3 _ rfl rfl, key 4 _ rfl rfl, key 5 _ rfl rfl,
      key 6 _ rfl rfl, key 7 _ rfl rfl, key 8 _ rfl rfl, key 9 _ rfl rfl, key 10 _ rfl rfl, key 12 _ rfl rfl,
      key 13 _ rfl rfl⟩
  · unfold callPatched callRsopen bindArgs
    have h1 : (patchedParams kwargs).any (fun kw => !(((rsopenSig.drop args.length).map Prod.fst).contains kw.1)) = true := by
      refine Decidable.byContradiction fun hc => ?_
      refine hg fun x hx => (hbad _).2 hc x ?_
      unfold patchedParams dictUpdate
      exact List.mem_append_left _ hx
    have h2 : (kwargs ++ [("locking", PyVal.bool false), ("thread_safe", .bool false)]).any
        (fun kw => !(((rsopenSig.drop args.length).map Prod.fst).contains kw.1)) = true := by
      refine Decidable.byContradiction fun hc => ?_
      exact hg fun x hx => (hbad _).2 hc x (List.mem_append_left _ hx)
    rw [if_neg hlen, if_pos h1, if_neg hlen, if_pos h2]

/-- C50 is false for more than seven positional arguments: the eighth parameter of `rsopen` is `handle`, which the patched
`open` always passes as a keyword. -/
theorem C50_positional_refuted : ¬ ∀ (py : Python) (enc : List Char → Bytes) (args : List PyVal)
    (kwargs : List (String × PyVal)), kwargs.lookup "locking" = none → kwargs.lookup "thread_safe" = none →
    (callPatched py enc args kwargs).map (fun m => (m machine).1.toBool) =
      (callRsopen py enc args (kwargs ++ [("locking", .bool false), ("thread_safe", .bool false)])).map
        (fun m => (m machine).1.toBool) := by
  intro h
  have := h unixPython (fun _ => []) [.bytes [102], .str ['r'], .none, .none, .none, .none, .none, .none] [] rfl rfl
  revert this
  decide +kernel

/-- The types that the first five parameters of `rsopen` accept: a name that is a string, bytes, a number or `None`; a mode that is a
string; a buffering that is a number or `None` (`True` and `False` are no numbers here); an encoding and an error handler that are
strings or `None`. -/
def Suits : Nat → PyVal → Prop
  | 0, v => v = .none ∨ (∃ s, v = .str s) ∨ (∃ b, v = .bytes b) ∨ ∃ z, v = .int z
  | 1, v => ∃ s, v = .str s
  | 2, v => v = .none ∨ ∃ z, v = .int z
  | 3, v => v = .none ∨ ∃ s, v = .str s
  | 4, v => v = .none ∨ ∃ s, v = .str s
  | _, _ => True

/-- The value that a call gives to the parameter `i`. -/
def Gives (args : List PyVal) (kwargs : List (String × PyVal)) (i : Nat) (v : PyVal) : Prop :=
  args[i]? = some v ∨ args.length ≤ i ∧ ∃ p, rsopenSig[i]? = some p ∧ kwargs.lookup p.1 = some v

/-- A value of a wrong type is rejected before anything happens. -/
theorem rsopen_types {py : Python} {enc : List Char → Bytes} {args : List PyVal} {kwargs : List (String × PyVal)}
    {i : Nat} {v : PyVal} (hg : Gives args kwargs i v) (hs : ¬ Suits i v) {m : PyM Host Opened}
    (h : callRsopen py enc args kwargs = some m) (w : Host) : ∃ e, m w = (.error e, w) ∧ (e = .badValueType ∨ e = .typeError) := by
  unfold callRsopen at h
  cases hb : bindArgs rsopenSig args kwargs with
  | error e =>
    rw [hb] at h
    cases h
    refine ⟨e, rfl, .inr ?_⟩
    revert hb
    unfold bindArgs
    grind
  | ok env =>
    rw [hb] at h
    obtain ⟨a, ha, rfl⟩ := Option.map_eq_some_iff.1 h
    obtain ⟨_, _, hB⟩ := bindArgs_ok hb
    have hv : ∀ p, rsopenSig[i]? = some p → valueOf env p.1 = v := by
      intro p hp
      rcases hg with hg | ⟨hl, q, hq, hk⟩
      · obtain ⟨q, h1, h2⟩ := hB.positional i v hg
        rw [hp] at h1; cases h1; exact h2
      · rw [hp] at hq; cases hq
        exact hB.keyword i p hl hp v hk
    have hparse : ∃ e, parse py a = .error e ∧ (e = .badValueType ∨ e = .typeError) := by
      simp only [openArgs, bind, Option.bind_eq_some_iff, pure, Option.some.injEq] at ha
      obtain ⟨_, _, _, _, _, _, rfl⟩ := ha
      match i, hs, hv with
      | 0, hs, hv =>
        have := hv _ rfl
        simp only at this
        simp only [parse, this]
        cases v <;> simp_all [Suits, nameArg, NameArg.isBool]
      | 1, hs, hv =>
        have := hv _ rfl
        simp only at this
        simp only [parse, this]
        cases v <;> simp_all [Suits, modeArg, isWrong] <;> grind
      | 2, hs, hv =>
        have := hv _ rfl
        simp only at this
        simp only [parse, this]
        cases v <;> simp_all [Suits, intArg, isWrong] <;> grind
      | 3, hs, hv =>
        have := hv _ rfl
        simp only at this
        simp only [parse, this]
        cases v <;> simp_all [Suits, strArg, isWrong] <;> grind
      | 4, hs, hv =>
        have := hv _ rfl
        simp only at this
        simp only [parse, this]
        cases v <;> simp_all [Suits, strArg, isWrong] <;> grind
      | n + 5, hs, _ => exact absurd trivial hs
    obtain ⟨e, h1, h2⟩ := hparse
    refine ⟨e, ?_, h2⟩
    unfold rsopen
    rw [PyM.bind_error (s' := w) (e := e)]
    rw [h1]

/-- C50: the patched `open` and `rsopen` both reject a name, mode, buffering, encoding or error handler of a wrong type, given by
position or by keyword, and nothing happens. -/
theorem C50_types {py : Python} {enc : List Char → Bytes} {args : List PyVal} {kwargs : List (String × PyVal)}
    {i : Nat} {v : PyVal} (hg : Gives args kwargs i v) (hs : ¬ Suits i v) (w : Host) :
    (∀ m, callRsopen py enc args kwargs = some m → ∃ e, m w = (.error e, w) ∧ (e = .badValueType ∨ e = .typeError)) ∧
    ∀ m, callPatched py enc args kwargs = some m → ∃ e, m w = (.error e, w) ∧ (e = .badValueType ∨ e = .typeError) := by
  refine ⟨fun m h => rsopen_types hg hs h w, fun m h => rsopen_types (kwargs := patchedParams kwargs) ?_ hs h w⟩
  rcases hg with hg | ⟨hl, p, hp, hk⟩
  · exact .inl hg
  · refine .inr ⟨hl, p, hp, ?_⟩
    simp [patchedParams, dictUpdate, List.lookup_append, hk]

-- `open("f", "w", True)` and `open("f", "w", buffering=True)` fail and leave the file
example : ((callPatched unixPython (fun _ => []) [.bytes [102], .str ['w'], .bool true] []).map fun m =>
    ((m machine).1.toBool, (m machine).2.log)) = some (false, []) := by decide +kernel
example : Gives [.bytes [102], .str ['w']] [("buffering", .bool true)] 2 (.bool true) ∧ ¬ Suits 2 (.bool true) :=
  ⟨.inr ⟨by decide, ("buffering", .none), rfl, rfl⟩, by simp [Suits]⟩

/-- C50, a difference when locking is asked for: the timeout is 0 instead of that of `rsopen`, which is none. -/
theorem C50_timeout {args : List PyVal} {kwargs env : List (String × PyVal)} (hk : kwargs.lookup "timeout" = none) :
    (bindArgs rsopenSig args (patchedParams kwargs) = .ok env → valueOf env "timeout" = .int 0) ∧
    (args.length ≤ 11 → bindArgs rsopenSig args kwargs = .ok env → valueOf env "timeout" = .none) := by
  constructor
  · intro h
    obtain ⟨h7, _, hb⟩ := patched_binds h
    exact hb.default 11 _ (by omega) rfl hk
  · intro h11 h
    obtain ⟨_, _, hb⟩ := bindArgs_ok h
    exact hb.default 11 ("timeout", .none) (by omega) rfl hk

-- `open("f", "w")` succeeds, erases the file and takes no lock
example : (callPatched unixPython (fun _ => []) [.bytes [102], .str ['w']] []).map (fun m => (m machine).2.log) =
    some [.opened 3 0, .truncated 0] := by decide +kernel
example : (callPatched unixPython (fun _ => []) [.bytes [102], .str ['w']] []).map (fun m => (m machine).1.toBool) =
    some true := by decide +kernel

end Verif.Props
