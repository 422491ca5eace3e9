import Verif.Model.Options

/-!
# C53, C54: process-global options
-/

namespace Verif.Spec

variable {V : Type}

/-- The two options of rsfile. -/
structure Opts (V : Type) where
  timeout : V
  delay : V

/-- The options in force after a history, told by the history alone: a call of `set_rsfile_options` that names only
known options gives the named options their new values; nothing else changes them. -/
def optsAfter (o : Opts V) : List (OptOp V) → Opts V
  | [] => o
  | .setOptions kv :: ops =>
    if ∀ p ∈ kv, p.1 = "enforced_locking_timeout_value" ∨ p.1 = "default_spinlock_delay" then
      optsAfter ⟨(kv.reverse.lookup "enforced_locking_timeout_value").getD o.timeout,
        (kv.reverse.lookup "default_spinlock_delay").getD o.delay⟩ ops
    else optsAfter o ops
  | _ :: ops => optsAfter o ops

end Verif.Spec

namespace Verif.Props

open Verif Verif.Spec

variable {V : Type}

/-- The dictionary of the options. -/
private def dictOf (o : Opts V) : PyDict V :=
  [("enforced_locking_timeout_value", o.timeout), ("default_spinlock_delay", o.delay)]

private structure OInv (s : OptState V) (o : Opts V) : Prop where
  glob : s.deref optGlobal = dictOf o
  ne : s.heap ≠ []
  owned : ∀ a ∈ s.owned, a ≠ optGlobal

private theorem put_dictOf (o : Opts V) (k : String) (v : V) :
    (k = "enforced_locking_timeout_value" → (dictOf o).put k v = dictOf ⟨v, o.delay⟩) ∧
    (k = "default_spinlock_delay" → (dictOf o).put k v = dictOf ⟨o.timeout, v⟩) := by
  constructor <;> rintro rfl <;> simp [dictOf, PyDict.put]

private theorem lookup_snoc (l : List (String × V)) (k : String) (p : String × V) (d : V) :
    ((p :: l).reverse.lookup k).getD d = (l.reverse.lookup k).getD (if k = p.1 then p.2 else d) := by
  rw [List.reverse_cons, List.lookup_append]
  cases l.reverse.lookup k with
  | some x => simp
  | none =>
    obtain ⟨a, b⟩ := p
    by_cases h : k = a
    · subst h; simp [List.lookup]
    · simp [List.lookup, h]
      have : (k == a) = false := by simp [h]
      simp [this]

private theorem update_dictOf (kv : PyDict V) (o : Opts V)
    (h : ∀ p ∈ kv, p.1 = "enforced_locking_timeout_value" ∨ p.1 = "default_spinlock_delay") :
    (dictOf o).update kv = dictOf ⟨(kv.reverse.lookup "enforced_locking_timeout_value").getD o.timeout,
        (kv.reverse.lookup "default_spinlock_delay").getD o.delay⟩ := by
  induction kv generalizing o with
  | nil => rfl
  | cons p kv ih =>
    rw [PyDict.update, List.foldl_cons]
    rcases h p List.mem_cons_self with hp | hp
    · rw [(put_dictOf o p.1 p.2).1 hp]
      have := ih ⟨p.2, o.delay⟩ (fun q hq => h q (List.mem_cons_of_mem _ hq))
      rw [PyDict.update] at this
      rw [this, lookup_snoc, lookup_snoc, hp]
      simp
    · rw [(put_dictOf o p.1 p.2).2 hp]
      have := ih ⟨o.timeout, p.2⟩ (fun q hq => h q (List.mem_cons_of_mem _ hq))
      rw [PyDict.update] at this
      rw [this, lookup_snoc, lookup_snoc, hp]
      simp

private theorem known_iff (o : Opts V) (kv : PyDict V) :
    (kv.keys.all (fun k => (dictOf o).keys.contains k)) = true ↔
      ∀ p ∈ kv, p.1 = "enforced_locking_timeout_value" ∨ p.1 = "default_spinlock_delay" := by
  simp [PyDict.keys, dictOf, List.all_eq_true]

private theorem deref_set (s : OptState V) (a : Nat) (d : PyDict V) (h : a ≠ optGlobal) :
    ({ s with heap := s.heap.set a d } : OptState V).deref optGlobal = s.deref optGlobal := by
  simp only [OptState.deref]
  rw [List.getElem?_set_ne h]

private theorem step_inv (s : OptState V) (o : Opts V) (h : OInv s o) (op : OptOp V) :
    OInv (s.step op).1 (optsAfter o [op]) := by
  have hlen : 0 < s.heap.length := List.length_pos_iff.2 h.ne
  cases op with
  | setOptions kv =>
    simp only [OptState.step, optsAfter, h.glob]
    by_cases hk : ∀ p ∈ kv, p.1 = "enforced_locking_timeout_value" ∨ p.1 = "default_spinlock_delay"
    · rw [if_pos ((known_iff o kv).2 hk), if_pos hk]
      refine ⟨?_, by simpa using h.ne, h.owned⟩
      rw [update_dictOf kv o hk]
      simp only [OptState.deref, optGlobal]
      rw [List.getElem?_set_self hlen, Option.getD_some]
    · rw [if_neg (fun hh => hk ((known_iff o kv).1 hh)), if_neg hk]
      exact h
  | getOptions =>
    refine ⟨?_, by simp [OptState.step], ?_⟩
    · have := h.glob
      simp only [OptState.deref, OptState.step, optsAfter] at this ⊢
      rw [List.getElem?_append_left (show optGlobal < s.heap.length from hlen)]; exact this
    · intro a ha
      simp only [OptState.step, List.mem_cons] at ha
      rcases ha with rfl | ha
      · exact Nat.pos_iff_ne_zero.1 hlen
      · exact h.owned a ha
  | userPut a k v =>
    simp only [OptState.step, optsAfter]
    split
    · rename_i ha
      exact ⟨(deref_set s a _ (h.owned a ha)).trans h.glob, by simpa using h.ne, h.owned⟩
    · exact h
  | userClear a =>
    simp only [OptState.step, optsAfter]
    split
    · rename_i ha
      exact ⟨(deref_set s a _ (h.owned a ha)).trans h.glob, by simpa using h.ne, h.owned⟩
    · exact h
  | newStream =>
    simp only [OptState.step, optsAfter]
    split
    · exact ⟨h.glob, h.ne, h.owned⟩
    · exact h

private theorem optsAfter_append (o : Opts V) (a b : List (OptOp V)) :
    optsAfter o (a ++ b) = optsAfter (optsAfter o a) b := by
  induction a generalizing o with
  | nil => rfl
  | cons op a ih => cases op <;> simp only [List.cons_append, optsAfter] <;> (try split) <;> exact ih _

private theorem run_inv (o : Opts V) (ops : List (OptOp V)) :
    OInv ((OptState.init o.timeout o.delay).run ops) (optsAfter o ops) := by
  have gen : ∀ (ops : List (OptOp V)) (s : OptState V) (o : Opts V), OInv s o → OInv (s.run ops) (optsAfter o ops) := by
    intro ops
    induction ops with
    | nil => intro s o h; exact h
    | cons op ops ih =>
      intro s o h
      have := ih _ _ (step_inv s o h op)
      rw [← optsAfter_append] at this
      exact this
  exact gen _ _ _ ⟨rfl, by simp [OptState.init], by simp [OptState.init]⟩

private theorem run_append (s : OptState V) (a b : List (OptOp V)) : s.run (a ++ b) = (s.run a).run b :=
  List.foldl_append

/-- C53: after every history, `get_rsfile_options()` returns exactly the options of the specification: only calls of
`set_rsfile_options` with known names change them, in particular no modification of a dictionary returned earlier. -/
theorem C53_get (o : Opts V) (ops : List (OptOp V)) :
    ∃ a c, (((OptState.init o.timeout o.delay).run ops).step .getOptions).2 = .dict a c ∧
      c.lookup "enforced_locking_timeout_value" = some (optsAfter o ops).timeout ∧
      c.lookup "default_spinlock_delay" = some (optsAfter o ops).delay ∧
      c.keys = ["enforced_locking_timeout_value", "default_spinlock_delay"] := by
  have h := run_inv o ops
  refine ⟨((OptState.init o.timeout o.delay).run ops).heap.length, dictOf (optsAfter o ops), ?_, ?_, ?_, ?_⟩
  · simp only [OptState.step, h.glob]
  · simp [dictOf]
  · simp [dictOf, List.lookup]
  · simp [dictOf, PyDict.keys]

/-- C53: a call with an unknown name raises `ValueError` and changes nothing at all; another call does not raise. -/
theorem C53_all_or_nothing (o : Opts V) (ops : List (OptOp V)) (kv : PyDict V) :
    let s := (OptState.init o.timeout o.delay).run ops
    ((∃ p ∈ kv, p.1 ≠ "enforced_locking_timeout_value" ∧ p.1 ≠ "default_spinlock_delay") →
      s.step (.setOptions kv) = (s, .valueError)) ∧
    ((∀ p ∈ kv, p.1 = "enforced_locking_timeout_value" ∨ p.1 = "default_spinlock_delay") →
      (s.step (.setOptions kv)).2 = .none) := by
  have h := run_inv o ops
  refine ⟨?_, ?_⟩
  · rintro ⟨p, hp, h1, h2⟩
    simp only [OptState.step, h.glob]
    rw [if_neg]
    intro hk
    rcases (known_iff _ kv).1 hk p hp with h' | h'
    · exact h1 h'
    · exact h2 h'
  · intro hk
    simp only [OptState.step, h.glob]
    rw [if_pos ((known_iff _ kv).2 hk)]

/-- C54: a stream keeps, whatever happens later, the options in force when it was created. -/
theorem C54_captured (o : Opts V) (before after : List (OptOp V)) :
    let s := (OptState.init o.timeout o.delay).run before
    ∃ sid, (s.step .newStream).2 = .stream sid ∧
      ((OptState.init o.timeout o.delay).run (before ++ .newStream :: after)).streams[sid]? =
        some ((optsAfter o before).timeout, (optsAfter o before).delay) := by
  have h := run_inv o before
  generalize hs : (OptState.init o.timeout o.delay).run before = s at h
  have hst : s.step .newStream = ({ s with streams := s.streams ++ [((optsAfter o before).timeout,
      (optsAfter o before).delay)] }, .stream s.streams.length) := by
    simp [OptState.step, h.glob, dictOf, List.lookup]
  have keep : ∀ (after : List (OptOp V)) (t : OptState V) (i : Nat) (x : V × V), t.streams[i]? = some x →
      (t.run after).streams[i]? = some x := by
    intro after
    induction after with
    | nil => intro t i x hx; exact hx
    | cons op after ih =>
      intro t i x hx
      refine ih (t.step op).1 i x ?_
      cases op <;> simp only [OptState.step] <;> (try split) <;> (try exact hx)
      rw [List.getElem?_append_left (by
        rcases Nat.lt_or_ge i t.streams.length with h | h
        · exact h
        · rw [List.getElem?_eq_none h] at hx; cases hx)]
      exact hx
  refine ⟨s.streams.length, by rw [hst], ?_⟩
  rw [run_append, hs]
  change (OptState.run (s.step .newStream).1 after).streams[s.streams.length]? = _
  apply keep
  rw [hst]
  simp

example : (((OptState.init (none : Option Nat) (some 1)).run [.getOptions, .userPut 1 "default_spinlock_delay" (some 9),
    .newStream, .setOptions [("default_spinlock_delay", some 3), ("bogus", none)],
    .setOptions [("default_spinlock_delay", some 5)], .newStream]).streams) =
    [(none, some 1), (none, some 5)] := by decide

end Verif.Props
