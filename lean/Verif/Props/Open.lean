import Verif.Lemmas.Open
import Verif.Props.Modes
import Mathlib.Tactic.Tauto

/-!
# What `rsopen` does to the file system: C37 to C44
-/

namespace Verif.Props

open Verif Host OpenArgs

/-! ## Vocabulary -/

/-- The mode is an advanced one. -/
def Advanced (m : List Char) : Prop := ∃ c ∈ m, c ∈ ['R', 'A', 'W', 'C', 'N', 'S', 'I', 'E', 'B', 'T']

/-- The file must be created. -/
def MustCreate (m : List Char) : Prop := 'x' ∈ m ∨ 'C' ∈ m ∨ '-' ∈ m

/-- The file must exist. -/
def MustExist (m : List Char) : Prop := 'r' ∈ m ∨ 'U' ∈ m ∨ 'N' ∈ m ∨ ('+' ∈ m ∧ Advanced m)

/-- The mode allows writing. -/
def Writes (m : List Char) : Prop := 'x' ∈ m ∨ 'w' ∈ m ∨ 'a' ∈ m ∨ ('+' ∈ m ∧ ¬ Advanced m) ∨ 'W' ∈ m ∨ 'A' ∈ m

/-- The mode allows reading. -/
def Reads (m : List Char) : Prop := 'r' ∈ m ∨ 'U' ∈ m ∨ ('+' ∈ m ∧ ¬ Advanced m) ∨ 'R' ∈ m

/-- The mode asks for a binary stream. -/
def Binary (m : List Char) : Prop := 'b' ∈ m ∨ 'B' ∈ m

/-- The mode asks to erase the file. -/
def Erases (m : List Char) : Prop := 'w' ∈ m ∨ ('E' ∈ m ∧ 'C' ∉ m ∧ '-' ∉ m)

/-- What the arguments of the raw stream are. -/
structure Fields (name : NameArg) (m : List Char) (fileno handle : Option Int) (closefd : Bool) (r : RawKw × ExtKw) :
    Prop where
  path : ∀ p, name = .path p → r.1.path = .path p ∧ r.1.fileno = fileno
  none : name = .none → r.1.path = .none ∧ r.1.fileno = fileno
  int : ∀ z, name = .int z → (r.1.path = .none ∧ r.1.fileno = some z ∧ fileno = .none) ∨ r.1.path = .int z
  handle : r.1.handle = handle
  closefd : r.1.closefd = closefd
  mustCreate : r.1.mustCreate = true ↔ MustCreate m
  mustExist : r.1.mustNotCreate = true ↔ MustExist m
  writes : (r.1.write || r.1.append) = true ↔ Writes m
  reads : r.1.read = true ↔ Reads m
  binary : r.2.binary = true ↔ Binary m
  text : r.2.text = true ↔ 't' ∈ m ∨ 'T' ∈ m
  erases : r.2.truncate = true ↔ Erases m
  inheritable : r.1.inheritable = true ↔ 'I' ∈ m
  synchronized : r.1.synchronized = true ↔ 'S' ∈ m
  append : r.1.append = true ↔ 'a' ∈ m ∨ 'A' ∈ m

theorem std_chars {py : Python} {m : List Char} (h : ∀ c ∈ m, c ∈ stdFlags py.hasU) :
    ∀ c ∈ ['R', 'A', 'W', 'C', 'N', 'S', 'I', 'E', 'B', 'T', '-'], c ∉ m := by
  intro c hc hm
  have h' : c ∈ stdFlags true := by
    have hall : ∀ b, ∀ c ∈ stdFlags b, c ∈ stdFlags true := by decide
    exact hall _ c (h c hm)
  have : ∀ c ∈ ['R', 'A', 'W', 'C', 'N', 'S', 'I', 'E', 'B', 'T', '-'], c ∉ stdFlags true := by decide
  exact this c hc h'

theorem adv_chars {m : List Char} (h : ∀ c ∈ m, c ∈ advFlags) : ∀ c ∈ ['x', 'a', 'r', 'w', 'b', 't', 'U'], c ∉ m := by
  intro c hc hm
  have : ∀ c ∈ ['x', 'a', 'r', 'w', 'b', 't', 'U'], c ∉ advFlags := by decide
  exact this c hc (h c hm)

theorem parseMode_fields {py : Python} {name : NameArg} {m : List Char} {fileno handle : Option Int} {closefd : Bool}
    {r : RawKw × ExtKw} (hn : name ≠ .other) (hb : name.isBool = false)
    (h : parseMode py name m fileno handle closefd = .ok r) : Fields name m fileno handle closefd r := by
  by_cases h1 : (∀ c ∈ m, c ∈ stdFlags py.hasU) ∧ m.Nodup
  · rw [parseMode_std py name h1.1] at h
    have hno := std_chars h1.1
    have hadv : ¬ Advanced m := by
      rintro ⟨c, hc, hc'⟩
      refine hno c ?_ hc
      simp only [List.mem_cons, List.not_mem_nil, or_false] at hc' ⊢
      rcases hc' with h | h | h | h | h | h | h | h | h | h <;> simp [h]
    simp only [List.mem_cons, List.not_mem_nil, or_false, forall_eq_or_imp, forall_eq] at hno
    obtain ⟨nR, nA, nW, nC, nN, nS, nI, nE, nB, nT, nM⟩ := hno
    unfold parseStandard at h
    extract_lets has creating reading writing appending updating kws at h
    split at h
    · cases h
    split at h
    · cases h
    rename_i hU
    split at h
    · cases h
    rename_i hone
    have key : ∀ p f, (r = kws p f) → Fields name m fileno handle closefd r ∨ ¬ (
        (∀ q, name = .path q → p = .path q ∧ f = fileno) ∧ (name = .none → p = .none ∧ f = fileno) ∧
        (∀ z, name = .int z → (p = .none ∧ f = some z ∧ fileno = .none) ∨ p = .int z)) := by
      intro p f hr
      by_cases hc : (∀ q, name = .path q → p = .path q ∧ f = fileno) ∧ (name = .none → p = .none ∧ f = fileno) ∧
        (∀ z, name = .int z → (p = .none ∧ f = some z ∧ fileno = .none) ∨ p = .int z)
      · left
        subst hr
        simp only [has, creating, reading, writing, appending, updating] at hU hone
        constructor <;> simp only [kws]
        · exact hc.1
        · exact hc.2.1
        · exact hc.2.2
        · simp [MustCreate, nC, nM, creating, has]
        · simp only [MustExist, nN, hadv, creating, reading, writing, appending, has, List.contains_eq_mem] at hone ⊢
          by_cases hx : 'x' ∈ m <;> by_cases hr : 'r' ∈ m <;> by_cases hw : 'w' ∈ m <;> by_cases ha : 'a' ∈ m <;>
            by_cases hu : 'U' ∈ m <;> simp [hx, hr, hw, ha, hu] at hone ⊢
        · simp [Writes, nW, nA, hadv, creating, writing, appending, updating, has]
          tauto
        · simp [Reads, nR, hadv, reading, updating, has]
          tauto
        · simp [Binary, nB, has]
        · simp [nT, has]
        · simp only [Erases, nE, creating, writing, has, List.contains_eq_mem] at hone ⊢
          by_cases hx : 'x' ∈ m <;> by_cases hw : 'w' ∈ m <;> simp [hx, hw] at hone ⊢
          omega
        · simp [nI]
        · simp [nS]
        · simp [nA, appending, has]
      · exact .inr hc
    cases name with
    | none =>
      cases h
      exact (key _ _ rfl).resolve_right (not_not_intro ⟨by simp, by simp, by simp⟩)
    | path p =>
      cases h
      exact (key _ _ rfl).resolve_right (not_not_intro ⟨by simp, by simp, by simp⟩)
    | int z =>
      dsimp only at h
      split at h
      · cases h
      · rename_i hf
        cases h
        refine (key _ _ rfl).resolve_right (not_not_intro ⟨by simp, by simp, ?_⟩)
        intro z' hz
        cases hz
        exact .inl ⟨rfl, rfl, by simpa using hf⟩
    | bool b => simp [NameArg.isBool] at hb
    | other => exact absurd rfl hn
  · by_cases h2 : (∀ c ∈ m, c ∈ advFlags) ∧ m.Nodup
    · by_cases h3 : ∀ c ∈ m, c = '+' ∨ c = '-'
      · rw [parseMode_signs h3] at h; cases h
      · have h3' : ∃ c ∈ m, c ≠ '+' ∧ c ≠ '-' := by
          simpa [not_or] using h3
        have hadv : Advanced m := by
          obtain ⟨c, hc, h1, h2'⟩ := h3'
          refine ⟨c, hc, ?_⟩
          have := h2.1 c hc
          simp only [advFlags, List.mem_cons, List.not_mem_nil, or_false] at this ⊢
          tauto
        rw [parseMode_adv py name h2.1 h3'] at h
        have hno := adv_chars h2.1
        simp only [List.mem_cons, List.not_mem_nil, or_false, forall_eq_or_imp, forall_eq] at hno
        obtain ⟨nx, na, nr, nw, nb, nt, nU⟩ := hno
        unfold parseAdvanced at h
        extract_lets has mustCreate at h
        split at h
        · cases h
        cases h
        constructor <;> simp only []
        · intro p hp; exact ⟨hp, trivial⟩
        · intro hp; exact ⟨hp, trivial⟩
        · intro z hz; exact .inr hz
        · simp [MustCreate, nx, mustCreate, has]
        · simp [MustExist, nr, nU, hadv, has]
        · simp [Writes, nx, nw, na, hadv, has]
        · simp [Reads, nr, nU, hadv, has]
        · simp [Binary, nb, has]
        · simp [nt, has]
        · simp [Erases, nw, mustCreate, has]
        · simp [has]
        · simp [has]
        · simp [na, has]
    · rw [parseMode_reject h1 h2] at h; cases h

/-! ## Closing -/

/-- Another stream than that of the descriptor has a lock on the file. -/
def OthersLock (ino fd : Nat) (w : Host) : Prop := ∃ l ∈ w.held, l ≠ (ino, fd) ∧ l.1 = ino

theorem closeRaw_same (c : Bool) (ino fd : Nat) (w : Host) :
    (closeRaw c ino fd w).nodes = w.nodes ∧ (closeRaw c ino fd w).names = w.names ∧
    (closeRaw c ino fd w).sched = w.sched := by
  unfold closeRaw
  dsimp only
  unfold purge
  dsimp only
  repeat' split
  all_goals exact ⟨rfl, rfl, rfl⟩

theorem closeRaw_locks (c : Bool) (ino fd : Nat) (w : Host) :
    (closeRaw c ino fd w).held = w.held.filter fun e => e ≠ (ino, fd) := by
  unfold closeRaw
  dsimp only
  unfold purge
  dsimp only
  repeat' split
  all_goals rfl

theorem any_othersLock {ino fd : Nat} {w : Host} :
    (w.held.filter fun e => e ≠ (ino, fd)).any (fun e => e.1 = ino) = true ↔ OthersLock ino fd w := by
  rw [List.any_eq_true]
  constructor
  · rintro ⟨l, hl, he⟩
    rw [List.mem_filter, decide_eq_true_iff] at hl
    exact ⟨l, hl.1, hl.2, by simpa using he⟩
  · rintro ⟨l, h1, h2, h3⟩
    exact ⟨l, List.mem_filter.2 ⟨h1, by simpa using h2⟩, by simpa using h3⟩

/-- Closing a stream while another one has a lock on the file. -/
theorem closeRaw_postponed {ino fd : Nat} {w : Host} (h : OthersLock ino fd w) (c : Bool) :
    closeRaw c ino fd w = { w with
      held := w.held.filter fun e => e ≠ (ino, fd)
      pending := if c && fd ≠ 0 then (ino, fd) :: w.pending else w.pending
      log := w.log ++ if c && fd ≠ 0 then [.postponed fd] else [] } := by
  rw [← any_othersLock] at h
  unfold closeRaw
  dsimp only
  have hp : ∀ v : Host, v.held = (w.held.filter fun e => e ≠ (ino, fd)) → v.purge ino = v := by
    intro v hv
    unfold purge
    rw [hv, if_pos h]
  have h2 : (if (ino, fd) ∈ w.held then ({ w with held := w.held.filter fun e => e ≠ (ino, fd) } : Host).purge ino
      else { w with held := w.held.filter fun e => e ≠ (ino, fd) }) =
      { w with held := w.held.filter fun e => e ≠ (ino, fd) } := by
    split
    · exact hp _ rfl
    · rfl
  rw [h2]
  split
  · rw [hp _ rfl]
  · simp

/-- The descriptors that closing a stream closes. -/
def Ends (c : Bool) (ino fd : Nat) (w : Host) (x : Nat) : Prop :=
  ¬ OthersLock ino fd w ∧ ((c = true ∧ fd ≠ 0 ∧ x = fd) ∨ ((c = true ∧ fd ≠ 0 ∨ (ino, fd) ∈ w.held) ∧ (ino, x) ∈ w.pending))

theorem mem_gone {l : List (Nat × Nat)} {ino x : Nat} :
    x ∈ (l.filter fun e => e.1 = ino).map Prod.snd ↔ (ino, x) ∈ l := by
  rw [List.mem_map]
  constructor
  · rintro ⟨⟨i, y⟩, h, rfl⟩
    rw [List.mem_filter, decide_eq_true_iff] at h
    obtain ⟨h, rfl⟩ := h
    exact h
  · intro h
    exact ⟨_, List.mem_filter.2 ⟨h, by simp⟩, rfl⟩

/-- What closing a stream does to the descriptors. -/
theorem closeRaw_fds {c : Bool} {ino fd : Nat} {w : Host} {x : Nat × Desc} :
    x ∈ (closeRaw c ino fd w).fds ↔ x ∈ w.fds ∧ ¬ Ends c ino fd w x.1 := by
  by_cases h : OthersLock ino fd w
  · rw [closeRaw_postponed h]
    simp [Ends, h]
  · have hn : ¬ (w.held.filter fun e => e ≠ (ino, fd)).any (fun e => e.1 = ino) = true := fun h' => h (any_othersLock.1 h')
    unfold closeRaw purge
    dsimp only
    simp only [if_neg hn]
    by_cases hm : (ino, fd) ∈ w.held <;> by_cases hc : c = true <;> by_cases h0 : fd = 0 <;>
      simp only [hm, hc, h0, if_true, if_false, Bool.true_and, Bool.false_and, ne_eq, not_true, not_false_eq_true,
        decide_true, decide_false, Bool.false_eq_true, List.mem_filter, decide_eq_true_eq, mem_gone, Ends, h,
        List.mem_cons, Prod.mk.injEq, true_and, false_and, and_true, and_false, or_false, false_or, or_true] at *
    all_goals grind

/-- What closing a stream does to the descriptors waiting to be closed. -/
theorem closeRaw_pending {c : Bool} {ino fd : Nat} {w : Host} {y : Nat × Nat} :
    y ∈ (closeRaw c ino fd w).pending ↔
      (y ∈ w.pending ∧ ¬ (y.1 = ino ∧ Ends c ino fd w y.2)) ∨ (OthersLock ino fd w ∧ c = true ∧ fd ≠ 0 ∧ y = (ino, fd)) := by
  by_cases h : OthersLock ino fd w
  · rw [closeRaw_postponed h]
    have : ¬ Ends c ino fd w y.2 := fun h' => h'.1 h
    simp only [this, and_false, not_false_eq_true, and_true, h, true_and]
    by_cases hc : c = true <;> by_cases h0 : fd = 0 <;> simp [hc, h0, or_comm]
  · have hn : ¬ (w.held.filter fun e => e ≠ (ino, fd)).any (fun e => e.1 = ino) = true := fun h' => h (any_othersLock.1 h')
    obtain ⟨i, y⟩ := y
    unfold closeRaw purge
    dsimp only
    simp only [if_neg hn]
    by_cases hm : (ino, fd) ∈ w.held <;> by_cases hc : c = true <;> by_cases h0 : fd = 0 <;>
      simp only [hm, hc, h0, if_true, if_false, Bool.true_and, Bool.false_and, ne_eq, not_true, not_false_eq_true,
        decide_true, decide_false, Bool.false_eq_true, List.mem_filter, decide_eq_true_eq, Ends, h,
        Prod.mk.injEq, true_and, false_and, and_true, and_false, or_false, false_or, or_true] at *
    all_goals grind

theorem purge_log (ino : Nat) (v : Host) : ∃ evs, (v.purge ino).log = v.log ++ evs ∧
    ∀ ev ∈ evs, ∃ x, ev = .closed x ∧ (ino, x) ∈ v.pending := by
  unfold purge
  dsimp only
  split
  · exact ⟨[], by simp, by simp⟩
  · refine ⟨_, rfl, fun ev he => ?_⟩
    rw [List.mem_map] at he
    obtain ⟨x, hx, rfl⟩ := he
    exact ⟨x, rfl, mem_gone.1 hx⟩

theorem purge_pending {ino : Nat} {v : Host} {y : Nat × Nat} (h : y ∈ (v.purge ino).pending) : y ∈ v.pending := by
  unfold purge at h
  dsimp only at h
  split at h
  · exact h
  · exact (List.mem_filter.1 h).1

theorem purge_held (ino : Nat) (v : Host) : (v.purge ino).held = v.held := by
  unfold purge
  dsimp only
  split <;> rfl

/-- Closing only adds closing events. -/
theorem closeRaw_events (c : Bool) (ino fd : Nat) (w : Host) : ∃ evs, (closeRaw c ino fd w).log = w.log ++ evs ∧
    ∀ ev ∈ evs, (∃ x, ev = .closed x ∧ Ends c ino fd w x) ∨ (ev = .postponed fd ∧ OthersLock ino fd w) := by
  by_cases h : OthersLock ino fd w
  · rw [closeRaw_postponed h]
    refine ⟨_, rfl, fun ev he => .inr ?_⟩
    split at he
    · rw [List.mem_singleton] at he
      exact ⟨he, h⟩
    · cases he
  · have hn : ¬ (w.held.filter fun e => e ≠ (ino, fd)).any (fun e => e.1 = ino) = true := fun h' => h (any_othersLock.1 h')
    unfold closeRaw
    extract_lets w1 w2
    have h2 : ∃ evs, w2.log = w.log ++ evs ∧ ∀ ev ∈ evs, ∃ x, ev = .closed x ∧ Ends c ino fd w x := by
      dsimp only [w2]
      split
      · rename_i hm
        obtain ⟨evs, h1, h3⟩ := purge_log ino w1
        refine ⟨evs, h1, fun ev he => ?_⟩
        obtain ⟨x, h4, h5⟩ := h3 ev he
        exact ⟨x, h4, h, .inr ⟨.inr hm, h5⟩⟩
      · exact ⟨[], by simp [w1], by simp⟩
    have hp2 : ∀ y ∈ w2.pending, y ∈ w.pending := by
      dsimp only [w2]
      split
      · exact fun y hy => purge_pending (v := w1) hy
      · exact fun y hy => hy
    have hh2 : w2.held = w1.held := by
      dsimp only [w2]
      split
      · exact purge_held _ _
      · rfl
    obtain ⟨evs, h1, h3⟩ := h2
    split
    · rename_i hc
      simp only [Bool.and_eq_true, decide_eq_true_eq] at hc
      obtain ⟨evs', h4, h5⟩ := purge_log ino { w2 with
        pending := (ino, fd) :: w2.pending
        log := w2.log ++ if w2.held.any fun e => e.1 = ino then [.postponed fd] else [] }
      rw [h4, hh2]
      rw [if_neg hn, List.append_nil, h1, List.append_assoc]
      refine ⟨_, rfl, fun ev he => .inl ?_⟩
      rw [List.mem_append] at he
      rcases he with he | he
      · exact h3 ev he
      · obtain ⟨x, h6, h7⟩ := h5 ev he
        refine ⟨x, h6, h, ?_⟩
        rw [List.mem_cons] at h7
        rcases h7 with h7 | h7
        · exact .inl ⟨hc.1, hc.2, congrArg Prod.snd h7⟩
        · exact .inr ⟨.inl hc, hp2 _ h7⟩
    · exact ⟨evs, h1, fun ev he => .inl (h3 ev he)⟩

theorem closeRaw_log (c : Bool) (ino fd : Nat) (w : Host) : ∃ evs, (closeRaw c ino fd w).log = w.log ++ evs ∧
    ∀ ev ∈ evs, (∃ fd', ev = .closed fd') ∨ ∃ fd', ev = .postponed fd' := by
  obtain ⟨evs, h1, h2⟩ := closeRaw_events c ino fd w
  refine ⟨evs, h1, fun ev h => ?_⟩
  rcases h2 ev h with ⟨x, h, _⟩ | ⟨h, _⟩
  · exact .inl ⟨x, h⟩
  · exact .inr ⟨fd, h⟩

/-! ## The files after a call -/

/-- The arguments name a path and nothing else. -/
structure ByPath (a : OpenArgs) (p : Bytes) : Prop where
  name : a.name = .path p
  fileno : a.fileno = none
  handle : a.handle = none
  opener : a.opener = none

/-- What can happen to the files in a call for a path. -/
theorem byPath_course {py : Python} {a : OpenArgs} {p : Bytes} (ha : ByPath a p) {w w' : Host} {r : Except Exn Opened}
    (h : rsopen py a w = (r, w')) :
    (∃ e, r = .error e ∧ w' = w ∧ e = .badValueType) ∨
    ∃ kw ext, Fields (.path p) a.modeString none none a.closefd (kw, ext) ∧ RawObj.check kw = .ok () ∧
      checkExt a kw ext = .ok ext.truncate ∧ a.closefd = true ∧
      ((∃ e, r = .error (RawObj.conv e) ∧ sysOpen p (RawObj.flags kw) w = (.error e, w')) ∨
       (w.fails = none ∧ ∃ ino base, Enters p (RawObj.flags kw) w ino base ∧
        ((∃ e k b, r = .error (RawObj.conv e) ∧ w' = entered kw ino w.freeFd b k base ∧
            RawObj.LeakReason w.sched base ino e) ∨
         ((∀ j, 1 ≤ j → j < 4 → w.sched[j]?.join = none) ∧ ∃ n, base.nodes[ino]? = some n ∧ n.kind ≠ .directory ∧
          ((∃ e e' k, r = .error e ∧ some e' ∈ w.sched ∧ (e = e' ∨ e = RawObj.conv e') ∧
              w' = closeRaw true ino w.freeFd (entered kw ino w.freeFd kw.inheritable k base)) ∨
           (∃ k, k ≤ 6 ∧
             finish py a kw ext ext.truncate (RawObj.built kw w.freeFd ino (decide (n.kind = .regular)))
               (entered kw ino w.freeFd kw.inheritable k base) = (r, w'))))))) := by
  rcases rsopen_course h with ⟨e, hr, hw⟩ | ⟨kw0, kw, ext, t, hp, hpar, hext, hc⟩
  · refine .inl ⟨e, hr, ?_⟩
    have : start a w = w := by unfold start; rw [ha.opener]
    have hno : a.name ≠ .other := by rw [ha.name]; simp
    rcases hw with ⟨hw, hp | ho⟩ | ⟨hw, ho | ⟨kw, ext, _, hx⟩⟩
    · exact ⟨hw, (parse_error hp).resolve_right fun h => hno h.2⟩
    · exact absurd ha.opener ho
    · exact absurd ha.opener ho
    · exact ⟨by rw [hw, this], checkExt_error hx⟩
  · have hst : start a w = w := by unfold start; rw [ha.opener]
    obtain rfl : kw = kw0 := hpar.elim (fun h => h.2) fun h => absurd ha.opener h.1
    obtain ⟨h1, h2, h3, h4, hpm⟩ := parse_ok hp
    have hfl := parseMode_fields h1 h2 hpm
    rw [ha.name, ha.fileno, ha.handle] at hfl
    have hpath := hfl.path p rfl
    rw [hst] at hc
    have ht : t = ext.truncate := by
      rw [(checkExt_ok hext).2.2]
      have h1 : kw.fileno = none := hpath.2
      have h2 : kw.handle = none := hfl.handle
      simp [h1, h2]
    subst ht
    have hcl : ∀ u, RawObj.check kw = .ok u → kw.closefd = true := by
      intro u hck
      rcases (RawObj.check_ok hck).2.2.2.2.1 with h | h | h
      · exact h
      · rw [show kw.fileno = none from hpath.2] at h; simp at h
      · rw [show kw.handle = none from hfl.handle] at h; simp at h
    rcases hc with ⟨e, rfl, hc⟩ | ⟨raw, w1, hc, hfin⟩
    · rcases RawObj.create_course hpath.1 hpath.2 hfl.handle hc with ⟨e', he, hce, hw⟩ | ⟨hck, hc⟩
      · cases he
        exact .inl ⟨e, rfl, hw, RawObj.check_error hce⟩
      · refine .inr ⟨kw, ext, hfl, hck, hext, hfl.closefd ▸ hcl _ hck, ?_⟩
        rcases hc with ⟨e', he, hs⟩ | ⟨hf, _, ino, base, hin, hc⟩
        · exact .inl ⟨e', by cases he; rfl, hs⟩
        · refine .inr ⟨hf, ino, base, hin, ?_⟩
          rcases hc with ⟨e', k, b, he, hw, hr⟩ | ⟨hj, n, hn, hd, hc⟩
          · exact .inl ⟨e', k, b, by cases he; rfl, hw, hr⟩
          · refine .inr ⟨hj, n, hn, hd, ?_⟩
            rcases hc with ⟨e1, e', k, he, hm, hor, hw⟩ | ⟨k, _, _, he, _⟩
            · rw [hcl _ hck] at hw
              exact .inl ⟨e1, e', k, by cases he; rfl, hm, hor, hw⟩
            · cases he
    · rcases RawObj.create_course hpath.1 hpath.2 hfl.handle hc with ⟨e', he, _, hw⟩ | ⟨hck, hc⟩
      · cases he
      · refine .inr ⟨kw, ext, hfl, hck, hext, hfl.closefd ▸ hcl _ hck, ?_⟩
        rcases hc with ⟨e', he, hs⟩ | ⟨hf, _, ino, base, hin, hc⟩
        · cases he
        · refine .inr ⟨hf, ino, base, hin, ?_⟩
          rcases hc with ⟨e', k, b, he, hw, hr⟩ | ⟨hj, n, hn, hd, hc⟩
          · cases he
          · refine .inr ⟨hj, n, hn, hd, ?_⟩
            rcases hc with ⟨e1, e', k, he, hm, hor, hw⟩ | ⟨k, _, hk, he, hw⟩
            · cases he
            · cases he
              subst hw
              exact .inr ⟨k, hk, hfin⟩

/-- An emptied file. -/
def erased (n : Node) : Node := { n with data := [] }

/-- What the protected part does to the files. -/
theorem finish_files {py : Python} {a : OpenArgs} {kw : RawKw} {ext : ExtKw} {t : Bool} {raw : RawObj} {w w' : Host}
    {r : Except Exn Opened} (h : finish py a kw ext t raw w = (r, w')) :
    w'.names = w.names ∧ (∀ s, r = .ok s → s.raw = raw) ∧
      (w'.nodes = w.nodes ∨ (w'.nodes = w.nodes.modify raw.ino erased ∧ t = true ∧ raw.seekable = true)) := by
  obtain ⟨k, l, tr, hl, htr, hc⟩ := finish_course h
  have hnodes : (effect l tr raw (w.ticks k)).nodes = w.nodes ∨
      ((effect l tr raw (w.ticks k)).nodes = w.nodes.modify raw.ino erased ∧ t = true ∧ raw.seekable = true) := by
    cases tr with
    | false => exact .inl rfl
    | true => exact .inr ⟨rfl, (htr rfl).2.1, (htr rfl).1⟩
  rcases hc with ⟨e, rfl, rfl, _⟩ | ⟨_, rfl, hc⟩
  · have := closeRaw_same raw.closefd raw.ino raw.fd (effect l tr raw (w.ticks k))
    rw [this.1, this.2.1]
    obtain ⟨e', he', _⟩ := closing_error raw.closefd raw.fd e (α := Opened)
    exact ⟨rfl, by rw [he']; simp, hnodes⟩
  · refine ⟨rfl, ?_, hnodes⟩
    rcases hc with ⟨_, _, rfl⟩ | ⟨_, _, _, _, rfl, _⟩
    · intro s hs; cases hs; rfl
    · intro s hs; cases hs; rfl

theorem modify_new (l : List Node) (n : Node) (h : n.data = []) : (l ++ [n]).modify l.length erased = l ++ [n] := by
  have he : erased n = n := by
    cases n
    simp only at h
    subst h
    rfl
  refine List.ext_getElem? fun i => ?_
  rw [List.getElem?_modify]
  split
  · rename_i hi
    subst hi
    simp [he]
  · simp

/-- The names after a call for a path. -/
theorem names_course {py : Python} {a : OpenArgs} {p : Bytes} (ha : ByPath a p) {w w' : Host} {r : Except Exn Opened}
    (h : rsopen py a w = (r, w')) :
    (w'.names = w.names ∧ w'.nodes.length = w.nodes.length ∧ ∀ s, r = .ok s → w.names.lookup p = some s.raw.ino ∧
      ¬ MustCreate a.modeString) ∨
    (¬ MustExist a.modeString ∧ w.names.lookup p = none ∧ w'.names = (p, w.nodes.length) :: w.names ∧
      w'.nodes = w.nodes ++ [⟨.regular, [], false, 4096⟩] ∧ ∀ s, r = .ok s → s.raw.ino = w.nodes.length) := by
  rcases byPath_course ha h with ⟨e, rfl, rfl, _⟩ | ⟨kw, ext, hfl, hck, _, _, hc⟩
  · exact .inl ⟨rfl, rfl, by simp⟩
  rcases hc with ⟨e, rfl, hs⟩ | ⟨hf, ino, base, hin, hc⟩
  · obtain ⟨rfl, _⟩ := sysOpen_error hs
    exact .inl ⟨rfl, rfl, by simp⟩
  -- what the rest does
  have hrest : w'.names = base.names ∧ (∀ s, r = .ok s → s.raw.ino = ino) ∧
      (w'.nodes = base.nodes ∨ w'.nodes = base.nodes.modify ino erased) := by
    rcases hc with ⟨e, k, b, rfl, rfl, _⟩ | ⟨_, n, hn, hd, ⟨e, e', k, rfl, _, _, rfl⟩ | ⟨k, _, hfin⟩⟩
    · exact ⟨rfl, by simp, .inl rfl⟩
    · have := closeRaw_same true ino w.freeFd (entered kw ino w.freeFd kw.inheritable k base)
      rw [this.1, this.2.1]
      exact ⟨rfl, by simp, .inl rfl⟩
    · obtain ⟨h1, h2, h3⟩ := finish_files hfin
      refine ⟨h1, fun s hs => by rw [h2 s hs]; rfl, ?_⟩
      rcases h3 with h3 | ⟨h3, _⟩
      · exact .inl h3
      · exact .inr h3
  obtain ⟨hnames, hraw, hnodes⟩ := hrest
  cases hin with
  | old hl hx hd =>
    refine .inl ⟨hnames, ?_, fun s hs => ⟨by rw [hl, hraw s hs], fun hmc => hx ?_⟩⟩
    · rcases hnodes with h | h <;> rw [h]
      simp
    · have h1 : kw.mustCreate = true := hfl.mustCreate.2 hmc
      have h2 : kw.mustNotCreate = false := by
        have := (RawObj.check_ok hck).2.2.2.1
        simpa [h1] using this
      simp [RawObj.flags, h1, h2]
  | new hl hcr =>
    refine .inr ⟨fun hme => ?_, hl, hnames, ?_, hraw⟩
    · have h1 : kw.mustNotCreate = true := hfl.mustExist.2 hme
      simp [RawObj.flags, h1] at hcr
    · rcases hnodes with h | h
      · exact h
      · rw [h]
        exact modify_new _ _ rfl

/-! ## C37 -/

/-- C37: a call that must create its file and succeeds has created a new, empty, regular file; the path did not exist. -/
theorem C37_must_create {py : Python} {a : OpenArgs} {p : Bytes} (ha : ByPath a p) (hm : MustCreate a.modeString)
    {w w' : Host} {s : Opened} (h : rsopen py a w = (.ok s, w')) :
    w.names.lookup p = none ∧ w'.names.lookup p = some s.raw.ino ∧ w.nodes[s.raw.ino]? = none ∧
      ∃ n, w'.nodes[s.raw.ino]? = some n ∧ n.kind = .regular ∧ n.data = [] := by
  rcases names_course ha h with ⟨_, _, h⟩ | ⟨_, hl, hn, hnodes, hs⟩
  · exact absurd hm (h s rfl).2
  · rw [hs s rfl]
    exact ⟨hl, by rw [hn]; simp, by simp, _, by rw [hnodes]; simp; rfl, rfl, rfl⟩

/-- C37: a call that must not create its file and succeeds has opened the file that the path names. -/
theorem C37_must_exist {py : Python} {a : OpenArgs} {p : Bytes} (ha : ByPath a p) (hm : MustExist a.modeString)
    {w w' : Host} {s : Opened} (h : rsopen py a w = (.ok s, w')) :
    w.names.lookup p = some s.raw.ino ∧ w'.names = w.names ∧ w'.nodes.length = w.nodes.length := by
  rcases names_course ha h with ⟨h1, h2, h⟩ | ⟨hme, _⟩
  · exact ⟨(h s rfl).1, h1, h2⟩
  · exact absurd hm hme

/-- C37: whatever the outcome, at most the path of the call comes into existence, and nothing disappears. -/
theorem C37_frame {py : Python} {a : OpenArgs} {p : Bytes} (ha : ByPath a p) {w w' : Host} {r : Except Exn Opened}
    (h : rsopen py a w = (r, w')) (q : Bytes) :
    w'.names.lookup q = w.names.lookup q ∨ (q = p ∧ w.names.lookup p = none ∧ ¬ MustExist a.modeString) := by
  rcases names_course ha h with ⟨h1, _⟩ | ⟨hme, hl, hn, _⟩
  · exact .inl (by rw [h1])
  · by_cases hq : q = p
    · exact .inr ⟨hq, hl, hme⟩
    · left
      rw [hn, List.lookup_cons]
      have : (q == p) = false := by simpa using hq
      rw [this]

/-- C37: a call without a mode is a call with the mode `"r"`, `rsfile_factories.py:13`. -/
theorem C37_default (py : Python) {a : OpenArgs} (hm : a.mode = .absent) : rsopen py a = rsopen py { a with mode := .given ['r'] } := by
  cases a
  cases hm
  rfl

/-- C37: a call without a mode creates nothing; if it succeeds, it has opened the file that the path names. -/
theorem C37_default_files {py : Python} {a : OpenArgs} {p : Bytes} (ha : ByPath a p) (hm : a.mode = .absent) {w w' : Host}
    {r : Except Exn Opened} (h : rsopen py a w = (r, w')) :
    (∀ q, w'.names.lookup q = w.names.lookup q) ∧
      ∀ s, r = .ok s → w.names.lookup p = some s.raw.ino ∧ w'.nodes.length = w.nodes.length := by
  rw [C37_default py hm] at h
  have ha' : ByPath { a with mode := .given ['r'] } p := ⟨ha.name, ha.fileno, ha.handle, ha.opener⟩
  have hme : MustExist (OpenArgs.modeString { a with mode := .given ['r'] }) := .inl (by simp [OpenArgs.modeString])
  refine ⟨fun q => (C37_frame ha' h q).elim id fun h => absurd hme h.2.2, ?_⟩
  rintro s rfl
  have := C37_must_exist ha' hme h
  exact ⟨this.1, this.2.2⟩

/-- C37: the existence check fails: nothing changes. -/
theorem C37_refusal (py : Python) {a : OpenArgs} {p : Bytes} (ha : ByPath a p) {w : Host}
    (hx : (MustCreate a.modeString ∧ (w.names.lookup p).isSome) ∨ (MustExist a.modeString ∧ w.names.lookup p = none)) :
    ∃ e sched, rsopen py a w = (.error e, { w with sched := sched }) ∧
      (some e ∈ w.sched ∨ some .overflowError ∈ w.sched ∨ e = .badValueType ∨ e = .ioError 24 ∨
        e = if (w.names.lookup p).isSome then .ioError 17 else .ioError 2) := by
  cases h : rsopen py a w with
  | mk r w' =>
    rcases byPath_course ha h with ⟨e, rfl, rfl, he⟩ | ⟨kw, ext, hfl, hck, _, _, hc⟩
    · exact ⟨e, w'.sched, rfl, .inr (.inr (.inl he))⟩
    have hnb : ¬ (kw.mustCreate = true ∧ kw.mustNotCreate = true) := (RawObj.check_ok hck).2.2.2.1
    rcases hc with ⟨e, rfl, hs⟩ | ⟨hf, ino, base, hin, hc⟩
    · obtain ⟨rfl, hc⟩ := sysOpen_error hs
      refine ⟨_, _, rfl, ?_⟩
      have hconv : ∀ n, RawObj.conv (.ioError n) = .ioError n := fun n => rfl
      rcases hc with hf | ⟨_, rfl, _, _, hl⟩ | ⟨_, rfl, ino, hl, _, _, hnx⟩ | ⟨_, rfl, _, hl⟩ | ⟨_, rfl, _⟩
      · have hm := fails_mem hf
        by_cases he : e = .overflowError
        · exact .inr (.inl (he ▸ hm))
        · left
          rwa [show RawObj.conv e = e from if_neg he]
      · rw [hconv, if_pos hl]
        exact .inr (.inr (.inr (.inr rfl)))
      · exfalso
        -- an existing directory fails the check before
        rcases hx with ⟨hm, _⟩ | ⟨_, hn⟩
        · have h1 : kw.mustCreate = true := hfl.mustCreate.2 hm
          have h2 : kw.mustNotCreate = false := by simpa [h1] using hnb
          exact hnx (by simp [RawObj.flags, h1, h2])
        · rw [hn] at hl; cases hl
      · rw [hconv, hl]
        exact .inr (.inr (.inr (.inr rfl)))
      · exact .inr (.inr (.inr (.inl rfl)))
    · exfalso
      cases hin with
      | old hl hxx _ =>
        rcases hx with ⟨hm, _⟩ | ⟨_, hn⟩
        · have h1 : kw.mustCreate = true := hfl.mustCreate.2 hm
          have h2 : kw.mustNotCreate = false := by simpa [h1] using hnb
          exact hxx (by simp [RawObj.flags, h1, h2])
        · rw [hn] at hl; cases hl
      | new hl hcr =>
        rcases hx with ⟨_, hn⟩ | ⟨hm, _⟩
        · rw [hl] at hn; simp at hn
        · have h1 : kw.mustNotCreate = true := hfl.mustExist.2 hm
          simp [RawObj.flags, h1] at hcr

/-! ### A machine to open files on -/

/-- A regular file `f` with three bytes, a directory `d` and the terminal, which is open as 0, 1 and 2. -/
def machine : Host :=
  { nodes := [⟨.regular, [1, 2, 3], false, 4096⟩, ⟨.directory, [], false, 4096⟩, ⟨.special, [], true, 1024⟩]
    names := [([102], 0), ([100], 1)]
    fds := [(0, ⟨2, true, true, false, false, true⟩), (1, ⟨2, true, true, false, false, true⟩),
            (2, ⟨2, true, true, false, false, true⟩)]
    held := []
    pending := []
    sched := []
    log := [] }

/-- A call with a path and a mode, the other arguments being the default ones. -/
def call (p : Bytes) (mode : String) : OpenArgs :=
  { name := .path p, mode := .given mode.toList, buffering := .absent, encoding := .absent, errors := .absent,
    newline := false, fileno := none, handle := none, closefd := true, opener := none, locking := true,
    threadSafe := true, mutex := false }

/-- The file named by a path. -/
def content (w : Host) (p : Bytes) : Option Bytes := do
  let ino ← w.names.lookup p
  let n ← w.nodes[ino]?
  pure n.data

-- C37: creating a new file, and a refusal
example : ByPath (call [103] "WCB") [103] := ⟨rfl, rfl, rfl, rfl⟩

example : MustCreate (call [103] "WCB").modeString ∧ (rsopen unixPython (call [103] "WCB") machine).1.toBool = true ∧
    content (rsopen unixPython (call [103] "WCB") machine).2 [103] = some [] :=
  ⟨.inr (.inl (by decide)), by decide +kernel, by decide +kernel⟩

-- C37: a call without a mode opens the existing file
example : ByPath { call [102] "w" with mode := .absent } [102] ∧
    (rsopen unixPython { call [102] "w" with mode := .absent } machine).1.toBool = true ∧
    content (rsopen unixPython { call [102] "w" with mode := .absent } machine).2 [102] = some [1, 2, 3] :=
  ⟨⟨rfl, rfl, rfl, rfl⟩, by decide +kernel, by decide +kernel⟩

example : MustExist (call [102] "r+").modeString ∧ (rsopen unixPython (call [102] "r+") machine).1.toBool = true :=
  ⟨.inl (by decide), by decide +kernel⟩

example : (rsopen unixPython (call [102] "WCB") machine).1 = .error (.ioError 17) := by decide +kernel
example : (rsopen unixPython (call [103] "r") machine).1 = .error (.ioError 2) := by decide +kernel

/-! ## The constructor, from a path or a descriptor -/

/-- Every file is still there with its content. -/
def Kept (w w' : Host) : Prop := ∀ (i : Nat) (n : Node), w.nodes[i]? = some n → w'.nodes[i]? = some n

theorem Kept.rfl' (w : Host) : Kept w w := fun _ _ h => h

theorem Enters.kept {p : Bytes} {fl : Flags} {w base : Host} {ino : Nat} (h : Enters p fl w ino base) : Kept w base := by
  cases h with
  | old => exact Kept.rfl' w
  | new =>
    intro i n hn
    have : i < w.nodes.length := (List.getElem?_eq_some_iff.1 hn).1
    simp only [newFile]
    rw [List.getElem?_append_left this]
    exact hn

theorem Enters.log {p : Bytes} {fl : Flags} {w base : Host} {ino : Nat} (h : Enters p fl w ino base) :
    ∃ evs, base.log = w.log ++ evs ∧ ∀ ev ∈ evs, ∃ p ino, ev = .created p ino := by
  cases h with
  | old => exact ⟨[], by simp, by simp⟩
  | new => exact ⟨_, rfl, fun ev h => ⟨_, _, by simpa using h⟩⟩

/-- Accepted arguments are a path or a descriptor. -/
theorem source_cases {kw : RawKw} {u : Unit} (h : RawObj.check kw = .ok u) :
    (∃ p, kw.path = .path p ∧ kw.fileno = none ∧ kw.handle = none) ∨ ∃ z, RawObj.given kw = some z := by
  obtain ⟨h1, h2, _⟩ := RawObj.check_ok h
  cases hh : kw.handle with
  | some z => exact .inr ⟨z, by simp [RawObj.given, hh]⟩
  | none =>
    cases hf : kw.fileno with
    | some z => exact .inr ⟨z, by simp [RawObj.given, hh, hf]⟩
    | none =>
      left
      cases hp : kw.path with
      | path p => exact ⟨p, rfl, rfl, rfl⟩
      | none => rw [hp, hh, hf] at h2; simp [NameArg.truthy] at h2
      | int z => rw [hp] at h1; simp [NameArg.isString] at h1
      | bool z => rw [hp] at h1; simp [NameArg.isString] at h1
      | other => rw [hp] at h1; simp [NameArg.isString] at h1

/-- A raw stream was made. -/
theorem create_made {kw : RawKw} {w w' : Host} {raw : RawObj} (h : RawObj.create kw w = (.ok raw, w')) :
    RawObj.check kw = .ok () ∧ ∃ fd ino n d evs k, raw = RawObj.built kw fd ino (decide (n.kind = .regular)) ∧
      w'.nodes[ino]? = some n ∧ n.kind ≠ .directory ∧ w'.fds.lookup fd = some d ∧ d.ino = ino ∧ w'.held = w.held ∧
      w'.pending = w.pending ∧ w'.sched = w.sched.drop k ∧ w'.log = w.log ++ evs ∧
      (∀ ev ∈ evs, (∃ p i, ev = .created p i) ∨ ∃ f i, ev = .opened f i) ∧ Kept w w' ∧
      (∀ z, RawObj.given kw = some z → 0 ≤ z ∧ fd = z.toNat ∧ w' = w.ticks k) ∧
      (RawObj.given kw = none → d.inheritable = kw.inheritable) := by
  have hck : RawObj.check kw = .ok () := by
    cases hc : RawObj.check kw with
    | ok u => rfl
    | error e =>
      unfold RawObj.create at h
      rw [PyM.bind_apply, hc] at h
      cases h
  refine ⟨hck, ?_⟩
  rcases source_cases hck with ⟨p, hp, hf, hh⟩ | ⟨z, hz⟩
  · rcases RawObj.create_course hp hf hh h with ⟨e, he, _⟩ | ⟨_, ⟨e, he, _⟩ | ⟨hfl, h31, ino, base, hin, hc⟩⟩
    · cases he
    · cases he
    · rcases hc with ⟨e, k, b, he, _⟩ | ⟨hj, n, hn, hd, ⟨e, e', k, he, _⟩ | ⟨k, _, _, he, rfl⟩⟩
      · cases he
      · cases he
      · cases he
        obtain ⟨evs, hevs, hcr⟩ := Enters.log hin
        have hs := hin.same
        refine ⟨w.freeFd, ino, n, _, evs ++ [.opened w.freeFd ino], k, rfl, hn, hd,
          RawObj.lookup_entry kw ino w.freeFd kw.inheritable k base, rfl, hs.2.2.1, hs.2.2.2, ?_, ?_, ?_,
          fun i n hi => Enters.kept hin i n hi, ?_, fun _ => rfl⟩
        · simp [entered, hs.2.1]
        · simp [entered, hevs]
        · intro ev hev
          rw [List.mem_append, List.mem_singleton] at hev
          rcases hev with hev | rfl
          · exact .inl (hcr ev hev)
          · exact .inr ⟨_, _, rfl⟩
        · intro z hz
          simp [RawObj.given, hf, hh] at hz
  · rcases RawObj.create_fd_course hz h with ⟨e, he, _⟩ | ⟨_, ⟨e, e', k, he, _⟩ | ⟨h0, d, n, hl, hn, hc⟩⟩
    · cases he
    · cases he
    · rcases hc with ⟨e, e', k, c, he, _⟩ | ⟨hd, k, rfl, he⟩
      · cases he
      · cases he
        refine ⟨z.toNat, d.ino, n, d, [], k, rfl, hn, hd, hl, rfl, rfl, rfl, rfl, by simp [ticks], by simp,
          fun _ _ h => h, ?_, by simp [hz]⟩
        intro z' hz'
        rw [hz] at hz'
        cases hz'
        exact ⟨h0, rfl, rfl⟩

/-- A raw stream was not made. -/
theorem create_not_made {kw : RawKw} {w w' : Host} {e : Exn} (h : RawObj.create kw w = (.error e, w')) :
    Kept w w' ∧ ∃ evs, w'.log = w.log ++ evs ∧ ∀ ev ∈ evs, (∀ i f, ev ≠ .locked i f) ∧ ∀ i, ev ≠ .truncated i := by
  have closes : ∀ {c : Bool} {ino fd : Nat} {v : Host} {evs0 : List OpenEv}, v.log = w.log ++ evs0 →
      (∀ ev ∈ evs0, (∀ i f, ev ≠ .locked i f) ∧ ∀ i, ev ≠ .truncated i) →
      ∃ evs, (closeRaw c ino fd v).log = w.log ++ evs ∧ ∀ ev ∈ evs, (∀ i f, ev ≠ .locked i f) ∧ ∀ i, ev ≠ .truncated i := by
    intro c ino fd v evs0 h0 h1
    obtain ⟨evs, hevs, hcl⟩ := closeRaw_log c ino fd v
    refine ⟨evs0 ++ evs, by rw [hevs, h0, List.append_assoc], fun ev hev => ?_⟩
    rw [List.mem_append] at hev
    rcases hev with hev | hev
    · exact h1 ev hev
    · rcases hcl ev hev with ⟨_, rfl⟩ | ⟨_, rfl⟩ <;> exact ⟨by simp, by simp⟩
  cases hck : RawObj.check kw with
  | error e' =>
    unfold RawObj.create at h
    rw [PyM.bind_apply, hck] at h
    cases h
    exact ⟨Kept.rfl' w, [], by simp, by simp⟩
  | ok u =>
    rcases source_cases hck with ⟨p, hp, hf, hh⟩ | ⟨z, hz⟩
    · rcases RawObj.create_course hp hf hh h with ⟨e, _, _, rfl⟩ | ⟨_, ⟨e, he, hs⟩ | ⟨hfl, h31, ino, base, hin, hc⟩⟩
      · exact ⟨Kept.rfl' w', [], by simp, by simp⟩
      · obtain ⟨rfl, _⟩ := sysOpen_error hs
        exact ⟨fun _ _ h => h, [], by simp [ticks], by simp⟩
      · obtain ⟨evs, hevs, hcr⟩ := Enters.log hin
        have hev : ∀ b k, (entered kw ino w.freeFd b k base).log = w.log ++ (evs ++ [.opened w.freeFd ino]) := by
          intro b k
          simp [entered, hevs]
        have hq : ∀ ev ∈ evs ++ [.opened w.freeFd ino], (∀ i f, ev ≠ .locked i f) ∧ ∀ i, ev ≠ .truncated i := by
          intro ev hev
          rw [List.mem_append, List.mem_singleton] at hev
          rcases hev with hev | rfl
          · obtain ⟨_, _, rfl⟩ := hcr ev hev
            exact ⟨by simp, by simp⟩
          · exact ⟨by simp, by simp⟩
        rcases hc with ⟨e, k, b, _, rfl, _⟩ | ⟨hj, n, hn, hd, ⟨e, e', k, _, _, _, rfl⟩ | ⟨k, _, _, he, _⟩⟩
        · exact ⟨fun i n hi => Enters.kept hin i n hi, _, hev b k, hq⟩
        · refine ⟨?_, closes (hev _ k) hq⟩
          intro i n hi
          rw [(closeRaw_same _ _ _ _).1]
          exact Enters.kept hin i n hi
        · cases he
    · rcases RawObj.create_fd_course hz h with ⟨e, _, _, rfl⟩ | ⟨_, ⟨e, e', k, _, rfl, _⟩ | ⟨h0, d, n, hl, hn, hc⟩⟩
      · exact ⟨Kept.rfl' w', [], by simp, by simp⟩
      · exact ⟨fun _ _ h => h, [], by simp [ticks], by simp⟩
      · rcases hc with ⟨e, e', k, c, _, rfl, _⟩ | ⟨hd, k, rfl, he⟩
        · refine ⟨?_, closes (evs0 := []) (by simp [ticks]) (by simp)⟩
          intro i n hi
          rw [(closeRaw_same _ _ _ _).1]
          exact hi
        · cases he

/-! ## C38 -/

/-- Where the opening began: at the call, or after the opener. -/
def Began (a : OpenArgs) (w w0 : Host) : Prop := w0 = w ∨ w0 = start a w

/-- C38: with `locking`, the file is truncated only while its lock is held by the new stream, and not at all if the lock
was not obtained. -/
theorem C38_order {py : Python} {a : OpenArgs} (hlk : a.locking = true) {w w' : Host} {r : Except Exn Opened}
    (h : rsopen py a w = (r, w')) : ∃ w0 evs, Began a w w0 ∧ w'.log = w0.log ++ evs ∧
      (∀ pre ino post, evs = pre ++ .truncated ino :: post → ∃ fd, .locked ino fd ∈ pre ∧ .closed fd ∉ pre ∧
        .postponed fd ∉ pre) ∧
      ((∃ ino fd, .locked ino fd ∈ evs) ∨ Kept w0 w') := by
  rcases rsopen_course h with ⟨e, _, hw⟩ | ⟨kw0, kw, ext, t, hp, hpar, hext, hc⟩
  · refine ⟨w', [], ?_, by simp, ?_, .inr (Kept.rfl' _)⟩
    · rcases hw with ⟨rfl, _⟩ | ⟨rfl, _⟩
      · exact .inl rfl
      · exact .inr rfl
    · intro pre ino post hev
      simp at hev
  · refine ⟨start a w, ?_⟩
    rcases hc with ⟨e, _, hc⟩ | ⟨raw, w1, hc, hfin⟩
    · obtain ⟨hk, evs, hev, hq⟩ := create_not_made hc
      refine ⟨evs, .inr rfl, hev, ?_, .inr hk⟩
      rintro pre ino post rfl
      exact absurd rfl ((hq (.truncated ino) (by simp)).2 ino)
    · obtain ⟨_, fd, ino, n, d, evs, k, rfl, hn, _, _, _, _, _, _, hev, hq, hk, _⟩ := create_made hc
      obtain ⟨k', l, tr, hl, htr, hfc⟩ := finish_course hfin
      have hlog : ∃ evs', w'.log = w1.log ++ ((if l then [.locked ino fd] else []) ++
            (if tr then [.truncated ino] else [])) ++ evs' ∧
          (∀ ev ∈ evs', (∃ f, ev = .closed f) ∨ ∃ f, ev = .postponed f) ∧ (tr = false → w'.nodes = w1.nodes) := by
        rcases hfc with ⟨e, _, rfl, _⟩ | ⟨_, rfl, _⟩
        · obtain ⟨evs', h1, h2⟩ := closeRaw_log (RawObj.built kw fd ino (decide (n.kind = .regular))).closefd ino fd
            (effect l tr (RawObj.built kw fd ino (decide (n.kind = .regular))) (w1.ticks k'))
          refine ⟨evs', ?_, h2, ?_⟩
          · rw [show (RawObj.built kw fd ino (decide (n.kind = .regular))).ino = ino from rfl,
              show (RawObj.built kw fd ino (decide (n.kind = .regular))).fd = fd from rfl, h1]
            simp [effect, ticks, RawObj.built]
          · intro ht
            rw [(closeRaw_same _ _ _ _).1, ht]
            rfl
        · exact ⟨[], by simp [effect, ticks, RawObj.built], by simp, fun ht => by rw [ht]; rfl⟩
      obtain ⟨evs', hlog, hcl, hno⟩ := hlog
      refine ⟨evs ++ (((if l then [.locked ino fd] else []) ++ (if tr then [.truncated ino] else [])) ++ evs'), .inr rfl,
        ?_, ?_, ?_⟩
      · rw [hlog, hev]
        simp
      · intro pre i post heq
        cases tr with
        | false =>
          exfalso
          have : OpenEv.truncated i ∈ evs ++ (((if l then [.locked ino fd] else []) ++
              (if false then [.truncated ino] else [])) ++ evs') := by rw [heq]; simp
          rw [List.mem_append, List.mem_append, List.mem_append] at this
          rcases this with h | (h | h) | h
          · rcases hq _ h with ⟨_, _, h⟩ | ⟨_, _, h⟩ <;> cases h
          · cases l <;> simp at h
          · simp at h
          · rcases hcl _ h with ⟨_, h⟩ | ⟨_, h⟩ <;> cases h
        | true =>
          have hlt : l = true := (htr rfl).2.2 hlk
          subst hlt
          simp only [if_true] at heq
          -- the only truncation is the one after the lock
          have heq' : evs ++ [.locked ino fd] ++ .truncated ino :: evs' = pre ++ .truncated i :: post := by
            rw [← heq]; simp
          rw [List.append_eq_append_iff] at heq'
          have hnot : ∀ ev ∈ evs ++ [.locked ino fd], (∀ j, ev ≠ .truncated j) ∧ (∀ j, ev ≠ .closed j) ∧
              ∀ j, ev ≠ .postponed j := by
            intro ev hm
            rw [List.mem_append, List.mem_singleton] at hm
            rcases hm with hm | rfl
            · rcases hq _ hm with ⟨_, _, rfl⟩ | ⟨_, _, rfl⟩ <;> exact ⟨by simp, by simp, by simp⟩
            · exact ⟨by simp, by simp, by simp⟩
          have hfin : pre = evs ++ [.locked ino fd] ∧ i = ino := by
            rcases heq' with ⟨c, hc1, hc2⟩ | ⟨c, hc1, hc2⟩
            · cases c with
              | nil =>
                simp at hc2
                exact ⟨by rw [hc1]; simp, hc2.1.symm⟩
              | cons x c =>
                simp only [List.cons_append, List.cons.injEq] at hc2
                have : OpenEv.truncated i ∈ evs' := by rw [hc2.2]; simp
                rcases hcl _ this with ⟨_, h⟩ | ⟨_, h⟩ <;> cases h
            · cases c with
              | nil =>
                simp at hc2
                exact ⟨by rw [hc1]; simp, hc2.1⟩
              | cons x c =>
                simp only [List.cons_append, List.cons.injEq] at hc2
                have := (hnot x (by rw [hc1]; simp)).1 i
                exact absurd hc2.1.symm this
          rw [hfin.1, hfin.2]
          exact ⟨fd, by simp, fun h => (hnot _ h).2.1 fd rfl, fun h => (hnot _ h).2.2 fd rfl⟩
      · cases l with
        | true => exact .inl ⟨ino, fd, by simp⟩
        | false =>
          right
          have : tr = false := by
            cases tr with
            | false => rfl
            | true => exact absurd ((htr rfl).2.2 hlk) (by simp)
          intro i m hi
          rw [hno this]
          exact hk i m hi

/-- C38: with `locking`, a call that returns a stream of a regular file has got the lock, and still has it. -/
theorem C38_locked {py : Python} {a : OpenArgs} (hlk : a.locking = true) {w w' : Host} {s : Opened}
    (h : rsopen py a w = (.ok s, w')) : ∃ n, w'.nodes[s.raw.ino]? = some n ∧
      (n.kind = .regular → (s.raw.ino, s.raw.fd) ∈ w'.held) := by
  rcases rsopen_course h with ⟨e, he, _⟩ | ⟨kw0, kw, ext, t, hp, hpar, hext, hc⟩
  · cases he
  rcases hc with ⟨e, he, _⟩ | ⟨raw, w1, hc, hfin⟩
  · cases he
  obtain ⟨_, fd, ino, n, d, evs, k, hraw, hn, _⟩ := create_made hc
  have hs : s.raw = raw := (finish_files hfin).2.1 s rfl
  rw [hs]
  have hino : raw.ino = ino := by rw [hraw]; rfl
  obtain ⟨k', l, tr, hl, htr, hfc⟩ := finish_course hfin
  rcases hfc with ⟨e, he, _⟩ | ⟨hlt, rfl, _⟩
  · exact absurd he.symm (closing_ne_ok _ _ _ _)
  refine ⟨if tr then erased n else n, ?_, ?_⟩
  · cases tr
    · rw [hino]; exact hn
    · simp only [effect, if_true]
      rw [List.getElem?_modify_eq, hino]
      change w1.nodes[ino]?.map _ = _
      rw [hn]
      rfl
  · intro hk
    have hk : n.kind = .regular := by cases tr <;> exact hk
    have : l = true := by rw [(hlt (by rw [hraw]; simp [RawObj.built, hk])).1, hlk]
    subst this
    simp [effect]

-- the file is erased, and locked
example : (call [102] "w").locking = true ∧ (rsopen unixPython (call [102] "w") machine).1.toBool = true ∧
    content (rsopen unixPython (call [102] "w") machine).2 [102] = some [] ∧
    (rsopen unixPython (call [102] "w") machine).2.log = [.opened 3 0, .locked 0 3, .truncated 0] := by
  refine ⟨rfl, ?_, ?_, ?_⟩ <;> decide +kernel

-- the lock is refused: the file keeps its content
example : (rsopen unixPython (call [102] "w")
      { machine with sched := [none, none, none, none, none, some (.lockingException 11)] }).1 = .error (.lockingException 11) ∧
    content (rsopen unixPython (call [102] "w")
      { machine with sched := [none, none, none, none, none, some (.lockingException 11)] }).2 [102] = some [1, 2, 3] := by
  refine ⟨?_, ?_⟩ <;> decide +kernel

end Verif.Props
