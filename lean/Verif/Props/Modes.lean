import Verif.Model.Modes

/-!
# C35, C36, C60 and the mode part of C42 and C43
-/

namespace Verif.Props

open Verif

/-- A standard mode: distinct characters of `xarw+bt`, exactly one of them in `xarw`. -/
structure StdMode (mode : List Char) : Prop where
  nodup : mode.Nodup
  chars : ∀ c ∈ mode, c ∈ ['x', 'a', 'r', 'w', '+', 'b', 't']
  one : ∃ c ∈ ['x', 'a', 'r', 'w'], c ∈ mode ∧ ∀ d ∈ ['x', 'a', 'r', 'w'], d ∈ mode → d = c

/-- An advanced mode: distinct characters of `RAW+-CNSIEBT`, not only signs. -/
structure AdvMode (mode : List Char) : Prop where
  nodup : mode.Nodup
  chars : ∀ c ∈ mode, c ∈ ['R', 'A', 'W', '+', '-', 'C', 'N', 'S', 'I', 'E', 'B', 'T']
  letter : ∃ c ∈ mode, c ≠ '+' ∧ c ≠ '-'

theorem badFlags_false {flags mode : List Char} : badFlags flags mode = false ↔ (∀ c ∈ mode, c ∈ flags) ∧ mode.Nodup := by
  simp [badFlags]

theorem map_id_iff {f : Char → Char} {s : List Char} : s.map f = s ↔ ∀ c ∈ s, f c = c := by
  induction s with
  | nil => simp
  | cons c s ih => simp [ih]

theorem filter_U {s : List Char} (h : ∀ c ∈ s, c ≠ 'U') : s.filter (· ≠ 'U') = s := by
  rw [List.filter_eq_self]
  simpa using h

/-- Standard flags are dispatched to `parse_standard_args`. -/
theorem parseMode_std (py : Python) (name : NameArg) {mode : List Char} (h : ∀ c ∈ mode, c ∈ stdFlags py.hasU)
    (fileno handle : Option Int) (closefd : Bool) :
    parseMode py name mode fileno handle closefd = parseStandard py name mode fileno handle closefd := by
  unfold parseMode
  have hall : ∀ c ∈ stdFlags true, c ≠ 'U' → c.toNat < 128 ∧ c.toLower = c := by decide
  have hsub : ∀ c ∈ mode.filter (· ≠ 'U'), c.toNat < 128 ∧ c.toLower = c := by
    intro c hc
    simp only [ne_eq, decide_not, List.mem_filter, Bool.not_eq_eq_eq_not, Bool.not_true, decide_eq_false_iff_not] at hc
    refine hall c ?_ hc.2
    have := h c hc.1
    unfold stdFlags at *
    cases py.hasU <;> simp_all
  rw [if_pos]
  rw [py.caseMap.lower_ascii _ fun c hc => (hsub c hc).1, map_id_iff]
  exact fun c hc => (hsub c hc).2

/-- Advanced flags with a letter are dispatched to `parse_advanced_args`. -/
theorem parseMode_adv (py : Python) (name : NameArg) {mode : List Char} (h : ∀ c ∈ mode, c ∈ advFlags)
    (hl : ∃ c ∈ mode, c ≠ '+' ∧ c ≠ '-') (fileno handle : Option Int) (closefd : Bool) :
    parseMode py name mode fileno handle closefd = parseAdvanced name mode fileno handle closefd := by
  have hall : ∀ c ∈ advFlags, c.toNat < 128 ∧ c.toUpper = c ∧ c ≠ 'U' ∧ (c.toLower = c → c = '+' ∨ c = '-') := by decide
  unfold parseMode
  rw [filter_U fun c hc => (hall c (h c hc)).2.2.1]
  have hascii : ∀ c ∈ mode, c.toNat < 128 := fun c hc => (hall c (h c hc)).1
  dsimp only
  rw [if_neg, if_pos]
  · rw [py.caseMap.upper_ascii _ hascii, map_id_iff]
    exact fun c hc => (hall c (h c hc)).2.1
  · rw [py.caseMap.lower_ascii _ hascii, map_id_iff]
    obtain ⟨c, hc, h1, h2⟩ := hl
    intro hlow
    rcases (hall c (h c hc)).2.2.2 (hlow c hc) with h3 | h3
    · exact h1 h3
    · exact h2 h3

theorem parseStandard_flags {py : Python} {name : NameArg} {mode : List Char} {fileno handle : Option Int} {closefd : Bool}
    (h : ¬ ((∀ c ∈ mode, c ∈ stdFlags py.hasU) ∧ mode.Nodup)) :
    parseStandard py name mode fileno handle closefd = .error .badValueType := by
  unfold parseStandard
  have : badFlags (stdFlags py.hasU) mode = true := by
    cases hb : badFlags (stdFlags py.hasU) mode with
    | true => rfl
    | false => exact absurd (badFlags_false.1 hb) h
  simp [this]

theorem parseAdvanced_flags {name : NameArg} {mode : List Char} {fileno handle : Option Int} {closefd : Bool}
    (h : ¬ ((∀ c ∈ mode, c ∈ advFlags) ∧ mode.Nodup)) :
    parseAdvanced name mode fileno handle closefd = .error .badValueType := by
  unfold parseAdvanced
  have : badFlags advFlags mode = true := by
    cases hb : badFlags advFlags mode with
    | true => rfl
    | false => exact absurd (badFlags_false.1 hb) h
  simp [this]

/-- What is in neither language is rejected. -/
theorem parseMode_reject {py : Python} {name : NameArg} {mode : List Char} {fileno handle : Option Int} {closefd : Bool}
    (h1 : ¬ ((∀ c ∈ mode, c ∈ stdFlags py.hasU) ∧ mode.Nodup)) (h2 : ¬ ((∀ c ∈ mode, c ∈ advFlags) ∧ mode.Nodup)) :
    parseMode py name mode fileno handle closefd = .error .badValueType := by
  unfold parseMode
  dsimp only
  rw [parseStandard_flags h1, parseAdvanced_flags h2]
  split
  · rfl
  · split <;> rfl

/-- Only signs: standard, and rejected. -/
theorem parseMode_signs {py : Python} {name : NameArg} {mode : List Char} {fileno handle : Option Int} {closefd : Bool}
    (h : ∀ c ∈ mode, c = '+' ∨ c = '-') : parseMode py name mode fileno handle closefd = .error .badValueType := by
  have hc : ∀ c ∈ mode, c.toNat < 128 ∧ c.toLower = c ∧ c ≠ 'U' := by
    intro c hc
    rcases h c hc with rfl | rfl <;> decide
  unfold parseMode
  rw [filter_U fun c h => (hc c h).2.2]
  dsimp only
  rw [if_pos (by rw [py.caseMap.lower_ascii _ fun c h => (hc c h).1, map_id_iff]; exact fun c h => (hc c h).2.1)]
  have hno : ∀ d, d ≠ '+' → d ≠ '-' → mode.contains d = false := by
    intro d h1 h2
    rw [List.contains_eq_mem, decide_eq_false_iff_not]
    intro hd
    rcases h d hd with h3 | h3
    · exact h1 h3
    · exact h2 h3
  unfold parseStandard
  simp only [hno 'x' (by decide) (by decide), hno 'r' (by decide) (by decide), hno 'U' (by decide) (by decide),
    hno 'w' (by decide) (by decide), hno 'a' (by decide) (by decide)]
  split
  · rfl
  · rfl

/-- The documented flags of a standard mode. -/
theorem parseStandard_ok {py : Python} (hu : py.hasU = false) {name : NameArg} (hn : name = .none ∨ ∃ p, name = .path p)
    {mode : List Char} {fileno handle : Option Int} {closefd : Bool} :
    (∃ r, parseStandard py name mode fileno handle closefd = .ok r) ↔ StdMode mode := by
  have hflags : stdFlags py.hasU = ['x', 'a', 'r', 'w', '+', 'b', 't'] := by rw [hu]; rfl
  constructor
  · intro h
    by_cases hb : (∀ c ∈ mode, c ∈ stdFlags py.hasU) ∧ mode.Nodup
    · refine ⟨hb.2, by rw [← hflags]; exact hb.1, ?_⟩
      have hU : mode.contains 'U' = false := by
        rw [List.contains_eq_mem, decide_eq_false_iff_not]
        intro hU
        have := hb.1 _ hU
        rw [hflags] at this
        exact absurd this (by decide)
      by_cases hcount : (mode.contains 'x').toNat + (mode.contains 'r').toNat + (mode.contains 'w').toNat +
          (mode.contains 'a').toNat = 1
      · simp only [List.contains_eq_mem] at hcount
        simp only [List.mem_cons, List.not_mem_nil, or_false, exists_eq_or_imp, exists_eq_left]
        by_cases hx : 'x' ∈ mode <;> by_cases hr : 'r' ∈ mode <;> by_cases hw : 'w' ∈ mode <;> by_cases ha : 'a' ∈ mode <;>
          simp [hx, hr, hw, ha] at hcount ⊢
      · unfold parseStandard at h
        simp only [hU, Bool.or_false] at h
        obtain ⟨r, hr⟩ := h
        split at hr
        · cases hr
        · simp only [Bool.false_and, Bool.false_eq_true, if_false] at hr
          cases hr
    · rw [parseStandard_flags hb] at h
      obtain ⟨r, hr⟩ := h
      cases hr
  · intro h
    have hb : badFlags (stdFlags py.hasU) mode = false := badFlags_false.2 ⟨by rw [hflags]; exact h.chars, h.nodup⟩
    have hU : mode.contains 'U' = false := by
      rw [List.contains_eq_mem, decide_eq_false_iff_not]
      exact fun hU => absurd (h.chars _ hU) (by decide)
    have hcount : (mode.contains 'x').toNat + (mode.contains 'r').toNat + (mode.contains 'w').toNat +
        (mode.contains 'a').toNat = 1 := by
      obtain ⟨c, hc, hm, hone⟩ := h.one
      simp only [List.contains_eq_mem]
      simp only [List.mem_cons, List.not_mem_nil, or_false, forall_eq_or_imp, forall_eq] at hc hone
      rcases hc with rfl | rfl | rfl | rfl <;> simp_all [show ('x' : Char) ≠ 'a' by decide]
    have hne : mode ≠ [] := by
      obtain ⟨c, _, hm, _⟩ := h.one
      rintro rfl
      cases hm
    unfold parseStandard
    simp only [hb, hU, hcount, Bool.or_false, Bool.false_and]
    rcases hn with rfl | ⟨p, rfl⟩ <;> simp [hne]

/-- C35: what `rsopen` accepts as a mode (python 3.11 and later, where there is no "U" flag). -/
theorem C35_accepted (py : Python) (hu : py.hasU = false) {name : NameArg} (hn : name = .none ∨ ∃ p, name = .path p)
    (mode : List Char) (fileno handle : Option Int) (closefd : Bool) :
    (∃ r, parseMode py name mode fileno handle closefd = .ok r) ↔ StdMode mode ∨ AdvMode mode := by
  have hflags : stdFlags py.hasU = ['x', 'a', 'r', 'w', '+', 'b', 't'] := by rw [hu]; rfl
  by_cases h1 : (∀ c ∈ mode, c ∈ stdFlags py.hasU) ∧ mode.Nodup
  · rw [parseMode_std py name h1.1, parseStandard_ok hu hn]
    refine ⟨Or.inl, fun h => h.elim id fun ha => ?_⟩
    obtain ⟨c, hc, h2, h3⟩ := ha.letter
    have g1 := h1.1 c hc
    have g2 := ha.chars c hc
    rw [hflags] at g1
    have : ∀ c ∈ ['x', 'a', 'r', 'w', '+', 'b', 't'], c ≠ '+' →
        c ∉ ['R', 'A', 'W', '+', '-', 'C', 'N', 'S', 'I', 'E', 'B', 'T'] := by decide
    exact absurd g2 (this c g1 h2)
  · have hnot : ¬ StdMode mode := fun h => h1 ⟨by rw [hflags]; exact h.chars, h.nodup⟩
    by_cases h2 : (∀ c ∈ mode, c ∈ advFlags) ∧ mode.Nodup
    · by_cases hl : ∃ c ∈ mode, c ≠ '+' ∧ c ≠ '-'
      · rw [parseMode_adv py name h2.1 hl]
        refine ⟨fun _ => Or.inr ⟨h2.2, h2.1, hl⟩, fun _ => ?_⟩
        unfold parseAdvanced
        rw [badFlags_false.2 h2]
        simp
      · rw [parseMode_signs (by
          intro c hc
          by_cases h : c = '+'
          · exact Or.inl h
          · exact Or.inr (Classical.byContradiction fun h' => hl ⟨c, hc, h, h'⟩))]
        refine ⟨fun ⟨r, hr⟩ => (by cases hr), fun h => ?_⟩
        rcases h with h | h
        · exact absurd h hnot
        · exact absurd h.letter hl
    · rw [parseMode_reject h1 h2]
      refine ⟨fun ⟨r, hr⟩ => (by cases hr), fun h => ?_⟩
      rcases h with h | h
      · exact absurd h hnot
      · exact absurd ⟨h.chars, h.nodup⟩ h2

example : StdMode ['+', 't', 'w'] := ⟨by decide, by decide, 'w', by decide, by decide, by decide⟩
example : AdvMode ['R', '+', 'A', 'B'] := ⟨by decide, by decide, 'R', by decide, by decide, by decide⟩
example : ¬ StdMode ['r', 'w'] ∧ ¬ AdvMode ['r', 'W'] ∧ ¬ AdvMode ['+'] :=
  ⟨fun h => by
      obtain ⟨c, _, _, h⟩ := h.one
      have h1 := h 'r' (by decide) (by decide)
      have h2 := h 'w' (by decide) (by decide)
      rw [← h1] at h2
      exact absurd h2 (by decide),
    fun h => absurd (h.chars 'r' (by decide)) (by decide),
    fun h => by
      obtain ⟨c, hc, h1, _⟩ := h.letter
      simp at hc
      exact h1 hc⟩

theorem contains_perm {m m' : List Char} (h : m.Perm m') : (fun c => m.contains c) = fun c => m'.contains c := by
  funext c
  simp only [List.contains_eq_mem, h.mem_iff]

theorem badFlags_perm {flags m m' : List Char} (h : m.Perm m') : badFlags flags m = badFlags flags m' := by
  rw [Bool.eq_iff_iff]
  constructor <;> intro hb
  all_goals
    rw [← Bool.not_eq_false] at hb ⊢
    intro hf
    refine hb ?_
    rw [badFlags_false] at hf ⊢
    exact ⟨fun c hc => hf.1 c (by simpa [h.mem_iff] using hc), by simpa [h.nodup_iff] using hf.2⟩

theorem parseStandard_perm {py : Python} {name : NameArg} {m m' : List Char} (h : m.Perm m') {fileno handle : Option Int}
    {closefd : Bool} : parseStandard py name m fileno handle closefd = parseStandard py name m' fileno handle closefd := by
  have hc := contains_perm h
  have hnil : m = [] ↔ m' = [] := by
    constructor
    · rintro rfl; exact h.nil_eq.symm
    · rintro rfl; exact h.eq_nil
  unfold parseStandard
  simp only [badFlags_perm h, hnil, congrFun hc]

theorem parseAdvanced_perm {name : NameArg} {m m' : List Char} (h : m.Perm m') {fileno handle : Option Int} {closefd : Bool} :
    parseAdvanced name m fileno handle closefd = parseAdvanced name m' fileno handle closefd := by
  have hc := contains_perm h
  unfold parseAdvanced
  simp only [badFlags_perm h, congrFun hc]

/-- C35: the order of the flags is irrelevant. -/
theorem C35_order (py : Python) (name : NameArg) {m m' : List Char} (h : m.Perm m') (fileno handle : Option Int)
    (closefd : Bool) : parseMode py name m fileno handle closefd = parseMode py name m' fileno handle closefd := by
  have hmem : ∀ c, c ∈ m ↔ c ∈ m' := fun c => h.mem_iff
  by_cases h1 : (∀ c ∈ m, c ∈ stdFlags py.hasU) ∧ m.Nodup
  · rw [parseMode_std py name h1.1, parseMode_std py name fun c hc => h1.1 c ((hmem c).2 hc)]
    exact parseStandard_perm h
  · have h1' : ¬ ((∀ c ∈ m', c ∈ stdFlags py.hasU) ∧ m'.Nodup) := by
      rwa [← h.nodup_iff, ← (forall_congr' fun c => by rw [hmem c] : (∀ c, c ∈ m → c ∈ stdFlags py.hasU) ↔ _)]
    by_cases h2 : (∀ c ∈ m, c ∈ advFlags) ∧ m.Nodup
    · have h2' : ∀ c ∈ m', c ∈ advFlags := fun c hc => h2.1 c ((hmem c).2 hc)
      by_cases hl : ∃ c ∈ m, c ≠ '+' ∧ c ≠ '-'
      · have hl' : ∃ c ∈ m', c ≠ '+' ∧ c ≠ '-' := by
          obtain ⟨c, hc, h⟩ := hl
          exact ⟨c, (hmem c).1 hc, h⟩
        rw [parseMode_adv py name h2.1 hl, parseMode_adv py name h2' hl']
        exact parseAdvanced_perm h
      · have hs : ∀ c ∈ m, c = '+' ∨ c = '-' := by
          intro c hc
          by_cases h : c = '+'
          · exact Or.inl h
          · exact Or.inr (Classical.byContradiction fun h' => hl ⟨c, hc, h, h'⟩)
        rw [parseMode_signs hs, parseMode_signs fun c hc => hs c ((hmem c).2 hc)]
    · have h2' : ¬ ((∀ c ∈ m', c ∈ advFlags) ∧ m'.Nodup) := by
        rwa [← h.nodup_iff, ← (forall_congr' fun c => by rw [hmem c] : (∀ c, c ∈ m → c ∈ advFlags) ↔ _)]
      rw [parseMode_reject h1 h2, parseMode_reject h1' h2']

/-- C35: with python older than 3.11 the flag "U" is one more way to ask for reading, only. -/
theorem C35_universal (py : Python) (hu : py.hasU = true) {name : NameArg} (hn : name = .none ∨ ∃ p, name = .path p)
    (mode : List Char) (hm : 'U' ∈ mode) (fileno handle : Option Int) (closefd : Bool) :
    (∃ r, parseMode py name mode fileno handle closefd = .ok r) ↔
      mode.Nodup ∧ ∀ c ∈ mode, c ∈ ['r', 'b', 't', 'U'] := by
  have hflags : stdFlags py.hasU = ['x', 'a', 'r', 'w', '+', 'b', 't', 'U'] := by rw [hu]; rfl
  have hU : mode.contains 'U' = true := by rw [List.contains_eq_mem]; simpa using hm
  have hadv : ¬ ((∀ c ∈ mode, c ∈ advFlags) ∧ mode.Nodup) := fun h => absurd (h.1 _ hm) (by decide)
  by_cases h1 : (∀ c ∈ mode, c ∈ stdFlags py.hasU) ∧ mode.Nodup
  · rw [parseMode_std py name h1.1]
    have hbad := badFlags_false.2 h1
    have hne : mode ≠ [] := by rintro rfl; cases hm
    have h2 := h1.1
    rw [hflags] at h2
    simp only [List.mem_cons, List.not_mem_nil, or_false] at h2 ⊢
    by_cases hw : (mode.contains 'x' || mode.contains 'w' || mode.contains 'a' || mode.contains '+') = true
    · have : parseStandard py name mode fileno handle closefd = .error .badValueType := by
        unfold parseStandard
        simp only [hbad, hU, hw, hne]
        rfl
      rw [this]
      refine ⟨fun ⟨r, hr⟩ => (by cases hr), fun h => ?_⟩
      simp only [List.contains_eq_mem, Bool.or_eq_true, decide_eq_true_eq] at hw
      rcases hw with ((hw | hw) | hw) | hw <;> exact absurd (h.2 _ hw) (by decide)
    · rw [Bool.not_eq_true] at hw
      have hw' := hw
      simp only [List.contains_eq_mem, Bool.or_eq_false_iff, decide_eq_false_iff_not] at hw'
      obtain ⟨⟨⟨hx, hw1⟩, ha⟩, hp⟩ := hw'
      refine ⟨fun _ => ⟨h1.2, fun c hc => ?_⟩, fun _ => ?_⟩
      · rcases h2 c hc with rfl | rfl | rfl | rfl | rfl | rfl | rfl | rfl <;> simp_all
      · unfold parseStandard
        have hx' : mode.contains 'x' = false := by simp [hx]
        have hw1' : mode.contains 'w' = false := by simp [hw1]
        have ha' : mode.contains 'a' = false := by simp [ha]
        have hp' : mode.contains '+' = false := by simp [hp]
        simp only [hbad, hU, hx', hw1', ha', hp', hne]
        rcases hn with rfl | ⟨p, rfl⟩ <;> simp
  · rw [parseMode_reject h1 hadv]
    refine ⟨fun ⟨r, hr⟩ => (by cases hr), fun h => absurd ⟨fun c hc => ?_, h.1⟩ h1⟩
    have : ∀ c ∈ ['r', 'b', 't', 'U'], c ∈ ['x', 'a', 'r', 'w', '+', 'b', 't', 'U'] := by decide
    rw [hflags]
    exact this c (h.2 c hc)

/-! ## C36 -/

/-- A row of the documented table: standard mode, advanced mode, read, write, append, must_create, must_not_create,
truncate. -/
structure Row where
  std : List Char
  adv : List Char
  read : Bool
  write : Bool
  append : Bool
  mustCreate : Bool
  mustNotCreate : Bool
  truncate : Bool

/-- The table of the documentation, `rsfile_factories.py:192-203`. -/
def documented : List Row := [
  ⟨['r'], ['R', 'N'], true, false, false, false, true, false⟩,
  ⟨['r', '+'], ['R', 'W', 'N'], true, true, false, false, true, false⟩,
  ⟨['w'], ['W', 'E'], false, true, false, false, false, true⟩,
  ⟨['w', '+'], ['R', 'W', 'E'], true, true, false, false, false, true⟩,
  ⟨['a'], ['A'], false, true, true, false, false, false⟩,
  ⟨['a', '+'], ['R', 'A'], true, true, true, false, false, false⟩,
  ⟨['x'], ['W', 'C'], false, true, false, true, false, false⟩,
  ⟨['x', '+'], ['R', 'W', 'C'], true, true, false, true, false, false⟩]

/-- The flags for the layer: default, binary, text. -/
def layers : List (List Char × List Char × Bool × Bool) :=
  [([], [], false, false), (['b'], ['B'], true, false), (['t'], ['T'], false, true)]

/-- C36: both modes of a row, in any order and with any flag for the layer, give the attributes of the row. -/
theorem C36_equivalent (py : Python) {row : Row} (hr : row ∈ documented) {l : List Char × List Char × Bool × Bool}
    (hl : l ∈ layers) {m m' : List Char} (hm : m.Perm (row.std ++ l.1)) (hm' : m'.Perm (row.adv ++ l.2.1)) {name : NameArg}
    (hn : name = .none ∨ ∃ p, name = .path p) (fileno handle : Option Int) (closefd : Bool) :
    parseMode py name m fileno handle closefd =
      .ok (⟨name, row.read, row.write, row.append, row.mustCreate, row.mustNotCreate, false, false, fileno, handle, closefd⟩,
        ⟨row.truncate, l.2.2.1, l.2.2.2⟩) ∧
    parseMode py name m' fileno handle closefd = parseMode py name m fileno handle closefd := by
  rw [C35_order py name hm, C35_order py name hm']
  have hstd : ∀ row ∈ documented, ∀ l ∈ layers, ∀ c ∈ row.std ++ l.1, c ∈ stdFlags false := by decide
  have hadv : ∀ row ∈ documented, ∀ l ∈ layers, (∀ c ∈ row.adv ++ l.2.1, c ∈ advFlags) ∧
      ∃ c ∈ row.adv ++ l.2.1, c ≠ '+' ∧ c ≠ '-' := by decide
  have hstd' : ∀ c ∈ row.std ++ l.1, c ∈ stdFlags py.hasU := by
    intro c hc
    have := hstd row hr l hl c hc
    unfold stdFlags at *
    simp at this ⊢
    rcases this with h | h | h | h | h | h | h <;> simp [h]
  rw [parseMode_std py name hstd', parseMode_adv py name (hadv row hr l hl).1 (hadv row hr l hl).2]
  have hbad : badFlags (stdFlags py.hasU) (row.std ++ l.1) = false := by
    rw [badFlags_false]
    refine ⟨hstd', ?_⟩
    have : ∀ row ∈ documented, ∀ l ∈ layers, (row.std ++ l.1).Nodup := by decide
    exact this row hr l hl
  unfold parseStandard parseAdvanced
  simp only [hbad]
  simp only [documented, layers, List.mem_cons, List.not_mem_nil, or_false] at hr hl
  rcases hr with rfl | rfl | rfl | rfl | rfl | rfl | rfl | rfl <;> rcases hl with rfl | rfl | rfl <;>
    rcases hn with rfl | ⟨p, rfl⟩ <;> exact ⟨rfl, rfl⟩

example : (['t', '+', 'a'] : List Char).Perm (['a', '+'] ++ ['t']) := by decide

/-! ## C42 and C43: what the mode asks for -/

/-- A successful parse. -/
theorem parseMode_cases {py : Python} {name : NameArg} {mode : List Char} {fileno handle : Option Int} {closefd : Bool}
    {r : RawKw × ExtKw} (h : parseMode py name mode fileno handle closefd = .ok r) :
    (r.1.inheritable = true ↔ 'I' ∈ mode) ∧ (r.1.synchronized = true ↔ 'S' ∈ mode) ∧
      (r.2.truncate = true → r.1.mustCreate = false ∧ ('w' ∈ mode ∨ 'E' ∈ mode)) := by
  unfold parseMode at h
  dsimp only at h
  split at h
  · by_cases hb : (∀ c ∈ mode, c ∈ stdFlags py.hasU) ∧ mode.Nodup
    · have hI : 'I' ∉ mode := fun hI => by
        have := hb.1 _ hI
        unfold stdFlags at this
        cases py.hasU <;> simp at this
      have hS : 'S' ∉ mode := fun hI => by
        have := hb.1 _ hI
        unfold stdFlags at this
        cases py.hasU <;> simp at this
      unfold parseStandard at h
      dsimp only at h
      repeat' split at h
      all_goals first | (cases h; done) | skip
      all_goals
        cases h
        simp only [hI, hS, List.contains_eq_mem, Bool.and_eq_true, decide_eq_true_eq, Bool.not_eq_true',
          decide_eq_false_iff_not, Bool.false_eq_true]
        exact ⟨trivial, trivial, fun h => ⟨h.2, Or.inl h.1⟩⟩
    · rw [parseStandard_flags hb] at h; cases h
  · split at h
    · unfold parseAdvanced at h
      dsimp only at h
      split at h
      · cases h
      · cases h
        simp only [List.contains_eq_mem, Bool.and_eq_true, decide_eq_true_eq, Bool.not_eq_true']
        exact ⟨trivial, trivial, fun h => ⟨h.2, Or.inr h.1⟩⟩
    · cases h

/-! ## C60: the `mode` attribute -/

/-- C60: the values of `mode`. -/
theorem C60_values (readable writable append mustCreate : Bool) :
    String.ofList (modeAttr readable writable append mustCreate) ∈ ["rb", "rb+", "wb", "ab", "ab+", "xb", "xb+"] := by
  cases readable <;> cases writable <;> cases append <;> cases mustCreate <;> decide

/-- C60: the first letter. -/
theorem C60_letter (readable writable append mustCreate : Bool) :
    ((modeAttr readable writable append mustCreate).head? = some 'a' ↔ append = true ∧ mustCreate = false) ∧
    ((modeAttr readable writable append mustCreate).head? = some 'x' ↔ mustCreate = true) := by
  cases readable <;> cases writable <;> cases append <;> cases mustCreate <;> decide

/-- C60: opening with the value of `mode` gives the same access rights.
Missing: streams opened for reading only that had to be created ("RC"), for which it is false (`C60_refuted`). -/
theorem C60_reopen_partial (py : Python) (readable writable append mustCreate : Bool) (h1 : readable || writable)
    (h2 : append → writable) (h3 : mustCreate → writable) (p : Bytes) :
    ∃ r, parseMode py (.path p) (modeAttr readable writable append mustCreate) none none true = .ok r ∧
      r.1.read = readable ∧ r.1.write = writable := by
  have hstd : ∀ a b c d : Bool, (∀ x ∈ modeAttr a b c d, x ∈ stdFlags false) ∧ (modeAttr a b c d).Nodup ∧
      modeAttr a b c d ≠ [] := by decide
  have hsub : ∀ x ∈ modeAttr readable writable append mustCreate, x ∈ stdFlags py.hasU := by
    intro c hc
    have := (hstd _ _ _ _).1 c hc
    unfold stdFlags at *
    simp at this ⊢
    rcases this with h | h | h | h | h | h | h <;> simp [h]
  rw [parseMode_std py _ hsub]
  have hbad := badFlags_false.2 ⟨hsub, (hstd readable writable append mustCreate).2.1⟩
  unfold parseStandard
  simp only [hbad]
  revert h1 h2 h3
  cases readable <;> cases writable <;> cases append <;> cases mustCreate <;>
    first
    | (intro h1 h2 h3; simp at h1 h2 h3; done)
    | (intro _ _ _; exact ⟨_, rfl, rfl, rfl⟩)

example : (true || false) = true ∧ modeAttr true true true false = ['a', 'b', '+'] := by decide

/-- The claim of C60 without the restriction. -/
def ReopenAlways : Prop :=
  ∀ (py : Python) (readable writable append mustCreate : Bool), (readable || writable) → (append → writable) →
    ∀ p : Bytes, ∃ r, parseMode py (.path p) (modeAttr readable writable append mustCreate) none none true = .ok r ∧
      r.1.read = readable ∧ r.1.write = writable

/-- `str.lower` and `str.upper` of a python without other letters. -/
def asciiCase : CaseMap := ⟨List.map Char.toLower, List.map Char.toUpper, fun _ _ => rfl, fun _ _ => rfl⟩

/-- A current python on unix. -/
def unixPython : Python := ⟨asciiCase, false, true⟩

/-- "RC" gives a stream for reading. -/
example (p : Bytes) : ∃ r, parseMode unixPython (.path p) ['R', 'C'] none none true = .ok r ∧ r.1.read = true ∧
    r.1.write = false ∧ r.1.mustCreate = true := ⟨_, rfl, rfl, rfl, rfl⟩

/-- C60 is false: a stream opened with "RC" is readable and not writable, and says "xb". -/
theorem C60_refuted : ¬ ReopenAlways := by
  intro h
  obtain ⟨r, h1, h2, _⟩ := h unixPython true false false true rfl (by simp) []
  have : parseMode unixPython (.path []) (modeAttr true false false true) none none true =
      .ok (⟨.path [], false, true, false, true, false, false, false, none, none, true⟩, ⟨false, true, false⟩) := by rfl
  rw [this] at h1
  cases h1
  cases h2

end Verif.Props
