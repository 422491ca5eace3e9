import Verif.Spec.TextFile

/-!
# The search for the end of a line
-/

set_option autoImplicit false

namespace Verif.Txt

open Verif.Spec

theorem find_one (c d : Nat) (cs : Text) :
    find [d] (c :: cs) = if c = d then some 0 else (find [d] cs).map (· + 1) := by
  conv => lhs; unfold find
  by_cases h : c = d
  · subst h; simp
  · rw [if_neg h, if_neg]
    rintro ⟨t, ht⟩
    simp at ht
    exact h ht.1.symm

theorem find_nil (c : Nat) (cs : Text) : find (c :: cs) [] = none := by simp [find]

/-- The end of the first line, character by character. -/
theorem lineEnd_cons (nl : Newline) (c : Nat) (cs : Text) :
    lineEnd nl (c :: cs) =
      if terminator nl (c :: cs) = 0 then (lineEnd nl cs).map (· + 1) else some (terminator nl (c :: cs)) := by
  cases nl with
  | auto =>
    simp only [lineEnd, Newline.translate, if_true, find_one]
    by_cases h : c = 10
    · subst h; rfl
    · have : terminator .auto (c :: cs) = 0 := by
        unfold terminator
        split <;> simp_all
      rw [if_neg h, if_pos this]
  | lf =>
    simp only [lineEnd, Newline.translate, Newline.universal, Newline.readnl, Bool.false_eq_true, if_false, find_one]
    by_cases h : c = 10
    · subst h; rfl
    · have : terminator .lf (c :: cs) = 0 := by
        unfold terminator
        split <;> simp_all
      rw [if_neg h, if_pos this]
      cases find [10] cs <;> rfl
  | cr =>
    simp only [lineEnd, Newline.translate, Newline.universal, Newline.readnl, Bool.false_eq_true, if_false, find_one]
    by_cases h : c = 13
    · subst h; rfl
    · have : terminator .cr (c :: cs) = 0 := by
        unfold terminator
        split <;> simp_all
      rw [if_neg h, if_pos this]
      cases find [13] cs <;> rfl
  | crlf =>
    simp only [lineEnd, Newline.translate, Newline.universal, Newline.readnl, Bool.false_eq_true, if_false]
    by_cases h : [13, 10] <+: c :: cs
    · obtain ⟨t, ht⟩ := h
      simp at ht
      obtain ⟨rfl, rfl⟩ := ht
      have : find [13, 10] (13 :: 10 :: t) = some 0 := by
        unfold find; rw [if_pos ⟨t, rfl⟩]
      rw [this]; rfl
    · have h1 : find [13, 10] (c :: cs) = (find [13, 10] cs).map (· + 1) := by
        conv => lhs; unfold find
        rw [if_neg h]
      have h2 : terminator .crlf (c :: cs) = 0 := by
        unfold terminator
        split <;> simp_all
      rw [h1, if_pos h2]
      cases find [13, 10] cs with
      | none => rfl
      | some n => simp
  | raw =>
    simp only [lineEnd, Newline.translate, Newline.universal, Bool.false_eq_true, if_false, if_true, find_one]
    by_cases h10 : c = 10
    · subst h10
      have : terminator .raw (10 :: cs) = 1 := rfl
      simp only [this, if_true, Nat.reduceEqDiff, if_false]
      cases find [13] cs <;> simp
    · by_cases h13 : c = 13
      · subst h13
        simp only [Nat.reduceEqDiff, if_true, if_false]
        cases cs with
        | nil => simp [find_nil, terminator]
        | cons d ds =>
          rw [find_one]
          by_cases hd : d = 10
          · subst hd
            simp [terminator]
          · have : terminator .raw (13 :: d :: ds) = 1 := by
              unfold terminator
              split <;> simp_all
            simp only [this, hd, if_false, Nat.reduceEqDiff]
            cases find [10] ds with
            | none => simp
            | some k => simp
      · have : terminator .raw (c :: cs) = 0 := by
          unfold terminator
          split <;> simp_all
        simp only [this, if_true, h10, h13, if_false]
        cases h1 : find [10] cs with
        | none =>
          cases h2 : find [13] cs with
          | none => rfl
          | some k => rfl
        | some n =>
          cases h2 : find [13] cs with
          | none => rfl
          | some k =>
            simp only [Option.map_some]
            by_cases h3 : n < k
            · rw [if_pos (by omega), if_pos h3]; rfl
            · rw [if_neg (by omega), if_neg h3]
              by_cases h4 : n = k + 1
              · rw [if_pos (by omega), if_pos h4]; rfl
              · rw [if_neg (by omega), if_neg h4]; rfl

theorem lineEnd_nil (nl : Newline) : lineEnd nl [] = none := by
  cases nl <;> simp [lineEnd, find, Newline.translate, Newline.universal, Newline.readnl]

theorem terminator_append {nl : Newline} {c : Nat} {cs more : Text} (h : terminator nl (c :: cs) ≠ 0)
    (hcr : nl = .raw → (c :: cs).getLast? = some 13 → more.head? ≠ some 10) :
    terminator nl (c :: cs ++ more) = terminator nl (c :: cs) ∧ terminator nl (c :: cs) ≤ (c :: cs).length := by
  unfold terminator at h
  split at h
  · rename_i heq; cases heq; exact ⟨rfl, by simp [terminator]⟩
  · rename_i heq; cases heq; exact ⟨rfl, by simp [terminator]⟩
  · rename_i heq; cases heq; exact ⟨rfl, by simp [terminator]⟩
  · rename_i heq; cases heq; exact ⟨rfl, by simp [terminator]⟩
  · rename_i heq; cases heq; exact ⟨rfl, by simp [terminator]⟩
  · rename_i hn heq
    cases heq
    have e1 : terminator .raw (13 :: cs) = 1 := by
      unfold terminator
      split <;> simp_all
    have e2 : terminator .raw (13 :: cs ++ more) = 1 := by
      cases cs with
      | nil =>
        have := hcr rfl rfl
        unfold terminator
        split <;> simp_all
      | cons d ds =>
        unfold terminator
        split <;> simp_all
    rw [e1, e2]
    exact ⟨rfl, by simp⟩
  · rename_i heq; cases heq; exact ⟨rfl, by simp [terminator]⟩
  · exact absurd rfl h

theorem terminator_two (nl : Newline) (c d : Nat) (xs ys : Text) :
    terminator nl (c :: d :: xs) = terminator nl (c :: d :: ys) := by
  by_cases h : c = 13 ∧ d = 10
  · obtain ⟨rfl, rfl⟩ := h
    cases nl <;> rfl
  · unfold terminator
    cases nl
    all_goals
      split <;> split <;> first
        | rfl
        | (exfalso; simp_all; done)
        | (exfalso; rename_i heq; cases heq; simp_all; done)

theorem terminator_zero {nl : Newline} {c : Nat} {cs more : Text} (h : terminator nl (c :: cs) = 0)
    (h' : terminator nl (c :: cs ++ more) ≠ 0) : cs = [] ∧ terminator nl (c :: more) = 2 := by
  cases cs with
  | nil =>
    refine ⟨rfl, ?_⟩
    change terminator nl (c :: more) ≠ 0 at h'
    unfold terminator at h'
    split at h' <;> simp_all [terminator]
  | cons d ds =>
    exfalso
    exact h' ((terminator_two nl c d (ds ++ more) ds).trans h)

/-- If the end of the line is found, it is the first line, whatever follows. -/
theorem lineEnd_some {nl : Newline} : ∀ {line : Text} {e : Nat}, lineEnd nl line = some e → ∀ {more : Text},
    (nl = .raw → line.getLast? = some 13 → more.head? ≠ some 10) →
    e ≤ line.length ∧ firstLine nl (line ++ more) = line.take e := by
  intro line
  induction line with
  | nil => intro e h; rw [lineEnd_nil] at h; cases h
  | cons c cs ih =>
    intro e h more hcr
    rw [lineEnd_cons] at h
    by_cases ht : terminator nl (c :: cs) = 0
    · rw [if_pos ht] at h
      cases h1 : lineEnd nl cs with
      | none => rw [h1] at h; cases h
      | some k =>
        rw [h1] at h
        cases h
        have hne : cs ≠ [] := by rintro rfl; rw [lineEnd_nil] at h1; cases h1
        obtain ⟨h2, h3⟩ := ih h1 (more := more) (fun hr hl => hcr hr (by
          rw [← hl]; cases cs with
          | nil => exact absurd rfl hne
          | cons d ds => simp))
        refine ⟨by simp; exact h2, ?_⟩
        have : terminator nl (c :: cs ++ more) = 0 :=
          Classical.byContradiction fun hn => hne (terminator_zero ht hn).1
        rw [List.cons_append] at this ⊢
        rw [firstLine, if_pos this, h3]
        rfl
    · rw [if_neg ht] at h
      cases h
      obtain ⟨h1, h2⟩ := terminator_append (more := more) ht hcr
      refine ⟨h2, ?_⟩
      rw [List.cons_append] at h1 ⊢
      rw [firstLine, h1, if_neg ht, ← List.cons_append, List.take_append_of_le_length h2]

/-- If it is not found, the first line goes on. -/
theorem lineEnd_none {nl : Newline} : ∀ {line : Text}, lineEnd nl line = none → ∀ more : Text,
    line <+: firstLine nl (line ++ more) := by
  intro line
  induction line with
  | nil => intro _ more; exact List.nil_prefix
  | cons c cs ih =>
    intro h more
    rw [lineEnd_cons] at h
    by_cases ht : terminator nl (c :: cs) = 0
    · rw [if_pos ht] at h
      have h1 : lineEnd nl cs = none := by
        cases h1 : lineEnd nl cs with
        | none => rfl
        | some k => rw [h1] at h; cases h
      by_cases ht' : terminator nl (c :: cs ++ more) = 0
      · rw [List.cons_append] at ht' ⊢
        rw [firstLine, if_pos ht']
        exact List.cons_prefix_cons.2 ⟨rfl, ih h1 more⟩
      · obtain ⟨rfl, h2⟩ := terminator_zero ht ht'
        rw [List.cons_append, List.nil_append] at ht' ⊢
        rw [firstLine, if_neg ht', h2]
        cases more with
        | nil => simp
        | cons d ds => exact List.cons_prefix_cons.2 ⟨rfl, List.nil_prefix⟩
    · rw [if_neg ht] at h; cases h

theorem firstLine_prefix (nl : Newline) (r : Text) : firstLine nl r <+: r := by
  induction r with
  | nil => exact List.nil_prefix
  | cons c cs ih =>
    rw [firstLine]
    split
    · exact List.cons_prefix_cons.2 ⟨rfl, ih⟩
    · exact List.take_prefix _ _

/-- At the end of the file. -/
theorem lineEnd_last {nl : Newline} {line : Text} (h : lineEnd nl line = none) : firstLine nl line = line := by
  have h1 := lineEnd_none h []
  have h2 := firstLine_prefix nl (line ++ [])
  rw [List.append_nil] at h1 h2
  exact h2.eq_of_length (by have := h1.length_le; have := h2.length_le; omega)

theorem firstLine_ne_nil {nl : Newline} {r : Text} (h : r ≠ []) : firstLine nl r ≠ [] := by
  cases r with
  | nil => exact absurd rfl h
  | cons c cs =>
    rw [firstLine]
    split
    · simp
    · rename_i ht
      intro h'
      rw [List.take_eq_nil_iff] at h'
      rcases h' with h' | h'
      · exact ht h'
      · cases h'

end Verif.Txt
