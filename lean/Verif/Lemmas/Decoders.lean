import Verif.Spec.Decoders
import Verif.Props.UtilitiesText

/-!
# The laws of decoders: three codecs, and the newline decoder
-/

set_option autoImplicit false

namespace Verif.Spec

/-! ## Decoders that take byte after byte -/

/-- A step either completes something, and then nothing is pending, or the byte is pending. -/
def Buffers {σ : Type} (step : σ → Byte → Except Exn (Text × σ)) (getstate : σ → Bytes × Nat) (setstate : Bytes × Nat → σ) :
    Prop :=
  ∀ d b s d', step d b = .ok (s, d') →
    ((getstate d').1 = [] ∧ d' = setstate ([], (getstate d').2)) ∨
      (s = [] ∧ (getstate d').1 = (getstate d).1 ++ [b] ∧ (getstate d').2 = (getstate d).2)

/-- The state is reached from the flags with the pending bytes. -/
def Resumes {σ : Type} (step : σ → Byte → Except Exn (Text × σ)) (getstate : σ → Bytes × Nat) (setstate : Bytes × Nat → σ)
    (d : σ) : Prop :=
  feed step (setstate ([], (getstate d).2)) (getstate d).1 = .ok ([], d)

section
variable {σ : Type} {step : σ → Byte → Except Exn (Text × σ)} {getstate : σ → Bytes × Nat} {setstate : Bytes × Nat → σ}

theorem feed_one (d : σ) (b : Byte) : feed step d [b] = step d b := by
  unfold feed
  cases step d b with
  | error e => rfl
  | ok r => obtain ⟨s, d'⟩ := r; simp [feed]

theorem Resumes.after (hb : Buffers step getstate setstate) {d d' : σ} {b : Byte} {s : Text}
    (hd : Resumes step getstate setstate d) (h : step d b = .ok (s, d')) : Resumes step getstate setstate d' := by
  unfold Resumes
  rcases hb d b s d' h with ⟨h1, h2⟩ | ⟨h1, h2, h3⟩
  · rw [h1, ← h2]; rfl
  · rw [h2, h3, feed_append, hd]
    dsimp only
    rw [feed_one, h]
    dsimp only
    rw [h1]; rfl

theorem Resumes.feed (hb : Buffers step getstate setstate) (x : Bytes) : ∀ {d d' : σ} {s : Text},
    Resumes step getstate setstate d → feed step d x = .ok (s, d') → Resumes step getstate setstate d' := by
  induction x with
  | nil => intro d d' s hd h; cases h; exact hd
  | cons b bs ih =>
    intro d d' s hd h
    unfold Spec.feed at h
    cases h1 : step d b with
    | error e => rw [h1] at h; cases h
    | ok r =>
      obtain ⟨s1, d1⟩ := r
      rw [h1] at h
      dsimp only at h
      cases h2 : Spec.feed step d1 bs with
      | error e => rw [h2] at h; cases h
      | ok r =>
        obtain ⟨s2, d2⟩ := r
        rw [h2] at h
        cases h
        exact ih (Resumes.after hb hd h1) h2

theorem feed_kept (hb : Buffers step getstate setstate) (x : Bytes) : ∀ {d d' : σ} {s : Text},
    feed step d x = .ok (s, d') → (getstate d').1 <:+ (getstate d).1 ++ x := by
  induction x with
  | nil => intro d d' s h; cases h; simp
  | cons b bs ih =>
    intro d d' s h
    unfold feed at h
    cases h1 : step d b with
    | error e => rw [h1] at h; cases h
    | ok r =>
      obtain ⟨s1, d1⟩ := r
      rw [h1] at h
      dsimp only at h
      cases h2 : feed step d1 bs with
      | error e => rw [h2] at h; cases h
      | ok r =>
        obtain ⟨s2, d2⟩ := r
        rw [h2] at h
        cases h
        have := ih h2
        rcases hb d b _ d1 h1 with ⟨h3, _⟩ | ⟨_, h3, _⟩
        · rw [h3, List.nil_append] at this
          exact this.trans ⟨(getstate d).1 ++ [b], by simp⟩
        · rw [h3] at this
          simpa using this

theorem feed_hold (hb : Buffers step getstate setstate) (x : Bytes) : ∀ {d d' : σ} {s : Text},
    feed step d x = .ok (s, d') → (getstate d').1 = (getstate d).1 ++ x → s = [] ∧ (getstate d').2 = (getstate d).2 := by
  induction x with
  | nil => intro d d' s h _; cases h; simp
  | cons b bs ih =>
    intro d d' s h he
    unfold feed at h
    cases h1 : step d b with
    | error e => rw [h1] at h; cases h
    | ok r =>
      obtain ⟨s1, d1⟩ := r
      rw [h1] at h
      dsimp only at h
      cases h2 : feed step d1 bs with
      | error e => rw [h2] at h; cases h
      | ok r =>
        obtain ⟨s2, d2⟩ := r
        rw [h2] at h
        cases h
        rcases hb d b _ d1 h1 with ⟨h3, _⟩ | ⟨h4, h3, h5⟩
        · have := (feed_kept hb bs h2).length_le
          rw [h3, he] at this
          simp at this
          omega
        · obtain ⟨g1, g2⟩ := ih h2 (by rw [he, h3]; simp)
          exact ⟨by rw [h4, g1]; rfl, g2.trans h5⟩

/-- Such decoders obey the laws. -/
theorem Lawful.ofSteps {init : σ} {pending : σ → Bool} (hb : Buffers step getstate setstate)
    (hp : ∀ d, pending d = true ↔ (getstate d).1 ≠ []) (hf : ∀ n, (getstate (setstate ([], n))).1 = [])
    (hr : ∀ n, setstate ([], (getstate (setstate ([], n))).2) = setstate ([], n))
    (hi : (getstate init).1 = []) (hi' : setstate ([], (getstate init).2) = init) :
    Lawful init (feedAll step pending) getstate setstate (Resumes step getstate setstate) := by
  have hset : ∀ n, Resumes step getstate setstate (setstate ([], n)) := by
    intro n
    unfold Resumes
    rw [hf, hr]; rfl
  have hend : ∀ d, (getstate d).1 = [] → feedAll step pending d [] true = .ok ([], d) := by
    intro d hd
    have : pending d = false := by
      cases h : pending d
      · rfl
      · exact absurd hd ((hp d).1 h)
    simp [feedAll, feed, this]
  have hok : ∀ {d : σ} {x : Bytes} {f : Bool} {s : Text} {d' : σ}, feedAll step pending d x f = .ok (s, d') →
      feed step d x = .ok (s, d') ∧ (f && pending d') = false := by
    intro d x f s d' h
    unfold feedAll at h
    cases h1 : feed step d x with
    | error e => rw [h1] at h; cases h
    | ok r =>
      obtain ⟨s1, d1⟩ := r
      rw [h1] at h
      dsimp only at h
      cases h2 : (f && pending d1) with
      | false => rw [h2] at h; cases h; exact ⟨rfl, h2⟩
      | true => rw [h2] at h; cases h
  refine ⟨?_, hset 0, ?_, ?_, ?_, ?_, fun _ => hset _, ?_, ?_, ?_, ?_, fun _ => hf _, hi, hf 0, hend _ hi, hend _ (hf 0)⟩
  · unfold Resumes; rw [hi, hi']; rfl
  · intro d x f s d' hd h; exact hd.feed hb x (hok h).1
  · intro d _; rfl
  · intro d x y f _
    simp only [feedAll, feed_append]
    cases h1 : feed step d x with
    | error e => rfl
    | ok r =>
      obtain ⟨s1, d1⟩ := r
      simp only [Bool.false_and, Bool.false_eq_true, if_false]
      cases h2 : feed step d1 y with
      | error e => rfl
      | ok r =>
        obtain ⟨s2, d2⟩ := r
        dsimp only
        split <;> rfl
  · intro d x s d' _ h
    have := (hok h).2
    simp only [Bool.true_and] at this
    simp [feedAll, feed, this]
  · intro d hd
    have : feed step (setstate ([], (getstate d).2)) (getstate d).1 = .ok ([], d) := hd
    simp [feedAll, this]
  · intro d x f s d' _ h
    exact feed_kept hb x (hok h).1
  · intro d x s d' _ h he
    exact feed_hold hb x (hok h).1 he
  · intro d x s d' _ h
    have := (hok h).2
    simp only [Bool.true_and] at this
    exact Classical.byContradiction fun hn => by rw [(hp d').2 hn] at this; cases this

end

theorem latin1_lawful : LawfulCodec latin1 := by
  refine ⟨_, Lawful.ofSteps (pending := fun _ => false) ?_ ?_ ?_ ?_ rfl rfl⟩
  · intro d b s d' h; exact .inl ⟨rfl, rfl⟩
  · intro d; simp [latin1]
  · intro n; rfl
  · intro n; rfl

theorem utf8_lawful : LawfulCodec utf8 := by
  refine ⟨_, Lawful.ofSteps (pending := fun p => decide (p ≠ [])) ?_ ?_ ?_ ?_ rfl rfl⟩
  · intro d b s d' h
    change utf8Step d b = _ at h
    unfold utf8Step at h
    change (d' = [] ∧ d' = []) ∨ (s = [] ∧ d' = (d : Bytes) ++ [b] ∧ 0 = 0)
    dsimp only at h
    split at h
    · split at h
      · cases h; simp
      · split at h
        · cases h; simp
        · cases h
    · split at h
      · cases h
      · split at h <;> (cases h; simp)
    · split at h
      · cases h
      · split at h <;> (cases h; simp)
    · split at h
      · cases h
      · cases h; simp
  · intro d; simp [utf8]
  · intro n; rfl
  · intro n; rfl

theorem utf16_lawful : LawfulCodec utf16 := by
  refine ⟨_, Lawful.ofSteps (pending := fun d : Option Bool × Bytes => decide (d.2 ≠ [])) ?_ ?_ ?_ ?_ rfl rfl⟩
  · intro d b s d' h
    change utf16Step d b = _ at h
    unfold utf16Step at h
    split at h
    · cases h; right; simp [utf16]
    · split at h
      · cases h; left; simp [utf16]
      · split at h
        · cases h; left; simp [utf16]
        · cases h
    · cases h; right; simp [utf16]
    · split at h
      · cases h; right; simp [utf16]
      · split at h
        · cases h
        · rename_i big _ _ _
          cases h; left; cases big <;> simp [utf16]
    · cases h; right; simp [utf16]
    · split at h
      · rename_i big _ _ _ _ _
        cases h; left; cases big <;> simp [utf16]
      · cases h
  · intro d; simp [utf16]
  · intro n; rfl
  · intro n
    match n with
    | 0 => rfl
    | 1 => rfl
    | n + 2 => rfl

/-! ## The newline decoder -/

open Verif.Props

theorem universalText_append (x y : Text) (h : x.getLast? ≠ some 13 ∨ y.head? ≠ some 10) :
    universalText (x ++ y) = universalText x ++ universalText y := by
  induction x using universalText.induct with
  | case1 => rfl
  | case2 cs ih =>
    have : cs.getLast? ≠ some 13 ∨ y.head? ≠ some 10 := by
      rcases h with h | h
      · left
        cases cs with
        | nil => simp
        | cons c cs => simpa using h
      · exact .inr h
    simp only [List.cons_append, universalText, ih this]
  | case3 cs hcs ih =>
    have h' : cs.getLast? ≠ some 13 ∨ y.head? ≠ some 10 := by
      rcases h with h | h
      · left
        cases cs with
        | nil => simp
        | cons c cs => simpa using h
      · exact .inr h
    have h1 : universalText (13 :: cs) = 10 :: universalText cs := by
      rw [universalText]; exact hcs
    have h2 : universalText (13 :: (cs ++ y)) = 10 :: universalText (cs ++ y) := by
      rw [universalText]
      intro z hz
      cases cs with
      | nil =>
        rcases h with h | h
        · simp at h
        · simp at hz; rw [hz] at h; simp at h
      | cons c cs =>
        simp at hz
        exact hcs cs (by rw [hz.1])
    rw [List.cons_append, h2, h1, ih h']
    rfl
  | case4 c cs h1 h2 ih =>
    have hc : c ≠ 13 := fun e => h2 e
    have h' : cs.getLast? ≠ some 13 ∨ y.head? ≠ some 10 := by
      rcases h with h | h
      · left
        cases cs with
        | nil => simp
        | cons c cs => simpa using h
      · exact .inr h
    rw [List.cons_append, universalText_cons hc, universalText_cons hc, ih h']
    rfl

/-- The text with the carriage return that was held back. -/
def withCr (pendingcr : Bool) (o : Text) : Text := if pendingcr then 13 :: o else o

/-- The conversion of complete texts. -/
def convert (translate : Bool) (o : Text) : Text := if translate then universalText o else o

/-- What `IncrementalNewlineDecoder` does: the last carriage return is held back, unless this is the end. -/
theorem splitCr_eq (translate pendingcr final : Bool) (o : Text) :
    Txt.splitCr translate pendingcr o final =
      if (withCr pendingcr o).getLast? = some 13 ∧ final = false then
        (convert translate (withCr pendingcr o).dropLast, true)
      else (convert translate (withCr pendingcr o), false) := by
  unfold Txt.splitCr withCr convert
  dsimp only
  simp only [universalText_eq]
  cases pendingcr <;> cases final
  · by_cases h : o.getLast? = some 13 <;> simp [h]
  · by_cases h : o.getLast? = some 13 <;> simp [h]
  · cases o with
    | nil => simp [universalText]
    | cons c cs =>
      by_cases h : (c :: cs).getLast? = some 13
      · simp [h]
      · simp [h]
  · cases o with
    | nil => simp
    | cons c cs => simp

theorem convert_append (translate : Bool) (x y : Text) (h : x.getLast? ≠ some 13 ∨ y.head? ≠ some 10) :
    convert translate (x ++ y) = convert translate x ++ convert translate y := by
  unfold convert
  cases translate
  · rfl
  · exact universalText_append x y h

theorem splitCr_append (translate pendingcr final : Bool) (x y : Text) :
    Txt.splitCr translate pendingcr (x ++ y) final =
      ((Txt.splitCr translate pendingcr x false).1 ++
          (Txt.splitCr translate (Txt.splitCr translate pendingcr x false).2 y final).1,
        (Txt.splitCr translate (Txt.splitCr translate pendingcr x false).2 y final).2) := by
  have hw : withCr pendingcr (x ++ y) = withCr pendingcr x ++ y := by
    unfold withCr; cases pendingcr <;> rfl
  simp only [splitCr_eq, hw]
  generalize withCr pendingcr x = x
  by_cases hx : x.getLast? = some 13
  · obtain ⟨m, rfl⟩ : ∃ m, x = m ++ [13] := by
      obtain ⟨m, hm⟩ := List.getLast?_eq_some_iff.1 hx
      exact ⟨m, hm⟩
    simp only [hx, true_and, if_true, List.dropLast_concat, withCr, List.append_assoc, List.cons_append, List.nil_append]
    have hl : (m ++ 13 :: y).getLast? = (13 :: y).getLast? := by
      rw [List.getLast?_append]
      cases h : (13 :: y).getLast? with
      | none => simp at h
      | some z => rfl
    rw [hl]
    have hd : (m ++ 13 :: y).dropLast = m ++ (13 :: y).dropLast := by
      rw [List.dropLast_append_of_ne_nil (by simp)]
    split
    · rw [hd, convert_append]
      right
      cases y with
      | nil => simp
      | cons c cs => simp
    · rw [convert_append]
      right; simp
  · simp only [hx, false_and, if_false, withCr, Bool.false_eq_true]
    by_cases hy : y = []
    · subst hy
      simp [hx]
      unfold convert
      cases translate <;> simp [universalText]
    · have hl : (x ++ y).getLast? = y.getLast? := by
        rw [List.getLast?_append]
        cases h : y.getLast? with
        | none => simp at h; exact absurd h hy
        | some z => rfl
      rw [hl, List.dropLast_append_of_ne_nil hy]
      split
      · rw [convert_append _ _ _ (.inl hx)]
      · rw [convert_append _ _ _ (.inl hx)]

theorem splitCr_true (translate pendingcr : Bool) (x : Text) : (Txt.splitCr translate pendingcr x true).2 = false := by
  rw [splitCr_eq]; simp

theorem splitCr_nil (translate pendingcr : Bool) : Txt.splitCr translate pendingcr [] false = ([], pendingcr) := by
  rw [splitCr_eq]
  cases pendingcr <;> cases translate <;> simp [withCr, convert, universalText]

theorem splitCr_end (translate : Bool) (f : Bool) : Txt.splitCr translate false [] f = ([], false) := by
  rw [splitCr_eq]
  cases translate <;> simp [withCr, convert, universalText]

/-- The decoder of a text stream obeys the laws. -/
theorem Lawful.text {C : Codec} {Ok : C.Dec → Prop} (h : Lawful C.decInit C.decode C.getstate C.setstate Ok) (nl : Newline) :
    Lawful (C.decInit, false) (Txt.decodeWith C nl) (Txt.getstateWith C nl) (Txt.setstateWith C nl)
      fun d => Ok d.1 ∧ (nl.universal = false → d.2 = false) := by
  have hg : ∀ d, (Txt.getstateWith C nl d).1 = (C.getstate d.1).1 := by
    intro d; unfold Txt.getstateWith; dsimp only; split <;> rfl
  have hs : ∀ d : C.Dec × Bool, (nl.universal = false → d.2 = false) →
      Txt.setstateWith C nl ([], (Txt.getstateWith C nl d).2) = (C.setstate ([], (C.getstate d.1).2), d.2) := by
    intro d hd
    unfold Txt.getstateWith Txt.setstateWith
    dsimp only
    by_cases hu : nl.universal = true
    · simp only [hu, if_true]
      cases hd2 : d.2
      · simp
      · have : (2 * (C.getstate d.1).2 + 1) / 2 = (C.getstate d.1).2 := by omega
        simp [this]
    · simp only [hu, Bool.false_eq_true, if_false]
      rw [hd (by simpa using hu)]
  have h0 : Txt.setstateWith C nl ([], 0) = (C.setstate ([], 0), false) := by
    unfold Txt.setstateWith; split <;> simp
  have hdec : ∀ {d : C.Dec × Bool} {x : Bytes} {f : Bool} {s : Text} {d' : C.Dec × Bool},
      Txt.decodeWith C nl d x f = .ok (s, d') → ∃ o, C.decode d.1 x f = .ok (o, d'.1) ∧
        (nl.universal = false → s = o ∧ d'.2 = d.2) ∧
        (nl.universal = true → s = (Txt.splitCr nl.translate d.2 o f).1 ∧ d'.2 = (Txt.splitCr nl.translate d.2 o f).2) := by
    intro d x f s d' hd
    unfold Txt.decodeWith at hd
    cases h1 : C.decode d.1 x f with
    | error e => rw [h1] at hd; cases hd
    | ok r =>
      obtain ⟨o, dec⟩ := r
      rw [h1] at hd
      dsimp only at hd
      by_cases hu : nl.universal = true
      · rw [if_pos hu] at hd; cases hd; exact ⟨o, rfl, by simp [hu], fun _ => ⟨rfl, rfl⟩⟩
      · rw [if_neg hu] at hd; cases hd; exact ⟨_, rfl, fun _ => ⟨rfl, rfl⟩, by simp [hu]⟩
  refine ⟨⟨h.first, fun _ => rfl⟩, ?_, ?_, ?_, ?_, ?_, ?_, ?_, ?_, ?_, ?_, ?_, ?_, ?_, ?_, ?_⟩
  · rw [h0]; exact ⟨h.zero, fun _ => rfl⟩
  · intro d x f s d' hd hx
    obtain ⟨o, h1, h2, _⟩ := hdec hx
    exact ⟨h.next hd.1 h1, fun hu => by rw [(h2 hu).2, hd.2 hu]⟩
  · intro d hd
    unfold Txt.decodeWith
    rw [h.nothing hd.1]
    dsimp only
    rw [splitCr_nil]
    split <;> rfl
  · intro d x y f hd
    unfold Txt.decodeWith
    rw [h.split x y f hd.1]
    cases h1 : C.decode d.1 x false with
    | error e => rfl
    | ok r =>
      obtain ⟨o1, d1⟩ := r
      dsimp only
      cases h2 : C.decode d1 y f with
      | error e => by_cases hu : nl.universal = true <;> simp [hu, h2]
      | ok r =>
        obtain ⟨o2, d2⟩ := r
        dsimp only
        by_cases hu : nl.universal = true
        · simp [hu, h2, splitCr_append]
        · simp [hu, h2]
  · intro d x s d' hd hx
    obtain ⟨o, h1, h2, h3⟩ := hdec hx
    have hp : d'.2 = false := by
      by_cases hu : nl.universal = true
      · rw [(h3 hu).2, splitCr_true]
      · rw [(h2 (by simpa using hu)).2, hd.2 (by simpa using hu)]
    unfold Txt.decodeWith
    rw [h.again hd.1 h1]
    dsimp only
    rw [hp, splitCr_end]
    split
    · exact congrArg _ (Prod.ext rfl (Prod.ext rfl hp.symm))
    · exact congrArg _ (Prod.ext rfl (Prod.ext rfl hp.symm))
  · intro d hd
    rw [hs d hd.2]
    exact ⟨h.restart hd.1, hd.2⟩
  · intro d hd
    rw [hs d hd.2, hg]
    unfold Txt.decodeWith
    rw [h.resume hd.1]
    dsimp only
    rw [splitCr_nil]
    split <;> rfl
  · intro d x f s d' hd hx
    obtain ⟨o, h1, _⟩ := hdec hx
    rw [hg, hg]
    exact h.kept hd.1 h1
  · intro d x s d' hd hx he
    obtain ⟨o, h1, h2, h3⟩ := hdec hx
    rw [hg, hg] at he
    obtain ⟨g1, g2⟩ := h.hold hd.1 h1 he
    unfold Txt.getstateWith
    dsimp only
    by_cases hu : nl.universal = true
    · obtain ⟨e1, e2⟩ := h3 hu
      rw [g1, splitCr_nil] at e1 e2
      rw [if_pos hu, if_pos hu, g2, e2]
      exact ⟨e1, rfl⟩
    · obtain ⟨e1, e2⟩ := h2 (by simpa using hu)
      rw [if_neg hu, if_neg hu]
      exact ⟨e1.trans g1, g2⟩
  · intro d x s d' hd hx
    obtain ⟨o, h1, _⟩ := hdec hx
    rw [hg]
    exact h.ended hd.1 h1
  · intro d hd
    rw [hs d hd.2, hg]
    exact h.fresh hd.1
  · rw [hg]; exact h.firstFresh
  · rw [h0, hg]; exact h.zeroFresh
  · unfold Txt.decodeWith
    rw [h.firstEnd]
    dsimp only
    rw [splitCr_end]
    split <;> rfl
  · rw [h0]
    unfold Txt.decodeWith
    rw [h.zeroEnd]
    dsimp only
    rw [splitCr_end]
    split <;> rfl

/-- In universal mode, a newline is never cut into two pieces. -/
theorem decodeWith_cr {C : Codec} {nl : Newline} {d d' d'' : C.Dec × Bool} {x y : Bytes} {f : Bool} {s s' : Text}
    (hu : nl.universal = true) (h : Txt.decodeWith C nl d x false = .ok (s, d'))
    (h' : Txt.decodeWith C nl d' y f = .ok (s', d'')) (hl : s.getLast? = some 13) : s'.head? ≠ some 10 := by
  unfold Txt.decodeWith at h h'
  cases h1 : C.decode d.1 x false with
  | error e => rw [h1] at h; cases h
  | ok r =>
    obtain ⟨o, dec⟩ := r
    rw [h1] at h
    dsimp only at h
    rw [if_pos hu, splitCr_eq] at h
    have ht : nl.translate = false := by
      cases ht : nl.translate
      · rfl
      · rw [ht] at h
        exfalso
        split at h
        · cases h; exact universalText_no_cr _ (List.mem_of_getLast? hl)
        · cases h; exact universalText_no_cr _ (List.mem_of_getLast? hl)
    rw [ht] at h
    split at h
    · cases h
      cases h2 : C.decode dec y f with
      | error e => rw [h2] at h'; cases h'
      | ok r =>
        obtain ⟨o', dec'⟩ := r
        rw [h2] at h'
        dsimp only at h'
        rw [if_pos hu, splitCr_eq, ht] at h'
        split at h'
        · cases h'
          cases o' <;> simp [withCr, convert]
        · cases h'
          simp [withCr, convert]
    · rename_i hn
      cases h
      simp only [and_true] at hn
      exact absurd hl hn

end Verif.Spec
