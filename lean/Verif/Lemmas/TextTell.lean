import Verif.Lemmas.TextReadline

/-!
# Positions in a text stream
-/

set_option autoImplicit false

namespace Verif.Txt

open Verif.Spec

variable {C : Codec} {nl : Newline} {Ok : C.Dec × Bool → Prop} {α : Type}

/-- The state of the decoder that a cookie stands for. -/
def base (C : Codec) (nl : Newline) (c : Cookie) : C.Dec × Bool :=
  if c.isZero then (C.decInit, false) else setstateWith C nl ([], c.flags)

/-- The cookie `c` is the place in the file `data` where the text `r` follows. -/
structure Denotes (nl : Newline) (Ok : C.Dec × Bool → Prop) (data : Bytes) (c : Cookie) (r : Text) : Prop where
  inside : c.position ≤ data.length
  ok : Ok (base C nl c)
  fresh : (getstateWith C nl (base C nl c)).1 = []
  start : c.position = 0 → base C nl c = (C.decInit, false)
  plain : c.skip = 0 → c.feed = 0 ∧ c.needEof = false ∧
    ∃ d', decodeWith C nl (base C nl c) (data.drop c.position) true = .ok (r, d')
  skipping : c.skip ≠ 0 → ∃ s d1 s' d', decodeWith C nl (base C nl c) ((data.drop c.position).take c.feed) c.needEof = .ok (s, d1) ∧
    c.skip ≤ s.length ∧ (c.needEof = true → data.drop (c.position + c.feed) = []) ∧
    decodeWith C nl d1 (data.drop (c.position + c.feed)) true = .ok (s', d') ∧ r = s.drop c.skip ++ s' ∧
    (nl.universal = true → s.getLast? = some 13 → s'.head? ≠ some 10)

theorem base_eq {c : Cookie} {d : C.Dec × Bool} (h : setstateWith C nl ([], c.flags) = d)
    (h0 : c.position = 0 → d = (C.decInit, false)) : base C nl c = d := by
  unfold base
  split
  · rename_i hz
    unfold Cookie.isZero at hz
    exact (h0 (of_decide_eq_true hz).1).symm
  · exact h

/-- Decoding goes on after a piece that may have been the last one. -/
theorem join (L : LawfulText C nl Ok) {d d' d'' : C.Dec × Bool} {x more : Bytes} {final : Bool} {s s' : Text} (hd : Ok d)
    (h : decodeWith C nl d x final = .ok (s, d')) (hf : final = true → more = [])
    (h' : decodeWith C nl d' more true = .ok (s', d'')) : decodeWith C nl d (x ++ more) true = .ok (s ++ s', d'') := by
  cases final with
  | false => rw [L.split _ _ _ hd, h]; dsimp only; rw [h']
  | true =>
    rw [hf rfl] at h' ⊢
    rw [L.again hd h] at h'
    cases h'
    rw [List.append_nil, List.append_nil]; exact h

/-- Decoding can be cut. -/
theorem cut (L : LawfulText C nl Ok) {d d' : C.Dec × Bool} {x y : Bytes} {final : Bool} {s : Text} (hd : Ok d)
    (h : decodeWith C nl d (x ++ y) final = .ok (s, d')) :
    ∃ s1 d1 s2, decodeWith C nl d x false = .ok (s1, d1) ∧ decodeWith C nl d1 y final = .ok (s2, d') ∧ s = s1 ++ s2 := by
  rw [L.split _ _ _ hd] at h
  cases h1 : decodeWith C nl d x false with
  | error e => rw [h1] at h; cases h
  | ok q =>
    obtain ⟨s1, d1⟩ := q
    rw [h1] at h
    dsimp only at h
    cases h2 : decodeWith C nl d1 y final with
    | error e => rw [h2] at h; cases h
    | ok q =>
      obtain ⟨s2, d2⟩ := q
      rw [h2] at h
      cases h
      exact ⟨s1, d1, s2, rfl, h2, rfl⟩

/-- A place with no characters to skip. -/
theorem Denotes.ofPlain {data : Bytes} {p flags : Nat} {d d' : C.Dec × Bool} {r : Text} (hi : p ≤ data.length)
    (hd : Ok d) (hp : (getstateWith C nl d).1 = []) (hs : setstateWith C nl ([], flags) = d) (h0 : p = 0 → d = (C.decInit, false))
    (h : decodeWith C nl d (data.drop p) true = .ok (r, d')) : Denotes nl Ok data ⟨p, flags, 0, false, 0⟩ r := by
  have hb : base C nl (⟨p, flags, 0, false, 0⟩ : Cookie) = d := base_eq hs h0
  refine ⟨hi, ?_, ?_, ?_, ?_, fun h => absurd rfl h⟩
  · rw [hb]; exact hd
  · rw [hb]; exact hp
  · rw [hb]; exact h0
  · rw [hb]; exact fun _ => ⟨rfl, rfl, d', h⟩

theorem slowSearch_spec (L : LawfulText C nl Ok) {data : Bytes} {final : Bool} {more : Bytes} {d' d'' : C.Dec × Bool} {s'' r : Text}
    (hfin : final = true → more = []) (hmore : decodeWith C nl d' more true = .ok (s'', d'')) (bs : Bytes) :
    ∀ (x : Bytes) (d0 d : C.Dec × Bool) (s s' : Text) (start flags chars : Nat),
    data.drop start = x ++ bs ++ more → start ≤ data.length → setstateWith C nl ([], flags) = d0 → Ok d0 →
    (getstateWith C nl d0).1 = [] → (start = 0 → d0 = (C.decInit, false)) →
    decodeWith C nl d0 x false = .ok (s, d) → s.length < chars → decodeWith C nl d bs final = .ok (s', d') →
    chars ≤ (s ++ s').length → (nl.universal = true → (s ++ s').getLast? = some 13 → s''.head? ≠ some 10) →
    r = (s ++ s').drop chars ++ s'' →
    ∃ c, slowSearch C nl bs d start flags x.length chars s.length = .ok c ∧ Denotes nl Ok data c r := by
  induction bs with
  | nil =>
    intro x d0 d s s' start flags chars hdata hst hset hok hfr h0 hx hlt hbs hle hcr hr
    have hokd := L.next hok hx
    have hf : final = true := by
      cases final with
      | true => rfl
      | false =>
        rw [L.nothing hokd] at hbs
        cases hbs
        rw [List.append_nil] at hle
        omega
    subst hf
    have hm := hfin rfl
    subst hm
    unfold slowSearch
    rw [hbs]
    dsimp only
    rw [if_neg (by rw [List.length_append] at hle; omega)]
    refine ⟨_, rfl, ?_⟩
    have hb : base C nl (⟨start, flags, x.length, true, chars⟩ : Cookie) = d0 := base_eq hset h0
    rw [List.append_nil, List.append_nil] at hdata
    have hdrop : data.drop (start + x.length) = [] := by
      rw [← List.drop_drop, hdata]; exact List.drop_of_length_le (Nat.le_refl _)
    refine ⟨hst, ?_, ?_, ?_, ?_, ?_⟩
    · rw [hb]; exact hok
    · rw [hb]; exact hfr
    · rw [hb]; exact h0
    · intro h; dsimp only at h; omega
    · intro _
      refine ⟨s ++ s', d', s'', d'', ?_, hle, fun _ => hdrop, ?_, hr, hcr⟩
      · rw [hb]
        dsimp only
        rw [hdata, List.take_of_length_le (Nat.le_refl _)]
        have := L.split x [] true hok
        rw [List.append_nil, hx] at this
        dsimp only at this
        rw [hbs] at this
        exact this
      · rw [hdrop]; exact hmore
  | cons b bs ih =>
    intro x d0 d s s' start flags chars hdata hst hset hok hfr h0 hx hlt hbs hle hcr hr
    have hokd := L.next hok hx
    obtain ⟨s1, d1, s2, h1, h2, h3⟩ := cut L (x := [b]) hokd hbs
    subst h3
    have hokd1 := L.next hokd h1
    have hxb : decodeWith C nl d0 (x ++ [b]) false = .ok (s ++ s1, d1) := by
      rw [L.split _ _ _ hok, hx]; dsimp only; rw [h1]
    have hdata' : data.drop (start + (x.length + 1)) = bs ++ more := by
      rw [← List.drop_drop, hdata]
      rw [List.append_assoc, List.drop_append, List.drop_of_length_le (by omega)]
      simp
    have hst' : start + (x.length + 1) ≤ data.length := by
      have := congrArg List.length hdata
      rw [List.length_drop] at this
      simp only [List.length_append, List.length_cons] at this
      omega
    unfold slowSearch
    rw [h1]
    dsimp only
    by_cases hc1 : (getstateWith C nl d1).1 = [] ∧ s.length + s1.length ≤ chars
    · rw [if_pos hc1]
      have hres := resume_fresh L hokd1 hc1.1
      by_cases hc2 : chars - (s.length + s1.length) = 0
      · rw [if_pos hc2]
        refine ⟨_, rfl, Denotes.ofPlain hst' hokd1 hc1.1 hres (by omega) (d' := d'') ?_⟩
        rw [hdata', join L hokd1 h2 hfin hmore]
        congr 2
        rw [hr, ← List.append_assoc s s1 s2, List.drop_append]
        rw [List.drop_of_length_le (by rw [List.length_append]; omega)]
        have : chars - (s ++ s1).length = 0 := by rw [List.length_append]; omega
        rw [this]; simp
      · rw [if_neg hc2]
        refine ih [] d1 d1 [] s2 (start + (x.length + 1)) (getstateWith C nl d1).2 (chars - (s.length + s1.length)) hdata' hst' hres
          hokd1 hc1.1 (by omega) (L.nothing hokd1) (by simp only [List.length_nil]; omega) h2 ?_ ?_ ?_
        · simp only [List.length_append, List.length_nil] at hle ⊢; omega
        · intro hu hl
          refine hcr hu ?_
          rw [List.nil_append] at hl
          have hs2 : s2 ≠ [] := by intro h; rw [h] at hl; cases hl
          rw [← List.append_assoc, last_append _ hs2]; exact hl
        · rw [hr, ← List.append_assoc s s1 s2, List.drop_append]
          rw [List.drop_of_length_le (by rw [List.length_append]; omega), List.length_append]; rfl
    · rw [if_neg hc1]
      by_cases hc2 : chars ≤ s.length + s1.length
      · rw [if_pos hc2]
        refine ⟨_, rfl, ?_⟩
        have hb : base C nl (⟨start, flags, x.length + 1, false, chars⟩ : Cookie) = d0 := base_eq hset h0
        refine ⟨hst, ?_, ?_, ?_, ?_, ?_⟩
        · rw [hb]; exact hok
        · rw [hb]; exact hfr
        · rw [hb]; exact h0
        · intro h; dsimp only at h; omega
        · intro _
          have hj := join L hokd1 h2 hfin hmore
          refine ⟨s ++ s1, d1, s2 ++ s'', d'', ?_, by rw [List.length_append]; exact hc2, (by intro h; cases h), ?_, ?_, ?_⟩
          · rw [hb]
            dsimp only
            rw [hdata]
            have : (x ++ b :: bs ++ more).take (x.length + 1) = x ++ [b] := by
              have e : x ++ b :: bs ++ more = (x ++ [b]) ++ (bs ++ more) := by simp
              rw [e, List.take_append_of_le_length (by simp), List.take_of_length_le (by simp)]
            rw [this]; exact hxb
          · dsimp only
            rw [hdata']; exact hj
          · dsimp only
            rw [hr, ← List.append_assoc s s1 s2, List.drop_append_of_le_length (by rw [List.length_append]; exact hc2),
              List.append_assoc]
          · intro hu hl
            exact decodeWith_cr hu hxb hj hl
      · rw [if_neg hc2]
        have := ih (x ++ [b]) d0 d1 (s ++ s1) s2 start flags chars (by rw [hdata]; simp) hst hset hok hfr h0 hxb
          (by rw [List.length_append]; omega) h2 (by rw [List.append_assoc]; exact hle) (by rw [List.append_assoc]; exact hcr)
          (by rw [List.append_assoc]; exact hr)
        rw [List.length_append, List.length_append] at this
        exact this

theorem fastSearch_spec (L : LawfulText C nl Ok) {input : Bytes} {flags chars : Nat} {final : Bool} {S : Text} {d' : C.Dec × Bool}
    (hok : Ok (setstateWith C nl ([], flags))) (hfr : (getstateWith C nl (setstateWith C nl ([], flags))).1 = [])
    (h : decodeWith C nl (setstateWith C nl ([], flags)) input final = .ok (S, d')) (fuel : Nat) : ∀ (k back : Nat), k ≤ input.length →
    ∃ k' fl left d s, fastSearch C nl input flags chars fuel k back = .ok (k', fl, left, d) ∧ k' ≤ input.length ∧
      decodeWith C nl (setstateWith C nl ([], flags)) (input.take k') false = .ok (s, d) ∧
      (getstateWith C nl d).1 = [] ∧ setstateWith C nl ([], fl) = d ∧ s.length + left = chars := by
  have hzero : ∃ k' fl left d s, (Except.ok (0, flags, chars, setstateWith C nl ([], flags)) :
      Except Exn (Nat × Nat × Nat × (C.Dec × Bool))) = .ok (k', fl, left, d) ∧ k' ≤ input.length ∧
      decodeWith C nl (setstateWith C nl ([], flags)) (input.take k') false = .ok (s, d) ∧
      (getstateWith C nl d).1 = [] ∧ setstateWith C nl ([], fl) = d ∧ s.length + left = chars :=
    ⟨0, flags, chars, _, [], rfl, Nat.zero_le _, L.nothing hok, hfr, rfl, by simp⟩
  induction fuel with
  | zero => intro k back _; exact hzero
  | succ fuel ih =>
    intro k back hk
    unfold fastSearch
    split
    · exact hzero
    · rw [← List.take_append_drop k input] at h
      obtain ⟨s1, d1, s2, h1, h2, h3⟩ := cut L hok h
      rw [h1]
      dsimp only
      split
      · split
        · rename_i hp
          exact ⟨k, _, _, d1, s1, rfl, hk, h1, hp, resume_fresh L (L.next hok h1) hp, by omega⟩
        · exact ih _ _ (by omega)
      · exact ih _ _ (by omega)

/-- How `guess` is used: it never reaches beyond the last chunk. -/
def Moderate (guess : Nat × Nat → Nat → Nat) : Prop := ∀ k m n, n ≤ m → guess (k, m) n ≤ k

theorem Holds.place {t : Txt C} {f : File} {r : Text} (h : Holds nl Ok t f r) {input : Bytes} (hi : input <:+ f.data.take f.pos) :
    input.length ≤ f.pos ∧ f.data.drop (f.pos - input.length) = input ++ f.rest := by
  obtain ⟨z, hz⟩ := hi
  have hl : (f.data.take f.pos).length = f.pos := by rw [List.length_take]; have := h.inside; omega
  have hzl : z.length + input.length = f.pos := by rw [← hl, ← hz, List.length_append]
  refine ⟨by omega, ?_⟩
  have hd : f.data = z ++ (input ++ f.rest) := by
    rw [← List.append_assoc, hz]; unfold File.rest; rw [List.take_append_drop]
  conv => lhs; rw [hd]
  have : f.pos - input.length = z.length := by omega
  rw [this, List.drop_left]

/-- A mark that can be used before the decoder exists. -/
def Early (C : Codec) (nl : Newline) (data : Bytes) (c : Cookie) : Prop :=
  c.isZero = true ∨ c.flags ≠ 0 ∨ c.skip ≠ 0 ∨ data.drop c.position = [] ∨ Plain C nl

/-- The position, when the snapshot is right. -/
theorem locate_spec (L : LawfulText C nl Ok) {guess : Nat × Nat → Nat → Nat} (hg : Moderate guess) {t : Txt C} {f : File} {r : Text}
    {b : Bool} (h : Holds nl Ok t f r) (hs : Snap nl Ok t f b) :
    (∃ c, locate guess f.pos t = .ok c ∧ Denotes nl Ok f.data c r ∧
      (t.decoder = none → Early C nl f.data c)) ∨
    (b = true ∧ locate guess f.pos t = .error .assertionError) := by
  obtain ⟨s'', d'', e1, e2, e3⟩ := h.rest
  unfold locate
  cases hs with
  | none hsn hch place =>
    left
    rw [hsn]
    have hloc : (match t.decoder, (none : Option (Nat × Bytes)) with
        | some _, some (flags, input) =>
          if t.used = 0 then Except.ok ⟨f.pos - input.length, flags, 0, false, 0⟩
          else if input.length < guess t.ratio t.used then .error .assertionError
          else
            match fastSearch C t.newline input flags t.used (guess t.ratio t.used) (guess t.ratio t.used) 1 with
            | .error e => .error e
            | .ok (skipBytes, flags, chars, d) =>
              if chars = 0 then .ok ⟨f.pos - input.length + skipBytes, flags, 0, false, 0⟩
              else slowSearch C t.newline (input.drop skipBytes) d (f.pos - input.length + skipBytes) flags 0 chars 0
        | _, _ => if t.chars = [] then .ok ⟨f.pos, 0, 0, false, 0⟩ else .error .assertionError) =
        (Except.ok ⟨f.pos, 0, 0, false, 0⟩ : Except Exn Cookie) := by
      cases t.decoder <;> simp [hch]
    refine ⟨_, hloc, ?_, ?_⟩
    · rw [hch, List.drop_nil, List.nil_append] at e2
      subst e2
      by_cases hz : f.pos = 0
      · have hb : base C nl (⟨f.pos, 0, 0, false, 0⟩ : Cookie) = (C.decInit, false) := by
          unfold base; rw [if_pos (by simp [Cookie.isZero, hz])]
        refine ⟨h.inside, by rw [hb]; exact L.first, by rw [hb]; exact L.firstFresh, fun _ => hb, fun _ => ⟨rfl, rfl, ?_⟩,
          fun h => absurd rfl h⟩
        rw [hb]
        rcases place with place | ⟨_, place⟩
        · have hr : f.data.drop f.pos = [] := place.1
          rw [place.1, place.2] at e1
          cases e1
          exact ⟨_, by rw [hr]; exact L.firstEnd⟩
        · rw [place] at e1
          exact ⟨_, e1⟩
      · rcases place with place | ⟨place | place, hdec⟩
        · rw [place.1, place.2] at e1
          cases e1
          refine Denotes.ofPlain h.inside L.zero L.zeroFresh rfl (fun h => absurd h hz) (d' := setstateWith C nl ([], 0)) ?_
          have hr : f.data.drop f.pos = [] := place.1
          rw [hr]; exact L.zeroEnd
        · exact absurd place hz
        · rw [hdec, ← show _ = _ from place] at e1
          exact Denotes.ofPlain h.inside L.zero L.zeroFresh rfl (fun h => absurd h hz) e1
    · intro _
      rcases place with place | ⟨place | place, _⟩
      · exact .inr (.inr (.inr (.inl place.1)))
      · left; simp [Cookie.isZero, place]
      · exact .inr (.inr (.inr (.inr place)))
  | some flags input final hsn hdec hok hfr hdecoded hlast hbehind hstart hratio =>
    obtain ⟨dd, hdd⟩ := Option.isSome_iff_exists.1 hdec
    have hnone : ∀ {P : Prop}, some dd = none → P := by intro P hn; cases hn
    rw [hsn, hdd]
    dsimp only
    obtain ⟨p1, p2⟩ := h.place hbehind
    have hin := h.inside
    have hst0 : f.pos - input.length = 0 → setstateWith C nl ([], flags) = (C.decInit, false) := fun h0 => hstart (by omega)
    by_cases hu : t.used = 0
    · rw [if_pos hu]
      left
      refine ⟨_, rfl, Denotes.ofPlain (by omega) hok hfr rfl hst0 (d' := d'') ?_, hnone⟩
      rw [p2, e2, hu, List.drop_zero]
      exact join L hok hdecoded hlast e1
    · rw [if_neg hu]
      by_cases hgs : input.length < guess t.ratio t.used
      · rw [if_pos hgs]
        right
        refine ⟨?_, rfl⟩
        cases b with
        | true => rfl
        | false =>
          exfalso
          have hused := h.used
          rcases hratio rfl with hc | ⟨q1, q2⟩
          · rw [hc] at hused
            simp at hused
            exact hu hused
          · have := hg t.ratio.1 t.ratio.2 t.used (by omega)
            have e : (t.ratio.1, t.ratio.2) = t.ratio := rfl
            rw [e] at this
            omega
      · rw [if_neg hgs]
        left
        obtain ⟨k, fl, left, d, s, k1, k2, k3, k4, k5, k6⟩ := fastSearch_spec L (chars := t.used) hok hfr hdecoded
          (guess t.ratio t.used) (guess t.ratio t.used) 1 (by omega)
        rw [h.newline, k1]
        dsimp only
        have hdecoded' := hdecoded
        rw [← List.take_append_drop k input] at hdecoded'
        obtain ⟨s1, d1, s2, c1, c2, c3⟩ := cut L hok hdecoded'
        rw [k3] at c1
        cases c1
        have hokd := L.next hok k3
        have hdrop : f.data.drop (f.pos - input.length + k) = input.drop k ++ f.rest := by
          rw [← List.drop_drop, p2, List.drop_append_of_le_length k2]
        have h0 : f.pos - input.length + k = 0 → d = (C.decInit, false) := by
          intro hz
          have hk : k = 0 := by omega
          subst hk
          rw [List.take_zero, L.nothing hok] at k3
          cases k3
          exact hst0 (by omega)
        have hused := h.used
        have hr : r = s2.drop left ++ s'' := by
          rw [e2, c3, List.drop_append, List.drop_of_length_le (by omega)]
          have : t.used - s.length = left := by omega
          rw [this]; rfl
        by_cases hl : left = 0
        · rw [if_pos hl]
          refine ⟨_, rfl, Denotes.ofPlain (by omega) hokd k4 k5 h0 (d' := d'') ?_, hnone⟩
          rw [hdrop, hr, hl, List.drop_zero]
          exact join L hokd c2 hlast e1
        · rw [if_neg hl]
          obtain ⟨c, q1, q2⟩ := slowSearch_spec L (r := r) hlast e1 (input.drop k) [] d d [] s2 (f.pos - input.length + k) fl left hdrop
            (by omega) k5 hokd k4 h0 (L.nothing hokd) (by simp only [List.length_nil]; omega) c2 (by
              rw [c3, List.length_append] at hused
              simp only [List.nil_append]; omega) (by
              intro hun hlst
              refine e3 hun ?_
              rw [List.nil_append] at hlst
              have hs2 : s2 ≠ [] := by intro h; rw [h] at hlst; cases hlst
              rw [c3, last_append _ hs2]; exact hlst) (by rw [hr]; rfl)
          exact ⟨c, q1, q2, hnone⟩

theorem Reading.telling {t : Txt C} {f : File} {r : Text} {b : Bool} (h : Reading nl Ok t f r b) (hs : Snap nl Ok t f b) {buf : Buf}
    (hb : Buf.Reads buf f) (x : Bool) : Reading nl Ok { t with buf := buf, telling := x } f r b := by
  obtain ⟨⟨h1, h2, h3, h4, h5, h6, h7, h8, h9⟩, _⟩ := h
  refine ⟨⟨hb, h2, h3, h4, h5, h6, h7, h8, h9⟩, fun _ => ?_⟩
  cases hs with
  | none q1 q2 q3 => exact .none q1 q2 q3
  | some fl i fin q1 q2 q3 q4 q5 q6 q7 q8 q9 => exact .some fl i fin q1 q2 q3 q4 q5 q6 q7 q8 q9

/-- `flush`. -/
theorem flush_spec {t : Txt C} {f : File} {r : Text} {b : Bool} (h : Reading nl Ok t f r b) (ht : t.telling = true) :
    ∃ t', flush t = (.ok (), t') ∧ Reading nl Ok t' f r b ∧ t'.telling = true ∧ t'.decoder = t.decoder := by
  obtain ⟨buf, g1, g2⟩ := h.holds.buf.flush
  refine ⟨{ t with buf := buf, telling := t.seekable }, ?_, h.telling (h.snap ht) g2 _, h.holds.seekable, rfl⟩
  unfold flush
  rw [PyM.bind_ok (onBuf_eq g1)]
  rfl

/-- `tell`. -/
theorem tell_spec (L : LawfulText C nl Ok) {guess : Nat × Nat → Nat → Nat} (hg : Moderate guess) {t : Txt C} {f : File} {r : Text}
    {b : Bool} (h : Reading nl Ok t f r b) (ht : t.telling = true) :
    ∃ res t', tell guess t = (res, t') ∧ Reading nl Ok t' f r b ∧ t'.telling = true ∧ t'.decoder = t.decoder ∧
      ((∃ c, res = .ok c ∧ Denotes nl Ok f.data c r ∧
        (t.decoder = none → Early C nl f.data c)) ∨
      (b = true ∧ res = .error .assertionError)) := by
  obtain ⟨t', g1, g2, g3, g4⟩ := flush_spec h ht
  have hp : onBuf Buf.tell t' = (.ok f.pos, t') := onBuf_eq g2.holds.buf.tell
  refine ⟨locate guess f.pos t', t', ?_, g2, g3, g4, ?_⟩
  · unfold tell
    rw [h.holds.seekable, ht]
    simp only [Bool.not_true, Bool.false_eq_true, if_false]
    rw [PyM.bind_ok g1, PyM.bind_ok hp]
  · rw [← g4]
    exact locate_spec L hg g2.holds (g2.snap g3)

theorem tell_iterating {guess : Nat × Nat → Nat → Nat} {t : Txt C} {f : File} {r : Text} {b : Bool} (h : Reading nl Ok t f r b)
    (ht : t.telling = false) : tell guess t = (.error (.ioError 0), t) := by
  unfold tell
  rw [h.holds.seekable, ht]
  rfl

/-- What `seek` to a position without characters to skip leaves. -/
def Restored (t : Txt C) (c : Cookie) (data : Bytes) : Prop :=
  (c.isZero = true ∧ t.snapshot = none ∧ t.dec = (C.decInit, false)) ∨
  (c.isZero = false ∧ t.decoder = some (setstateWith C t.newline ([], c.flags)) ∧ t.snapshot = some (c.flags, [])) ∨
  (t.decoder = none ∧ data.drop c.position = []) ∨
  (t.decoder = none ∧ base C t.newline c = (C.decInit, false))

/-- `seek` to a position that denotes a place, when the buffer can be flushed. -/
theorem seekTo_clean (L : LawfulText C nl Ok) {t : Txt C} {f : File} {r : Text} {buf : Buf} (g1 : Buf.flush t.buf = (.ok (), buf))
    (g2 : Buf.Reads buf f) (hnl : t.newline = nl) (hse : t.seekable = true)
    {c : Cookie} (hc : Denotes nl Ok f.data c r) (hn : t.decoder = none → Early C nl f.data c) :
    ∃ t' f', seekTo c t = (.ok c, t') ∧ Reading nl Ok t' f' r (decide (c.skip ≠ 0)) ∧ f'.data = f.data ∧ f'.log = f.log ∧
      t'.telling = true ∧ (t'.decoder = none → t.decoder = none) ∧
      (c.skip = 0 → f'.pos = c.position ∧ t'.chars = [] ∧ t'.used = 0 ∧ Restored t' c f.data) := by
  have hfl : flush t = (.ok (), { t with buf := buf, telling := t.seekable }) := by
    unfold flush; rw [PyM.bind_ok (onBuf_eq g1)]; rfl
  obtain ⟨buf', k1, k2⟩ := g2.seekTo c.position
  have hsk : onBuf (Buf.seek c.position .set) { t with buf := buf, telling := t.seekable } =
      (.ok c.position, { t with buf := buf', telling := t.seekable }) := onBuf_eq (t := { t with buf := buf, telling := t.seekable }) k1
  have hm : (PyM.modify fun t => { t with chars := [], used := 0, snapshot := none } : PyM (Txt C) Unit)
      { t with buf := buf', telling := t.seekable } =
      (.ok (), { t with buf := buf', telling := t.seekable, chars := [], used := 0, snapshot := none }) := rfl
  -- a stream that stands at the position, with the decoder of the position
  have mk : ∀ u : Txt C, u.buf = buf' → u.newline = nl → u.seekable = true → u.chars = [] → u.used = 0 → u.dec = base C nl c →
      ∀ r0 d', decodeWith C nl (base C nl c) (f.data.drop c.position) true = .ok (r0, d') →
      Holds nl Ok u { f with pos := c.position, ahead := false } r0 := by
    intro u e1 e2 e3 e4 e5 e6 r0 d' e7
    refine ⟨by rw [e1]; exact k2, e2, e3, hc.inside, by rw [e6]; exact hc.ok, by rw [e5]; exact Nat.zero_le _, ?_, ?_, ?_⟩
    · rw [e6, hc.fresh]; exact List.nil_suffix
    · rw [e6, hc.fresh]
      intro h0
      rw [resume_fresh L hc.ok hc.fresh]; exact hc.start h0.symm
    · refine ⟨r0, d', by rw [e6]; exact e7, by rw [e4]; simp, by rw [e4]; simp⟩
  unfold seekTo
  rw [PyM.bind_ok hfl, PyM.bind_ok hsk, PyM.bind_ok hm]
  by_cases hskip : c.skip = 0
  · have hd : decide (c.skip ≠ 0) = false := by simp [hskip]
    obtain ⟨_, _, d', hplain⟩ := hc.plain hskip
    have fin : ∀ u : Txt C, restoreDecoder c { t with buf := buf', telling := t.seekable, chars := [], used := 0, snapshot := none } =
        (.ok (), u) → u.telling = true → u.chars = [] → u.used = 0 → (u.decoder = none → t.decoder = none) →
        Restored u c f.data →
        Reading nl Ok u { f with pos := c.position, ahead := false } r false →
        ∃ t' f', (restoreDecoder c >>= fun _ => PyM.when (decide (c.skip ≠ 0)) (skipChars c) >>= fun _ =>
            resetEncoder c.isZero >>= fun _ => pure c)
            { t with buf := buf', telling := t.seekable, chars := [], used := 0, snapshot := none } = (.ok c, t') ∧
          Reading nl Ok t' f' r (decide (c.skip ≠ 0)) ∧ f'.data = f.data ∧ f'.log = f.log ∧
          t'.telling = true ∧ (t'.decoder = none → t.decoder = none) ∧
          (c.skip = 0 → f'.pos = c.position ∧ t'.chars = [] ∧ t'.used = 0 ∧ Restored t' c f.data) := by
      intro u e1 e2 e3 e3' e4 e5 e6
      have hw : (PyM.when (decide (c.skip ≠ 0)) (skipChars c) : PyM (Txt C) Unit) u = (.ok (), u) := by rw [hd]; rfl
      have he : resetEncoder c.isZero u = (.ok (), { u with encoder := some (if !c.isZero then C.encMid else C.encInit) }) := rfl
      rw [PyM.bind_ok e1, PyM.bind_ok hw, PyM.bind_ok he]
      refine ⟨_, { f with pos := c.position, ahead := false }, rfl, ?_, rfl, rfl, e2, e4, fun _ => ⟨rfl, e3, e3', e5⟩⟩
      rw [hd]
      obtain ⟨⟨h1, h2, h3, h4, h5, h6, h7, h8, h9⟩, hs⟩ := e6
      refine ⟨⟨h1, h2, h3, h4, h5, h6, h7, h8, h9⟩, fun ht => ?_⟩
      cases hs ht with
      | none q1 q2 q3 => exact .none q1 q2 q3
      | some fl i fin q1 q2 q3 q4 q5 q6 q7 q8 q9 => exact .some fl i fin q1 q2 q3 q4 q5 q6 q7 q8 q9
    obtain ⟨dd, hdc⟩ | hdc : (∃ dd, t.decoder = some dd) ∨ t.decoder = none := by
      cases t.decoder with
      | none => exact .inr rfl
      | some dd => exact .inl ⟨dd, rfl⟩
    · by_cases hz : c.isZero = true
      · have hb : base C nl c = (C.decInit, false) := by unfold base; rw [if_pos hz]
        have hp : c.position = 0 := by unfold Cookie.isZero at hz; exact (of_decide_eq_true hz).1
        refine fin { t with buf := buf', telling := t.seekable, chars := [], used := 0, snapshot := none, decoder := some (C.decInit, false) }
          ?_ hse rfl rfl (by intro h; cases h) (.inl ⟨hz, rfl, rfl⟩) ⟨mk _ (by rfl) (by exact hnl) (by exact hse) (by rfl) (by rfl) (by exact hb.symm) r d' hplain, fun _ =>
            .none rfl rfl (.inr ⟨.inl hp, rfl⟩)⟩
        unfold restoreDecoder
        rw [if_pos ⟨hz, by simp [hdc]⟩]
        unfold resetDecoder PyM.modify
        dsimp only
        rw [hdc]; rfl
      · have hb : base C nl c = setstateWith C nl ([], c.flags) := by unfold base; rw [if_neg hz]
        refine fin { t with
            buf := buf', telling := t.seekable, chars := [], used := 0, snapshot := some (c.flags, [])
            decoder := some (setstateWith C nl ([], c.flags)) }
          ?_ hse rfl rfl (by intro h; cases h) (.inr (.inl ⟨by simpa using hz, by rw [hnl], rfl⟩)) ⟨mk _ (by rfl) (by exact hnl) (by exact hse) (by rfl) (by rfl) (by exact hb.symm) r d' hplain, fun _ => ?_⟩
        · unfold restoreDecoder
          rw [if_neg (fun hh => hz hh.1), if_pos (.inl (by simp [hdc]))]
          dsimp only
          rw [hnl]
        · have hok := hc.ok
          have hfr := hc.fresh
          rw [hb] at hok hfr
          refine .some c.flags [] false rfl rfl hok hfr (L.nothing hok) (by intro h; cases h) List.nil_suffix ?_ (fun _ => .inl rfl)
          intro h0
          rw [← hb]; exact hc.start h0.symm
    · by_cases hfl0 : c.flags ≠ 0
      · have hz : ¬ c.isZero = true := by
          unfold Cookie.isZero
          intro hh
          exact hfl0 (of_decide_eq_true hh).2.1
        have hb : base C nl c = setstateWith C nl ([], c.flags) := by unfold base; rw [if_neg hz]
        refine fin { t with
            buf := buf', telling := t.seekable, chars := [], used := 0, snapshot := some (c.flags, [])
            decoder := some (setstateWith C nl ([], c.flags)) }
          ?_ hse rfl rfl (by intro h; cases h) (.inr (.inl ⟨by simpa using hz, by rw [hnl], rfl⟩)) ⟨mk _ (by rfl) (by exact hnl) (by exact hse) (by rfl) (by rfl) (by exact hb.symm) r d' hplain, fun _ => ?_⟩
        · unfold restoreDecoder
          rw [if_neg (fun hh => hz hh.1), if_pos (.inr (.inl hfl0))]
          dsimp only
          rw [hnl]
        · have hok := hc.ok
          have hfr := hc.fresh
          rw [hb] at hok hfr
          refine .some c.flags [] false rfl rfl hok hfr (L.nothing hok) (by intro h; cases h) List.nil_suffix ?_ (fun _ => .inl rfl)
          intro h0
          rw [← hb]; exact hc.start h0.symm
      · have hfl0 : c.flags = 0 := by omega
        have hrd : restoreDecoder c { t with buf := buf', telling := t.seekable, chars := [], used := 0, snapshot := none } =
            (.ok (), { t with buf := buf', telling := t.seekable, chars := [], used := 0, snapshot := none }) := by
          unfold restoreDecoder
          rw [if_neg (by simp [hdc]), if_neg (by simp [hdc, hfl0, hskip])]
        have hdec : ({ t with buf := buf', telling := t.seekable, chars := [], used := 0, snapshot := none } : Txt C).dec =
            (C.decInit, false) := by unfold dec; simp [hdc]
        have hcase : (base C nl c = (C.decInit, false) ∧ (c.position = 0 ∨ Plain C nl)) ∨ f.data.drop c.position = [] := by
          by_cases hz : c.isZero = true
          · left
            unfold base
            rw [if_pos hz]
            have hz' := hz
            unfold Cookie.isZero at hz'
            exact ⟨rfl, .inl (of_decide_eq_true hz').1⟩
          · rcases hn hdc with hh | hh | hh | hh | hh
            · exact absurd hh hz
            · exact absurd hfl0 hh
            · exact absurd hskip hh
            · exact .inr hh
            · left
              unfold base
              rw [if_neg hz, hfl0]
              exact ⟨hh, .inr hh⟩
        rcases hcase with ⟨hb, hp⟩ | hend
        · refine fin _ hrd hse rfl rfl (fun _ => hdc) (.inr (.inr (.inr ⟨hdc, by rw [show _ = nl from hnl]; exact hb⟩)))
            ⟨mk _ (by rfl) (by exact hnl) (by exact hse) (by rfl) (by rfl) (by exact hdec.trans hb.symm) r d' hplain, fun _ => .none rfl rfl (.inr ⟨hp, hdec⟩)⟩
        · have hr : r = [] := by
            rw [hend] at hplain
            unfold base at hplain
            split at hplain
            · rw [L.firstEnd] at hplain; cases hplain; rfl
            · rw [hfl0, L.zeroEnd] at hplain; cases hplain; rfl
          have hrest : ({ f with pos := c.position, ahead := false } : File).rest = [] := hend
          have hde : decodeWith C nl ({ t with buf := buf', telling := t.seekable, chars := [], used := 0, snapshot := none } : Txt C).dec
              [] true = .ok ([], ({ t with buf := buf', telling := t.seekable, chars := [], used := 0, snapshot := none } : Txt C).dec) := by
            rw [hdec]; exact L.firstEnd
          refine fin _ hrd hse rfl rfl (fun _ => hdc) (.inr (.inr (.inl ⟨hdc, hend⟩))) ⟨⟨k2, hnl, hse, hc.inside, ?_, Nat.le_refl _, ?_, ?_, ?_⟩,
            fun _ => .none rfl rfl (.inl ⟨hrest, hde⟩)⟩
          · rw [hdec]; exact L.first
          · rw [hdec, L.firstFresh]; exact List.nil_suffix
          · rw [hdec]
            intro _
            exact resume_fresh L L.first L.firstFresh
          · refine ⟨[], _, by rw [hrest]; exact hde, by rw [hr]; rfl, by simp⟩
  · have hd : decide (c.skip ≠ 0) = true := by simp [hskip]
    obtain ⟨s, d1, s', d', q1, q2, q3, q4, q5, q6⟩ := hc.skipping hskip
    have hz : ¬ c.isZero = true := by
      unfold Cookie.isZero
      intro hh
      exact hskip (of_decide_eq_true hh).2.2.2.2
    have hb : base C nl c = setstateWith C nl ([], c.flags) := by unfold base; rw [if_neg hz]
    have hrd : restoreDecoder c { t with buf := buf', telling := t.seekable, chars := [], used := 0, snapshot := none } =
        (.ok (), { t with
            buf := buf', telling := t.seekable, chars := [], used := 0, snapshot := some (c.flags, [])
            decoder := some (base C nl c) }) := by
      unfold restoreDecoder
      rw [if_neg (fun hh => hz hh.1), if_pos (.inr (.inr hskip))]
      dsimp only
      rw [hnl, hb]
    obtain ⟨buf2, n1, n2⟩ := k2.readN c.feed
    have hrest : ({ f with pos := c.position, ahead := false } : File).rest = f.data.drop c.position := rfl
    rw [hrest] at n1 n2
    have hgot : (f.data.drop c.position).take c.feed <+: ({ f with pos := c.position, ahead := false } : File).rest :=
      List.take_prefix _ _
    have hmv := take_move hgot hc.inside
    have hrest2 : f.data.drop (c.position + ((f.data.drop c.position).take c.feed).length) = f.data.drop (c.position + c.feed) := by
      rw [List.length_take, List.length_drop]
      by_cases hx : c.feed ≤ f.data.length - c.position
      · rw [Nat.min_eq_left hx]
      · rw [Nat.min_eq_right (by omega), List.drop_of_length_le (by omega), List.drop_of_length_le (by omega)]
    have hadv := advance L (f := { f with pos := c.position, ahead := false }) c.needEof hc.ok hc.inside hgot q1
      (by rw [hc.fresh]; exact List.nil_suffix) (by
        rw [hc.fresh]
        intro h0
        rw [resume_fresh L hc.ok hc.fresh]; exact hc.start h0.symm)
    generalize hgg : (f.data.drop c.position).take c.feed = got at *
    have hsc : skipChars c { t with
            buf := buf', telling := t.seekable, chars := [], used := 0, snapshot := some (c.flags, [])
            decoder := some (base C nl c) } =
        (.ok (), { t with
            buf := buf2, telling := t.seekable, chars := s, used := c.skip, snapshot := some (c.flags, got)
            decoder := some d1 }) := by
      unfold skipChars
      rw [PyM.bind_ok (onBuf_eq n1)]
      have hde : decode (some got) c.needEof { t with
            buf := buf2, telling := t.seekable, chars := [], used := 0, snapshot := some (c.flags, [])
            decoder := some (base C nl c) } = (.ok s, { t with
            buf := buf2, telling := t.seekable, chars := [], used := 0, snapshot := some (c.flags, [])
            decoder := some d1 }) := by
        unfold decode
        dsimp only
        rw [hnl, q1]
      rw [PyM.bind_ok hde]
      have h1 : setChars s { t with
            buf := buf2, telling := t.seekable, chars := [], used := 0, snapshot := some (c.flags, [])
            decoder := some d1 } = (.ok (), { t with
            buf := buf2, telling := t.seekable, chars := s, used := 0, snapshot := some (c.flags, [])
            decoder := some d1 }) := rfl
      rw [PyM.bind_ok h1]
      have h2 : (PyM.modify fun t => { t with snapshot := some (c.flags, (some got).getD []) } : PyM (Txt C) Unit) { t with
            buf := buf2, telling := t.seekable, chars := s, used := 0, snapshot := some (c.flags, [])
            decoder := some d1 } = (.ok (), { t with
            buf := buf2, telling := t.seekable, chars := s, used := 0, snapshot := some (c.flags, got)
            decoder := some d1 }) := rfl
      rw [PyM.bind_ok h2, if_neg (by omega)]
      rfl
    have hw : (PyM.when (decide (c.skip ≠ 0)) (skipChars c) : PyM (Txt C) Unit) { t with
            buf := buf', telling := t.seekable, chars := [], used := 0, snapshot := some (c.flags, [])
            decoder := some (base C nl c) } = (.ok (), { t with
            buf := buf2, telling := t.seekable, chars := s, used := c.skip, snapshot := some (c.flags, got)
            decoder := some d1 }) := by
      rw [hd]; unfold PyM.when; rw [if_pos rfl, hsc]
    rw [PyM.bind_ok hrd, PyM.bind_ok hw]
    rw [hd]
    refine ⟨{ t with
            buf := buf2, telling := t.seekable, chars := s, used := c.skip, snapshot := some (c.flags, got)
            decoder := some d1, encoder := some (if !c.isZero then C.encMid else C.encInit) },
      { f with pos := c.position + got.length, ahead := true }, rfl, ?_, rfl, rfl, hse, (by intro h; cases h), fun h => absurd h hskip⟩
    have hrest3 : ({ f with pos := c.position + got.length, ahead := true } : File).rest = f.data.drop (c.position + c.feed) := hrest2
    refine ⟨⟨n2, hnl, hse, hmv.2, L.next hc.ok q1, q2, hadv.1, hadv.2, s', d', ?_, q5, q6⟩, fun _ => ?_⟩
    · rw [hrest3]; exact q4
    · have hok := hc.ok
      have hfr := hc.fresh
      have hq1 := q1
      rw [hb] at hok hfr hq1
      refine .some c.flags got c.needEof rfl rfl hok hfr hq1 ?_ ?_ ?_ (by intro h; cases h)
      · intro h; rw [hrest3]; exact q3 h
      · change got <:+ f.data.take (c.position + got.length)
        rw [hmv.1]; exact List.suffix_append _ _
      · intro h0
        rw [← hb]
        refine hc.start ?_
        change got.length = c.position + got.length at h0
        omega

/-- `seek` to a position that denotes a place. -/
theorem seekTo_spec (L : LawfulText C nl Ok) {t : Txt C} {f : File} {r r' : Text} {b : Bool} (h : Reading nl Ok t f r' b)
    {c : Cookie} (hc : Denotes nl Ok f.data c r) (hn : t.decoder = none → Early C nl f.data c) :
    ∃ t' f', seekTo c t = (.ok c, t') ∧ Reading nl Ok t' f' r (decide (c.skip ≠ 0)) ∧ f'.data = f.data ∧ f'.log = f.log ∧
      t'.telling = true ∧ (t'.decoder = none → t.decoder = none) ∧
      (c.skip = 0 → f'.pos = c.position ∧ t'.chars = [] ∧ t'.used = 0 ∧ Restored t' c f.data) := by
  obtain ⟨buf, g1, g2⟩ := h.holds.buf.flush
  exact seekTo_clean L g1 g2 h.holds.newline h.holds.seekable hc hn

end Verif.Txt
