import Verif.Lemmas.TextRead

/-!
# Reading from a text stream: lines
-/

set_option autoImplicit false

namespace Verif.Txt

open Verif.Spec

variable {C : Codec} {nl : Newline} {Ok : C.Dec × Bool → Prop} {α : Type}

theorem last_append (x : Text) {y : Text} (h : y ≠ []) : (x ++ y).getLast? = y.getLast? := by
  rw [List.getLast?_append]
  cases hy : y.getLast? with
  | none => exact absurd (List.getLast?_eq_none_iff.1 hy) h
  | some a => rfl

/-- "get more data". -/
theorem moreChars_spec (L : LawfulText C nl Ok) (fuel : Nat) : ∀ (t : Txt C) (f : File) (r : Text) (b : Bool),
    Reading nl Ok t f r b → t.decoder.isSome = true → t.chars.drop t.used = [] → f.rest.length < fuel →
    ∃ t' f', moreChars fuel t = (.ok (), t') ∧ Reading nl Ok t' f' r b ∧ t'.used = 0 ∧ t'.decoder.isSome = true ∧
      Onward f f' ∧ t'.telling = t.telling ∧ (AtEnd nl t' f' ∨ (t'.chars ≠ [] ∧ f'.rest.length < f.rest.length)) := by
  induction fuel with
  | zero => intro t f r b _ _ _ h; omega
  | succ fuel ih =>
    intro t f r b h hd hc hf
    obtain ⟨more, t1, f1, g1, g2, g3, g4, g5, g6, g7, g8, g9⟩ := readChunk_spec L h.holds hd hc
    have hr1 : Reading nl Ok t1 f1 r b := ⟨g2, fun ht => (g9 (g8 ▸ ht)).weaken b⟩
    unfold moreChars
    rw [PyM.bind_ok g1]
    have hget : (PyM.get : PyM (Txt C) (Txt C)) t1 = (.ok t1, t1) := rfl
    rw [PyM.bind_ok hget]
    cases more with
    | false =>
      rw [if_neg (by simp)]
      exact ⟨t1, f1, rfl, hr1, g3, g4, g5, g8, .inl (g7 rfl)⟩
    | true =>
      by_cases hch : t1.chars = []
      · rw [if_pos (by simp [hch])]
        obtain ⟨t', f', e1, e2, e3, e4, e5, e6, e7⟩ := ih t1 f1 r b hr1 g4 (by simp [hch]) (by have := g6 rfl; omega)
        refine ⟨t', f', e1, e2, e3, e4, g5.trans e5, e6.trans g8, e7.imp id fun ⟨q1, q2⟩ => ⟨q1, ?_⟩⟩
        have := g6 rfl
        omega
      · rw [if_neg (by simp [hch])]
        exact ⟨t1, f1, rfl, hr1, g3, g4, g5, g8, .inr ⟨hch, g6 rfl⟩⟩

theorem limit_prefix (size : Int) (s : Text) : limit size s <+: s := by
  unfold limit
  split
  · exact List.prefix_refl _
  · exact List.take_prefix _ _

/-- The end of `readline`: the characters after the line are given back. -/
theorem finishLine_spec {t : Txt C} {f : File} {r : Text} {b : Bool} (h : Reading nl Ok t f r b)
    (hu : t.used = t.chars.length) {size : Int} {line pre suf : Text} {e : Nat} (hl : line = pre ++ suf)
    (hs : suf <:+ t.chars) (he : e ≤ line.length)
    (hp : pre.length ≤ (if 0 ≤ size ∧ size < e then size.toNat else e)) :
    ∃ t', finishLine size line e t = (.ok (limit size (line.take e)), t') ∧
      Reading nl Ok t' f ((line ++ r).drop (limit size (line.take e)).length) b ∧ t'.telling = t.telling ∧
      t'.decoder = t.decoder := by
  have hlim : limit size (line.take e) = line.take (if 0 ≤ size ∧ size < e then size.toNat else e) := by
    unfold limit
    by_cases h0 : size < 0
    · rw [if_pos h0, if_neg (by omega)]
    · rw [if_neg h0, List.take_take]
      by_cases h1 : size < e
      · rw [if_pos ⟨by omega, h1⟩, Nat.min_eq_left (by omega)]
      · rw [if_neg (fun hh => h1 hh.2), Nat.min_eq_right (by omega)]
  have he' : (if 0 ≤ size ∧ size < e then size.toNat else e) ≤ line.length := by
    split <;> omega
  rw [hlim]
  generalize hk : (if 0 ≤ size ∧ size < (e : Int) then size.toNat else e) = k at hp he' ⊢
  have hsl := hs.length_le
  have hll : line.length = pre.length + suf.length := by rw [hl, List.length_append]
  have hrw : rewind (line.length - k) t = (.ok (), { t with used := t.used - (line.length - k) }) := by
    unfold rewind
    rw [if_neg (by omega)]
  refine ⟨{ t with used := t.used - (line.length - k) }, ?_, ?_, rfl, rfl⟩
  · unfold finishLine
    rw [hk, PyM.bind_ok hrw]
    rfl
  · have hlt : (line.take k).length = k := by rw [List.length_take]; omega
    rw [hlt, List.drop_append_of_le_length he']
    refine h.use (by omega) ?_
    intro s hs'
    have hr : r = s := by rw [hs', hu, List.drop_of_length_le (Nat.le_refl _)]; rfl
    obtain ⟨z, hz⟩ := hs
    have hc : t.chars.length = z.length + suf.length := by rw [← hz, List.length_append]
    rw [hr, hu]
    congr 1
    have hd1 : line.drop k = suf.drop (k - pre.length) := by
      rw [hl, List.drop_append, List.drop_of_length_le hp]; rfl
    have hd2 : t.chars.drop (t.chars.length - (line.length - k)) = suf.drop (k - pre.length) := by
      rw [← hz, List.drop_append]
      rw [List.drop_of_length_le (by rw [List.length_append]; omega), List.nil_append]
      congr 1
      rw [List.length_append]
      omega
    rw [hd1, hd2]

theorem readlineLoop_spec (L : LawfulText C nl Ok) (size : Int) (fuel : Nat) :
    ∀ (t : Txt C) (f : File) (r line pre suf : Text) (b : Bool),
    Reading nl Ok t f r b → t.decoder.isSome = true → t.used = t.chars.length →
    line = pre ++ suf → suf <:+ t.chars → (line ≠ [] → suf ≠ []) →
    (lineEnd nl pre = none) → (0 ≤ size → pre.length ≤ size) →
    (f.rest.length + 1 < fuel ∨ (0 < fuel ∧ AtEnd nl t f)) →
    ∃ t' f', readlineLoop size fuel line t = (.ok (limit size (firstLine nl (line ++ r))), t') ∧
      Reading nl Ok t' f' ((line ++ r).drop (limit size (firstLine nl (line ++ r))).length) b ∧ Onward f f' ∧
      t'.telling = t.telling ∧ t'.decoder.isSome = true ∧
      (size < 0 → firstLine nl (line ++ r) = [] → t'.chars = [] ∧ AtEnd nl t' f') := by
  induction fuel with
  | zero => intro t f r line pre suf b _ _ _ _ _ _ _ _ h; omega
  | succ fuel ih =>
    intro t f r line pre suf b h hd hu hl hs hne hpre hsz hf
    have hcons : t.chars.drop t.used = [] := by rw [hu]; exact List.drop_of_length_le (Nat.le_refl _)
    have hpl : pre <+: line := ⟨suf, hl.symm⟩
    unfold readlineLoop
    rw [h.holds.newline]
    cases hle : lineEnd nl line with
    | some e =>
      dsimp only
      have hcr : nl = .raw → line.getLast? = some 13 → r.head? ≠ some 10 := by
        intro hnl hlast
        obtain ⟨s, d', _, h2, h3⟩ := h.holds.rest
        rw [hcons] at h2
        rw [h2]
        refine h3 (by rw [hnl]; rfl) ?_
        have hline : line ≠ [] := by intro h0; rw [h0] at hlast; cases hlast
        have hsuf := hne hline
        obtain ⟨z, hz⟩ := hs
        rw [hl, last_append _ hsuf] at hlast
        rw [← hz, last_append _ hsuf]; exact hlast
      obtain ⟨q1, q2⟩ := lineEnd_some hle hcr
      have hpe : pre.length ≤ e := by
        have := (lineEnd_none hpre (suf ++ r)).length_le
        rw [← List.append_assoc, ← hl, q2, List.length_take] at this
        omega
      obtain ⟨t', e1, e2, e3, e4⟩ := finishLine_spec h hu (size := size) hl hs q1 (by
        split
        · have := hsz (by omega); omega
        · exact hpe)
      rw [q2]
      refine ⟨t', f, e1, e2, Onward.refl f, e3, by rw [e4]; exact hd, fun _ h0 => ?_⟩
      rw [← q2] at h0
      have hline : line ≠ [] := by intro h1; rw [h1, lineEnd_nil] at hle; cases hle
      exact absurd h0 (firstLine_ne_nil (by simp [hline]))
    | none =>
      dsimp only
      by_cases hsize : 0 ≤ size ∧ size ≤ line.length
      · rw [if_pos hsize]
        obtain ⟨t', e1, e2, e3, e4⟩ := finishLine_spec h hu (size := size) (e := size.toNat) hl hs (by omega) (by
          have := hsz hsize.1
          split <;> omega)
        have hlim : limit size (firstLine nl (line ++ r)) = limit size (line.take size.toNat) := by
          obtain ⟨z, hz⟩ := lineEnd_none hle r
          unfold limit
          rw [if_neg (by omega), if_neg (by omega), ← hz, List.take_append_of_le_length (by omega), List.take_take,
            Nat.min_self]
        rw [hlim]
        exact ⟨t', f, e1, e2, Onward.refl f, e3, by rw [e4]; exact hd, fun h0 => by omega⟩
      · rw [if_neg hsize]
        obtain ⟨t1, f1, g1, g2, g3, g4, g5, g6, g7⟩ := moreChars_spec L t.rounds t f r b h hd hcons h.holds.rounds
        rw [PyM.bind_ok g1]
        have hget : (PyM.get : PyM (Txt C) (Txt C)) t1 = (.ok t1, t1) := rfl
        rw [PyM.bind_ok hget]
        by_cases hch : t1.chars = []
        · rw [if_neg (by simp [hch])]
          have hend : AtEnd nl t1 f1 := g7.elim id fun hx => absurd hch hx.1
          have hr0 : r = [] := by
            simp [hend.rest g2.holds, hch]
          have h1 : setChars [] t1 = (.ok (), { t1 with chars := [], used := 0 }) := rfl
          rw [PyM.bind_ok h1]
          have hfl : firstLine nl (line ++ r) = line := by rw [hr0, List.append_nil]; exact lineEnd_last hle
          have hlim : limit size line = line := by
            unfold limit
            split
            · rfl
            · exact List.take_of_length_le (by omega)
          rw [hfl, hlim]
          refine ⟨{ t1 with chars := [], used := 0, snapshot := none }, f1, rfl, ?_, g5, g6, g4, ?_⟩
          · rw [List.drop_left, hr0]
            obtain ⟨p1, p2, p3, p4, p5, p6, p7, p8, p9⟩ := g2.holds
            refine ⟨⟨p1, p2, p3, p4, p5, Nat.le_refl _, p7, p8, ⟨[], t1.dec, ?_, rfl, by simp⟩⟩, fun _ =>
              .none rfl rfl (.inl hend)⟩
            rw [hend.1]; exact hend.2
          · exact fun _ _ => ⟨rfl, hend⟩
        · rw [if_pos hch]
          obtain ⟨t2, k1, k2, k3, k4, k5⟩ := getAll_spec g2
          have hdrop : t1.chars.drop t1.used = t1.chars := by rw [g3]; rfl
          rw [hdrop] at k1 k2 k4 k5
          rw [PyM.bind_ok k1]
          obtain ⟨z, hz⟩ := k4
          have hc2 : t2.chars = t1.chars := by rw [k2]
          obtain ⟨t', f', e1, e2, e3, e4, e5, e6⟩ := ih t2 f1 (r.drop t1.chars.length) (line ++ t1.chars) line t1.chars b k5
            (by rw [k2]; exact g4) k3 rfl (by rw [hc2]; exact List.suffix_refl _) (fun _ => hch) hle
            (by omega) (by
              rcases hf with hf | ⟨_, hf⟩
              · rcases g7 with g7 | ⟨_, g7⟩
                · right
                  refine ⟨by omega, g7.1, ?_⟩
                  have : t2.dec = t1.dec := by unfold dec; rw [k2]
                  rw [this]; exact g7.2
                · left; omega
              · exfalso
                have hr0 : r = [] := by rw [hf.rest h.holds, hcons]
                rw [hr0] at hz
                exact hch (List.append_eq_nil_iff.1 hz).1)
          have hrr : line ++ t1.chars ++ r.drop t1.chars.length = line ++ r := by
            rw [← hz, List.drop_left, List.append_assoc]
          rw [hrr] at e1 e2 e6
          exact ⟨t', f', e1, e2, g5.trans e3, by rw [e4, k2]; exact g6, e5, e6⟩

/-- `readline(size)`. -/
theorem readline_spec (L : LawfulText C nl Ok) {t : Txt C} {f : File} {r : Text} {b : Bool} (h : Reading nl Ok t f r b)
    (size : Int) :
    ∃ t' f', readline size t = (.ok (limit size (firstLine nl r)), t') ∧
      Reading nl Ok t' f' (r.drop (limit size (firstLine nl r)).length) b ∧ Onward f f' ∧ t'.telling = t.telling ∧
      t'.decoder.isSome = true ∧ (size < 0 → r = [] → t'.chars = [] ∧ AtEnd nl t' f') := by
  obtain ⟨t1, k1, k2, k3, ⟨z, hz⟩, k5⟩ := getAll_spec h
  have hg : getDecoder t1 = (.ok (), { t1 with decoder := some t1.dec }) := rfl
  unfold readline
  rw [PyM.bind_ok h.holds.checkClosed, PyM.bind_ok k1, PyM.bind_ok hg]
  have hsuf : t.chars.drop t.used <:+ t1.chars := by rw [k2]; exact List.drop_suffix _ _
  obtain ⟨t', f', e1, e2, e3, e4, e5, e6⟩ := readlineLoop_spec L size (t.rounds + 1) { t1 with decoder := some t1.dec } f
    (r.drop (t.chars.drop t.used).length) (t.chars.drop t.used) [] (t.chars.drop t.used) b k5.getDecoder rfl k3 rfl hsuf
    id (lineEnd_nil nl) (fun _ => by simp only [List.length_nil]; omega) (.inl (by have := h.holds.rounds; omega))
  have hrr : t.chars.drop t.used ++ r.drop (t.chars.drop t.used).length = r := by
    conv => lhs; rhs; rw [← hz]
    rw [List.drop_left, hz]
  rw [hrr] at e1 e2 e6
  refine ⟨t', f', e1, e2, e3, by rw [e4, k2], e5, fun h1 h2 => e6 h1 ?_⟩
  rw [h2]; rfl

/-- `next(stream)`. -/
theorem next_spec (L : LawfulText C nl Ok) {t : Txt C} {f : File} {r : Text} {b : Bool} (h : Reading nl Ok t f r b) :
    ∃ t' f', next t = (.ok (firstLine nl r), t') ∧ Reading nl Ok t' f' (r.drop (firstLine nl r).length) b ∧
      Onward f f' ∧ t'.telling = decide (r = []) ∧ t'.decoder.isSome = true := by
  have h0 : Reading nl Ok { t with telling := false } f r b := by
    obtain ⟨⟨h1, h2, h3, h4, h5, h6, h7, h8, h9⟩, hs⟩ := h
    exact ⟨⟨h1, h2, h3, h4, h5, h6, h7, h8, h9⟩, fun ht => by cases ht⟩
  obtain ⟨t1, f1, e1, e2, e3, e4, e5, e6⟩ := readline_spec L h0 (-1)
  have hlim : limit (-1) (firstLine nl r) = firstLine nl r := rfl
  rw [hlim] at e1 e2
  have hm : (PyM.modify fun t => { t with telling := false } : PyM (Txt C) Unit) t = (.ok (), { t with telling := false }) := rfl
  unfold next
  rw [PyM.bind_ok hm, PyM.bind_ok e1]
  by_cases hr : r = []
  · obtain ⟨q1, q2⟩ := e6 (by omega) hr
    have hfl : firstLine nl r = [] := by rw [hr]; rfl
    rw [hfl] at e2 ⊢
    have hw : (PyM.when (decide (([] : Text) = [])) (PyM.modify fun t => { t with snapshot := none, telling := t.seekable }) :
        PyM (Txt C) Unit) t1 = (.ok (), { t1 with snapshot := none, telling := t1.seekable }) := rfl
    rw [PyM.bind_ok hw]
    refine ⟨{ t1 with snapshot := none, telling := t1.seekable }, f1, rfl, ?_, e3, ?_, e5⟩
    · obtain ⟨⟨h1, h2, h3, h4, h5, h6, h7, h8, h9⟩, hs⟩ := e2
      exact ⟨⟨h1, h2, h3, h4, h5, h6, h7, h8, h9⟩, fun ht => .none rfl q1 (.inl q2)⟩
    · rw [decide_eq_true hr]; exact e2.holds.seekable
  · have hfl := firstLine_ne_nil (nl := nl) hr
    have hw : (PyM.when (decide (firstLine nl r = [])) (PyM.modify fun t => { t with snapshot := none, telling := t.seekable }) :
        PyM (Txt C) Unit) t1 = (.ok (), t1) := by
      rw [decide_eq_false hfl]; rfl
    rw [PyM.bind_ok hw]
    exact ⟨t1, f1, rfl, e2, e3, by rw [decide_eq_false hr]; exact e4, e5⟩

end Verif.Txt
