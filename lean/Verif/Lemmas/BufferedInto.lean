import Verif.Lemmas.BufferedRefine

/-!
# Lemmas about `readinto` of buffered streams
-/

namespace Verif.Buf

open Verif.Spec

/-- The reference file after `n` more bytes were read. -/
def ahead (f : File) (n : Nat) : File := { f with pos := f.pos + n, ahead := true }

theorem rest_ahead (f : File) (n : Nat) : (ahead f n).rest = f.rest.drop n := rest_move f n true

/-- The situations in which the loop cannot fail on a file that answers in full. -/
def Good (b : Buf) (f : File) (len written : Nat) : Prop :=
  (written = 0 ∧ (b.extra = 0 ∨ len ≤ b.extra ∨ b.bufferSize < len - b.extra ∨ b.extra = f.rest.length)) ∨
    f.rest.length ≤ written

theorem splice (rest dst0 : Bytes) (w a : Nat) (hw : w ≤ rest.length) :
    (rest.take w ++ dst0.drop w).take w ++ (rest.drop w).take a ++ (rest.take w ++ dst0.drop w).drop (w + a) =
      rest.take (w + a) ++ dst0.drop (w + a) := by
  have hl : (rest.take w).length = w := by rw [List.length_take]; omega
  rw [List.take_append_of_le_length (by omega), List.take_take, Nat.min_self, List.drop_append, hl,
    List.drop_eq_nil_of_le (as := rest.take w) (by omega), List.nil_append, List.drop_drop, List.take_add]
  congr 2
  omega

theorem copyOut_R {b : Buf} {f : File} {w : Nat} {dst dst0 : Bytes} (h : R b (ahead f w)) (hw : b.writeBuf = [])
    (hk : b.kind ≠ .writer) (hd : dst = f.rest.take w ++ dst0.drop w) (hle : w < dst0.length) (hf : w ≤ f.rest.length) :
    (copyOut dst w b = (.error .valueError, b) ∧ 0 < b.extra ∧ dst0.length < w + min b.extra dst0.length) ∨
    ∃ b', copyOut dst w b = (.ok (f.rest.take (w + min b.extra dst0.length) ++ dst0.drop (w + min b.extra dst0.length),
        w + min b.extra dst0.length), b') ∧ R b' (ahead f (w + min b.extra dst0.length)) ∧ b'.writeBuf = [] ∧
      b'.kind = b.kind ∧ b'.extra = b.extra - min b.extra dst0.length ∧ w + min b.extra dst0.length ≤ dst0.length ∧
      w + min b.extra dst0.length ≤ f.rest.length ∧ b'.bufferSize = b.bufferSize ∧ b'.raw.sched = b.raw.sched := by
  have hlen : dst.length = dst0.length := by
    rw [hd, List.length_append, List.length_take, List.length_drop]; omega
  have hex := h.extra_le
  rw [rest_ahead, List.length_drop] at hex
  unfold copyOut
  dsimp only
  rw [hlen]
  have hx : b.readBuf.length - b.readPos = b.extra := rfl
  rw [hx]
  generalize ha : min b.extra dst0.length = a
  by_cases h0 : a = 0
  · right
    rw [if_pos h0, h0]
    refine ⟨b, by rw [hd]; rfl, h, hw, rfl, by omega, by omega, by omega, rfl, rfl⟩
  · rw [if_neg h0]
    by_cases hbig : dst0.length < w + a
    · left
      exact ⟨if_pos hbig, by omega, hbig⟩
    · right
      rw [if_neg hbig]
      obtain ⟨b', g1, g2, g3, g4⟩ := readSome_R h hw hk a
      have hfast : readSome a b = (.ok (some ((b.readBuf.drop b.readPos).take a)), { b with readPos := b.readPos + a }) := by
        unfold readSome
        exact if_pos (by change a ≤ b.extra; omega)
      rw [hfast] at g1
      have e1 : (b.readBuf.drop b.readPos).take a = (ahead f w).rest.take a := by
        have := congrArg Prod.fst g1
        simpa using this
      have e2 : { b with readPos := b.readPos + a } = b' := congrArg Prod.snd g1
      subst e2
      have htl : ((ahead f w).rest.take a).length = a := by
        rw [rest_ahead, List.length_take, List.length_drop]; omega
      refine ⟨{ b with readPos := b.readPos + a }, ?_, ?_, hw, rfl, ?_, by omega, by omega, rfl, rfl⟩
      · rw [e1, rest_ahead, hd, splice _ _ _ _ hf]
      · have := g2
        rw [htl] at this
        have e : (ahead f w).pos + a = f.pos + (w + a) := by simp [ahead]; omega
        rw [e] at this
        exact this
      · simp only [extra]; omega

/-- What `_readinto` may return. -/
def IntoDone (read1 : Bool) (f : File) (dst0 : Bytes) (r : Except Exn (Nat × Bytes)) (b' : Buf) : Prop :=
  ∃ n, r = .ok (n, f.rest.take n ++ dst0.drop n) ∧ n ≤ dst0.length ∧ n ≤ f.rest.length ∧
    (read1 = false → n = min dst0.length f.rest.length) ∧ (n = 0 → dst0 = [] ∨ f.rest = []) ∧ R b' (ahead f n)

theorem readintoLoop_R (read1 : Bool) {f : File} {dst0 : Bytes} (fuel : Nat) : ∀ (b : Buf) (dst : Bytes) (w : Nat),
    R b (ahead f w) → b.writeBuf = [] → b.kind ≠ .writer → dst = f.rest.take w ++ dst0.drop w → w ≤ dst0.length →
    w ≤ f.rest.length → (dst0.length - w) + (if b.extra = 0 then 1 else 0) ≤ fuel → (read1 = true → w = 0) → dst0 ≠ [] →
    ∃ r b', readintoLoop read1 fuel dst w b = (r, b') ∧
      ((r = .error .valueError ∧ read1 = false ∧ ¬ (b.raw.sched = [] ∧ Good b f dst0.length w)) ∨
        IntoDone read1 f dst0 r b') := by
  induction fuel with
  | zero =>
    intro b dst w h hw hk hd hle hf hfuel hr1 hne
    have hw0 : w = dst0.length := by omega
    have hpos : 0 < dst0.length := List.length_pos_iff.2 hne
    exact ⟨_, b, rfl, Or.inr ⟨w, by rw [hd], hle, hf, fun _ => by omega, fun h0 => by omega, h⟩⟩
  | succ fuel ih =>
    intro b dst w h hw hk hd hle hf hfuel hr1 hne
    have hpos : 0 < dst0.length := List.length_pos_iff.2 hne
    have hlen : dst.length = dst0.length := by
      rw [hd, List.length_append, List.length_take, List.length_drop]; omega
    have hex0 := h.extra_le
    rw [rest_ahead, List.length_drop] at hex0
    unfold readintoLoop
    by_cases hlt : w < dst0.length
    · rw [if_pos (by omega)]
      rcases copyOut_R h hw hk hd hlt hf with ⟨g1, g2, g3⟩ | ⟨b1, g1, g2, g3, g4, g5, g6, g7, g8, g9⟩
      · refine ⟨_, b, PyM.bind_error g1, Or.inl ⟨rfl, ?_, ?_⟩⟩
        · cases read1 with
          | false => rfl
          | true => have := hr1 rfl; omega
        · rintro ⟨_, hg⟩
          rcases hg with ⟨hw0, _⟩ | hg <;> omega
      · rw [PyM.bind_ok g1]
        dsimp only
        generalize hw1 : w + min b.extra dst0.length = w1 at *
        have hlen1 : (f.rest.take w1 ++ dst0.drop w1).length = dst0.length := by
          rw [List.length_append, List.length_take, List.length_drop]; omega
        rw [hlen1]
        by_cases hdone : w1 = dst0.length
        · rw [if_pos hdone]
          exact ⟨_, b1, rfl, Or.inr ⟨w1, rfl, by omega, g7, fun _ => by omega, fun h0 => by omega, g2⟩⟩
        · rw [if_neg hdone]
          have hex1 : b1.extra = 0 := by omega
          have hk1 : b1.kind ≠ .writer := by rw [g4]; exact hk
          have hl1 := g2.live
          have hraw : b1.raw.data.drop b1.raw.pos = f.rest.drop w1 := by
            rw [g2.data' g3, g2.pos' g3, hex1]
            exact rest_ahead f w1
          unfold readMore
          rw [hlen1]
          by_cases hdirect : b1.bufferSize < dst0.length - w1
          · -- straight into the buffer of the caller
            rw [PyM.bind_apply, if_pos hdirect]
            have hdn : (f.rest.take w1 ++ dst0.drop w1).drop w1 ≠ [] := by
              intro h0
              have := congrArg List.length h0
              rw [List.length_drop, hlen1, List.length_nil] at this
              omega
            obtain ⟨k, s', e1, e2, e3, e4, e5, e6, e7, e8, e9⟩ :=
              Raw.readinto_blocking (dst := (f.rest.take w1 ++ dst0.drop w1).drop w1) hl1.opened (hl1.readable hk1) hl1.blocking hdn
            rw [hraw] at e1 e5
            rw [List.length_drop, hlen1] at e3 e9
            rw [PyM.bind_ok (onRaw_eq e1)]
            dsimp only
            generalize hgot : (f.rest.drop w1).take k = got at *
            have hgl : got.length = min k (f.rest.length - w1) := by
              rw [← hgot, List.length_take, List.length_drop]
            have hR2 : R { b1 with raw := s' } (ahead f (w1 + got.length)) := by
              have hx : extra { b1 with raw := s' } = 0 := hex1
              refine ⟨hl1.frame rfl rfl e7 e6, g2.inside, ?_, Or.inr g3, fun _ => g3, g2.writer, ?_, ?_, nofun, ?_⟩
              · rw [hx, List.take_zero]
                have := g2.unread
                rw [hex1, List.take_zero] at this
                exact this
              · dsimp only
                rw [g3, writeAt_nil, e4, g2.data' g3]; rfl
              · rw [hx]
                dsimp only
                rw [g3, e5, g2.pos' g3, hex1]
                simp [ahead]; omega
              · exact g2.log.trans e8.symm
            by_cases hz : got.length = 0
            · -- end of the file
              simp only [hz, if_true, PyM.pure_apply]
              rw [if_pos (Or.inl trivial)]
              have heof : f.rest.length = w1 := by omega
              rw [hz, Nat.add_zero] at hR2
              refine ⟨_, _, rfl, Or.inr ⟨w1, rfl, by omega, g7, fun _ => by omega, fun h0 => Or.inr ?_, hR2⟩⟩
              exact List.length_eq_zero_iff.1 (by omega)
            · simp only [hz, if_false, PyM.pure_apply, Bool.false_eq_true, false_or]
              have hnew : (f.rest.take w1 ++ dst0.drop w1).take w1 ++
                  (got ++ ((f.rest.take w1 ++ dst0.drop w1).drop w1).drop got.length) =
                  f.rest.take (w1 + got.length) ++ dst0.drop (w1 + got.length) := by
                rw [← splice _ _ _ _ g7, List.append_assoc, List.drop_drop]
                congr 2
                rw [← hgot, List.length_take]
                by_cases hkl : k ≤ (f.rest.drop w1).length
                · rw [Nat.min_eq_left hkl]
                · rw [Nat.min_eq_right (by omega), List.take_of_length_le (by omega), List.take_of_length_le (by omega)]
              rw [hnew]
              by_cases hr : read1 = true
              · rw [if_pos ⟨hr, by omega⟩]
                refine ⟨_, _, rfl, Or.inr ⟨w1 + got.length, rfl, by omega, by omega, fun h0 => ?_, fun h0 => by omega, hR2⟩⟩
                rw [hr] at h0; cases h0
              · rw [if_neg (fun hc => hr hc.1)]
                obtain ⟨r, b', i1, i2⟩ := ih { b1 with raw := s' } _ (w1 + got.length) hR2 g3 hk1 rfl (by omega) (by omega)
                  (by
                    have hx : extra { b1 with raw := s' } = 0 := hex1
                    rw [hx, if_pos rfl]
                    split at hfuel <;> omega)
                  (fun hc => absurd hc hr) hne
                refine ⟨r, b', i1, ?_⟩
                rcases i2 with ⟨i2, i3, i4⟩ | i2
                · refine Or.inl ⟨i2, i3, ?_⟩
                  rintro ⟨hs, _⟩
                  apply i4
                  rw [← g9] at hs
                  refine ⟨(e9 hs).2, ?_⟩
                  have hkk := (e9 hs).1
                  by_cases hfull : f.rest.length ≤ w1 + got.length
                  · exact Or.inr hfull
                  · exfalso
                    -- then the loop ends with a full buffer
                    have hfin : w1 + got.length = dst0.length := by omega
                    have : readintoLoop read1 fuel
                        (f.rest.take (w1 + got.length) ++ dst0.drop (w1 + got.length)) (w1 + got.length)
                        { b1 with raw := s' } = (.ok (w1 + got.length, f.rest.take (w1 + got.length) ++
                          dst0.drop (w1 + got.length)), { b1 with raw := s' }) := by
                      cases fuel with
                      | zero => rfl
                      | succ fuel =>
                        unfold readintoLoop
                        rw [if_neg]
                        · rfl
                        · rw [List.length_append, List.length_take, List.length_drop]; omega
                    rw [this] at i1
                    rw [i2] at i1
                    cases i1
                · exact Or.inr i2
          · rw [PyM.bind_apply, if_neg hdirect]
            by_cases hskip : read1 = true ∧ w1 ≠ 0
            · rw [if_pos hskip]
              dsimp only
              rw [if_pos (Or.inr hskip)]
              refine ⟨_, b1, rfl, Or.inr ⟨w1, rfl, by omega, g7, fun h0 => ?_, fun h0 => by omega, g2⟩⟩
              rw [hskip.1] at h0; cases h0
            · rw [if_neg hskip]
              obtain ⟨b2, e1, e2, e3, e4, e5, e6, e7⟩ := peekUnlocked_R g2 g3 hk1 1
              rw [PyM.bind_ok e1]
              simp only [PyM.pure_apply]
              have hR2 : R b2 (ahead f w1) := e2
              by_cases hnil : b2.readBuf.drop b2.readPos = []
              · rw [decide_eq_true hnil, if_pos (Or.inl rfl)]
                have heof := e6 hnil
                rw [rest_ahead] at heof
                have := List.drop_eq_nil_iff.1 heof
                refine ⟨_, b2, rfl, Or.inr ⟨w1, rfl, by omega, g7, fun _ => by omega, fun h0 => Or.inr ?_, hR2⟩⟩
                exact List.length_eq_zero_iff.1 (by omega)
              · rw [decide_eq_false hnil, if_neg (fun hc => hc.elim (fun h0 => Bool.noConfusion h0) hskip)]
                have hext : b2.extra ≠ 0 := by
                  intro h0
                  apply hnil
                  apply List.drop_eq_nil_of_le
                  unfold extra at h0
                  omega
                obtain ⟨r, b', i1, i2⟩ := ih b2 _ w1 hR2 e3 (by rw [e4]; exact hk1) rfl (by omega) g7
                  (by
                    rw [if_neg hext]
                    split at hfuel <;> omega)
                  (fun hc => by
                    apply Decidable.byContradiction
                    intro h0
                    exact hskip ⟨hc, h0⟩) hne
                refine ⟨r, b', i1, ?_⟩
                rcases i2 with ⟨i2, i3, i4⟩ | i2
                · refine Or.inl ⟨i2, i3, ?_⟩
                  rintro ⟨hs, hg⟩
                  apply i4
                  rw [← g9] at hs
                  obtain ⟨j1, j2⟩ := e7 hs hex1
                  rw [rest_ahead, List.length_drop] at j2
                  refine ⟨j1, ?_⟩
                  have hne2 : w1 < f.rest.length := by
                    apply Decidable.byContradiction
                    intro hc
                    omega
                  rcases hg with ⟨hw0, hg⟩ | hg
                  · rcases hg with hg | hg | hg | hg
                    · left
                      refine ⟨by omega, ?_⟩
                      have : w1 = 0 := by omega
                      subst this
                      rw [Nat.sub_zero] at j2
                      rcases Nat.le_total b1.bufferSize f.rest.length with hc | hc
                      · right; left; omega
                      · right; right; right; omega
                    · omega
                    · omega
                    · omega
                  · omega
                · exact Or.inr i2
    · rw [if_neg (by omega)]
      have hw0 : w = dst0.length := by omega
      exact ⟨_, b, rfl, Or.inr ⟨w, by rw [hd], hle, hf, fun _ => by omega, fun h0 => by omega, h⟩⟩

theorem readerReadinto_R (read1 : Bool) {b : Buf} {f : File} (h : R b f) (hw : b.writeBuf = []) (hk : b.kind ≠ .writer)
    (dst : Bytes) : ∃ r b', readerReadinto read1 dst b = (r, b') ∧
      ((r = .error .valueError ∧ read1 = false ∧ ¬ (b.raw.sched = [] ∧ Good b f dst.length 0)) ∨ IntoDone read1 f dst r b') := by
  unfold readerReadinto
  rw [PyM.bind_ok (checkClosed_ok h.live.opened)]
  by_cases hd : dst = []
  · rw [if_pos hd]
    refine ⟨_, b, rfl, Or.inr ⟨0, by simp [hd], by omega, by omega, fun _ => by simp [hd], fun _ => Or.inl hd, ?_⟩⟩
    exact h.mono
  · rw [if_neg hd]
    have hpos : 0 < dst.length := List.length_pos_iff.2 hd
    exact readintoLoop_R read1 (2 * dst.length) b dst 0 h.mono hw hk (by simp) (by omega) (by omega)
      (by split <;> omega) (fun _ => rfl) hd

theorem readinto_R (read1 : Bool) {b : Buf} {f : File} (h : R b f) (hk : b.kind ≠ .writer) (dst : Bytes) :
    ∃ r b', readinto read1 dst b = (r, b') ∧ ((r = .error .valueError ∧ read1 = false) ∨ IntoDone read1 f dst r b') := by
  unfold readinto
  split
  · rename_i hc; exact absurd hc hk
  · rename_i hc
    obtain ⟨r, b', h1, h2⟩ := readerReadinto_R read1 h (h.reader hc) hk dst
    refine ⟨r, b', h1, ?_⟩
    rcases h2 with ⟨h2, h3, _⟩ | h2
    · exact Or.inl ⟨h2, h3⟩
    · exact Or.inr h2
  · obtain ⟨b1, g1, g2, g3, g4, _⟩ := flush_R h
    rw [PyM.bind_ok g1]
    obtain ⟨r, b', h1, h2⟩ := readerReadinto_R read1 g2 g3 (by rw [g4]; exact hk) dst
    refine ⟨r, b', h1, ?_⟩
    rcases h2 with ⟨h2, h3, _⟩ | h2
    · exact Or.inl ⟨h2, h3⟩
    · exact Or.inr h2

end Verif.Buf
