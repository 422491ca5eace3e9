import Verif.Lemmas.BufferedRefine
import Verif.Spec.Reading

/-!
# Buffered reading when no system call fails
-/

set_option autoImplicit false

namespace Verif

open Spec

theorem prefix_take {l r : Bytes} (h : l <+: r) : r.take l.length = l := by
  obtain ⟨t, rfl⟩ := h; simp

theorem prefix_add {x y rest : Bytes} (hx : x <+: rest) (hy : y <+: rest.drop x.length) : x ++ y <+: rest := by
  obtain ⟨t, rfl⟩ := hx
  rw [List.drop_left] at hy
  obtain ⟨u, rfl⟩ := hy
  exact ⟨u, by simp⟩

theorem prefix_rest {x y rest : Bytes} (h : x ++ y <+: rest) : y <+: rest.drop x.length := by
  obtain ⟨t, rfl⟩ := h
  rw [List.append_assoc, List.drop_left]
  exact ⟨t, rfl⟩

theorem stopped_append {l m : List OsAns} (h : Stopped m) : Stopped (l ++ m) := by
  obtain ⟨a, h1, h2⟩ := h
  exact ⟨a, by rw [List.getLast?_append, h1]; rfl, h2⟩

/-- A raw stream on which no system call fails, at position `q` of the file `data`. -/
structure Raw.Smooth (data : Bytes) (q : Nat) (s : Raw) : Prop where
  opened : s.closed = false
  readable : s.readable = true
  calm : ∀ a ∈ s.sched, ∀ e, a ≠ .fail e
  data : s.data = data
  pos : s.pos = q

namespace Raw

variable {data : Bytes} {q : Nat} {s : Raw}

theorem innerRead_smooth (n : Nat) (h : Smooth data q s) :
    ∃ r s' used, innerRead n s = (.ok r, s') ∧ s.sched = used ++ s'.sched ∧ Smooth data (q + (r.getD []).length) s' ∧
      r.getD [] <+: data.drop q ∧
      (r = none → used.getLast? = some .again) ∧
      (r.getD [] = [] → n = 0 ∨ data.length ≤ q ∨ Stopped used) := by
  obtain ⟨ho, hr, hc, rfl, rfl⟩ := h
  rcases innerRead_cases n s with ⟨k, sched', h, hk, hs⟩ | ⟨sched', h, hs⟩ | ⟨sched', h, hs⟩ | ⟨e, sched', h, hs⟩
  · rcases hs with ⟨h0, rfl, rfl⟩ | ⟨j, hj, rfl⟩
    · refine ⟨_, _, [], h, by simp [h0], ⟨ho, hr, by simp, rfl, rfl⟩, List.take_prefix _ _, nofun, fun hn => ?_⟩
      rcases List.take_eq_nil_iff.1 hn with h1 | h1
      · exact .inl h1
      · exact .inr (.inl (List.drop_eq_nil_iff.1 h1))
    · refine ⟨_, _, [.count j], h, by rw [hj]; rfl, ⟨ho, hr, fun a ha => hc a (by rw [hj]; exact List.mem_cons_of_mem _ ha), rfl, rfl⟩,
        List.take_prefix _ _, nofun, fun hn => ?_⟩
      rcases List.take_eq_nil_iff.1 hn with h1 | h1
      · by_cases hj0 : j = 0
        · exact .inr (.inr ⟨.count j, rfl, .inr (.inr (by rw [hj0]))⟩)
        · exact .inl (by omega)
      · exact .inr (.inl (List.drop_eq_nil_iff.1 h1))
  · exact ⟨_, _, [.again], h, by rw [hs]; rfl, ⟨ho, hr, fun a ha => hc a (by rw [hs]; exact List.mem_cons_of_mem _ ha), rfl, rfl⟩,
      List.nil_prefix, fun _ => rfl, fun _ => .inr (.inr ⟨_, rfl, .inl rfl⟩)⟩
  · exact ⟨_, _, [.pipe], h, by rw [hs]; rfl, ⟨ho, hr, fun a ha => hc a (by rw [hs]; exact List.mem_cons_of_mem _ ha), rfl, rfl⟩,
      List.nil_prefix, nofun, fun _ => .inr (.inr ⟨_, rfl, .inr (.inl rfl)⟩)⟩
  · exact absurd rfl (hc _ (by simp [hs]) e)

theorem readallLoop_smooth (fuel : Nat) : ∀ (chunks : Bytes) (q : Nat) (s : Raw), Smooth data q s → data.length - q < fuel →
    ∃ got r s' used, readallLoop fuel chunks s = (.ok r, s') ∧ s.sched = used ++ s'.sched ∧ Smooth data (q + got.length) s' ∧
      got <+: data.drop q ∧ (r = some (chunks ++ got) ∨ (r = none ∧ chunks = [] ∧ got = [] ∧ used.getLast? = some .again)) ∧
      (data.length ≤ q + got.length ∨ Stopped used) := by
  induction fuel with
  | zero => intro _ _ _ _ h; omega
  | succ fuel ih =>
    intro chunks q s h hf
    obtain ⟨r, s', used, h1, h2, h3, h4, h5, h6⟩ := innerRead_smooth chunkSize h
    unfold readallLoop
    rw [PyM.bind_apply, readN_eq _ h.opened h.readable, h1]
    dsimp only
    match r with
    | none =>
      refine ⟨[], _, s', used, rfl, h2, h3, List.nil_prefix, ?_, ?_⟩
      · by_cases hc : chunks = []
        · right; simp [hc, h5 rfl]
        · left; simp [hc]
      · exact ((h6 rfl).resolve_left (by decide)).imp_left (by simp)
    | some [] =>
      refine ⟨[], _, s', used, rfl, h2, h3, List.nil_prefix, ?_, ?_⟩
      · left
        by_cases hc : chunks = []
        · simp [hc]
        · simp [hc]
      · exact ((h6 rfl).resolve_left (by decide)).imp_left (by simp)
    | some (c :: cs) =>
      dsimp only
      have hp : (c :: cs) <+: data.drop q := h4
      have hlen := hp.length_le
      simp only [List.length_cons, List.length_drop] at hlen
      obtain ⟨got, r', s'', used', g1, g2, g3, g4, g5, g6⟩ := ih (chunks ++ (c :: cs)) _ s' h3 (by
        simp only [Option.getD_some, List.length_cons]; omega)
      refine ⟨(c :: cs) ++ got, r', s'', used ++ used', g1, by rw [h2, g2, List.append_assoc], ?_, ?_, ?_, ?_⟩
      · rw [List.length_append, ← Nat.add_assoc]; exact g3
      · refine prefix_add hp ?_
        rw [List.drop_drop]; exact g4
      · rcases g5 with g5 | ⟨_, h0, _⟩
        · left; rw [g5, List.append_assoc]
        · simp at h0
      · rcases g6 with g6 | g6
        · left; rw [List.length_append, ← Nat.add_assoc]; exact g6
        · exact .inr (stopped_append g6)

end Raw

namespace Buf

/-- A stream that reads the file `data`, on which no system call fails, and whose next byte is that at `p`. -/
structure Smooth (data : Bytes) (p : Nat) (b : Buf) : Prop where
  kind : b.kind ≠ .writer
  size : 0 < b.bufferSize
  clean : b.writeBuf = []
  inside : b.readPos ≤ b.readBuf.length
  unread : b.readBuf.drop b.readPos <+: data.drop p
  raw : b.raw.Smooth data (p + (b.readBuf.drop b.readPos).length)

/-- The system has given the answers `used`. -/
structure After (b : Buf) (used : List OsAns) (b' : Buf) : Prop where
  kind : b'.kind = b.kind
  size : b'.bufferSize = b.bufferSize
  sched : b.raw.sched = used ++ b'.raw.sched

theorem After.trans {b b' b'' : Buf} {u v : List OsAns} (h : After b u b') (h' : After b' v b'') : After b (u ++ v) b'' :=
  ⟨h'.kind.trans h.kind, h'.size.trans h.size, by rw [h.sched, h'.sched, List.append_assoc]⟩

theorem After.refl (b : Buf) : After b [] b := ⟨rfl, rfl, rfl⟩

variable {data : Bytes} {p : Nat} {b : Buf}

theorem flush_smooth (h : Smooth data p b) (hk : b.kind = .random) : flush b = (.ok (), b) := by
  unfold flush
  rw [hk]
  dsimp only
  unfold flushUnlocked
  rw [PyM.bind_ok (checkClosed_ok h.raw.opened), PyM.bind_ok (PyM.get_apply b), h.clean]
  rfl

theorem fillLoop_smooth (wanted n : Nat) (hw : 0 < wanted) (fuel : Nat) : ∀ (b : Buf) (out : Bytes),
    out <+: data.drop p → b.raw.Smooth data (p + out.length) → n - out.length ≤ fuel →
    ∃ out' nd s' used, fillLoop wanted n fuel out b = (.ok (out', nd), { b with raw := s' }) ∧
      b.raw.sched = used ++ s'.sched ∧ out <+: out' ∧ out' <+: data.drop p ∧ s'.Smooth data (p + out'.length) ∧
      (nd = none → used.getLast? = some .again) ∧ nd.getD [] = [] ∧
      (n ≤ out'.length ∨ data.length ≤ p + out'.length ∨ Stopped used) := by
  induction fuel with
  | zero =>
    intro b out ho hb hf
    exact ⟨out, some [], b.raw, [], rfl, rfl, List.prefix_refl _, ho, hb, nofun, rfl, .inl (by omega)⟩
  | succ fuel ih =>
    intro b out ho hb hf
    unfold fillLoop
    by_cases hlt : out.length < n
    · rw [if_pos hlt]
      obtain ⟨r, s', used, h1, h2, h3, h4, h5, h6⟩ := Raw.innerRead_smooth wanted hb
      rw [← Raw.readSome_eq _ hb.opened hb.readable] at h1
      rw [PyM.bind_ok (onRaw_eq h1)]
      match r with
      | none =>
        exact ⟨out, none, s', used, rfl, h2, List.prefix_refl _, ho, h3, h5, rfl, .inr ((h6 rfl).resolve_left (by omega))⟩
      | some [] =>
        exact ⟨out, some [], s', used, rfl, h2, List.prefix_refl _, ho, h3, nofun, rfl,
          .inr ((h6 rfl).resolve_left (by omega))⟩
      | some (c :: cs) =>
        dsimp only
        obtain ⟨out', nd, s'', used', g1, g2, g3, g4, g5, g6, g7, g8⟩ := ih { b with raw := s' } (out ++ (c :: cs))
          (prefix_add ho (by rw [List.drop_drop]; exact h4)) (by rw [List.length_append, ← Nat.add_assoc]; exact h3)
          (by simp only [List.length_append, List.length_cons]; omega)
        refine ⟨out', nd, s'', used ++ used', g1, by rw [h2, List.append_assoc]; exact congrArg _ g2, ?_, g4, g5, ?_, g7, ?_⟩
        · exact (List.prefix_append _ _).trans g3
        · intro h; rw [List.getLast?_append, g6 h]; rfl
        · exact g8.imp_right (Or.imp_right stopped_append)
    · rw [if_neg hlt]
      exact ⟨out, some [], b.raw, [], rfl, rfl, List.prefix_refl _, ho, hb, nofun, rfl, .inl (by omega)⟩

/-- What a call that returns bytes or `None` has done. -/
structure Took (data : Bytes) (p : Nat) (b : Buf) (used : List OsAns) (r : Option Bytes) (b' : Buf) : Prop where
  bytes : r.getD [] <+: data.drop p
  calm : Smooth data (p + (r.getD []).length) b'
  after : After b used b'
  nothing : r = none → used.getLast? = some .again

theorem readSome_smooth (h : Smooth data p b) (n : Nat) : ∃ r b' used, readSome n b = (.ok r, b') ∧ Took data p b used r b' ∧
    (r.getD []).length ≤ n ∧
    ((r.getD []).length = n ∨ data.length ≤ p + (r.getD []).length ∨ Stopped used) := by
  unfold readSome
  by_cases hn : n ≤ b.readBuf.length - b.readPos
  · rw [if_pos hn]
    have hl : ((b.readBuf.drop b.readPos).take n).length = n := by simp; omega
    refine ⟨_, _, [], rfl, ⟨(List.take_prefix _ _).trans h.unread, ⟨h.kind, h.size, h.clean, ?_, ?_, ?_⟩, ⟨rfl, rfl, rfl⟩,
      nofun⟩, ?_, ?_⟩
    · have := h.inside; dsimp only; omega
    · rw [Option.getD_some, hl]
      have := prefix_rest (x := (b.readBuf.drop b.readPos).take n) (y := (b.readBuf.drop b.readPos).drop n)
        (by rw [List.take_append_drop]; exact h.unread)
      rw [hl, List.drop_drop, List.drop_drop] at this
      exact this
    · rw [Option.getD_some, hl]
      have := h.raw
      have e : p + n + (b.readBuf.drop (b.readPos + n)).length = p + (b.readBuf.drop b.readPos).length := by
        simp only [List.length_drop]; omega
      dsimp only
      rw [e]; exact this
    · rw [Option.getD_some, hl]; exact Nat.le_refl _
    · rw [Option.getD_some, hl]; exact .inl rfl
  · rw [if_neg hn]
    obtain ⟨out, nd, s', used, h1, h2, h3, h4, h5, h6, h7, h8⟩ := fillLoop_smooth (data := data) (p := p) (max b.bufferSize n) n
      (by have := h.size; omega) n b (b.readBuf.drop b.readPos) h.unread h.raw (by omega)
    rw [PyM.bind_ok h1]
    unfold keepExtra
    rw [PyM.bind_ok (PyM.modify_apply _ _)]
    have hmin : min n out.length ≤ out.length := Nat.min_le_right _ _
    have htk : (if out = [] then nd else some (out.take (min n out.length))).getD [] = out.take (min n out.length) := by
      split
      · rename_i h0; rw [h7, h0]; simp
      · rfl
    have hlen : (out.take (min n out.length)).length = min n out.length := by simp
    refine ⟨_, _, used, rfl, ⟨?_, ⟨h.kind, h.size, h.clean, Nat.zero_le _, ?_, ?_⟩, ⟨rfl, rfl, h2⟩, ?_⟩, ?_, ?_⟩
    · rw [htk]; exact (List.take_prefix _ _).trans h4
    · rw [htk, hlen]
      have := prefix_rest (x := out.take (min n out.length)) (y := out.drop (min n out.length))
        (by rw [List.take_append_drop]; exact h4)
      rw [hlen, List.drop_drop] at this
      exact this
    · rw [htk, hlen]
      have e : p + min n out.length + ((out.drop (min n out.length)).drop 0).length = p + out.length := by
        simp only [List.length_drop]; omega
      rw [e]; exact h5
    · intro hr
      split at hr
      · exact h6 hr
      · cases hr
    · rw [htk, hlen]; omega
    · rw [htk, hlen]
      rcases h8 with h8 | h8 | h8
      · left; omega
      · by_cases hle : n ≤ out.length
        · left; omega
        · right; left; omega
      · exact .inr (.inr h8)

theorem readRest_smooth (h : Smooth data p b) : ∃ r b' used, readRest b = (.ok r, b') ∧ Took data p b used r b' ∧
    (data.length ≤ p + (r.getD []).length ∨ Stopped used) := by
  unfold readRest
  unfold resetReadBuf
  rw [PyM.bind_ok (PyM.modify_apply _ _)]
  obtain ⟨got, r, s', used, h1, h2, h3, h4, h5, h6⟩ := Raw.readallLoop_smooth (data := data)
    (b.raw.data.length - b.raw.pos + 1) [] _ b.raw h.raw (by rw [h.raw.data, h.raw.pos]; omega)
  rw [PyM.bind_ok (onRaw_eq (b := { b with readBuf := [], readPos := 0 }) (show Raw.readall b.raw = _ from h1))]
  rw [List.nil_append] at h5
  have key : ∀ R : Option Bytes, R.getD [] = b.readBuf.drop b.readPos ++ got → (R = none → used.getLast? = some .again) →
      Took data p b used R { b with raw := s', readBuf := [], readPos := 0 } ∧
        (data.length ≤ p + (R.getD []).length ∨ Stopped used) := by
    intro R hR hn
    refine ⟨⟨?_, ⟨h.kind, h.size, h.clean, Nat.le_refl _, List.nil_prefix, ?_⟩, ⟨rfl, rfl, h2⟩, hn⟩, ?_⟩
    · rw [hR]; exact prefix_add h.unread (by rw [List.drop_drop]; exact h4)
    · rw [hR, List.length_append]
      simpa [Nat.add_assoc] using h3
    · rw [hR, List.length_append]
      exact h6.imp_left (by omega)
  rcases h5 with rfl | ⟨rfl, _, rfl, ha⟩
  · exact ⟨_, _, used, rfl, key _ rfl nofun⟩
  · refine ⟨_, _, used, rfl, key _ ?_ fun _ => ha⟩
    dsimp only
    split
    · rename_i h0; rw [h0]; rfl
    · simp

/-- How many bytes a call asks for: `none` is all. -/
def asked (n : Option Int) : Option Nat := match n with
  | none => none
  | some z => if z < 0 then none else some z.toNat

theorem readerRead_smooth (h : Smooth data p b) (n : Option Int) :
    (readerRead n b = (.error .valueError, b) ∧ ∃ z, n = some z ∧ z < -1) ∨
    ((∀ z, n = some z → -1 ≤ z) ∧ ∃ r b' used, readerRead n b = (.ok r, b') ∧ Took data p b used r b' ∧
      (∀ k, asked n = some k → (r.getD []).length ≤ k) ∧
      (asked n = some (r.getD []).length ∨ data.length ≤ p + (r.getD []).length ∨ Stopped used)) := by
  match n with
  | none =>
    obtain ⟨r, b', used, h1, h2, h3⟩ := readRest_smooth h
    exact .inr ⟨nofun, r, b', used, h1, h2, nofun, .inr h3⟩
  | some z =>
    unfold readerRead
    dsimp only
    by_cases hz : z < -1
    · rw [if_pos hz]
      exact .inl ⟨rfl, z, rfl, hz⟩
    · right
      refine ⟨fun z' h => by cases h; omega, ?_⟩
      rw [if_neg hz]
      by_cases hz1 : z = -1
      · rw [if_pos hz1]
        obtain ⟨r, b', used, h1, h2, h3⟩ := readRest_smooth h
        refine ⟨r, b', used, h1, h2, ?_, .inr h3⟩
        simp [asked, hz1]
      · rw [if_neg hz1]
        obtain ⟨r, b', used, h1, h2, h3, h4⟩ := readSome_smooth h z.toNat
        have : ¬ z < 0 := by omega
        refine ⟨r, b', used, h1, h2, ?_, ?_⟩
        · intro k hk
          simp only [asked, this, if_false, Option.some.injEq] at hk
          omega
        · simpa only [asked, this, if_false, Option.some.injEq, eq_comm] using h4

theorem read_smooth (h : Smooth data p b) (n : Option Int) :
    (read n b = (.error .valueError, b) ∧ ∃ z, n = some z ∧ z < -1) ∨
    ((∀ z, n = some z → -1 ≤ z) ∧ ∃ r b' used, read n b = (.ok r, b') ∧ Took data p b used r b' ∧
      (∀ k, asked n = some k → (r.getD []).length ≤ k) ∧
      (asked n = some (r.getD []).length ∨ data.length ≤ p + (r.getD []).length ∨ Stopped used)) := by
  unfold read
  split
  · rename_i hk; exact absurd hk h.kind
  · exact readerRead_smooth h n
  · rename_i hk
    rw [PyM.bind_ok (flush_smooth h hk)]
    match n with
    | none => simpa [asked] using readerRead_smooth h (some (-1))
    | some z => exact readerRead_smooth h (some z)

theorem peekUnlocked_smooth (h : Smooth data p b) (n : Int) : ∃ x b' used, peekUnlocked n b = (.ok x, b') ∧ Smooth data p b' ∧
    After b used b' ∧ x = b'.readBuf.drop b'.readPos ∧ (x = [] → data.length ≤ p ∨ Stopped used) := by
  unfold peekUnlocked
  extract_lets have_
  by_cases hc : have_ < min n b.bufferSize ∨ have_ ≤ 0
  · have hlt : have_ < b.bufferSize := by have := h.size; omega
    have hnat : ((b.bufferSize : Int) - have_) = (((b.bufferSize : Int) - have_).toNat : Int) := by omega
    obtain ⟨r, s', used, h1, h2, h3, h4, h5, h6⟩ := Raw.innerRead_smooth ((b.bufferSize : Int) - have_).toNat h.raw
    rw [← Raw.readSome_eq _ h.raw.opened h.raw.readable, ← hnat] at h1
    have hpos : ((b.bufferSize : Int) - have_).toNat ≠ 0 := by omega
    have hcat : r.getD [] <+: (data.drop p).drop (b.readBuf.drop b.readPos).length := by rw [List.drop_drop]; exact h4
    obtain ⟨b', g1, g2, g3, g4⟩ : ∃ b', refill (b.bufferSize - have_) b = (.ok (), b') ∧ Smooth data p b' ∧ After b used b' ∧
        (b'.readBuf.drop b'.readPos = [] → data.length ≤ p ∨ Stopped used) := by
      unfold refill
      rw [PyM.bind_ok (onRaw_eq h1)]
      have hstop : b.readBuf.drop b.readPos = [] → r.getD [] = [] → data.length ≤ p ∨ Stopped used := by
        intro h0 h0'
        have := (h6 h0').resolve_left hpos
        rw [h0] at this
        exact this
      match r with
      | none => exact ⟨_, rfl, ⟨h.kind, h.size, h.clean, h.inside, h.unread, h3⟩, ⟨rfl, rfl, h2⟩, fun h0 => hstop h0 rfl⟩
      | some [] => exact ⟨_, rfl, ⟨h.kind, h.size, h.clean, h.inside, h.unread, h3⟩, ⟨rfl, rfl, h2⟩, fun h0 => hstop h0 rfl⟩
      | some (c :: cs) =>
        refine ⟨_, rfl, ⟨h.kind, h.size, h.clean, Nat.zero_le _, prefix_add h.unread hcat, ?_⟩, ⟨rfl, rfl, h2⟩, fun h0 => ?_⟩
        · change s'.Smooth data (p + (b.readBuf.drop b.readPos ++ (c :: cs)).length)
          rw [List.length_append, ← Nat.add_assoc]; exact h3
        · simp at h0
    have hw : PyM.when (decide (have_ < min n b.bufferSize ∨ have_ ≤ 0)) (refill (b.bufferSize - have_)) b = (.ok (), b') := by
      unfold PyM.when
      rw [if_pos (decide_eq_true hc), g1]
    rw [PyM.bind_ok hw]
    exact ⟨_, b', used, rfl, g2, g3, rfl, g4⟩
  · have hw : PyM.when (decide (have_ < min n b.bufferSize ∨ have_ ≤ 0)) (refill (b.bufferSize - have_)) b = (.ok (), b) := by
      simp [PyM.when, hc]
    rw [PyM.bind_ok hw]
    refine ⟨_, b, [], rfl, h, .refl b, rfl, fun h0 => ?_⟩
    have := congrArg List.length h0
    have := h.inside
    simp only [List.length_drop, List.length_nil] at *
    omega

theorem peek_smooth (h : Smooth data p b) (n : Int) : ∃ x b' used, peek n b = (.ok x, b') ∧ Smooth data p b' ∧ After b used b' ∧
    x <+: data.drop p ∧ (x = [] → data.length ≤ p ∨ Stopped used) := by
  obtain ⟨x, b', used, h1, h2, h3, rfl, h4⟩ := peekUnlocked_smooth h n
  refine ⟨_, b', used, ?_, h2, h3, h2.unread, h4⟩
  unfold peek
  split
  · rename_i hk; exact absurd hk h.kind
  · rw [PyM.bind_ok (checkClosed_ok h.raw.opened)]; exact h1
  · rename_i hk
    rw [PyM.bind_ok (flush_smooth h hk), PyM.bind_ok (checkClosed_ok h.raw.opened)]; exact h1

theorem Took.after_peek {b₁ : Buf} {u v : List OsAns} {r : Option Bytes} {b' : Buf} (h : After b u b₁)
    (h' : Took data p b₁ v r b') : Took data p b (u ++ v) r b' :=
  ⟨h'.bytes, h'.calm, h.trans h'.after, fun hr => by rw [List.getLast?_append, h'.nothing hr]; rfl⟩

theorem readerRead1_smooth (h : Smooth data p b) (n : Int) : ∃ r b' used, readerRead1 n b = (.ok r, b') ∧
    Took data p b used r b' ∧ (0 ≤ n → ((r.getD []).length : Int) ≤ n) ∧
    (n = 0 ∨ r.getD [] ≠ [] ∨ data.length ≤ p ∨ Stopped used) := by
  unfold readerRead1
  rw [PyM.bind_ok (checkClosed_ok h.raw.opened)]
  by_cases hn : n = 0
  · rw [if_pos hn]
    exact ⟨some [], b, [], rfl, ⟨List.nil_prefix, h, .refl b, nofun⟩, by simp [hn], .inl hn⟩
  · rw [if_neg hn]
    unfold read1Unlocked
    obtain ⟨x, b₁, u, h1, h2, h3, hx, h4⟩ := peekUnlocked_smooth h 1
    rw [PyM.bind_ok h1, PyM.bind_ok (PyM.get_apply b₁)]
    generalize hm : (min (if n < 0 then (b.bufferSize : Int) else n) ((b₁.readBuf.length : Int) - b₁.readPos)).toNat = m
    obtain ⟨r, b', v, g1, g2, g3, g4⟩ := readSome_smooth h2 m
    have hin := h2.inside
    refine ⟨r, b', u ++ v, g1, .after_peek h3 g2, fun h0 => ?_, .inr ?_⟩
    · have : ¬ n < 0 := by omega
      rw [if_neg this] at hm
      omega
    · by_cases h0 : x = []
      · refine .inr ((h4 h0).imp_right fun h5 => ?_)
        have hm0 : m = 0 := by
          have := congrArg List.length (hx.symm.trans h0)
          simp only [List.length_drop, List.length_nil] at this
          omega
        subst hm0
        have : v = [] := by
          have e : readSome 0 b₁ = (.ok (some ((b₁.readBuf.drop b₁.readPos).take 0)), { b₁ with readPos := b₁.readPos + 0 }) := by
            unfold readSome; rw [if_pos (Nat.zero_le _)]
          rw [e] at g1
          have := (Prod.mk.inj g1).2
          have hs := g2.after.sched
          rw [← this] at hs
          simpa using hs
        rw [this, List.append_nil]
        exact h5
      · left
        have hlen : 0 < b₁.readBuf.length - b₁.readPos := by
          rw [← List.length_drop, ← hx]; exact List.length_pos_iff.2 h0
        have hs := h.size
        have hm1 : 0 < m := by split at hm <;> omega
        have hme : m ≤ b₁.readBuf.length - b₁.readPos := by omega
        have e : readSome m b₁ = (.ok (some ((b₁.readBuf.drop b₁.readPos).take m)), { b₁ with readPos := b₁.readPos + m }) := by
          unfold readSome; rw [if_pos hme]
        rw [e] at g1
        have := Except.ok.inj (Prod.mk.inj g1).1
        rw [← this, Option.getD_some]
        intro h'
        rcases List.take_eq_nil_iff.1 h' with h' | h'
        · omega
        · rw [← hx] at h'; exact h0 h'

theorem read1_smooth (h : Smooth data p b) (n : Int) : ∃ r b' used, read1 n b = (.ok r, b') ∧
    Took data p b used r b' ∧ (0 ≤ n → ((r.getD []).length : Int) ≤ n) ∧
    (n = 0 ∨ r.getD [] ≠ [] ∨ data.length ≤ p ∨ Stopped used) := by
  unfold read1
  split
  · rename_i hk; exact absurd hk h.kind
  · exact readerRead1_smooth h n
  · rename_i hk
    rw [PyM.bind_ok (flush_smooth h hk)]
    exact readerRead1_smooth h n

theorem nreadahead_smooth (h : Smooth data p b) (size : Int) (hs : size ≠ 0) : ∃ n b' used, nreadahead size b = (.ok n, b') ∧
    Smooth data p b' ∧ After b used b' ∧ 1 ≤ n ∧ (10 : Byte) ∉ ((data.drop p).take n.toNat).dropLast := by
  obtain ⟨x, b', used, h1, h2, h3, h4, h5⟩ := peek_smooth h 1
  unfold nreadahead
  split
  · rename_i hk; exact absurd hk h.kind
  · rw [PyM.bind_ok h1]
    refine ⟨_, b', used, rfl, h2, h3, ?_, ?_⟩
    · split
      · exact Int.le_refl _
      · rename_i h0
        have := lineLength_pos h0
        split <;> omega
    · have key : ∀ n : Nat, n ≤ lineLength x → (10 : Byte) ∉ ((data.drop p).take n).dropLast := by
        intro n hn
        have hle := lineLength_le x
        have : (data.drop p).take n = x.take n := by
          obtain ⟨u, hu⟩ := h4
          rw [← hu, List.take_append_of_le_length (by omega)]
        rw [this]
        exact lineLength_take x n hn
      split
      · intro h'
        have : (((data.drop p).take (1 : Int).toNat).dropLast).length ≤ 0 := by simp; omega
        rw [List.length_eq_zero_iff.1 (Nat.le_zero.1 this)] at h'
        cases h'
      · split
        · exact key _ (by omega)
        · exact key _ (by omega)

/-- What a line looks like: it has no newline but the last byte, and it ends with one unless the size is reached, or there
is nothing more to read, for now or at all. -/
def LineLike (data : Bytes) (p : Nat) (size : Int) (line : Bytes) (used : List OsAns) : Prop :=
  (10 : Byte) ∉ line.dropLast ∧
    (line.getLast? = some 10 ∨ (0 ≤ size ∧ size ≤ line.length) ∨ data.length ≤ p + line.length ∨ Stopped used)

theorem readlineLoop_smooth (size : Int) (fuel : Nat) : ∀ (p : Nat) (b : Buf) (res : Bytes), Smooth data p b →
    data.length - p < fuel → (10 : Byte) ∉ res →
    ∃ got b' used, readlineLoop size fuel res b = (.ok (res ++ got), b') ∧ got <+: data.drop p ∧
      Smooth data (p + got.length) b' ∧ After b used b' ∧ (10 : Byte) ∉ (res ++ got).dropLast ∧
      ((res ++ got).getLast? = some 10 ∨ (0 ≤ size ∧ size ≤ (res ++ got).length) ∨ data.length ≤ p + got.length ∨
        Stopped used) := by
  induction fuel with
  | zero => intro _ _ _ _ h; omega
  | succ fuel ih =>
    intro p b res h hf hno
    have hno' : (10 : Byte) ∉ (res ++ []).dropLast := by
      rw [List.append_nil]; exact fun h => hno (List.dropLast_subset _ h)
    unfold readlineLoop
    by_cases hc : size < 0 ∨ (res.length : Int) < size
    · rw [if_pos hc]
      obtain ⟨n, b1, u, h1, h2, h3, h4, h5⟩ := nreadahead_smooth h size (by omega)
      rw [PyM.bind_ok h1]
      rcases read_smooth h2 (some n) with ⟨_, z, hz, hz'⟩ | ⟨_, r, b2, v, g1, g2, g3, g4⟩
      · cases hz; omega
      · rw [PyM.bind_ok g1]
        have ha : asked (some n) = some n.toNat := by
          have : ¬ n < 0 := by omega
          simp [asked, this]
        have hstop : r.getD [] = [] → data.length ≤ p ∨ Stopped (u ++ v) := by
          intro h0
          rw [h0, ha] at g4
          rcases g4 with g4 | g4 | g4
          · have := Option.some.inj g4
            simp only [List.length_nil] at this
            omega
          · exact .inl g4
          · exact .inr (stopped_append g4)
        have hb := g2.calm
        match r with
        | none =>
          exact ⟨[], b2, u ++ v, by rw [List.append_nil]; rfl, List.nil_prefix, hb, h3.trans g2.after, hno',
            .inr (.inr (hstop rfl))⟩
        | some [] =>
          exact ⟨[], b2, u ++ v, by rw [List.append_nil]; rfl, List.nil_prefix, hb, h3.trans g2.after, hno',
            .inr (.inr (hstop rfl))⟩
        | some (c :: cs) =>
          dsimp only
          have hpre : (c :: cs) <+: data.drop p := g2.bytes
          have hlen : (c :: cs).length ≤ n.toNat := g3 _ ha
          have hdl : (10 : Byte) ∉ (res ++ (c :: cs)).dropLast := by
            rw [List.dropLast_append_of_ne_nil (by simp), List.mem_append, not_or]
            refine ⟨hno, fun hm => h5 ?_⟩
            have e : (c :: cs) = ((data.drop p).take n.toNat).take (c :: cs).length := by
              rw [List.take_take, Nat.min_eq_left hlen, prefix_take hpre]
            rw [e] at hm
            rw [List.dropLast_eq_take] at hm ⊢
            rw [List.take_take] at hm
            refine (List.take_prefix_take_left ?_).subset hm
            simp only [List.length_take] at *
            omega
          by_cases hnl : (res ++ (c :: cs)).getLast? = some 10
          · rw [if_pos hnl]
            exact ⟨c :: cs, b2, u ++ v, rfl, hpre, hb, h3.trans g2.after, hdl, .inl hnl⟩
          · rw [if_neg hnl]
            have hno2 : (10 : Byte) ∉ res ++ (c :: cs) := by
              intro hm
              have hne : res ++ (c :: cs) ≠ [] := by simp
              rw [← List.dropLast_concat_getLast hne, List.mem_append] at hm
              rcases hm with hm | hm
              · exact hdl hm
              · rw [List.getLast?_eq_some_getLast hne] at hnl
                exact hnl (by rw [List.mem_singleton.1 hm])
            have hl := hpre.length_le
            simp only [List.length_cons, List.length_drop] at hl
            obtain ⟨got, b', w, k1, k2, k3, k4, k5, k6⟩ := ih _ b2 (res ++ (c :: cs)) hb
              (by simp only [Option.getD_some, List.length_cons]; omega) hno2
            refine ⟨(c :: cs) ++ got, b', u ++ v ++ w, ?_, ?_, ?_, (h3.trans g2.after).trans k4, ?_, ?_⟩
            · rw [k1, List.append_assoc]
            · exact prefix_add hpre (by rw [List.drop_drop]; exact k2)
            · rw [List.length_append, ← Nat.add_assoc]; exact k3
            · rw [← List.append_assoc]; exact k5
            · rw [← List.append_assoc]
              rcases k6 with k6 | k6 | k6 | k6
              · exact .inl k6
              · exact .inr (.inl k6)
              · refine .inr (.inr (.inl ?_))
                rw [List.length_append, ← Nat.add_assoc]; exact k6
              · exact .inr (.inr (.inr (stopped_append k6)))
    · rw [if_neg hc]
      exact ⟨[], b, [], by rw [List.append_nil]; rfl, List.nil_prefix, h, .refl b, hno', .inr (.inl (by simp; omega))⟩

theorem readline_smooth (h : Smooth data p b) (size : Int) : ∃ line b' used, readline size b = (.ok line, b') ∧
    line <+: data.drop p ∧ Smooth data (p + line.length) b' ∧ After b used b' ∧ LineLike data p size line used := by
  obtain ⟨got, b', used, h1, h2, h3, h4, h5, h6⟩ := readlineLoop_smooth (data := data) size
    (b.raw.data.length + b.readBuf.length + 1) p b [] h (by rw [h.raw.data]; omega) (by simp)
  exact ⟨got, b', used, h1, h2, h3, h4, h5, h6⟩

theorem linesLoop_smooth (hint : Option Nat) (fuel : Nat) : ∀ (p : Nat) (b : Buf) (n : Nat), Smooth data p b →
    data.length - p < fuel →
    ∃ lines b' used, linesLoop hint fuel n b = (.ok lines, b') ∧ lines.flatten <+: data.drop p ∧
      Smooth data (p + lines.flatten.length) b' ∧ After b used b' ∧ (∀ l ∈ lines, l ≠ [] ∧ (10 : Byte) ∉ l.dropLast) ∧
      (hint.any (· ≤ n + lines.flatten.length) = true ∨ data.length ≤ p + lines.flatten.length ∨ Stopped used) := by
  induction fuel with
  | zero => intro _ _ _ _ h; omega
  | succ fuel ih =>
    intro p b n h hf
    unfold linesLoop
    obtain ⟨line, b1, u, h1, h2, h3, h4, h5, h6⟩ := readline_smooth h (-1)
    rw [PyM.bind_ok h1]
    by_cases h0 : line = []
    · rw [if_pos h0]
      subst h0
      refine ⟨[], b1, u, rfl, List.nil_prefix, h3, h4, by simp, .inr ?_⟩
      rcases h6 with h6 | h6 | h6
      · cases h6
      · omega
      · exact h6
    · rw [if_neg h0]
      by_cases hh : hint.any (· ≤ n + line.length) = true
      · rw [if_pos hh]
        exact ⟨[line], b1, u, rfl, by simpa using h2, by simpa using h3, h4, by simp [h0, h5], .inl (by simpa using hh)⟩
      · rw [if_neg hh]
        have hl := h2.length_le
        rw [List.length_drop] at hl
        have := List.length_pos_iff.2 h0
        obtain ⟨lines, b', v, g1, g2, g3, g4, g5, g6⟩ := ih _ b1 (n + line.length) h3 (by omega)
        rw [PyM.bind_ok g1]
        refine ⟨line :: lines, b', u ++ v, rfl, ?_, ?_, h4.trans g4, ?_, ?_⟩
        · rw [List.flatten_cons]
          exact prefix_add h2 (by rw [List.drop_drop]; exact g2)
        · rw [List.flatten_cons, List.length_append, ← Nat.add_assoc]; exact g3
        · intro l hl
          rcases List.mem_cons.1 hl with rfl | hl
          · exact ⟨h0, h5⟩
          · exact g5 l hl
        · rw [List.flatten_cons, List.length_append, ← Nat.add_assoc, ← Nat.add_assoc]
          exact g6.imp_right (Or.imp_right stopped_append)

theorem readlines_smooth (h : Smooth data p b) (hint : Option Int) : ∃ lines b' used, readlines hint b = (.ok lines, b') ∧
    lines.flatten <+: data.drop p ∧ Smooth data (p + lines.flatten.length) b' ∧ After b used b' ∧
    (∀ l ∈ lines, l ≠ [] ∧ (10 : Byte) ∉ l.dropLast) ∧
    ((∃ z, hint = some z ∧ 0 < z ∧ z ≤ lines.flatten.length) ∨ data.length ≤ p + lines.flatten.length ∨ Stopped used) := by
  unfold readlines
  rw [PyM.bind_ok (checkClosed_ok h.raw.opened)]
  obtain ⟨lines, b', used, h1, h2, h3, h4, h5, h6⟩ := linesLoop_smooth (data := data) (match hint with
      | none => none
      | some h => if h ≤ 0 then none else some h.toNat) (b.raw.data.length + b.readBuf.length + 1) p b 0 h
    (by rw [h.raw.data]; omega)
  refine ⟨lines, b', used, h1, h2, h3, h4, h5, h6.imp_left fun hh => ?_⟩
  match hint with
  | none => cases hh
  | some z =>
    dsimp only at hh
    by_cases hz : z ≤ 0
    · rw [if_pos hz] at hh; cases hh
    · rw [if_neg hz] at hh
      refine ⟨z, rfl, by omega, ?_⟩
      simp only [Option.any_some, decide_eq_true_eq] at hh
      omega

end Buf

end Verif
