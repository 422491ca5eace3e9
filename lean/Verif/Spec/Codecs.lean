import Verif.Model.Text

/-!
# Three encodings of the standard library

`latin-1`, `utf-8` and `utf-16` with the error handler `strict`, after the module `codecs` of CPython
(`BufferedIncrementalDecoder`, `encodings/utf_16.py`, on a little endian machine): concrete codecs for the theorems that
hold for all codecs with certain laws.
-/

set_option autoImplicit false

namespace Verif.Spec

/-- A decoder that takes byte after byte. -/
def feed {σ : Type} (step : σ → Byte → Except Exn (Text × σ)) : σ → Bytes → Except Exn (Text × σ)
  | d, [] => .ok ([], d)
  | d, b :: bs =>
    match step d b with
    | .error e => .error e
    | .ok (s, d) =>
      match feed step d bs with
      | .error e => .error e
      | .ok (s', d) => .ok (s ++ s', d)

/-- `decode(input, final)`: in the end no bytes may be pending. -/
def feedAll {σ : Type} (step : σ → Byte → Except Exn (Text × σ)) (pending : σ → Bool) (d : σ) (input : Bytes) (final : Bool) :
    Except Exn (Text × σ) :=
  match feed step d input with
  | .error e => .error e
  | .ok (s, d) => if final && pending d then .error .valueError else .ok (s, d)

/-- Encoding character after character. -/
def encodeAll (char : Nat → Option Bytes) : Text → Except Exn Bytes
  | [] => .ok []
  | c :: cs =>
    match char c, encodeAll char cs with
    | some b, .ok bs => .ok (b ++ bs)
    | _, _ => .error .valueError

/-! ## latin-1 -/

def latin1Char (c : Nat) : Option Bytes := if c < 256 then some [UInt8.ofNat c] else none

def latin1Step (_ : Unit) (b : Byte) : Except Exn (Text × Unit) := .ok ([b.toNat], ())

def latin1 : Codec where
  Enc := Unit
  Dec := Unit
  encInit := ()
  encMid := ()
  encode _ s := (encodeAll latin1Char s).map fun b => (b, ())
  decInit := ()
  decode := feedAll latin1Step fun _ => false
  getstate _ := ([], 0)
  setstate _ := ()

/-! ## utf-8 -/

def utf8Char (c : Nat) : Option Bytes :=
  if c < 0x80 then some [UInt8.ofNat c]
  else if c < 0x800 then some [UInt8.ofNat (0xC0 + c / 64), UInt8.ofNat (0x80 + c % 64)]
  else if c < 0x10000 then
    if 0xD800 ≤ c ∧ c < 0xE000 then none
    else some [UInt8.ofNat (0xE0 + c / 4096), UInt8.ofNat (0x80 + c / 64 % 64), UInt8.ofNat (0x80 + c % 64)]
  else if c < 0x110000 then
    some [UInt8.ofNat (0xF0 + c / 262144), UInt8.ofNat (0x80 + c / 4096 % 64), UInt8.ofNat (0x80 + c / 64 % 64),
      UInt8.ofNat (0x80 + c % 64)]
  else none

/-- Whether `b` may follow the pending bytes. -/
def utf8Follows (pending : Bytes) (b : Byte) : Bool :=
  let x := b.toNat
  match pending with
  | [b0] =>
    let lo := if b0.toNat = 0xE0 then 0xA0 else if b0.toNat = 0xF0 then 0x90 else 0x80
    let hi := if b0.toNat = 0xED then 0xA0 else if b0.toNat = 0xF4 then 0x90 else 0xC0
    lo ≤ x ∧ x < hi
  | _ => 0x80 ≤ x ∧ x < 0xC0

/-- The state are the bytes of an incomplete character. -/
def utf8Step (pending : Bytes) (b : Byte) : Except Exn (Text × Bytes) :=
  let x := b.toNat
  match pending with
  | [] =>
    if x < 0x80 then .ok ([x], [])
    else if 0xC2 ≤ x ∧ x < 0xF5 then .ok ([], [b])
    else .error .valueError
  | [b0] =>
    if !utf8Follows [b0] b then .error .valueError
    else if b0.toNat < 0xE0 then .ok ([(b0.toNat - 0xC0) * 64 + (x - 0x80)], [])
    else .ok ([], [b0, b])
  | [b0, b1] =>
    if !utf8Follows [b0, b1] b then .error .valueError
    else if b0.toNat < 0xF0 then .ok ([(b0.toNat - 0xE0) * 4096 + (b1.toNat - 0x80) * 64 + (x - 0x80)], [])
    else .ok ([], [b0, b1, b])
  | b0 :: b1 :: b2 :: rest =>
    if !utf8Follows (b0 :: b1 :: b2 :: rest) b then .error .valueError
    else .ok ([(b0.toNat - 0xF0) * 262144 + (b1.toNat - 0x80) * 4096 + (b2.toNat - 0x80) * 64 + (x - 0x80)], [])

def utf8 : Codec where
  Enc := Unit
  Dec := Bytes
  encInit := ()
  encMid := ()
  encode _ s := (encodeAll utf8Char s).map fun b => (b, ())
  decInit := []
  decode := feedAll utf8Step fun p => decide (p ≠ [])
  getstate p := (p, 0)
  setstate s := s.1

/-! ## utf-16 -/

/-- The bytes of a 16 bit unit. -/
def unit16 (u : Nat) : Bytes := [UInt8.ofNat (u % 256), UInt8.ofNat (u / 256)]

def utf16Char (c : Nat) : Option Bytes :=
  if c < 0x10000 then if 0xD800 ≤ c ∧ c < 0xE000 then none else some (unit16 c)
  else if c < 0x110000 then some (unit16 (0xD800 + (c - 0x10000) / 1024) ++ unit16 (0xDC00 + (c - 0x10000) % 1024))
  else none

/-- The number that two bytes stand for. -/
def join16 (big : Bool) (b0 b1 : Byte) : Nat := if big then b0.toNat * 256 + b1.toNat else b0.toNat + b1.toNat * 256

/-- The state: the byte order, once it is known, and the bytes of an incomplete character. -/
def utf16Step (d : Option Bool × Bytes) (b : Byte) : Except Exn (Text × (Option Bool × Bytes)) :=
  match d with
  | (none, []) => .ok ([], (none, [b]))
  | (none, b0 :: _) =>
    if b0 = 0xFF ∧ b = 0xFE then .ok ([], (some false, []))
    else if b0 = 0xFE ∧ b = 0xFF then .ok ([], (some true, []))
    else .error .valueError
  | (some big, []) => .ok ([], (some big, [b]))
  | (some big, [b0]) =>
    if 0xD800 ≤ join16 big b0 b ∧ join16 big b0 b < 0xDC00 then .ok ([], (some big, [b0, b]))
    else if 0xDC00 ≤ join16 big b0 b ∧ join16 big b0 b < 0xE000 then .error .valueError
    else .ok ([join16 big b0 b], (some big, []))
  | (some big, [b0, b1]) => .ok ([], (some big, [b0, b1, b]))
  | (some big, b0 :: b1 :: b2 :: _) =>
    if 0xDC00 ≤ join16 big b2 b ∧ join16 big b2 b < 0xE000 then
      .ok ([0x10000 + (join16 big b0 b1 - 0xD800) * 1024 + (join16 big b2 b - 0xDC00)], (some big, []))
    else .error .valueError

/-- The state of the encoder says whether a byte order mark is to be written. -/
def utf16 : Codec where
  Enc := Bool
  Dec := Option Bool × Bytes
  encInit := true
  encMid := false
  encode bom s := (encodeAll utf16Char s).map fun b => ((if bom then [0xFF, 0xFE] else []) ++ b, false)
  decInit := (none, [])
  decode := feedAll utf16Step fun d => decide (d.2 ≠ [])
  getstate d := (d.2, match d.1 with
    | none => 2
    | some false => 0
    | some true => 1)
  setstate s := (match s.2 with
    | 0 => some false
    | 1 => some true
    | _ => none, s.1)

/-! ## Laws -/

/-- Decoding gives back the text that was encoded, to a new decoder and all at once; it is then at its end. -/
def RoundTrips (C : Codec) (t : Text) : Prop :=
  ∀ b e, C.encode C.encInit t = .ok (b, e) →
    ∃ d d', C.decode C.decInit b true = .ok (t, d) ∧ C.decode d [] true = .ok ([], d')

theorem feed_append {σ : Type} (step : σ → Byte → Except Exn (Text × σ)) (d : σ) (x y : Bytes) :
    feed step d (x ++ y) = match feed step d x with
      | .error e => .error e
      | .ok (s, d) =>
        match feed step d y with
        | .error e => .error e
        | .ok (s', d) => .ok (s ++ s', d) := by
  induction x generalizing d with
  | nil =>
    simp only [feed, List.nil_append]
    cases h : feed step d y with
    | error e => rfl
    | ok r => rfl
  | cons b bs ih =>
    simp only [feed, List.cons_append]
    cases step d b with
    | error e => rfl
    | ok r =>
      obtain ⟨s, d1⟩ := r
      dsimp only
      rw [ih]
      cases feed step d1 bs with
      | error e => rfl
      | ok r =>
        obtain ⟨s1, d2⟩ := r
        dsimp only
        cases feed step d2 y with
        | error e => rfl
        | ok r => simp

/-- A decoder that undoes the encoding of each character undoes the encoding of texts. -/
theorem feed_encodeAll {σ : Type} (step : σ → Byte → Except Exn (Text × σ)) (char : Nat → Option Bytes) (d : σ)
    (h : ∀ c b, char c = some b → feed step d b = .ok ([c], d)) (t : Text) :
    ∀ b, encodeAll char t = .ok b → feed step d b = .ok (t, d) := by
  induction t with
  | nil => intro b hb; cases hb; rfl
  | cons c cs ih =>
    intro b hb
    unfold encodeAll at hb
    cases hc : char c with
    | none => rw [hc] at hb; simp at hb
    | some x =>
      cases hr : encodeAll char cs with
      | error e => rw [hc, hr] at hb; simp at hb
      | ok bs =>
        rw [hc, hr] at hb
        cases hb
        rw [feed_append, h c x hc]
        dsimp only
        rw [ih bs hr]
        rfl

theorem map_ok {α β : Type} {f : α → β} {x : Except Exn α} {y : β} (h : x.map f = .ok y) : ∃ a, x = .ok a ∧ y = f a := by
  cases x with
  | error e => cases h
  | ok a => cases h; exact ⟨a, rfl, rfl⟩

theorem latin1_char (c : Nat) (b : Bytes) (h : latin1Char c = some b) : feed latin1Step () b = .ok ([c], ()) := by
  unfold latin1Char at h
  split at h
  · rename_i hc
    cases h
    simp only [feed, latin1Step, UInt8.toNat_ofNat']
    rw [Nat.mod_eq_of_lt hc]
    rfl
  · cases h

theorem toNat_ofNat {n : Nat} (h : n < 256) : (UInt8.ofNat n).toNat = n := by
  rw [UInt8.toNat_ofNat']
  exact Nat.mod_eq_of_lt h

theorem utf8_two (c : Nat) (b0 b1 : Byte) (h1 : ¬ c < 0x80) (h : c < 0x800) (e0 : b0.toNat = 0xC0 + c / 64)
    (e1 : b1.toNat = 0x80 + c % 64) : feed utf8Step [] [b0, b1] = .ok ([c], []) := by
  have hf : utf8Follows [b0] b1 = true := by
    simp only [utf8Follows, e0, e1, decide_eq_true_eq]
    repeat' split
    all_goals omega
  have this : (192 + c / 64 - 192) * 64 + (128 + c % 64 - 128) = c := by omega
  simp only [feed, utf8Step]
  rw [if_neg (by omega), if_pos (by omega)]
  dsimp only
  rw [if_neg (by simp [hf]), if_pos (by omega), e0, e1, this]
  rfl

theorem utf8_three (c : Nat) (b0 b1 b2 : Byte) (h1 : ¬ c < 0x800) (h : c < 0x10000) (hs : ¬ (0xD800 ≤ c ∧ c < 0xE000))
    (e0 : b0.toNat = 0xE0 + c / 4096) (e1 : b1.toNat = 0x80 + c / 64 % 64) (e2 : b2.toNat = 0x80 + c % 64) :
    feed utf8Step [] [b0, b1, b2] = .ok ([c], []) := by
  have hf : utf8Follows [b0] b1 = true := by
    simp only [utf8Follows, e0, e1, decide_eq_true_eq]
    repeat' split
    all_goals omega
  have hf2 : utf8Follows [b0, b1] b2 = true := by
    simp only [utf8Follows, e2, decide_eq_true_eq]
    omega
  have this : (224 + c / 4096 - 224) * 4096 + (128 + c / 64 % 64 - 128) * 64 + (128 + c % 64 - 128) = c := by omega
  simp only [feed, utf8Step]
  rw [if_neg (by omega), if_pos (by omega)]
  dsimp only
  rw [if_neg (by simp [hf]), if_neg (by omega)]
  dsimp only
  rw [if_neg (by simp [hf2]), if_pos (by omega), e0, e1, e2, this]
  rfl

theorem utf8_four (c : Nat) (b0 b1 b2 b3 : Byte) (h1 : ¬ c < 0x10000) (h : c < 0x110000)
    (e0 : b0.toNat = 0xF0 + c / 262144) (e1 : b1.toNat = 0x80 + c / 4096 % 64) (e2 : b2.toNat = 0x80 + c / 64 % 64)
    (e3 : b3.toNat = 0x80 + c % 64) : feed utf8Step [] [b0, b1, b2, b3] = .ok ([c], []) := by
  have hf : utf8Follows [b0] b1 = true := by
    simp only [utf8Follows, e0, e1, decide_eq_true_eq]
    repeat' split
    all_goals omega
  have hf2 : utf8Follows [b0, b1] b2 = true := by
    simp only [utf8Follows, e2, decide_eq_true_eq]
    omega
  have hf3 : utf8Follows [b0, b1, b2] b3 = true := by
    simp only [utf8Follows, e3, decide_eq_true_eq]
    omega
  have this : (240 + c / 262144 - 240) * 262144 + (128 + c / 4096 % 64 - 128) * 4096 + (128 + c / 64 % 64 - 128) * 64 +
    (128 + c % 64 - 128) = c := by omega
  simp only [feed, utf8Step]
  rw [if_neg (by omega), if_pos (by omega)]
  dsimp only
  rw [if_neg (by simp [hf]), if_neg (by omega)]
  dsimp only
  rw [if_neg (by simp [hf2]), if_neg (by omega)]
  dsimp only
  rw [if_neg (by simp [hf3]), e0, e1, e2, e3, this]
  rfl

theorem utf8_char (c : Nat) (b : Bytes) (h : utf8Char c = some b) : feed utf8Step [] b = .ok ([c], []) := by
  unfold utf8Char at h
  split at h
  · rename_i hc
    cases h
    have e0 : (UInt8.ofNat c).toNat = c := toNat_ofNat (by omega)
    simp only [feed, utf8Step, e0, if_pos hc]
    rfl
  split at h
  · cases h
    exact utf8_two c _ _ (by assumption) (by assumption) (toNat_ofNat (by omega)) (toNat_ofNat (by omega))
  split at h
  · split at h
    · cases h
    cases h
    exact utf8_three c _ _ _ (by assumption) (by assumption) (by assumption) (toNat_ofNat (by omega))
      (toNat_ofNat (by omega)) (toNat_ofNat (by omega))
  split at h
  · cases h
    exact utf8_four c _ _ _ _ (by assumption) (by assumption) (toNat_ofNat (by omega)) (toNat_ofNat (by omega))
      (toNat_ofNat (by omega)) (toNat_ofNat (by omega))
  · cases h

theorem join_unit (u : Nat) (h : u < 65536) : join16 false (UInt8.ofNat (u % 256)) (UInt8.ofNat (u / 256)) = u := by
  unfold join16
  rw [toNat_ofNat (by omega), toNat_ofNat (by omega)]
  simp only [Bool.false_eq_true, if_false]
  omega

theorem utf16_one (c : Nat) (b0 b1 : Byte) (hj : join16 false b0 b1 = c) (hs : ¬ (0xD800 ≤ c ∧ c < 0xE000)) :
    feed utf16Step (some false, []) [b0, b1] = .ok ([c], (some false, [])) := by
  simp only [feed, utf16Step, hj]
  rw [if_neg (by omega), if_neg (by omega)]
  rfl

theorem utf16_pair (c u v : Nat) (b0 b1 b2 b3 : Byte) (h1 : join16 false b0 b1 = u) (h2 : join16 false b2 b3 = v)
    (hu : 0xD800 ≤ u ∧ u < 0xDC00) (hv : 0xDC00 ≤ v ∧ v < 0xE000)
    (hc : 0x10000 + (u - 0xD800) * 1024 + (v - 0xDC00) = c) :
    feed utf16Step (some false, []) [b0, b1, b2, b3] = .ok ([c], (some false, [])) := by
  simp only [feed, utf16Step]
  rw [if_pos (by rw [h1]; exact hu)]
  dsimp only
  rw [if_pos (by rw [h2]; exact hv), h1, h2, hc]
  simp

theorem utf16_char (c : Nat) (b : Bytes) (h : utf16Char c = some b) :
    feed utf16Step (some false, []) b = .ok ([c], (some false, [])) := by
  unfold utf16Char at h
  split at h
  · split at h
    · cases h
    cases h
    exact utf16_one c _ _ (join_unit c (by assumption)) (by assumption)
  split at h
  · rename_i h1 h2
    injection h with h
    rw [← h]
    exact utf16_pair c _ _ _ _ _ _ (join_unit _ (by omega)) (join_unit _ (by omega)) (by omega) (by omega) (by omega)
  · cases h

theorem latin1_roundTrips (t : Text) : RoundTrips latin1 t := by
  intro b e h
  obtain ⟨x, h1, h2⟩ := map_ok h
  cases h2
  refine ⟨(), (), ?_, rfl⟩
  change feedAll latin1Step _ () b true = _
  unfold feedAll
  rw [feed_encodeAll _ _ _ latin1_char t b h1]
  rfl

theorem utf8_roundTrips (t : Text) : RoundTrips utf8 t := by
  intro b e h
  obtain ⟨x, h1, h2⟩ := map_ok h
  cases h2
  refine ⟨[], [], ?_, rfl⟩
  change feedAll utf8Step _ [] b true = _
  unfold feedAll
  rw [feed_encodeAll _ _ _ utf8_char t b h1]
  rfl

theorem utf16_roundTrips (t : Text) : RoundTrips utf16 t := by
  intro b e h
  obtain ⟨x, h1, h2⟩ := map_ok h
  cases h2
  refine ⟨(some false, []), (some false, []), ?_, rfl⟩
  change feedAll utf16Step _ (none, []) ([0xFF, 0xFE] ++ x) true = _
  have hb : feed utf16Step (none, []) [0xFF, 0xFE] = .ok ([], (some false, [])) := rfl
  unfold feedAll
  rw [feed_append, hb]
  dsimp only
  rw [feed_encodeAll _ _ _ utf16_char t x h1]
  rfl

end Verif.Spec
