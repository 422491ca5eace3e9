import Verif.Model.Dwords
import Mathlib.Tactic.Ring
import Mathlib.Tactic.NormNum
import Mathlib.Tactic.Linarith
import Mathlib.Data.Rat.Floor
import Mathlib.Algebra.Order.Field.Rat

/-!
# C55 to C59: integer conversions of the windows backends
-/

namespace Verif.Props

open Verif

/-! ## C55 -/

/-- C55: the two words of `n`, and nothing else, are the unique pair of `w`-bit numbers that recombine to `n`. -/
theorem C55_split (n : Int) (w : Nat) (h0 : 0 ≤ n) (h1 : n < 2 ^ (2 * w)) :
    ∃ lo hi : Nat, pyintToDoubleDwords n w = some (lo, hi) ∧ lo < 2 ^ w ∧ hi < 2 ^ w ∧ doubleDwordsToPyint lo hi w = n ∧
      (hi : Int) * 2 ^ w + lo = n := by
  obtain ⟨m, rfl⟩ := Int.eq_ofNat_of_zero_le h0
  have hm : m < 2 ^ w * 2 ^ w := by
    have : (m : Int) < ((2 ^ (2 * w) : Nat) : Int) := by push_cast; exact h1
    rw [← pow_add, ← two_mul]; exact_mod_cast this
  have hp : 0 < 2 ^ w := Nat.two_pow_pos w
  have hhi : (m >>> w) &&& (2 ^ w - 1) = m / 2 ^ w := by
    rw [Nat.and_two_pow_sub_one_eq_mod, Nat.shiftRight_eq_div_pow]
    exact Nat.mod_eq_of_lt (Nat.div_lt_of_lt_mul hm)
  have key : ((m / 2 ^ w : Nat) : Int) * 2 ^ w + ((m % 2 ^ w : Nat) : Int) = m := by
    have := Nat.div_add_mod m (2 ^ w)
    rw [mul_comm] at this
    exact_mod_cast this
  refine ⟨m % 2 ^ w, m / 2 ^ w, ?_, Nat.mod_lt _ hp, Nat.div_lt_of_lt_mul hm, ?_, key⟩
  · simp only [pyintToDoubleDwords, if_neg (not_lt.2 h0), Int.toNat_natCast, hhi, Nat.and_two_pow_sub_one_eq_mod]
  · rw [doubleDwordsToPyint, Int.shiftLeft_eq]; exact key

/-- C55: splitting the combination of two words gives them back. -/
theorem C55_join (lo hi w : Nat) (hl : lo < 2 ^ w) (hh : hi < 2 ^ w) :
    pyintToDoubleDwords (doubleDwordsToPyint lo hi w) w = some (lo, hi) := by
  have e : doubleDwordsToPyint lo hi w = ((hi * 2 ^ w + lo : Nat) : Int) := by
    rw [doubleDwordsToPyint, Int.shiftLeft_eq]; push_cast; rfl
  have hp : 0 < 2 ^ w := Nat.two_pow_pos w
  rw [e, pyintToDoubleDwords, if_neg (by omega), Int.toNat_natCast, Nat.and_two_pow_sub_one_eq_mod,
    Nat.and_two_pow_sub_one_eq_mod, Nat.shiftRight_eq_div_pow, Nat.mul_comm, Nat.mul_add_mod, Nat.mod_eq_of_lt hl, Nat.mul_add_div hp,
    Nat.div_eq_of_lt hl, Nat.add_zero, Nat.mod_eq_of_lt hh]

/-- C55: negative numbers are rejected. -/
theorem C55_negative (n : Int) (w : Nat) : pyintToDoubleDwords n w = none ↔ n < 0 := by
  unfold pyintToDoubleDwords; split <;> simp_all

/-- C55: hence two pairs of words with the same combination are equal (file identity on windows). -/
theorem C55_injective (lo hi lo' hi' w : Nat) (hl : lo < 2 ^ w) (hh : hi < 2 ^ w) (hl' : lo' < 2 ^ w) (hh' : hi' < 2 ^ w)
    (h : doubleDwordsToPyint lo hi w = doubleDwordsToPyint lo' hi' w) : lo = lo' ∧ hi = hi' := by
  have a := C55_join lo hi w hl hh
  rw [h, C55_join lo' hi' w hl' hh'] at a
  simpa [eq_comm] using a

example : pyintToDoubleDwords (2 ^ 63 + 5) 32 = some (5, 2 ^ 31) ∧ (2 : Int) ^ 63 + 5 < 2 ^ (2 * 32) := by decide

/-! ## C56 -/

/-- C56: `signed_to_unsigned` maps the signed range into the unsigned range and `unsigned_to_signed` undoes it. -/
theorem C56_signed (v : Int) (w : Nat) (hw : 0 < w) (h1 : -(2 ^ (w - 1)) ≤ v) (h2 : v < 2 ^ (w - 1)) :
    0 ≤ signedToUnsigned v w ∧ signedToUnsigned v w < 2 ^ w ∧ unsignedToSigned (signedToUnsigned v w) w = v := by
  obtain ⟨w, rfl⟩ : ∃ k, w = k + 1 := ⟨w - 1, by omega⟩
  have hp : (0 : Int) < 2 ^ w := by positivity
  have h2w : (2 : Int) ^ (w + 1) = 2 * 2 ^ w := by ring
  simp only [Nat.add_sub_cancel] at h1 h2
  unfold signedToUnsigned unsignedToSigned
  simp only [Nat.add_sub_cancel, h2w]
  split <;> split <;> omega

/-- C56: `unsigned_to_signed` maps the unsigned range into the signed range and `signed_to_unsigned` undoes it. -/
theorem C56_unsigned (v : Int) (w : Nat) (hw : 0 < w) (h1 : 0 ≤ v) (h2 : v < 2 ^ w) :
    -(2 ^ (w - 1)) ≤ unsignedToSigned v w ∧ unsignedToSigned v w < 2 ^ (w - 1) ∧
    signedToUnsigned (unsignedToSigned v w) w = v := by
  obtain ⟨w, rfl⟩ : ∃ k, w = k + 1 := ⟨w - 1, by omega⟩
  have hp : (0 : Int) < 2 ^ w := by positivity
  have h2w : (2 : Int) ^ (w + 1) = 2 * 2 ^ w := by ring
  rw [h2w] at h2
  unfold signedToUnsigned unsignedToSigned
  simp only [Nat.add_sub_cancel, h2w]
  split <;> split <;> omega

/-- C56: both conversions keep the value modulo `2^w` (two's complement). -/
theorem C56_twos_complement (v : Int) (w : Nat) :
    signedToUnsigned v w % 2 ^ w = v % 2 ^ w ∧ unsignedToSigned v w % 2 ^ w = v % 2 ^ w := by
  unfold signedToUnsigned unsignedToSigned
  constructor <;> split <;> simp

example : signedToUnsigned (-1) 32 = 2 ^ 32 - 1 ∧ unsignedToSigned (2 ^ 32 - 1) 32 = -1 := by decide

/-! ## C57 -/

/-- C57 (exact arithmetic): a FILETIME survives the conversion to a timestamp and back. -/
theorem C57_filetime_roundtrip (lo hi : Nat) (hl : lo < 2 ^ 32) (hh : hi < 2 ^ 32) :
    timestampToFiletime (filetimeToTimestamp lo hi) = some (lo, hi) := by
  have e : doubleDwordsToPyint lo hi 32 = ((hi * 2 ^ 32 + lo : Nat) : Int) := by
    rw [doubleDwordsToPyint, Int.shiftLeft_eq]; push_cast; rfl
  have : (10000000 : Rat) * filetimeToTimestamp lo hi + 116444736000000000 = ((doubleDwordsToPyint lo hi 32 : Int) : Rat) := by
    unfold filetimeToTimestamp
    push_cast
    ring
  rw [timestampToFiletime, this, pyTrunc]
  have h0 : (0 : Rat) ≤ ((doubleDwordsToPyint lo hi 32 : Int) : Rat) := by
    rw [e]; exact_mod_cast Nat.zero_le _
  rw [if_pos h0, Rat.floor_intCast]
  exact C55_join lo hi 32 hl hh

/-- C57 (exact arithmetic): a timestamp that is a multiple of 100ns in the FILETIME range survives the conversion to
FILETIME and back. -/
theorem C57_timestamp_roundtrip (k : Int) (h0 : 0 ≤ k + 116444736000000000) (h1 : k + 116444736000000000 < 2 ^ 64) :
    ∃ lo hi : Nat, timestampToFiletime ((k : Rat) / 10000000) = some (lo, hi) ∧ lo < 2 ^ 32 ∧ hi < 2 ^ 32 ∧
      filetimeToTimestamp lo hi = (k : Rat) / 10000000 := by
  obtain ⟨lo, hi, e1, e2, e3, e4, _⟩ := C55_split (k + 116444736000000000) 32 h0 (by simpa using h1)
  have : (10000000 : Rat) * ((k : Rat) / 10000000) + 116444736000000000 = ((k + 116444736000000000 : Int) : Rat) := by
    push_cast; ring
  refine ⟨lo, hi, ?_, e2, e3, ?_⟩
  · rw [timestampToFiletime, this, pyTrunc, if_pos (by exact_mod_cast h0), Rat.floor_intCast]
    exact e1
  · rw [filetimeToTimestamp, e4]; push_cast; ring

/-- C57 (exact arithmetic): the conversion to FILETIME never advances the time, and loses less than 100ns. -/
theorem C57_error_bound (t : Rat) (h0 : 0 ≤ 10000000 * t + 116444736000000000)
    (h1 : 10000000 * t + 116444736000000000 < 2 ^ 64) :
    ∃ lo hi : Nat, timestampToFiletime t = some (lo, hi) ∧ filetimeToTimestamp lo hi ≤ t ∧
      t < filetimeToTimestamp lo hi + 1 / 10000000 := by
  have hf0 : 0 ≤ (10000000 * t + 116444736000000000).floor := by
    rw [Rat.le_floor_iff]; exact_mod_cast h0
  have hfl := Rat.floor_le (10000000 * t + 116444736000000000)
  have hfl' := Rat.lt_floor_add_one (10000000 * t + 116444736000000000)
  have hf1 : (10000000 * t + 116444736000000000).floor < 2 ^ 64 := by
    have := lt_of_le_of_lt hfl h1
    exact_mod_cast this
  obtain ⟨lo, hi, e1, e2, e3, e4, _⟩ := C55_split _ 32 hf0 (by simpa using hf1)
  refine ⟨lo, hi, ?_, ?_, ?_⟩
  · rw [timestampToFiletime, pyTrunc, if_pos h0]; exact e1
  · rw [filetimeToTimestamp, e4]; push_cast; linarith
  · push_cast at hfl'; rw [filetimeToTimestamp, e4]; push_cast; linarith

example : filetimeToTimestamp 0xd53e8000 0x019db1de = 0 := by
  norm_num [filetimeToTimestamp, doubleDwordsToPyint, Int.shiftLeft_eq]

/-- C57 is false of the code for floats: `float(win32_timestamp - 116444736000000000)` already merges different
FILETIMEs (from 1998 on), so no function of it gives the FILETIME back. -/
theorem C57_float_refuted :
    ¬ ∃ g : Int → Int, ∀ ft : Int, 0 ≤ ft → ft < 2 ^ 64 → g (toDouble (ft - 116444736000000000)) = ft := by
  rintro ⟨g, hg⟩
  have a := hg (116444736000000000 + 2 ^ 53) (by decide) (by decide)
  have b := hg (116444736000000000 + 2 ^ 53 + 1) (by decide) (by decide)
  have : toDouble (116444736000000000 + 2 ^ 53 - 116444736000000000) =
      toDouble (116444736000000000 + 2 ^ 53 + 1 - 116444736000000000) := by decide +kernel
  rw [this, b] at a
  omega

/-! ## C58 -/

private theorem ctypesDword_nat (n : Nat) (h : n < 2 ^ 32) : ctypesDword n = n := by
  unfold ctypesDword
  omega

private theorem pywin32Dword_nat (n : Nat) (h : n < 2 ^ 32) : pywin32Dword (unsignedToSigned n 32) = some n := by
  have a := C56_unsigned n 32 (by decide) (by omega) (by exact_mod_cast h)
  have b := (C56_twos_complement n 32).2
  simp only [show 32 - 1 = 31 from rfl] at a
  rw [pywin32Dword, if_pos ⟨a.1, a.2.1⟩, b]
  congr 1
  omega

/-- C58: for a finite length both backends hand over exactly the requested length and offset. -/
theorem C58_finite (len off : Int) (hl : 0 < len) (hl' : len < 2 ^ 64) (ho : 0 ≤ off) (ho' : off < 2 ^ 64) :
    ∃ r, convertFileRange (some len) (some off) = some r ∧ osRangeCtypes r = (len.toNat, off.toNat) ∧
      osRangePywin32 r = some (len.toNat, off.toNat) := by
  obtain ⟨lo, hi, e1, e2, e3, _, e4⟩ := C55_split len 32 (by omega) (by simpa using hl')
  obtain ⟨olo, ohi, f1, f2, f3, _, f4⟩ := C55_split off 32 ho (by simpa using ho')
  refine ⟨⟨lo, hi, olo, ohi⟩, ?_, ?_, ?_⟩
  · simp only [convertFileRange, if_neg (show len ≠ 0 by omega), e1, Option.map_some, Option.getD_some, f1]
  · simp only [osRangeCtypes, ctypesDword_nat _ e2, ctypesDword_nat _ e3, ctypesDword_nat _ f2, ctypesDword_nat _ f3,
      Prod.mk.injEq]
    omega
  · simp only [osRangePywin32, pywin32Dword_nat _ e2, pywin32Dword_nat _ e3, ctypesDword_nat _ f2, ctypesDword_nat _ f3,
      Option.some.injEq, Prod.mk.injEq]
    omega

/-- C58: without length (`None` or 0) every byte from the offset that a file can have (sizes are below 2^63) is in the
range. -/
theorem C58_infinite (length : Option Int) (hlen : length = none ∨ length = some 0) (off : Int) (ho : 0 ≤ off)
    (ho' : off < 2 ^ 64) :
    ∃ r L, convertFileRange length (some off) = some r ∧ osRangeCtypes r = (L, off.toNat) ∧
      osRangePywin32 r = some (L, off.toNat) ∧ ∀ b : Nat, off ≤ b → b < 2 ^ 63 → b < off.toNat + L := by
  obtain ⟨olo, ohi, f1, f2, f3, _, f4⟩ := C55_split off 32 ho (by simpa using ho')
  have hm : maxDword = ((4294967295 : Nat) : Int) := by decide
  have hc : ctypesDword maxDword = 4294967295 := by decide
  have hw : pywin32Dword (unsignedToSigned maxDword 32) = some 4294967295 := by decide
  refine ⟨⟨maxDword, maxDword, olo, ohi⟩, 2 ^ 64 - 1, ?_, ?_, ?_, ?_⟩
  · rcases hlen with rfl | rfl <;> simp only [convertFileRange, if_true, Option.getD_some, f1]
  · simp only [osRangeCtypes, hc, ctypesDword_nat _ f2, ctypesDword_nat _ f3, Prod.mk.injEq]
    omega
  · simp only [osRangePywin32, hw, ctypesDword_nat _ f2, ctypesDword_nat _ f3, Option.some.injEq, Prod.mk.injEq]
    omega
  · intro b _ hb; omega

/-- C58: a negative offset or length is never handed over. -/
theorem C58_negative (length : Option Int) (off : Int) (h : off < 0 ∨ ∃ n, length = some n ∧ n < 0) :
    convertFileRange length (some off) = none := by
  unfold convertFileRange
  rcases h with h | ⟨n, rfl, h⟩
  · simp only [Option.getD_some, (C55_negative off 32).2 h]
    split <;> simp_all
  · simp only [if_neg (show n ≠ 0 by omega), (C55_negative n 32).2 h, Option.map_none]

/-- Without length and with a positive offset the range handed over goes beyond 2^64. -/
theorem C58_infinite_end (off : Int) (ho : 0 < off) (ho' : off < 2 ^ 64) :
    ∃ r, convertFileRange none (some off) = some r ∧ 2 ^ 64 ≤ (osRangeCtypes r).1 + (osRangeCtypes r).2 := by
  obtain ⟨olo, ohi, f1, f2, f3, _, f4⟩ := C55_split off 32 ho.le (by simpa using ho')
  have hc : ctypesDword maxDword = 4294967295 := by decide
  refine ⟨⟨maxDword, maxDword, olo, ohi⟩, ?_, ?_⟩
  · simp only [convertFileRange, Option.getD_some, f1]
  · simp only [osRangeCtypes, hc, ctypesDword_nat _ f2, ctypesDword_nat _ f3]
    omega

/-- Lengths from 2^64 on are silently reduced: a lock of 2^64 bytes becomes a lock of 0 bytes. -/
theorem C58_large_length_refuted :
    ¬ ∀ len : Int, 0 < len → ∃ r, convertFileRange (some len) (some 0) = some r ∧ ((osRangeCtypes r).1 : Int) = len := by
  intro h
  obtain ⟨r, h1, h2⟩ := h (2 ^ 64) (by decide)
  have : convertFileRange (some (2 ^ 64)) (some 0) = some ⟨0, 0, 0, 0⟩ := by decide
  rw [this] at h1
  cases h1
  exact absurd h2 (by decide)

/-! ## C59 -/

/-- The mapping as a table of intervals. -/
def errnoSpec (n : Int) : Int :=
  if n ∈ [2, 3, 15, 18, 53, 67, 161, 206] then 2            -- ENOENT
  else if n = 10 then 7                                       -- E2BIG
  else if n = 11 ∨ (188 ≤ n ∧ n ≤ 202) then 8                 -- ENOEXEC
  else if n ∈ [6, 114, 130] then 9                            -- EBADF
  else if n = 128 ∨ n = 129 then 10                           -- ECHILD
  else if n ∈ [89, 164, 215] then 11                          -- EAGAIN
  else if (7 ≤ n ∧ n ≤ 9) ∨ n = 1816 then 12                  -- ENOMEM
  else if n ∈ [5, 16, 65, 82, 83, 108, 132, 158, 167] ∨ (19 ≤ n ∧ n ≤ 36) then 13  -- EACCES
  else if n = 80 ∨ n = 183 then 17                            -- EEXIST
  else if n = 17 then 18                                      -- EXDEV
  else if n = 4 then 24                                       -- EMFILE
  else if n = 112 then 28                                     -- ENOSPC
  else if n = 109 then 32                                     -- EPIPE
  else if n = 145 then 41                                     -- ENOTEMPTY
  else 22                                                     -- EINVAL

/-- C59: the mapping for every integer. -/
theorem C59_mapping (n : Int) : winerrorToErrno n = errnoSpec n := by
  by_cases h : 0 ≤ n ∧ n < 1817
  · obtain ⟨m, rfl⟩ := Int.eq_ofNat_of_zero_le h.1
    have hall : ∀ m ∈ List.range 1817, winerrorToErrno (m : Int) = errnoSpec (m : Int) := by decide +kernel
    exact hall m (List.mem_range.2 (by omega))
  · have h1 : n ∉ errorMapping.map Prod.fst := by
      intro hm
      have hall : ∀ k ∈ errorMapping.map Prod.fst, 0 ≤ k ∧ k < 1817 := by decide +kernel
      exact h (hall n hm)
    have h2 : errorMapping.lookup n = none := by
      rw [List.lookup_eq_none_iff]
      intro p hp
      rw [bne_iff_ne]
      rintro rfl
      exact h1 (List.mem_map_of_mem hp)
    rw [winerrorToErrno, h2, Option.getD_none]
    unfold errnoSpec
    simp only [List.mem_cons, List.not_mem_nil, or_false]
    repeat' rw [if_neg (by omega)]

/-- C59: codes that are not in the table give `EINVAL`, and only those. -/
theorem C59_default (n : Int) : winerrorToErrno n = 22 ↔ n ∉ errorMapping.map Prod.fst := by
  constructor
  · intro h hm
    have hall : ∀ k ∈ errorMapping.map Prod.fst, winerrorToErrno k ≠ 22 := by decide +kernel
    exact hall n hm h
  · intro h
    have h2 : errorMapping.lookup n = none := by
      rw [List.lookup_eq_none_iff]
      intro p hp
      rw [bne_iff_ne]
      rintro rfl
      exact h (List.mem_map_of_mem hp)
    rw [winerrorToErrno, h2, Option.getD_none]

/-- C59: no key is given twice in the table (so the order of a python dict is irrelevant). -/
theorem C59_keys_distinct : (errorMapping.map Prod.fst).Nodup := by decide +kernel

example : winerrorToErrno 33 = 13 ∧ winerrorToErrno 307 = 22 ∧ winerrorToErrno (-7) = 22 := by decide

end Verif.Props
