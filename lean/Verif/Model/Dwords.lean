import Verif.Model.Registry

/-!
# Integer conversions for the windows backends

`rsbackend/_utilities.py`, and the conversion of lock ranges of `rsfileio_windows.py:425-478`.
Python integers are `Int`; word sizes are natural numbers (a negative shift count raises in python).
-/

namespace Verif

/-- `signed_to_unsigned`, `_utilities.py:7-10`. -/
def signedToUnsigned (value : Int) (w : Nat) : Int :=
  if value < 0 then value + 2 ^ w else value

/-- `unsigned_to_signed`, `_utilities.py:13-16`.  For `w = 0` python compares with the float 0.5; the model is
meant for `w ≥ 1`. -/
def unsignedToSigned (value : Int) (w : Nat) : Int :=
  if value ≥ 2 ^ (w - 1) then value - 2 ^ w else value

/-- `pyint_to_double_dwords`, `_utilities.py:19-28`; `none` is the `ValueError`.  After the check the number is
non-negative, and `&`, `>>` are the bitwise operations of naturals. -/
def pyintToDoubleDwords (n : Int) (w : Nat) : Option (Nat × Nat) :=
  if n < 0 then none
  else some (n.toNat &&& (2 ^ w - 1), (n.toNat >>> w) &&& (2 ^ w - 1))

/-- `double_dwords_to_pyint`, `_utilities.py:31-34`. -/
def doubleDwordsToPyint (lo hi : Int) (w : Nat) : Int := hi <<< w + lo

/-- `win32_filetime_to_python_timestamp`, `_utilities.py:37-45`, with exact division instead of the float one. -/
def filetimeToTimestamp (lo hi : Int) : Rat :=
  ((doubleDwordsToPyint lo hi 32 - 116444736000000000 : Int) : Rat) / 10000000

/-- Python's `int()` of a number: rounding towards zero. -/
def pyTrunc (q : Rat) : Int := if 0 ≤ q then q.floor else q.ceil

/-- `python_timestamp_to_win32_filetime`, `_utilities.py:48-53`, with exact arithmetic. -/
def timestampToFiletime (t : Rat) : Option (Nat × Nat) :=
  pyintToDoubleDwords (pyTrunc (10000000 * t + 116444736000000000)) 32

/-- `_error_mapping`, `_utilities.py:59-131`. -/
def errorMapping : List (Int × Int) :=
  [(2, 2), (3, 2), (4, 24), (5, 13), (6, 9), (7, 12), (8, 12), (9, 12), (10, 7), (11, 8), (15, 2), (16, 13), (17, 18),
   (18, 2), (19, 13), (20, 13), (21, 13), (22, 13), (23, 13), (24, 13), (25, 13), (26, 13), (27, 13), (28, 13), (29, 13),
   (30, 13), (31, 13), (32, 13), (33, 13), (34, 13), (35, 13), (36, 13), (53, 2), (65, 13), (67, 2), (80, 17), (82, 13),
   (83, 13), (89, 11), (108, 13), (109, 32), (112, 28), (114, 9), (128, 10), (129, 10), (130, 9), (132, 13), (145, 41),
   (158, 13), (161, 2), (164, 11), (167, 13), (183, 17), (188, 8), (189, 8), (190, 8), (191, 8), (192, 8), (193, 8),
   (194, 8), (195, 8), (196, 8), (197, 8), (198, 8), (199, 8), (200, 8), (201, 8), (202, 8), (206, 2), (215, 11),
   (1816, 12)]

/-- `winerror_to_errno`, `_utilities.py:134-138`. -/
def winerrorToErrno (winerror : Int) : Int := (errorMapping.lookup winerror).getD 22

/-- The arguments of `LockFileEx`/`UnlockFileEx` that describe the range: `nNumberOfBytesToLockLow`,
`nNumberOfBytesToLockHigh`, `overlapped.Offset`, `overlapped.OffsetHigh`. -/
structure WinRange where
  lenLow : Int
  lenHigh : Int
  offLow : Int
  offHigh : Int
  deriving DecidableEq, Repr

/-- `MAX_DWORD`, `_utilities.py:4`. -/
def maxDword : Int := 2 ^ 32 - 1

/-- `_win32_convert_file_range_arguments`, `rsfileio_windows.py:425-441`; `none` is the `ValueError` of
`pyint_to_double_dwords`. -/
def convertFileRange (length : Option Int) (absOffset : Option Int) : Option WinRange :=
  let off := absOffset.getD 0
  let len : Option (Int × Int) := match length with
    | none => some (maxDword, maxDword)
    | some n => if n = 0 then some (maxDword, maxDword)
        else (pyintToDoubleDwords n 32).map (fun x : Nat × Nat => ((x.1 : Int), (x.2 : Int)))
  match len, pyintToDoubleDwords off 32 with
  | some l, some o => some ⟨l.1, l.2, o.1, o.2⟩
  | _, _ => none

/-- The value received by a C parameter of type `DWORD` from ctypes (`rsbackend/raw_win32_ctypes.py:46,49`): ctypes
keeps the low 32 bits. -/
def ctypesDword (x : Int) : Nat := (x % 2 ^ 32).toNat

/-- The value received by a C parameter of type `DWORD` from pywin32, which parses a signed 32-bit integer and fails
(`none`) outside of that range. -/
def pywin32Dword (x : Int) : Option Nat :=
  if -(2 ^ 31) ≤ x ∧ x < 2 ^ 31 then some (x % 2 ^ 32).toNat else none

/-- What the OS receives through the ctypes backend: length and offset as 64-bit numbers
(`rsbackend/windows_ctypes.py:252-274`). -/
def osRangeCtypes (r : WinRange) : Nat × Nat :=
  (ctypesDword r.lenHigh * 2 ^ 32 + ctypesDword r.lenLow, ctypesDword r.offHigh * 2 ^ 32 + ctypesDword r.offLow)

/-- What the OS receives through the pywin32 backend (`rsbackend/windows_pywin32.py:98-122`): the lengths are first
converted by `unsigned_to_signed`; the fields of the `OVERLAPPED` object are assumed to keep 32 bits. -/
def osRangePywin32 (r : WinRange) : Option (Nat × Nat) :=
  match pywin32Dword (unsignedToSigned r.lenLow 32), pywin32Dword (unsignedToSigned r.lenHigh 32) with
  | some lo, some hi => some (hi * 2 ^ 32 + lo, ctypesDword r.offHigh * 2 ^ 32 + ctypesDword r.offLow)
  | _, _ => none

/-- `float(n)` of python for an integer: rounding to 53 significant bits, ties to even (IEEE 754 binary64, without
overflow).  The result is the integer value of the double. -/
def toDouble (n : Int) : Int :=
  let m := n.natAbs
  let e := m.log2 + 1 - 53
  let q := m >>> e
  let r := m % 2 ^ e
  let q' := if 2 * r > 2 ^ e ∨ (2 * r = 2 ^ e ∧ q % 2 = 1) then q + 1 else q
  if n < 0 then -((q' * 2 ^ e : Nat) : Int) else ((q' * 2 ^ e : Nat) : Int)

/-- `_inner_unique_id` on windows, `rsfileio_windows.py:265-277`: `none` is the error. -/
def winUniqueId (volume idxLow idxHigh : Int) : Option (Int × Int) :=
  let inode := doubleDwordsToPyint idxLow idxHigh 32
  if volume ≤ 0 ∨ inode ≤ 0 then none else some (volume, inode)

end Verif
