import Verif.Model.Registry

/-!
# One call of `lock_file` / `unlock_file`

`rsfileio_abstract.py:513-662`: argument checks, the two nested loops with their timeouts, the context manager.
The registry, the kernel and the clock are an arbitrary environment: the list of their answers.
-/

namespace Verif

/-- A python float (or the value of an int, as a number). -/
inductive Num where
  | fin (q : Rat)
  | inf
  | ninf
  | nan
  deriving DecidableEq

/-- An argument value.  `other` is anything that is not a number. -/
inductive PyArg where
  | none
  | bool (b : Bool)
  | int (n : Int)
  | float (x : Num)
  | other
  deriving DecidableEq

/-- The number denoted by an argument (`True` is 1). -/
def PyArg.num? : PyArg → Option Num
  | .bool b => some (.fin (if b then 1 else 0))
  | .int n => some (.fin n)
  | .float x => some x
  | _ => Option.none

/-- `x if isinstance(x, int)`: booleans are integers. -/
def PyArg.int? : PyArg → Option Int
  | .bool b => some (if b then 1 else 0)
  | .int n => some n
  | _ => Option.none

/-- `x < 0`. -/
def Num.neg : Num → Bool
  | .fin q => decide (q < 0)
  | .ninf => true
  | _ => false

/-- `delay >= x`. -/
def Num.reached (x : Num) (delay : Rat) : Bool :=
  match x with
  | .fin q => decide (q ≤ delay)
  | .ninf => true
  | _ => false

/-- `x == n` for an integer constant `n`. -/
def PyArg.eqInt (a : PyArg) (n : Int) : Bool :=
  match a.num? with
  | some (.fin q) => decide (q = n)
  | _ => false

/-- What the checks of `lock_file`/`unlock_file` look at.  `pos` and `size` are the answers of `_inner_tell()` and
`_inner_size()` at that moment; `enforced` is `enforced_locking_timeout_value` (captured at creation). -/
structure LockView where
  closed : Bool
  seekable : Bool
  readable : Bool
  writable : Bool
  pos : Int
  size : Int
  enforced : Option Num

/-- `_checkSeekable` of `_pyio` (`rstest/stdlib/_pyio_py313_backup.py:430-435`) over `seekable()`
(`rsfileio_abstract.py:252-254`). -/
def LockView.checkSeekable (v : LockView) : Except Exn Unit :=
  if v.closed then .error .valueError else if v.seekable then .ok () else .error .unsupported

/-- `timeout is not None and (not isinstance(timeout, (int, float)) or timeout < 0)`, `rsfileio_abstract.py:538`. -/
def badTimeout : PyArg → Bool
  | .none => false
  | a => match a.num? with
    | some x => x.neg
    | Option.none => true

/-- `length is not None and (not isinstance(length, int) or length < 0)`, `rsfileio_abstract.py:541,644`; also the
check of the offset in `unlock_file`, line 647. -/
def badNatural : PyArg → Bool
  | .none => false
  | a => match a.int? with
    | some n => decide (n < 0)
    | Option.none => true

/-- `offset is not None and not isinstance(offset, int)`, `rsfileio_abstract.py:544`. -/
def badInteger : PyArg → Bool
  | .none => false
  | a => a.int?.isNone

/-- `whence not in defs.SEEK_VALUES`, `rsfileio_abstract.py:547`. -/
def badWhence (w : PyArg) : Bool := !(w.eqInt 0 || w.eqInt 1 || w.eqInt 2)

/-- `shared is not None and shared not in (True, False)`, `rsfileio_abstract.py:550`. -/
def badShared : PyArg → Bool
  | .none => false
  | a => !(a.eqInt 1 || a.eqInt 0)

/-- `_convert_relative_offset_to_absolute`, `rsfileio_abstract.py:513-525`. -/
def absOffset (v : LockView) (offset whence : PyArg) : Int :=
  let o := (offset.int?).getD 0
  if whence.eqInt 0 then o else if whence.eqInt 1 then v.pos + o else v.size + o

/-- What is known after line 565. -/
structure LockPlan where
  /-- `None` for a blocking call -/
  timeout : Option Num
  length : Option Int
  start : Int
  shared : Bool
  llb : Bool
  deriving DecidableEq

/-- The default of `shared`, `rsfileio_abstract.py:553-557`. -/
def askedShared (v : LockView) : PyArg → Bool
  | .none => !v.writable
  | a => a.eqInt 1

/-- `lock_file` up to line 565, `rsfileio_abstract.py:534-565`.  The `IOError` of line 560 has no errno (0 here). -/
def lockArgs (v : LockView) (timeout length offset whence shared : PyArg) : Except Exn LockPlan :=
  match v.checkSeekable with
  | .error e => .error e
  | .ok () =>
    if badTimeout timeout then .error .badValueType
    else if badNatural length then .error .badValueType
    else if badInteger offset then .error .badValueType
    else if badWhence whence then .error .badValueType
    else if badShared shared then .error .badValueType
    else
      let sh := askedShared v shared
      if (sh && !v.readable) || (!sh && !v.writable) then .error (.ioError 0)
      else
        .ok ⟨timeout.num?, length.int?, absOffset v offset whence, sh, timeout.num?.isNone && v.enforced.isNone⟩

/-- `unlock_file` up to line 656, `rsfileio_abstract.py:640-656`: the length and the absolute offset. -/
def unlockArgs (v : LockView) (length offset whence : PyArg) : Except Exn (Option Int × Int) :=
  match v.checkSeekable with
  | .error e => .error e
  | .ok () =>
    if badNatural length then .error .badValueType
    else if badNatural offset then .error .badValueType
    else if badWhence whence then .error .badValueType
    else .ok (length.int?, absOffset v offset whence)

/-- The answer of `register_file_lock` or of `_inner_file_lock`. -/
inductive Ans where
  /-- `True` / the kernel grants the lock -/
  | ok
  /-- `False` (errno `EPERM`, line 608) / an `EnvironmentError` with this errno (line 628) -/
  | fail (errno : Nat)
  /-- an exception that is not an `EnvironmentError` -/
  | exn (e : Exn)
  deriving DecidableEq

/-- An answer, and the value that `time.time()` has if it is read afterwards (line 574). -/
structure Answer where
  ans : Ans
  now : Rat
  deriving DecidableEq

/-- What the call does to its environment. -/
inductive Effect where
  /-- `register_file_lock` is called (line 597) -/
  | register
  /-- `_inner_file_lock` is called (line 622) -/
  | kernel
  /-- `unregister_file_lock` is called (line 633) -/
  | unregister
  /-- `time.sleep(default_spinlock_delay)` (line 590) -/
  | sleep
  deriving DecidableEq

inductive Outcome where
  /-- the answers are exhausted: the call is still running -/
  | running
  | locked
  | raised (e : Exn)
  deriving DecidableEq

/-- `check_timeout`, `rsfileio_abstract.py:569-590`: the exception raised, or `none` when it sleeps and returns.
(Line 578 unpacks the arguments of the error; operating system errors have exactly two.) -/
def checkTimeout (timeout enforced : Option Num) (start : Rat) (errno : Nat) (now : Rat) : Option Exn :=
  match timeout with
  | some t => if t.reached (now - start) then some (.lockingException errno) else none
  | none =>
    match enforced with
    | some t => if t.reached (now - start) then some .runtimeError else none
    | none => none

/-- The inner loop (lines 613-629) and its `finally` (lines 631-636). -/
def kernLoop (timeout enforced : Option Num) (start : Rat) : List Answer → List Effect × Outcome
  | [] => ([], .running)
  | a :: rest =>
    match a.ans with
    | .ok => ([.kernel], .locked)
    | .fail errno =>
      match checkTimeout timeout enforced start errno a.now with
      | some e => ([.kernel, .unregister], .raised e)
      | none =>
        let r := kernLoop timeout enforced start rest
        (.kernel :: .sleep :: r.1, r.2)
    | .exn e => ([.kernel, .unregister], .raised e)

/-- The outer loop (lines 594-609), then the inner one.  Errno 1 is `EPERM` (line 608). -/
def regLoop (timeout enforced : Option Num) (start : Rat) : List Answer → List Effect × Outcome
  | [] => ([], .running)
  | a :: rest =>
    match a.ans with
    | .ok =>
      let r := kernLoop timeout enforced start rest
      (.register :: r.1, r.2)
    | .fail _ =>
      match checkTimeout timeout enforced start 1 a.now with
      | some e => ([.register], .raised e)
      | none =>
        let r := regLoop timeout enforced start rest
        (.register :: .sleep :: r.1, r.2)
    | .exn e => ([.register], .raised e)

/-- `lock_file`, `rsfileio_abstract.py:534-638`; `start` is the clock at line 567. -/
def lockFile (v : LockView) (timeout length offset whence shared : PyArg) (start : Rat) (env : List Answer) :
    List Effect × Outcome :=
  match lockArgs v timeout length offset whence shared with
  | .error e => ([], .raised e)
  | .ok plan => regLoop plan.timeout v.enforced start env

/-- How the body of a `with` block ends. -/
inductive BodyEnd where
  | normal
  | raised (e : Exn)
  deriving DecidableEq

/-- What the context manager returned at line 638 does when the `with` block ends: the generator `_lock_remover`
(`rsfileio_abstract.py:527-532`) is resumed after `yield`, or the exception is thrown at `yield`, where nothing
catches it.  The result is the call of `unlock_file` that is made, as its three arguments.  `plan` is the plan of
the `lock_file` call. -/
def lockRemoverExit (plan : LockPlan) : BodyEnd → Option (PyArg × PyArg × PyArg)
  | .normal => some ((plan.length.map PyArg.int).getD .none, .int plan.start, .int 0)
  | .raised _ => none

/-- The arguments of `_inner_file_unlock` in `close()`, `rsfileio_abstract.py:219-224`, for a registered record. -/
def closeUnlockArgs (x : LockRec) : Option Int × Int := (x.stop.map (fun e => e - x.start), x.start)

end Verif
