import Verif.Model.Dwords

set_option autoImplicit false

/-!
# What raw streams make of system calls that fail

The methods of raw streams (`rsfileio_abstract.py:256-511`) as sequences of system calls, with the three backends:
`rsbackend/unix_stdlib.py`, `rsbackend/windows_ctypes.py` and `rsbackend/windows_pywin32.py`.  Here every system call may
answer anything and fail with any code at any time; what it does to the file is not modelled (`Model/RawIO` does that).

Simplifications: arguments have the right types; messages and file names in exceptions are left out; the python functions
of the backends raise what the documentation of the backend says (`ctypes.WinError()`: an `OSError` with the `winerror`
given and the `errno` that the table of the interpreter has for it; `pywintypes.error`: no `OSError`, no `errno`;
functions of `os`, `fcntl` and `msvcrt`: an `OSError` with the `errno` of the C library).  Locks are left out: `lock_file`
treats failures as reasons to wait (`Model/LockCall`), and a stream without locks is closed.
-/

namespace Verif.Native

/-- The library that makes the system calls, `rsfileio_windows.py:21-24` and `rsfileio_unix.py`. -/
inductive Backend where
  | unix
  | ctypes
  | pywin32
  deriving DecidableEq

/-- The functions of the operating system and of the C library that are called. -/
inductive Call where
  /-- `ReadFile`, `read` -/
  | read
  /-- `WriteFile`, `write` -/
  | write
  /-- `os.write`, on windows -/
  | crtWrite
  /-- `SetFilePointer`, `lseek` -/
  | seek
  /-- `GetFileSize`; `fstat` on unix -/
  | size
  /-- `SetEndOfFile`, `ftruncate` -/
  | setEnd
  /-- `FlushFileBuffers`, `fsync` -/
  | flush
  /-- `fcntl(F_FULLFSYNC)` -/
  | fullFlush
  /-- `fdatasync` -/
  | dataFlush
  /-- `GetFileInformationByHandle`; `fstat` on unix -/
  | info
  /-- `msvcrt.open_osfhandle` -/
  | crtDescriptor
  /-- `os.fstat`, on windows -/
  | crtInfo
  /-- `CloseHandle`, `close` -/
  | close
  /-- `os.close`, on windows -/
  | crtClose
  deriving DecidableEq

/-- Does the function belong to the C library of windows?  Its failures have an `errno`, not a windows error code. -/
def Call.crt : Call → Bool
  | .crtWrite | .crtDescriptor | .crtInfo | .crtClose => true
  | _ => false

/-- What a call answers.  A number and a byte string, of which the caller uses one, or a failure with its code. -/
inductive Ans where
  | done (n : Nat) (b : List UInt8)
  | fail (code : Int)
  deriving DecidableEq

/-- A python exception. -/
inductive Exc where
  /-- an `OSError`; the `winerror` attribute is set by `ctypes.WinError` only -/
  | os (errno : Int) (winerror : Option Int)
  /-- `pywintypes.error` -/
  | pywin (winerror : Int)
  /-- anything else -/
  | other (e : Exn)
  deriving DecidableEq

/-- What is peculiar to the interpreter and its platform. -/
structure Env where
  backend : Backend
  /-- the table of the interpreter that `ctypes.WinError` uses -/
  table : Int → Int
  /-- `errno.EAGAIN` -/
  eagain : Int
  /-- `errno.ESHUTDOWN` -/
  eshutdown : Int
  /-- the numbers for which an `OSError` is a `BlockingIOError` -/
  wouldBlock : Int → Bool
  /-- `hasattr(unix, "fdatasync")` -/
  hasDataSync : Bool

/-- A raw stream without locks, the answers to come (then every call succeeds, with 0 and the empty string) and the calls
made. -/
structure St where
  closed : Bool
  readable : Bool
  writable : Bool
  seekable : Bool
  append : Bool
  closefd : Bool
  /-- `_use_nonblocking_pipe_write_hack`, `rsfileio_windows.py:171-182` -/
  hack : Bool
  fd : Option Nat
  uid : Option (Nat × Nat)
  answers : List Ans
  log : List (Call × Ans)
  deriving DecidableEq

/-- A python computation. -/
abbrev M (α : Type) : Type := St → Except Exc α × St

def M.bind {α β : Type} (m : M α) (f : α → M β) : M β := fun s =>
  match m s with
  | (.ok a, s') => f a s'
  | (.error e, s') => (.error e, s')

instance : Monad M where
  pure a := fun s => (.ok a, s)
  bind := M.bind

def raise {α : Type} (e : Exc) : M α := fun s => (.error e, s)

/-- `except` clauses: `h` says what becomes of an exception. -/
def catching {α : Type} (m : M α) (h : Exc → Except Exc α) : M α := fun s =>
  match m s with
  | (.ok a, s') => (.ok a, s')
  | (.error e, s') => (h e, s')

/-- The exception that the backend raises when a call fails: `windows_ctypes.py`, `raise ctypes.WinError(...)`; pywin32:
`pywintypes.error`; `os` and `msvcrt`: `OSError`. -/
def thrown (env : Env) (c : Call) (code : Int) : Exc :=
  match env.backend with
  | .unix => .os code none
  | .ctypes => if c.crt then .os code none else .os (env.table code) (some code)
  | .pywin32 => if c.crt then .os code none else .pywin code

/-- The codes that the backends do not take for failures: `windows_ctypes.py:172-177`, `ERROR_IO_PENDING`;
`windows_ctypes.py:220-223`, `ERROR_IO_PENDING` and `ERROR_MORE_DATA`; the functions of pywin32 do the same.  (What was
transferred then is an answer `done`; here it is nothing.) -/
def pending (env : Env) (c : Call) (code : Int) : Bool :=
  env.backend != .unix && ((c == .write && code == 997) || (c == .read && (code == 997 || code == 234)))

/-- A call. -/
def call (env : Env) (c : Call) : M (Nat × List UInt8) := fun s =>
  let a := s.answers.headD (.done 0 [])
  let s' := { s with answers := s.answers.tail, log := s.log ++ [(c, a)] }
  match a with
  | .done n b => (.ok (n, b), s')
  | .fail code => if pending env c code then (.ok (0, []), s') else (.error (thrown env c code), s')

/-- `_win32_error_converter`, `rsfileio_windows.py:39-66` (`win32.error` is `OSError` with ctypes), and
`_unix_error_converter`, `rsfileio_unix.py:25-43`, which changes nothing, as every `OSError` is an `IOError`. -/
def converted (env : Env) : Exc → Exc
  | .os errno w => if env.backend = .ctypes then .os errno none else .os errno w
  | .pywin w => if env.backend = .pywin32 then .os (winerrorToErrno w) none else .pywin w
  | .other e => .other e

def convert {α : Type} (env : Env) (m : M α) : M α := catching m fun e => .error (converted env e)

/-- `e.__class__.__name__ == "BrokenPipeError"`: the constructor of `OSError` chooses the class by the number.  32 is
`EPIPE`. -/
def brokenPipe (env : Env) : Exc → Bool
  | .os errno _ => errno == 32 || errno == env.eshutdown
  | _ => false

/-- `_broken_pipe_ignorer`, `rsfileio_windows.py:68-78`. -/
def ignorePipe (env : Env) (m : M (Option (List UInt8))) : M (Option (List UInt8)) :=
  catching m fun e => if brokenPipe env e then .ok (some []) else .error e

/-! ## The inner methods -/

/-- `_inner_size`, `rsfileio_unix.py:230-232`, `rsfileio_windows.py:329-332`. -/
def innerSize (env : Env) : M Nat := convert env do
  let r ← call env .size
  pure r.1

/-- `_inner_tell`, `rsfileio_unix.py:234-236`, `rsfileio_windows.py:334-337`. -/
def innerTell (env : Env) : M Nat := convert env do
  let r ← call env .seek
  pure r.1

/-- `_inner_seek`, `rsfileio_unix.py:238-243`, `rsfileio_windows.py:339-353`. -/
def innerSeek (env : Env) : M Nat := convert env do
  let r ← call env .seek
  pure r.1

/-- The `except` clause of `_inner_read` on windows, `rsfileio_windows.py:363-368`.  232 is `ERROR_NO_DATA`. -/
def noData (env : Env) : Exc → Except Exc (Option (List UInt8))
  | .os errno w => if env.backend = .ctypes ∧ w = some 232 then .ok none else .error (.os errno w)
  | .pywin w => if env.backend = .pywin32 ∧ w = 232 then .ok none else .error (.pywin w)
  | .other e => .error (.other e)

/-- The `except` clause of `_inner_read` on unix, `rsfileio_unix.py:249-255`. -/
def unixRead (env : Env) : Exc → Except Exc (Option (List UInt8))
  | .os errno w =>
    if errno = env.eagain then .ok none
    else if brokenPipe env (.os errno w) then .ok (some [])
    else .error (.os errno w)
  | e => .error e

/-- `_inner_read`, `rsfileio_unix.py:245-255`, `rsfileio_windows.py:355-368`. -/
def innerRead (env : Env) : M (Option (List UInt8)) :=
  match env.backend with
  | .unix =>
    convert env (catching (do
      let r ← call env .read
      pure (some r.2)) (unixRead env))
  | _ =>
    ignorePipe env (convert env (catching (do
      let r ← call env .read
      pure (some r.2)) (noData env)))

/-- The `except` clause of `_inner_write` on unix, `rsfileio_unix.py:268-272`. -/
def unixWrite (env : Env) : Exc → Except Exc (Option Nat)
  | .os errno w => if errno = env.eagain then .ok none else .error (.os errno w)
  | e => .error e

/-- `except BlockingIOError: bytes_written = 0`, `rsfileio_windows.py:408-411`. -/
def crtBlocked (env : Env) : Exc → Except Exc Nat
  | .os errno w => if env.wouldBlock errno then .ok 0 else .error (.os errno w)
  | e => .error e

/-- `os.write` or `WriteFile`, `rsfileio_windows.py:403-414`. -/
def winSend (env : Env) : M Nat := fun s =>
  if s.hack then
    catching (do
      let r ← call env .crtWrite
      pure r.1) (crtBlocked env) s
  else
    (do
      let r ← call env .write
      pure r.1) s

/-- `_inner_write`, `rsfileio_unix.py:263-272`, `rsfileio_windows.py:388-423` (`_inner_extend` with `zero_fill=True` does
nothing). -/
def innerWrite (env : Env) : M (Option Nat) :=
  match env.backend with
  | .unix =>
    convert env (catching (do
      let r ← call env .write
      pure (some r.1)) (unixWrite env))
  | _ =>
    convert env (fun s => (do
      if s.append then
        let _ ← innerSeek env
      let _ ← innerTell env
      let _ ← innerSize env
      let n ← winSend env
      pure (if n = 0 then none else some n)) s)

/-- `_checkClosed`, `_pyio:473-478`. -/
def checkClosed : M Unit := fun s => if s.closed then (.error (.other .valueError), s) else (.ok (), s)

/-- `_checkReadable`, `_checkWritable`, `_checkSeekable`, `_pyio:430-463`: `ok` is what `readable()` etc. return. -/
def check (ok : St → Bool) : M Unit := fun s =>
  if s.closed then (.error (.other .valueError), s)
  else if ok s then (.ok (), s) else (.error (.other .unsupported), s)

/-- `size`, `rsfileio_abstract.py:333-335`. -/
def size (env : Env) : M Nat := do
  checkClosed
  innerSize env

/-- `tell`, `rsfileio_abstract.py:337-340`. -/
def tell (env : Env) : M Nat := do
  checkClosed
  innerTell env

/-- `seek`, `rsfileio_abstract.py:342-351`. -/
def seek (env : Env) : M Nat := do
  checkClosed
  innerSeek env

/-- `_inner_reduce`, `rsfileio_unix.py:155-158`, `rsfileio_windows.py:216-223`. -/
def innerReduce (env : Env) : M Unit :=
  match env.backend with
  | .unix => convert env do
    let _ ← call env .setEnd
    pure ()
  | _ => convert env do
    let _ ← innerTell env
    let _ ← seek env
    let _ ← call env .setEnd
    let _ ← innerSeek env
    pure ()

/-- `_inner_extend`, `rsfileio_unix.py:160-165`, `rsfileio_windows.py:225-235`. -/
def innerExtend (env : Env) (zeroFill : Bool) : M Unit :=
  match env.backend with
  | .unix => convert env do
    let _ ← call env .setEnd
    pure ()
  | _ =>
    if zeroFill then pure ()
    else convert env do
      let _ ← innerTell env
      let _ ← seek env
      let _ ← call env .setEnd
      let _ ← innerSeek env
      pure ()

/-- `if wanted: try: ... except unix.error: pass`, one of the attempts of `_inner_sync`: was it successful? -/
def attempt (env : Env) (wanted : Bool) (c : Call) : M Bool :=
  if wanted then
    catching (do
      let _ ← call env c
      pure true) fun
      | .os _ _ => .ok false
      | e => .error e
  else pure false

/-- `_inner_sync`, `rsfileio_unix.py:167-188`, `rsfileio_windows.py:237-240`. -/
def innerSync (env : Env) (metadata fullFlush : Bool) : M Unit :=
  match env.backend with
  | .unix => convert env do
    let full ← attempt env fullFlush .fullFlush
    if full then pure ()
    else do
      let data ← attempt env (!metadata && env.hasDataSync) .dataFlush
      if data then pure ()
      else do
        let _ ← call env .flush
        pure ()
  | _ => convert env do
    let _ ← call env .flush
    pure ()

/-- `GetFileInformationByHandle` of the backend, `windows_ctypes.py:98-106`, `windows_pywin32.py:65-95`; `fstat` on
unix.  The two numbers are those of the file. -/
def fileInfo (env : Env) : M (Nat × Nat) := do
  let r ← call env .info
  match env.backend with
  | .pywin32 =>
    let _ ← call env .crtDescriptor
    let _ ← call env .crtInfo
    pure (r.1, r.2.length)
  | _ => pure (r.1, r.2.length)

/-- `raise win32.error(ERROR_NOT_SUPPORTED, ...)`, `rsfileio_windows.py:268-273`: with ctypes the first argument of
`OSError` is the `errno`, with pywin32 it is the `winerror`. -/
def notSupported (env : Env) : Exc :=
  match env.backend with
  | .pywin32 => .pywin 50
  | _ => .os 50 none

/-- `_inner_unique_id`, `rsfileio_unix.py:198-214`, `rsfileio_windows.py:242-277`. -/
def innerUniqueId (env : Env) : M (Nat × Nat) := convert env do
  let r ← fileInfo env
  if env.backend ≠ .unix ∧ (r.1 = 0 ∨ r.2 = 0) then raise (notSupported env) else pure r

/-- `_inner_times`, `rsfileio_unix.py:216-227`, `rsfileio_windows.py:307-326`. -/
def innerTimes (env : Env) : M (Nat × Nat) := convert env (fileInfo env)

/-- `_inner_fileno`, `rsfileio_unix.py:190-192`, `rsfileio_windows.py:279-302`: `assert self._fileno`. -/
def innerFileno (env : Env) : M Nat :=
  match env.backend with
  | .unix => fun s =>
    match s.fd with
    | some (n + 1) => (.ok (n + 1), s)
    | _ => (.error (.other .assertionError), s)
  | _ => convert env fun s =>
    match s.fd with
    | some (n + 1) => (.ok (n + 1), s)
    | some 0 => (.error (.other .assertionError), s)
    | none => (do
        let r ← call env .crtDescriptor
        fun s =>
          if r.1 = 0 then (.error (.other .assertionError), { s with fd := some 0 })
          else (.ok r.1, { s with fd := some r.1 })) s

/-- `except OSError: raise IOError(errno.EBADF, ...)`, `rsfileio_windows.py:203-206`.  9 is `EBADF`. -/
def badDescriptor : Exc → Except Exc Unit
  | .os _ _ => .error (.os 9 none)
  | e => .error e

/-- `_inner_close_streams`, `rsfileio_unix.py:144-152` (one descriptor, no locks left), `rsfileio_windows.py:195-213`. -/
def innerClose (env : Env) : M Unit := convert env fun s =>
  if s.closefd then
    match env.backend with
    | .unix => (do
        let _ ← call env .close
        pure ()) s
    | _ =>
      if s.fd.isSome then
        catching (do
          let _ ← call env .crtClose
          pure ()) badDescriptor s
      else (do
        let _ ← call env .close
        pure ()) s
  else (.ok (), s)

/-! ## The methods -/

/-- The loop of `readall`, `rsfileio_abstract.py:354-370`. -/
def readallLoop (env : Env) : Nat → List UInt8 → M (Option (List UInt8))
  | 0, _ => raise (.other .overflowError)
  | fuel + 1, chunks => do
    checkClosed
    check (·.readable)
    let d ← innerRead env
    match d with
    | some (b :: bs) => readallLoop env fuel (chunks ++ b :: bs)
    | d => pure (if chunks = [] then d else some chunks)

/-- `read(n)`, `readall()`, `rsfileio_abstract.py:354-386`.  Answers that are not given any more are empty. -/
def read (env : Env) (all : Bool) : M (Option (List UInt8)) := fun s =>
  (do
    checkClosed
    check (·.readable)
    if all then readallLoop env (s.answers.length + 1) [] else innerRead env) s

/-- `readinto(buffer)`, `rsfileio_abstract.py:388-413`: `len(None)` raises `TypeError`. -/
def readinto (env : Env) : M Nat := do
  checkClosed
  check (·.readable)
  let r ← innerRead env
  match r with
  | none => raise (.other .typeError)
  | some b => pure b.length

/-- `write(buffer)` of `len` bytes, `rsfileio_abstract.py:415-454`. -/
def write (env : Env) (len : Nat) : M (Option Nat) := do
  checkClosed
  check (·.writable)
  let res ← innerWrite env
  if len ≠ 0 ∧ res = some 0 then raise (.other .assertionError)
  else
    match res with
    | some n => if len < n then raise (.other .runtimeError) else pure (some n)
    | none => pure none

/-- `for _ in range(q): self._inner_write(padding)`, `rsfileio_abstract.py:489-491`. -/
def padLoop (env : Env) : Nat → M Unit
  | 0 => pure ()
  | q + 1 => do
    let _ ← innerWrite env
    padLoop env q

/-- Lines 480-494 of `truncate`: zeros are written by hand.  On unix `_inner_seek(old_pos)` lacks an argument. -/
def fillZeros (env : Env) (n : Nat) : M Unit := do
  let cur ← size env
  if cur = n then pure ()
  else if n < cur then raise (.other .assertionError)
  else do
    let _ ← innerTell env
    let _ ← innerSeek env
    padLoop env ((n - cur) / 8192)
    let count ← innerWrite env
    if count = some ((n - cur) % 8192) then
      if env.backend = .unix then raise (.other .typeError)
      else do
        let _ ← innerSeek env
        pure ()
    else raise (.other .assertionError)

/-- Lines 472-494 of `truncate`. -/
def resize (env : Env) (n : Nat) (zeroFill : Bool) : M Unit := do
  let cur ← size env
  if n = cur then pure ()
  else if n < cur then innerReduce env
  else do
    innerExtend env zeroFill
    fillZeros env n

/-- `truncate(size, zero_fill)`, `rsfileio_abstract.py:456-495`.  22 is `EINVAL`. -/
def truncate (env : Env) (size? : Option Int) (zeroFill : Bool) : M Nat := do
  check (·.seekable)
  check (·.writable)
  let n ← match size? with
    | none => tell env
    | some z => if z < 0 then raise (.os 22 none) else pure z.toNat
  resize env n zeroFill
  size env

/-- `sync`, `rsfileio_abstract.py:506-511`. -/
def sync (env : Env) (metadata fullFlush : Bool) : M Unit := do
  checkClosed
  innerSync env metadata fullFlush

/-- `unique_id`, `rsfileio_abstract.py:322-327`. -/
def uniqueId (env : Env) : M (Nat × Nat) := do
  checkClosed
  fun s =>
    match s.uid with
    | some u => (.ok u, s)
    | none => (do
        let u ← innerUniqueId env
        fun s => (.ok u, { s with uid := some u })) s

/-- `times`, `rsfileio_abstract.py:329-331`. -/
def times (env : Env) : M (Nat × Nat) := do
  checkClosed
  innerTimes env

/-- `fileno`, `rsfileio_abstract.py:314-316`. -/
def fileno (env : Env) : M Nat := do
  checkClosed
  innerFileno env

/-- `close`, `rsfileio_abstract.py:206-227`, of a stream without locks. -/
def close (env : Env) : M Unit := fun s =>
  if s.closed then (.ok (), s) else innerClose env { s with closed := true }

/-- The methods. -/
inductive Op where
  | read (n : Nat)
  | readall
  | readinto (n : Nat)
  | write (b : List UInt8)
  | seek (offset : Int)
  | tell
  | size
  | truncate (size? : Option Int) (zeroFill : Bool)
  | sync (metadata fullFlush : Bool)
  | uniqueId
  | times
  | fileno
  | close

/-- What a method returns. -/
inductive Val where
  | none
  | bytes (b : List UInt8)
  | num (n : Nat)
  | pair (a b : Nat)
  deriving DecidableEq

/-- The values of methods that may return `None`. -/
def Val.ofBytes : Option (List UInt8) → Val
  | some b => .bytes b
  | Option.none => .none

def Val.ofNum : Option Nat → Val
  | some n => .num n
  | Option.none => .none

def mapM' {α β : Type} (f : α → β) (m : M α) : M β := do
  let a ← m
  pure (f a)

/-- A call of a method. -/
def run (env : Env) : Op → M Val
  | .read _ => mapM' Val.ofBytes (read env false)
  | .readall => mapM' Val.ofBytes (read env true)
  | .readinto _ => mapM' Val.num (readinto env)
  | .write b => mapM' Val.ofNum (write env b.length)
  | .seek _ => mapM' Val.num (seek env)
  | .tell => mapM' Val.num (tell env)
  | .size => mapM' Val.num (size env)
  | .truncate z f => mapM' Val.num (truncate env z f)
  | .sync m f => mapM' (fun _ => Val.none) (sync env m f)
  | .uniqueId => mapM' (fun p => Val.pair p.1 p.2) (uniqueId env)
  | .times => mapM' (fun p => Val.pair p.1 p.2) (times env)
  | .fileno => mapM' Val.num (fileno env)
  | .close => mapM' (fun _ => Val.none) (close env)

end Verif.Native
