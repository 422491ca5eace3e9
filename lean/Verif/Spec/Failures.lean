import Verif.Model.Native

set_option autoImplicit false

/-!
# Vocabulary for failures of system calls

Which failures are no faults, and which number a fault has for the caller.  Nothing here uses the functions of the model.
-/

namespace Verif.Native

/-- The errno of a failure.  On unix, and in the C library of windows, the code is the errno.  `windows` says what it is
for an error code of windows: the table of the interpreter (ctypes), or the one of rsfile (pywin32). -/
def errnoOf (env : Env) (windows : Int → Int) (c : Call) (code : Int) : Int :=
  if env.backend = .unix then code
  else if c = .crtWrite ∨ c = .crtDescriptor ∨ c = .crtInfo ∨ c = .crtClose then code
  else if env.backend = .ctypes then env.table code
  else windows code

/-- The other end of the pipe is closed: for a reader this is the end of the file.  32 is `EPIPE`. -/
def EndOfPipe (env : Env) (windows : Int → Int) (c : Call) (code : Int) : Prop :=
  c = .read ∧ (errnoOf env windows c code = 32 ∨ errnoOf env windows c code = env.eshutdown)

/-- The call would have to wait.  232 is `ERROR_NO_DATA`. -/
def WouldWait (env : Env) (c : Call) (code : Int) : Prop :=
  if env.backend = .unix then (c = .read ∨ c = .write) ∧ code = env.eagain
  else (c = .read ∧ code = 232) ∨ (c = .crtWrite ∧ env.wouldBlock code = true)

/-- The operation goes on in the background (997), or there is more of the message (234). -/
def GoesOn (env : Env) (c : Call) (code : Int) : Prop :=
  env.backend ≠ .unix ∧ ((c = .write ∧ code = 997) ∨ (c = .read ∧ (code = 997 ∨ code = 234)))

/-- An attempt to store the content on the device, after which others are made. -/
def Attempt (env : Env) (c : Call) : Prop := env.backend = .unix ∧ (c = .fullFlush ∨ c = .dataFlush)

/-- A failure that an operation has to report. -/
def Fault (env : Env) (windows : Int → Int) : Call × Ans → Prop
  | (_, .done _ _) => False
  | (c, .fail code) =>
    ¬ EndOfPipe env windows c code ∧ ¬ WouldWait env c code ∧ ¬ GoesOn env c code ∧ ¬ Attempt env c

/-- Exceptions that a method raises by itself. -/
def OwnError (env : Env) : Op → Exc → Prop
  | .read _, e => e = .other .valueError ∨ e = .other .unsupported
  | .readall, e => e = .other .valueError ∨ e = .other .unsupported
  | .readinto _, e => e = .other .valueError ∨ e = .other .unsupported ∨ e = .other .typeError
  | .write _, e =>
    e = .other .valueError ∨ e = .other .unsupported ∨ e = .other .assertionError ∨ e = .other .runtimeError
  | .truncate z _, e =>
    e = .other .valueError ∨ e = .other .unsupported ∨ e = .other .assertionError ∨
    (e = .other .typeError ∧ env.backend = .unix) ∨ (e = .os 22 none ∧ ∃ n, z = some n ∧ n < 0)
  | .uniqueId, e =>
    e = .other .valueError ∨ (e = .os 50 none ∧ env.backend = .ctypes) ∨ (e = .os 22 none ∧ env.backend = .pywin32)
  | .fileno, e => e = .other .valueError ∨ e = .other .assertionError
  | .close, _ => False
  | _, e => e = .other .valueError

/-- The calls `L` of an operation and its outcome `r`: at the first fault the operation ends, with an `OSError` that has
the number of the fault; without a fault only exceptions of the operation itself are raised. -/
def Reported (env : Env) (windows : Int → Int) (told : Call → Int → Int) (own : Exc → Prop) {α : Type}
    (L : List (Call × Ans)) (r : Except Exc α) : Prop :=
  ((∀ x ∈ L, ¬ Fault env windows x) ∧ ∀ e, r = .error e → own e) ∨
  ∃ L₀ c code, L = L₀ ++ [(c, .fail code)] ∧ (∀ x ∈ L₀, ¬ Fault env windows x) ∧ Fault env windows (c, .fail code) ∧
    r = .error (.os (told c code) none)

end Verif.Native
