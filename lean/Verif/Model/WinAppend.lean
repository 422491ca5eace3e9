import Verif.Model.RawIO
import Verif.Model.Together

/-!
# Writes in append mode on windows, system call by system call

`_inner_write` of `rsfileio_windows.py:388-423` moves to the end of the file and writes in two system calls ("no atomicity
around here", line 393).  Here each of them is an action, and the actions of several streams (of any processes) interleave.
The calls in between, `_inner_tell` and `_inner_size` (lines 396-397), have no effect and belong to the second action;
lines 398-399 do nothing (see `Raw.innerWrite`).  `lock_file` and `unlock_file` on the whole file are included as an
exclusive lock that is granted if nobody holds it (C01), without waiting.
-/

set_option autoImplicit false

namespace Verif.WinAppend

inductive Act where
  /-- `write(buf)` is called -/
  | call (i : Sid) (buf : Bytes)
  /-- `self._inner_seek(0, SEEK_END)`: `rsfileio_windows.py:393-394` -/
  | seekEnd (i : Sid)
  /-- `WriteFile`, and the return from `write`: `rsfileio_windows.py:396-423` -/
  | store (i : Sid)
  /-- `lock_file(timeout=0)` -/
  | lock (i : Sid)
  /-- `unlock_file()` -/
  | unlock (i : Sid)
deriving DecidableEq, Repr

inductive Out where
  /-- the program of stream `i` is not at this point: nothing happens -/
  | no
  | done
  /-- `lock_file` is refused -/
  | refused
  /-- `write` returns -/
  | wrote (n : Option Nat)
  /-- `write` raises -/
  | error (e : Exn)
deriving DecidableEq, Repr

/-- Where the program of a stream is. -/
inductive Stage where
  | idle
  | called (buf : Bytes)
  | moved (buf : Bytes)
deriving DecidableEq, Repr

structure State where
  file : Bytes
  raws : Sid → Raw
  stage : Sid → Stage
  holder : Option Sid

namespace State

/-- Stream `i` as it sees the file now. -/
def raw (w : State) (i : Sid) : Raw := { w.raws i with data := w.file }

/-- Stream `i` is now `r`, and its program at `p`. -/
def keep (w : State) (i : Sid) (r : Raw) (p : Stage) : State :=
  { w with
    file := r.data
    raws := fun j => if j = i then r else w.raws j
    stage := fun j => if j = i then p else w.stage j }

end State

/-- `rsfileio_windows.py:396-423`: see `Raw.innerWrite`. -/
def second (buf : Bytes) : PyM Raw (Option Nat) := do
  let _ ← Raw.innerTell
  let r ← Raw.osWrite false buf
  pure (match r with
    | some 0 => none
    | r => r)

/-- One action. -/
def step (w : State) : Act → Out × State
  | .call i buf =>
    match w.stage i with
    | .idle =>
      -- the checks of `Raw.write`
      match (do Raw.checkClosed; Raw.checkWritable : PyM Raw Unit) (w.raw i) with
      | (.ok _, r) => (.done, w.keep i r (.called buf))
      | (.error e, r) => (.error e, w.keep i r .idle)
    | _ => (.no, w)
  | .seekEnd i =>
    match w.stage i with
    | .called buf =>
      match PyM.when (w.raw i).append (Raw.innerSeek 0 .fin) (w.raw i) with
      | (.ok _, r) => (.done, w.keep i r (.moved buf))
      | (.error e, r) => (.error e, w.keep i r .idle)
    | _ => (.no, w)
  | .store i =>
    match w.stage i with
    | .moved buf =>
      match second buf (w.raw i) with
      | (.ok n, r) => (.wrote n, w.keep i r .idle)
      | (.error e, r) => (.error e, w.keep i r .idle)
    | _ => (.no, w)
  | .lock i =>
    match w.stage i, w.holder with
    | .idle, none => (.done, { w with holder := some i })
    | .idle, some _ => (.refused, w)
    | _, _ => (.no, w)
  | .unlock i =>
    if w.stage i = .idle ∧ w.holder = some i then (.done, { w with holder := none }) else (.no, w)

/-- A history: the actions with their results, and the final state. -/
def play (w : State) : List Act → List (Act × Out) × State
  | [] => ([], w)
  | a :: as => ((a, (step w a).1) :: (play (step w a).2 as).1, (play (step w a).2 as).2)

end Verif.WinAppend
