import Verif.Model.WinOpen

/-!
# `times()` and `unique_id()` on windows

Both call `GetFileInformationByHandle`, of which there are two versions: `rsbackend/windows_pywin32.py:65-95`, which is used
if pywin32 is installed (`rsfileio_windows.py:21-24`), and `rsbackend/windows_ctypes.py:98-106`.  The world is that of
`WinOpen`.
-/

set_option autoImplicit false

namespace Verif.WinInfo

open Verif Verif.WinOpen

inductive Backend where
  | pywin32
  | ctypes
deriving DecidableEq, Repr

/-- An open or closed raw stream, and the world. -/
structure State where
  host : WinOpen.Host
  handle : Nat
  closed : Bool
  /-- `_unique_id` -/
  uid : Option (Nat × Nat)

/-- Volume and file index of each file: 0 where the file system has none. -/
abbrev Ids := Nat → Nat × Nat

/-- `GetFileInformationByHandle`: which file it is.  With pywin32 the times come from `os.fstat(_open_osfhandle(handle, 0))`,
`windows_pywin32.py:91`; the descriptor is not kept.  The times themselves are the subject of C57. -/
def information (b : Backend) (h : Nat) : PyM St Nat := do
  outside
  let ino ← (fun s =>
    match s.host.handles.lookup h with
    | some d => (.ok d.ino, s)
    | none => (.error (.ioError 9), s) : PyM St Nat)
  match b with
  | .ctypes => pure ino
  | .pywin32 =>
    let f ← openOsfhandle h
    let _ ← fstat f
    pure ino

/-- The same for the state of a stream. -/
def ask (b : Backend) (s : State) : Except Exn Nat × State :=
  match information b s.handle ⟨s.host, ⟨some s.handle, none, true, true, true, true, false, true⟩⟩ with
  | (r, t) => (r, { s with host := t.host })

/-- `times`, `rsfileio_abstract.py:331-333`, `rsfileio_windows.py:307-326`: the file of which the times are. -/
def times (b : Backend) (s : State) : Except Exn Nat × State :=
  if s.closed then (.error .valueError, s) else ask b s

/-- `unique_id`, `rsfileio_abstract.py:322-327`, and `_inner_unique_id`, `rsfileio_windows.py:264-277`.  The error of lines
269-273 has the number 50, which `OSError` takes for an errno, and which is converted to `EINVAL` (22) with pywin32
(`rsfileio_windows.py:54-58`, `_utilities.py:134-138`). -/
def uniqueId (b : Backend) (ids : Ids) (s : State) : Except Exn (Nat × Nat) × State :=
  if s.closed then (.error .valueError, s)
  else
    match s.uid with
    | some u => (.ok u, s)
    | none =>
      match ask b s with
      | (.error e, s) => (.error e, s)
      | (.ok ino, s) =>
        if (ids ino).1 = 0 ∨ (ids ino).2 = 0 then (.error (.ioError (match b with | .ctypes => 50 | .pywin32 => 22)), s)
        else (.ok (ids ino), { s with uid := some (ids ino) })

inductive Call where
  | times
  | uniqueId
deriving DecidableEq, Repr

inductive Answer where
  | times (ino : Nat)
  | uid (u : Nat × Nat)
  | error (e : Exn)
deriving DecidableEq, Repr

def step (b : Backend) (ids : Ids) (s : State) : Call → Answer × State
  | .times =>
    match times b s with
    | (.ok i, s) => (.times i, s)
    | (.error e, s) => (.error e, s)
  | .uniqueId =>
    match uniqueId b ids s with
    | (.ok u, s) => (.uid u, s)
    | (.error e, s) => (.error e, s)

def run (b : Backend) (ids : Ids) (s : State) : List Call → List Answer × State
  | [] => ([], s)
  | c :: cs => ((step b ids s c).1 :: (run b ids (step b ids s c).2 cs).1, (run b ids (step b ids s c).2 cs).2)

end Verif.WinInfo
