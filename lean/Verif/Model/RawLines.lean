import Verif.Model.RawIO

/-!
# Line operations of unbuffered streams

`RSFileIO` inherits them from `_pyio.IOBase`; it has no `peek`, thus `readline` reads one byte at a time.
-/

set_option autoImplicit false

namespace Verif.Raw

/-- The loop of `readline(size)`, `_pyio:544-551`; `size` is negative if there is no limit.  Every round but the last one reads a
byte. -/
def lineLoop (size : Int) : Nat → Bytes → PyM Raw Bytes
  | 0, _ => PyM.raise .overflowError
  | fuel + 1, res =>
    if size < 0 ∨ (res.length : Int) < size then do
      let b ← Raw.read (some 1)
      match b with
      | some (c :: cs) =>
        if (res ++ c :: cs).getLast? = some 10 then pure (res ++ c :: cs) else lineLoop size fuel (res ++ c :: cs)
      | _ => pure res
    else pure res

/-- `readline(size)`, `_pyio:512-552`. -/
def readline (size : Int) : PyM Raw Bytes := fun s => lineLoop size (s.data.length - s.pos + 1) [] s

/-- `for line in f`, `_pyio:554-562`, as in `readlines`, `_pyio:564-580`. -/
def linesLoop (hint : Option Nat) : Nat → Nat → PyM Raw (List Bytes)
  | 0, _ => PyM.raise .overflowError
  | fuel + 1, n => do
    let line ← readline (-1)
    if line = [] then pure []
    else if hint.any (· ≤ n + line.length) then pure [line]
    else do
      let rest ← linesLoop hint fuel (n + line.length)
      pure (line :: rest)

/-- A hint that is positive, `_pyio:571`. -/
def hintOf : Option Int → Option Nat
  | none => none
  | some h => if h ≤ 0 then none else some h.toNat

/-- `readlines(hint)`, `_pyio:564-580`; `__iter__` checks that the stream is not closed. -/
def readlines (hint : Option Int) : PyM Raw (List Bytes) := fun s =>
  (do
    checkClosed
    linesLoop (hintOf hint) (s.data.length - s.pos + 1) 0) s

/-- The loop of `writelines`, `_pyio:589-590`: the results of `write` are ignored. -/
def writeAll : List Bytes → PyM Raw Unit
  | [] => pure ()
  | l :: ls => do
    let _ ← Raw.write l
    writeAll ls

/-- `writelines(lines)`, `_pyio:582-590`. -/
def writelines (lines : List Bytes) : PyM Raw Unit := do
  checkClosed
  writeAll lines

end Verif.Raw
