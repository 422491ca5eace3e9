import Verif.Model.Registry
import Verif.Model.Dwords

/-!
# The identity of files

`unique_id()` (`rsfileio_abstract.py:322-329`, `rsfileio_unix.py:198-215`, `rsfileio_windows.py:242-277`) in a file system
where names are created, removed, renamed and linked by anybody at any time.  A file is known by a serial number that is
never used again (the identity that the property speaks about, invisible to programs); the number that the OS reports for
it (`st_dev`/`st_ino`, or volume and file index) is chosen by the OS, and may be used again once no name and no descriptor
refers to the file.

Simplifications: one table of descriptors for all processes; no directories (a name is the whole path); no FAT, where the
reported number of a living file can change (`rsfileio_windows.py:252-256`).
-/

set_option autoImplicit false

namespace Verif.Inodes

/-- A stream: its descriptor, the cached `_unique_id` (`rsfileio_abstract.py:72,325`), whether it is open, and (not known to
the program) the file it was opened on. -/
structure St (U : Type) where
  fd : Nat
  uid : Option U
  isOpen : Bool
  file : Nat

/-- The file system, the descriptors and the streams; `N` is what the OS reports, `U` what `unique_id` returns. -/
structure Sys (N U : Type) where
  /-- the number of each file, by serial -/
  number : Nat → N
  /-- the number of files that have ever existed -/
  serial : Nat
  names : String → Option Nat
  fds : Nat → Option Nat
  streams : List (St U)
  /-- what the calls of `unique_id` returned, by stream, last first -/
  log : List (Nat × Except Exn U)

variable {N U : Type}

/-- Some name or descriptor refers to the file. -/
def Live (w : Sys N U) (f : Nat) : Prop := (∃ n, w.names n = some f) ∨ ∃ d, w.fds d = some f

/-- `unique_id`, `rsfileio_abstract.py:322-329`; `stat` is the result of `_inner_unique_id`.  The assertion of line 326 cannot
fail: the value is a tuple of two numbers.  Returns also the cached value. -/
def uniqueId (s : St U) (stat : Except Exn U) : Except Exn U × Option U :=
  if ¬ s.isOpen then (.error .valueError, s.uid) else
  match s.uid with
  | some u => (.ok u, s.uid)
  | none =>
    match stat with
    | .ok u => (.ok u, some u)
    | .error e => (.error e, none)

/-- `_inner_unique_id`: the OS looks at the file of the descriptor; `ident` turns what it reports into the result;
`err` is a failure of the system call. -/
def innerUniqueId (ident : N → Except Exn U) (w : Sys N U) (fd : Nat) (err : Option Exn) : Except Exn U :=
  match err, w.fds fd with
  | some e, _ => .error e
  | none, none => .error (.ioError 9)
  | none, some f => ident (w.number f)

/-- A function with one changed value. -/
def update {α β : Type} [DecidableEq α] (f : α → β) (a : α) (b : β) : α → β := fun x => if x = a then b else f x

/-- Everything that can happen. -/
inductive Step (ident : N → Except Exn U) : Sys N U → Sys N U → Prop
  /-- a file is created under a free name, with a number that no living file has -/
  | create (w : Sys N U) (name : String) (n : N) (hn : w.names name = none)
      (hfresh : ∀ f, Live w f → w.number f ≠ n) : Step ident w { w with
        number := update w.number w.serial n
        serial := w.serial + 1
        names := update w.names name (some w.serial) }
  | unlink (w : Sys N U) (name : String) : Step ident w { w with names := update w.names name none }
  | link (w : Sys N U) (old new : String) (f : Nat) (ho : w.names old = some f) (hn : w.names new = none) :
      Step ident w { w with names := update w.names new (some f) }
  /-- the name `new`, if there is one, is replaced -/
  | rename (w : Sys N U) (old new : String) (f : Nat) (ho : w.names old = some f) :
      Step ident w { w with names := update (update w.names old none) new (some f) }
  | openFd (w : Sys N U) (name : String) (d f : Nat) (hn : w.names name = some f) (hd : w.fds d = none) :
      Step ident w { w with fds := update w.fds d (some f) }
  | dup (w : Sys N U) (d d' f : Nat) (h : w.fds d = some f) (hd : w.fds d' = none) :
      Step ident w { w with fds := update w.fds d' (some f) }
  | closeFd (w : Sys N U) (d : Nat) : Step ident w { w with fds := update w.fds d none }
  /-- a stream is made on a descriptor: `_inner_create_streams` -/
  | newStream (w : Sys N U) (d f : Nat) (h : w.fds d = some f) :
      Step ident w { w with streams := w.streams ++ [⟨d, none, true, f⟩] }
  /-- a stream is closed; its descriptor stays open if it was given with `closefd=False`, otherwise a step `closeFd` follows -/
  | closeStream (w : Sys N U) (i : Nat) (s : St U) (h : w.streams[i]? = some s) :
      Step ident w { w with streams := w.streams.set i { s with isOpen := false } }
  | uniqueId (w : Sys N U) (i : Nat) (s : St U) (err : Option Exn) (h : w.streams[i]? = some s) :
      Step ident w { w with
        streams := w.streams.set i { s with uid := (uniqueId s (innerUniqueId ident w s.fd err)).2 }
        log := (i, (Inodes.uniqueId s (innerUniqueId ident w s.fd err)).1) :: w.log }

/-- No files, descriptors or streams. -/
def init (n : N) : Sys N U :=
  { number := fun _ => n, serial := 0, names := fun _ => none, fds := fun _ => none, streams := [], log := [] }

inductive Reach (ident : N → Except Exn U) : Sys N U → Prop
  | init (n : N) : Reach ident (init n)
  | step {w w' : Sys N U} (h : Reach ident w) (hs : Step ident w w') : Reach ident w'

/-- `_inner_unique_id` on unix, `rsfileio_unix.py:210-215`: the pair `(st_dev, st_ino)`. -/
def unixIdent (n : Uid) : Except Exn Uid := .ok n

/-- `_inner_unique_id` on windows, `rsfileio_windows.py:265-277`, of volume and low and high file index. -/
def windowsIdent (n : Fin (2 ^ 32) × Fin (2 ^ 32) × Fin (2 ^ 32)) : Except Exn (Int × Int) :=
  match winUniqueId n.1.val n.2.1.val n.2.2.val with
  | some u => .ok u
  | none => .error (.ioError 22)

end Verif.Inodes
