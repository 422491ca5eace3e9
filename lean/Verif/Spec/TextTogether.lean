import Verif.Model.TextTogether
import Verif.Spec.TextDoc
import Verif.Props.TextWriting

/-!
# Critical sections with text streams

Which histories are considered: every stream is used only while it holds an exclusive lock on the file.
-/

set_option autoImplicit false

namespace Verif.Spec

open Verif
open Verif.Txt (Op Out)

variable {C : Codec}

/-- Items with their results. -/
abbrev TextTrace (C : Codec) := List (TextItem C × Out)

/-- The stream an item is about. -/
def TextItem.stream : TextItem C → Option Sid
  | .opened i _ => some i
  | .ask i => some i
  | .granted i => some i
  | .did i _ => some i
  | .unlock i => some i
  | .exit i => some i
  | .close i => some i
  | .gone _ => none

/-- The last item about a stream, with its result. -/
def lastCall (tr : TextTrace C) (i : Sid) : Option (TextItem C × Out) := tr.reverse.find? (fun x => TextItem.stream x.1 = some i)

/-- The streams that hold the lock after an item: a call that fails neither gives nor takes it. -/
def lockStep (H : List Sid) : TextItem C × Out → List Sid
  | (.granted i, .done) => H ++ [i]
  | (.unlock i, .done) => H.filter (fun j => j ≠ i)
  | (.exit i, .done) => H.filter (fun j => j ≠ i)
  | (.close i, _) => H.filter (fun j => j ≠ i)
  | (.gone p, _) => H.filter (fun j => j.1 ≠ p)
  | _ => H

/-- The streams that hold the lock after a history. -/
def lockers (tr : TextTrace C) : List Sid := tr.foldl lockStep []

/-- A method other than `lock_file`, `unlock_file` and `close`. -/
def PlainCall : Op → Prop
  | .lock _ => False
  | .unlock => False
  | .close => False
  | _ => True

/-- What may happen after the history `tr`: a stream is opened for reading and writing, under a new name; it is used only while it
holds the lock; the lock is exclusive.  A `with` block ends with a `flush`. -/
def TextProper (tr : TextTrace C) : TextItem C → Prop
  | .opened i t => (∀ x ∈ tr, TextItem.stream x.1 ≠ some i) ∧ ∃ nl ls raw, Props.WriterOpened C nl ls .random raw t
  | .ask i => i ∉ lockers tr
  | .granted i => lastCall tr i = some (.ask i, .done) ∧ lockers tr = []
  | .did i op => i ∈ lockers tr ∧ PlainCall op
  | .unlock i => i ∈ lockers tr
  | .exit i => i ∈ lockers tr ∧ lastCall tr i = some (.did i .flush, .done)
  | .close _ => True
  | .gone _ => True

/-- A history, and the state after it; the file has the content `d` at the beginning, when no stream is open. -/
inductive TextHistory (guess : Nat × Nat → Nat → Nat) (d : Bytes) : TextTrace C → TextTogether C → Prop
  | start : TextHistory guess d [] ⟨d, fun _ => none⟩
  | item {tr : TextTrace C} {w : TextTogether C} {it : TextItem C} :
      TextHistory guess d tr w → TextProper tr it → TextHistory guess d (tr ++ [(it, (w.step guess it).1)]) (w.step guess it).2

/-- The methods of stream `i` that are called, with their results. -/
def callsOf (i : Sid) (tr : TextTrace C) : List (Op × Out) :=
  tr.filterMap fun x =>
    match x.1 with
    | .did j op => if j = i then some (op, x.2) else none
    | _ => none

/-- Stream `i` keeps the lock: nothing but methods of it are called; other streams do anything, and its process does not end. -/
def Within (i : Sid) (tr : TextTrace C) : Prop :=
  ∀ x ∈ tr, (TextItem.stream x.1 = some i → ∃ op, x.1 = .did i op) ∧ x.1 ≠ .gone i.1

/-- A file that is used as a log: whenever a stream gets the lock it moves to the end, writes a text, and gives the lock back.  Other
streams are opened, ask for the lock and are closed at any time.  The entries of the log are listed in the order of the locks. -/
inductive LogTrace : TextTrace C → List (Sid × Text) → Prop
  | start : LogTrace [] []
  | other {tr : TextTrace C} {l : List (Sid × Text)} {x : TextItem C × Out} :
      LogTrace tr l → (∀ i, x ≠ (.granted i, .done)) → LogTrace (tr ++ [x]) l
  | entry {tr mid : TextTrace C} {l : List (Sid × Text)} {i : Sid} {s : Text} {o o' o'' : Out} :
      LogTrace tr l → Within i mid → callsOf i mid = [(.seek .toEnd, o), (.write s, o')] →
        LogTrace (tr ++ (.granted i, .done) :: mid ++ [(.unlock i, o'')]) (l ++ [(i, s)])

/-- The file after these entries: each is encoded, with the newlines of its stream, and stands behind the earlier ones. -/
inductive LogFile (C : Codec) (ends : Sid → Text → Text) (d : Bytes) : List (Sid × Text) → Bytes → Prop
  | start : LogFile C ends d [] d
  | entry {l : List (Sid × Text)} {f b : Bytes} {i : Sid} {s : Text} :
      LogFile C ends d l f → encoded C f.length (ends i s) = .ok b → LogFile C ends d (l ++ [(i, s)]) (f ++ b)

end Verif.Spec
