import Verif.Model.WinAppend

/-!
# Vocabulary of C94: what the results of calls say
-/

set_option autoImplicit false

namespace Verif.WinAppend

/-- What is known from the calls and their results: the writes that are under way, the pieces that were reported as written,
and the holder of the lock. -/
structure Book where
  underWay : Sid → Option Bytes
  pieces : List (Sid × Bytes)
  holder : Option Sid

namespace Book

def ended (k : Book) (i : Sid) : Book := { k with underWay := fun j => if j = i then none else k.underWay j }

def note (k : Book) : Act × Out → Book
  | (.call i buf, .done) => { k with underWay := fun j => if j = i then some buf else k.underWay j }
  | (.seekEnd i, .error _) => k.ended i
  | (.store i, .wrote n) => { k.ended i with pieces := k.pieces ++ [(i, ((k.underWay i).getD []).take (n.getD 0))] }
  | (.store i, .error _) => k.ended i
  | (.lock i, .done) => { k with holder := some i }
  | (.unlock _, .done) => { k with holder := none }
  | _ => k

/-- A history. -/
def of (tr : List (Act × Out)) : Book := tr.foldl note ⟨fun _ => none, [], none⟩

/-- All pieces, in the order of the system calls. -/
def whole (k : Book) : Bytes := (k.pieces.map Prod.snd).flatten

end Book

/-- `write` is called by holders of the lock only. -/
inductive Careful : List (Act × Out) → Prop
  | nil : Careful []
  | snoc {tr : List (Act × Out)} {e : Act × Out} : Careful tr → (∀ i buf, e = (.call i buf, .done) → (Book.of tr).holder = some i) →
      Careful (tr ++ [e])

/-- Writes do not overlap: `write` is called when no other is under way. -/
inductive Apart : List (Act × Out) → Prop
  | nil : Apart []
  | snoc {tr : List (Act × Out)} {e : Act × Out} : Apart tr →
      (∀ i buf, e = (.call i buf, .done) → ∀ j, (Book.of tr).underWay j = none) → Apart (tr ++ [e])

/-- Nothing has happened yet; all streams are in append mode. -/
structure Fresh (w : State) : Prop where
  idle : ∀ i, w.stage i = .idle
  free : w.holder = none
  append : ∀ i, (w.raws i).append = true

end Verif.WinAppend
