import Verif.Spec.AppendTogether

/-!
# Programs that read a file, compute something from it and write it back
-/

set_option autoImplicit false

namespace Verif.Spec

open Verif

/-- How far a program is in its critical section. -/
inductive UpStage where
  /-- it holds no lock -/
  | out
  /-- it has the lock -/
  | inside
  /-- it moved to the beginning -/
  | rewound
  /-- it read `x` -/
  | got (x : Bytes)
  /-- it moved to the beginning again -/
  | back (x : Bytes)
  /-- it wrote the new content -/
  | wrote
  /-- it cut the file behind it -/
  | cut
  deriving DecidableEq

/-- The stage after a call and its result. -/
def UpStage.did (c : UpStage) : StreamOp → StreamOut → UpStage
  | .seek _ _, _ =>
    match c with
    | .got x => .back x
    | _ => .rewound
  | .read _, .bytes x => .got x
  | .write _, _ => .wrote
  | .truncate _, _ => .cut
  | _, _ => c

/-- The stage of the program with stream `i` after an item and its result. -/
def UpStage.next (i : Sid) (c : UpStage) : Item × StreamOut → UpStage
  | (.granted j _, _) => if j = i then .inside else c
  | (.unlock j, _) | (.exit j, _) | (.close j, _) => if j = i then .out else c
  | (.gone p, _) => if i.1 = p then .out else c
  | (.did j op, r) => if j = i then c.did op r else c
  | _ => c

/-- The stage after a history. -/
def stageOf (i : Sid) (tr : List (Item × StreamOut)) : UpStage := tr.foldl (UpStage.next i) .out

/-- A call that an updating program makes: `seek(0)`, `x = read()`, `seek(0)`, `write(f(x))`, `truncate()`, as often as it wants, and
anywhere `flush`, `size` and `tell`. -/
def UpCall (f : Bytes → Bytes) (c : UpStage) (op : StreamOp) : Prop :=
  op = .flush ∨ op = .size ∨ op = .tell ∨
    (op = .seek 0 .set ∧ (c = .inside ∨ c = .cut ∨ ∃ x, c = .got x)) ∨
    (op = .read none ∧ c = .rewound) ∨ (∃ x, c = .back x ∧ op = .write (f x)) ∨ (c = .wrote ∧ op = .truncate none)

/-- The update that an item completes. -/
def completes : Item → Option Sid
  | .did i (.truncate _) => some i
  | _ => none

/-- How many updates the program with stream `i` has completed. -/
def times (i : Sid) (h : List Item) : Nat := (h.filterMap completes).count i

/-- What programs do: they open the file for reading and writing; with the content that it read, the program with stream `i` computes
`f i n` in its update number `n`; it leaves no critical section between `write` and `truncate`, but may leave it before. -/
def UpRule (f : Sid → Nat → Bytes → Bytes) (tr : List (Item × StreamOut)) : Item → Prop
  | .opened _ b => b.kind = .random ∧ b.raw.append = false
  | .did i op => UpCall (f i (times i (tr.map Prod.fst))) (stageOf i tr) op
  | .unlock i | .exit i | .close i => stageOf i tr ≠ .wrote
  | _ => True

/-- All along a history of calls and results. -/
def UpRules (f : Sid → Nat → Bytes → Bytes) (tr : List (Item × StreamOut)) : Prop :=
  ∀ pre it out post, tr = pre ++ (it, out) :: post → UpRule f pre it

/-- The content of the file if every update were one step. -/
def contentOf (f : Sid → Nat → Bytes → Bytes) (d : Bytes) (h : List Item) : Bytes :=
  ((h.filterMap completes).foldl (fun s i => (s.1 ++ [i], f i (s.1.count i) s.2)) (([] : List Sid), d)).2

/-- What the calls return: `read` the content with all updates until then, `write` that it wrote everything, `truncate` the new size. -/
def UpServed (f : Sid → Nat → Bytes → Bytes) (d : Bytes) (h : List Item) (i : Sid) (op : StreamOp) (out : StreamOut) : Prop :=
  match op with
  | .read _ => out = .bytes (contentOf f d h)
  | .write _ => out = .num (f i (times i h) (contentOf f d h)).length
  | .truncate _ => out = .num (f i (times i h) (contentOf f d h)).length
  | .seek _ _ => out = .num 0
  | _ => True

end Verif.Spec
