import Verif.Spec.TextFile
import Verif.Spec.TextSink

/-!
# A file whose text is read and written

The reference behaviour of a text stream that is both read and written: no encoder, no decoder, no buffers, no chunks.  It
combines the references for reading and for writing.  A movement to an offset or to the end makes both known.  After a call that
only one of them describes, the other is not known until the next movement.
-/

set_option autoImplicit false

namespace Verif.Spec

open Verif.Txt (Op Out Cookie)

/-- The reference state: the content of the file, what other processes can observe, and the states of the references for reading
and for writing, if they are known. -/
structure Doc where
  data : Bytes
  log : List RawEv
  reading : Option TextFile
  writing : Option Sink

/-- `r` is the text of the file `data` from the offset `p` to its end; `inc` translates newlines.  In the middle of the file, a
decoder must not need to have seen the start of the file. -/
def TextFrom (C : Codec) (inc : Text → Text) (data : Bytes) (p : Nat) (r : Text) : Prop :=
  (p = data.length ∧ r = []) ∨
  ((p = 0 ∨ C.setstate ([], 0) = C.decInit) ∧ p ≤ data.length ∧
    ∃ text d, C.decode C.decInit (data.drop p) true = .ok (text, d) ∧ r = inc text)

namespace Doc

/-- The positions that are known. -/
def marks (d : Doc) : List (Cookie × Text) :=
  match d.reading with
  | some x => x.marks
  | none => []

/-- There is a text at the offset `p`. -/
def Finds (C : Codec) (inc : Text → Text) (d : Doc) (p : Nat) (r : Text) : Prop :=
  TextFrom C inc d.data p r ∨ (offset p, r) ∈ d.marks

/-- The stream has been moved to the offset `p`. -/
structure Arrives (C : Codec) (inc : Text → Text) (d : Doc) (p : Nat) (d' : Doc) : Prop where
  data : d'.data = d.data
  log : d'.log = d.log
  /-- what is written goes there -/
  writing : d'.writing = some ⟨d.data, p, d.log⟩
  /-- what is read comes from there -/
  reading : ∀ r, d.Finds C inc p r → d'.reading = some ⟨d.data, r, (offset p, r) :: d.marks, false, false, d.log⟩
  lost : (∀ r, ¬ d.Finds C inc p r) → d'.reading = none

/-- The references for reading and for writing follow the call, each if it is known and describes it. -/
structure Follows (C : Codec) (nl : Newline) (translate : Text → Text) (d : Doc) (op : Op) (out : Out) (d' : Doc) : Prop where
  reads : ∀ x, d.reading = some x → TextCall x op → ∃ x', TextAllowed nl x op out x' ∧ d'.reading = some x' ∧
    x'.data = d'.data ∧ x'.log = d'.log
  unread : (∀ x, d.reading = some x → ¬ TextCall x op) → d'.reading = none
  writes : ∀ w, d.writing = some w → SinkCall .random op → ∃ w', SinkAllowed C translate .random w op out w' ∧
    d'.writing = some w' ∧ w'.data = d'.data ∧ w'.log = d'.log
  unwritten : (∀ w, d.writing = some w → ¬ SinkCall .random op) → d'.writing = none

/-- One of the references describes the call. -/
def Followed (d : Doc) (op : Op) : Prop :=
  (∃ x, d.reading = some x ∧ TextCall x op) ∨ ∃ w, d.writing = some w ∧ SinkCall .random op

end Doc

/-- What a call may return and do. -/
def DocAllowed (C : Codec) (nl : Newline) (inc translate : Text → Text) (d : Doc) : Op → Out → Doc → Prop
  | .seek (.to (some c)), out, d' =>
    if c = offset c.position then out = .cookie c ∧ d.Arrives C inc c.position d'
    else d.Follows C nl translate (.seek (.to (some c))) out d'
  | .seek .toEnd, out, d' => out = .cookie (offset d.data.length) ∧ d.Arrives C inc d.data.length d'
  | .seek .here, out, d' =>
    match d.reading, d.writing with
    | none, some w => out = .cookie (offset w.pos) ∧ d.Arrives C inc w.pos d'
    | _, _ => d.Follows C nl translate (.seek .here) out d'
  | op, out, d' => d.Follows C nl translate op out d'

/-- The calls that are considered: movements to offsets and to the end, and those that one of the references describes. -/
def DocCall (d : Doc) : Op → Prop
  | .seek (.to (some c)) => c = offset c.position ∨ d.Followed (.seek (.to (some c)))
  | .seek .toEnd => True
  | op => d.Followed op

/-- A history of calls with their results. -/
inductive DocConforms (C : Codec) (nl : Newline) (inc translate : Text → Text) : Doc → List (Op × Out) → Doc → Prop
  | nil (d : Doc) : DocConforms C nl inc translate d [] d
  | cons {d d' d'' : Doc} {op : Op} {out : Out} {rest : List (Op × Out)} :
      DocAllowed C nl inc translate d op out d' → DocConforms C nl inc translate d' rest d'' →
      DocConforms C nl inc translate d ((op, out) :: rest) d''

end Verif.Spec
