import Verif.Spec.AppendTogether
import Verif.Spec.AppendTexts

/-!
# Logs that are emptied from time to time
-/

set_option autoImplicit false

namespace Verif.Spec

open Verif
open Verif.Txt (Op Out)

/-- What programs do with a log: they open it in append mode, write, flush, ask for its size, and cut it to a given size. -/
def Rotates : Item → Prop
  | .opened _ b => b.raw.append = true
  | .did _ (.write _) | .did _ .flush | .did _ .size | .did _ (.truncate (some _)) => True
  | .did _ _ => False
  | _ => True

/-- A log after an item: writes go to its end, cutting keeps its beginning. -/
def rotateBy (log : Bytes) : Item → Bytes
  | .did _ (.write x) => log ++ x
  | .did _ (.truncate (some z)) => if z < 0 then log else log.take z.toNat
  | _ => log

/-- A log after a history. -/
def rotated (d : Bytes) (h : List Item) : Bytes := h.foldl rotateBy d

/-- Nobody makes the log longer by cutting it. -/
def CutsOnly (d : Bytes) (h : List Item) : Prop :=
  ∀ pre i z post, h = pre ++ Item.did i (.truncate (some z)) :: post → z ≤ (rotated d pre).length

/-! ## Text -/

variable {C : Codec}

/-- A log after an item of a text stream: a text goes to its end, encoded, with the newlines `ends` of its stream; an
empty log begins as a new file does. -/
def rotateText (C : Codec) (ends : Sid → Text → Text) (log : Bytes) : TextItem C × Out → Bytes
  | (.did i (.write s), _) =>
    match encoded C log.length (ends i s) with
    | .ok b => log ++ b
    | .error _ => log
  | (.did _ (.truncate (some z)), _) => if z < 0 then log else log.take z.toNat
  | _ => log

/-- A log of text after a history. -/
def rotatedText (C : Codec) (ends : Sid → Text → Text) (d : Bytes) (tr : TextTrace C) : Bytes := tr.foldl (rotateText C ends) d

/-- As `CutsOnly`; sizes are given. -/
def TextCutsOnly (ends : Sid → Text → Text) (d : Bytes) (tr : TextTrace C) : Prop :=
  (∀ i o, (TextItem.did i (.truncate none), o) ∉ tr) ∧
    ∀ pre i z o post, tr = pre ++ (TextItem.did i (.truncate (some z)), o) :: post → z ≤ (rotatedText C ends d pre).length

end Verif.Spec
