import Verif.Spec.TextTogether

/-!
# Programs that read a text from a file, compute another one from it and write it back
-/

set_option autoImplicit false

namespace Verif.Spec

open Verif
open Verif.Txt (Op Out)

variable {C : Codec}

/-- A file whose text is changed: whenever a stream gets the lock it reads the text, and then either gives the lock back, or writes what
it computed from the text and cuts the file behind it.  Other streams are opened, ask for the lock and are closed at any time.  The
updates are listed in the order of the locks. -/
inductive UpdateTrace : TextTrace C → List (Sid × (Text → Text)) → Prop
  | start : UpdateTrace [] []
  | other {tr : TextTrace C} {l : List (Sid × (Text → Text))} {x : TextItem C × Out} :
      UpdateTrace tr l → (∀ i, x ≠ (.granted i, .done)) → UpdateTrace (tr ++ [x]) l
  | look {tr mid : TextTrace C} {l : List (Sid × (Text → Text))} {i : Sid} {o o' o'' : Out} :
      UpdateTrace tr l → Within i mid → callsOf i mid = [(.seek (.to (some (offset 0))), o), (.read none, o')] →
        UpdateTrace (tr ++ (.granted i, .done) :: mid ++ [(.unlock i, o'')]) l
  | update {tr mid : TextTrace C} {l : List (Sid × (Text → Text))} {i : Sid} {g : Text → Text} {x : Text} {o o₁ o₂ o₃ o₄ : Out} :
      UpdateTrace tr l → Within i mid → callsOf i mid = [(.seek (.to (some (offset 0))), o), (.read none, .text x),
        (.seek (.to (some (offset 0))), o₁), (.write (g x), o₂), (.truncate none, o₃)] →
        UpdateTrace (tr ++ (.granted i, .done) :: mid ++ [(.unlock i, o₄)]) (l ++ [(i, g)])

/-- The file after these updates, each made of the text that the file contains then; `inc` and `ends` replace the newlines. -/
inductive UpdatedFile (C : Codec) (inc ends : Sid → Text → Text) (d : Bytes) : List (Sid × (Text → Text)) → Bytes → Prop
  | start : UpdatedFile C inc ends d [] d
  | update {l : List (Sid × (Text → Text))} {f b : Bytes} {i : Sid} {g : Text → Text} {text : Text} {e : C.Dec} :
      UpdatedFile C inc ends d l f → C.decode C.decInit f true = .ok (text, e) → encoded C 0 (ends i (g (inc i text))) = .ok b →
        UpdatedFile C inc ends d (l ++ [(i, g)]) b

/-- The text after these updates. -/
def textAfter (l : List (Sid × (Text → Text))) (t : Text) : Text := l.foldl (fun t x => x.2 t) t

end Verif.Spec
