import Verif.Model.Concurrent

/-!
# Calls one after the other

What calls of `read_from_file`, `write_to_file` and `append_to_file` mean for a file that nobody else uses meanwhile, and
what a log of calls would look like if each of them happened at once when it ended.
-/

set_option autoImplicit false

namespace Verif.Spec

open Verif

/-- The results of reading on until nothing comes. -/
inductive Blocks {C : Codec} : AnyStream C → Except Exn (List Chunk) → AnyStream C → Prop
  | done {s s' : AnyStream C} {x : Option Chunk} : AnyStream.read s = (.ok x, s') → (∀ c, x = some c → c.falsy = true) →
      Blocks s (.ok []) s'
  | fail {s s' : AnyStream C} {e : Exn} : AnyStream.read s = (.error e, s') → Blocks s (.error e) s'
  | more {s s₁ s' : AnyStream C} {c : Chunk} {r : Except Exn (List Chunk)} : AnyStream.read s = (.ok (some c), s₁) →
      c.falsy = false → Blocks s₁ r s' → Blocks s (r.map (c :: ·)) s'

/-- The body of the `with` statement on a stream. -/
inductive Body (S : Setting) (k : Job) : AnyStream S.codec → Result → AnyStream S.codec → Prop
  | load {s s' : AnyStream S.codec} {r : Except Exn (List Chunk)} : k.task.isLoad = true → Blocks s r s' →
      Body S k s (r.bind fun l => (Chunk.join k.task.binary l).map some) s'
  | write {s s' : AnyStream S.codec} {r : Except Exn Unit} : k.task.isLoad = false →
      Site.writeBody S.fdatasync k.data k.sync s = (r, s') → Body S k s (r.map fun _ => none) s'

/-- A whole call on a file with content `c` that nobody else uses: the result and the new content. -/
inductive Alone (S : Setting) (k : Job) (c : Bytes) : Result → Bytes → Prop
  | failed {e : Exn} {c' : Bytes} : k.prepare S (k.startPos c) c = (.error e, c') → Alone S k c (.error e) c'
  | done {s s₁ s₂ : AnyStream S.codec} {c₁ : Bytes} {r : Result} {q : Except Exn Unit} :
      k.prepare S (k.startPos c) c = (.ok s, c₁) → Body S k s r s₁ → AnyStream.close s₁ = (q, s₂) →
      Alone S k c (q.bind fun _ => r) s₂.theRaw.data

/-- Some actions of a call on a file that nobody else uses. -/
inductive Actions (S : Setting) (k : Job) (x : Phase S.codec × Bytes) : Phase S.codec × Bytes → Prop
  | none : Actions S k x x
  | next {ph : Phase S.codec} {file : Bytes} {y : Phase S.codec × Bytes} : Actions S k x (ph, file) →
      k.work S file ph = some y → Actions S k x y

/-- A call that is broken off leaves this content. -/
def Cut (S : Setting) (k : Job) (c c' : Bytes) : Prop := ∃ ph, Actions S k (.locked (k.startPos c), c) (ph, c')

/-- The log can be explained by calls that happen at once, when they end, one after the other: the file had the content
`c₀` in the beginning and has `c` now; the calls `m` are under way.  `one` says what a call alone does, `cut` what a call
that is broken off does. -/
inductive Serial (one : Job → Bytes → Result → Bytes → Prop) (cut : Job → Bytes → Bytes → Prop) (c₀ : Bytes) :
    List CallEvent → (Nat × Nat → Option Job) → Bytes → Prop
  | nil : Serial one cut c₀ [] (fun _ => none) c₀
  | began {log : List CallEvent} {m : Nat × Nat → Option Job} {c : Bytes} (i : Nat × Nat) (k : Job) :
      Serial one cut c₀ log m c → Serial one cut c₀ (log ++ [.began i k]) (fun j => if j = i then some k else m j) c
  | ended {log : List CallEvent} {m : Nat × Nat → Option Job} {c c' : Bytes} {i : Nat × Nat} {k : Job} {r : Result} :
      Serial one cut c₀ log m c → m i = some k → one k c r c' →
      Serial one cut c₀ (log ++ [.ended i r]) (fun j => if j = i then none else m j) c'
  | refused {log : List CallEvent} {m : Nat × Nat → Option Job} {c : Bytes} {i : Nat × Nat} {k : Job} :
      Serial one cut c₀ log m c → m i = some k → Serial one cut c₀ (log ++ [.refused i]) (fun j => if j = i then none else m j) c
  | gone {log : List CallEvent} {m : Nat × Nat → Option Job} {c c' : Bytes} {pid : Nat} :
      Serial one cut c₀ log m c → (c' = c ∨ ∃ i k, i.1 = pid ∧ m i = some k ∧ cut k c c') →
      Serial one cut c₀ (log ++ [.gone pid]) (fun j => if j.1 = pid then none else m j) c'

end Verif.Spec
