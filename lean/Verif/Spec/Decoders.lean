import Verif.Spec.Codecs

/-!
# Laws of incremental decoders

What a text stream needs from a decoder in order to deliver the same text whatever the chunks, and to find positions.
They are the contract of `codecs.IncrementalDecoder`.
-/

set_option autoImplicit false

namespace Verif.Spec

/-- The laws; `Ok` is an invariant of the states of the decoder. -/
structure Lawful {σ : Type} (init : σ) (decode : σ → Bytes → Bool → Except Exn (Text × σ)) (getstate : σ → Bytes × Nat)
    (setstate : Bytes × Nat → σ) (Ok : σ → Prop) : Prop where
  first : Ok init
  zero : Ok (setstate ([], 0))
  next : ∀ {d : σ} {x : Bytes} {f : Bool} {s : Text} {d' : σ}, Ok d → decode d x f = .ok (s, d') → Ok d'
  /-- without input nothing happens -/
  nothing : ∀ {d : σ}, Ok d → decode d [] false = .ok ([], d)
  /-- the input may come in pieces -/
  split : ∀ {d : σ} (x y : Bytes) (f : Bool), Ok d → decode d (x ++ y) f =
    match decode d x false with
    | .error e => .error e
    | .ok (s, d') =>
      match decode d' y f with
      | .error e => .error e
      | .ok (s', d'') => .ok (s ++ s', d'')
  /-- the end is the end -/
  again : ∀ {d : σ} {x : Bytes} {s : Text} {d' : σ}, Ok d → decode d x true = .ok (s, d') →
    decode d' [] true = .ok ([], d')
  /-- a state can be restored from its flags, by feeding the pending bytes -/
  restart : ∀ {d : σ}, Ok d → Ok (setstate ([], (getstate d).2))
  resume : ∀ {d : σ}, Ok d → decode (setstate ([], (getstate d).2)) (getstate d).1 false = .ok ([], d)
  /-- the pending bytes are the last ones of the input -/
  kept : ∀ {d : σ} {x : Bytes} {f : Bool} {s : Text} {d' : σ}, Ok d → decode d x f = .ok (s, d') →
    (getstate d').1 <:+ (getstate d).1 ++ x
  /-- if all of the input is pending, nothing has happened -/
  hold : ∀ {d : σ} {x : Bytes} {s : Text} {d' : σ}, Ok d → decode d x false = .ok (s, d') →
    (getstate d').1 = (getstate d).1 ++ x → s = [] ∧ (getstate d').2 = (getstate d).2
  /-- nothing is pending at the end -/
  ended : ∀ {d : σ} {x : Bytes} {s : Text} {d' : σ}, Ok d → decode d x true = .ok (s, d') → (getstate d').1 = []
  fresh : ∀ {d : σ}, Ok d → (getstate (setstate ([], (getstate d).2))).1 = []
  firstFresh : (getstate init).1 = []
  zeroFresh : (getstate (setstate ([], 0))).1 = []
  /-- an empty text -/
  firstEnd : decode init [] true = .ok ([], init)
  zeroEnd : decode (setstate ([], 0)) [] true = .ok ([], setstate ([], 0))

/-- A codec whose decoder obeys the laws. -/
def LawfulCodec (C : Codec) : Prop := ∃ Ok, Lawful C.decInit C.decode C.getstate C.setstate Ok

end Verif.Spec
