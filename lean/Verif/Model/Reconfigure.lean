import Verif.Model.Text

/-!
# `reconfigure` of text streams

`RSTextIOWrapper` inherits it (`rsfile_streams.py:146-147`); transcribed from `rstest/stdlib/_pyio_py313_backup.py` (cited as
`_pyio`).  Not modelled: `write_through` (stored, and then used nowhere, `_pyio:2053`), the checks of the types of the arguments
(`_pyio:2130-2143`), the encoding `"locale"`, encoders without `setstate`.
-/

set_option autoImplicit false

namespace Verif

/-- The arguments of `reconfigure`; those that are `none` are not given.  An encoding is given together with its error
handler. -/
structure Settings where
  encoding : Option Codec := none
  newline : Option Newline := none
  lineBuffering : Option Bool := none

namespace Txt

variable {C : Codec}

/-- `reconfigure`, `_pyio:2111-2152`, with `_configure`, `_pyio:2038-2063`.  The result is a stream with the old settings
(`inl`) or with the new ones (`inr`).  The characters that are decoded and the snapshot stay; the encoder and the decoder are
dropped. -/
def reconfigure (a : Settings) (t : Txt C) : Except Exn Unit × (Txt C ⊕ Txt (a.encoding.getD C)) :=
  if t.decoder.isSome = true ∧ (a.encoding.isSome = true ∨ a.newline.isSome = true) then (.error .unsupported, .inl t)
  else
    match flush t with
    | (.error e, t) => (.error e, .inl t)
    | (.ok _, t) =>
      match configure (C := a.encoding.getD C) ⟨t.buf, a.newline.getD t.newline, a.lineBuffering.getD t.lineBuffering, t.linesep,
          t.seekable, t.telling, none, none, t.chars, t.used, t.snapshot, (0, 0)⟩ with
      | (r, t') => (r, .inr t')

end Txt

end Verif
