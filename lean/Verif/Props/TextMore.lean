import Verif.Model.Text
import Verif.Props.BufferedMore
import Verif.Spec.Codecs

/-!
# Closed text streams
-/

set_option autoImplicit false

namespace Verif.Props

open Spec

variable {C : Codec}

/-- The exceptions of a method of a closed text stream: `ValueError`, or its subclass `UnsupportedOperation`. -/
def TextRefused : Txt.Out → Prop
  | .error .valueError => True
  | .error .unsupported => True
  | _ => False

/-- Inside `for line in f`, `tell` complains about the iteration first. -/
def TellsInLoop (t : Txt C) : Txt.Op → Prop
  | .tell => t.telling = false ∧ t.seekable = true
  | _ => False

/-- C33, text streams: a method of a closed text stream, other than `close`, raises `ValueError`; the buffered stream and
the raw stream below, with the file and the locks, are as before.  Missing: `tell` inside an iteration, which raises
`OSError` instead (`C33_text_refuted`). -/
theorem C33_text_partial (guess : Nat × Nat → Nat → Nat) (t : Txt C) (hc : t.buf.raw.closed = true) (op : Txt.Op)
    (hop : op ≠ .close) (hit : ¬ TellsInLoop t op) :
    TextRefused (t.step guess op).1 ∧ (t.step guess op).2.buf = t.buf := by
  have hck : ∀ u : Txt C, u.buf = t.buf → Txt.checkClosed u = (.error .valueError, u) := by
    intro u hu
    have : Buf.checkClosed u.buf = (.error .valueError, u.buf) := by simp [Buf.checkClosed, hu, hc]
    simp only [Txt.checkClosed, Txt.onBuf, this]
  have hbfl : Buf.flush t.buf = (.error .valueError, t.buf) := by
    have hck' : Buf.checkClosed t.buf = (.error .valueError, t.buf) := by simp [Buf.checkClosed, hc]
    unfold Buf.flush
    split
    · exact PyM.bind_error hck'
    · exact PyM.bind_error hck'
  have hfl : Txt.flush t = (.error .valueError, t) := by
    refine PyM.bind_error ?_
    simp only [Txt.onBuf, hbfl]
  have hseek : ∀ m, Txt.seek guess m t = (.error .valueError, t) := fun m => PyM.bind_error (hck t rfl)
  have hreset : Txt.resetBuffers guess t = (.error .valueError, t) := PyM.bind_error (hseek _)
  have key : ∀ {α : Type} (f : α → Txt.Out) (q : Except Exn α × Txt C) (e : Exn) (u : Txt C), q = (.error e, u) →
      (e = .valueError ∨ e = .unsupported) → u.buf = t.buf →
      TextRefused (Txt.Out.of f q).1 ∧ (Txt.Out.of f q).2.buf = t.buf := by
    intro α f q e u hq he hu
    subst hq
    refine ⟨?_, hu⟩
    rcases he with rfl | rfl <;> exact trivial
  cases op with
  | read n =>
    have hr : Txt.checkReadable t = (.error .valueError, t) ∨ Txt.checkReadable t = (.error .unsupported, t) := by
      cases hk : t.buf.kind with
      | writer =>
        right
        have : Txt.readable t = (.ok false, t) := by simp only [Txt.readable, hk]
        exact PyM.bind_ok this
      | reader =>
        left
        have : Txt.readable t = (.error .valueError, t) := by simp only [Txt.readable, hk, hc, if_true]
        exact PyM.bind_error this
      | random =>
        left
        have : Txt.readable t = (.error .valueError, t) := by simp only [Txt.readable, hk, hc, if_true]
        exact PyM.bind_error this
    rcases hr with hr | hr
    · exact key _ _ _ t (PyM.bind_error hr) (Or.inl rfl) rfl
    · exact key _ _ _ t (PyM.bind_error hr) (Or.inr rfl) rfl
  | readline n => exact key _ _ _ t (PyM.bind_error (hck t rfl)) (Or.inl rfl) rfl
  | next =>
    refine key _ _ .valueError { t with telling := false } ?_ (Or.inl rfl) rfl
    have h1 : (PyM.modify fun t : Txt C => { t with telling := false }) t = (.ok (), { t with telling := false }) := rfl
    refine (PyM.bind_ok h1).trans (PyM.bind_error ?_)
    exact PyM.bind_error (hck _ rfl)
  | write s => exact key _ _ _ t (PyM.bind_error (hck t rfl)) (Or.inl rfl) rfl
  | flush => exact key _ _ _ t hfl (Or.inl rfl) rfl
  | seek m => exact key _ _ _ t (hseek m) (Or.inl rfl) rfl
  | tell =>
    by_cases hs : t.seekable = true
    · have ht : t.telling = true := by
        cases h : t.telling
        · exact absurd ⟨h, hs⟩ hit
        · rfl
      refine key _ _ .valueError t ?_ (Or.inl rfl) rfl
      simp only [Txt.tell, hs, ht, Bool.not_true, Bool.false_eq_true, if_false]
      exact PyM.bind_error hfl
    · refine key _ _ .unsupported t ?_ (Or.inr rfl) rfl
      have : t.seekable = false := by simpa using hs
      simp only [Txt.tell, this, Bool.not_false, if_true]
  | truncate a => exact key _ _ _ t (PyM.bind_error hfl) (Or.inl rfl) rfl
  | size => exact key _ _ _ t (PyM.bind_error hfl) (Or.inl rfl) rfl
  | sync a m f => exact key _ _ _ t (PyM.bind_error hfl) (Or.inl rfl) rfl
  | lock o => exact key _ _ _ t (PyM.bind_error hreset) (Or.inl rfl) rfl
  | unlock => exact key _ _ _ t (PyM.bind_error hreset) (Or.inl rfl) rfl
  | readinto => exact key _ _ _ t (PyM.bind_error (hck t rfl)) (Or.inl rfl) rfl
  | close => exact absurd rfl hop

/-- C33: `sync` of a closed stream raises `ValueError` and changes nothing; nothing is sent to the device. -/
theorem C33_sync (fdatasync metadata fullFlush : Bool) :
    (∀ s : Raw, s.closed = true → Raw.sync fdatasync metadata fullFlush s = (.error .valueError, s)) ∧
    (∀ b : Buf, b.raw.closed = true → Buf.sync fdatasync metadata fullFlush b = (.error .valueError, b)) ∧
    ∀ t : Txt C, t.buf.raw.closed = true →
      (Txt.sync fdatasync metadata fullFlush t).1 = .error .valueError ∧
      (Txt.sync fdatasync metadata fullFlush t).2.buf = t.buf := by
  have hfl : ∀ b : Buf, b.raw.closed = true → Buf.flush b = (.error .valueError, b) := by
    intro b hc
    have hck : Buf.checkClosed b = (.error .valueError, b) := by simp [Buf.checkClosed, hc]
    unfold Buf.flush
    split
    · exact PyM.bind_error hck
    · exact PyM.bind_error hck
  refine ⟨fun s hc => PyM.bind_error (by simp [Raw.checkClosed, hc]), fun b hc => PyM.bind_error (hfl b hc), fun t hc => ?_⟩
  have h1 : (Txt.flush t).1 = .error .valueError ∧ (Txt.flush t).2.buf = t.buf := by
    have h2 : Txt.onBuf Buf.flush t = (.error .valueError, t) := by simp only [Txt.onBuf, hfl _ hc]
    unfold Txt.flush
    rw [PyM.bind_error h2]
    exact ⟨rfl, rfl⟩
  have h3 : Txt.flush t = (.error .valueError, (Txt.flush t).2) := by rw [← h1.1]
  have h4 : Txt.sync fdatasync metadata fullFlush t = (.error .valueError, (Txt.flush t).2) := PyM.bind_error h3
  rw [h4]
  exact ⟨rfl, h1.2⟩

example : closedReader.raw.closed = true ∧ (Buf.sync true false true closedReader).1 = .error .valueError :=
  ⟨by decide +kernel, by decide +kernel⟩

/-- C33, text streams: a second `close` has no effect. -/
theorem C33_text_close_again (t : Txt C) (hc : t.buf.raw.closed = true) : Txt.close t = (.ok (), t) := by
  simp only [Txt.close, hc, if_true]

/-- A text stream over a closed buffered reader. -/
def closedText : Txt latin1 :=
  ⟨closedReader, .auto, false, [10], true, true, none, none, [104, 105], 1, none, (0, 0)⟩

example (guess : Nat × Nat → Nat → Nat) : TextRefused (closedText.step guess (.read (some 1))).1 :=
  (C33_text_partial guess closedText (by decide +kernel) (.read (some 1)) (by nofun) (by simp [TellsInLoop])).1

/-- The claim C33 is false of `tell` inside an iteration: it raises `OSError`. -/
theorem C33_text_refuted : ∃ t : Txt latin1, t.buf.raw.closed = true ∧
    (t.step (fun _ n => n) .tell).1 = .error (.ioError 0) :=
  ⟨{ closedText with telling := false }, by decide +kernel, rfl⟩

end Verif.Props
