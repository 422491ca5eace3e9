import Verif.Model.Text
import Verif.Lemmas.TextRead

/-!
# Streams that were read keep a decoder
-/

set_option autoImplicit false

namespace Verif.Txt

variable {C : Codec} {α β : Type}

/-- The method keeps the decoder, if there is one. -/
def Decoding (m : PyM (Txt C) α) : Prop := ∀ t, t.decoder.isSome = true → (m t).2.decoder.isSome = true

/-- When the method returns, there is a decoder. -/
def Decodes (m : PyM (Txt C) α) : Prop := ∀ t a t', m t = (.ok a, t') → t'.decoder.isSome = true

namespace Decoding

theorem bind {m : PyM (Txt C) α} {g : α → PyM (Txt C) β} (h : Decoding m) (h' : ∀ a, Decoding (g a)) : Decoding (m >>= g) := by
  intro t ht
  have h := h t ht
  rw [PyM.bind_apply]
  cases hm : m t with
  | mk r t' =>
    rw [hm] at h
    cases r with
    | ok a => exact h' a t' h
    | error e => exact h

theorem pure (a : α) : Decoding (Pure.pure a : PyM (Txt C) α) := fun _ h => h

theorem raise (e : Exn) : Decoding (PyM.raise e : PyM (Txt C) α) := fun _ h => h

theorem get : Decoding (PyM.get : PyM (Txt C) (Txt C)) := fun _ h => h

theorem onBuf (m : PyM Buf α) : Decoding (Txt.onBuf m : PyM (Txt C) α) := fun _ h => h

theorem modify {g : Txt C → Txt C} (hg : ∀ t, (g t).decoder = t.decoder) : Decoding (PyM.modify g) := fun t h => by
  change (g t).decoder.isSome = true
  rw [hg]; exact h

theorem when {m : PyM (Txt C) α} (h : Decoding m) (b : Bool) : Decoding (PyM.when b m) := by
  intro t ht
  unfold PyM.when
  have := h t ht
  cases b with
  | false => exact ht
  | true =>
    rw [if_pos rfl]
    cases hm : m t with
    | mk r t' =>
      rw [hm] at this
      cases r <;> exact this

theorem ite {c : Prop} [Decidable c] {m m' : PyM (Txt C) α} (h : Decoding m) (h' : Decoding m') : Decoding (if c then m else m') := by
  split
  · exact h
  · exact h'

theorem flush : Decoding (Txt.flush : PyM (Txt C) Unit) := bind (onBuf _) fun _ => modify (by intro _; rfl)

theorem close : Decoding (Txt.close : PyM (Txt C) Unit) := by
  intro t ht
  unfold Txt.close
  split
  · exact ht
  rw [PyM.tryFinally_apply]
  have h1 := flush t ht
  cases hm : Txt.flush t with
  | mk r t' =>
    rw [hm] at h1
    have h2 := onBuf Buf.close t' h1
    dsimp only
    cases hm' : Txt.onBuf Buf.close t' with
    | mk r' t'' =>
      rw [hm'] at h2
      cases r' <;> exact h2

theorem encode (s : Text) : Decoding (Txt.encode s : PyM (Txt C) Bytes) := by
  intro t ht
  unfold Txt.encode
  split <;> exact ht

theorem resetDecoder : Decoding (Txt.resetDecoder : PyM (Txt C) Unit) := by
  intro t ht
  change (t.decoder.map _).isSome = true
  rw [Option.isSome_map]; exact ht

theorem getDecoder : Decoding (Txt.getDecoder : PyM (Txt C) Unit) := fun _ _ => rfl

theorem decode (input : Option Bytes) (final : Bool) : Decoding (Txt.decode input final : PyM (Txt C) Text) := by
  intro t ht
  unfold Txt.decode
  split
  · exact ht
  · exact ht
  · split
    · exact ht
    · rfl

theorem dropSnapshot : Decoding (Txt.dropSnapshot : PyM (Txt C) Unit) := modify fun t => by split <;> rfl

theorem setChars (s : Text) : Decoding (Txt.setChars s : PyM (Txt C) Unit) := modify (by intro _; rfl)

theorem getChars (n : Option Nat) : Decoding (Txt.getChars n : PyM (Txt C) Text) := fun _ h => h

theorem setEncoder (b : Bool) : Decoding (Txt.setEncoder b : PyM (Txt C) Unit) := modify (by intro _; rfl)

theorem write (s : Text) : Decoding (Txt.write s : PyM (Txt C) Nat) := by
  intro t ht
  unfold Txt.write
  refine bind (onBuf _) (fun _ => bind (encode _) fun _ => bind (onBuf _) fun _ => bind (when flush _) fun _ =>
    bind dropSnapshot fun _ => bind resetDecoder fun _ => pure _) t ht

theorem readChunk : Decoding (Txt.readChunk : PyM (Txt C) Bool) := by
  intro t ht
  unfold Txt.readChunk
  split
  · exact ht
  · refine bind (onBuf _) (fun _ => bind (decode _ _) fun _ => bind (setChars _) fun _ => bind (modify (by intro _; rfl)) fun _ => pure _) t ht

theorem readable : Decoding (Txt.readable : PyM (Txt C) Bool) := by
  intro t ht
  unfold Txt.readable
  split
  · exact ht
  · split <;> exact ht

theorem checkReadable : Decoding (Txt.checkReadable : PyM (Txt C) Unit) := bind readable fun _ => ite (pure _) (raise _)

theorem readLoop (size fuel : Nat) : ∀ result, Decoding (Txt.readLoop size fuel result : PyM (Txt C) Text) := by
  induction fuel with
  | zero => exact fun _ => pure _
  | succ fuel ih =>
    intro result
    unfold Txt.readLoop
    exact ite (bind readChunk fun _ => bind (getChars _) fun _ => ite (ih _) (pure _)) (pure _)

theorem readAll : Decoding (Txt.readAll : PyM (Txt C) Text) :=
  bind (getChars _) fun _ => bind (onBuf _) fun _ => bind (decode _ _) fun _ => bind dropSnapshot fun _ => pure _

/-- `read`, once there is a decoder. -/
theorem reading (size : Option Int) (r : Nat) : Decoding (match size with
    | none => Txt.readAll
    | some n =>
      if n < 0 then Txt.readAll
      else do
        let s ← Txt.getChars (some n.toNat)
        Txt.readLoop n.toNat r s : PyM (Txt C) Text) := by
  cases size with
  | none => exact readAll
  | some n => exact ite readAll (bind (getChars _) fun _ => readLoop _ _ _)

theorem read (size : Option Int) : Decoding (Txt.read size : PyM (Txt C) Text) := by
  intro t ht
  unfold Txt.read
  exact bind checkReadable (fun _ => bind getDecoder fun _ => reading size t.rounds) t ht

theorem moreChars (fuel : Nat) : Decoding (Txt.moreChars fuel : PyM (Txt C) Unit) := by
  induction fuel with
  | zero => exact pure _
  | succ fuel ih => exact bind readChunk fun _ => bind get fun _ => ite ih (pure _)

theorem rewind (n : Nat) : Decoding (Txt.rewind n : PyM (Txt C) Unit) := by
  intro t ht
  unfold Txt.rewind
  split <;> exact ht

theorem finishLine (size : Int) (line : Text) (e : Nat) : Decoding (Txt.finishLine size line e : PyM (Txt C) Text) :=
  bind (rewind _) fun _ => pure _

theorem readlineLoop (size : Int) (fuel : Nat) : ∀ line, Decoding (Txt.readlineLoop size fuel line : PyM (Txt C) Text) := by
  induction fuel with
  | zero => exact fun _ => pure _
  | succ fuel ih =>
    intro line t ht
    unfold Txt.readlineLoop
    split
    · exact finishLine _ _ _ t ht
    · split
      · exact finishLine _ _ _ t ht
      · refine bind (moreChars _) (fun _ => bind get fun _ => ite (bind (getChars _) fun _ => ih _)
          (bind (setChars _) fun _ => bind (modify (by intro _; rfl)) fun _ => pure _)) t ht

theorem readline (size : Int) : Decoding (Txt.readline size : PyM (Txt C) Text) := by
  intro t ht
  unfold Txt.readline
  exact bind (onBuf _) (fun _ => bind (getChars _) fun _ => bind getDecoder fun _ => readlineLoop size (t.rounds + 1) _) t ht

theorem next : Decoding (Txt.next : PyM (Txt C) Text) :=
  bind (modify (by intro _; rfl)) fun _ => bind (readline _) fun _ => bind (when (modify (by intro _; rfl)) _) fun _ => pure _

theorem tell (guess : Nat × Nat → Nat → Nat) : Decoding (Txt.tell guess : PyM (Txt C) Cookie) := by
  intro t ht
  unfold Txt.tell
  split
  · exact ht
  split
  · exact ht
  · exact (bind flush fun _ => bind (onBuf _) fun _ => fun _ h => h : Decoding _) t ht

theorem restoreDecoder (c : Cookie) : Decoding (Txt.restoreDecoder c : PyM (Txt C) Unit) := by
  intro t ht
  unfold Txt.restoreDecoder
  split
  · exact resetDecoder t ht
  · split
    · rfl
    · exact ht

theorem skipChars (c : Cookie) : Decoding (Txt.skipChars c : PyM (Txt C) Unit) :=
  bind (onBuf _) fun _ => bind (decode _ _) fun _ => bind (setChars _) fun _ => bind (modify (by intro _; rfl)) fun _ =>
    ite (raise _) (modify (by intro _; rfl))

theorem seekTo (c : Cookie) : Decoding (Txt.seekTo c : PyM (Txt C) Cookie) :=
  bind flush fun _ => bind (onBuf _) fun _ => bind (modify (by intro _; rfl)) fun _ => bind (restoreDecoder c) fun _ =>
    bind (when (skipChars c) _) fun _ => bind (setEncoder _) fun _ => pure _

theorem seek (guess : Nat × Nat → Nat → Nat) (m : Movement) : Decoding (Txt.seek guess m : PyM (Txt C) Cookie) := by
  intro t ht
  unfold Txt.seek
  refine bind (onBuf _) (fun _ => ite (raise _) ?_) t ht
  cases m with
  | to c =>
    cases c with
    | none => exact raise _
    | some c => exact seekTo c
  | here => exact bind (tell guess) fun c => seekTo c
  | toEnd =>
    exact bind flush fun _ => bind (onBuf _) fun _ => bind (setChars _) fun _ => bind (modify (by intro _; rfl)) fun _ =>
      bind resetDecoder fun _ => bind (setEncoder _) fun _ => pure _
  | relative => exact raise _
  | badWhence => exact raise _

theorem truncate (guess : Nat × Nat → Nat → Nat) (a : Option Int) : Decoding (Txt.truncate guess a : PyM (Txt C) Nat) := by
  refine bind flush fun _ => ?_
  cases a with
  | none => exact bind (tell guess) fun _ => onBuf _
  | some n => exact onBuf _

theorem resetBuffers (guess : Nat × Nat → Nat → Nat) : Decoding (Txt.resetBuffers guess : PyM (Txt C) Unit) :=
  bind (seek guess .here) fun _ => pure _

theorem step (guess : Nat × Nat → Nat → Nat) (t : Txt C) (ht : t.decoder.isSome = true) (op : Op) :
    (Txt.step guess t op).2.decoder.isSome = true := by
  have hof : ∀ {α : Type} (g : α → Out) (r : Except Exn α × Txt C), (Out.of g r).2 = r.2 := by
    intro α g r
    obtain ⟨r, t'⟩ := r
    cases r <;> rfl
  cases op <;> simp only [Txt.step, hof]
  case read n => exact read n t ht
  case readline n => exact readline n t ht
  case next => exact next t ht
  case write s => exact write s t ht
  case flush => exact flush t ht
  case seek m => exact seek guess m t ht
  case tell => exact tell guess t ht
  case truncate a => exact truncate guess a t ht
  case size => exact bind flush (fun _ => onBuf _) t ht
  case sync => exact bind flush (fun _ => onBuf _) t ht
  case lock o => exact bind (resetBuffers guess) (fun _ => onBuf _) t ht
  case unlock => exact bind (resetBuffers guess) (fun _ => onBuf _) t ht
  case readinto => exact bind (onBuf _) (fun _ => raise _) t ht
  case close => exact close t ht

theorem run (guess : Nat × Nat → Nat → Nat) (ops : List Op) : ∀ t : Txt C, t.decoder.isSome = true →
    (Txt.run guess t ops).2.decoder.isSome = true := by
  induction ops with
  | nil => exact fun _ h => h
  | cons op ops ih => exact fun t h => ih _ (step guess t h op)

end Decoding

namespace Decodes

theorem first {m : PyM (Txt C) α} {g : α → PyM (Txt C) β} (h : Decodes m) (h' : ∀ a, Decoding (g a)) : Decodes (m >>= g) := by
  intro t b t' hr
  rw [PyM.bind_apply] at hr
  cases hm : m t with
  | mk r t1 =>
    rw [hm] at hr
    cases r with
    | ok a =>
      have := h' a t1 (h t a t1 hm)
      dsimp only at hr
      rw [hr] at this
      exact this
    | error e => cases hr

theorem later {m : PyM (Txt C) α} {g : α → PyM (Txt C) β} (h : ∀ a, Decodes (g a)) : Decodes (m >>= g) := by
  intro t b t' hr
  rw [PyM.bind_apply] at hr
  cases hm : m t with
  | mk r t1 =>
    rw [hm] at hr
    cases r with
    | ok a => exact h a t1 b t' hr
    | error e => cases hr

theorem getDecoder : Decodes (Txt.getDecoder : PyM (Txt C) Unit) := by
  intro t a t' h
  cases h
  rfl

theorem read (n : Option Int) : Decodes (Txt.read n : PyM (Txt C) Text) := by
  intro t
  unfold Txt.read
  exact (later (fun _ => first getDecoder fun _ => Decoding.reading n t.rounds)) t

theorem readline (n : Int) : Decodes (Txt.readline n : PyM (Txt C) Text) := by
  intro t
  unfold Txt.readline
  exact (later (fun _ => later fun _ => first getDecoder fun _ => Decoding.readlineLoop n (t.rounds + 1) _)) t

theorem next : Decodes (Txt.next : PyM (Txt C) Text) :=
  later fun _ => first (readline _) fun _ => Decoding.bind (Decoding.when (Decoding.modify (by intro _; rfl)) _) fun _ => Decoding.pure _

/-- A call that returns a text. -/
theorem step {guess : Nat × Nat → Nat → Nat} {t : Txt C} {op : Op} {s : Text} (h : (Txt.step guess t op).1 = .text s) :
    (Txt.step guess t op).2.decoder.isSome = true := by
  have hof : ∀ {m : PyM (Txt C) Text}, Decodes m → (Out.of .text (m t)).1 = .text s → (Out.of .text (m t)).2.decoder.isSome = true := by
    intro m hm hs
    cases hr : m t with
    | mk r t' =>
      rw [hr] at hs
      cases r with
      | ok a => exact hm t a t' hr
      | error e => cases hs
  have hno : ∀ {α : Type} {g : α → Out} {r : Except Exn α × Txt C}, (∀ a, g a ≠ .text s) → (Out.of g r).1 ≠ .text s := by
    intro α g r hg
    obtain ⟨r, t'⟩ := r
    cases r with
    | ok a => exact hg a
    | error e => nofun
  cases op <;> simp only [Txt.step] at h ⊢
  case read n => exact hof (read n) h
  case readline n => exact hof (readline n) h
  case next => exact hof next h
  all_goals exact absurd h (hno (by nofun))

end Decodes

end Verif.Txt
