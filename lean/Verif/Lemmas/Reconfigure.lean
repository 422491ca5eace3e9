import Verif.Model.Reconfigure
import Verif.Lemmas.TextWrite

/-!
# Streams that were not read have no decoder
-/

set_option autoImplicit false

namespace Verif.Txt

open Verif.Spec

variable {C : Codec} {α β : Type}

/-- The method makes no decoder. -/
def Unread (m : PyM (Txt C) α) : Prop := ∀ t, t.decoder = none → (m t).2.decoder = none

namespace Unread

theorem after {m : PyM (Txt C) α} {g : α → PyM (Txt C) β} {t : Txt C} (h : (m t).2.decoder = none) (h' : ∀ a, Unread (g a)) :
    ((m >>= g) t).2.decoder = none := by
  rw [PyM.bind_apply]
  cases hm : m t with
  | mk r t' =>
    rw [hm] at h
    cases r with
    | ok a => exact h' a t' h
    | error e => exact h

theorem bind {m : PyM (Txt C) α} {g : α → PyM (Txt C) β} (h : Unread m) (h' : ∀ a, Unread (g a)) : Unread (m >>= g) := by
  intro t ht
  exact after (h t ht) h'

theorem pure (a : α) : Unread (Pure.pure a : PyM (Txt C) α) := fun _ h => h

theorem raise (e : Exn) : Unread (PyM.raise e : PyM (Txt C) α) := fun _ h => h

theorem onBuf (m : PyM Buf α) : Unread (Txt.onBuf m : PyM (Txt C) α) := fun _ h => h

theorem modify {g : Txt C → Txt C} (hg : ∀ t, (g t).decoder = t.decoder) : Unread (PyM.modify g) := fun t h => (hg t).trans h

theorem when {m : PyM (Txt C) α} (h : Unread m) (b : Bool) : Unread (PyM.when b m) := by
  intro t ht
  unfold PyM.when
  have := h t ht
  cases b with
  | false => exact ht
  | true =>
    rw [if_pos rfl]
    cases hm : m t with
    | mk r t' =>
      rw [hm] at this
      cases r <;> exact this

theorem flush : Unread (Txt.flush : PyM (Txt C) Unit) := bind (onBuf _) fun _ => modify fun _ => rfl

theorem encode (s : Text) : Unread (Txt.encode s : PyM (Txt C) Bytes) := by
  intro t ht
  unfold Txt.encode
  split <;> exact ht

theorem resetDecoder : Unread (Txt.resetDecoder : PyM (Txt C) Unit) := by
  intro t ht
  change t.decoder.map _ = none
  rw [ht]; rfl

theorem dropSnapshot : Unread (Txt.dropSnapshot : PyM (Txt C) Unit) := modify fun t => by split <;> rfl

theorem write (s : Text) : Unread (Txt.write s : PyM (Txt C) Nat) := fun t ht =>
  (bind (onBuf _) fun _ => bind (encode _) fun _ => bind (onBuf _) fun _ => bind (when flush _) fun _ =>
    bind dropSnapshot fun _ => bind resetDecoder fun _ => pure _) t ht

theorem tell (guess : Nat × Nat → Nat → Nat) : Unread (Txt.tell guess : PyM (Txt C) Cookie) := by
  intro t ht
  unfold Txt.tell
  split
  · exact ht
  split
  · exact ht
  · exact (bind flush fun _ => bind (onBuf _) fun _ => fun _ h => h : Unread _) t ht

theorem setEncoder (b : Bool) : Unread (Txt.setEncoder b : PyM (Txt C) Unit) := modify fun _ => rfl

theorem configure : Unread (Txt.configure : PyM (Txt C) Unit) := by
  have hw : Unread (Txt.writable : PyM (Txt C) Bool) := by
    intro t ht
    unfold Txt.writable
    split
    · exact ht
    · split <;> exact ht
  intro t ht
  unfold Txt.configure
  split
  · refine (bind hw fun w => ?_) t ht
    split
    · exact bind (onBuf _) fun _ => when (setEncoder _) _
    · exact pure _
  · exact ht

theorem seekTo (p : Nat) : Unread (Txt.seekTo (offset p) : PyM (Txt C) Cookie) := by
  refine bind flush fun _ => bind (onBuf _) fun _ => bind (modify fun _ => rfl) fun _ => bind ?_ fun _ =>
    bind ?_ fun _ => bind (setEncoder _) fun _ => pure _
  · intro t ht
    unfold restoreDecoder
    rw [ht, if_neg (by simp), if_neg (by simp [offset])]
    exact ht
  · exact fun _ h => h

end Unread

theorem Outlet.unread {nl : Newline} {ls : Text} {k : BufKind} {t : Txt C} {f : Sink} (h : Outlet C nl ls k t f)
    (guess : Nat × Nat → Nat → Nat) (hd : t.decoder = none) {op : Op} (hop : SinkCall k op) :
    (Txt.step guess t op).2.decoder = none := by
  have hof : ∀ {α : Type} (g : α → Out) (r : Except Exn α × Txt C), (Out.of g r).2 = r.2 := by
    intro α g r
    obtain ⟨r, t'⟩ := r
    cases r <;> rfl
  have hhere : (Txt.seek guess .here t).2.decoder = none := by
    obtain ⟨t1, h1, h2⟩ := h.tell guess
    have h3 := Unread.tell guess t hd
    rw [h1] at h3
    unfold Txt.seek
    rw [PyM.bind_ok h.checkClosed]
    simp only [h.seekable, Bool.not_true, Bool.false_eq_true, if_false]
    rw [PyM.bind_ok h1]
    exact Unread.seekTo f.pos t1 h3
  have hlock : ∀ m : PyM Buf Unit, ((Txt.resetBuffers guess >>= fun _ => Txt.onBuf m) t).2.decoder = none := fun m =>
    Unread.after (Unread.after hhere fun _ => Unread.pure _) fun _ => Unread.onBuf _
  cases op <;> simp only [Txt.step, hof]
  case read n =>
    have hk : t.buf.kind = .writer := h.kind.trans hop
    have hr : Txt.readable t = (.ok false, t) := by unfold Txt.readable; rw [hk]
    have hc : Txt.checkReadable t = (.error .unsupported, t) := by
      unfold Txt.checkReadable
      rw [PyM.bind_ok hr]; rfl
    unfold Txt.read
    rw [PyM.bind_error hc]
    exact hd
  case readline => exact hop.elim
  case next => exact hop.elim
  case close => exact hop.elim
  case write s => exact Unread.write s t hd
  case flush => exact Unread.flush t hd
  case tell => exact Unread.tell guess t hd
  case size => exact Unread.bind Unread.flush (fun _ => Unread.onBuf _) t hd
  case sync => exact Unread.bind Unread.flush (fun _ => Unread.onBuf _) t hd
  case lock o => exact hlock _
  case unlock => exact hlock _
  case readinto => exact Unread.bind (Unread.onBuf _) (fun _ => Unread.raise _) t hd
  case truncate a =>
    refine Unread.bind Unread.flush (fun _ => ?_) t hd
    cases a with
    | none => exact Unread.bind (Unread.tell guess) fun _ => Unread.onBuf _
    | some n => exact Unread.onBuf _
  case seek m =>
    by_cases hm : m = .here
    · rw [hm]; exact hhere
    unfold Txt.seek
    refine Unread.bind (Unread.onBuf _) (fun _ => ?_) t hd
    split
    · exact Unread.raise _
    cases m with
    | to c =>
      cases c with
      | none => exact Unread.raise _
      | some c =>
        have hc : c = offset c.position := hop
        dsimp only
        rw [hc]
        exact Unread.seekTo _
    | here => exact absurd rfl hm
    | toEnd =>
      exact Unread.bind Unread.flush fun _ => Unread.bind (Unread.onBuf _) fun _ => Unread.bind (Unread.modify fun _ => rfl) fun _ =>
        Unread.bind (Unread.modify fun _ => rfl) fun _ => Unread.bind Unread.resetDecoder fun _ =>
        Unread.bind (Unread.setEncoder _) fun _ => Unread.pure _
    | relative => exact Unread.raise _
    | badWhence => exact Unread.raise _

theorem Outlet.unreadRun {nl : Newline} {ls : Text} {k : BufKind} (hC : LawfulEncoder C) (guess : Nat × Nat → Nat → Nat)
    {ops : List Op} (hops : ∀ op ∈ ops, SinkCall k op) : ∀ {t : Txt C} {f : Sink}, Outlet C nl ls k t f → t.decoder = none →
    (Txt.run guess t ops).2.decoder = none := by
  induction ops with
  | nil => exact fun _ hd => hd
  | cons op ops ih =>
    intro t f h hd
    obtain ⟨f1, _, h2⟩ := h.step hC guess (hops op (by simp))
    exact ih (fun o ho => hops o (List.mem_cons_of_mem _ ho)) h2 (h.unread guess hd (hops op (by simp)))

/-- `_configure` of a stream that writes. -/
theorem Outlet.configured {nl : Newline} {ls : Text} {k : BufKind} {t : Txt C} {f : Sink} (h : Outlet C nl ls k t f) (C' : Codec)
    (nl' : Newline) (lb : Bool) :
    ∃ t' : Txt C', configure (C := C') ⟨t.buf, nl', lb, t.linesep, t.seekable, t.telling, none, none, t.chars, t.used, t.snapshot, (0, 0)⟩ =
      (.ok (), t') ∧ Outlet C' nl' ls k t' f ∧ t'.lineBuffering = lb ∧ t'.decoder = none ∧ t'.buf = t.buf := by
  have hl := h.buf.live
  generalize ht0 : (⟨t.buf, nl', lb, t.linesep, t.seekable, t.telling, none, none, t.chars, t.used, t.snapshot, (0, 0)⟩ : Txt C') = t0
  have hb : t0.buf = t.buf := by rw [← ht0]
  have hfresh : ∀ e, (e : Option C'.Enc).getD C'.encInit = (if f.pos = 0 then C'.encInit else C'.encMid) →
      Outlet C' nl' ls k { t0 with encoder := e } f := by
    intro e he
    rw [← ht0]
    exact ⟨h.buf, h.kind, h.notReader, rfl, h.linesep, h.seekable, h.telling, h.chars, h.snapshot, he⟩
  have he0 : { t0 with encoder := none } = t0 := by rw [← ht0]
  unfold configure
  rw [if_pos (by rw [← ht0]; exact h.seekable)]
  have hw : Txt.writable t0 = (.ok true, t0) := by
    unfold Txt.writable
    rw [hb]
    split
    · rename_i hq; exact absurd (h.kind.symm.trans hq) h.notReader
    · rw [if_neg (by rw [hl.opened]; simp), hl.writable (by rw [h.kind]; exact h.notReader)]
  rw [PyM.bind_ok hw]
  simp only [if_true]
  have htell : onBuf Buf.tell t0 = (.ok f.pos, t0) := onBuf_eq (by rw [hb]; exact Buf.tell_R h.buf)
  rw [PyM.bind_ok htell]
  by_cases hp : f.pos = 0
  · refine ⟨t0, ?_, ?_, by rw [← ht0], by rw [← ht0], hb⟩
    · rw [hp]; rfl
    · rw [← he0]; exact hfresh none (by rw [if_pos hp]; rfl)
  · refine ⟨{ t0 with encoder := some C'.encMid }, ?_, hfresh _ (by rw [if_neg hp]; rfl), by rw [← ht0], by rw [← ht0], hb⟩
    rw [show decide (f.pos ≠ 0) = true by simpa using hp]; rfl

end Verif.Txt
