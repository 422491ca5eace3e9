import Verif.Lemmas.ConcurrentSystem

/-!
# Locks that are held and requested, step by step
-/

set_option autoImplicit false

namespace Verif

open Spec

theorem mem_held {es : List Event} : ∀ {H : List Held} {h : Held}, h ∈ es.foldl heldStep H →
    h ∈ H ∨ .locked h.pid h.sid h.uid h.shared h.start h.stop ∈ es := by
  induction es with
  | nil => intro H h hh; exact .inl hh
  | cons e es ih =>
    intro H h hh
    rcases ih hh with h1 | h1
    · cases e with
      | locked p s u sh a b =>
        simp only [heldStep, List.mem_append, List.mem_singleton] at h1
        rcases h1 with h1 | rfl
        · exact .inl h1
        · exact .inr (List.mem_cons_self ..)
      | unlocked => exact .inl (List.mem_filter.mp h1).1
      | closed => exact .inl (List.mem_filter.mp h1).1
      | exited => exact .inl (List.mem_filter.mp h1).1
      | _ => exact .inl h1
    · exact .inr (List.mem_cons_of_mem _ h1)

theorem mem_requested {es : List Event} : ∀ {H : List Held} {h : Held}, h ∈ es.foldl requestStep H →
    h ∈ H ∨ .lockReq h.pid h.sid h.uid h.shared h.start h.stop ∈ es := by
  induction es with
  | nil => intro H h hh; exact .inl hh
  | cons e es ih =>
    intro H h hh
    rcases ih hh with h1 | h1
    · cases e with
      | lockReq p s u sh a b =>
        simp only [requestStep, List.mem_append, List.mem_singleton] at h1
        rcases h1 with h1 | rfl
        · exact .inl h1
        · exact .inr (List.mem_cons_self ..)
      | locked => exact .inl (List.mem_filter.mp h1).1
      | lockFailed => exact .inl (List.mem_filter.mp h1).1
      | exited => exact .inl (List.mem_filter.mp h1).1
      | _ => exact .inl h1
    · exact .inr (List.mem_cons_of_mem _ h1)

/-- An event that takes the lock `h` away. -/
def Drops (h : Held) : Event → Prop
  | .unlocked p s _ _ _ => p = h.pid ∧ s = h.sid
  | .closed p s _ => p = h.pid ∧ s = h.sid
  | .exited p => p = h.pid
  | _ => False

theorem held_stays {es : List Event} : ∀ {H : List Held} {h : Held}, h ∈ H → (∀ e ∈ es, ¬ Drops h e) → h ∈ es.foldl heldStep H := by
  induction es with
  | nil => intro H h hh _; exact hh
  | cons e es ih =>
    intro H h hh hd
    refine ih ?_ fun e he => hd e (List.mem_cons_of_mem _ he)
    have hd := hd e (List.mem_cons_self ..)
    cases e with
    | locked => exact List.mem_append_left _ hh
    | unlocked p s u a b =>
      refine List.mem_filter.mpr ⟨hh, ?_⟩
      simp only [Drops] at hd
      simp only [decide_not, Bool.not_eq_true', decide_eq_false_iff_not]
      rintro ⟨h1, h2, _⟩; exact hd ⟨h1.symm, h2.symm⟩
    | closed p s u =>
      refine List.mem_filter.mpr ⟨hh, ?_⟩
      simp only [Drops] at hd
      simp only [decide_not, Bool.not_eq_true', decide_eq_false_iff_not]
      rintro ⟨h1, h2⟩; exact hd ⟨h1.symm, h2.symm⟩
    | exited p =>
      refine List.mem_filter.mpr ⟨hh, ?_⟩
      simp only [Drops] at hd
      simp only [decide_not, Bool.not_eq_true', decide_eq_false_iff_not]
      intro h1; exact hd h1.symm
    | _ => exact hh

/-- The action does not give up the locks of the stream. -/
def Spares (i : Nat × Nat) (l : Label) : Prop :=
  l ≠ .exit i.1 ∧ l ≠ .act i.1 (.close i.2) ∧ ∀ a b, l ≠ .act i.1 (.unlock i.2 a b)

theorem step_held {w w' : World} {l : Label} {es tr : List Event} (h : step w l = some (w', es)) {x : Held}
    (hx : x ∈ heldOf tr) (hs : Spares (x.pid, x.sid) l) : x ∈ heldOf (tr ++ es) := by
  rw [heldOf, List.foldl_append]
  refine held_stays hx fun e he hd => ?_
  have hm := step_makes h e he
  cases e with
  | unlocked p s u a b =>
    obtain ⟨rfl, rfl⟩ := hd
    obtain ⟨a, b, rfl⟩ := hm
    exact hs.2.2 _ _ rfl
  | closed p s u =>
    obtain ⟨rfl, rfl⟩ := hd
    exact hs.2.1 hm
  | exited p =>
    cases hd
    exact hs.1 hm
  | _ => exact hd

theorem step_requested {w w' : World} {l : Label} {es tr : List Event} (h : step w l = some (w', es)) {x : Held}
    (hx : x ∈ requestedOf (tr ++ es)) : x ∈ requestedOf tr ∨ ∃ t len llb pr st, l = .act x.pid (.lockCall t x.sid len x.start x.shared llb) ∧
      w.procs x.pid = some pr ∧ pr.streams x.sid = some st ∧ x.uid = st.uid ∧ x.stop = newEnd x.start (len.map Int.ofNat) := by
  rw [requestedOf, List.foldl_append] at hx
  rcases mem_requested hx with h1 | h1
  · exact .inl h1
  · obtain ⟨t, len, llb, pr, st, h⟩ := step_makes h _ h1
    exact .inr ⟨t, len, llb, pr, st, h⟩

/-- The stream of a lock that is held or requested exists. -/
theorem Reach.known {ls : List Label} {w : World} {tr : List Event} (h : Reach ls w tr) :
    (∀ x ∈ heldOf tr, ∃ p st, w.procs x.pid = some p ∧ p.streams x.sid = some st) ∧
    ∀ x ∈ requestedOf tr, ∃ p st, w.procs x.pid = some p ∧ p.streams x.sid = some st := by
  induction h with
  | init => exact ⟨nofun, nofun⟩
  | @step ls w tr l w' e hr hw hs ih =>
    have keep : ∀ x : Held, (∃ p st, w.procs x.pid = some p ∧ p.streams x.sid = some st) →
        ∃ p st, w'.procs x.pid = some p ∧ p.streams x.sid = some st := by
      rintro x ⟨p, st, h1, h2⟩
      obtain ⟨p', h3, h4⟩ := step_keeps hs h1
      obtain ⟨st', h5, _⟩ := h4 _ _ h2
      exact ⟨p', st', h3, h5⟩
    refine ⟨fun x hx => keep x ?_, fun x hx => keep x ?_⟩
    · rw [heldOf, List.foldl_append] at hx
      rcases mem_held hx with h1 | h1
      · exact ih.1 x h1
      · obtain ⟨pr, t, q, h2, h3, h4, h5⟩ := step_makes hs _ h1
        have := hr.req x.pid pr h2 h3 t q (by rw [h4]; rfl)
        exact ih.2 x (by rw [h5] at this; exact this)
    · rcases step_requested hs hx with h1 | ⟨t, len, llb, pr, st, _, h2, h3, _⟩
      · exact ih.2 x h1
      · exact ⟨pr, st, h2, h3⟩

end Verif
