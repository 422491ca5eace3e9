import Verif.Lemmas.ConcurrentHeld
import Verif.Lemmas.ConcurrentAlone
import Verif.Lemmas.ConcurrentStale
import Verif.Props.System

/-!
# The calls that hold the lock, and the serial content
-/

set_option autoImplicit false

namespace Verif

open Spec

variable {S : Setting}

/-- The call holds its lock. -/
def Phase.Active {C : Codec} : Phase C → Prop
  | .locked _ => True
  | .inside .. => True
  | .leaving _ => True
  | _ => False

/-- The position of a stream that does not append is 0 until the call uses it. -/
def Phase.AtStart {C : Codec} (k : Job) : Phase C → Prop
  | .opened p => k.task.isAdd = false → p = 0
  | .asking p => k.task.isAdd = false → p = 0
  | .locked p => k.task.isAdd = false → p = 0
  | _ => True

/-- Equal for the call. -/
def Phase.Like {C : Codec} (k : Job) (a b : Phase C) : Prop := if k.task.isAdd = true then a.Astray b else a = b

/-- The request of a call. -/
def Job.lock (k : Job) (u : Uid) (i : Nat × Nat) : Held := ⟨i.1, i.2, u, k.shared, 0, none⟩

/-- The encoder of a text stream that appends starts in the middle of a file like at the beginning. -/
def Job.Plain (S : Setting) (k : Job) : Prop :=
  k.task.isAdd = true → k.task.binary = false → S.codec.encMid = S.codec.encInit

theorem Job.work_like {k : Job} (hp : k.Plain S) {file file₁ : Bytes} {ph ph' ph₁ : Phase S.codec} (h : ph.Like k ph')
    (hw : k.work S file ph' = some (ph₁, file₁)) : ∃ ph₀, k.work S file ph = some (ph₀, file₁) ∧ ph₀.Like k ph₁ := by
  unfold Phase.Like at h ⊢
  split at h
  · rename_i ha
    simp only [ha, if_true]
    have h' : ph'.Astray ph := by
      cases ph <;> cases ph' <;> first
        | exact h
        | skip
      · rename_i s t s' t'
        obtain ⟨h1, rfl, h3⟩ := h
        refine ⟨?_, rfl, h3⟩
        exact h1.symm
      · exact Eq.symm h
    obtain ⟨ph₀, g1, h2⟩ := Job.work_astray ha (hp ha) h' hw
    refine ⟨ph₀, g1, ?_⟩
    clear g1 hw
    cases ph₁ <;> cases ph₀ <;> first
      | exact h2
      | skip
    · obtain ⟨h1, rfl, h3⟩ := h2
      exact ⟨h1.symm, rfl, h3⟩
    · exact Eq.symm h2
  · rename_i ha
    subst h
    exact ⟨ph₁, hw, by simp [ha]⟩

/-- The invariant: `c` is the content after the calls that have ended. -/
structure Good (u : Uid) (w : Crowd S) (tr : List Event) (c : Bytes) : Prop where
  reach : ∃ ls, Reach ls w.sys tr
  plain : ∀ i k ph, w.calls i = some (k, ph) → k.Plain S
  stream : ∀ i k ph, w.calls i = some (k, ph) →
    ∃ p st, w.sys.procs i.1 = some p ∧ p.streams i.2 = some st ∧ st.uid = u
  reqs : ∀ i k ph, w.calls i = some (k, ph) → ∀ q ∈ requestedOf tr, (q.pid, q.sid) = i → q = k.lock u i
  held : ∀ i k ph, w.calls i = some (k, ph) → ph.Active → k.lock u i ∈ heldOf tr
  start : ∀ i k ph, w.calls i = some (k, ph) → ph.AtStart k
  reads : ∀ i k ph, w.calls i = some (k, ph) → k.task.isLoad = true → ph.Reads
  course : ∀ i k ph, w.calls i = some (k, ph) → ph.Active →
    ∃ ph₀, Actions S k (.locked (k.startPos c), c) (ph₀, w.file) ∧ ph₀.Like k ph
  quiet : (∀ i k ph, w.calls i = some (k, ph) → ph.Active → k.task.isLoad = true) → w.file = c

/-- No two streams of one process hold or request overlapping shared locks, at any time. -/
def Apart (tr : List Event) : Prop := ∀ tr₁ tr₂, tr = tr₁ ++ tr₂ → NoSharedOverlap (heldOf tr₁ ++ requestedOf tr₁)

theorem Apart.left {tr e : List Event} (h : Apart (tr ++ e)) : Apart tr := by
  intro a b hab
  exact h a (b ++ e) (by rw [hab, List.append_assoc])

namespace Good

variable {u : Uid} {w : Crowd S} {tr : List Event} {c : Bytes}

/-- A call that writes is alone. -/
theorem excl (h : Good u w tr c) (hc : Apart tr) {i j : Nat × Nat} {k k' : Job} {ph ph' : Phase S.codec}
    (h1 : w.calls i = some (k, ph)) (h2 : w.calls j = some (k', ph')) (ha : ph.Active) (hb : ph'.Active)
    (hl : k.task.isLoad = false) : j = i := by
  obtain ⟨ls, hr⟩ := h.reach
  have g1 := h.held i k ph h1 ha
  have g2 := h.held j k' ph' h2 hb
  have hm : Meet 0 none 0 none := ⟨0, by simp [Covers], by simp [Covers]⟩
  by_cases e : j = i
  · exact e
  · exfalso
    cases hl' : k'.task.isLoad with
    | false => exact Props.C01_exclusive hr g1 g2 hl hl' rfl (fun e' => e (Eq.symm e')) hm
    | true => exact Props.C02_shared_excludes_writer_partial hr hc g2 g1 hl' hl rfl e hm

theorem init (file : Bytes) : Good u (Crowd.init (S := S) file) [] file where
  reach := ⟨[], .init⟩
  plain i k ph h := by simp [Crowd.init] at h
  stream i k ph h := by simp [Crowd.init] at h
  reqs i k ph h := by simp [Crowd.init] at h
  held i k ph h := by simp [Crowd.init] at h
  start i k ph h := by simp [Crowd.init] at h
  reads i k ph h := by simp [Crowd.init] at h
  course i k ph h := by simp [Crowd.init] at h
  quiet _ := rfl

/-- Calls that are dropped, or turned away. -/
theorem sub (h : Good u w tr c) {calls : Nat × Nat → Option (Job × Phase S.codec)}
    (hs : ∀ i k ph, calls i = some (k, ph) → w.calls i = some (k, ph) ∨ (ph = .refused ∧ ∃ ph₀, w.calls i = some (k, ph₀)))
    (hq : (∀ i k ph, calls i = some (k, ph) → ph.Active → k.task.isLoad = true) → w.file = c) :
    Good u ⟨w.sys, w.file, calls⟩ tr c where
  reach := h.reach
  plain i k ph hi := by
    rcases hs i k ph hi with h1 | ⟨_, ph₀, h1⟩ <;> exact h.plain _ _ _ h1
  stream i k ph hi := by
    rcases hs i k ph hi with h1 | ⟨_, ph₀, h1⟩ <;> exact h.stream _ _ _ h1
  reqs i k ph hi := by
    rcases hs i k ph hi with h1 | ⟨_, ph₀, h1⟩ <;> exact h.reqs _ _ _ h1
  held i k ph hi ha := by
    rcases hs i k ph hi with h1 | ⟨rfl, _⟩
    · exact h.held _ _ _ h1 ha
    · cases ha
  start i k ph hi := by
    rcases hs i k ph hi with h1 | ⟨rfl, _⟩
    · exact h.start _ _ _ h1
    · trivial
  reads i k ph hi hl := by
    rcases hs i k ph hi with h1 | ⟨rfl, _⟩
    · exact h.reads _ _ _ h1 hl
    · trivial
  course i k ph hi ha := by
    rcases hs i k ph hi with h1 | ⟨rfl, _⟩
    · exact h.course _ _ _ h1 ha
    · cases ha
  quiet := hq

/-- An action of the system that leaves the calls alone. -/
theorem sys (h : Good u w tr c) {l : Label} {s' : World} {es : List Event} (hs : Verif.step w.sys l = some (s', es))
    (hw : WellWrapped w.sys l)
    (hl : ∀ i k ph, w.calls i = some (k, ph) → ∀ t len st sh llb, l ≠ .act i.1 (.lockCall t i.2 len st sh llb))
    (hsp : ∀ i k ph, w.calls i = some (k, ph) → ph.Active → Spares i l) : Good u ⟨s', w.file, w.calls⟩ (tr ++ es) c where
  reach := by
    obtain ⟨ls, hr⟩ := h.reach
    exact ⟨_, .step hr hw hs⟩
  plain := h.plain
  stream i k ph hi := by
    obtain ⟨p, st, h1, h2, h3⟩ := h.stream i k ph hi
    obtain ⟨p', g1, g2⟩ := step_keeps hs h1
    obtain ⟨st', g3, g4⟩ := g2 _ _ h2
    exact ⟨p', st', g1, g3, g4.trans h3⟩
  reqs i k ph hi q hq he := by
    rcases step_requested hs hq with h1 | ⟨t, len, llb, pr, st, h1, _⟩
    · exact h.reqs i k ph hi q h1 he
    · subst he
      exact absurd h1 (hl _ k ph hi _ _ _ _ _)
  held i k ph hi ha := step_held hs (h.held i k ph hi ha) (hsp i k ph hi ha)
  start := h.start
  reads := h.reads
  course := h.course
  quiet := h.quiet

/-- A call that does not hold its lock. -/
theorem put (h : Good u w tr c) {i : Nat × Nat} {k : Job} {ph : Phase S.codec} (hi : w.calls i = none) (hn : ¬ ph.Active)
    (hp : k.Plain S) (hst : ∃ p st, w.sys.procs i.1 = some p ∧ p.streams i.2 = some st ∧ st.uid = u)
    (hr : ∀ q ∈ requestedOf tr, (q.pid, q.sid) = i → q = k.lock u i) (hs : ph.AtStart k) (hd : ph.Reads) :
    Good u ⟨w.sys, w.file, w.put i k ph⟩ tr c := by
  have key : ∀ j k' ph', w.put i k ph j = some (k', ph') → (j = i ∧ k' = k ∧ ph' = ph) ∨ w.calls j = some (k', ph') := by
    intro j k' ph' hj
    unfold Crowd.put at hj
    split at hj
    · cases hj; exact .inl ⟨by assumption, rfl, rfl⟩
    · exact .inr hj
  constructor
  · exact h.reach
  · intro j k' ph' hj
    rcases key j k' ph' hj with ⟨rfl, rfl, rfl⟩ | h1
    · exact hp
    · exact h.plain _ _ _ h1
  · intro j k' ph' hj
    rcases key j k' ph' hj with ⟨rfl, rfl, rfl⟩ | h1
    · exact hst
    · exact h.stream _ _ _ h1
  · intro j k' ph' hj
    rcases key j k' ph' hj with ⟨rfl, rfl, rfl⟩ | h1
    · exact hr
    · exact h.reqs _ _ _ h1
  · intro j k' ph' hj ha
    rcases key j k' ph' hj with ⟨rfl, rfl, rfl⟩ | h1
    · exact absurd ha hn
    · exact h.held _ _ _ h1 ha
  · intro j k' ph' hj
    rcases key j k' ph' hj with ⟨rfl, rfl, rfl⟩ | h1
    · exact hs
    · exact h.start _ _ _ h1
  · intro j k' ph' hj hl
    rcases key j k' ph' hj with ⟨rfl, rfl, rfl⟩ | h1
    · exact hd
    · exact h.reads _ _ _ h1 hl
  · intro j k' ph' hj ha
    rcases key j k' ph' hj with ⟨rfl, rfl, rfl⟩ | h1
    · exact absurd ha hn
    · exact h.course _ _ _ h1 ha
  · intro hq
    refine h.quiet fun j k' ph' hj ha => hq j k' ph' ?_ ha
    change w.put i k ph j = some (k', ph')
    unfold Crowd.put
    rw [if_neg]
    · exact hj
    · rintro rfl; rw [hi] at hj; cases hj

/-- The lock is granted to a call. -/
theorem grant (h : Good u w tr c) (hc : Apart tr) {i : Nat × Nat} {k : Job} {pos : Nat} (hi : w.calls i = some (k, .asking pos))
    (hh : k.lock u i ∈ heldOf tr) : Good u ⟨w.sys, w.file, w.put i k (.locked pos)⟩ tr c := by
  obtain ⟨ls, hr⟩ := h.reach
  have hm : Meet 0 none 0 none := ⟨0, by simp [Covers], by simp [Covers]⟩
  -- nobody else holds a lock that excludes this one
  have hex : ∀ j k' ph', w.calls j = some (k', ph') → ph'.Active → k.task.isLoad = true ∧ k'.task.isLoad = true := by
    intro j k' ph' hj ha
    have hne : j ≠ i := by rintro rfl; rw [hi] at hj; cases hj; cases ha
    have g := h.held j k' ph' hj ha
    cases hl : k.task.isLoad with
    | false =>
      exfalso
      cases hl' : k'.task.isLoad with
      | false => exact Props.C01_exclusive hr hh g hl hl' rfl (fun e' => hne (Eq.symm e')) hm
      | true => exact Props.C02_shared_excludes_writer_partial hr hc g hh hl' hl rfl hne hm
    | true =>
      refine ⟨rfl, ?_⟩
      cases hl' : k'.task.isLoad with
      | true => rfl
      | false => exact absurd hm (Props.C02_shared_excludes_writer_partial hr hc hh g hl hl' rfl (fun e' => hne (Eq.symm e')))
  have hfile : w.file = c := h.quiet fun j k' ph' hj ha => (hex j k' ph' hj ha).2
  have key : ∀ j k' ph', w.put i k (.locked pos) j = some (k', ph') →
      (j = i ∧ k' = k ∧ ph' = .locked pos) ∨ w.calls j = some (k', ph') := by
    intro j k' ph' hj
    unfold Crowd.put at hj
    split at hj
    · cases hj; exact .inl ⟨by assumption, rfl, rfl⟩
    · exact .inr hj
  constructor
  · exact h.reach
  · intro j k' ph' hj
    rcases key j k' ph' hj with ⟨rfl, rfl, rfl⟩ | h1
    · exact h.plain _ _ _ hi
    · exact h.plain _ _ _ h1
  · intro j k' ph' hj
    rcases key j k' ph' hj with ⟨rfl, rfl, rfl⟩ | h1
    · exact h.stream _ _ _ hi
    · exact h.stream _ _ _ h1
  · intro j k' ph' hj
    rcases key j k' ph' hj with ⟨rfl, rfl, rfl⟩ | h1
    · exact h.reqs _ _ _ hi
    · exact h.reqs _ _ _ h1
  · intro j k' ph' hj ha
    rcases key j k' ph' hj with ⟨rfl, rfl, rfl⟩ | h1
    · exact hh
    · exact h.held _ _ _ h1 ha
  · intro j k' ph' hj
    rcases key j k' ph' hj with ⟨rfl, rfl, rfl⟩ | h1
    · have := h.start _ _ _ hi
      exact this
    · exact h.start _ _ _ h1
  · intro j k' ph' hj hl
    rcases key j k' ph' hj with ⟨rfl, rfl, rfl⟩ | h1
    · trivial
    · exact h.reads _ _ _ h1 hl
  · intro j k' ph' hj ha
    rcases key j k' ph' hj with ⟨rfl, rfl, rfl⟩ | h1
    · have h0 := h.start _ _ _ hi
      refine ⟨.locked (k'.startPos c), ?_, ?_⟩
      · change Actions S k' _ (_, w.file)
        rw [hfile]; exact .none
      · unfold Phase.Like
        split
        · trivial
        · rename_i hna
          have : pos = 0 := h0 (by simpa using hna)
          rw [this]
          simp [Job.startPos, hna]
    · exact h.course _ _ _ h1 ha
  · intro _; exact hfile

/-- The next action of a call on the content. -/
theorem work (h : Good u w tr c) (hc : Apart tr) {i : Nat × Nat} {k : Job} {ph ph₁ : Phase S.codec} {file₁ : Bytes}
    (hi : w.calls i = some (k, ph)) (hw : k.work S w.file ph = some (ph₁, file₁)) :
    Good u ⟨w.sys, file₁, w.put i k ph₁⟩ tr c := by
  have ha : ph.Active := by cases ph <;> trivial
  have ha₁ : ph₁.Active := by
    cases ph with
    | locked p =>
      simp only [Job.work] at hw
      split at hw <;> cases hw <;> trivial
    | inside s t =>
      simp only [Job.work, Option.some.injEq, Prod.mk.injEq] at hw
      rw [← hw.1]
      cases t with
      | closing r => cases (k.method S (.closing r) (Job.see s w.file)).1 <;> trivial
      | _ => trivial
    | _ => cases hw
  have hat : ph₁.AtStart k := by
    cases ph with
    | locked p =>
      simp only [Job.work] at hw
      split at hw <;> cases hw <;> trivial
    | inside s t =>
      simp only [Job.work, Option.some.injEq, Prod.mk.injEq] at hw
      rw [← hw.1]
      cases t with
      | closing r => cases (k.method S (.closing r) (Job.see s w.file)).1 <;> trivial
      | _ => trivial
    | _ => cases hw
  have key : ∀ j k' ph', w.put i k ph₁ j = some (k', ph') → (j = i ∧ k' = k ∧ ph' = ph₁) ∨ (j ≠ i ∧ w.calls j = some (k', ph')) := by
    intro j k' ph' hj
    unfold Crowd.put at hj
    split at hj
    · cases hj; exact .inl ⟨by assumption, rfl, rfl⟩
    · exact .inr ⟨by assumption, hj⟩
  -- a reader changes nothing; a writer is alone
  have hrd : k.task.isLoad = true → ph₁.Reads ∧ file₁ = w.file := fun hl => Job.work_reads hl (h.reads _ _ _ hi hl) hw
  have hoth : ∀ j k' ph', j ≠ i → w.calls j = some (k', ph') → ph'.Active → file₁ = w.file := by
    intro j k' ph' hne hj haj
    cases hl : k.task.isLoad with
    | true => exact (hrd hl).2
    | false => exact absurd (h.excl hc hi hj ha haj hl) hne
  constructor
  · exact h.reach
  · intro j k' ph' hj
    rcases key j k' ph' hj with ⟨rfl, rfl, rfl⟩ | ⟨_, h1⟩
    · exact h.plain _ _ _ hi
    · exact h.plain _ _ _ h1
  · intro j k' ph' hj
    rcases key j k' ph' hj with ⟨rfl, rfl, rfl⟩ | ⟨_, h1⟩
    · exact h.stream _ _ _ hi
    · exact h.stream _ _ _ h1
  · intro j k' ph' hj
    rcases key j k' ph' hj with ⟨rfl, rfl, rfl⟩ | ⟨_, h1⟩
    · exact h.reqs _ _ _ hi
    · exact h.reqs _ _ _ h1
  · intro j k' ph' hj haj
    rcases key j k' ph' hj with ⟨rfl, rfl, rfl⟩ | ⟨_, h1⟩
    · exact h.held _ _ _ hi ha
    · exact h.held _ _ _ h1 haj
  · intro j k' ph' hj
    rcases key j k' ph' hj with ⟨rfl, rfl, rfl⟩ | ⟨_, h1⟩
    · exact hat
    · exact h.start _ _ _ h1
  · intro j k' ph' hj hl
    rcases key j k' ph' hj with ⟨rfl, rfl, rfl⟩ | ⟨_, h1⟩
    · exact (hrd hl).1
    · exact h.reads _ _ _ h1 hl
  · intro j k' ph' hj haj
    rcases key j k' ph' hj with ⟨rfl, rfl, rfl⟩ | ⟨hne, h1⟩
    · obtain ⟨ph₀, g1, g2⟩ := h.course _ _ _ hi ha
      obtain ⟨ph₂, g3, g4⟩ := Job.work_like (h.plain _ _ _ hi) g2 hw
      exact ⟨ph₂, .next g1 g3, g4⟩
    · have := h.course _ _ _ h1 haj
      rw [← hoth j k' ph' hne h1 haj] at this
      exact this
  · intro hq
    have hl : k.task.isLoad = true := hq i k ph₁ (by simp [Crowd.put]) ha₁
    refine (hrd hl).2.trans (h.quiet fun j k' ph' hj haj => ?_)
    by_cases hne : j = i
    · subst hne; rw [hi] at hj; cases hj; exact hl
    · exact hq j k' ph' (by simp [Crowd.put, hne, hj]) haj

/-- The end of a call. -/
theorem finish (h : Good u w tr c) (hc : Apart tr) {i : Nat × Nat} {k : Job} {r : Result}
    (hi : w.calls i = some (k, .leaving r)) : Alone S k c r w.file ∧ Good u ⟨w.sys, w.file, w.drop i⟩ tr w.file := by
  have hact : (Phase.leaving r : Phase S.codec).Active := trivial
  constructor
  · obtain ⟨ph₀, g1, g2⟩ := h.course _ _ _ hi hact
    have : ph₀ = .leaving r := by
      unfold Phase.Like at g2
      split at g2
      · cases ph₀ with
        | leaving r' => exact congrArg Phase.leaving g2
        | _ => cases g2
      · exact g2
    subst this
    exact g1.alone
  · have key : ∀ j k' ph', w.drop i j = some (k', ph') → j ≠ i ∧ w.calls j = some (k', ph') := by
      intro j k' ph' hj
      unfold Crowd.drop at hj
      split at hj
      · cases hj
      · exact ⟨by assumption, hj⟩
    cases hl : k.task.isLoad with
    | true =>
      have hfile : w.file = c := h.quiet fun j k' ph' hj ha => by
        cases hl' : k'.task.isLoad with
        | true => rfl
        | false =>
          have := h.excl hc hj hi ha hact hl'
          subst this
          rw [hi] at hj; cases hj; rw [hl] at hl'; cases hl'
      rw [hfile]
      have := h.sub (calls := w.drop i) (fun j k' ph' hj => .inl (key j k' ph' hj).2) (fun _ => hfile)
      rw [hfile] at this
      exact this
    | false =>
      have hno : ∀ j k' ph', w.drop i j = some (k', ph') → ¬ ph'.Active := fun j k' ph' hj ha =>
        (key j k' ph' hj).1 (h.excl hc hi (key j k' ph' hj).2 hact ha hl)
      exact
        { reach := h.reach
          plain := fun j k' ph' hj => h.plain _ _ _ (key j k' ph' hj).2
          stream := fun j k' ph' hj => h.stream _ _ _ (key j k' ph' hj).2
          reqs := fun j k' ph' hj => h.reqs _ _ _ (key j k' ph' hj).2
          held := fun j k' ph' hj ha => absurd ha (hno j k' ph' hj)
          start := fun j k' ph' hj => h.start _ _ _ (key j k' ph' hj).2
          reads := fun j k' ph' hj => h.reads _ _ _ (key j k' ph' hj).2
          course := fun j k' ph' hj ha => absurd ha (hno j k' ph' hj)
          quiet := fun _ => rfl }

/-- The end of a process. -/
theorem gone (h : Good u w tr c) (hc : Apart tr) (pid : Nat) :
    ∃ c', (c' = c ∨ ∃ i k, i.1 = pid ∧ (w.calls i).map (·.1) = some k ∧ Cut S k c c') ∧
      Good u ⟨w.sys, w.file, fun j => if j.1 = pid then none else w.calls j⟩ tr c' := by
  have key : ∀ j k' ph', (if j.1 = pid then none else w.calls j) = some (k', ph') → j.1 ≠ pid ∧ w.calls j = some (k', ph') := by
    intro j k' ph' hj
    split at hj
    · cases hj
    · exact ⟨by assumption, hj⟩
  by_cases hw : ∃ i k ph, w.calls i = some (k, ph) ∧ ph.Active ∧ k.task.isLoad = false
  · obtain ⟨i, k, ph, hi, ha, hl⟩ := hw
    by_cases hp : i.1 = pid
    · have hno : ∀ j k' ph', (if j.1 = pid then none else w.calls j) = some (k', ph') → ¬ ph'.Active := by
        intro j k' ph' hj haj
        have := h.excl hc hi (key j k' ph' hj).2 ha haj hl
        subst this
        exact (key j k' ph' hj).1 hp
      obtain ⟨ph₀, g1, _⟩ := h.course _ _ _ hi ha
      refine ⟨w.file, .inr ⟨i, k, hp, by rw [hi]; rfl, ph₀, g1⟩, ?_⟩
      exact
        { reach := h.reach
          plain := fun j k' ph' hj => h.plain _ _ _ (key j k' ph' hj).2
          stream := fun j k' ph' hj => h.stream _ _ _ (key j k' ph' hj).2
          reqs := fun j k' ph' hj => h.reqs _ _ _ (key j k' ph' hj).2
          held := fun j k' ph' hj ha => absurd ha (hno j k' ph' hj)
          start := fun j k' ph' hj => h.start _ _ _ (key j k' ph' hj).2
          reads := fun j k' ph' hj => h.reads _ _ _ (key j k' ph' hj).2
          course := fun j k' ph' hj ha => absurd ha (hno j k' ph' hj)
          quiet := fun _ => rfl }
    · refine ⟨c, .inl rfl, h.sub (fun j k' ph' hj => .inl (key j k' ph' hj).2) fun hq => ?_⟩
      have := hq i k ph (by rw [if_neg hp]; exact hi) ha
      rw [hl] at this; cases this
  · refine ⟨c, .inl rfl, h.sub (fun j k' ph' hj => .inl (key j k' ph' hj).2) fun _ => ?_⟩
    refine h.quiet fun j k' ph' hj ha => ?_
    cases hl : k'.task.isLoad with
    | true => rfl
    | false => exact absurd ⟨j, k', ph', hj, ha, hl⟩ hw

end Good

/-! ## Runs -/

/-- The calls that are under way. -/
def Crowd.jobs (w : Crowd S) : Nat × Nat → Option Job := fun i => (w.calls i).map (·.1)

theorem notice_mild {es : List Event} (hm : ∀ e ∈ es, Mild e) : ∀ (calls : Nat × Nat → Option (Job × Phase S.codec))
    (j : Nat × Nat), es.foldl Crowd.notice calls j = calls j ∨ ∃ k pos, calls j = some (k, .asking pos) ∧
      es.foldl Crowd.notice calls j = some (k, .refused) := by
  induction es with
  | nil => intro calls j; exact .inl rfl
  | cons e es ih =>
    intro calls j
    have h1 : Crowd.notice calls e j = calls j ∨ ∃ k pos, calls j = some (k, .asking pos) ∧
        Crowd.notice calls e j = some (k, .refused) := by
      have := hm e (List.mem_cons_self ..)
      cases e with
      | locked => cases this
      | exited => cases this
      | lockFailed p s u sh a b =>
        simp only [Crowd.notice]
        split
        · cases hc : calls j with
          | none => exact .inl rfl
          | some x =>
            obtain ⟨k, ph⟩ := x
            cases ph <;> first | exact .inl rfl | exact .inr ⟨k, _, rfl, rfl⟩
        · exact .inl rfl
      | _ => exact .inl rfl
    have h2 := ih (fun e he => hm e (List.mem_cons_of_mem _ he)) (Crowd.notice calls e) j
    rw [List.foldl_cons]
    rcases h1 with h1 | ⟨k, pos, g1, g2⟩
    · rw [h1] at h2; exact h2
    · right
      rw [g2] at h2
      rcases h2 with h2 | ⟨_, _, h2, _⟩
      · exact ⟨k, pos, g1, h2⟩
      · cases h2

theorem report_mild {es : List Event} (hm : ∀ e ∈ es, Mild e) : es.flatMap Crowd.report = [] := by
  rw [List.flatMap_eq_nil_iff]
  intro e he
  have := hm e he
  cases e <;> first | rfl | cases this

/-- The invariant with the log. -/
def Told (u : Uid) (file : Bytes) (w : Crowd S) (tr : List Event) (log : List CallEvent) : Prop :=
  ∃ c, Good u w tr c ∧ Serial (Alone S) (Cut S) file log w.jobs c

theorem Told.step {u : Uid} {file : Bytes} {w w' : Crowd S} {tr e : List Event} {log x : List CallEvent} {m : Crowd.Move}
    (h : Told u file w tr log) (hc : Apart (tr ++ e)) (hp : ∀ i k, .began i k ∈ x → k.Plain S)
    (hw : ∀ l ∈ w.label u m, WellWrapped w.sys l) (hs : w.step u m = some (w', e, x)) : Told u file w' (tr ++ e) (log ++ x) := by
  obtain ⟨c, hg, hser⟩ := h
  cases m with
  | sys l =>
    have hwl : WellWrapped w.sys l := hw l (by simp [Crowd.label])
    simp only [Crowd.step] at hs
    split at hs
    · cases hs
    · rename_i haim
      simp only [Crowd.sysStep] at hs
      split at hs
      · rename_i s' es hstep
        cases hs
        have hcall : ∀ i k ph, w.calls i = some (k, ph) → Crowd.aimedAt l ≠ some i := by
          intro i k ph hi he
          apply haim
          rw [he]
          simp [hi]
        have hlock : ∀ i k ph, w.calls i = some (k, ph) → ∀ t len st sh llb,
            l ≠ .act i.1 (.lockCall t i.2 len st sh llb) := by
          rintro i k ph hi t len st sh llb rfl
          exact hcall i k ph hi rfl
        have hsp : ∀ i k ph, w.calls i = some (k, ph) → l ≠ .exit i.1 → Spares i l := by
          intro i k ph hi he
          refine ⟨he, ?_, ?_⟩
          · rintro rfl; exact hcall i k ph hi rfl
          · rintro a b rfl; exact hcall i k ph hi rfl
        rcases step_shape hstep with ⟨pid, t, q, p, rfl, hpr, hal, hth, rfl⟩ | ⟨pid, rfl, rfl⟩ | hmild
        · -- a lock is granted
          have hg' := hg.sys hstep hwl hlock (fun i k ph hi _ => hsp i k ph hi nofun)
          have hfold : [Event.locked pid q.sid q.uid q.shared q.start q.stop].foldl Crowd.notice w.calls =
              Crowd.notice w.calls (.locked pid q.sid q.uid q.shared q.start q.stop) := rfl
          rw [hfold]
          have hrep : [Event.locked pid q.sid q.uid q.shared q.start q.stop].flatMap Crowd.report = [] := rfl
          rw [hrep, List.append_nil]
          by_cases hask : ∃ k pos, w.calls (pid, q.sid) = some (k, .asking pos)
          · obtain ⟨k, pos, hask⟩ := hask
            obtain ⟨ls, hr⟩ := hg.reach
            have hreq := hr.req pid p hpr hal t q (by rw [hth]; rfl)
            have heq := hg.reqs _ _ _ hask _ hreq rfl
            have hheld : k.lock u (pid, q.sid) ∈ heldOf (tr ++ [Event.locked pid q.sid q.uid q.shared q.start q.stop]) := by
              rw [← heq, heldOf, List.foldl_append]
              exact List.mem_append_right _ (List.mem_singleton.mpr rfl)
            have hnew := hg'.grant hc (i := (pid, q.sid)) (k := k) (pos := pos) hask hheld
            have hcalls : Crowd.notice w.calls (.locked pid q.sid q.uid q.shared q.start q.stop) =
                w.put (pid, q.sid) k (.locked pos) := by
              funext j
              simp only [Crowd.notice, Crowd.put]
              split
              · rename_i hj; subst hj; rw [hask]
              · rfl
            rw [hcalls]
            refine ⟨c, hnew, ?_⟩
            have hjobs : Crowd.jobs ⟨s', w.file, w.put (pid, q.sid) k (.locked pos)⟩ = w.jobs := by
              funext j
              simp only [Crowd.jobs, Crowd.put]
              split
              · rename_i hj; subst hj; rw [hask]; rfl
              · rfl
            rw [hjobs]; exact hser
          · have hcalls : Crowd.notice w.calls (.locked pid q.sid q.uid q.shared q.start q.stop) = w.calls := by
              funext j
              simp only [Crowd.notice]
              split
              · rename_i hj
                subst hj
                split
                · rename_i hx; exact absurd ⟨_, _, hx⟩ hask
                · rfl
              · rfl
            rw [hcalls]
            exact ⟨c, hg', hser⟩
        · -- a process ends
          obtain ⟨c', hcut, hg1⟩ := hg.gone hc.left pid
          have hg2 := hg1.sys hstep hwl (fun _ _ _ _ _ _ _ _ _ => nofun) (fun i k ph hi _ => by
            refine ⟨?_, nofun, nofun⟩
            intro he
            cases he
            simp at hi)
          refine ⟨c', hg2, ?_⟩
          have hjobs : Crowd.jobs ⟨s', w.file, [Event.exited pid].foldl Crowd.notice w.calls⟩ =
              fun j => if j.1 = pid then none else w.jobs j := by
            funext j
            simp only [Crowd.jobs, List.foldl_cons, List.foldl_nil, Crowd.notice]
            split <;> rfl
          rw [hjobs]
          exact .gone hser hcut
        · -- nothing of that
          rw [report_mild hmild, List.append_nil]
          have hex : ∀ i, l ≠ .exit i := by
            rintro i rfl
            simp only [Verif.step] at hstep
            split at hstep
            · cases hstep
            · split at hstep <;> cases hstep
              exact hmild _ (List.mem_singleton.mpr rfl)
          have hg1 := hg.sys hstep hwl hlock (fun i k ph hi _ => hsp i k ph hi (hex _))
          have hno := notice_mild hmild w.calls
          have hg2 := hg1.sub (calls := e.foldl Crowd.notice w.calls) (fun i k ph hi => by
              rcases hno i with h1 | ⟨k', pos, h1, h2⟩
              · rw [h1] at hi; exact .inl hi
              · rw [h2] at hi; cases hi; exact .inr ⟨rfl, _, h1⟩) (fun hq => hg1.quiet fun i k ph hi ha => hq i k ph (by
              rcases hno i with h1 | ⟨k', pos, h1, h2⟩
              · rw [h1]; exact hi
              · change w.calls i = _ at hi; rw [h1] at hi; cases hi; cases ha) ha)
          refine ⟨c, hg2, ?_⟩
          have hjobs : Crowd.jobs ⟨s', w.file, e.foldl Crowd.notice w.calls⟩ = w.jobs := by
            funext j
            simp only [Crowd.jobs]
            rcases hno j with h1 | ⟨k', pos, h1, h2⟩
            · rw [h1]
            · rw [h2, h1]; rfl
          rw [hjobs]; exact hser
      · cases hs
  | start pid sid fd k =>
    simp only [Crowd.step] at hs
    split at hs
    · rename_i s' es hstep
      cases hs
      have hwl : WellWrapped w.sys (.act pid (.openS sid fd u)) := hw _ (by simp [Crowd.label])
      have hg1 := hg.sys hstep hwl (fun _ _ _ _ _ _ _ _ _ => nofun) (fun _ _ _ _ _ => ⟨nofun, nofun, nofun⟩)
      -- the stream is new
      have hnew : ∃ p p', w.sys.procs pid = some p ∧ p.streams sid = none ∧ s'.procs pid = some p' ∧
          ∃ st, p'.streams sid = some st ∧ st.uid = u := by
        simp only [Verif.step] at hstep
        split at hstep
        · cases hstep
        · rename_i p hp
          split at hstep
          · simp only [stepProc] at hstep
            split at hstep
            · rename_i h1
              split at h1
              · rename_i h2
                cases h1; cases hstep
                exact ⟨p, _, hp, h2.2, by simp [updMap]; rfl, _, by simp [updMap]; rfl, rfl⟩
              · cases h1
            · cases hstep
          · cases hstep
      obtain ⟨p, p', h1, h2, h3, st, h4, h5⟩ := hnew
      have hnone : w.calls (pid, sid) = none := by
        cases hcl : w.calls (pid, sid) with
        | none => rfl
        | some x =>
          obtain ⟨q, st', g1, g2, _⟩ := hg.stream (pid, sid) x.1 x.2 hcl
          dsimp only at g1 g2
          rw [h1] at g1; cases g1
          rw [h2] at g2; cases g2
      have hnoreq : ∀ q ∈ requestedOf (tr ++ e), (q.pid, q.sid) = (pid, sid) → q = k.lock u (pid, sid) := by
        intro q hq he
        exfalso
        rcases step_requested hstep hq with g | ⟨_, _, _, _, _, g, _⟩
        · obtain ⟨ls, hr⟩ := hg.reach
          obtain ⟨q', st', g1, g2⟩ := hr.known.2 q g
          cases he
          rw [h1] at g1; cases g1
          rw [h2] at g2; cases g2
        · cases g
      refine ⟨c, hg1.put (i := (pid, sid)) (k := k) (ph := .opened (k.startPos w.file)) hnone (fun h => h) (hp (pid, sid) k (by simp))
        ⟨p', st, h3, h4, h5⟩ hnoreq (fun hna => by simp [Job.startPos, hna]) trivial, ?_⟩
      have hjobs : Crowd.jobs ⟨s', w.file, w.put (pid, sid) k (.opened (k.startPos w.file))⟩ =
          fun j => if j = (pid, sid) then some k else w.jobs j := by
        funext j
        simp only [Crowd.jobs, Crowd.put]
        split <;> rfl
      rw [hjobs]
      exact .began _ _ hser
    · cases hs
  | ask pid tid sid llb =>
    simp only [Crowd.step] at hs
    split at hs
    · rename_i k pos hcl
      split at hs
      · rename_i s' es hstep
        cases hs
        have hwl : WellWrapped w.sys (.act pid (.lockCall tid sid none 0 k.shared llb)) := trivial
        have hd : ∀ j k' ph', w.drop (pid, sid) j = some (k', ph') → j ≠ (pid, sid) ∧ w.calls j = some (k', ph') := by
          intro j k' ph' hj
          unfold Crowd.drop at hj
          split at hj
          · cases hj
          · exact ⟨by assumption, hj⟩
        have hg0 := hg.sub (calls := w.drop (pid, sid)) (fun j k' ph' hj => .inl (hd j k' ph' hj).2) (fun hq =>
          hg.quiet fun j k' ph' hj ha => hq j k' ph' (by
            unfold Crowd.drop
            rw [if_neg]
            · exact hj
            · rintro rfl; rw [hcl] at hj; cases hj; cases ha) ha)
        have hg1 := hg0.sys hstep hwl (fun j k' ph' hj t len st sh llb' he => by
          have := (hd j k' ph' hj).1
          cases he
          exact this rfl) (fun _ _ _ _ _ => ⟨nofun, nofun, nofun⟩)
        have hg2 := hg1.put (i := (pid, sid)) (k := k) (ph := .asking pos) (by simp [Crowd.drop]) (fun h => h)
          (hg.plain _ _ _ hcl) (by
            obtain ⟨p, st, h1, h2, h3⟩ := hg.stream _ _ _ hcl
            obtain ⟨p', g1, g2⟩ := step_keeps hstep h1
            obtain ⟨st', g3, g4⟩ := g2 _ _ h2
            exact ⟨p', st', g1, g3, g4.trans h3⟩)
          (by
            intro q hq he
            rcases step_requested hstep hq with g | ⟨t, len, llb', pr, st, g1, g2, g3, g4, g5⟩
            · exact hg.reqs _ _ _ hcl q g he
            · obtain ⟨p, st', h1, h2, h3⟩ := hg.stream _ _ _ hcl
              obtain ⟨qp, qs, qu, qsh, qa, qb⟩ := q
              cases he
              cases g1
              dsimp only at h1 h2 g2 g3 g4 g5
              rw [h1] at g2; cases g2
              rw [h2] at g3; cases g3
              subst g4 g5
              simp only [Job.lock, newEnd, h3, Option.map_none]
              rfl)
          (hg.start _ _ _ hcl : (Phase.opened pos : Phase S.codec).AtStart k) trivial
        rw [List.append_nil]
        have hput : (Crowd.put ⟨s', w.file, w.drop (pid, sid)⟩ (pid, sid) k (.asking pos)) = w.put (pid, sid) k (.asking pos) := by
          funext j
          simp only [Crowd.put, Crowd.drop]
          split <;> rfl
        refine ⟨c, ?_, ?_⟩
        · have := hg2
          dsimp only at this
          rw [hput] at this
          exact this
        · have hjobs : Crowd.jobs ⟨s', w.file, w.put (pid, sid) k (.asking pos)⟩ = w.jobs := by
            funext j
            simp only [Crowd.jobs, Crowd.put]
            split
            · rename_i hj; subst hj; rw [hcl]; rfl
            · rfl
          rw [hjobs]; exact hser
      · cases hs
    · cases hs
  | work pid sid =>
    simp only [Crowd.step] at hs
    split at hs
    · rename_i k ph hcl
      split at hs
      · rename_i ph₁ file₁ hwk
        cases hs
        rw [List.append_nil, List.append_nil]
        refine ⟨c, hg.work hc.left hcl hwk, ?_⟩
        have hjobs : Crowd.jobs ⟨w.sys, file₁, w.put (pid, sid) k ph₁⟩ = w.jobs := by
          funext j
          simp only [Crowd.jobs, Crowd.put]
          split
          · rename_i hj; subst hj; rw [hcl]; rfl
          · rfl
        rw [hjobs]; exact hser
      · cases hs
    · cases hs
  | close pid sid =>
    have hd : ∀ j k' ph', w.drop (pid, sid) j = some (k', ph') → j ≠ (pid, sid) ∧ w.calls j = some (k', ph') := by
      intro j k' ph' hj
      unfold Crowd.drop at hj
      split at hj
      · cases hj
      · exact ⟨by assumption, hj⟩
    have hspare : ∀ j k' ph', w.drop (pid, sid) j = some (k', ph') → Spares j (.act pid (.close sid)) := by
      intro j k' ph' hj
      refine ⟨nofun, ?_, nofun⟩
      intro he
      cases he
      exact (hd _ _ _ hj).1 rfl
    have hjobs : ∀ s', Crowd.jobs ⟨s', w.file, w.drop (pid, sid)⟩ = fun j => if j = (pid, sid) then none else w.jobs j := by
      intro s'
      funext j
      simp only [Crowd.jobs, Crowd.drop]
      split <;> rfl
    simp only [Crowd.step] at hs
    split at hs
    · rename_i k r hcl
      split at hs
      · rename_i s' es hstep
        cases hs
        obtain ⟨h1, h2⟩ := hg.finish hc.left hcl
        have hg1 := h2.sys hstep trivial (fun _ _ _ _ _ _ _ _ _ => nofun) (fun j k' ph' hj _ => hspare j k' ph' hj)
        refine ⟨w.file, hg1, ?_⟩
        rw [hjobs]
        exact .ended hser (by simp [Crowd.jobs, hcl]) h1
      · cases hs
    · rename_i k hcl
      split at hs
      · rename_i s' es hstep
        cases hs
        have h2 := hg.sub (calls := w.drop (pid, sid)) (fun j k' ph' hj => .inl (hd j k' ph' hj).2) (fun hq =>
          hg.quiet fun j k' ph' hj ha => hq j k' ph' (by
            unfold Crowd.drop
            rw [if_neg]
            · exact hj
            · rintro rfl; rw [hcl] at hj; cases hj; cases ha) ha)
        have hg1 := h2.sys hstep trivial (fun _ _ _ _ _ _ _ _ _ => nofun) (fun j k' ph' hj _ => hspare j k' ph' hj)
        refine ⟨c, hg1, ?_⟩
        rw [hjobs]
        exact .refused (k := k) hser (by simp [Crowd.jobs, hcl])
      · cases hs
    · cases hs

end Verif
