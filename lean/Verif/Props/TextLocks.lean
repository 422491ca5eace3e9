import Verif.Spec.TextLocks
import Verif.Props.AppendTogether
import Verif.Props.WinAppendTogether
import Verif.Props.WinAppendTexts
import Verif.Props.WinTextTogether

/-!
# C107, C119 and C124 together with the system that grants the locks
-/

set_option autoImplicit false

namespace Verif.Props

open Verif Verif.Spec Verif.Txt

variable {C : Codec} {P : TextRule C} {guess : Nat × Nat → Nat → Nat} {d : Bytes} {u : Uid} {tr : TextTrace C} {t : TextTogether C}
  {ls : List Label} {w : World} {wls : List Win.Label} {ww : Win.World} {ev : List Event}

/-- Streams ask when they do not hold the lock, and get it when they have asked. -/
structure Asking (P : TextRule C) : Prop where
  ask : ∀ {tr t i}, P tr t (.ask i) → i ∉ lockers tr
  granted : ∀ {tr t i}, P tr t (.granted i) → lastCall tr i = some (.ask i, .done)

/-- A stream that has asked does not hold the lock: one more item. -/
theorem waiting_snoc {tr : TextTrace C} {x : TextItem C × Out}
    (ih : ∀ i, lastCall tr i = some (.ask i, .done) → i ∉ lockers tr) (ha : ∀ i, x.1 = .ask i → i ∉ lockers tr) (i : Sid)
    (h : lastCall (tr ++ [x]) i = some (.ask i, .done)) : i ∉ lockers (tr ++ [x]) := by
  rw [TextTogether.lockers_snoc]
  rw [TextTogether.lastCall_snoc] at h
  split at h
  · obtain rfl := Option.some.inj h
    exact ha i rfl
  · rename_i hn
    have := ih i h
    obtain ⟨it, o⟩ := x
    unfold lockStep
    split
    · rename_i j e
      cases e
      intro hm
      rcases List.mem_append.1 hm with hm | hm
      · exact this hm
      · obtain rfl := List.mem_singleton.1 hm
        exact hn rfl
    · exact fun hm => this (List.mem_filter.1 hm).1
    · exact fun hm => this (List.mem_filter.1 hm).1
    · exact fun hm => this (List.mem_filter.1 hm).1
    · exact fun hm => this (List.mem_filter.1 hm).1
    · exact this

theorem TextJoint.reach (hj : TextJoint P guess d u tr t ls w ev) : Reach ls w ev := by
  induction hj with
  | init => exact .init
  | system _ hw hs _ ih => exact ih.step hw hs
  | item _ _ _ _ ih => exact ih

theorem WinTextJoint.reach (hj : WinTextJoint P guess d u tr t wls ww ev) : Win.Reach Win.Sane wls ww ev := by
  induction hj with
  | init => exact .init
  | system _ hw hs _ ih => exact ih.step hw hs
  | item _ _ _ _ ih => exact ih

theorem TextJoint.waiting (hP : Asking P) (hj : TextJoint P guess d u tr t ls w ev) :
    ∀ i, lastCall tr i = some (.ask i, .done) → i ∉ lockers tr := by
  induction hj with
  | init => nofun
  | system _ _ _ _ ih => exact ih
  | item _ hp _ _ ih => exact waiting_snoc ih fun i e => by dsimp only at e; subst e; exact hP.ask hp

theorem WinTextJoint.waiting (hP : Asking P) (hj : WinTextJoint P guess d u tr t wls ww ev) :
    ∀ i, lastCall tr i = some (.ask i, .done) → i ∉ lockers tr := by
  induction hj with
  | init => nofun
  | system _ _ _ _ ih => exact ih
  | item _ hp _ _ ih => exact waiting_snoc ih fun i e => by dsimp only at e; subst e; exact hP.ask hp

/-- The locks that programs rely on are held. -/
theorem TextJoint.held (hj : TextJoint P guess d u tr t ls w ev) : HeldIn u ev (exclusively (lockers tr)) := by
  cases hj with
  | init => nofun
  | system _ _ _ h => exact h
  | item _ _ _ h => exact h

theorem WinTextJoint.held (hj : WinTextJoint P guess d u tr t wls ww ev) : HeldIn u ev (exclusively (lockers tr)) := by
  cases hj with
  | init => nofun
  | system _ _ _ h => exact h
  | item _ _ _ h => exact h

theorem mem_exclusively {H : List Sid} {i : Sid} (h : i ∈ H) : (i, false) ∈ exclusively H := List.mem_map.2 ⟨i, h, rfl⟩

/-- When the lock is granted, nobody holds it. -/
theorem TextJoint.free (hP : Asking P) (hj : TextJoint P guess d u tr t ls w ev) {i : Sid} (hp : P tr t (.granted i))
    (hh : HeldIn u ev (exclusively [i])) : lockers tr = [] := by
  apply List.eq_nil_iff_forall_not_mem.2
  intro j hm
  have hne : i ≠ j := fun e => TextJoint.waiting hP hj i (hP.granted hp) (e ▸ hm)
  obtain ⟨x, x1, x2, x3, x4, x5⟩ := hh (i, false) (mem_exclusively (List.mem_singleton.2 rfl))
  obtain ⟨y, y1, y2, y3, y4, y5⟩ := TextJoint.held hj (j, false) (mem_exclusively hm)
  exact C01_exclusive (TextJoint.reach hj) x1 y1 x4 y4 (x2.trans y2.symm) (by rw [x3, y3]; exact hne) ⟨0, x5, y5⟩

theorem WinTextJoint.free (hP : Asking P) (hj : WinTextJoint P guess d u tr t wls ww ev) {i : Sid} (hp : P tr t (.granted i))
    (hh : HeldIn u ev (exclusively [i])) : lockers tr = [] := by
  apply List.eq_nil_iff_forall_not_mem.2
  intro j hm
  have hne : i ≠ j := fun e => WinTextJoint.waiting hP hj i (hP.granted hp) (e ▸ hm)
  obtain ⟨x, x1, x2, x3, x4, x5⟩ := hh (i, false) (mem_exclusively (List.mem_singleton.2 rfl))
  obtain ⟨y, y1, y2, y3, y4, y5⟩ := WinTextJoint.held hj (j, false) (mem_exclusively hm)
  exact C76_excludes_partial (WinTextJoint.reach hj) x1 y1 y4 (x2.trans y2.symm) (by rw [x3, y3]; exact hne) 0 (by decide) ⟨x5, y5⟩

/-- A joint run is a history of text streams. -/
theorem TextJoint.history (hP : Asking P) {H : TextTrace C → TextTogether C → Prop} (h0 : H [] ⟨d, fun _ => none⟩)
    (hs : ∀ {tr t it}, H tr t → P tr t it → (∀ i, it = .granted i → lockers tr = []) →
      H (tr ++ [(it, (t.step guess it).1)]) (t.step guess it).2) (hj : TextJoint P guess d u tr t ls w ev) : H tr t := by
  induction hj with
  | init => exact h0
  | system _ _ _ _ ih => exact ih
  | item hj hp hh _ ih => exact hs ih hp fun i e => TextJoint.free hP hj (e ▸ hp) (hh i e)

theorem WinTextJoint.history (hP : Asking P) {H : TextTrace C → TextTogether C → Prop} (h0 : H [] ⟨d, fun _ => none⟩)
    (hs : ∀ {tr t it}, H tr t → P tr t it → (∀ i, it = .granted i → lockers tr = []) →
      H (tr ++ [(it, (t.step guess it).1)]) (t.step guess it).2) (hj : WinTextJoint P guess d u tr t wls ww ev) : H tr t := by
  induction hj with
  | init => exact h0
  | system _ _ _ _ ih => exact ih
  | item hj hp hh _ ih => exact hs ih hp fun i e => WinTextJoint.free hP hj (e ▸ hp) (hh i e)

/-! ## The properties -/

/-- C107, together with the processes, threads, registries and kernel that grant the locks: that the lock is granted only when no stream
holds it, as `TextHistory` assumes, is guaranteed; so all of C107 is true of such programs. -/
theorem C107_locks (hj : TextJoint TextRules guess d u tr t ls w ev) : TextHistory guess d tr t :=
  TextJoint.history ⟨fun h => h, fun h => h⟩ .start (fun {tr t it} h hp hg => .item h (by
    cases it with
    | granted i => exact ⟨hp, hg i rfl⟩
    | _ => exact hp)) hj

/-- C107 for logs, together with the system that grants the locks. -/
theorem C107_log_locks (hC : LawfulCodec C) (hE : LawfulEncoder C) (hg : Moderate guess) {ends : Sid → Text → Text}
    {l : List (Sid × Text)} (hl : LogTrace tr l) (hj : TextJoint TextRules guess d u tr t ls w ev)
    (hs : ∀ i t o, (.opened i t, o) ∈ tr → ends i = outgoing t.linesep t.newline)
    (he : ∀ x ∈ l, ∀ n, ∃ b, encoded C n (ends x.1 x.2) = .ok b) : LogFile C ends d l t.file :=
  C107_log hC hE hg hl (C107_locks hj) hs he

/-- C119, together with the system of windows that grants the locks. -/
theorem C119_locks (hj : WinTextJoint (WinTextRules guess) guess d u tr t wls ww ev) : WinTextHistory guess d tr t :=
  WinTextJoint.history ⟨fun h => h.1, fun h => h⟩ .start (fun {tr t it} h hp hg => .item h (by
    cases it with
    | granted i => exact ⟨hp, hg i rfl⟩
    | ask i => exact hp.1
    | _ => exact hp) (by
    intro i e
    subst e
    exact hp.2)) hj

/-- C124, together with the system that grants the locks. -/
theorem C124_locks (hj : TextJoint LogRules guess d u tr t ls w ev) : LogHistory guess d tr t :=
  TextJoint.history ⟨fun h => h, fun h => h⟩ .start (fun {tr t it} h hp hg => .item h (by
    cases it with
    | granted i => exact ⟨hp, hg i rfl⟩
    | _ => exact hp)) hj

/-- C124 for logs, together with the system that grants the locks. -/
theorem C124_log_locks (hC : LawfulEncoder C) (he : C.encInit = C.encMid) (hj : TextJoint LogRules guess d u tr t ls w ev)
    {ends : Sid → Text → Text} (hs : Styled ends tr) (htr : ∀ i a o, (TextItem.did i (.truncate a), o) ∉ tr) (hl : lockers tr = []) :
    t.file = d ++ tr.flatMap (entryOf C true ends) :=
  C124_log hC he (C124_locks hj) hs htr hl

/-- C124 on windows, together with the system that grants the locks. -/
theorem C124_windows_locks (hj : WinTextJoint WinLogRules guess d u tr t wls ww ev) : WinLogRun guess d tr t :=
  WinTextJoint.history ⟨fun h => h, fun h => h⟩ .start (fun {tr t it} h hp hg => .item h (by
    cases it with
    | granted i => exact ⟨hp, hg i rfl⟩
    | _ => exact hp)) hj

/-- C124 for logs on windows, together with the system that grants the locks. -/
theorem C124_windows_log_locks (hC : LawfulEncoder C) (he : C.encInit = C.encMid)
    (hj : WinTextJoint WinLogRules guess d u tr t wls ww ev) {ends : Sid → Text → Text} (hs : Styled ends tr) (hl : lockers tr = []) :
    t.file = d ++ tr.flatMap (entryOf C true ends) :=
  C124_windows_log hC he (C124_windows_locks hj) hs hl

/-! ## A case -/

/-- The lock system goes on while no program relies on a lock. -/
theorem TextJoint.run (hj : TextJoint P guess d u tr t ls w ev) (hl : lockers tr = []) (ls' : List Label)
    (hn : ls'.all Label.noWrap = true) {w' : World} {ev' : List Event} (hr : runFrom w ev ls' = some (w', ev')) :
    TextJoint P guess d u tr t (ls ++ ls') w' ev' := by
  induction ls' generalizing ls w ev with
  | nil => simp only [runFrom, Option.some.injEq, Prod.mk.injEq] at hr; obtain ⟨rfl, rfl⟩ := hr; simpa using hj
  | cons l ls' ih =>
    simp only [List.all_cons, Bool.and_eq_true] at hn
    simp only [runFrom] at hr
    split at hr
    · rename_i w₁ e hs
      have := ih (hj.system (wellWrapped_of_noWrap hn.1 _) hs (by rw [hl]; nofun)) hn.2 hr
      simpa using this
    · cases hr

/-- The rule is kept all along. -/
def AllRules (P : TextRule C) (guess : Nat × Nat → Nat → Nat) (t : TextTogether C) (tr : TextTrace C) : TextTrace C → Prop
  | [] => True
  | x :: tr' => P tr t x.1 ∧ AllRules P guess (t.step guess x.1).2 (tr ++ [x]) tr'

/-- The locks that programs rely on after an item. -/
theorem held_snoc {tr : TextTrace C} {x : TextItem C × Out} (hh : HeldIn u ev (exclusively (lockers tr)))
    (hg : ∀ i o, x = (.granted i, o) → HeldIn u ev (exclusively [i])) : HeldIn u ev (exclusively (lockers (tr ++ [x]))) := by
  rw [TextTogether.lockers_snoc]
  intro a hm
  obtain ⟨j, hj, rfl⟩ := List.mem_map.1 hm
  unfold lockStep at hj
  split at hj
  · rcases List.mem_append.1 hj with hj | hj
    · exact hh _ (mem_exclusively hj)
    · obtain rfl := List.mem_singleton.1 hj
      exact hg j _ rfl _ (mem_exclusively (List.mem_singleton.2 rfl))
  · exact hh _ (mem_exclusively (List.mem_filter.1 hj).1)
  · exact hh _ (mem_exclusively (List.mem_filter.1 hj).1)
  · exact hh _ (mem_exclusively (List.mem_filter.1 hj).1)
  · exact hh _ (mem_exclusively (List.mem_filter.1 hj).1)
  · exact hh _ (mem_exclusively hj)

/-- The programs go on while the lock system stands still. -/
theorem TextJoint.items (tr' : TextTrace C) : ∀ {tr : TextTrace C} {t : TextTogether C}, TextJoint P guess d u tr t ls w ev →
    agrees guess t tr' = true → AllRules P guess t tr tr' → (∀ i o, (.granted i, o) ∈ tr' → HeldIn u ev (exclusively [i])) →
    TextJoint P guess d u (tr ++ tr') (replay guess t tr') ls w ev := by
  induction tr' with
  | nil => intro tr t h _ _ _; rw [List.append_nil]; exact h
  | cons x tr' ih =>
    obtain ⟨it, o⟩ := x
    intro tr t h ha hp hg
    simp only [agrees, Bool.and_eq_true, beq_iff_eq] at ha
    have hx := TextJoint.item h hp.1 (fun i e => hg i o (by rw [← e]; exact List.mem_cons_self))
      (held_snoc (TextJoint.held h) fun i o' e => hg i o (by rw [← (Prod.mk.inj e).1]; exact List.mem_cons_self))
    rw [ha.1] at hx
    have := ih hx ha.2 hp.2 fun i o' hm => hg i o' (List.mem_cons_of_mem _ hm)
    simpa [replay] using this

/-- The programs go on while the lock system stands still. -/
theorem WinTextJoint.items (tr' : TextTrace C) : ∀ {tr : TextTrace C} {t : TextTogether C}, WinTextJoint P guess d u tr t wls ww ev →
    agrees guess t tr' = true → AllRules P guess t tr tr' → (∀ i o, (.granted i, o) ∈ tr' → HeldIn u ev (exclusively [i])) →
    WinTextJoint P guess d u (tr ++ tr') (replay guess t tr') wls ww ev := by
  induction tr' with
  | nil => intro tr t h _ _ _; rw [List.append_nil]; exact h
  | cons x tr' ih =>
    obtain ⟨it, o⟩ := x
    intro tr t h ha hp hg
    simp only [agrees, Bool.and_eq_true, beq_iff_eq] at ha
    have hx := WinTextJoint.item h hp.1 (fun i e => hg i o (by rw [← e]; exact List.mem_cons_self))
      (held_snoc (WinTextJoint.held h) fun i o' e => hg i o (by rw [← (Prod.mk.inj e).1]; exact List.mem_cons_self))
    rw [ha.1] at hx
    have := ih hx ha.2 hp.2 fun i o' hm => hg i o' (List.mem_cons_of_mem _ hm)
    simpa [replay] using this

theorem AllLogProper.rules {tr' : TextTrace C} : ∀ {tr : TextTrace C} {t : TextTogether C}, AllLogProper tr tr' →
    AllRules LogRules guess t tr tr' := by
  induction tr' with
  | nil => intro tr t _; trivial
  | cons x tr' ih =>
    obtain ⟨it, o⟩ := x
    intro tr t h
    refine ⟨?_, ih h.2⟩
    have := h.1
    cases it with
    | granted i => exact this.1
    | _ => exact this

theorem AllProper.rules {tr' : TextTrace C} : ∀ {tr : TextTrace C} {t : TextTogether C}, AllProper tr tr' →
    AllRules TextRules guess t tr tr' := by
  induction tr' with
  | nil => intro tr t _; trivial
  | cons x tr' ih =>
    obtain ⟨it, o⟩ := x
    intro tr t h
    refine ⟨?_, ih h.2⟩
    have := h.1
    cases it with
    | granted i => exact this.1
    | _ => exact this

theorem AllWinProper.rules {tr' : TextTrace C} : ∀ {tr : TextTrace C} {t : TextTogether C}, AllWinProper guess tr t tr' →
    AllRules (WinTextRules guess) guess t tr tr' := by
  induction tr' with
  | nil => intro tr t _; trivial
  | cons x tr' ih =>
    obtain ⟨it, o⟩ := x
    intro tr t h
    refine ⟨?_, ih h.2.2⟩
    have := h.1
    have h2 := h.2.1
    cases it with
    | granted i => exact this.1
    | ask i => exact ⟨this, h2 i rfl⟩
    | _ => exact this

theorem AllWinLogProper.rules {tr' : TextTrace C} : ∀ {tr : TextTrace C} {t : TextTogether C}, AllWinLogProper guess t tr tr' →
    AllRules WinLogRules guess t tr tr' := by
  induction tr' with
  | nil => intro tr t _; trivial
  | cons x tr' ih =>
    obtain ⟨it, o⟩ := x
    intro tr t h
    refine ⟨?_, ih h.2.2⟩
    have := h.1
    cases it with
    | granted i => exact this.1
    | _ => exact this

theorem AllLogProper.split {a b : TextTrace C} : ∀ {tr : TextTrace C}, AllLogProper tr (a ++ b) →
    AllLogProper tr a ∧ AllLogProper (tr ++ a) b := by
  induction a with
  | nil => intro tr h; exact ⟨trivial, by simpa using h⟩
  | cons x a ih =>
    intro tr h
    obtain ⟨h1, h2⟩ := ih h.2
    exact ⟨⟨h.1, h1⟩, by simpa using h2⟩

theorem AllWinLogProper.split {a b : TextTrace C} : ∀ {tr : TextTrace C} {t : TextTogether C}, AllWinLogProper guess t tr (a ++ b) →
    AllWinLogProper guess t tr a ∧ AllWinLogProper guess (replay guess t a) (tr ++ a) b := by
  induction a with
  | nil => intro tr t h; exact ⟨trivial, by simpa [replay] using h⟩
  | cons x a ih =>
    intro tr t h
    obtain ⟨h1, h2⟩ := ih h.2.2
    exact ⟨⟨h.1, h.2.1, h1⟩, by simpa [replay] using h2⟩

theorem replay_append (t : TextTogether C) (a b : TextTrace C) : replay guess t (a ++ b) = replay guess (replay guess t a) b := by
  induction a generalizing t with
  | nil => rfl
  | cons x a ih => exact ih _

/-- What the lock system does before the lock is granted to process 2, and then to process 1. -/
def pensBefore₁ : List Label :=
  [.newProc 1, .newProc 2, .act 1 (.openS 0 3 (0, 7)), .act 2 (.openS 0 3 (0, 7))] ++ doLock 2 0 0 none 0 false
def pensBefore₂ : List Label := doUnlock 2 0 none 0 ++ doLock 1 0 0 none 0 false

-- the two processes of `twoPens`, on the lock system
example : ∃ ls w ev, TextJoint LogRules quotient [122] (0, 7) (twoPens latin1 [122])
    (replay quotient ⟨[122], fun _ => none⟩ (twoPens latin1 [122])) ls w ev := by
  have e1 : (Verif.run pensBefore₁).map (fun x => heldOf x.2) = some [⟨2, 0, (0, 7), false, 0, none⟩] := by decide
  have e2 : ((Verif.run pensBefore₁).bind (fun x => runFrom x.1 x.2 pensBefore₂)).map (fun x => heldOf x.2) =
      some [⟨1, 0, (0, 7), false, 0, none⟩] := by decide
  cases hr1 : Verif.run pensBefore₁ with
  | none => rw [hr1] at e1; cases e1
  | some x =>
    rw [hr1] at e1 e2
    simp only [Option.map_some, Option.some.injEq] at e1
    simp only [Option.bind_some] at e2
    cases hr2 : runFrom x.1 x.2 pensBefore₂ with
    | none => rw [hr2] at e2; cases e2
    | some y =>
      rw [hr2] at e2
      simp only [Option.map_some, Option.some.injEq] at e2
      have hp : AllLogProper [] ((twoPens latin1 [122]).take 8 ++ (twoPens latin1 [122]).drop 8) := by
        rw [List.take_append_drop]; exact twoPens_proper _ _
      obtain ⟨p1, p2⟩ := hp.split
      have j0 := TextJoint.run (P := LogRules (C := latin1)) (guess := quotient) (d := [122]) (u := (0, 7)) .init rfl pensBefore₁
        (by decide) hr1
      have j1 := TextJoint.items ((twoPens latin1 [122]).take 8) j0 (by decide +kernel) p1.rules (by
        intro i o hm
        simp [twoPens] at hm
        obtain ⟨rfl, _⟩ := hm
        intro a ha
        obtain rfl := List.mem_singleton.1 ha
        exact ⟨_, by rw [e1]; exact List.mem_cons_self, rfl, rfl, rfl, by simp [Covers]⟩)
      have j2 := TextJoint.run j1 (by simp [twoPens, lockers, lockStep]) pensBefore₂ (by decide) hr2
      have j3 := TextJoint.items ((twoPens latin1 [122]).drop 8) j2 (by decide +kernel) p2.rules (by
        intro i o hm
        simp [twoPens] at hm
        obtain ⟨rfl, _⟩ := hm
        intro a ha
        obtain rfl := List.mem_singleton.1 ha
        exact ⟨_, by rw [e2]; exact List.mem_cons_self, rfl, rfl, rfl, by simp [Covers]⟩)
      rw [List.nil_append, ← replay_append, List.take_append_drop] at j3
      exact ⟨_, _, _, j3⟩

/-- What the lock system does before the lock is granted to process 1. -/
def pairBefore : List Label :=
  [.newProc 1, .newProc 2, .act 1 (.openS 0 3 (0, 7)), .act 2 (.openS 0 3 (0, 7))] ++ doLock 1 0 0 none 0 false

-- two processes open a file; the first reads in a critical section
example : ∃ ls w ev, TextJoint TextRules quotient [97, 13, 98] (0, 7) (staleBefore.take 6)
    (replay quotient ⟨[97, 13, 98], fun _ => none⟩ (staleBefore.take 6)) ls w ev := by
  have e1 : (Verif.run pairBefore).map (fun x => heldOf x.2) = some [⟨1, 0, (0, 7), false, 0, none⟩] := by decide
  cases hr1 : Verif.run pairBefore with
  | none => rw [hr1] at e1; cases e1
  | some x =>
    rw [hr1] at e1
    simp only [Option.map_some, Option.some.injEq] at e1
    have j0 := TextJoint.run (P := TextRules (C := latin1)) (guess := quotient) (d := [97, 13, 98]) (u := (0, 7)) .init rfl pairBefore
      (by decide) hr1
    have hp : AllProper [] (staleBefore.take 6) := pair_proper
      [(.ask (1, 0), .done), (.granted (1, 0), .done), (.did (1, 0) (.read (some 2)), .text [97, 10]), (.unlock (1, 0), .done)]
      ⟨may_ask (by decide), ⟨rfl, by decide⟩, ⟨by decide, trivial⟩, may_unlock (by decide), trivial⟩
    have j1 := TextJoint.items (staleBefore.take 6) j0 (by decide +kernel) hp.rules (by
      intro i o hm
      simp [staleBefore, pairOpened] at hm
      obtain ⟨rfl, _⟩ := hm
      intro a ha
      obtain rfl := List.mem_singleton.1 ha
      exact ⟨_, by rw [e1]; exact List.mem_cons_self, rfl, rfl, rfl, by simp [Covers]⟩)
    exact ⟨_, _, _, j1⟩

/-- The lock system of windows goes on while no program relies on a lock. -/
theorem WinTextJoint.run (hl : lockers tr = []) {ls' : List Win.Label} :
    ∀ {wls : List Win.Label} {ww w' : Win.World} {ev ev' : List Event}, WinTextJoint P guess d u tr t wls ww ev →
      Win.checkedFrom (fun pre w l => Win.wrappedB pre w l && Win.singleB w l && Win.fitsB l) wls ww ev ls' = some (w', ev') →
      WinTextJoint P guess d u tr t (wls ++ ls') w' ev' := by
  induction ls' with
  | nil =>
    intro wls ww w' ev ev' hj h'
    simp only [Win.checkedFrom, Option.some.injEq, Prod.mk.injEq] at h'
    obtain ⟨rfl, rfl⟩ := h'
    simpa using hj
  | cons l ls' ih =>
    intro wls ww w' ev ev' hj h'
    simp only [Win.checkedFrom] at h'
    split at h'
    · rename_i hb
      simp only [Bool.and_eq_true] at hb
      split at h'
      · rename_i w₁ e hs
        have := ih (hj.system ⟨Win.wrapped_of_B (WinTextJoint.reach hj) hb.1.1, Win.single_of_B hb.1.2, Win.fits_of_B hb.2⟩ hs
          (by rw [hl]; nofun)) h'
        simpa using this
      · cases h'
    · cases h'

/-- What the lock system of windows does before the lock is granted to a process. -/
def winBefore (pid : Nat) : List Win.Label :=
  [.newProc 1, .newProc 2, .act 1 (.openS 0 100 (0, 7)), .act 2 (.openS 0 104 (0, 7))] ++ Win.doLock pid 0 0 none 0 false

-- two processes open a file on windows; the second writes in a critical section, while the first waits
example : ∃ ls w ev, WinTextJoint WinLogRules quotient [122] (0, 7) ((winPens latin1 [122]).take 8)
    (replay quotient ⟨[122], fun _ => none⟩ ((winPens latin1 [122]).take 8)) ls w ev := by
  have e1 : (Win.sane (winBefore 2)).map (fun x => heldOf x.2) = some [⟨2, 0, (0, 7), false, 0, none⟩] := by decide +kernel
  cases hr1 : Win.sane (winBefore 2) with
  | none => rw [hr1] at e1; cases e1
  | some x =>
    rw [hr1] at e1
    simp only [Option.map_some, Option.some.injEq] at e1
    have j0 := WinTextJoint.run (P := WinLogRules (C := latin1)) (guess := quotient) (d := [122]) (u := (0, 7)) rfl .init hr1
    have hp : AllWinLogProper quotient ⟨[122], fun _ => none⟩ [] ((winPens latin1 [122]).take 8 ++ (winPens latin1 [122]).drop 8) := by
      rw [List.take_append_drop]; exact winPens_proper
    have j1 := WinTextJoint.items ((winPens latin1 [122]).take 8) j0 (by decide +kernel) hp.split.1.rules (by
      intro i o hm
      simp [winPens] at hm
      obtain ⟨rfl, _⟩ := hm
      intro a ha
      obtain rfl := List.mem_singleton.1 ha
      exact ⟨_, by rw [e1]; exact List.mem_cons_self, rfl, rfl, rfl, by simp [Covers]⟩)
    exact ⟨_, _, _, j1⟩

-- the same for reading
example : ∃ ls w ev, WinTextJoint (WinTextRules quotient) quotient [97, 13, 98] (0, 7) (winStale.take 6)
    (replay quotient unopened (winStale.take 6)) ls w ev := by
  have e1 : (Win.sane (winBefore 1)).map (fun x => heldOf x.2) = some [⟨1, 0, (0, 7), false, 0, none⟩] := by decide +kernel
  cases hr1 : Win.sane (winBefore 1) with
  | none => rw [hr1] at e1; cases e1
  | some x =>
    rw [hr1] at e1
    simp only [Option.map_some, Option.some.injEq] at e1
    have j0 := WinTextJoint.run (P := WinTextRules (C := latin1) quotient) (guess := quotient) (d := [97, 13, 98]) (u := (0, 7)) rfl
      .init hr1
    have hp : AllWinProper quotient [] unopened (winStale.take 6) := winPair_proper
      [(.ask (1, 0), .done), (.granted (1, 0), .done), (.did (1, 0) (.read (some 2)), .text [97, 10]), (.unlock (1, 0), .done)]
      ⟨may_ask (by decide), ask_free _ (by decide), ⟨rfl, by decide⟩, not_asking nofun, win_did (by decide) trivial (by simp [SystemCall]),
        not_asking nofun, may_unlock (by decide), not_asking nofun, trivial⟩
    have j1 := WinTextJoint.items (winStale.take 6) j0 (by decide +kernel) hp.rules (by
      intro i o hm
      simp [winStale, winPair] at hm
      obtain ⟨rfl, _⟩ := hm
      intro a ha
      obtain rfl := List.mem_singleton.1 ha
      exact ⟨_, by rw [e1]; exact List.mem_cons_self, rfl, rfl, rfl, by simp [Covers]⟩)
    exact ⟨_, _, _, j1⟩

end Verif.Props
