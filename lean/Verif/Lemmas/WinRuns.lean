import Verif.Lemmas.WinWorld

/-!
# Concrete runs of the windows lock system
-/

set_option autoImplicit false

namespace Verif.Win

open Verif Spec

/-- The stream that the label makes. -/
def PLabel.made : PLabel → Option Nat
  | .openS sid _ _ => some sid
  | .wrapS sid _ _ => some sid
  | _ => none

/-- The streams that a process made. -/
def madeBy (pid : Nat) (ls : List Label) : List Nat :=
  ls.filterMap (fun l => match l with | .act q l => if q = pid then l.made else none | _ => none)

theorem stepProc_made {pid n : Nat} {p p' : Proc} {k k' : KTable} {l : PLabel} {e : List Event}
    (hs : stepProc pid n p k l = some (p', k', e)) {sid : Nat} (h : p'.streams sid ≠ none) :
    p.streams sid ≠ none ∨ l.made = some sid := by
  have upd : ∀ {s : Nat} {st st' : Stream}, p.streams s = some st →
      updMap p.streams s (some st') sid ≠ none → p.streams sid ≠ none := by
    intro s st st' h1 h2
    by_cases e : sid = s
    · rw [e, h1]; nofun
    · rwa [updMap_other _ _ e] at h2
  have rel : ∀ (p₁ : Proc) (s : Nat), p₁.streams = p.streams → (p₁.release s).streams sid ≠ none →
      p.streams sid ≠ none := by
    intro p₁ s h1 h2 h3
    have := release_streams p₁ s sid
    rw [h1, h3] at this
    cases h4 : (p₁.release s).streams sid with
    | none => exact h2 h4
    | some st => rw [h4] at this; cases this
  cases l with
  | openS s a file =>
    simp only [stepProc] at hs
    split at hs
    · cases hs
      by_cases e : s = sid
      · exact Or.inr (by rw [← e]; rfl)
      · simp only [updMap_other _ _ (Ne.symm e)] at h; exact Or.inl h
    · cases hs
  | wrapS s a c =>
    simp only [stepProc] at hs
    split at hs
    · cases hs
    · split at hs
      · cases hs
        by_cases e : s = sid
        · exact Or.inr (by rw [← e]; rfl)
        · simp only [updMap_other _ _ (Ne.symm e)] at h; exact Or.inl h
      · cases hs
  | lockCall tid s len start sh llb =>
    simp only [stepProc] at hs
    split at hs
    · rename_i st ht hst
      split at hs <;> cases hs
      exact Or.inl (upd hst h)
    · cases hs
  | close s =>
    simp only [stepProc] at hs
    split at hs
    · rename_i st hst _
      split at hs
      · cases hs
      · split at hs <;> cases hs
        · exact Or.inl (upd hst h)
        · exact Or.inl h
    · cases hs
  | reg tid =>
    simp only [stepProc] at hs
    split at hs
    · simp only [Option.some.injEq] at hs
      unfold attemptReg failLock at hs
      split at hs <;> cases hs
      · exact Or.inl (rel _ _ (by rfl) h)
      · exact Or.inl h
      · exact Or.inl h
    · cases hs
  | unlock s len start =>
    simp only [stepProc] at hs
    split at hs
    · split at hs
      · simp only [Option.some.injEq] at hs
        unfold unlockStream at hs
        dsimp only at hs
        split at hs <;> cases hs <;> exact Or.inl h
      · cases hs
    · cases hs
  | micro =>
    simp only [stepProc] at hs
    split at hs
    · rename_i m rest _
      simp only [Option.some.injEq] at hs
      cases m <;> simp only [doMicro] at hs
      all_goals repeat' split at hs
      all_goals (cases hs; exact Or.inl h)
    · cases hs
  | microErr =>
    simp only [stepProc] at hs
    split at hs
    · rename_i m _ _
      cases m <;> cases hs <;> exact Or.inl h
    · cases hs
  | _ =>
    simp only [stepProc, failLock] at hs
    repeat' split at hs
    all_goals first
      | (cases hs; done)
      | (cases hs; exact Or.inl h)
      | (cases hs; exact Or.inl (rel _ _ (by rfl) h))

theorem Reach.made {A : World → Label → Prop} {ls : List Label} {w : World} {tr : List Event} (h : Reach A ls w tr)
    {pid : Nat} {p : Proc} (hp : w.procs pid = some p) {sid : Nat} (hs : p.streams sid ≠ none) : sid ∈ madeBy pid ls := by
  induction h generalizing p with
  | init => cases hp
  | @step ls w tr l w' e hr ha hst ih =>
    rw [madeBy, List.filterMap_append, List.mem_append]
    have old : ∀ {p}, w.procs pid = some p → p.streams sid ≠ none → sid ∈ madeBy pid ls := fun h1 h2 => ih h1 h2
    cases l with
    | newProc q =>
      simp only [Win.step] at hst
      split at hst <;> cases hst
      by_cases e : pid = q
      · simp only [e, updMap_same, Option.some.injEq] at hp
        subst hp; exact absurd rfl hs
      · simp only [updMap_other _ _ e] at hp; exact Or.inl (old hp hs)
    | act q l =>
      simp only [Win.step] at hst
      split at hst
      · cases hst
      · rename_i p₀ hp₀
        split at hst
        · split at hst
          · rename_i p' k' e' hsp
            cases hst
            by_cases e : pid = q
            · simp only [e, updMap_same, Option.some.injEq] at hp
              subst hp
              rcases stepProc_made hsp hs with h1 | h1
              · exact Or.inl (old (by rw [e]; exact hp₀) h1)
              · refine Or.inr (List.mem_filterMap.2 ⟨_, List.mem_singleton.2 rfl, ?_⟩)
                simp only [e, if_true]; exact h1
            · simp only [updMap_other _ _ e] at hp; exact Or.inl (old hp hs)
          · cases hst
        · cases hst
    | dup src a dst b =>
      simp only [Win.step] at hst
      split at hst
      · rename_i p₀ p₁ hp₀ hp₁
        split at hst
        · split at hst <;> cases hst
          by_cases e : pid = dst
          · simp only [e, updMap_same, Option.some.injEq] at hp
            subst hp
            exact Or.inl (old (p := p₁) (by rw [e]; exact hp₁) hs)
          · simp only [updMap_other _ _ e] at hp; exact Or.inl (old hp hs)
        · cases hst
      · cases hst
    | exit q =>
      simp only [Win.step] at hst
      split at hst
      · cases hst
      · rename_i p₀ hp₀
        split at hst <;> cases hst
        by_cases e : pid = q
        · simp only [e, updMap_same, Option.some.injEq] at hp
          subst hp
          exact Or.inl (old (p := p₀) (by rw [e]; exact hp₀) hs)
        · simp only [updMap_other _ _ e] at hp; exact Or.inl (old hp hs)

/-- A check of `Unused` over the streams that the process made. -/
def unusedB (p : Proc) (made : List Nat) (h : Nat) : Bool :=
  made.all (fun s => match p.streams s with
    | some st => !(st.isOpen && decide (st.handle = h))
    | none => true) && p.crit.all (fun m => !decide (m.handle = h))

theorem unused_of_B {p : Proc} {made : List Nat} {h : Nat} (hm : ∀ sid, p.streams sid ≠ none → sid ∈ made)
    (hb : unusedB p made h = true) : Unused p h := by
  simp only [unusedB, Bool.and_eq_true, List.all_eq_true] at hb
  refine ⟨?_, ?_⟩
  · intro sid st h1 h2 h3
    have := hb.1 sid (hm sid (by rw [h1]; nofun))
    simp [h1, h2, h3] at this
  · intro m hm' e
    have := hb.2 m hm'
    simp [e] at this

/-- A check of `WellWrapped`. -/
def wrappedB (ls : List Label) (w : World) : Label → Bool
  | .act pid (.wrapS _ h _) => match w.procs pid with | some p => unusedB p (madeBy pid ls) h | none => true
  | .act pid (.osClose h) => match w.procs pid with | some p => unusedB p (madeBy pid ls) h | none => true
  | _ => true

/-- A check of `SingleHandles`. -/
def singleB (w : World) : Label → Bool
  | .dup src h dst _ => match w.procs src, w.procs dst with
    | some p, some p' => match p.target h with
      | some hd => p'.handles.all (fun x => !decide (x.2.obj = hd.obj))
      | none => true
    | _, _ => true
  | _ => true

/-- A check of `Fits`. -/
def fitsB : Label → Bool
  | .act _ (.lockCall _ _ len start _ _) => decide (start < 2 ^ 64) && len.all (fun n => decide (n < 2 ^ 64 - 1))
  | .act _ (.unlock _ len start) => decide (start < 2 ^ 64) && len.all (fun n => decide (n < 2 ^ 64 - 1))
  | _ => true

theorem wrapped_of_B {A : World → Label → Prop} {ls : List Label} {w : World} {tr : List Event} (h : Reach A ls w tr)
    {l : Label} (hb : wrappedB ls w l = true) : WellWrapped w l := by
  unfold WellWrapped
  split
  · intro p hp
    simp only [wrappedB, hp] at hb
    exact unused_of_B (fun _ hs => h.made hp hs) hb
  · intro p hp
    simp only [wrappedB, hp] at hb
    exact unused_of_B (fun _ hs => h.made hp hs) hb
  · trivial

theorem single_of_B {w : World} {l : Label} (hb : singleB w l = true) : SingleHandles w l := by
  unfold SingleHandles
  split
  · intro p p' hd h1 h2 h3 x hx
    simp only [singleB, h1, h2, h3, List.all_eq_true] at hb
    simpa using hb x hx
  · trivial

theorem fits_of_B {l : Label} (hb : fitsB l = true) : Fits l := by
  unfold Fits
  split
  · rename_i len start _ _
    simp only [fitsB, Bool.and_eq_true, decide_eq_true_eq] at hb
    refine ⟨hb.1, fun n hn => ?_⟩
    subst hn
    simpa using hb.2
  · rename_i len start
    simp only [fitsB, Bool.and_eq_true, decide_eq_true_eq] at hb
    refine ⟨hb.1, fun n hn => ?_⟩
    subst hn
    simpa using hb.2
  · trivial

/-- A run with a check before every step. -/
def checkedFrom (c : List Label → World → Label → Bool) (pre : List Label) (w : World) (tr : List Event) :
    List Label → Option (World × List Event)
  | [] => some (w, tr)
  | l :: ls =>
    if c pre w l then
      match step w l with
      | some (w', e) => checkedFrom c (pre ++ [l]) w' (tr ++ e) ls
      | none => none
    else none

theorem reach_of_checked {A : World → Label → Prop} {c : List Label → World → Label → Bool}
    (hc : ∀ ls w tr l, Reach A ls w tr → c ls w l = true → A w l) {ls : List Label} :
    ∀ {pre : List Label} {w w' : World} {tr tr' : List Event}, Reach A pre w tr →
      checkedFrom c pre w tr ls = some (w', tr') → Reach A (pre ++ ls) w' tr' := by
  induction ls with
  | nil =>
    intro pre w w' tr tr' h h'
    simp only [checkedFrom, Option.some.injEq, Prod.mk.injEq] at h'
    obtain ⟨rfl, rfl⟩ := h'
    simpa using h
  | cons l ls ih =>
    intro pre w w' tr tr' h h'
    simp only [checkedFrom] at h'
    split at h'
    · rename_i hl
      split at h'
      · rename_i w₁ e hs
        have := ih (h.step (hc _ _ _ _ h hl) hs) h'
        simpa using this
      · cases h'
    · cases h'

/-- All assumptions are checked. -/
def sane (ls : List Label) : Option (World × List Event) :=
  checkedFrom (fun pre w l => wrappedB pre w l && singleB w l && fitsB l) [] World.init [] ls

theorem reach_sane {ls : List Label} {w : World} {tr : List Event} (h : sane ls = some (w, tr)) : Reach Sane ls w tr := by
  refine reach_of_checked (c := fun pre w l => wrappedB pre w l && singleB w l && fitsB l) ?_ Reach.init h
  intro ls w tr l hr hb
  simp only [Bool.and_eq_true] at hb
  exact ⟨wrapped_of_B hr hb.1.1, single_of_B hb.1.2, fits_of_B hb.2⟩

/-- Only the wrapping of handles and the ranges are checked. -/
def wrapped (ls : List Label) : Option (World × List Event) :=
  checkedFrom (fun pre w l => wrappedB pre w l && fitsB l) [] World.init [] ls

theorem reach_wrapped {ls : List Label} {w : World} {tr : List Event} (h : wrapped ls = some (w, tr)) :
    Reach (fun w l => WellWrapped w l ∧ Fits l) ls w tr := by
  refine reach_of_checked (A := fun w l => WellWrapped w l ∧ Fits l)
    (c := fun pre w l => wrappedB pre w l && fitsB l) ?_ Reach.init h
  intro ls w tr l hr hb
  simp only [Bool.and_eq_true] at hb
  exact ⟨wrapped_of_B hr hb.1, fits_of_B hb.2⟩

/-- Only the handles are checked. -/
def handled (ls : List Label) : Option (World × List Event) :=
  checkedFrom (fun pre w l => wrappedB pre w l && singleB w l) [] World.init [] ls

theorem reach_handled {ls : List Label} {w : World} {tr : List Event} (h : handled ls = some (w, tr)) :
    Reach (fun w l => WellWrapped w l ∧ SingleHandles w l) ls w tr := by
  refine reach_of_checked (A := fun w l => WellWrapped w l ∧ SingleHandles w l)
    (c := fun pre w l => wrappedB pre w l && singleB w l) ?_ Reach.init h
  intro ls w tr l hr hb
  simp only [Bool.and_eq_true] at hb
  exact ⟨wrapped_of_B hr hb.1, single_of_B hb.2⟩

/-- `lock_file` called by thread `t` of process `pid`, granted at once. -/
def doLock (pid t sid : Nat) (len : Option Nat) (start : Int) (shared : Bool) : List Label :=
  [.act pid (.lockCall t sid len start shared true), .act pid (.reg t), .act pid (.kern t)]

/-- `unlock_file` with its whole critical section. -/
def doUnlock (pid sid : Nat) (len : Option Nat) (start : Int) : List Label :=
  [.act pid (.unlock sid len start), .act pid .micro]

end Verif.Win
