import Verif.Lemmas.SystemInv

/-!
# Concrete runs

Helpers to build reachable states by evaluation, for examples and counterexamples.
-/

namespace Verif

open Spec

def Label.noWrap : Label → Bool
  | .act _ (.wrapS _ _ _) => false
  | _ => true

theorem wellWrapped_of_noWrap {l : Label} (h : l.noWrap = true) (w : World) : WellWrapped w l := by
  unfold WellWrapped
  split
  · simp [Label.noWrap] at h
  · trivial

theorem reach_runFrom {ls₀ : List Label} {w₀ : World} {tr₀ : List Event} (h₀ : Reach ls₀ w₀ tr₀) (ls : List Label)
    (hn : ls.all Label.noWrap = true) {w : World} {tr : List Event} (h : runFrom w₀ tr₀ ls = some (w, tr)) :
    Reach (ls₀ ++ ls) w tr := by
  induction ls generalizing ls₀ w₀ tr₀ with
  | nil => simp only [runFrom, Option.some.injEq, Prod.mk.injEq] at h; obtain ⟨rfl, rfl⟩ := h; simpa using h₀
  | cons l ls ih =>
    simp only [List.all_cons, Bool.and_eq_true] at hn
    simp only [runFrom] at h
    split at h
    · rename_i w' e hs
      have := ih (h₀.step (wellWrapped_of_noWrap hn.1 _) hs) hn.2 h
      simpa using this
    · cases h

theorem reach_of_run {ls : List Label} (hn : ls.all Label.noWrap = true) {w : World} {tr : List Event}
    (h : run ls = some (w, tr)) : Reach ls w tr := by
  simpa using reach_runFrom Reach.init ls hn h

/-- A run that can be evaluated gives a reachable state with the evaluated trace. -/
theorem reach_of_trace {ls : List Label} (hn : ls.all Label.noWrap = true) {tr : List Event}
    (h : (run ls).map Prod.snd = some tr) : ∃ w, run ls = some (w, tr) ∧ Reach ls w tr := by
  cases hr : run ls with
  | none => rw [hr] at h; cases h
  | some x =>
    obtain ⟨w, tr'⟩ := x
    rw [hr] at h
    simp only [Option.map_some, Option.some.injEq] at h
    subst h
    exact ⟨w, rfl, reach_of_run hn hr⟩

/-- `lock_file` called by thread `t` of process `pid`, granted at once. -/
def doLock (pid t sid : Nat) (len : Option Nat) (start : Int) (shared : Bool) : List Label :=
  [.act pid (.lockCall t sid len start shared true), .act pid (.reg t), .act pid (.kern t)]

/-- `unlock_file` with its whole critical section, when no descriptor is pending. -/
def doUnlock (pid sid : Nat) (len : Option Nat) (start : Int) : List Label :=
  [.act pid (.unlock sid len start), .act pid .micro, .act pid .micro]

def micros (pid n : Nat) : List Label := List.replicate n (.act pid .micro)

end Verif

namespace Verif

open Spec

theorem Reach.cases_append {ls : List Label} {l : Label} {w : World} {tr : List Event} (h : Reach (ls ++ [l]) w tr) :
    ∃ w₀ tr₀ e, Reach ls w₀ tr₀ ∧ WellWrapped w₀ l ∧ Verif.step w₀ l = some (w, e) ∧ tr = tr₀ ++ e := by
  generalize hls : ls ++ [l] = ls' at h
  cases h with
  | init => simp at hls
  | step hr hw hs =>
    obtain ⟨h1, h2⟩ := List.append_inj' hls rfl
    simp only [List.cons.injEq, and_true] at h2
    subst h1; subst h2
    exact ⟨_, _, _, hr, hw, hs, rfl⟩

theorem Reach.det {ls : List Label} {w w' : World} {tr tr' : List Event} (h : Reach ls w tr) (h' : Reach ls w' tr') :
    w = w' ∧ tr = tr' := by
  induction h generalizing w' tr' with
  | init =>
    generalize hls : ([] : List Label) = ls' at h'
    cases h' with
    | init => exact ⟨rfl, rfl⟩
    | step => simp at hls
  | step hr hw hs ih =>
    obtain ⟨w₀, tr₀, e, h1, h2, h3, rfl⟩ := h'.cases_append
    obtain ⟨rfl, rfl⟩ := ih h1
    rw [hs] at h3
    cases h3
    exact ⟨rfl, rfl⟩

end Verif
