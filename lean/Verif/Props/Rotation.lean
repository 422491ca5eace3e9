import Verif.Spec.Rotation
import Verif.Props.WinAppendTogether
import Verif.Props.TextLocks

/-!
# C125: logs that are emptied from time to time
-/

set_option autoImplicit false

namespace Verif.Props

open Verif Verif.Spec
open Verif.Txt

theorem rotated_snoc (d : Bytes) (h : List Item) (it : Item) : rotated d (h ++ [it]) = rotateBy (rotated d h) it := by
  simp [rotated]

theorem CutsOnly.prefix {d : Bytes} {h post : List Item} (hc : CutsOnly d (h ++ post)) : CutsOnly d h := by
  intro pre i z rest e
  exact hc pre i z (rest ++ post) (by rw [e]; simp)

/-- Files that are only emptied. -/
theorem cutsOnly_empty {d : Bytes} {h : List Item} (hz : ∀ i z, Item.did i (.truncate (some z)) ∈ h → z ≤ 0) : CutsOnly d h := by
  intro pre i z post e
  have := hz i z (by rw [e]; simp)
  omega

theorem resizeTo_cut {data : Bytes} {n : Nat} (h : n ≤ data.length) : resizeTo data n = data.take n := by
  apply List.ext_getElem
  · simp [resizeTo]; omega
  · intro i h1 h2
    simp only [List.length_take] at h2
    simp only [resizeTo, List.getElem_map, List.getElem_range, List.getElem_take]
    rw [List.getD_eq_getElem?_getD, List.getElem?_eq_getElem (by omega)]
    rfl

/-- Streams are opened before they are used, and those in append mode can write. -/
structure Uses (h : List Item) : Prop where
  opened : ∀ pre i op post, h = pre ++ Item.did i op :: post → i ∈ openIn pre
  kinds : ∀ i b, Item.opened i b ∈ h → b.raw.append = true → b.kind ≠ .reader

theorem Uses.prefix {h post : List Item} (hu : Uses (h ++ post)) : Uses h :=
  ⟨fun pre i op rest e => hu.opened pre i op (rest ++ post) (by rw [e]; simp),
    fun i b hm => hu.kinds i b (List.mem_append_left _ hm)⟩

theorem DisciplinedAny.uses {h : List Item} (hd : DisciplinedAny h) : Uses h := by
  induction hd with
  | nil => exact ⟨by simp, by simp⟩
  | @snoc h it hd hp _ ih =>
    refine ⟨fun pre i op post e => ?_, fun i b hm ha => ?_⟩
    · rcases List.eq_nil_or_concat post with rfl | ⟨p, x, rfl⟩
      · obtain ⟨rfl, e2⟩ := List.append_inj' e rfl
        cases e2
        exact ProperAny.open hd hp
      · rw [List.concat_eq_append, ← List.cons_append, ← List.append_assoc] at e
        exact ih.opened pre i op p (List.append_inj' e rfl).1
    · rcases List.mem_append.1 hm with hm | hm
      · exact ih.kinds i b hm ha
      · rw [List.mem_singleton] at hm
        subst hm
        exact hp.2.2.2.2.2 ha

theorem WinDisciplinedAny.disciplined {h : List Item} (hd : WinDisciplinedAny h) : DisciplinedAny (h.map Item.ported) := by
  induction hd with
  | nil => exact .nil
  | @snoc h it _ hp hx ih =>
    rw [List.map_append]
    refine .snoc ih (WinProperAny.ported hp) ?_
    rw [show h.map Item.ported ++ [it.ported] = (h ++ [it]).map Item.ported by simp, holding_ported]
    exact hx

theorem WinDisciplinedAny.uses {h : List Item} (hd : WinDisciplinedAny h) : Uses h := by
  have hu := DisciplinedAny.uses (WinDisciplinedAny.disciplined hd)
  refine ⟨fun pre i op post e => ?_, fun i b hm ha => ?_⟩
  · rw [← openIn_ported]
    exact hu.opened (pre.map Item.ported) i op (post.map Item.ported) (by rw [e, List.map_append]; rfl)
  · exact hu.kinds i b.ported (List.mem_map.2 ⟨_, hm, rfl⟩) ha

/-- The array is the log, and no stream has read. -/
theorem Pooled.rotates {d : Bytes} {tr : List (Item × StreamOut)} {s : Pool} (hp : Pooled (.start d) tr s)
    (hu : Uses (tr.map Prod.fst)) (ho : ∀ it ∈ tr.map Prod.fst, Rotates it) (hc : CutsOnly d (tr.map Prod.fst)) :
    s.data = rotated d (tr.map Prod.fst) ∧
      ∀ i ∈ openIn (tr.map Prod.fst), s.append i = true ∧ s.ahead i = false ∧ s.kind i ≠ .reader := by
  generalize hs : Pool.start d = s₀ at hp
  induction hp with
  | nil => subst hs; exact ⟨by simp [Pool.start, rotated], by simp [openIn]⟩
  | @snoc s' s'' tr it out _ hst ih =>
    rw [List.map_append] at hu ho hc ⊢
    obtain ⟨e1, e2⟩ := ih hu.prefix (fun it hi => ho it (List.mem_append_left _ hi)) (CutsOnly.prefix hc)
    have hit := ho it (by simp)
    change s''.data = rotated d (tr.map Prod.fst ++ [it]) ∧
      ∀ i ∈ openIn (tr.map Prod.fst ++ [it]), s''.append i = true ∧ s''.ahead i = false ∧ s''.kind i ≠ .reader
    rw [rotated_snoc, openIn_snoc, ← e1]
    have stay : ∀ j, ∀ i ∈ openIn (tr.map Prod.fst), (s'.after j ⟨⟨s'.data, s'.pos j, false, []⟩, false⟩).append i = true ∧
        (s'.after j ⟨⟨s'.data, s'.pos j, false, []⟩, false⟩).ahead i = false ∧
        (s'.after j ⟨⟨s'.data, s'.pos j, false, []⟩, false⟩).kind i ≠ .reader := by
      intro j i hi
      obtain ⟨k1, k2, k3⟩ := e2 i hi
      refine ⟨k1, ?_, k3⟩
      dsimp only [Pool.after]
      split
      · rfl
      · exact k2
    cases it with
    | opened j b =>
      obtain ⟨_, rfl⟩ := hst
      refine ⟨rfl, fun i hi => ?_⟩
      dsimp only
      by_cases hij : i = j
      · simp only [hij, if_true]
        exact ⟨hit, trivial, hu.kinds j b (by simp) hit⟩
      · simp only [hij, if_false]
        exact e2 i ((List.mem_append.1 hi).resolve_right (by simpa using hij))
    | did j op =>
      obtain ⟨log, f, h1, _, rfl⟩ := hst
      have hj := hu.opened (tr.map Prod.fst) j op [] rfl
      obtain ⟨k1, k2, k3⟩ := e2 j hj
      have h1 := h1 k1
      have fin : f.file.data = rotateBy s'.data (.did j op) → f.file.ahead = false →
          (s'.after j f).data = rotateBy s'.data (.did j op) ∧ ∀ i ∈ openIn (tr.map Prod.fst),
            (s'.after j f).append i = true ∧ (s'.after j f).ahead i = false ∧ (s'.after j f).kind i ≠ .reader := by
        intro g1 g2
        refine ⟨g1, fun i hi => ?_⟩
        obtain ⟨m1, m2, m3⟩ := e2 i hi
        refine ⟨m1, ?_, m3⟩
        dsimp only [Pool.after]
        split
        · exact g2
        · exact m2
      cases op with
      | write x =>
        obtain ⟨_, g1, g2⟩ := h1
        by_cases hx : x = []
        · rw [g1 hx] at fin ⊢
          exact fin (by simp [rotateBy, hx, Pool.view]) rfl
        · obtain ⟨g3, _⟩ := g2 hx
          exact fin (by rw [g3]; rfl) (by rw [g3])
      | flush => obtain ⟨⟨_, k⟩, _⟩ := h1; exact fin (by rw [k]; rfl) (by rw [k]; exact k2)
      | size => obtain ⟨⟨_, k⟩, _⟩ := h1; exact fin (by rw [k]; rfl) (by rw [k]; exact k2)
      | truncate a =>
        cases a with
        | none => exact hit.elim
        | some z =>
          have hz := hc (tr.map Prod.fst) j z [] rfl
          rw [← e1] at hz
          obtain ⟨h1, _⟩ := h1
          simp only [Allowed, if_neg k3] at h1
          by_cases hneg : z < 0
          · rw [if_pos hneg] at h1
            exact fin (by rw [h1.2]; simp [rotateBy, hneg, Pool.view]) (by rw [h1.2]; exact k2)
          · rw [if_neg hneg] at h1
            refine fin ?_ (by rw [h1.2]; exact k2)
            rw [h1.2]
            simp only [rotateBy, if_neg hneg]
            exact resizeTo_cut (by show z.toNat ≤ s'.data.length; omega)
      | _ => exact hit.elim
    | ask j => obtain ⟨_, rfl⟩ := hst; exact ⟨rfl, stay j⟩
    | granted j sh => obtain ⟨_, rfl⟩ := hst; exact ⟨rfl, stay j⟩
    | unlock j => obtain ⟨_, rfl⟩ := hst; exact ⟨rfl, stay j⟩
    | exit j => obtain ⟨_, rfl⟩ := hst; exact ⟨rfl, e2⟩
    | close j => obtain ⟨_, rfl⟩ := hst; exact ⟨rfl, fun i hi => e2 i (List.mem_filter.1 hi).1⟩
    | gone p => obtain ⟨_, rfl⟩ := hst; exact ⟨rfl, fun i hi => e2 i (List.mem_filter.1 hi).1⟩

/-- None of these calls is one that the code gets wrong. -/
theorem rotates_safe {s : Pool} {it : Item} (hr : Rotates it) (ha : ∀ i op, it = .did i op → s.append i = true ∧ s.ahead i = false) :
    ¬ s.Unsafe it := by
  intro hu
  cases it with
  | did i op =>
    obtain ⟨h1, h2⟩ := ha i op rfl
    rcases hu with ⟨_, hu⟩ | ⟨h0, _⟩
    · rcases hu with hu | ⟨_, rfl | ⟨_, rfl⟩⟩
      · cases op with
        | truncate a => exact absurd (h2.symm.trans hu.2.1) nofun
        | seek o w => exact hr.elim
        | _ => exact hu.elim
      · exact hr.elim
      · exact hr.elim
    · rw [h1] at h0; cases h0
  | _ => exact hu.elim

/-- C125.  Any number of processes write to a log in append mode in their critical sections, and cut it there; in particular some of
them empty it.  When nobody holds an exclusive lock the file is what was written since then, in the order of the calls, behind what the
cuts left. -/
theorem C125_rotation {h : List Item} (hd : DisciplinedAny h) (d : Bytes) (hp : ∀ it ∈ h, Rotates it) (hc : CutsOnly d h) :
    (∃ s, Pooled (.start d) ((beforehand d).play h).1 s ∧ s.data = rotated d h) ∧
      ((∀ i, (i, false) ∉ holding h) → ((beforehand d).play h).2.file = rotated d h) := by
  have hu := DisciplinedAny.uses hd
  obtain ⟨pre, post, s, rfl, _, e1, e2, e3⟩ := Turns.history hd d
  have h1 := Pooled.rotates e1 (by rw [play_items]; exact hu.prefix)
    (by rw [play_items]; exact fun it hi => hp it (List.mem_append_left _ hi)) (by rw [play_items]; exact CutsOnly.prefix hc)
  rw [play_items] at h1
  rcases e3 with rfl | ⟨it, rest, rfl, e3⟩
  · rw [List.append_nil]
    exact ⟨⟨s, e1, h1.1⟩, fun hn => (e2.file hn).trans h1.1⟩
  · refine absurd e3 (rotates_safe (hp it (by simp)) fun i op e => ?_)
    subst e
    have := h1.2 i (hu.opened pre i op rest rfl)
    exact ⟨this.1, this.2.1⟩

/-- C125 on windows.  (Under the assumptions of C93.) -/
theorem C125_windows {h : List Item} (hd : WinDisciplinedAny h) (d : Bytes) (hp : ∀ it ∈ h, Rotates it) (hc : CutsOnly d h) :
    (∃ s, Pooled (.start d) ((beforehand d).play h).1 s ∧ s.data = rotated d h) ∧
      ((∀ i, (i, false) ∉ holding h) → ((beforehand d).play h).2.file = rotated d h) := by
  have hu := WinDisciplinedAny.uses hd
  obtain ⟨pre, post, s, rfl, _, e1, e2, _, e3⟩ := WinDisciplinedAny.history hd d
  have h1 := Pooled.rotates e1 (by rw [play_items]; exact hu.prefix)
    (by rw [play_items]; exact fun it hi => hp it (List.mem_append_left _ hi)) (by rw [play_items]; exact CutsOnly.prefix hc)
  rw [play_items] at h1
  rcases e3 with rfl | ⟨it, rest, rfl, e3⟩
  · rw [List.append_nil]
    exact ⟨⟨s, e1, h1.1⟩, fun hn => (e2.file (by rw [holding_ported]; exact hn)).trans h1.1⟩
  · have hit := hp it (by simp)
    cases it with
    | did i op =>
      rcases e3 with e3 | e3
      · refine absurd e3 (rotates_safe hit fun j op' e => ?_)
        cases e
        have := h1.2 i (hu.opened pre i op rest rfl)
        exact ⟨this.1, this.2.1⟩
      · cases op with
        | truncate a =>
          cases a with
          | none => exact hit.elim
          | some z =>
            have hz := hc pre i z rest rfl
            have hl : (s.data.length : Int) < z := e3.2
            rw [h1.1] at hl
            omega
        | _ => exact e3.elim
    | _ => exact e3.elim

/-- C125 together with the processes, threads, registries and kernel that grant the locks. -/
theorem C125_exclusive {u : Uid} {h : List Item} {ls : List Label} {w : World} {tr : List Event} (hj : JointAny u h ls w tr)
    (hx : ∀ i, Item.granted i true ∉ h) (d : Bytes) (hp : ∀ it ∈ h, Rotates it) (hc : CutsOnly d h)
    (hn : ∀ i, (i, false) ∉ holding h) : ((beforehand d).play h).2.file = rotated d h :=
  (C125_rotation (JointAny.disciplined hj hx) d hp hc).2 hn

/-- C125 together with the processes, threads, registries and kernel of windows. -/
theorem C125_windows_locks {u : Uid} {h : List Item} {ls : List Win.Label} {w : Win.World} {tr : List Event}
    (hj : WinJointAny u h ls w tr) (d : Bytes) (hp : ∀ it ∈ h, Rotates it) (hc : CutsOnly d h)
    (hn : ∀ i, (i, false) ∉ holding h) : ((beforehand d).play h).2.file = rotated d h :=
  (C125_windows (WinJointAny.disciplined hj) d hp hc).2 hn

/-! ## Cases -/

/-- Two processes open a log; the first writes; the second empties it and writes; the first writes again. -/
def emptied (b : Buf) : List Item :=
  [.opened (1, 10) b, .opened (2, 20) b, .ask (1, 10), .granted (1, 10) false, .did (1, 10) (.write [65, 66]), .unlock (1, 10),
    .ask (2, 20), .granted (2, 20) false, .did (2, 20) (.truncate (some 0)), .did (2, 20) (.write [67]), .unlock (2, 20),
    .ask (1, 10), .granted (1, 10) false, .did (1, 10) (.write [68]), .unlock (1, 10)]

theorem emptied_ok {b : Buf} (hb : FreshAny b) : DisciplinedAny (emptied b) := by
  have h1 := DisciplinedAny.nil.snoc (it := .opened (1, 10) b) ⟨by simp [openIn], hb⟩ (by simp [Exclusion, holding, holdStep])
  have h2 := h1.snoc (it := .opened (2, 20) b) ⟨by simp [openIn, openStep], hb⟩ (by simp [Exclusion, holding, holdStep])
  have h3 := h2.snoc (it := .ask (1, 10)) ⟨by simp [openIn, openStep], by simp [holding, holdStep]⟩ (by simp [Exclusion, holding, holdStep])
  have h4 := h3.snoc (it := .granted (1, 10) false) ⟨by simp [openIn, openStep], by simp [lastOf, streamOf]⟩ (by simp [Exclusion, holding, holdStep])
  have h5 := h4.snoc (it := .did (1, 10) (.write [65, 66])) (.inr ⟨trivial, by simp [holding, holdStep]⟩) (by simp [Exclusion, holding, holdStep])
  have h6 := h5.snoc (it := .unlock (1, 10)) ⟨false, by simp [holding, holdStep]⟩ (by simp [Exclusion, holding, holdStep])
  have h7 := h6.snoc (it := .ask (2, 20)) ⟨by simp [openIn, openStep], by simp [holding, holdStep]⟩ (by simp [Exclusion, holding, holdStep])
  have h8 := h7.snoc (it := .granted (2, 20) false) ⟨by simp [openIn, openStep], by simp [lastOf, streamOf]⟩ (by simp [Exclusion, holding, holdStep])
  have h9 := h8.snoc (it := .did (2, 20) (.truncate (some 0))) (.inr ⟨trivial, by simp [holding, holdStep]⟩) (by simp [Exclusion, holding, holdStep])
  have h10 := h9.snoc (it := .did (2, 20) (.write [67])) (.inr ⟨trivial, by simp [holding, holdStep]⟩) (by simp [Exclusion, holding, holdStep])
  have h11 := h10.snoc (it := .unlock (2, 20)) ⟨false, by simp [holding, holdStep]⟩ (by simp [Exclusion, holding, holdStep])
  have h12 := h11.snoc (it := .ask (1, 10)) ⟨by simp [openIn, openStep], by simp [holding, holdStep]⟩ (by simp [Exclusion, holding, holdStep])
  have h13 := h12.snoc (it := .granted (1, 10) false) ⟨by simp [openIn, openStep], by simp [lastOf, streamOf]⟩ (by simp [Exclusion, holding, holdStep])
  have h14 := h13.snoc (it := .did (1, 10) (.write [68])) (.inr ⟨trivial, by simp [holding, holdStep]⟩) (by simp [Exclusion, holding, holdStep])
  have h15 := h14.snoc (it := .unlock (1, 10)) ⟨false, by simp [holding, holdStep]⟩ (by simp [Exclusion, holding, holdStep])
  exact h15

theorem winEmptied_ok {b : Buf} (hb : WinFreshAny b) : WinDisciplinedAny (emptied b) := by
  have h1 := WinDisciplinedAny.nil.snoc (it := .opened (1, 10) b) ⟨by simp [openIn], hb⟩ (by simp [Exclusion, holding, holdStep])
  have h2 := h1.snoc (it := .opened (2, 20) b) ⟨by simp [openIn, openStep], hb⟩ (by simp [Exclusion, holding, holdStep])
  have h3 := h2.snoc (it := .ask (1, 10)) ⟨by simp [openIn, openStep], by simp [holding, holdStep]⟩ (by simp [Exclusion, holding, holdStep])
  have h4 := h3.snoc (it := .granted (1, 10) false) ⟨by simp [openIn, openStep], by simp [lastOf, streamOf]⟩ (by simp [Exclusion, holding, holdStep])
  have h5 := h4.snoc (it := .did (1, 10) (.write [65, 66])) (.inr ⟨trivial, by simp [holding, holdStep]⟩) (by simp [Exclusion, holding, holdStep])
  have h6 := h5.snoc (it := .unlock (1, 10)) ⟨false, by simp [holding, holdStep]⟩ (by simp [Exclusion, holding, holdStep])
  have h7 := h6.snoc (it := .ask (2, 20)) ⟨by simp [openIn, openStep], by simp [holding, holdStep]⟩ (by simp [Exclusion, holding, holdStep])
  have h8 := h7.snoc (it := .granted (2, 20) false) ⟨by simp [openIn, openStep], by simp [lastOf, streamOf]⟩ (by simp [Exclusion, holding, holdStep])
  have h9 := h8.snoc (it := .did (2, 20) (.truncate (some 0))) (.inr ⟨trivial, by simp [holding, holdStep]⟩) (by simp [Exclusion, holding, holdStep])
  have h10 := h9.snoc (it := .did (2, 20) (.write [67])) (.inr ⟨trivial, by simp [holding, holdStep]⟩) (by simp [Exclusion, holding, holdStep])
  have h11 := h10.snoc (it := .unlock (2, 20)) ⟨false, by simp [holding, holdStep]⟩ (by simp [Exclusion, holding, holdStep])
  have h12 := h11.snoc (it := .ask (1, 10)) ⟨by simp [openIn, openStep], by simp [holding, holdStep]⟩ (by simp [Exclusion, holding, holdStep])
  have h13 := h12.snoc (it := .granted (1, 10) false) ⟨by simp [openIn, openStep], by simp [lastOf, streamOf]⟩ (by simp [Exclusion, holding, holdStep])
  have h14 := h13.snoc (it := .did (1, 10) (.write [68])) (.inr ⟨trivial, by simp [holding, holdStep]⟩) (by simp [Exclusion, holding, holdStep])
  have h15 := h14.snoc (it := .unlock (1, 10)) ⟨false, by simp [holding, holdStep]⟩ (by simp [Exclusion, holding, holdStep])
  exact h15

theorem emptied_cuts (b : Buf) (d : Bytes) : CutsOnly d (emptied b) := cutsOnly_empty (by simp [emptied])

example : DisciplinedAny (emptied exAppender) ∧ (∀ it ∈ emptied exAppender, Rotates it) ∧ CutsOnly [] (emptied exAppender) ∧
    rotated [] (emptied exAppender) = [67, 68] ∧ ((beforehand []).play (emptied exAppender)).2.file = [67, 68] :=
  ⟨emptied_ok exAppender_fresh, by simp [emptied, Rotates, exAppender, openedLog, logOf], emptied_cuts _ _, by decide +kernel,
    by decide +kernel⟩

example : WinDisciplinedAny (emptied winAppender) ∧ (∀ it ∈ emptied winAppender, Rotates it) ∧ CutsOnly [] (emptied winAppender) ∧
    ((beforehand []).play (emptied winAppender)).2.file = [67, 68] :=
  ⟨winEmptied_ok winAppender_fresh, by simp [emptied, Rotates, winAppender, winLogOf, logOf], emptied_cuts _ _, by decide +kernel⟩

/-- The claim of C125 for streams that are not in append mode. -/
def RotatesWithoutAppend : Prop :=
  ∀ {h : List Item}, DisciplinedAny h → ∀ d : Bytes, (∀ it ∈ h, Rotates it ∨ ∃ i b, it = .opened i b) → CutsOnly d h →
    (∀ i, (i, false) ∉ holding h) → ((beforehand d).play h).2.file = rotated d h

/-- Without append mode the claim is false: the first process goes on at its old position, and leaves a gap of zeros before what it
writes. -/
theorem C125_plain_refuted : ¬ RotatesWithoutAppend := by
  intro hall
  have := hall (emptied_ok exWriter_any) [] (by simp [emptied, Rotates]) (emptied_cuts _ _) (by simp [emptied, holding, holdStep])
  exact absurd this (by decide +kernel)

example : ((beforehand []).play (emptied exWriter)).2.file = [67, 0, 68] := by decide +kernel

/-! ## Text streams -/

variable {C : Codec}

theorem TextPooled.rotates {ends : Sid → Text → Text} {d : Bytes} {tr : TextTrace C} {s : TextPool}
    (h : TextPooled C (.start d) tr s) (hs : Styled ends tr) (hc : TextCutsOnly ends d tr)
    (hlock : ∀ i b o, (TextItem.did i (.lock b), o) ∉ tr) : s.data = rotatedText C ends d tr := by
  generalize hq : TextPool.start d = s₀ at h
  induction h with
  | nil => subst hq; rfl
  | @snoc s' s'' tr it out hprev hst ih =>
    have hs' : Styled ends tr := fun j t o hm => hs j t o (List.mem_append_left _ hm)
    have ih' := ih hs' ⟨fun i o hm => hc.1 i o (List.mem_append_left _ hm),
      fun pre i z o post e => hc.2 pre i z o (post ++ [(it, out)]) (by rw [e]; simp)⟩
      (fun i a o hm => hlock i a o (List.mem_append_left _ hm))
    unfold rotatedText
    rw [List.foldl_append]
    change s''.data = rotateText C ends (rotatedText C ends d tr) (it, out)
    rw [← ih']
    have hsame : s''.data = s'.data → rotateText C ends s'.data (it, out) = s'.data →
        s''.data = rotateText C ends s'.data (it, out) := fun h1 h2 => h1.trans h2.symm
    cases it with
    | opened j t => obtain ⟨_, rfl⟩ := hst; exact hsame rfl rfl
    | ask j => obtain ⟨_, rfl⟩ := hst; exact hsame rfl rfl
    | granted j => obtain ⟨_, rfl⟩ := hst; exact hsame rfl rfl
    | unlock j => obtain ⟨_, rfl⟩ := hst; exact hsame rfl rfl
    | exit j => obtain ⟨_, rfl⟩ := hst; exact hsame rfl rfl
    | close j => obtain ⟨_, rfl⟩ := hst; exact hsame rfl rfl
    | gone p => obtain ⟨_, rfl⟩ := hst; exact hsame rfl rfl
    | did j op =>
      obtain ⟨v, log, f, e1, e2, rfl⟩ := hst
      cases op with
      | write x =>
        have hv : v.ends = ends j := TextPooled.ends (hq ▸ hprev) hs' j v e1
        simp only [AppendTextAllowed] at e2
        rw [hv] at e2
        simp only [rotateText]
        split at e2 <;> rename_i hb <;> rw [hb] <;> obtain ⟨_, rfl⟩ := e2 <;> rfl
      | truncate a =>
        cases a with
        | none => exact absurd (by simp) (hc.1 j out)
        | some z =>
          have hz := hc.2 tr j z out [] rfl
          rw [← ih'] at hz
          simp only [AppendTextAllowed, SinkAllowed] at e2
          simp only [rotateText]
          by_cases hneg : z < 0
          · rw [if_pos hneg] at e2 ⊢; obtain ⟨_, rfl⟩ := e2; rfl
          · rw [if_neg hneg] at e2 ⊢
            obtain ⟨_, rfl⟩ := e2
            exact resizeTo_cut (by omega)
      | flush => obtain ⟨_, rfl⟩ := e2; exact hsame rfl rfl
      | sync a m fl => obtain ⟨_, rfl⟩ := e2; exact hsame rfl rfl
      | tell => obtain ⟨_, rfl⟩ := e2; exact hsame rfl rfl
      | size => obtain ⟨_, rfl⟩ := e2; exact hsame rfl rfl
      | readinto => obtain ⟨_, rfl⟩ := e2; exact hsame rfl rfl
      | read n => obtain ⟨_, _, rfl⟩ := e2; exact hsame rfl rfl
      | readline n => exact e2.elim
      | next => exact e2.elim
      | close => exact e2.elim
      | unlock => obtain ⟨_, rfl⟩ := e2; exact hsame rfl rfl
      | lock o => exact absurd (by simp) (hlock j o out)
      | seek m =>
        rcases m with c | _ | _ | _ | _
        · cases c with
          | none => obtain ⟨_, rfl⟩ := e2; exact hsame rfl rfl
          | some c => obtain ⟨_, _, rfl⟩ := e2; exact hsame rfl rfl
        all_goals obtain ⟨_, rfl⟩ := e2; exact hsame rfl rfl

/-- C125 for text streams, moved or not, with encodings without a mark at the start of the file.
Missing: other encodings, for which it is false (`C125_text_refuted`). -/
theorem C125_text_partial (hC : LawfulEncoder C) (he : C.encInit = C.encMid) {guess : Nat × Nat → Nat → Nat} {d : Bytes}
    {tr : TextTrace C} {w : TextTogether C} (h : LogHistory guess d tr w) {ends : Sid → Text → Text} (hs : Styled ends tr)
    (hc : TextCutsOnly ends d tr) (hl : lockers tr = []) : w.file = rotatedText C ends d tr := by
  obtain ⟨s, e1, e2⟩ := C124_unmarked hC he h
  rw [e2 hl]
  exact TextPooled.rotates e1 hs hc (LogHistory.no_lock h)

/-- C125 for text streams with any encoding, for logs that were begun and are not emptied: each stream is opened behind the start of the
file and not moved to an offset. -/
theorem C125_text_begun (hC : LawfulEncoder C) {guess : Nat × Nat → Nat → Nat} {d : Bytes} (hd : d ≠ [])
    {tr : TextTrace C} {w : TextTogether C} (h : LogHistory guess d tr w) {ends : Sid → Text → Text} (hs : Styled ends tr)
    (hk : ∀ x ∈ tr, CutBehind x.1) (hc : TextCutsOnly ends d tr) (hl : lockers tr = []) : w.file = rotatedText C ends d tr := by
  obtain ⟨pre, post, s, e1, e2, e3, e4⟩ := C124_serial_partial hC h
  rcases e4 with rfl | ⟨x, rest, rfl, hu⟩
  · rw [List.append_nil] at e1
    subst e1
    rw [e3 rfl hl]
    exact TextPooled.rotates e2 hs hc (LogHistory.no_lock h)
  · obtain ⟨g1, g2⟩ := TextPooled.behind e2 hd (fun x hm => hk x (by rw [e1]; exact List.mem_append_left _ hm))
      fun i b o hm => LogHistory.no_lock h i b o (by rw [e1]; exact List.mem_append_left _ hm)
    obtain ⟨it, o⟩ := x
    cases it with
    | did i op =>
      obtain ⟨v, hv, _, _, hn⟩ := hu
      exact absurd ⟨fun h0 => absurd h0 (g2 i v hv), fun h0 => absurd h0 g1⟩ hn
    | _ => exact hu.elim

/-- The same, together with the system that grants the locks. -/
theorem C125_text_locks (hC : LawfulEncoder C) (he : C.encInit = C.encMid) {guess : Nat × Nat → Nat → Nat} {d : Bytes} {u : Uid}
    {tr : TextTrace C} {t : TextTogether C} {ls : List Label} {w : World} {ev : List Event}
    (hj : TextJoint LogRules guess d u tr t ls w ev) {ends : Sid → Text → Text} (hs : Styled ends tr) (hc : TextCutsOnly ends d tr)
    (hl : lockers tr = []) : t.file = rotatedText C ends d tr :=
  C125_text_partial hC he (C124_locks hj) hs hc hl

/-- A process opens a log with the content `d`, writes to it, empties it, and writes to it again. -/
def wipedLog (C : Codec) (d : Bytes) : TextTrace C :=
  [(.opened (1, 0) (textLog C .auto .writer 8 d d.length []), .done), (.ask (1, 0), .done), (.granted (1, 0), .done),
    (.did (1, 0) (.write [65]), .num 1), (.did (1, 0) (.truncate (some 0)), .num 0), (.did (1, 0) (.write [66, 10]), .num 2),
    (.unlock (1, 0), .done)]

theorem wipedLog_proper (C : Codec) (d : Bytes) : AllLogProper [] (wipedLog C d) :=
  ⟨⟨by simp, .auto, [13, 10], .writer, _, textLog_opened C .auto (by simp) 8 (by omega) d d.length [] blocking_nil⟩,
    log_ask (by simp [lockers, lockStep]), ⟨by simp [lastCall, TextItem.stream], by simp [lockers, lockStep]⟩,
    ⟨by simp [lockers, lockStep], trivial, trivial⟩, ⟨by simp [lockers, lockStep], trivial, trivial⟩,
    ⟨by simp [lockers, lockStep], trivial, trivial⟩, log_unlock (by simp [lockers, lockStep]), trivial⟩

theorem wipedLog_styled (C : Codec) (d : Bytes) : Styled penEnds (wipedLog C d) := by
  intro i t o hm
  simp only [wipedLog, List.mem_cons, List.not_mem_nil, or_false, Prod.mk.injEq, TextItem.opened.injEq, reduceCtorEq, false_and] at hm
  obtain ⟨⟨rfl, rfl⟩, _⟩ := hm
  obtain ⟨h1, h2⟩ := textLog_style C .auto 8 (by omega) d d.length [] blocking_nil
  rw [h1, h2]; rfl

theorem wipedLog_cuts (ends : Sid → Text → Text) (C : Codec) (d d' : Bytes) : TextCutsOnly ends d' (wipedLog C d) := by
  refine ⟨by simp [wipedLog], fun pre i z o post e => ?_⟩
  have hm : (TextItem.did i (.truncate (some z)), o) ∈ wipedLog C d := by rw [e]; simp
  simp [wipedLog] at hm
  omega

-- a history as in `C125_text_partial`
example : LogHistory quotient [122] (wipedLog latin1 [122]) (replay quotient ⟨[122], fun _ => none⟩ (wipedLog latin1 [122])) ∧
    Styled penEnds (wipedLog latin1 [122]) ∧ TextCutsOnly penEnds [122] (wipedLog latin1 [122]) ∧
    (replay quotient ⟨[122], fun _ => none⟩ (wipedLog latin1 [122])).file = [66, 13, 10] := by
  refine ⟨?_, wipedLog_styled _ _, wipedLog_cuts _ _ _ _, by decide +kernel⟩
  have := replay_log (guess := quotient) (d := [122]) (wipedLog latin1 [122]) .start (by decide +kernel) (wipedLog_proper _ _)
  simpa using this

/-- As `wipedLog`, but two bytes are kept. -/
def trimmedLog (C : Codec) (d : Bytes) : TextTrace C :=
  [(.opened (1, 0) (textLog C .auto .writer 8 d d.length []), .done), (.ask (1, 0), .done), (.granted (1, 0), .done),
    (.did (1, 0) (.write [65]), .num 1), (.did (1, 0) (.truncate (some 2)), .num 2), (.did (1, 0) (.write [66, 10]), .num 2),
    (.unlock (1, 0), .done)]

-- a history as in `C125_text_begun`
example : LogHistory quotient [0xFF, 0xFE, 90, 0] (trimmedLog utf16 [0xFF, 0xFE, 90, 0])
      (replay quotient ⟨[0xFF, 0xFE, 90, 0], fun _ => none⟩ (trimmedLog utf16 [0xFF, 0xFE, 90, 0])) ∧
    Styled penEnds (trimmedLog utf16 [0xFF, 0xFE, 90, 0]) ∧ (∀ x ∈ trimmedLog utf16 [0xFF, 0xFE, 90, 0], CutBehind x.1) ∧
    TextCutsOnly penEnds [0xFF, 0xFE, 90, 0] (trimmedLog utf16 [0xFF, 0xFE, 90, 0]) ∧
    (replay quotient ⟨[0xFF, 0xFE, 90, 0], fun _ => none⟩ (trimmedLog utf16 [0xFF, 0xFE, 90, 0])).file =
      [0xFF, 0xFE, 66, 0, 13, 0, 10, 0] := by
  refine ⟨?_, ?_, ?_, ⟨by simp [trimmedLog], fun pre i z o post e => ?_⟩, by decide +kernel⟩
  · have := replay_log (guess := quotient) (d := [0xFF, 0xFE, 90, 0]) (trimmedLog utf16 [0xFF, 0xFE, 90, 0]) .start (by decide +kernel)
      ⟨⟨by simp, .auto, [13, 10], .writer, _, textLog_opened _ .auto (by simp) 8 (by omega) _ _ [] blocking_nil⟩,
        log_ask (by simp [lockers, lockStep]), ⟨by simp [lastCall, TextItem.stream], by simp [lockers, lockStep]⟩,
        ⟨by simp [lockers, lockStep], trivial, trivial⟩, ⟨by simp [lockers, lockStep], trivial, trivial⟩,
        ⟨by simp [lockers, lockStep], trivial, trivial⟩, log_unlock (by simp [lockers, lockStep]), trivial⟩
    simpa using this
  · intro i t o hm
    simp only [trimmedLog, List.mem_cons, List.not_mem_nil, or_false, Prod.mk.injEq, TextItem.opened.injEq, reduceCtorEq, false_and] at hm
    obtain ⟨⟨rfl, rfl⟩, _⟩ := hm
    obtain ⟨h1, h2⟩ := textLog_style utf16 .auto 8 (by omega) [0xFF, 0xFE, 90, 0] 4 [] blocking_nil
    rw [List.length_cons, List.length_cons, List.length_cons, List.length_cons, List.length_nil, h1, h2]; rfl
  · simp [trimmedLog, CutBehind, KeptBehind]
    decide +kernel
  · match pre, e with
    | [_, _, _, _], e => cases e; decide +kernel
    | [], e => cases e
    | [_], e => cases e
    | [_, _], e => cases e
    | [_, _, _], e => cases e
    | _ :: _ :: _ :: _ :: _ :: pre, e =>
      have hm : (TextItem.did i (.truncate (some z)), o) ∈ (trimmedLog utf16 [0xFF, 0xFE, 90, 0]).drop 5 := by
        rw [e]; simp
      simp [trimmedLog] at hm

/-- The claim of C125 for text streams with any encoding. -/
def RotatesText : Prop :=
  ∀ {C : Codec}, LawfulEncoder C → ∀ {guess : Nat × Nat → Nat → Nat} {d : Bytes} {tr : TextTrace C} {w : TextTogether C},
    LogHistory guess d tr w → ∀ {ends : Sid → Text → Text}, Styled ends tr → TextCutsOnly ends d tr → lockers tr = [] →
    w.file = rotatedText C ends d tr

/-- C125 is false for encodings that begin files with a mark: a log that was emptied gets no mark, although one process alone uses it. -/
theorem C125_text_refuted : ¬ RotatesText := by
  intro hall
  have h := replay_log (guess := quotient) (d := []) (wipedLog utf16 []) .start (by decide +kernel) (wipedLog_proper _ _)
  have h1 := hall utf16_encoder h (wipedLog_styled _ _) (wipedLog_cuts _ _ _ _) (by simp [wipedLog, lockers, lockStep])
  have hf : (replay quotient ⟨[], fun _ => none⟩ (wipedLog utf16 [])).file = [66, 0, 13, 0, 10, 0] := by decide +kernel
  have hr : rotatedText utf16 penEnds [] (wipedLog utf16 []) = [0xFF, 0xFE, 66, 0, 13, 0, 10, 0] := by
    simp only [rotatedText, wipedLog, List.foldl_cons, List.foldl_nil, rotateText]
    decide +kernel
  rw [List.nil_append, hf, hr] at h1
  revert h1
  decide

end Verif.Props
