import Verif.Lemmas.PortedAppend
import Verif.Props.AppendTogether
import Verif.Props.WinTogether

/-!
# C123 on windows
-/

set_option autoImplicit false

namespace Verif.Props

open Verif Verif.Spec

theorem holding_split {h pre post : List Item} (e : h.map Item.ported = pre ++ post) :
    ∃ pre' post', h = pre' ++ post' ∧ pre'.map Item.ported = pre ∧ post'.map Item.ported = post :=
  have ⟨a, b, h1, h2, h3⟩ := List.map_eq_append_iff.1 e
  ⟨a, b, h1, h2, h3⟩

theorem WinDisciplinedAny.prefix {h pre post : List Item} (hd : WinDisciplinedAny h) (e : h = pre ++ post) : WinDisciplinedAny pre := by
  induction hd generalizing post with
  | nil =>
    obtain ⟨rfl, rfl⟩ := List.append_eq_nil_iff.1 e.symm
    exact .nil
  | @snoc h it hd hp hx ih =>
    rcases List.eq_nil_or_concat post with rfl | ⟨p, x, rfl⟩
    · rw [List.append_nil] at e; subst e; exact .snoc hd hp hx
    · rw [List.concat_eq_append, ← List.append_assoc] at e
      exact ih (List.append_inj' e rfl).1

/-- C123 on windows.  (Under the assumptions of C93.)  Missing: the calls of `C123_serial_partial` and `truncate` to a larger size. -/
theorem C123_windows_partial {h : List Item} (hd : WinDisciplinedAny h) (d : Bytes) :
    ∃ pre post s, h = pre ++ post ∧ Pooled (.start d) ((beforehand d).play pre).1 s ∧
      ((∀ i, (i, false) ∉ holding pre) → ((beforehand d).play pre).2.file = s.data) ∧
      (post = [] ∨ ∃ it rest, post = it :: rest ∧ s.WinUnsafe it) := by
  obtain ⟨pre, post, s, e1, _, e2, e3, _, e4⟩ := WinDisciplinedAny.history hd d
  exact ⟨pre, post, s, e1, e2, fun hn => e3.file (by rw [holding_ported]; exact hn), e4⟩

/-- C123 on windows without exception, as `C123_one_way`, when files are cut only to nothing. -/
theorem C123_windows_one_way {h : List Item} (hd : WinDisciplinedAny h) (d : Bytes)
    (hk : ∀ i b, Item.opened i b ∈ h → b.kind ≠ .random) (ht : ∀ i, Item.did i .tell ∉ h)
    (hc : ∀ i a, Item.did i (.truncate a) ∈ h → a = some 0) :
    ∃ s, Pooled (.start d) ((beforehand d).play h).1 s ∧
      ((∀ i, (i, false) ∉ holding h) → ((beforehand d).play h).2.file = s.data) := by
  obtain ⟨pre, post, s, rfl, e1, e2, e3⟩ := C123_windows_partial hd d
  rcases e3 with rfl | ⟨it, rest, rfl, e3⟩
  · rw [List.append_nil]; exact ⟨s, e1, e2⟩
  · have hkk := Pooled.kinds e1 (fun i b out hm => hk i b (List.mem_append_left _ (by
      rw [← play_items (beforehand d) pre]; exact List.mem_map_of_mem hm)))
    cases it with
    | did i op =>
      rcases e3 with (⟨_, hu | ⟨_, rfl | ⟨hr, _⟩⟩⟩ | ⟨_, hu⟩) | hs
      · exact absurd (Unsafe.random hu) (hkk i)
      · exact absurd (by simp) (ht i)
      · exact absurd hr (hkk i)
      · exact absurd (Unsafe.random hu) (hkk i)
      · cases op with
        | truncate a =>
          obtain rfl := hc i a (by simp)
          obtain ⟨_, hs⟩ := hs
          simp only [Option.getD_some] at hs
          omega
        | _ => exact hs.elim
    | _ => exact e3.elim

/-- C123 for logs on windows. -/
theorem C123_windows_log {h : List Item} (hd : WinDisciplinedAny h) (d : Bytes) (hp : ∀ it ∈ h, Posts it)
    (hn : ∀ i, (i, false) ∉ holding h) : ((beforehand d).play h).2.file = d ++ posted h := by
  obtain ⟨_, k2, _, k4⟩ := Together.play_ports hd (fun i a hc => hp _ hc) d
  have k2 : ((beforehand d).play (h.map Item.ported)).2 = _ := k2
  have := (C123_log k4 d (fun it hi => by
    obtain ⟨x, hx, rfl⟩ := List.mem_map.1 hi
    have := hp x hx
    cases x <;> exact this)).2 (by rw [holding_ported]; exact hn)
  rw [k2] at this
  refine this.trans ?_
  congr 1
  unfold posted
  rw [List.flatMap_map]
  congr 1
  funext x
  cases x <;> rfl

/-! ## With the system that grants the locks -/

theorem WinJointAny.reach {u : Uid} {h : List Item} {ls : List Win.Label} {w : Win.World} {tr : List Event}
    (hj : WinJointAny u h ls w tr) : Win.Reach Win.Sane ls w tr := by
  induction hj with
  | init => exact .init
  | system _ hw hs _ ih => exact ih.step hw hs
  | item _ _ _ ih => exact ih

theorem WinJointAny.disciplined {u : Uid} {h : List Item} {ls : List Win.Label} {w : Win.World} {tr : List Event}
    (hj : WinJointAny u h ls w tr) : WinDisciplinedAny h := by
  induction hj with
  | init => exact .nil
  | system _ _ _ _ ih => exact ih
  | @item h ls w tr it hj hp hh ih =>
    refine .snoc ih hp fun a ha b hb hne => ?_
    have hr := WinJointAny.reach hj
    obtain ⟨x, x1, x2, x3, x4, x5⟩ := hh a ha
    obtain ⟨y, y1, y2, y3, y4, y5⟩ := hh b hb
    have hs : (x.pid, x.sid) ≠ (y.pid, y.sid) := by rw [x3, y3]; exact hne
    have hs' : (y.pid, y.sid) ≠ (x.pid, x.sid) := fun he => hs he.symm
    have hu : x.uid = y.uid := x2.trans y2.symm
    rw [← x4, ← y4]
    cases hxs : x.shared with
    | false => exact absurd ⟨y5, x5⟩ (C76_excludes_partial hr y1 x1 hxs hu.symm hs' 0 (by decide))
    | true =>
      cases hys : y.shared with
      | false => exact absurd ⟨x5, y5⟩ (C76_excludes_partial hr x1 y1 hys hu hs 0 (by decide))
      | true => exact ⟨rfl, rfl⟩

/-- C123 for logs, together with the processes, threads, registries and kernel of windows. -/
theorem C123_windows_log_locks {u : Uid} {h : List Item} {ls : List Win.Label} {w : Win.World} {tr : List Event}
    (hj : WinJointAny u h ls w tr) (d : Bytes) (hp : ∀ it ∈ h, Posts it) (hn : ∀ i, (i, false) ∉ holding h) :
    ((beforehand d).play h).2.file = d ++ posted h :=
  C123_windows_log (WinJointAny.disciplined hj) d hp hn

/-! ## Cases -/

/-- A stream of windows opened on an empty file to append to it. -/
def winAppender : Buf := ⟨.writer, 8, winLogOf [] 0 [], [], 0, []⟩

theorem winAppender_fresh : WinFreshAny winAppender :=
  ⟨⟨_, _, _, (winLogOf_ok .writer 8 (by decide) nofun [] 0 []).created⟩, rfl, fun _ => rfl, rfl,
    by simp [Blocking, winAppender, winLogOf, logOf], fun _ => nofun⟩

theorem winTwoLogs_ok {b : Buf} (hb : WinFreshAny b) {op : StreamOp} (hop : Inquires op) : WinDisciplinedAny (twoLogs b op) := by
  have h1 := WinDisciplinedAny.nil.snoc (it := .opened (1, 10) b) ⟨by simp [openIn], hb⟩ (by simp [Exclusion, holding, holdStep])
  have h2 := h1.snoc (it := .opened (2, 20) b) ⟨by simp [openIn, openStep], hb⟩ (by simp [Exclusion, holding, holdStep])
  have h3 := h2.snoc (it := .ask (1, 10)) ⟨by simp [openIn, openStep], by simp [holding, holdStep]⟩ (by simp [Exclusion, holding, holdStep])
  have h4 := h3.snoc (it := .granted (1, 10) false) ⟨by simp [openIn, openStep], by simp [lastOf, streamOf]⟩ (by simp [Exclusion, holding, holdStep])
  have h5 := h4.snoc (it := .did (1, 10) (.write [65, 66])) (.inr ⟨trivial, by simp [holding, holdStep]⟩) (by simp [Exclusion, holding, holdStep])
  have h6 := h5.snoc (it := .unlock (1, 10)) ⟨false, by simp [holding, holdStep]⟩ (by simp [Exclusion, holding, holdStep])
  have h7 := h6.snoc (it := .ask (2, 20)) ⟨by simp [openIn, openStep], by simp [holding, holdStep]⟩ (by simp [Exclusion, holding, holdStep])
  have h8 := h7.snoc (it := .granted (2, 20) false) ⟨by simp [openIn, openStep], by simp [lastOf, streamOf]⟩ (by simp [Exclusion, holding, holdStep])
  have h9 := h8.snoc (it := .did (2, 20) (.write [67])) (.inr ⟨trivial, by simp [holding, holdStep]⟩) (by simp [Exclusion, holding, holdStep])
  have h10 := h9.snoc (it := .did (2, 20) op) (.inl ⟨hop, false, by simp [holding, holdStep]⟩) (by simp [Exclusion, holding, holdStep])
  have h11 := h10.snoc (it := .unlock (2, 20)) ⟨false, by simp [holding, holdStep]⟩ (by simp [Exclusion, holding, holdStep])
  exact h11

example : WinDisciplinedAny (twoLogs winAppender .flush) ∧ (∀ it ∈ twoLogs winAppender .flush, Posts it) ∧
    ((beforehand []).play (twoLogs winAppender .flush)).2.file = [65, 66, 67] :=
  ⟨winTwoLogs_ok winAppender_fresh trivial, by simp [twoLogs, Posts, winAppender, winLogOf, logOf], by decide +kernel⟩

end Verif.Props
