import Verif.Lemmas.PortedTogether
import Verif.Lemmas.WinRuns
import Verif.Props.Together
import Verif.Props.Ported
import Verif.Props.WinSystem

/-!
# C114: critical sections on several buffered streams on windows
-/

set_option autoImplicit false

namespace Verif.Props

open Verif Verif.Spec

/-- C114 (partial): programs on windows that use a stream only while it holds a lock on the file see one byte array with a
position for each stream; and when nobody holds an exclusive lock, the array is the file.  Missing: what comes after a call
that the code gets wrong even on one stream (`Common.WinUnsafe`, see C93), gaps that do not read as zeros
(`C114_gap_refuted`), and `with` blocks that do not flush (`C114_with_refuted`). -/
theorem C114_serial_partial {h : List Item} (hd : WinDisciplined h) (d : Bytes) :
    ∃ pre post s, h = pre ++ post ∧ Serially (.start d) ((beforehand d).play pre).1 s ∧
      ((∀ i, (i, false) ∉ holding pre) → ((beforehand d).play pre).2.file = s.data) ∧
      (post = [] ∨ ∃ it rest, post = it :: rest ∧ s.WinUnsafe it) := by
  obtain ⟨pre, post, s, e1, _, e2, e3, _, e4⟩ := WinDisciplined.history hd d
  exact ⟨pre, post, s, e1, e2, fun hn => e3.file (by rw [holding_ported]; exact hn), e4⟩

/-- C114 without exception, when every stream is opened for reading only or for writing only, and `truncate` is not used. -/
theorem C114_one_way {h : List Item} (hd : WinDisciplined h) (d : Bytes)
    (hk : ∀ i b, Item.opened i b ∈ h → b.kind ≠ .random) (ht : ∀ i n, Item.did i (.truncate n) ∉ h) :
    ∃ s, Serially (.start d) ((beforehand d).play h).1 s ∧
      ((∀ i, (i, false) ∉ holding h) → ((beforehand d).play h).2.file = s.data) := by
  obtain ⟨pre, post, s, rfl, e1, e2, e3⟩ := C114_serial_partial hd d
  rcases e3 with rfl | ⟨it, rest, rfl, e3⟩
  · rw [List.append_nil]; exact ⟨s, e1, e2⟩
  · have hkk := Serially.kinds e1 (fun i b out hm => hk i b (List.mem_append_left _ (by
      rw [← play_items (beforehand d) pre]; exact List.mem_map_of_mem hm)))
    cases it with
    | did i op =>
      cases op with
      | truncate n => exact absurd (by simp) (ht i n)
      | seek o w => exact absurd (e3.elim (fun h => h.1) False.elim) (hkk i)
      | _ => exact (e3.elim id id).elim
    | _ => exact e3.elim

/-! ## With the system that grants the locks -/

theorem WinJoint.reach {u : Uid} {h : List Item} {ls : List Win.Label} {w : Win.World} {tr : List Event}
    (hj : WinJoint u h ls w tr) : Win.Reach Win.Sane ls w tr := by
  induction hj with
  | init => exact .init
  | system _ hw hs _ ih => exact ih.step hw hs
  | item _ _ _ ih => exact ih

theorem WinJoint.disciplined {u : Uid} {h : List Item} {ls : List Win.Label} {w : Win.World} {tr : List Event}
    (hj : WinJoint u h ls w tr) : WinDisciplined h := by
  induction hj with
  | init => exact .nil
  | system _ _ _ _ ih => exact ih
  | @item h ls w tr it hj hp hh ih =>
    refine .snoc ih hp fun a ha b hb hne => ?_
    have hr := WinJoint.reach hj
    obtain ⟨x, x1, x2, x3, x4, x5⟩ := hh a ha
    obtain ⟨y, y1, y2, y3, y4, y5⟩ := hh b hb
    have hs : (x.pid, x.sid) ≠ (y.pid, y.sid) := by rw [x3, y3]; exact hne
    have hs' : (y.pid, y.sid) ≠ (x.pid, x.sid) := fun he => hs he.symm
    have hu : x.uid = y.uid := x2.trans y2.symm
    rw [← x4, ← y4]
    cases hxs : x.shared with
    | false => exact absurd ⟨y5, x5⟩ (C76_excludes_partial hr y1 x1 hxs hu.symm hs' 0 (by decide))
    | true =>
      cases hys : y.shared with
      | false => exact absurd ⟨x5, y5⟩ (C76_excludes_partial hr x1 y1 hys hu hs 0 (by decide))
      | true => exact ⟨rfl, rfl⟩

/-- C114, together with the processes, threads, registries and kernel of windows: any interleaving of disciplined programs
with shared and exclusive locks, in any number of processes, behaves as one byte array.  Unlike on unix
(`C75_shared_partial`), streams of one process may share a lock.  (Up to the first call that the code gets wrong on one
stream; under the assumptions of C76.) -/
theorem C114_locks_partial {u : Uid} {h : List Item} {ls : List Win.Label} {w : Win.World} {tr : List Event}
    (hj : WinJoint u h ls w tr) (d : Bytes) :
    ∃ pre post s, h = pre ++ post ∧ Serially (.start d) ((beforehand d).play pre).1 s ∧
      ((∀ i, (i, false) ∉ holding pre) → ((beforehand d).play pre).2.file = s.data) ∧
      (post = [] ∨ ∃ it rest, post = it :: rest ∧ s.WinUnsafe it) :=
  C114_serial_partial (WinJoint.disciplined hj) d

/-! ## Examples -/

theorem winBuf_fresh (k : BufKind) : WinFresh (winBuf k 8 (fun _ => 0) [] []) :=
  ⟨⟨_, _, _, (winBuf_ok k 8 (by decide) _ [] []).1⟩, rfl, fun _ => rfl, rfl, rfl, by simp [Blocking, winBuf, winRaw]⟩

/-- A stream of process 1 writes in a critical section; then two streams of process 1 share a lock and read. -/
def winSections : List Item :=
  [.opened (1, 10) (winBuf .writer 8 (fun _ => 0) [] []), .opened (1, 11) (winBuf .reader 8 (fun _ => 0) [] []),
    .opened (1, 12) (winBuf .reader 8 (fun _ => 0) [] []), .ask (1, 10), .granted (1, 10) false,
    .did (1, 10) (.write [65, 66]), .unlock (1, 10), .ask (1, 11), .granted (1, 11) true, .ask (1, 12), .granted (1, 12) true,
    .did (1, 11) (.read none), .did (1, 12) (.read none)]

/-- The lock system goes on while no program relies on a lock. -/
theorem WinJoint.run {u : Uid} {h : List Item} (hh : holding h = []) {ls : List Win.Label} :
    ∀ {ls₀ : List Win.Label} {w₀ w : Win.World} {tr₀ tr : List Event}, WinJoint u h ls₀ w₀ tr₀ →
      Win.checkedFrom (fun pre w l => Win.wrappedB pre w l && Win.singleB w l && Win.fitsB l) ls₀ w₀ tr₀ ls = some (w, tr) →
      WinJoint u h (ls₀ ++ ls) w tr := by
  induction ls with
  | nil =>
    intro ls₀ w₀ w tr₀ tr hj h'
    simp only [Win.checkedFrom, Option.some.injEq, Prod.mk.injEq] at h'
    obtain ⟨rfl, rfl⟩ := h'
    simpa using hj
  | cons l ls ih =>
    intro ls₀ w₀ w tr₀ tr hj h'
    simp only [Win.checkedFrom] at h'
    split at h'
    · rename_i hl
      simp only [Bool.and_eq_true] at hl
      split at h'
      · rename_i w₁ e hs
        have := ih (hj.system ⟨Win.wrapped_of_B (WinJoint.reach hj) hl.1.1, Win.single_of_B hl.1.2, Win.fits_of_B hl.2⟩ hs
          (by rw [hh]; nofun)) h'
        simpa using this
      · cases h'
    · cases h'

/-- What the lock system does before the first, and between the first and the second critical section. -/
def winBefore₁ : List Win.Label :=
  [.newProc 1, .act 1 (.openS 10 100 (0, 7)), .act 1 (.openS 11 104 (0, 7)), .act 1 (.openS 12 108 (0, 7))]
    ++ Win.doLock 1 0 10 none 0 false
def winBefore₂ : List Win.Label := Win.doUnlock 1 10 none 0 ++ Win.doLock 1 0 11 none 0 true ++ Win.doLock 1 1 12 none 0 true

/-- The three critical sections with the lock system. -/
theorem winSections_joint : ∃ ls w tr, WinJoint (0, 7) winSections ls w tr := by
  have e1 : (Win.sane winBefore₁).map (fun x => heldOf x.2) = some [⟨1, 10, (0, 7), false, 0, none⟩] := by decide +kernel
  have e2 : ((Win.sane winBefore₁).bind (fun x => Win.checkedFrom (fun pre w l => Win.wrappedB pre w l && Win.singleB w l &&
      Win.fitsB l) winBefore₁ x.1 x.2 winBefore₂)).map (fun x => heldOf x.2) =
      some [⟨1, 11, (0, 7), true, 0, none⟩, ⟨1, 12, (0, 7), true, 0, none⟩] := by decide +kernel
  cases hr1 : Win.sane winBefore₁ with
  | none => rw [hr1] at e1; cases e1
  | some x =>
    rw [hr1] at e1 e2
    simp only [Option.map_some, Option.some.injEq] at e1
    simp only [Option.bind_some] at e2
    cases hr2 : Win.checkedFrom (fun pre w l => Win.wrappedB pre w l && Win.singleB w l && Win.fitsB l) winBefore₁ x.1 x.2
        winBefore₂ with
    | none => rw [hr2] at e2; cases e2
    | some y =>
      rw [hr2] at e2
      simp only [Option.map_some, Option.some.injEq] at e2
      have none (tr : List Event) (h : List Item) (hh : holding h = []) : HeldIn (0, 7) tr (holding h) := by
        rw [hh]; nofun
      have one (h : List Item) (hh : holding h = [((1, 10), false)]) : HeldIn (0, 7) x.2 (holding h) := by
        rw [hh]
        intro a ha
        rw [List.mem_singleton] at ha
        subst ha
        exact ⟨_, by rw [e1]; exact List.mem_cons_self, rfl, rfl, rfl, by simp [Covers]⟩
      have two (h : List Item) (hh : ∀ a ∈ holding h, a = ((1, 11), true) ∨ a = ((1, 12), true)) :
          HeldIn (0, 7) y.2 (holding h) := by
        intro a ha
        rcases hh a ha with rfl | rfl
        · exact ⟨⟨1, 11, (0, 7), true, 0, .none⟩, by rw [e2]; simp, rfl, rfl, rfl, by simp [Covers]⟩
        · exact ⟨⟨1, 12, (0, 7), true, 0, .none⟩, by rw [e2]; simp, rfl, rfl, rfl, by simp [Covers]⟩
      have j0 : WinJoint (0, 7) [] winBefore₁ x.1 x.2 := WinJoint.run (ls := winBefore₁) rfl .init hr1
      have j1 : WinJoint (0, 7) (winSections.take 1) _ x.1 x.2 :=
        .item (h := []) j0 ⟨by simp [openIn], winBuf_fresh _⟩ (none _ _ rfl)
      have j2 : WinJoint (0, 7) (winSections.take 2) _ x.1 x.2 :=
        .item (h := winSections.take 1) j1 ⟨by simp [winSections, openIn, openStep], winBuf_fresh _⟩ (none _ _ rfl)
      have j3 : WinJoint (0, 7) (winSections.take 3) _ x.1 x.2 :=
        .item (h := winSections.take 2) j2 ⟨by simp [winSections, openIn, openStep], winBuf_fresh _⟩ (none _ _ rfl)
      have j4 : WinJoint (0, 7) (winSections.take 4) _ x.1 x.2 :=
        .item (h := winSections.take 3) j3 ⟨by simp [winSections, openIn, openStep], by simp [winSections, holding, holdStep]⟩
          (none _ _ rfl)
      have j5 : WinJoint (0, 7) (winSections.take 5) _ x.1 x.2 :=
        .item (h := winSections.take 4) j4 ⟨by simp [winSections, openIn, openStep], rfl⟩ (one _ rfl)
      have j6 : WinJoint (0, 7) (winSections.take 6) _ x.1 x.2 :=
        .item (h := winSections.take 5) j5 (Or.inr ⟨trivial, by simp [winSections, holding, holdStep]⟩) (one _ rfl)
      have j7 : WinJoint (0, 7) (winSections.take 7) _ x.1 x.2 :=
        .item (h := winSections.take 6) j6 ⟨false, by simp [winSections, holding, holdStep]⟩ (none _ _ rfl)
      have j7' : WinJoint (0, 7) (winSections.take 7) _ y.1 y.2 := WinJoint.run (ls := winBefore₂) rfl j7 hr2
      have j8 : WinJoint (0, 7) (winSections.take 8) _ y.1 y.2 :=
        .item (h := winSections.take 7) j7' ⟨by simp [winSections, openIn, openStep], by simp [winSections, holding, holdStep]⟩
          (none _ _ rfl)
      have j9 : WinJoint (0, 7) (winSections.take 9) _ y.1 y.2 :=
        .item (h := winSections.take 8) j8 ⟨by simp [winSections, openIn, openStep], rfl⟩
          (two _ (by simp [winSections, holding, holdStep]))
      have j10 : WinJoint (0, 7) (winSections.take 10) _ y.1 y.2 :=
        .item (h := winSections.take 9) j9 ⟨by simp [winSections, openIn, openStep], by simp [winSections, holding, holdStep]⟩
          (two _ (by simp [winSections, holding, holdStep]))
      have j11 : WinJoint (0, 7) (winSections.take 11) _ y.1 y.2 :=
        .item (h := winSections.take 10) j10 ⟨by simp [winSections, openIn, openStep], rfl⟩
          (two _ (by simp [winSections, holding, holdStep]))
      have j12 : WinJoint (0, 7) (winSections.take 12) _ y.1 y.2 :=
        .item (h := winSections.take 11) j11 (Or.inl ⟨trivial, true, by simp [winSections, holding, holdStep]⟩)
          (two _ (by simp [winSections, holding, holdStep]))
      exact ⟨_, _, _, .item (h := winSections.take 12) j12 (Or.inl ⟨trivial, true, by simp [winSections, holding, holdStep]⟩)
        (two _ (by simp [winSections, holding, holdStep]))⟩

-- both readers, which share a lock in one process, get what the writer wrote
example : (∃ ls w tr, WinJoint (0, 7) winSections ls w tr) ∧
    (((beforehand []).play winSections).1.map Prod.snd).drop 11 = [.bytes [65, 66], .bytes [65, 66]] ∧
    ∃ s, Serially (.start []) ((beforehand []).play winSections).1 s := by
  obtain ⟨ls, w, tr, hj⟩ := winSections_joint
  refine ⟨⟨ls, w, tr, hj⟩, by decide +kernel, ?_⟩
  refine (C114_one_way (WinJoint.disciplined hj) [] ?_ (by simp [winSections])).imp fun _ h => h.1
  intro i b hb
  simp only [winSections, List.mem_cons, Item.opened.injEq, List.not_mem_nil, or_false, reduceCtorEq] at hb
  rcases hb with ⟨_, rfl⟩ | ⟨_, rfl⟩ | ⟨_, rfl⟩ <;> nofun

/-! ## Refutations -/

/-- A stream moves beyond the end of the empty file and writes, in a critical section. -/
def winGap : List Item :=
  [.opened (1, 10) (winBuf .writer 8 (fun _ => 7) [] []), .ask (1, 10), .granted (1, 10) false, .did (1, 10) (.seek 1 .set),
    .did (1, 10) (.write [65]), .unlock (1, 10)]

/-- C114 is false of gaps where the system does not fill them with zeros: a stream that was opened like the others but
for that, and used in a critical section, leaves something else in the file. -/
theorem C114_gap_refuted : (∃ k n raw, Buf.create k n raw = .ok (winBuf .writer 8 (fun _ => 7) [] [])) ∧
    (∀ n, 0 < n → ∀ it, winGap[n]? = some it → WinProper (winGap.take n) it) ∧
    (∀ i sh, (i, sh) ∉ holding winGap) ∧
    ((beforehand []).play winGap).1.map Prod.snd = [.done, .done, .done, .num 1, .num 1, .done] ∧
    ¬ ∃ s, Serially (.start []) ((beforehand []).play winGap).1 s ∧ ((beforehand []).play winGap).2.file = s.data := by
  have hout : ((beforehand []).play winGap).1.map Prod.snd = [.done, .done, .done, .num 1, .num 1, .done] := by decide +kernel
  refine ⟨⟨_, _, _, (winBuf_ok .writer 8 (by decide) _ [] []).1⟩, ?_, by simp [winGap, holding, holdStep], hout, ?_⟩
  · intro n hn it hi
    have : n = 1 ∨ n = 2 ∨ n = 3 ∨ n = 4 ∨ n = 5 ∨ 6 ≤ n := by omega
    rcases this with rfl | rfl | rfl | rfl | rfl | h6
    · obtain rfl : Item.ask (1, 10) = it := by simpa [winGap] using hi
      exact ⟨by simp [winGap, openIn, openStep], by simp [winGap, holding, holdStep]⟩
    · obtain rfl : Item.granted (1, 10) false = it := by simpa [winGap] using hi
      exact ⟨by simp [winGap, openIn, openStep], rfl⟩
    · obtain rfl : Item.did (1, 10) (.seek 1 .set) = it := by simpa [winGap] using hi
      exact Or.inl ⟨trivial, false, by simp [winGap, holding, holdStep]⟩
    · obtain rfl : Item.did (1, 10) (.write [65]) = it := by simpa [winGap] using hi
      exact Or.inr ⟨trivial, by simp [winGap, holding, holdStep]⟩
    · obtain rfl : Item.unlock (1, 10) = it := by simpa [winGap] using hi
      exact ⟨false, by simp [winGap, holding, holdStep]⟩
    · rw [List.getElem?_eq_none (by simp only [winGap, List.length_cons, List.length_nil]; omega)] at hi
      cases hi
  · rintro ⟨s, hs, hf⟩
    have hp : ((beforehand []).play winGap).1 = winGap.zip [.done, .done, .done, .num 1, .num 1, .done] := by
      rw [← hout]
      conv => rhs; arg 1; rw [← play_items (beforehand []) winGap]
      rw [List.zip_map', List.map_id'']
      intro x; rfl
    rw [hp] at hs
    obtain ⟨s5, h5, t6⟩ := Serially.last (tr := (winGap.take 5).zip [.done, .done, .done, .num 1, .num 1]) hs
    obtain ⟨s4, h4, t5⟩ := Serially.last (tr := (winGap.take 4).zip [.done, .done, .done, .num 1]) h5
    obtain ⟨s3, h3, t4⟩ := Serially.last (tr := (winGap.take 3).zip [.done, .done, .done]) h4
    obtain ⟨s2, h2, t3⟩ := Serially.last (tr := (winGap.take 2).zip [.done, .done]) h3
    obtain ⟨s1, h1, t2⟩ := Serially.last (tr := (winGap.take 1).zip [.done]) h2
    obtain ⟨s0, h0, t1⟩ := Serially.last (tr := []) h1
    obtain rfl := Serially.none h0
    obtain ⟨_, rfl⟩ := t1
    obtain ⟨_, rfl⟩ := t2
    obtain ⟨_, rfl⟩ := t3
    obtain ⟨_, f4, t4, rfl⟩ := t4
    obtain ⟨_, f5, t5, rfl⟩ := t5
    obtain ⟨_, rfl⟩ := t6
    have hfile : ((beforehand []).play winGap).2.file = [7, 65] := by decide +kernel
    rw [hfile] at hf
    simp [Allowed, Common.view, Common.after, Common.start, winBuf, winRaw, File.target] at t4
    subst t4
    simp [Allowed, Common.view, Common.after, Common.start, winBuf, winRaw, put] at t5
    subst t5
    simp [Common.after] at hf
    exact absurd hf (by decide)

/-- A critical section that is a `with` block, and writes. -/
def winWith : List Item :=
  [.opened (1, 10) (winBuf .writer 8 (fun _ => 0) [] []), .ask (1, 10), .granted (1, 10) false, .did (1, 10) (.write [65]),
    .exit (1, 10)]

/-- C114 is false of `with f.lock_file():` blocks that do not end with a `flush`: after the block nobody holds a lock, and
the file does not have the bytes that were written. -/
theorem C114_with_refuted : WinDisciplined (winWith.take 4) ∧ ((1, 10), false) ∈ holding (winWith.take 4) ∧
    holding winWith = [] ∧ ((beforehand []).play winWith).1.map Prod.snd = [.done, .done, .done, .num 1, .done] ∧
    ¬ ∃ s, Serially (.start []) ((beforehand []).play winWith).1 s ∧ ((beforehand []).play winWith).2.file = s.data := by
  have hout : ((beforehand []).play winWith).1.map Prod.snd = [.done, .done, .done, .num 1, .done] := by decide +kernel
  refine ⟨?_, by simp [winWith, holding, holdStep], rfl, hout, ?_⟩
  · have h1 : WinDisciplined (winWith.take 1) :=
      .snoc (h := []) .nil ⟨by simp [openIn], winBuf_fresh _⟩ (by simp [Exclusion, holding, holdStep])
    have h2 : WinDisciplined (winWith.take 2) :=
      .snoc (h := winWith.take 1) h1 ⟨by simp [winWith, openIn, openStep], by simp [winWith, holding, holdStep]⟩
        (by simp [winWith, Exclusion, holding, holdStep])
    have h3 : WinDisciplined (winWith.take 3) :=
      .snoc (h := winWith.take 2) h2 ⟨by simp [winWith, openIn, openStep], rfl⟩ (by simp [winWith, Exclusion, holding, holdStep])
    exact .snoc (h := winWith.take 3) h3 (Or.inr ⟨trivial, by simp [winWith, holding, holdStep]⟩)
      (by simp [winWith, Exclusion, holding, holdStep])
  · rintro ⟨s, hs, hf⟩
    have hp : ((beforehand []).play winWith).1 = winWith.zip [.done, .done, .done, .num 1, .done] := by
      rw [← hout]
      conv => rhs; arg 1; rw [← play_items (beforehand []) winWith]
      rw [List.zip_map', List.map_id'']
      intro x; rfl
    rw [hp] at hs
    obtain ⟨s4, h4, t5⟩ := Serially.last (tr := (winWith.take 4).zip [.done, .done, .done, .num 1]) hs
    obtain ⟨s3, h3, t4⟩ := Serially.last (tr := (winWith.take 3).zip [.done, .done, .done]) h4
    obtain ⟨s2, h2, t3⟩ := Serially.last (tr := (winWith.take 2).zip [.done, .done]) h3
    obtain ⟨s1, h1, t2⟩ := Serially.last (tr := (winWith.take 1).zip [.done]) h2
    obtain ⟨s0, h0, t1⟩ := Serially.last (tr := []) h1
    obtain rfl := Serially.none h0
    obtain ⟨_, rfl⟩ := t1
    obtain ⟨_, rfl⟩ := t2
    obtain ⟨_, rfl⟩ := t3
    obtain ⟨_, f4, t4, rfl⟩ := t4
    obtain ⟨_, rfl⟩ := t5
    have hfile : ((beforehand []).play winWith).2.file = [] := by decide +kernel
    rw [hfile] at hf
    simp [Allowed, Common.view, Common.after, Common.start, winBuf, winRaw, put] at t4
    subst t4
    simp [Common.after] at hf

end Verif.Props
