import Verif.Lemmas.PortedTextCut
import Verif.Props.TextLocks
import Verif.Props.Rotation

/-!
# C124 and C125: text streams in append mode that cut their file, on windows
-/

set_option autoImplicit false

namespace Verif.Props

open Verif Verif.Spec Verif.Txt

variable {C : Codec} {guess : Nat × Nat → Nat → Nat} {d : Bytes}

/-- C124 on windows with `truncate`: streams that take turns are like pens over one array, and those that wait for the lock need no
transfer.
Missing: `sync`; writes with a mark at the start of the file, as on unix; and `truncate` to a larger size, see `Stretches`. -/
theorem C124_windows_cut_partial (hC : LawfulEncoder C) {tr : TextTrace C} {w : TextTogether C} (h : WinCutRun guess d tr w) :
    ∃ pre post s, tr = pre ++ post ∧ TextPooled C (.start d) pre s ∧
      (post = [] → (lockers tr = [] → w.file = s.data) ∧ ∀ i, i ∉ lockers tr → Prepares guess w i) ∧
      (post = [] ∨ ∃ x rest, post = x :: rest ∧ (s.Unsafe C x.1 ∨ s.Stretches x.1)) := by
  obtain ⟨pre, post, s, e1, e2, e3, e4⟩ := h.desks hC
  refine ⟨pre, post, s, e1, e2, fun hp => ⟨fun hl => ?_, fun i hi => prepares_parked (e3 hp).1 hi⟩, e4⟩
  rcases (e3 hp).1.solo with ⟨_, h⟩ | ⟨i, _, h, _⟩
  · exact h
  · rw [lockers_ported, hl] at h; cases h

theorem WinCutRun.no_lock {tr : TextTrace C} {w : TextTogether C} (h : WinCutRun guess d tr w) :
    ∀ i b o, (TextItem.did i (.lock b), o) ∉ tr := by
  induction h with
  | start => nofun
  | item _ hp ih =>
    intro i b o hm
    rcases List.mem_append.1 hm with hm | hm
    · exact ih i b o hm
    · obtain ⟨rfl, _⟩ := Prod.mk.inj (List.mem_singleton.1 hm)
      exact hp.2.1

/-- A log on windows, when no call comes first that the code gets wrong with a mark. -/
theorem WinCutRun.rotates (hC : LawfulEncoder C) {tr : TextTrace C} {w : TextTogether C}
    (h : WinCutRun guess d tr w) {ends : Sid → Text → Text} (hs : Styled ends tr) (hc : TextCutsOnly ends d tr)
    (hsafe : ∀ {pre post s it}, tr = pre ++ post → TextPooled C (.start d) pre s → ¬ s.Unsafe C it) :
    (lockers tr = [] → w.file = rotatedText C ends d tr) ∧ ∀ i, i ∉ lockers tr → Prepares guess w i := by
  obtain ⟨pre, post, s, e1, e2, e3, e4⟩ := C124_windows_cut_partial hC h
  have hlock := WinCutRun.no_lock h
  rcases e4 with rfl | ⟨⟨it, o⟩, rest, rfl, hu⟩
  · rw [List.append_nil] at e1
    subst e1
    obtain ⟨h1, h2⟩ := e3 rfl
    exact ⟨fun hl => (h1 hl).trans (TextPooled.rotates e2 hs hc hlock), h2⟩
  · exfalso
    have hd : s.data = rotatedText C ends d pre := TextPooled.rotates e2 (fun i t o hm => hs i t o (by rw [e1]; simp [hm]))
      ⟨fun i o hm => hc.1 i o (by rw [e1]; simp [hm]), fun pre' i z o' post' e => hc.2 pre' i z o' (post' ++ (it, o) :: rest) (by
        rw [e1, e]; simp)⟩ fun i b o hm => hlock i b o (by rw [e1]; simp [hm])
    rcases hu with hu | hu
    · exact hsafe e1 e2 hu
    · cases it with
      | did i op =>
        cases op with
        | truncate n =>
          obtain ⟨v, _, hz⟩ := hu
          cases n with
          | none => exact hc.1 i o (by rw [e1]; simp)
          | some z =>
            have := hc.2 pre i z o rest e1
            rw [← hd] at this
            simp only [Option.getD_some] at hz
            omega
        | _ => exact hu
      | _ => exact hu

/-- C125 for text streams on windows, with encodings without a mark at the start of the file. -/
theorem C125_text_windows (hC : LawfulEncoder C) (he : C.encInit = C.encMid) {tr : TextTrace C} {w : TextTogether C}
    (h : WinCutRun guess d tr w) {ends : Sid → Text → Text} (hs : Styled ends tr) (hc : TextCutsOnly ends d tr) :
    (lockers tr = [] → w.file = rotatedText C ends d tr) ∧ ∀ i, i ∉ lockers tr → Prepares guess w i := by
  refine WinCutRun.rotates hC h hs hc fun {pre post s it} _ _ hu => ?_
  cases it with
  | did i op =>
    obtain ⟨v, _, _, hn, _⟩ := hu
    exact hn he
  | _ => exact hu

/-- The same with any encoding, for logs that were begun and are not emptied, as in `C125_text_begun`. -/
theorem C125_text_windows_begun (hC : LawfulEncoder C) (hd : d ≠ []) {tr : TextTrace C} {w : TextTogether C}
    (h : WinCutRun guess d tr w) {ends : Sid → Text → Text} (hs : Styled ends tr) (hk : ∀ x ∈ tr, CutBehind x.1)
    (hc : TextCutsOnly ends d tr) :
    (lockers tr = [] → w.file = rotatedText C ends d tr) ∧ ∀ i, i ∉ lockers tr → Prepares guess w i := by
  refine WinCutRun.rotates hC h hs hc fun {pre post s it} e1 e2 hu => ?_
  obtain ⟨g1, g2⟩ := TextPooled.behind e2 hd (fun x hm => hk x (by rw [e1]; exact List.mem_append_left _ hm))
    fun i b o hm => WinCutRun.no_lock h i b o (by rw [e1]; exact List.mem_append_left _ hm)
  cases it with
  | did i op =>
    obtain ⟨v, hv, _, _, hn⟩ := hu
    exact absurd ⟨fun h0 => absurd h0 (g2 i v hv), fun h0 => absurd h0 g1⟩ hn
  | _ => exact hu.elim

/-- That the lock is granted only when no stream holds it is guaranteed by the system that grants the locks. -/
theorem C124_windows_cut_locks {u : Uid} {tr : TextTrace C} {t : TextTogether C} {wls : List Win.Label} {ww : Win.World}
    {ev : List Event} (hj : WinTextJoint WinCutRules guess d u tr t wls ww ev) : WinCutRun guess d tr t :=
  WinTextJoint.history ⟨fun h => h, fun h => h⟩ .start (fun {tr t it} h hp hg => .item h (by
    cases it with
    | granted i => exact ⟨hp, hg i rfl⟩
    | _ => exact hp)) hj

/-- C125 for text streams on windows, together with the system that grants the locks. -/
theorem C125_text_windows_locks (hC : LawfulEncoder C) (he : C.encInit = C.encMid) {u : Uid} {tr : TextTrace C} {t : TextTogether C}
    {wls : List Win.Label} {ww : Win.World} {ev : List Event} (hj : WinTextJoint WinCutRules guess d u tr t wls ww ev)
    {ends : Sid → Text → Text} (hs : Styled ends tr) (hc : TextCutsOnly ends d tr) (hl : lockers tr = []) :
    t.file = rotatedText C ends d tr :=
  (C125_text_windows hC he (C124_windows_cut_locks hj) hs hc).1 hl

/-! ## A case -/

/-- Every item of a history is allowed where it stands. -/
def AllWinCutProper : TextTrace C → TextTrace C → Prop
  | _, [] => True
  | tr, x :: tr' => WinCutProper tr x.1 ∧ AllWinCutProper (tr ++ [x]) tr'

theorem replay_cut (tr' : TextTrace C) : ∀ {tr : TextTrace C} {w : TextTogether C}, WinCutRun guess d tr w →
    agrees guess w tr' = true → AllWinCutProper tr tr' → WinCutRun guess d (tr ++ tr') (replay guess w tr') := by
  induction tr' with
  | nil => intro tr w h _ _; rw [List.append_nil]; exact h
  | cons x tr' ih =>
    intro tr w h ha hp
    simp only [agrees, Bool.and_eq_true, beq_iff_eq] at ha
    have := ih (WinCutRun.item h hp.1) ha.2 (by rw [ha.1]; exact hp.2)
    rw [ha.1] at this
    simpa [replay] using this

theorem cut_ask {tr : TextTrace C} {i : Sid} (h : i ∉ lockers tr) : WinCutProper tr (.ask i) := h
theorem cut_unlock {tr : TextTrace C} {i : Sid} (h : i ∈ lockers tr) : WinCutProper tr (.unlock i) := h

/-- The first process writes to a log, cuts it to two bytes, and writes; the second empties it, and writes; then the first writes. -/
def cutPens (C : Codec) (d : Bytes) : TextTrace C :=
  [(.opened (1, 0) (winPen C .auto 8 d []), .done), (.opened (2, 0) (winPen C .lf 4 d [.count 1]), .done),
    (.ask (1, 0), .done), (.granted (1, 0), .done), (.did (1, 0) (.write [65, 66]), .num 2),
    (.did (1, 0) (.truncate (some 2)), .num 2), (.did (1, 0) (.write [70]), .num 1), (.unlock (1, 0), .done),
    (.ask (2, 0), .done), (.granted (2, 0), .done), (.did (2, 0) (.write [67, 10]), .num 2), (.ask (1, 0), .done),
    (.did (2, 0) (.truncate (some 0)), .num 0), (.did (2, 0) (.write [68]), .num 1), (.unlock (2, 0), .done),
    (.granted (1, 0), .done), (.did (1, 0) (.write [69, 10]), .num 2), (.unlock (1, 0), .done)]

theorem cutPens_proper (C : Codec) (d : Bytes) : AllWinCutProper [] (cutPens C d) := by
  refine ⟨⟨by simp, .auto, [13, 10], .writer, _, winTextLog_opened C .auto (by simp) 8 (by omega) d d.length [] blocking_nil⟩,
    ⟨?_, .lf, [13, 10], .writer, _, winTextLog_opened C .lf (by simp) 4 (by omega) d d.length _ pair_blocking⟩,
    cut_ask (by simp [lockers, lockStep]), ⟨by simp [lastCall, TextItem.stream], by simp [lockers, lockStep]⟩,
    ⟨by simp [lockers, lockStep], trivial, trivial, nofun⟩, ⟨by simp [lockers, lockStep], trivial, trivial, nofun⟩,
    ⟨by simp [lockers, lockStep], trivial, trivial, nofun⟩, cut_unlock (by simp [lockers, lockStep]),
    cut_ask (by simp [lockers, lockStep]), ⟨by simp [lastCall, TextItem.stream], by simp [lockers, lockStep]⟩,
    ⟨by simp [lockers, lockStep], trivial, trivial, nofun⟩, cut_ask (by simp [lockers, lockStep]),
    ⟨by simp [lockers, lockStep], trivial, trivial, nofun⟩, ⟨by simp [lockers, lockStep], trivial, trivial, nofun⟩,
    cut_unlock (by simp [lockers, lockStep]), ⟨by simp [lastCall, TextItem.stream], by simp [lockers, lockStep]⟩,
    ⟨by simp [lockers, lockStep], trivial, trivial, nofun⟩, cut_unlock (by simp [lockers, lockStep]), trivial⟩
  simp [TextItem.stream]

theorem winPen_style (C : Codec) (nl : Newline) (n : Nat) (hn : 0 < n) (d : Bytes) (sched : List OsAns) (hb : Blocking sched) :
    (winPen C nl n d sched).newline = nl ∧ (winPen C nl n d sched).linesep = [13, 10] := by
  have := (WinTextLogOpened.ported (winTextLog_opened C nl (k := .writer) nofun n hn d d.length sched hb)).1.logbook
  exact ⟨this.newline, this.linesep⟩

theorem cutPens_styled (C : Codec) (d : Bytes) : Styled penEnds (cutPens C d) := by
  intro i t o hm
  simp only [cutPens, List.mem_cons, List.not_mem_nil, or_false, Prod.mk.injEq, TextItem.opened.injEq, reduceCtorEq, false_and] at hm
  rcases hm with ⟨⟨rfl, rfl⟩, _⟩ | ⟨⟨rfl, rfl⟩, _⟩
  · obtain ⟨h1, h2⟩ := winPen_style C .auto 8 (by omega) d [] blocking_nil
    rw [h1, h2]; rfl
  · obtain ⟨h1, h2⟩ := winPen_style C .lf 4 (by omega) d [.count 1] pair_blocking
    rw [h1, h2]; rfl

/-- Nothing becomes longer, if this can be computed. -/
def cutsB (ends : Sid → Text → Text) : Bytes → TextTrace C → Bool
  | _, [] => true
  | log, x :: tr =>
    (match x.1 with
      | .did _ (.truncate none) => false
      | .did _ (.truncate (some z)) => decide (z ≤ log.length)
      | _ => true) && cutsB ends (rotateText C ends log x) tr

theorem cuts_of_B {ends : Sid → Text → Text} {tr : TextTrace C} : ∀ {d : Bytes}, cutsB ends d tr = true → TextCutsOnly ends d tr := by
  induction tr with
  | nil =>
    intro d _
    refine ⟨nofun, fun pre i z o post e => ?_⟩
    cases pre <;> cases e
  | cons x tr ih =>
    intro d h
    simp only [cutsB, Bool.and_eq_true] at h
    obtain ⟨h1, h2⟩ := ih h.2
    refine ⟨fun i o hm => ?_, fun pre i z o post e => ?_⟩
    · rcases List.mem_cons.1 hm with rfl | hm
      · simp at h
      · exact h1 i o hm
    · cases pre with
      | nil =>
        cases e
        have := h.1
        dsimp only at this
        exact of_decide_eq_true this
      | cons y pre =>
        cases e
        exact h2 pre i z o post rfl

-- a history as in `C125_text_windows`
example : WinCutRun quotient [122] (cutPens latin1 [122]) (replay quotient ⟨[122], fun _ => none⟩ (cutPens latin1 [122])) ∧
    Styled penEnds (cutPens latin1 [122]) ∧ TextCutsOnly penEnds [122] (cutPens latin1 [122]) ∧ lockers (cutPens latin1 [122]) = [] ∧
    (replay quotient ⟨[122], fun _ => none⟩ (cutPens latin1 [122])).file = [68, 69, 13, 10] := by
  refine ⟨?_, cutPens_styled _ _, cuts_of_B (by decide +kernel), by simp [cutPens, lockers, lockStep], by decide +kernel⟩
  have := replay_cut (guess := quotient) (d := [122]) (cutPens latin1 [122]) .start (by decide +kernel) (cutPens_proper _ _)
  simpa using this

theorem AllWinCutProper.take {a b : TextTrace C} : ∀ {tr : TextTrace C}, AllWinCutProper tr (a ++ b) → AllWinCutProper tr a := by
  induction a with
  | nil => intro tr _; trivial
  | cons x a ih => intro tr h; exact ⟨h.1, ih h.2⟩

-- a history as in `C125_text_windows_begun`: the first critical section of `cutPens`, with a mark
example : WinCutRun quotient [0xFF, 0xFE] ((cutPens utf16 [0xFF, 0xFE]).take 8)
      (replay quotient ⟨[0xFF, 0xFE], fun _ => none⟩ ((cutPens utf16 [0xFF, 0xFE]).take 8)) ∧
    Styled penEnds ((cutPens utf16 [0xFF, 0xFE]).take 8) ∧ (∀ x ∈ (cutPens utf16 [0xFF, 0xFE]).take 8, CutBehind x.1) ∧
    TextCutsOnly penEnds [0xFF, 0xFE] ((cutPens utf16 [0xFF, 0xFE]).take 8) ∧ lockers ((cutPens utf16 [0xFF, 0xFE]).take 8) = [] ∧
    (replay quotient ⟨[0xFF, 0xFE], fun _ => none⟩ ((cutPens utf16 [0xFF, 0xFE]).take 8)).file = [0xFF, 0xFE, 70, 0] := by
  refine ⟨?_, fun i t o hm => cutPens_styled _ _ i t o (List.mem_of_mem_take hm), ?_, cuts_of_B (by decide +kernel),
    by simp [cutPens, lockers, lockStep], by decide +kernel⟩
  · have hp : AllWinCutProper [] ((cutPens utf16 [0xFF, 0xFE]).take 8 ++ (cutPens utf16 [0xFF, 0xFE]).drop 8) := by
      rw [List.take_append_drop]; exact cutPens_proper _ _
    have := replay_cut (guess := quotient) (d := [0xFF, 0xFE]) ((cutPens utf16 [0xFF, 0xFE]).take 8) .start (by decide +kernel)
      (AllWinCutProper.take hp)
    simpa using this
  · simp [cutPens, CutBehind, KeptBehind, winPen]
    decide +kernel

theorem AllWinCutProper.rules {tr' : TextTrace C} : ∀ {tr : TextTrace C} {t : TextTogether C}, AllWinCutProper tr tr' →
    AllRules WinCutRules guess t tr tr' := by
  induction tr' with
  | nil => intro tr t _; trivial
  | cons x tr' ih =>
    obtain ⟨it, o⟩ := x
    intro tr t h
    refine ⟨?_, ih h.2⟩
    have := h.1
    cases it with
    | granted i => exact this.1
    | _ => exact this

-- the first critical section of `cutPens`, on the lock system
example : ∃ ls w ev, WinTextJoint WinCutRules quotient [122] (0, 7) ((cutPens latin1 [122]).take 8)
    (replay quotient ⟨[122], fun _ => none⟩ ((cutPens latin1 [122]).take 8)) ls w ev := by
  have e1 : (Win.sane (winBefore 1)).map (fun x => heldOf x.2) = some [⟨1, 0, (0, 7), false, 0, none⟩] := by decide +kernel
  cases hr1 : Win.sane (winBefore 1) with
  | none => rw [hr1] at e1; cases e1
  | some x =>
    rw [hr1] at e1
    simp only [Option.map_some, Option.some.injEq] at e1
    have j0 := WinTextJoint.run (P := WinCutRules (C := latin1)) (guess := quotient) (d := [122]) (u := (0, 7)) rfl .init hr1
    have hp : AllWinCutProper [] ((cutPens latin1 [122]).take 8 ++ (cutPens latin1 [122]).drop 8) := by
      rw [List.take_append_drop]; exact cutPens_proper _ _
    have j1 := WinTextJoint.items ((cutPens latin1 [122]).take 8) j0 (by decide +kernel) (AllWinCutProper.take hp).rules (by
      intro i o hm
      simp [cutPens] at hm
      obtain ⟨rfl, _⟩ := hm
      intro a ha
      obtain rfl := List.mem_singleton.1 ha
      exact ⟨_, by rw [e1]; exact List.mem_cons_self, rfl, rfl, rfl, by simp [Covers]⟩)
    exact ⟨_, _, _, j1⟩

end Verif.Props
