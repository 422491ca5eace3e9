import Verif.Lemmas.WaitingTexts
import Verif.Props.AppendTexts

/-!
# C124 on windows
-/

set_option autoImplicit false

namespace Verif.Props

open Verif Verif.Spec Verif.Txt

variable {C : Codec}

/-- C124 on windows, without `truncate` and `sync`.  (Under the assumptions of C93.)
Missing: what comes after a write in `AppendTextUnsafe`. -/
theorem C124_windows_partial (hC : LawfulEncoder C) {guess : Nat × Nat → Nat → Nat} {d : Bytes} {tr : TextTrace C} {w : TextTogether C}
    (h : WinLogHistory guess d tr w) :
    ∃ pre post s, tr = pre ++ post ∧ TextPooled C (.start d) pre s ∧ (post = [] → lockers tr = [] → w.file = s.data) ∧
      (post = [] ∨ ∃ x rest, post = x :: rest ∧ s.Unsafe C x.1) := by
  obtain ⟨pre, post, s, e1, e2, e3, e4⟩ := C124_serial_partial hC h.ported.1
  obtain ⟨pre, post, rfl, rfl, rfl⟩ := List.map_eq_append_iff.1 e1
  refine ⟨pre, post, s, rfl, TextPooled.unported e2, fun hp hl => e3 (by rw [hp]; rfl) (by rw [lockers_ported]; exact hl), ?_⟩
  rcases e4 with e4 | ⟨x, rest, e4, hu⟩
  · exact .inl (List.map_eq_nil_iff.1 e4)
  · match post, e4 with
    | y :: ys, e4 =>
      simp only [List.map_cons, List.cons.injEq] at e4
      obtain ⟨rfl, rfl⟩ := e4
      obtain ⟨it, o⟩ := y
      exact .inr ⟨_, ys, rfl, by cases it <;> exact hu⟩

theorem Styled.ported {ends : Sid → Text → Text} {tr : TextTrace C} (h : Styled ends tr) : Styled ends (portedTrace tr) := by
  intro i t o hm
  obtain ⟨⟨it, o'⟩, hy, e⟩ := List.mem_map.1 hm
  cases it with
  | opened j u => cases e; exact h i u o' hy
  | _ => cases e

theorem entryOf_ported (start : Bool) (ends : Sid → Text → Text) (tr : TextTrace C) :
    (portedTrace tr).flatMap (entryOf C start ends) = tr.flatMap (entryOf C start ends) := by
  unfold portedTrace
  rw [List.flatMap_map]
  congr 1
  funext x
  obtain ⟨it, o⟩ := x
  cases it <;> rfl

/-! ## Waiting for the lock -/

/-- No write is in `AppendTextUnsafe` if the encoding has no mark. -/
theorem desks_unmarked (hC : LawfulEncoder C) (he : C.encInit = C.encMid) {guess : Nat × Nat → Nat → Nat} {d : Bytes} {tr : TextTrace C}
    {w : TextTogether C} (h : LogHistory guess d tr w) : ∃ s, TextTogether.Desks tr w s := by
  obtain ⟨pre, post, s, e1, e2, e3, e4⟩ := TextTogether.desks hC h
  rcases e4 with rfl | ⟨x, rest, rfl, hu⟩
  · exact ⟨s, e3 rfl⟩
  · obtain ⟨it, o⟩ := x
    cases it with
    | did i op =>
      obtain ⟨v, _, _, hn, _⟩ := hu
      exact absurd he hn
    | _ => exact hu.elim

/-- No write is in `AppendTextUnsafe` if the log was begun. -/
theorem desks_begun (hC : LawfulEncoder C) {guess : Nat × Nat → Nat → Nat} {d : Bytes} (hd : d ≠ []) {tr : TextTrace C}
    {w : TextTogether C} (h : LogHistory guess d tr w) (hk : ∀ x ∈ tr, KeptBehind x.1) : ∃ s, TextTogether.Desks tr w s := by
  obtain ⟨pre, post, s, e1, e2, e3, e4⟩ := TextTogether.desks hC h
  rcases e4 with rfl | ⟨x, rest, rfl, hu⟩
  · exact ⟨s, e3 rfl⟩
  · obtain ⟨g1, g2⟩ := TextPooled.behind e2 hd (fun x hm => (hk x (by rw [e1]; exact List.mem_append_left _ hm)).cut)
      fun i b o hm => LogHistory.no_lock h i b o (by rw [e1]; exact List.mem_append_left _ hm)
    obtain ⟨it, o⟩ := x
    cases it with
    | did i op =>
      obtain ⟨v, hv, _, _, hn⟩ := hu
      exact absurd ⟨fun h0 => absurd h0 (g2 i v hv), fun h0 => absurd h0 g1⟩ hn
    | _ => exact hu.elim

theorem prepares_parked {guess : Nat × Nat → Nat → Nat} {tr : TextTrace C} {w : TextTogether C} {s : TextPool}
    (h : TextTogether.Desks (portedTrace tr) w.ported s) {i : Sid} (hi : i ∉ lockers tr) : Prepares guess w i := by
  intro t ht
  obtain ⟨v, nl, ls, _, _, h1, _⟩ := h.pens i t.ported (by simp [TextTogether.ported, ht])
  exact (h1 (by rw [lockers_ported]; exact hi)).vacant.prepare guess

/-- A history on windows whose prefixes leave the streams parked. -/
theorem WinLogRun.history {guess : Nat × Nat → Nat → Nat} {d : Bytes} {P : TextTrace C → Prop}
    (hP : ∀ {tr w}, P tr → LogHistory guess d (portedTrace tr) w → ∃ s, TextTogether.Desks (portedTrace tr) w s)
    (hpre : ∀ {tr x}, P (tr ++ [x]) → P tr) {tr : TextTrace C} {w : TextTogether C} (h : WinLogRun guess d tr w) (ht : P tr) :
    WinLogHistory guess d tr w := by
  induction h with
  | start => exact .start
  | @item tr w it _ hp ih =>
    have h := ih (hpre ht)
    refine .item h hp fun i e _ => ?_
    subst e
    obtain ⟨s, hs⟩ := hP (hpre ht) h.ported.1
    exact prepares_parked hs hp

theorem kept_ported {tr : TextTrace C} (hk : ∀ x ∈ tr, KeptBehind x.1) : ∀ x ∈ portedTrace tr, KeptBehind x.1 := fun x hm => by
  obtain ⟨⟨it, o⟩, hy, rfl⟩ := List.mem_map.1 hm
  have := hk _ hy
  cases it <;> exact this

/-- A stream that prepares for the lock while another holds it needs no transfer, so that the mandatory locks of windows do not disturb
it: with encodings without a mark at the start of the file. -/
theorem C124_windows_waits (hC : LawfulEncoder C) (he : C.encInit = C.encMid) {guess : Nat × Nat → Nat → Nat} {d : Bytes}
    {tr : TextTrace C} {w : TextTogether C} (h : WinLogRun guess d tr w) :
    WinLogHistory guess d tr w ∧ ∀ i, i ∉ lockers tr → Prepares guess w i := by
  have h' := WinLogRun.history (P := fun _ => True) (fun _ h => desks_unmarked hC he h) (fun _ => trivial) h trivial
  obtain ⟨s, hs⟩ := desks_unmarked hC he h'.ported.1
  exact ⟨h', fun i hi => prepares_parked hs hi⟩

/-- The same for logs that were begun, with any encoding. -/
theorem C124_windows_waits_begun (hC : LawfulEncoder C) {guess : Nat × Nat → Nat → Nat} {d : Bytes} (hd : d ≠ []) {tr : TextTrace C}
    {w : TextTogether C} (h : WinLogRun guess d tr w) (hk : ∀ x ∈ tr, KeptBehind x.1) :
    WinLogHistory guess d tr w ∧ ∀ i, i ∉ lockers tr → Prepares guess w i := by
  have h' := WinLogRun.history (P := fun tr => ∀ x ∈ tr, KeptBehind x.1) (fun hk h => desks_begun hC hd h (kept_ported hk))
    (fun hk x hx => hk x (List.mem_append_left _ hx)) h hk
  obtain ⟨s, hs⟩ := desks_begun hC hd h'.ported.1 (kept_ported hk)
  exact ⟨h', fun i hi => prepares_parked hs hi⟩

/-! ## Logs -/

/-- C124 for logs on windows, with encodings without a mark at the start of the file. -/
theorem C124_windows_log (hC : LawfulEncoder C) (he : C.encInit = C.encMid) {guess : Nat × Nat → Nat → Nat} {d : Bytes}
    {tr : TextTrace C} {w : TextTogether C} (h : WinLogRun guess d tr w) {ends : Sid → Text → Text} (hs : Styled ends tr)
    (hl : lockers tr = []) : w.file = d ++ tr.flatMap (entryOf C true ends) := by
  replace h := (C124_windows_waits hC he h).1
  have htr : ∀ i a o, (TextItem.did i (.truncate a), o) ∉ tr := by
    clear hs hl
    induction h with
    | start => nofun
    | item _ hp _ ih =>
      intro i a o hm
      rcases List.mem_append.1 hm with hm | hm
      · exact ih i a o hm
      · have e := (Prod.mk.inj (List.mem_singleton.1 hm)).1
        subst e
        exact hp.2.2.2.1 a rfl
  have := C124_log hC he h.ported.1 hs.ported (fun i a o hm => by
    obtain ⟨⟨it, o'⟩, hy, e⟩ := List.mem_map.1 hm
    cases it with
    | did j op => cases e; exact htr i a o' hy
    | _ => cases e) (by rw [lockers_ported]; exact hl)
  rw [entryOf_ported] at this
  exact this

/-- C124 for logs that were begun, on windows, with any encoding. -/
theorem C124_windows_begun (hC : LawfulEncoder C) {guess : Nat × Nat → Nat → Nat} {d : Bytes} (hd : d ≠ []) {tr : TextTrace C}
    {w : TextTogether C} (h : WinLogRun guess d tr w) {ends : Sid → Text → Text} (hs : Styled ends tr)
    (hk : ∀ x ∈ tr, KeptBehind x.1) (hl : lockers tr = []) : w.file = d ++ tr.flatMap (entryOf C false ends) := by
  replace h := (C124_windows_waits_begun hC hd h hk).1
  have := (C124_begun hC hd h.ported.1 hs.ported (kept_ported hk)).2 (by rw [lockers_ported]; exact hl)
  rw [entryOf_ported] at this
  exact this

/-! ## A case -/

/-- A text stream of windows in append mode on a file with the given content, at its end. -/
def winPen (C : Codec) (nl : Newline) (n : Nat) (d : Bytes) (sched : List OsAns) : Txt C :=
  (Txt.create nl false [13, 10] ⟨.writer, n, winLogOf d d.length sched, [], 0, []⟩).2

/-- As `twoPens`, on windows. -/
def winPens (C : Codec) (d : Bytes) : TextTrace C :=
  [(.opened (1, 0) (winPen C .auto 8 d []), .done), (.opened (2, 0) (winPen C .lf 4 d [.count 1]), .done),
    (.ask (2, 0), .done), (.granted (2, 0), .done), (.did (2, 0) (.write [65]), .num 1), (.ask (1, 0), .done),
    (.did (2, 0) (.write [66]), .num 1), (.unlock (2, 0), .done), (.granted (1, 0), .done), (.did (1, 0) (.write [67, 10]), .num 2),
    (.did (1, 0) .flush, .done), (.exit (1, 0), .done)]

def AllWinLogProper (guess : Nat × Nat → Nat → Nat) (w : TextTogether C) (tr : TextTrace C) : TextTrace C → Prop
  | [] => True
  | x :: tr' => WinLogProper tr x.1 ∧ (∀ i, x.1 = .ask i → lockers tr ≠ [] → Prepares guess w i) ∧
      AllWinLogProper guess (w.step guess x.1).2 (tr ++ [x]) tr'

theorem replay_win_log {guess : Nat × Nat → Nat → Nat} {d : Bytes} (tr' : TextTrace C) : ∀ {tr : TextTrace C} {w : TextTogether C},
    WinLogHistory guess d tr w → agrees guess w tr' = true → AllWinLogProper guess w tr tr' →
      WinLogHistory guess d (tr ++ tr') (replay guess w tr') := by
  induction tr' with
  | nil => intro tr w h _ _; rw [List.append_nil]; exact h
  | cons x tr' ih =>
    intro tr w h ha hp
    simp only [agrees, Bool.and_eq_true, beq_iff_eq] at ha
    have := ih (WinLogHistory.item h hp.1 hp.2.1) ha.2 (by rw [ha.1]; exact hp.2.2)
    rw [ha.1] at this
    simpa [replay] using this

theorem win_ask {tr : TextTrace C} {i : Sid} (h : i ∉ lockers tr) : WinLogProper tr (.ask i) := h
theorem win_unlock {tr : TextTrace C} {i : Sid} (h : i ∈ lockers tr) : WinLogProper tr (.unlock i) := h

/-- The waiting stream needs no transfer, if this can be computed. -/
theorem pen_prepares {guess : Nat × Nat → Nat → Nat} {w : TextTogether C} {i : Sid}
    (h : (w.txts i).all (fun t => match (TextTogether.prepare guess (refused t)).1 with | .ok _ => true | .error _ => false) = true) :
    Prepares guess w i := by
  intro t ht
  rw [ht] at h
  simp only [Option.all_some] at h
  split at h
  · assumption
  · cases h

theorem winPens_proper : AllWinLogProper quotient (⟨[122], fun _ => none⟩ : TextTogether latin1) [] (winPens latin1 [122]) := by
  refine ⟨⟨by simp, .auto, [13, 10], .writer, _, winTextLog_opened latin1 .auto (by simp) 8 (by omega) [122] 1 [] blocking_nil⟩, nofun,
    ⟨?_, .lf, [13, 10], .writer, _, winTextLog_opened latin1 .lf (by simp) 4 (by omega) [122] 1 _ pair_blocking⟩, nofun,
    win_ask (by simp [lockers, lockStep]), fun i _ hn => absurd (by simp [lockers, lockStep]) hn,
    ⟨by simp [lastCall, TextItem.stream], by simp [lockers, lockStep]⟩, nofun,
    ⟨by simp [lockers, lockStep], trivial, trivial, nofun, nofun⟩, nofun, win_ask (by simp [lockers, lockStep]), ?_,
    ⟨by simp [lockers, lockStep], trivial, trivial, nofun, nofun⟩, nofun, win_unlock (by simp [lockers, lockStep]), nofun,
    ⟨by simp [lastCall, TextItem.stream], by simp [lockers, lockStep]⟩, nofun,
    ⟨by simp [lockers, lockStep], trivial, trivial, nofun, nofun⟩, nofun,
    ⟨by simp [lockers, lockStep], trivial, trivial, nofun, nofun⟩, nofun,
    ⟨by simp [lockers, lockStep], by simp [lastCall, TextItem.stream]⟩, nofun, trivial⟩
  · intro x hx
    obtain rfl := List.mem_singleton.1 hx
    simp [TextItem.stream]
  · intro i e _
    cases e
    exact pen_prepares (by decide +kernel)

theorem WinLogHistory.run {guess : Nat × Nat → Nat → Nat} {d : Bytes} {tr : TextTrace C} {w : TextTogether C}
    (h : WinLogHistory guess d tr w) : WinLogRun guess d tr w := by
  induction h with
  | start => exact .start
  | item _ hp _ ih => exact .item ih hp

example : WinLogHistory quotient [122] (winPens latin1 [122]) (replay quotient ⟨[122], fun _ => none⟩ (winPens latin1 [122])) ∧
    WinLogRun quotient [122] (winPens latin1 [122]) (replay quotient ⟨[122], fun _ => none⟩ (winPens latin1 [122])) ∧
    (replay quotient ⟨[122], fun _ => none⟩ (winPens latin1 [122])).file = [122, 65, 66, 67, 13, 10] ∧
    lockers (winPens latin1 [122]) = [] := by
  suffices h : _ from ⟨h, WinLogHistory.run h, by decide +kernel, by simp [winPens, lockers, lockStep]⟩
  have := replay_win_log (guess := quotient) (d := [122]) (winPens latin1 [122]) .start (by decide +kernel) winPens_proper
  simpa using this

end Verif.Props
