import Verif.Lemmas.AppendTexts
import Verif.Props.TextTogether
import Verif.Props.AppendText

/-!
# C124: critical sections with text streams in append mode
-/

set_option autoImplicit false

namespace Verif.Props

open Verif Verif.Spec Verif.Txt

variable {C : Codec}

/-- C124.  Programs that use a text stream in append mode only while it holds the lock, and do not read, see one byte array, with a
position for each stream; each text is encoded for the end of the array and stored there; and when nobody holds the lock, the array is the
file.
Missing: what comes after a write in `AppendTextUnsafe` (`C124_refuted`). -/
theorem C124_serial_partial (hC : LawfulEncoder C) {guess : Nat × Nat → Nat → Nat} {d : Bytes} {tr : TextTrace C} {w : TextTogether C}
    (h : LogHistory guess d tr w) :
    ∃ pre post s, tr = pre ++ post ∧ TextPooled C (.start d) pre s ∧ (post = [] → lockers tr = [] → w.file = s.data) ∧
      (post = [] ∨ ∃ x rest, post = x :: rest ∧ s.Unsafe C x.1) := by
  obtain ⟨pre, post, s, e1, e2, e3, e4⟩ := TextTogether.desks hC h
  refine ⟨pre, post, s, e1, e2, fun hp hl => ?_, e4⟩
  rcases (e3 hp).solo with ⟨_, h'⟩ | ⟨i, _, h', _⟩
  · exact h'
  · rw [hl] at h'; cases h'

/-- C124 without exception for encodings without a mark at the start of the file. -/
theorem C124_unmarked (hC : LawfulEncoder C) (he : C.encInit = C.encMid) {guess : Nat × Nat → Nat → Nat} {d : Bytes} {tr : TextTrace C}
    {w : TextTogether C} (h : LogHistory guess d tr w) :
    ∃ s, TextPooled C (.start d) tr s ∧ (lockers tr = [] → w.file = s.data) := by
  obtain ⟨pre, post, s, e1, e2, e3, e4⟩ := C124_serial_partial hC h
  rcases e4 with rfl | ⟨x, rest, rfl, hu⟩
  · rw [List.append_nil] at e1
    subst e1
    exact ⟨s, e2, e3 rfl⟩
  · obtain ⟨it, o⟩ := x
    cases it with
    | did i op =>
      obtain ⟨v, _, _, hn, _⟩ := hu
      exact absurd he hn
    | _ => exact hu.elim

/-! ## Logs -/

/-- The newlines of the streams. -/
def Styled (ends : Sid → Text → Text) (tr : TextTrace C) : Prop :=
  ∀ i t o, (TextItem.opened i t, o) ∈ tr → outgoing t.linesep t.newline = ends i

/-- What a call adds to a log: the encoded text, or nothing if it cannot be encoded; `start` tells whether it is the start of the
file. -/
def entryOf (C : Codec) (start : Bool) (ends : Sid → Text → Text) : TextItem C × Out → Bytes
  | (.did i (.write s), _) =>
    match encoded C (if start then 0 else 1) (ends i s) with
    | .ok b => b
    | .error _ => []
  | _ => []

theorem TextPooled.ends {ends : Sid → Text → Text} {d : Bytes} {tr : TextTrace C} {s : TextPool} (h : TextPooled C (.start d) tr s)
    (hs : Styled ends tr) (i : Sid) (v : Pen) (hv : s.pens i = some v) : v.ends = ends i := by
  generalize hq : TextPool.start d = s₀ at h
  induction h generalizing i v with
  | nil => subst hq; cases hv
  | @snoc s' s'' tr it out _ hst ih =>
    have ih' := fun i v => ih (fun j t o hm => hs j t o (List.mem_append_left _ hm)) i v
    cases it with
    | opened j t =>
      obtain ⟨_, rfl⟩ := hst
      dsimp only at hv
      split at hv
      · rename_i e
        subst e
        cases hv
        exact hs i t out (by simp)
      · exact ih' i v hv
    | did j op =>
      obtain ⟨v', _, f, e1, _, rfl⟩ := hst
      dsimp only at hv
      split at hv
      · rename_i e
        subst e
        cases hv
        exact ih' i v' e1
      · exact ih' i v hv
    | ask j => obtain ⟨_, rfl⟩ := hst; exact ih' i v hv
    | granted j => obtain ⟨_, rfl⟩ := hst; exact ih' i v hv
    | unlock j => obtain ⟨_, rfl⟩ := hst; exact ih' i v hv
    | exit j => obtain ⟨_, rfl⟩ := hst; exact ih' i v hv
    | close j =>
      obtain ⟨_, rfl⟩ := hst
      dsimp only at hv
      split at hv
      · cases hv
      · exact ih' i v hv
    | gone p =>
      obtain ⟨_, rfl⟩ := hst
      dsimp only at hv
      split at hv
      · cases hv
      · exact ih' i v hv

/-- What a call makes of a log, with any encoding. -/
def enter (C : Codec) (ends : Sid → Text → Text) (file : Bytes) : TextItem C × Out → Bytes
  | (.did i (.write s), _) =>
    match encoded C file.length (ends i s) with
    | .ok b => file ++ b
    | .error _ => file
  | _ => file

/-- What is in a log. -/
theorem TextPooled.entered {ends : Sid → Text → Text} {d : Bytes} {tr : TextTrace C} {s : TextPool} (h : TextPooled C (.start d) tr s)
    (hs : Styled ends tr) (htr : ∀ i a o, (TextItem.did i (.truncate a), o) ∉ tr)
    (hlock : ∀ i b o, (TextItem.did i (.lock b), o) ∉ tr) : s.data = tr.foldl (enter C ends) d := by
  generalize hq : TextPool.start d = s₀ at h
  induction h with
  | nil => subst hq; rfl
  | @snoc s' s'' tr it out hprev hst ih =>
    have hs' : Styled ends tr := fun j t o hm => hs j t o (List.mem_append_left _ hm)
    have ih' := ih hs' (fun i a o hm => htr i a o (List.mem_append_left _ hm))
      (fun i a o hm => hlock i a o (List.mem_append_left _ hm))
    rw [List.foldl_append, ← ih']
    have hsame : s''.data = s'.data → enter C ends s'.data (it, out) = s'.data →
        s''.data = [(it, out)].foldl (enter C ends) s'.data := fun h1 h2 => by
      rw [h1]; exact h2.symm
    cases it with
    | opened j t => obtain ⟨_, rfl⟩ := hst; exact hsame rfl rfl
    | ask j => obtain ⟨_, rfl⟩ := hst; exact hsame rfl rfl
    | granted j => obtain ⟨_, rfl⟩ := hst; exact hsame rfl rfl
    | unlock j => obtain ⟨_, rfl⟩ := hst; exact hsame rfl rfl
    | exit j => obtain ⟨_, rfl⟩ := hst; exact hsame rfl rfl
    | close j => obtain ⟨_, rfl⟩ := hst; exact hsame rfl rfl
    | gone p => obtain ⟨_, rfl⟩ := hst; exact hsame rfl rfl
    | did j op =>
      obtain ⟨v, log, f, e1, e2, rfl⟩ := hst
      cases op with
      | write x =>
        have hv : v.ends = ends j := TextPooled.ends (hq ▸ hprev) hs' j v e1
        simp only [AppendTextAllowed] at e2
        rw [hv] at e2
        simp only [List.foldl_cons, List.foldl_nil, enter]
        split at e2 <;> rename_i hb <;> rw [hb] <;> obtain ⟨_, rfl⟩ := e2 <;> rfl
      | truncate a => exact absurd (by simp) (htr j a out)
      | flush => obtain ⟨_, rfl⟩ := e2; exact hsame rfl rfl
      | sync a m fl => obtain ⟨_, rfl⟩ := e2; exact hsame rfl rfl
      | tell => obtain ⟨_, rfl⟩ := e2; exact hsame rfl rfl
      | size => obtain ⟨_, rfl⟩ := e2; exact hsame rfl rfl
      | readinto => obtain ⟨_, rfl⟩ := e2; exact hsame rfl rfl
      | read n => obtain ⟨_, _, rfl⟩ := e2; exact hsame rfl rfl
      | readline n => exact e2.elim
      | next => exact e2.elim
      | close => exact e2.elim
      | unlock => obtain ⟨_, rfl⟩ := e2; exact hsame rfl rfl
      | lock o => exact absurd (by simp) (hlock j o out)
      | seek m =>
        rcases m with c | _ | _ | _ | _
        · cases c with
          | none => obtain ⟨_, rfl⟩ := e2; exact hsame rfl rfl
          | some c => obtain ⟨_, _, rfl⟩ := e2; exact hsame rfl rfl
        all_goals obtain ⟨_, rfl⟩ := e2; exact hsame rfl rfl

theorem enter_entries {ends : Sid → Text → Text} {start : Bool} {n : Nat}
    (hstart : ∀ m x, n ≤ m → encoded C m x = encoded C (if start then 0 else 1) x) (tr : TextTrace C) (d : Bytes) (hd : n ≤ d.length) :
    tr.foldl (enter C ends) d = d ++ tr.flatMap (entryOf C start ends) := by
  have key : ∀ (d : Bytes) (x : TextItem C × Out), n ≤ d.length → enter C ends d x = d ++ entryOf C start ends x := fun d x hd => by
    obtain ⟨it, o⟩ := x
    cases it with
    | did i op =>
      cases op with
      | write s =>
        simp only [enter, entryOf]
        rw [hstart d.length _ hd]
        split <;> simp
      | _ => exact (List.append_nil d).symm
    | _ => exact (List.append_nil d).symm
  induction tr generalizing d with
  | nil => simp
  | cons x tr ih =>
    rw [List.foldl_cons, key d x hd, ih _ (by rw [List.length_append]; omega)]
    simp

theorem TextPooled.entries {ends : Sid → Text → Text} {d : Bytes} {tr : TextTrace C} {s : TextPool} (h : TextPooled C (.start d) tr s)
    (hs : Styled ends tr) (htr : ∀ i a o, (TextItem.did i (.truncate a), o) ∉ tr)
    (hlock : ∀ i b o, (TextItem.did i (.lock b), o) ∉ tr) {start : Bool}
    (hstart : ∀ n x, d.length ≤ n → encoded C n x = encoded C (if start then 0 else 1) x) :
    s.data = d ++ tr.flatMap (entryOf C start ends) :=
  (TextPooled.entered h hs htr hlock).trans (enter_entries hstart tr d (Nat.le_refl _))

theorem LogHistory.no_lock {guess : Nat × Nat → Nat → Nat} {d : Bytes} {tr : TextTrace C} {w : TextTogether C}
    (h : LogHistory guess d tr w) (i : Sid) (b : Bytes) (o : Out) : (TextItem.did i (.lock b), o) ∉ tr := by
  induction h with
  | start => nofun
  | item _ hp ih =>
    intro hm
    rcases List.mem_append.1 hm with hm | hm
    · exact ih hm
    · have e := (Prod.mk.inj (List.mem_singleton.1 hm)).1
      subst e
      exact hp.2.1

/-- C124 without exception for logs, with encodings without a mark at the start of the file: any number of streams in append mode, in any
number of processes, each written in its critical sections, moved or not.  Nothing is lost or overwritten: when nobody holds the lock, the
file is its old content followed by all texts that were written, encoded, each with the newlines of its stream, in the order of the
calls. -/
theorem C124_log (hC : LawfulEncoder C) (he : C.encInit = C.encMid) {guess : Nat × Nat → Nat → Nat} {d : Bytes} {tr : TextTrace C}
    {w : TextTogether C} (h : LogHistory guess d tr w) {ends : Sid → Text → Text} (hs : Styled ends tr)
    (htr : ∀ i a o, (TextItem.did i (.truncate a), o) ∉ tr) (hl : lockers tr = []) :
    w.file = d ++ tr.flatMap (entryOf C true ends) := by
  obtain ⟨s, e1, e2⟩ := C124_unmarked hC he h
  rw [e2 hl]
  refine TextPooled.entries e1 hs htr (LogHistory.no_lock h) fun n x _ => ?_
  unfold encoded
  rw [he]
  simp

/-- A stream that is not at the start of the file when it is opened, and not moved to an offset. -/
def KeptBehind : TextItem C → Prop
  | .opened _ t => t.buf.raw.pos ≠ 0
  | .did _ (.seek (.to _)) => False
  | .did _ (.truncate _) => False
  | _ => True

/-- The same; and the file is not emptied. -/
def CutBehind : TextItem C → Prop
  | .did _ (.truncate (some z)) => z ≠ 0
  | .did _ (.truncate none) => True
  | it => KeptBehind it

theorem KeptBehind.cut {it : TextItem C} (h : KeptBehind it) : CutBehind it := by
  cases it with
  | did i op =>
    cases op with
    | truncate a => exact h.elim
    | _ => exact h
  | _ => exact h

theorem TextPooled.behind {d : Bytes} {tr : TextTrace C} {s : TextPool} (h : TextPooled C (.start d) tr s) (hd : d ≠ [])
    (hk : ∀ x ∈ tr, CutBehind x.1) (hlock : ∀ i b o, (TextItem.did i (.lock b), o) ∉ tr) :
    s.data ≠ [] ∧ ∀ i v, s.pens i = some v → v.pos ≠ 0 := by
  generalize hq : TextPool.start d = s₀ at h
  induction h with
  | nil => subst hq; exact ⟨hd, nofun⟩
  | @snoc s' s'' tr it out hprev hst ih =>
    obtain ⟨i1, i2⟩ := ih (fun x hm => hk x (List.mem_append_left _ hm)) (fun i a o hm => hlock i a o (List.mem_append_left _ hm))
    have hk' := hk (it, out) (by simp)
    cases it with
    | opened j t =>
      obtain ⟨_, rfl⟩ := hst
      refine ⟨i1, fun i v hv => ?_⟩
      dsimp only at hv
      split at hv
      · cases hv; exact hk'
      · exact i2 i v hv
    | ask j => obtain ⟨_, rfl⟩ := hst; exact ⟨i1, i2⟩
    | granted j => obtain ⟨_, rfl⟩ := hst; exact ⟨i1, i2⟩
    | unlock j => obtain ⟨_, rfl⟩ := hst; exact ⟨i1, i2⟩
    | exit j => obtain ⟨_, rfl⟩ := hst; exact ⟨i1, i2⟩
    | close j =>
      obtain ⟨_, rfl⟩ := hst
      refine ⟨i1, fun i v hv => ?_⟩
      dsimp only at hv
      split at hv
      · cases hv
      · exact i2 i v hv
    | gone p =>
      obtain ⟨_, rfl⟩ := hst
      refine ⟨i1, fun i v hv => ?_⟩
      dsimp only at hv
      split at hv
      · cases hv
      · exact i2 i v hv
    | did j op =>
      obtain ⟨v', log, f, e1, e2, rfl⟩ := hst
      have hp := i2 j v' e1
      have key : f.data ≠ [] ∧ f.pos ≠ 0 → f.data ≠ [] ∧
          ∀ i v, (if i = j then some { v' with pos := f.pos } else s'.pens i) = some v → v.pos ≠ 0 := fun h => by
        refine ⟨h.1, fun i v hv => ?_⟩
        split at hv
        · cases hv; exact h.2
        · exact i2 i v hv
      refine key ?_
      cases op with
      | write x =>
        simp only [AppendTextAllowed] at e2
        split at e2 <;> obtain ⟨_, rfl⟩ := e2
        · exact ⟨i1, hp⟩
        · refine ⟨fun h0 => i1 (List.append_eq_nil_iff.1 h0).1, ?_⟩
          dsimp only
          split
          · exact hp
          · have := List.length_pos_iff.2 i1
            omega
      | truncate a =>
        have hcut : ∀ n, n ≠ 0 → resizeTo s'.data n ≠ [] := fun n hn h0 => by
          have := congrArg List.length h0
          simp [resizeTo] at this
          exact hn this
        cases a with
        | none => obtain ⟨_, rfl⟩ := e2; exact ⟨hcut _ hp, hp⟩
        | some z =>
          have hz : z ≠ 0 := hk'
          simp only [AppendTextAllowed, SinkAllowed] at e2
          split at e2 <;> obtain ⟨_, rfl⟩ := e2
          · exact ⟨i1, hp⟩
          · exact ⟨hcut _ (by omega), hp⟩
      | flush => obtain ⟨_, rfl⟩ := e2; exact ⟨i1, hp⟩
      | sync a m fl => obtain ⟨_, rfl⟩ := e2; exact ⟨i1, hp⟩
      | tell => obtain ⟨_, rfl⟩ := e2; exact ⟨i1, hp⟩
      | size => obtain ⟨_, rfl⟩ := e2; exact ⟨i1, hp⟩
      | readinto => obtain ⟨_, rfl⟩ := e2; exact ⟨i1, hp⟩
      | read n => obtain ⟨_, _, rfl⟩ := e2; exact ⟨i1, hp⟩
      | readline n => exact e2.elim
      | next => exact e2.elim
      | close => exact e2.elim
      | unlock => obtain ⟨_, rfl⟩ := e2; exact ⟨i1, hp⟩
      | lock o => exact absurd (by simp) (hlock j o out)
      | seek m =>
        rcases m with c | _ | _ | _ | _
        · exact hk'.elim
        · obtain ⟨_, rfl⟩ := e2; exact ⟨i1, hp⟩
        · obtain ⟨_, rfl⟩ := e2
          refine ⟨i1, ?_⟩
          have := List.length_pos_iff.2 i1
          dsimp only
          omega
        · obtain ⟨_, rfl⟩ := e2; exact ⟨i1, hp⟩
        · obtain ⟨_, rfl⟩ := e2; exact ⟨i1, hp⟩

/-- C124 without exception for logs that were begun, with any encoding: the file has content, each stream is opened behind its start and
not moved to an offset.  No mark is written a second time. -/
theorem C124_begun (hC : LawfulEncoder C) {guess : Nat × Nat → Nat → Nat} {d : Bytes} (hd : d ≠ []) {tr : TextTrace C}
    {w : TextTogether C} (h : LogHistory guess d tr w) {ends : Sid → Text → Text} (hs : Styled ends tr)
    (hk : ∀ x ∈ tr, KeptBehind x.1) :
    (∃ s, TextPooled C (.start d) tr s ∧ s.data = d ++ tr.flatMap (entryOf C false ends)) ∧
      (lockers tr = [] → w.file = d ++ tr.flatMap (entryOf C false ends)) := by
  obtain ⟨pre, post, s, e1, e2, e3, e4⟩ := C124_serial_partial hC h
  rcases e4 with rfl | ⟨x, rest, rfl, hu⟩
  · rw [List.append_nil] at e1
    subst e1
    have key := TextPooled.entries (start := false) e2 hs (fun i a o hm => hk _ hm) (LogHistory.no_lock h) fun n x hn => by
      have := List.length_pos_iff.2 hd
      unfold encoded
      rw [if_neg (by omega)]
      rfl
    exact ⟨⟨s, e2, key⟩, fun hl => (e3 rfl hl).trans key⟩
  · obtain ⟨g1, g2⟩ := TextPooled.behind e2 hd (fun x hm => (hk x (by rw [e1]; exact List.mem_append_left _ hm)).cut)
      fun i b o hm => LogHistory.no_lock h i b o (by rw [e1]; exact List.mem_append_left _ hm)
    obtain ⟨it, o⟩ := x
    cases it with
    | did i op =>
      obtain ⟨v, hv, _, _, hn⟩ := hu
      exact absurd ⟨fun h0 => absurd h0 (g2 i v hv), fun h0 => absurd h0 g1⟩ hn
    | _ => exact hu.elim

/-! ## Cases -/

def AllLogProper (tr : TextTrace C) : TextTrace C → Prop
  | [] => True
  | x :: tr' => LogProper tr x.1 ∧ AllLogProper (tr ++ [x]) tr'

theorem replay_log {guess : Nat × Nat → Nat → Nat} {d : Bytes} (tr' : TextTrace C) : ∀ {tr : TextTrace C} {w : TextTogether C},
    LogHistory guess d tr w → agrees guess w tr' = true → AllLogProper tr tr' → LogHistory guess d (tr ++ tr') (replay guess w tr') := by
  induction tr' with
  | nil => intro tr w h _ _; rw [List.append_nil]; exact h
  | cons x tr' ih =>
    intro tr w h ha hp
    simp only [agrees, Bool.and_eq_true, beq_iff_eq] at ha
    have := ih (LogHistory.item h hp.1) ha.2 (by rw [ha.1]; exact hp.2)
    rw [ha.1] at this
    simpa [replay] using this

/-- Two processes open a file with the content `d` to append to it, with buffers of 8 and 4 bytes; the second writes while the first
waits; then the first writes. -/
def twoPens (C : Codec) (d : Bytes) : TextTrace C :=
  [(.opened (1, 0) (textLog C .auto .writer 8 d d.length []), .done),
    (.opened (2, 0) (textLog C .lf .writer 4 d d.length [.count 1]), .done),
    (.ask (2, 0), .done), (.granted (2, 0), .done), (.did (2, 0) (.write [65]), .num 1), (.ask (1, 0), .done),
    (.did (2, 0) (.write [66]), .num 1), (.unlock (2, 0), .done), (.granted (1, 0), .done), (.did (1, 0) (.write [67, 10]), .num 2),
    (.did (1, 0) .flush, .done), (.exit (1, 0), .done)]

theorem log_ask {tr : TextTrace C} {i : Sid} (h : i ∉ lockers tr) : LogProper tr (.ask i) := h
theorem log_unlock {tr : TextTrace C} {i : Sid} (h : i ∈ lockers tr) : LogProper tr (.unlock i) := h

theorem twoPens_proper (C : Codec) (d : Bytes) : AllLogProper [] (twoPens C d) := by
  refine ⟨⟨by simp, .auto, [13, 10], .writer, _, textLog_opened C .auto (by simp) 8 (by omega) d d.length [] blocking_nil⟩,
    ⟨?_, .lf, [13, 10], .writer, _, textLog_opened C .lf (by simp) 4 (by omega) d d.length _ pair_blocking⟩,
    log_ask (by simp [lockers, lockStep]), ⟨by simp [lastCall, TextItem.stream], by simp [lockers, lockStep]⟩,
    ⟨by simp [lockers, lockStep], trivial, trivial⟩, log_ask (by simp [lockers, lockStep]),
    ⟨by simp [lockers, lockStep], trivial, trivial⟩, log_unlock (by simp [lockers, lockStep]),
    ⟨by simp [lastCall, TextItem.stream], by simp [lockers, lockStep]⟩,
    ⟨by simp [lockers, lockStep], trivial, trivial⟩, ⟨by simp [lockers, lockStep], trivial, trivial⟩,
    ⟨by simp [lockers, lockStep], by simp [lastCall, TextItem.stream]⟩, trivial⟩
  intro x hx
  obtain rfl := List.mem_singleton.1 hx
  simp [TextItem.stream]

-- a history as in `C124_log`, with two kinds of newlines
example : LogHistory quotient [122] (twoPens latin1 [122]) (replay quotient ⟨[122], fun _ => none⟩ (twoPens latin1 [122])) ∧
    (replay quotient ⟨[122], fun _ => none⟩ (twoPens latin1 [122])).file = [122, 65, 66, 67, 13, 10] ∧
    lockers (twoPens latin1 [122]) = [] := by
  refine ⟨?_, by decide +kernel, by simp [twoPens, lockers, lockStep]⟩
  have := replay_log (guess := quotient) (d := [122]) (twoPens latin1 [122]) .start (by decide +kernel) (twoPens_proper _ _)
  simpa using this

-- a history as in `C124_begun`
example : (∀ x ∈ twoPens utf16 [0xFF, 0xFE], KeptBehind x.1) ∧
    (replay quotient ⟨[0xFF, 0xFE], fun _ => none⟩ (twoPens utf16 [0xFF, 0xFE])).file =
      [0xFF, 0xFE, 65, 0, 66, 0, 67, 0, 13, 0, 10, 0] := by
  refine ⟨?_, by decide +kernel⟩
  intro x hx
  simp only [twoPens, List.mem_cons, List.not_mem_nil, or_false] at hx
  rcases hx with rfl | rfl | rfl | rfl | rfl | rfl | rfl | rfl | rfl | rfl | rfl | rfl <;> first | trivial | skip
  all_goals
    show _ ≠ 0
    decide +kernel

/-- The claim of C124 without the restriction. -/
def TextPoolsAlways : Prop :=
  ∀ {C : Codec}, LawfulEncoder C → ∀ {guess : Nat × Nat → Nat → Nat} {d : Bytes} {tr : TextTrace C} {w : TextTogether C},
    LogHistory guess d tr w → ∃ s, TextPooled C (.start d) tr s ∧ (lockers tr = [] → w.file = s.data)

/-- The newlines of the two streams. -/
def penEnds : Sid → Text → Text := fun i => if i = (1, 0) then outgoing [13, 10] .auto else outgoing [13, 10] .lf

theorem textLog_style (C : Codec) (nl : Newline) (n : Nat) (hn : 0 < n) (d : Bytes) (p : Nat) (sched : List OsAns) (hb : Blocking sched) :
    (textLog C nl .writer n d p sched).newline = nl ∧ (textLog C nl .writer n d p sched).linesep = [13, 10] := by
  have := (textLog_opened C nl (k := .writer) nofun n hn d p sched hb).logbook
  exact ⟨this.newline, this.linesep⟩

theorem twoPens_styled (C : Codec) (d : Bytes) : Styled penEnds (twoPens C d) := by
  intro i t o hm
  simp only [twoPens, List.mem_cons, List.not_mem_nil, or_false, Prod.mk.injEq, TextItem.opened.injEq, reduceCtorEq, false_and] at hm
  rcases hm with ⟨⟨rfl, rfl⟩, _⟩ | ⟨⟨rfl, rfl⟩, _⟩
  · obtain ⟨h1, h2⟩ := textLog_style C .auto 8 (by omega) d d.length [] blocking_nil
    rw [h1, h2]; rfl
  · obtain ⟨h1, h2⟩ := textLog_style C .lf 4 (by omega) d d.length [.count 1] pair_blocking
    rw [h1, h2]; rfl

theorem twoPens_data {d : Bytes} {s : TextPool} (h : TextPooled utf16 (.start d) (twoPens utf16 d) s) (hd : d = []) :
    s.data = [0xFF, 0xFE, 65, 0, 66, 0, 67, 0, 13, 0, 10, 0] := by
  have := TextPooled.entered h (twoPens_styled _ _) (by intro i a o hm; simp [twoPens] at hm) (by intro i a o hm; simp [twoPens] at hm)
  rw [this]
  simp only [twoPens, List.foldl_cons, List.foldl_nil, enter]
  subst hd
  decide +kernel

/-- C124 is false: two processes open an empty file and write to it in turn; each begins with a byte order mark. -/
theorem C124_refuted : ¬ TextPoolsAlways := by
  intro hall
  have h := replay_log (guess := quotient) (d := []) (twoPens utf16 []) .start (by decide +kernel) (twoPens_proper _ _)
  obtain ⟨s, h1, h2⟩ := hall utf16_encoder h
  have hf : (replay quotient ⟨[], fun _ => none⟩ (twoPens utf16 [])).file =
      [0xFF, 0xFE, 65, 0, 66, 0, 0xFF, 0xFE, 67, 0, 13, 0, 10, 0] := by decide +kernel
  rw [List.nil_append] at h1 h2
  have h3 := h2 (by simp [twoPens, lockers, lockStep])
  rw [hf, twoPens_data h1 rfl] at h3
  revert h3
  decide

end Verif.Props
