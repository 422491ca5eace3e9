import Verif.Lemmas.PortedTextTogether
import Verif.Props.TextTogether

/-!
# C119: critical sections with text streams, on windows
-/

set_option autoImplicit false

namespace Verif.Props

open Verif Verif.Spec Verif.Txt

variable {C : Codec}

theorem portedTrace_section (tr mid : TextTrace C) (i : Sid) :
    portedTrace (tr ++ (.granted i, .done) :: mid) = portedTrace tr ++ (.granted i, .done) :: portedTrace mid := by
  rw [portedTrace_append]
  rfl

theorem ported_txts {w : TextTogether C} {i : Sid} {t : Txt C} (h : w.txts i = some t) : w.ported.txts i = some t.ported := by
  simp [TextTogether.ported, h]

theorem of_ported_txts {w : TextTogether C} {i : Sid} {u : Txt C} (h : w.ported.txts i = some u) :
    ∃ t, w.txts i = some t ∧ u = t.ported := by
  cases ht : w.txts i with
  | none => simp [TextTogether.ported, ht] at h
  | some t =>
    rw [ported_txts ht] at h
    exact ⟨t, rfl, (Option.some.inj h).symm⟩

/-- `unlock_file` does the same with both backends. -/
theorem unlock_ported (guess : Nat × Nat → Nat → Nat) {w : TextTogether C} (hw : w.Portable) (i : Sid) :
    (w.ported.step guess (.unlock i)).1 = (w.step guess (.unlock i)).1 ∧
      (w.ported.step guess (.unlock i)).2.file = (w.step guess (.unlock i)).2.file := by
  have h := (TextTogether.on_ports hw (i := i) (fun t => t.step guess .unlock) fun t ht =>
    Txt.step_ports guess (TextTogether.load_portable (hw i t ht) _) id).1
  change (w.ported.on i (fun t => t.step guess .unlock)).1 = (w.on i (fun t => t.step guess .unlock)).1 ∧
    (w.ported.on i (fun t => t.step guess .unlock)).2.file = (w.on i (fun t => t.step guess .unlock)).2.file
  generalize w.ported.on i (fun t => t.step guess .unlock) = r at h
  generalize w.on i (fun t => t.step guess .unlock) = r' at h ⊢
  subst h
  exact ⟨rfl, rfl⟩

theorem no_system_call {guess : Nat × Nat → Nat → Nat} {d : Bytes} {tr : TextTrace C} {w : TextTogether C}
    (h : WinTextHistory guess d tr w) : ∀ i op o, (.did i op, o) ∈ tr → ¬ SystemCall op := by
  induction h with
  | start => intro i op o h; cases h
  | @item tr w it h hp hq ih =>
    intro i op o hm
    rcases List.mem_append.1 hm with hm | hm
    · exact ih i op o hm
    · have e := (Prod.mk.inj (List.mem_singleton.1 hm)).1
      subst e
      obtain ⟨_, _, h1, h2⟩ := hp
      intro hs
      cases op with
      | truncate a => exact h1 a rfl
      | sync a m f => exact h2 a m f rfl
      | _ => exact hs

/-- C119: a stream that holds the lock is alone.  Whatever other streams do in the meantime, its calls return what they return when the
stream, as it was when it got the lock, is the only one; the file changes only by them. -/
theorem C119_alone {guess : Nat × Nat → Nat → Nat} {d : Bytes} {tr mid : TextTrace C} {i : Sid} {w w' : TextTogether C}
    (hw : WinTextHistory guess d tr w) (hw' : WinTextHistory guess d (tr ++ (.granted i, .done) :: mid) w') (hmid : Within i mid) :
    ∃ t, (w.step guess (.granted i)).2.txts i = some t ∧ t.buf.raw.data = w.file ∧
      (callsOf i mid).map Prod.snd = (Txt.run guess t ((callsOf i mid).map Prod.fst)).1 ∧
      w'.file = (Txt.run guess t ((callsOf i mid).map Prod.fst)).2.buf.raw.data := by
  obtain ⟨g1, g2⟩ := hw.ported
  obtain ⟨g3, g4⟩ := hw'.ported
  rw [portedTrace_section] at g3
  obtain ⟨u, h1, h2, h3, h4, h5⟩ := C107_alone g1 g3 hmid.ported
  rw [callsOf_ported] at h3 h4 h5
  have hg := TextTogether.on_ports g2 (i := i)
    (fun t => Out.of (fun _ => .done) (Txt.onBuf (Buf.onRaw (Raw.lockFile t.buf.raw.data)) t)) fun t ht =>
      Txt.of_ports (Txt.onBuf_ports (Buf.onRaw_ports (Raw.lockFile_ports _))) _ (TextTogether.load_portable (g2 i t ht) _)
  change (w.ported.on i (fun t => Out.of (fun _ => .done) (Txt.onBuf (Buf.onRaw (Raw.lockFile t.buf.raw.data)) t))).2.txts i = some u at h1
  rw [hg.1] at h1
  obtain ⟨t, e1, rfl⟩ := of_ported_txts h1
  have hcalls : ∀ op ∈ (callsOf i mid).map Prod.fst, ¬ SystemCall op := by
    intro op hop
    obtain ⟨⟨op', o⟩, hc, rfl⟩ := List.mem_map.1 hop
    obtain ⟨⟨it, o'⟩, hx, e⟩ := List.mem_filterMap.1 hc
    cases it <;> first | cases e | skip
    rename_i j op''
    dsimp only at e
    split at e
    · cases e
      exact no_system_call hw' j op' o (List.mem_append_right _ (List.mem_cons_of_mem _ hx))
    · cases e
  obtain ⟨k1, _⟩ := Txt.run_ports guess _ t (hg.2 i t e1) hcalls
  rw [k1] at h3 h5
  exact ⟨t, e1, h2, h3, h5⟩

/-- C119: a stream that does not hold the lock does not change the file: neither by `lock_file`, nor by `close`, nor when its process
ends. -/
theorem C119_others {guess : Nat × Nat → Nat → Nat} {d : Bytes} {tr : TextTrace C} {x : TextItem C × Out} {w w' : TextTogether C}
    (hw : WinTextHistory guess d tr w) (hw' : WinTextHistory guess d (tr ++ [x]) w')
    (hx : ∀ i, TextItem.stream x.1 = some i → i ∉ lockers tr) : w'.file = w.file := by
  have h := hw'.ported.1
  rw [portedTrace_append] at h
  have h' := C107_others (x := (x.1.ported, x.2)) hw.ported.1 h fun i hi => by
    rw [lockers_ported]
    exact hx i (by rw [← stream_ported]; exact hi)
  exact h'

/-- C119: sections, as `C107_section_partial`.
Missing: sections that do not begin with a movement, for which it is false (`C119_refuted`); `truncate` and `sync`; streams that ask for
the lock, while another holds it, in a state in which this needs a transfer (`C119_wait_refuted`). -/
theorem C119_section_partial (hC : LawfulCodec C) (hE : LawfulEncoder C) {guess : Nat × Nat → Nat → Nat} (hg : Moderate guess) {d : Bytes}
    {tr mid : TextTrace C} {i : Sid} {w w' : TextTogether C} (hw : WinTextHistory guess d tr w)
    (hw' : WinTextHistory guess d (tr ++ (.granted i, .done) :: mid) w') (hmid : Within i mid)
    {m : Movement} (hm : m = .toEnd ∨ ∃ p, m = .to (some (offset p))) {o : Out} {calls : List (Op × Out)}
    (hcalls : callsOf i mid = (.seek m, o) :: calls) :
    ∃ t log p d₀ pre post doc, w.txts i = some t ∧ o = .cookie (offset p) ∧ (m = .toEnd → p = w.file.length) ∧
      (∀ q, m = .to (some (offset q)) → p = q) ∧
      (blank w.file log).Arrives C (incoming t.newline) p d₀ ∧ calls = pre ++ post ∧
      DocConforms C t.newline (incoming t.newline) (outgoing t.linesep t.newline) d₀ pre doc ∧
      (post = [] ∨ ∃ op out rest, post = (op, out) :: rest ∧ ¬ DocCall doc op) ∧
      (post = [] → ((w'.step guess (.unlock i)).1 = .done → (w'.step guess (.unlock i)).2.file = doc.data) ∧
        (doc.writing ≠ none → (w'.step guess (.unlock i)).1 = .done) ∧
        (∀ x, doc.reading = some x → x.iterating = false → x.sought = false → (w'.step guess (.unlock i)).1 = .done)) := by
  obtain ⟨g3, g4⟩ := hw'.ported
  rw [portedTrace_section] at g3
  obtain ⟨u, log, p, d₀, pre, post, doc, h1, h2, h3, h4, h5, h6, h7, h8, h9⟩ :=
    C107_section_partial hC hE hg hw.ported.1 g3 hmid.ported hm (by rw [callsOf_ported]; exact hcalls)
  obtain ⟨t, e1, rfl⟩ := of_ported_txts h1
  obtain ⟨k1, k2⟩ := unlock_ported guess g4 i
  rw [k1, k2] at h9
  exact ⟨t, log, p, d₀, pre, post, doc, e1, h2, h3, h4, h5, h6, h7, h8, h9⟩

/-- C119: a section that moves to the end and writes a text appends the encoded text to what the file contains then, whoever wrote it. -/
theorem C119_append (hC : LawfulCodec C) (hE : LawfulEncoder C) {guess : Nat × Nat → Nat → Nat} (hg : Moderate guess) {d : Bytes}
    {tr mid : TextTrace C} {i : Sid} {w w' : TextTogether C} {t : Txt C} (hw : WinTextHistory guess d tr w)
    (hw' : WinTextHistory guess d (tr ++ (.granted i, .done) :: mid) w') (hmid : Within i mid) (ht : w.txts i = some t)
    {s : Text} {o o' : Out} (hcalls : callsOf i mid = [(.seek .toEnd, o), (.write s, o')]) {b : Bytes}
    (hb : encoded C w.file.length (outgoing t.linesep t.newline s) = .ok b) :
    o = .cookie (offset w.file.length) ∧ o' = .num s.length ∧ (w'.step guess (.unlock i)).1 = .done ∧
      (w'.step guess (.unlock i)).2.file = w.file ++ b := by
  obtain ⟨g3, g4⟩ := hw'.ported
  rw [portedTrace_section] at g3
  obtain ⟨k1, k2⟩ := unlock_ported guess g4 i
  have h := C107_append hC hE hg hw.ported.1 g3 hmid.ported (ported_txts ht) (by rw [callsOf_ported]; exact hcalls) hb
  rw [k1, k2] at h
  exact h

/-- C119: a section that moves to the start and reads returns the text that the file contains then, and leaves the file alone. -/
theorem C119_read (hC : LawfulCodec C) (hE : LawfulEncoder C) {guess : Nat × Nat → Nat → Nat} (hg : Moderate guess) {d : Bytes}
    {tr mid : TextTrace C} {i : Sid} {w w' : TextTogether C} {t : Txt C} (hw : WinTextHistory guess d tr w)
    (hw' : WinTextHistory guess d (tr ++ (.granted i, .done) :: mid) w') (hmid : Within i mid) (ht : w.txts i = some t)
    {o o' : Out} (hcalls : callsOf i mid = [(.seek (.to (some (offset 0))), o), (.read none, o')]) {text : Text} {e : C.Dec}
    (hb : C.decode C.decInit w.file true = .ok (text, e)) :
    o = .cookie (offset 0) ∧ o' = .text (incoming t.newline text) ∧ (w'.step guess (.unlock i)).1 = .done ∧
      (w'.step guess (.unlock i)).2.file = w.file := by
  obtain ⟨g3, g4⟩ := hw'.ported
  rw [portedTrace_section] at g3
  obtain ⟨k1, k2⟩ := unlock_ported guess g4 i
  have h := C107_read hC hE hg hw.ported.1 g3 hmid.ported (ported_txts ht) (by rw [callsOf_ported]; exact hcalls) hb
  rw [k1, k2] at h
  exact h

/-- C119: a log that several streams write loses nothing. -/
theorem C119_log (hC : LawfulCodec C) (hE : LawfulEncoder C) {guess : Nat × Nat → Nat → Nat} (hg : Moderate guess) {d : Bytes}
    {ends : Sid → Text → Text} {tr : TextTrace C} {l : List (Sid × Text)} (hl : LogTrace tr l) {w : TextTogether C}
    (hw : WinTextHistory guess d tr w) (he : ∀ i t o, (.opened i t, o) ∈ tr → ends i = outgoing t.linesep t.newline)
    (hb : ∀ x ∈ l, ∀ n, ∃ b, encoded C n (ends x.1 x.2) = .ok b) : LogFile C ends d l w.file := by
  have h' := C107_log hC hE hg (ends := ends) hl.ported hw.ported.1 (fun i t o h => by
    obtain ⟨⟨it, o'⟩, hy, e⟩ := List.mem_map.1 h
    cases it <;> cases e
    rename_i t
    exact he i t o' hy) hb
  exact h'

/-! ## Histories that meet the hypotheses -/

def AllWinProper (guess : Nat × Nat → Nat → Nat) (tr : TextTrace C) (w : TextTogether C) : TextTrace C → Prop
  | [] => True
  | x :: tr' => WinTextProper tr x.1 ∧ (∀ i, x.1 = .ask i → lockers tr ≠ [] → Prepares guess w i) ∧
      AllWinProper guess (tr ++ [x]) (w.step guess x.1).2 tr'

theorem replay_win {guess : Nat × Nat → Nat → Nat} {d : Bytes} (tr' : TextTrace C) : ∀ {tr : TextTrace C} {w : TextTogether C},
    WinTextHistory guess d tr w → agrees guess w tr' = true → AllWinProper guess tr w tr' →
      WinTextHistory guess d (tr ++ tr') (replay guess w tr') := by
  induction tr' with
  | nil => intro tr w h _ _; rw [List.append_nil]; exact h
  | cons x tr' ih =>
    intro tr w h ha hp
    simp only [agrees, Bool.and_eq_true, beq_iff_eq] at ha
    have := ih (WinTextHistory.item h hp.1 hp.2.1) ha.2 (by rw [ha.1]; exact hp.2.2)
    rw [ha.1] at this
    simpa [replay] using this

/-- A stream for reading and writing on windows. -/
def winBoth (n : Nat) (data : Bytes) (sched : List OsAns) : Txt latin1 :=
  (Txt.create .auto false [13, 10] (winBuf .random n (fun _ => 0) data sched)).2

theorem winBoth_ok (n : Nat) (hn : 0 < n) (data : Bytes) (sched : List OsAns) (hb : Blocking sched) :
    WinWriterOpened latin1 .auto [13, 10] .random (winRaw (fun _ => 0) data 0 sched) (winBoth n data sched) :=
  ⟨⟨n, _, false, winOpened_ok .random n hn data sched, rfl⟩, nofun, hb⟩

/-- Two streams on one file, opened by two processes with buffers of 8 and 4 bytes. -/
def winPair : TextTrace latin1 :=
  [(.opened (1, 0) (winBoth 8 [97, 13, 98] []), .done), (.opened (2, 0) (winBoth 4 [97, 13, 98] [.count 1]), .done)]

/-- Before any stream is opened. -/
def unopened : TextTogether latin1 := ⟨[97, 13, 98], fun _ => none⟩

theorem winPair_proper (tr : TextTrace latin1) (h : AllWinProper quotient winPair (replay quotient unopened winPair) tr) :
    AllWinProper quotient [] unopened (winPair ++ tr) := by
  refine ⟨⟨by simp, .auto, [13, 10], _, winBoth_ok 8 (by omega) [97, 13, 98] [] blocking_nil⟩, by simp,
    ⟨?_, .auto, [13, 10], _, winBoth_ok 4 (by omega) [97, 13, 98] _ pair_blocking⟩, by simp, h⟩
  intro x hx
  obtain rfl := List.mem_singleton.1 hx
  simp [TextItem.stream]

/-- A call by a stream that holds the lock. -/
theorem win_did {tr : TextTrace C} {i : Sid} {op : Op} (h : i ∈ lockers tr) (hp : PlainCall op) (hs : ¬ SystemCall op) :
    WinTextProper tr (.did i op) :=
  ⟨h, hp, fun a e => hs (by rw [e]; trivial), fun a m f e => hs (by rw [e]; trivial)⟩

/-- Whether a stream can prepare while the system refuses transfers. -/
def preparesB (guess : Nat × Nat → Nat → Nat) (w : TextTogether C) (i : Sid) : Bool :=
  match w.txts i with
  | none => true
  | some t => match (TextTogether.prepare guess (refused t)).1 with
    | .ok _ => true
    | .error _ => false

theorem prepares_of {guess : Nat × Nat → Nat → Nat} {w : TextTogether C} {i : Sid} (h : preparesB guess w i = true) : Prepares guess w i := by
  intro t ht
  unfold preparesB at h
  rw [ht] at h
  dsimp only at h
  split at h
  · assumption
  · cases h

/-- The first stream reads two characters, and gives the lock back.  Both ask for the lock; the second gets it, and replaces the third
character. -/
def winStale : TextTrace latin1 :=
  winPair ++ [(.ask (1, 0), .done), (.granted (1, 0), .done), (.did (1, 0) (.read (some 2)), .text [97, 10]), (.unlock (1, 0), .done),
    (.ask (2, 0), .done), (.ask (1, 0), .done), (.granted (2, 0), .done), (.did (2, 0) (.seek (.to (some (offset 2)))), .cookie (offset 2)),
    (.did (2, 0) (.write [88]), .num 1), (.unlock (2, 0), .done)]

def winStaleRead : TextTrace latin1 := winStale ++ [(.granted (1, 0), .done), (.did (1, 0) (.read none), .text [98])]

/-- `lock_file` may be called when nobody holds the lock. -/
theorem ask_free {guess : Nat × Nat → Nat → Nat} {tr : TextTrace C} {w : TextTogether C} (it : TextItem C) (h : lockers tr = []) :
    ∀ i, it = .ask i → lockers tr ≠ [] → Prepares guess w i := fun _ _ hn => absurd h hn

theorem not_asking {guess : Nat × Nat → Nat → Nat} {tr : TextTrace C} {w : TextTogether C} {it : TextItem C} (h : ∀ i, it ≠ .ask i) :
    ∀ i, it = .ask i → lockers tr ≠ [] → Prepares guess w i := fun i e _ => absurd e (h i)

theorem ask_ready {guess : Nat × Nat → Nat → Nat} {tr : TextTrace C} {w : TextTogether C} {j : Sid} (h : preparesB guess w j = true) :
    ∀ i, (.ask j : TextItem C) = .ask i → lockers tr ≠ [] → Prepares guess w i := fun i e _ => by
  cases e; exact prepares_of h

theorem winStale_history : WinTextHistory quotient [97, 13, 98] winStale (replay quotient unopened winStale) ∧
    WinTextHistory quotient [97, 13, 98] winStaleRead (replay quotient unopened winStaleRead) := by
  constructor
  · have := replay_win (guess := quotient) (d := [97, 13, 98]) winStale .start (by decide +kernel) (winPair_proper _
      ⟨may_ask (by decide), ask_free _ (by decide), ⟨rfl, by decide⟩, not_asking nofun, win_did (by decide) trivial id, not_asking nofun,
        may_unlock (by decide), not_asking nofun, may_ask (by decide), ask_free _ (by decide), may_ask (by decide), ask_free _ (by decide),
        ⟨rfl, by decide⟩, not_asking nofun, win_did (by decide) trivial id, not_asking nofun, win_did (by decide) trivial id,
        not_asking nofun, may_unlock (by decide), not_asking nofun, trivial⟩)
    simpa [unopened] using this
  · have := replay_win (guess := quotient) (d := [97, 13, 98]) winStaleRead .start (by decide +kernel) (winPair_proper _
      ⟨may_ask (by decide), ask_free _ (by decide), ⟨rfl, by decide⟩, not_asking nofun, win_did (by decide) trivial id, not_asking nofun,
        may_unlock (by decide), not_asking nofun, may_ask (by decide), ask_free _ (by decide), may_ask (by decide), ask_free _ (by decide),
        ⟨rfl, by decide⟩, not_asking nofun, win_did (by decide) trivial id, not_asking nofun, win_did (by decide) trivial id,
        not_asking nofun, may_unlock (by decide), not_asking nofun, ⟨rfl, by decide⟩, not_asking nofun, win_did (by decide) trivial id,
        not_asking nofun, trivial⟩)
    simpa [unopened] using this

/-- What is read in a section is part of the text that the file contains when the section begins. -/
def WinReadsPresent (C : Codec) : Prop := ∀ (guess : Nat × Nat → Nat → Nat), Moderate guess → ∀ (d : Bytes) (tr mid : TextTrace C) (i : Sid)
  (w w' : TextTogether C) (t : Txt C), WinTextHistory guess d tr w → WinTextHistory guess d (tr ++ (.granted i, .done) :: mid) w' →
    Within i mid → w.txts i = some t → ∀ s text e, callsOf i mid = [(.read none, .text s)] →
    C.decode C.decInit w.file true = .ok (text, e) → ∃ n, s = (incoming t.newline text).drop n

/-- C119 is false for sections that do not begin with a movement.  `lock_file` resets the buffers, which decodes a character after a
carriage return, and then waits; what others write in the meantime is not seen. -/
theorem C119_refuted : ¬ WinReadsPresent latin1 := by
  intro h
  obtain ⟨h1, h2⟩ := winStale_history
  have hfile : (replay quotient unopened winStale).file = [97, 13, 88] := by decide +kernel
  have hnl : ((replay quotient unopened winStale).txts (1, 0)).map (fun t => t.newline) = some .auto := by decide +kernel
  generalize replay quotient unopened winStale = w at h1 hfile hnl
  cases ht : w.txts (1, 0) with
  | none => rw [ht] at hnl; cases hnl
  | some t =>
    rw [ht] at hnl
    have hnl : t.newline = .auto := Option.some.inj hnl
    obtain ⟨n, hn⟩ := h quotient quotient_moderate _ winStale [(.did (1, 0) (.read none), .text [98])] (1, 0) _ _ t h1 h2 (by
      intro x hx
      obtain rfl := List.mem_singleton.1 hx
      exact ⟨fun _ => ⟨_, rfl⟩, by simp⟩) ht [98] [97, 13, 88] () rfl (by rw [hfile]; rfl)
    rw [hnl] at hn
    have hin : incoming .auto [97, 13, 88] = [97, 10, 88] := by decide
    rw [hin] at hn
    match n, hn with
    | 0, hn => cases hn
    | 1, hn => cases hn
    | 2, hn => cases hn
    | n + 3, hn => simp at hn

/-- The first stream reads two characters and gives the lock back; the second gets it. -/
def winWait : TextTrace latin1 :=
  winPair ++ [(.ask (1, 0), .done), (.granted (1, 0), .done), (.did (1, 0) (.read (some 2)), .text [97, 10]), (.unlock (1, 0), .done),
    (.ask (2, 0), .done), (.granted (2, 0), .done)]

/-- A stream that is used as it should be can wait for the lock. -/
def CanWait (C : Codec) : Prop := ∀ (guess : Nat × Nat → Nat → Nat), Moderate guess → ∀ (d : Bytes) (tr : TextTrace C) (i : Sid)
  (w : TextTogether C), WinTextHistory guess d tr w → i ∉ lockers tr → Prepares guess w i

/-- C119: with the mandatory locks of windows, `lock_file` fails instead of waiting, if the stream was left after a carriage return and
another stream holds the lock: the buffers are reset first, and this reads the file. -/
theorem C119_wait_refuted : ¬ CanWait latin1 := by
  intro h
  have hist := replay_win (guess := quotient) (d := [97, 13, 98]) winWait .start (by decide +kernel) (winPair_proper _
      ⟨may_ask (by decide), ask_free _ (by decide), ⟨rfl, by decide⟩, not_asking nofun, win_did (by decide) trivial id, not_asking nofun,
        may_unlock (by decide), not_asking nofun, may_ask (by decide), ask_free _ (by decide), ⟨rfl, by decide⟩, not_asking nofun, trivial⟩)
  have hp := h quotient quotient_moderate _ _ (1, 0) _ hist (show (1, 0) ∉ lockers ([] ++ winWait) by decide)
  have hb : preparesB quotient (replay quotient unopened winWait) (1, 0) = false := by decide +kernel
  unfold preparesB at hb
  change Prepares quotient (replay quotient unopened winWait) (1, 0) at hp
  generalize replay quotient unopened winWait = w at hp hb
  cases ht : w.txts (1, 0) with
  | none => rw [ht] at hb; cases hb
  | some t =>
    rw [ht] at hb
    dsimp only at hb
    rw [hp t ht] at hb
    cases hb

/-- The first stream is in the middle of an iteration. -/
def winIterating : TextTrace latin1 :=
  winPair ++ [(.ask (1, 0), .done), (.granted (1, 0), .done),
      (.did (1, 0) (.seek (.to (some (offset 0)))), .cookie (offset 0)), (.did (1, 0) .next, .text [97, 10])]

/-- `unlock_file` releases the lock. -/
def WinUnlocks (C : Codec) : Prop := ∀ (guess : Nat × Nat → Nat → Nat), Moderate guess → ∀ (d : Bytes) (tr : TextTrace C) (i : Sid)
  (w : TextTogether C), WinTextHistory guess d tr w → i ∈ lockers tr → (w.step guess (.unlock i)).1 = .done

/-- C119: a section that ends inside an iteration over lines does not end: `unlock_file` fails, and the lock is still held. -/
theorem C119_unlock_refuted : ¬ WinUnlocks latin1 := by
  intro h
  have hist := replay_win (guess := quotient) (d := [97, 13, 98]) winIterating .start (by decide +kernel) (winPair_proper _
      ⟨may_ask (by decide), ask_free _ (by decide), ⟨rfl, by decide⟩, not_asking nofun, win_did (by decide) trivial id, not_asking nofun,
        win_did (by decide) trivial id, not_asking nofun, trivial⟩)
  have := h quotient quotient_moderate _ _ (1, 0) _ hist (show (1, 0) ∈ lockers ([] ++ winIterating) by decide)
  revert this
  decide +kernel

/-- The first stream appends a line.  Meanwhile the second asks for the lock; then it appends another. -/
def winLog : TextTrace latin1 :=
  winPair ++ [(.ask (1, 0), .done), (.granted (1, 0), .done), (.did (1, 0) (.seek .toEnd), .cookie (offset 3)), (.ask (2, 0), .done),
    (.did (1, 0) (.write [120, 10]), .num 2), (.unlock (1, 0), .done)]

-- the hypotheses of `C119_append` and the other theorems: the second stream writes; the first asks for the lock meanwhile
example : WinTextHistory quotient [97, 13, 98] (winLog ++ (.granted (2, 0), .done) :: logMid)
    (replay quotient unopened (winLog ++ (.granted (2, 0), .done) :: logMid)) := by
  have := replay_win (guess := quotient) (d := [97, 13, 98]) (winLog ++ (.granted (2, 0), .done) :: logMid) .start (by decide +kernel)
    (winPair_proper _
      ⟨may_ask (by decide), ask_free _ (by decide), ⟨rfl, by decide⟩, not_asking nofun, win_did (by decide) trivial id, not_asking nofun,
        may_ask (by decide), ask_ready (by decide +kernel), win_did (by decide) trivial id, not_asking nofun,
        may_unlock (by decide), not_asking nofun, ⟨rfl, by decide⟩, not_asking nofun, win_did (by decide) trivial id, not_asking nofun,
        may_ask (by decide), ask_ready (by decide +kernel), win_did (by decide) trivial id, not_asking nofun, trivial⟩)
  simpa [unopened] using this

-- both lines are in the file
example : (replay quotient unopened (winLog ++ (.granted (2, 0), .done) :: logMid ++ [(.unlock (2, 0), .done)])).file =
    [97, 13, 98, 120, 13, 10, 121] := by decide +kernel

end Verif.Props
