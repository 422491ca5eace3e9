import Verif.Lemmas.TextTogether

/-!
# C107: critical sections with text streams
-/

set_option autoImplicit false

namespace Verif.Props

open Verif Verif.Spec Verif.Txt

variable {C : Codec}

/-- A stream whose buffers are empty: a movement makes reading and writing correct, whatever was decoded before. -/
theorem ready_seek (hC : LawfulCodec C) (hE : LawfulEncoder C) {guess : Nat × Nat → Nat → Nat} (hg : Moderate guess) {nl : Newline} {ls : Text}
    {t : Txt C} {f : File} (hf : Txt.Ready nl ls .random t f) (m : Movement) (hm : m = .toEnd ∨ ∃ p, m = .to (some (offset p))) (ops : List Op) :
    ∃ Ok p t' d₀ pre post d, Laws C nl Ok ∧ Txt.step guess t (.seek m) = (.cookie (offset p), t') ∧
      (m = .toEnd → p = f.data.length) ∧ (∀ q, m = .to (some (offset q)) → p = q) ∧
      (blank f.data f.log).Arrives C (incoming nl) p d₀ ∧ ops = pre ++ post ∧
      DocConforms C nl (incoming nl) (outgoing ls nl) d₀ (pre.zip (Txt.run guess t' pre).1) d ∧
      (post = [] ∨ ∃ op rest, post = op :: rest ∧ ¬ DocCall d op) ∧ Txt.Keeps nl ls Ok (Txt.run guess t' pre).2 d := by
  obtain ⟨Ok, L⟩ := laws hC nl
  have hmk : Marked nl Ok t (blank f.data f.log).data (blank f.data f.log).marks := ⟨nofun, nofun⟩
  have key : ∃ p t' d', Txt.seek guess m t = (.ok (offset p), t') ∧ (m = .toEnd → p = f.data.length) ∧
      (∀ q, m = .to (some (offset q)) → p = q) ∧ (blank f.data f.log).Arrives C (incoming nl) p d' ∧ Txt.Keeps nl ls Ok t' d' := by
    rcases hm with rfl | ⟨p, rfl⟩
    · obtain ⟨t', d', h1, h2, h3, _⟩ := arrives_end L guess (d := blank f.data f.log) ⟨f, hf, rfl, rfl⟩ hmk
      exact ⟨_, t', d', h1, fun _ => rfl, nofun, h2, h3⟩
    · obtain ⟨t', d', h1, h2, h3, _⟩ := arrives_to L (d := blank f.data f.log) ⟨f, hf, rfl, rfl⟩ hmk p
      refine ⟨p, t', d', by rw [hf.seek]; exact h1, nofun, fun q hq => ?_, h2, h3⟩
      have := congrArg (fun m => match m with | .to (some c) => c.position | _ => 0) hq
      exact this
  obtain ⟨p, t', d₀, h1, h2, h3, h4, h5⟩ := key
  obtain ⟨pre, post, d, e1, e2, e3, e4⟩ := doc_run L hE hg ops t' d₀ h5
  refine ⟨Ok, p, t', d₀, pre, post, d, L, ?_, h2, h3, h4, e1, e2, e4, e3⟩
  simp only [Txt.step, h1]
  rfl

/-- C107: a stream that holds the lock is alone.  Whatever other streams do in the meantime, its calls return what they return when the
stream, as it was when it got the lock, is the only one; the file changes only by them. -/
theorem C107_alone {guess : Nat × Nat → Nat → Nat} {d : Bytes} {tr mid : TextTrace C} {i : Sid} {w w' : TextTogether C}
    (hw : TextHistory guess d tr w) (hw' : TextHistory guess d (tr ++ (.granted i, .done) :: mid) w') (hmid : Within i mid) :
    ∃ t, (w.step guess (.granted i)).2.txts i = some t ∧ t.buf.raw.data = w.file ∧ (callsOf i mid).map Prod.snd = (Txt.run guess t ((callsOf i mid).map Prod.fst)).1 ∧
      w'.txts i = some (Txt.run guess t ((callsOf i mid).map Prod.fst)).2 ∧
      w'.file = (Txt.run guess t ((callsOf i mid).map Prod.fst)).2.buf.raw.data := by
  obtain ⟨t₀, t, _, h2, _, _, _, _, _, _, h9, h10, h11, _, _, h14⟩ := TextTogether.alone hw mid.length mid w' rfl hw' hmid
  exact ⟨t, h14, h2, h9, h10, h11⟩

/-- C107: a stream that does not hold the lock does not change the file: neither by `lock_file`, although it resets its buffers before it
waits, nor by `close`, nor when its process ends. -/
theorem C107_others {guess : Nat × Nat → Nat → Nat} {d : Bytes} {tr : TextTrace C} {x : TextItem C × Out} {w w' : TextTogether C}
    (hw : TextHistory guess d tr w) (hw' : TextHistory guess d (tr ++ [x]) w') (hx : ∀ i, TextItem.stream x.1 = some i → i ∉ lockers tr) :
    w'.file = w.file := by
  obtain ⟨w₀, h1, h2, _, h4⟩ := hw'.last
  obtain rfl := h1.unique hw
  rw [h4]
  exact (TextTogether.step_books guess (TextTogether.books h1) h2).2 hx

/-- C107.  A stream gets the lock, is moved to an offset or to the end, and used.  The results are those of the reference for the content
that the file has then, wherever that content came from, up to the first call that the reference does not consider; and when
`unlock_file` returns, the file has the content of the reference.
Missing: sections that do not begin with such a movement, for which it is false (`C107_refuted`). -/
theorem C107_section_partial (hC : LawfulCodec C) (hE : LawfulEncoder C) {guess : Nat × Nat → Nat → Nat} (hg : Moderate guess) {d : Bytes}
    {tr mid : TextTrace C} {i : Sid} {w w' : TextTogether C} (hw : TextHistory guess d tr w)
    (hw' : TextHistory guess d (tr ++ (.granted i, .done) :: mid) w') (hmid : Within i mid)
    {m : Movement} (hm : m = .toEnd ∨ ∃ p, m = .to (some (offset p))) {o : Out} {calls : List (Op × Out)}
    (hcalls : callsOf i mid = (.seek m, o) :: calls) :
    ∃ t log p d₀ pre post doc, w.txts i = some t ∧ o = .cookie (offset p) ∧ (m = .toEnd → p = w.file.length) ∧
      (∀ q, m = .to (some (offset q)) → p = q) ∧
      (blank w.file log).Arrives C (incoming t.newline) p d₀ ∧ calls = pre ++ post ∧
      DocConforms C t.newline (incoming t.newline) (outgoing t.linesep t.newline) d₀ pre doc ∧
      (post = [] ∨ ∃ op out rest, post = (op, out) :: rest ∧ ¬ DocCall doc op) ∧
      (post = [] → ((w'.step guess (.unlock i)).1 = .done → (w'.step guess (.unlock i)).2.file = doc.data) ∧
        (doc.writing ≠ none → (w'.step guess (.unlock i)).1 = .done) ∧
        (∀ x, doc.reading = some x → x.iterating = false → x.sought = false → (w'.step guess (.unlock i)).1 = .done)) := by
  obtain ⟨t₀, t, h1, h2, h3, h4, h5, h6, h7, h8, h9, h10, h11, _⟩ := TextTogether.alone hw mid.length mid w' rfl hw' hmid
  have hr := TextTogether.ready_of h3 h6 h7 h8
  rw [h4, h5] at hr
  obtain ⟨Ok, p, t', d₀, pre, post, doc, L, e1, e2, e3, e4, e5, e6, e7, e8⟩ := ready_seek hC hE hg hr m hm (calls.map Prod.fst)
  dsimp only at e2 e4
  rw [h2] at e2 e4
  rw [hcalls] at h9 h10 h11
  simp only [List.map_cons, Txt.run, e1] at h9 h10 h11
  obtain ⟨h9a, h9b⟩ := List.cons.inj h9
  have hsplit : calls = calls.take pre.length ++ calls.drop pre.length := (List.take_append_drop _ _).symm
  have hlen : pre.length ≤ calls.length := by
    have := congrArg List.length e5
    simp at this; omega
  have hfst : (calls.take pre.length).map Prod.fst = pre := by
    rw [List.map_take, e5, List.take_left']; rfl
  have hrl : ∀ (u : Txt C) (l : List Op), (Txt.run guess u l).1.length = l.length := by
    intro u l
    induction l generalizing u with
    | nil => rfl
    | cons op l ih => simp [Txt.run, ih]
  have hsnd : (calls.take pre.length).map Prod.snd = (Txt.run guess t' pre).1 := by
    rw [List.map_take, h9b, e5, run_append]
    dsimp only
    rw [List.take_left' (hrl t' pre)]
  have hpre : calls.take pre.length = pre.zip (Txt.run guess t' pre).1 := by
    exact List.zip_of_prod hfst hsnd
  refine ⟨t₀, t.buf.raw.events, p, d₀, calls.take pre.length, calls.drop pre.length, doc, h1, h9a, e2, e3, e4, hsplit, ?_, ?_, ?_⟩
  · rw [hpre]; exact e6
  · have hpost : (calls.drop pre.length).map Prod.fst = post := by
      rw [List.map_drop, e5, List.drop_left']; rfl
    rcases e7 with e7 | ⟨op, rest, e7, e7'⟩
    · left
      rw [e7] at hpost
      exact List.map_eq_nil_iff.1 hpost
    · right
      rw [e7] at hpost
      cases hcd : calls.drop pre.length with
      | nil => rw [hcd] at hpost; cases hpost
      | cons y ys =>
        rw [hcd] at hpost
        obtain ⟨op', out⟩ := y
        simp at hpost
        obtain ⟨rfl, _⟩ := hpost
        exact ⟨op', out, ys, rfl, e7'⟩
  · intro hpost
    have hall : calls.map Prod.fst = pre := by
      rw [hsplit, hpost, List.append_nil, hfst]
    rw [hall] at h10 h11
    have hstep : w'.step guess (.unlock i) = (((Txt.run guess t' pre).2.step guess .unlock).1,
        w'.keep i ((Txt.run guess t' pre).2.step guess .unlock).2) := by
      simp only [TextTogether.step]
      rw [TextTogether.on_some h10, TextTogether.load_same h11.symm]
    rw [hstep]
    dsimp only [TextTogether.keep]
    obtain ⟨f, hf, hfd, hfl⟩ := e8.ready
    have hu : TextTogether.Usual (Txt.run guess t' pre).2 := ⟨hf.buf.live, hf.kind, hf.seekable⟩
    have hpd : pendingData (Txt.run guess t' pre).2.buf = doc.data := by
      rw [← hfd, hf.buf.data]
      unfold pendingData
      rw [put_eq, landing_eq]
      unfold Raw.dest
      rw [hu.live.noAppend]
      rfl
    have hstepdoc : DocCall doc .unlock → ∃ d', doc.Follows C t₀.newline (outgoing t₀.linesep t₀.newline) .unlock
        ((Txt.run guess t' pre).2.step guess .unlock).1 d' := fun hc => by
      obtain ⟨d', k1, _⟩ := doc_step L hE hg e8 hc
      exact ⟨d', k1⟩
    refine ⟨fun hd => (TextTogether.unlock_empties hu hd).2.trans hpd, fun hne => ?_, fun x hx hi hs => ?_⟩
    · cases hcw : doc.writing with
      | none => exact absurd hcw hne
      | some x =>
        obtain ⟨d', k⟩ := hstepdoc (.inr ⟨x, hcw, trivial⟩)
        obtain ⟨_, k', _⟩ := k.writes x hcw trivial
        exact k'.1
    · obtain ⟨d', k⟩ := hstepdoc (.inl ⟨x, hx, trivial⟩)
      obtain ⟨_, k', _⟩ := k.reads x hx trivial
      simp only [TextAllowed, TextFile.Here, hi, hs] at k'
      simp at k'
      exact k'.1

/-- C107: a section that moves to the end and writes a text appends the encoded text to what the file contains then, whoever wrote it. -/
theorem C107_append (hC : LawfulCodec C) (hE : LawfulEncoder C) {guess : Nat × Nat → Nat → Nat} (hg : Moderate guess) {d : Bytes}
    {tr mid : TextTrace C} {i : Sid} {w w' : TextTogether C} {t : Txt C} (hw : TextHistory guess d tr w)
    (hw' : TextHistory guess d (tr ++ (.granted i, .done) :: mid) w') (hmid : Within i mid) (ht : w.txts i = some t)
    {s : Text} {o o' : Out} (hcalls : callsOf i mid = [(.seek .toEnd, o), (.write s, o')]) {b : Bytes}
    (hb : encoded C w.file.length (outgoing t.linesep t.newline s) = .ok b) :
    o = .cookie (offset w.file.length) ∧ o' = .num s.length ∧ (w'.step guess (.unlock i)).1 = .done ∧
      (w'.step guess (.unlock i)).2.file = w.file ++ b := by
  obtain ⟨t₀, log, p, d₀, pre, post, doc, h1, h2, h3, _, h4, h5, h6, h7, h8⟩ :=
    C107_section_partial hC hE hg hw hw' hmid (.inl rfl) hcalls
  rw [ht] at h1
  cases h1
  rw [h3 rfl] at h2 h4
  have hfol : DocCall d₀ (.write s) := .inr ⟨_, h4.writing, trivial⟩
  have hpre : pre = [(.write s, o')] ∧ post = [] := by
    cases pre with
    | nil =>
      exfalso
      cases h6
      rw [List.nil_append] at h5
      rcases h7 with h7 | ⟨op, out, rest, h7, h7'⟩
      · rw [h7] at h5; cases h5
      · rw [h7] at h5; cases h5; exact h7' hfol
    | cons x pre =>
      obtain ⟨e1, e2⟩ := List.cons.inj h5
      obtain ⟨rfl, rfl⟩ := List.append_eq_nil_iff.1 e2.symm
      exact ⟨by rw [e1], rfl⟩
  obtain ⟨rfl, rfl⟩ := hpre
  cases h6 with
  | cons ha hn =>
    cases hn
    obtain ⟨x, k1, k2, k3, _⟩ := ha.writes _ h4.writing trivial
    simp only [SinkAllowed, hb] at k1
    obtain ⟨rfl, rfl⟩ := k1
    obtain ⟨g1, g2, _⟩ := h8 rfl
    have hdone := g2 (by rw [k2]; simp)
    refine ⟨h2, rfl, hdone, (g1 hdone).trans ?_⟩
    rw [← k3]
    change put w.file w.file.length b = w.file ++ b
    rw [put_eq, writeAt_end]

/-- C107: a section that moves to the start and reads returns the text that the file contains then, and leaves the file alone. -/
theorem C107_read (hC : LawfulCodec C) (hE : LawfulEncoder C) {guess : Nat × Nat → Nat → Nat} (hg : Moderate guess) {d : Bytes}
    {tr mid : TextTrace C} {i : Sid} {w w' : TextTogether C} {t : Txt C} (hw : TextHistory guess d tr w)
    (hw' : TextHistory guess d (tr ++ (.granted i, .done) :: mid) w') (hmid : Within i mid) (ht : w.txts i = some t)
    {o o' : Out} (hcalls : callsOf i mid = [(.seek (.to (some (offset 0))), o), (.read none, o')]) {text : Text} {e : C.Dec}
    (hb : C.decode C.decInit w.file true = .ok (text, e)) :
    o = .cookie (offset 0) ∧ o' = .text (incoming t.newline text) ∧ (w'.step guess (.unlock i)).1 = .done ∧
      (w'.step guess (.unlock i)).2.file = w.file := by
  obtain ⟨t₀, log, p, d₀, pre, post, doc, h1, h2, _, h3, h4, h5, h6, h7, h8⟩ :=
    C107_section_partial hC hE hg hw hw' hmid (.inr ⟨0, rfl⟩) hcalls
  rw [ht] at h1
  cases h1
  rw [h3 0 rfl] at h2 h4
  have hfind : (blank w.file log).Finds C (incoming t.newline) 0 (incoming t.newline text) :=
    .inl (.inr ⟨.inl rfl, Nat.zero_le _, text, e, by rw [List.drop_zero]; exact hb, rfl⟩)
  have hread := h4.reading _ hfind
  have hfol : DocCall d₀ (.read none) := .inl ⟨_, hread, trivial⟩
  have hpre : pre = [(.read none, o')] ∧ post = [] := by
    cases pre with
    | nil =>
      exfalso
      cases h6
      rw [List.nil_append] at h5
      rcases h7 with h7 | ⟨op, out, rest, h7, h7'⟩
      · rw [h7] at h5; cases h5
      · rw [h7] at h5; cases h5; exact h7' hfol
    | cons x pre =>
      obtain ⟨e1, e2⟩ := List.cons.inj h5
      obtain ⟨rfl, rfl⟩ := List.append_eq_nil_iff.1 e2.symm
      exact ⟨by rw [e1], rfl⟩
  obtain ⟨rfl, rfl⟩ := hpre
  cases h6 with
  | cons ha hn =>
    cases hn
    obtain ⟨x, k1, k2, k3, _⟩ := ha.reads _ hread trivial
    obtain ⟨rfl, rfl⟩ := k1
    obtain ⟨g1, _, g3⟩ := h8 rfl
    have hdone := g3 _ k2 rfl rfl
    exact ⟨h2, by simp [limit], hdone, (g1 hdone).trans k3.symm⟩

/-- The file after the entries of a log; nobody holds the lock. -/
theorem LogTrace.file (hC : LawfulCodec C) (hE : LawfulEncoder C) {guess : Nat × Nat → Nat → Nat} (hg : Moderate guess) {d : Bytes}
    {ends : Sid → Text → Text} {tr : TextTrace C} {l : List (Sid × Text)} (hl : LogTrace tr l) :
    ∀ {w : TextTogether C}, TextHistory guess d tr w → (∀ i t o, (.opened i t, o) ∈ tr → ends i = outgoing t.linesep t.newline) →
      (∀ x ∈ l, ∀ n, ∃ b, encoded C n (ends x.1 x.2) = .ok b) → LogFile C ends d l w.file ∧ lockers tr = [] := by
  induction hl with
  | start =>
    intro w hw _ _
    obtain rfl := hw.unique .start
    exact ⟨.start, rfl⟩
  | @other tr l x hl hx ih =>
    intro w hw he hb
    obtain ⟨w₀, h1, h2, h3, h4⟩ := hw.last
    obtain ⟨g1, g2⟩ := ih h1 (fun i t o h => he i t o (List.mem_append_left _ h)) hb
    refine ⟨?_, ?_⟩
    · rw [C107_others h1 hw fun i _ => by rw [g2]; simp]
      exact g1
    · rw [TextTogether.lockers_snoc, g2]
      obtain ⟨it, o⟩ := x
      cases it <;> cases o <;> first | rfl | exact absurd rfl (hx _)
  | @entry tr mid l i s o o' o'' hl hmid hcalls ih =>
    intro w hw he hb
    obtain ⟨w', h1, h2, h3, h4⟩ := hw.last
    obtain ⟨w₀, h5⟩ : ∃ w₀, TextHistory guess d tr w₀ := h1.prefix
    obtain ⟨g1, g2⟩ := ih h5 (fun i t o h => he i t o (by simp [h])) fun x hx => hb x (List.mem_append_left _ hx)
    obtain ⟨t, _, k1, _, _, _, _, _, _, _, _, _, _, k2, _, _⟩ := TextTogether.alone h5 mid.length mid w' rfl h1 hmid
    obtain ⟨t₀, q, m1, m2, m3⟩ := TextTogether.style h5 k1
    have hends : ends i = outgoing t.linesep t.newline := by rw [m2, m3]; exact he i t₀ q (by simp [m1])
    obtain ⟨b, hbb⟩ := hb (i, s) (by simp) w₀.file.length
    dsimp only at hbb
    rw [hends] at hbb
    obtain ⟨_, _, e1, e2⟩ := C107_append hC hE hg h5 h1 hmid k1 hcalls hbb
    refine ⟨?_, ?_⟩
    · rw [h4, e2]
      exact .entry g1 (by rw [hends]; exact hbb)
    · dsimp only at h3
      rw [TextTogether.lockers_snoc, k2, h3, e1]
      simp [lockStep]

/-- C107: a log that several streams write loses nothing.  The file consists of what it contained at first and all entries, in the order
in which the locks were granted, none mixed with another. -/
theorem C107_log (hC : LawfulCodec C) (hE : LawfulEncoder C) {guess : Nat × Nat → Nat → Nat} (hg : Moderate guess) {d : Bytes}
    {ends : Sid → Text → Text} {tr : TextTrace C} {l : List (Sid × Text)} (hl : LogTrace tr l) {w : TextTogether C}
    (hw : TextHistory guess d tr w) (he : ∀ i t o, (.opened i t, o) ∈ tr → ends i = outgoing t.linesep t.newline)
    (hb : ∀ x ∈ l, ∀ n, ∃ b, encoded C n (ends x.1 x.2) = .ok b) : LogFile C ends d l w.file :=
  (LogTrace.file hC hE hg hl hw he hb).1

/-! ## Histories that meet the hypotheses -/

/-- The results are those that the code gives. -/
def agrees (guess : Nat × Nat → Nat → Nat) (w : TextTogether C) : TextTrace C → Bool
  | [] => true
  | x :: tr => (w.step guess x.1).1 == x.2 && agrees guess (w.step guess x.1).2 tr

def replay (guess : Nat × Nat → Nat → Nat) (w : TextTogether C) : TextTrace C → TextTogether C
  | [] => w
  | x :: tr => replay guess (w.step guess x.1).2 tr

def AllProper (tr : TextTrace C) : TextTrace C → Prop
  | [] => True
  | x :: tr' => TextProper tr x.1 ∧ AllProper (tr ++ [x]) tr'

theorem replay_history {guess : Nat × Nat → Nat → Nat} {d : Bytes} (tr' : TextTrace C) : ∀ {tr : TextTrace C} {w : TextTogether C},
    TextHistory guess d tr w → agrees guess w tr' = true → AllProper tr tr' → TextHistory guess d (tr ++ tr') (replay guess w tr') := by
  induction tr' with
  | nil => intro tr w h _ _; rw [List.append_nil]; exact h
  | cons x tr' ih =>
    intro tr w h ha hp
    simp only [agrees, Bool.and_eq_true, beq_iff_eq] at ha
    have := ih (TextHistory.item h hp.1) ha.2 (by rw [ha.1]; exact hp.2)
    rw [ha.1] at this
    simpa [replay] using this

/-- Two streams on one file, opened by two processes with buffers of 4 and 8 bytes. -/
def pairOpened : TextTrace latin1 :=
  [(.opened (1, 0) (textWriter latin1 .auto .random 8 [97, 13, 98] 0 []), .done),
    (.opened (2, 0) (textWriter latin1 .auto .random 4 [97, 13, 98] 0 [.count 1]), .done)]

theorem pair_blocking : Blocking [.count 1] := by
  intro a ha
  rcases List.mem_cons.1 ha with rfl | ha
  · exact ⟨_, rfl, by omega⟩
  · cases ha

/-- The first stream reads two characters, and gives the lock back.  It asks for the lock again while the second stream holds it, and
replaces the third character. -/
def staleBefore : TextTrace latin1 :=
  pairOpened ++ [(.ask (1, 0), .done), (.granted (1, 0), .done), (.did (1, 0) (.read (some 2)), .text [97, 10]), (.unlock (1, 0), .done),
    (.ask (2, 0), .done), (.granted (2, 0), .done), (.did (2, 0) (.seek (.to (some (offset 2)))), .cookie (offset 2)),
    (.ask (1, 0), .done), (.did (2, 0) (.write [88]), .num 1), (.unlock (2, 0), .done)]

def staleAfter : TextTrace latin1 := [(.did (1, 0) (.read none), .text [98])]

theorem may_ask {tr : TextTrace C} {i : Sid} (h : i ∉ lockers tr) : TextProper tr (.ask i) := h
theorem may_unlock {tr : TextTrace C} {i : Sid} (h : i ∈ lockers tr) : TextProper tr (.unlock i) := h

/-- The history begins. -/
theorem pair_proper (tr : TextTrace latin1) (h : AllProper pairOpened tr) : AllProper [] (pairOpened ++ tr) := by
  refine ⟨⟨by simp, .auto, [13, 10], _, textWriter_opened _ _ (by simp) 8 (by omega) [97, 13, 98] 0 [] blocking_nil⟩,
    ⟨?_, .auto, [13, 10], _, textWriter_opened _ _ (by simp) 4 (by omega) [97, 13, 98] 0 _ pair_blocking⟩, h⟩
  intro x hx
  obtain rfl := List.mem_singleton.1 hx
  simp [TextItem.stream]

theorem stale_history : TextHistory quotient [97, 13, 98] staleBefore (replay quotient ⟨[97, 13, 98], fun _ => none⟩ staleBefore) ∧
    TextHistory quotient [97, 13, 98] (staleBefore ++ (.granted (1, 0), .done) :: staleAfter)
      (replay quotient ⟨[97, 13, 98], fun _ => none⟩ (staleBefore ++ (.granted (1, 0), .done) :: staleAfter)) := by
  constructor
  · have := replay_history (guess := quotient) (d := [97, 13, 98]) staleBefore .start (by decide +kernel) (pair_proper _
      ⟨may_ask (by decide), ⟨rfl, by decide⟩, ⟨by decide, trivial⟩, may_unlock (by decide), may_ask (by decide), ⟨rfl, by decide⟩, ⟨by decide, trivial⟩,
        may_ask (by decide), ⟨by decide, trivial⟩, may_unlock (by decide), trivial⟩)
    simpa using this
  · have := replay_history (guess := quotient) (d := [97, 13, 98]) (staleBefore ++ (.granted (1, 0), .done) :: staleAfter) .start
      (by decide +kernel) (pair_proper _
      ⟨may_ask (by decide), ⟨rfl, by decide⟩, ⟨by decide, trivial⟩, may_unlock (by decide), may_ask (by decide), ⟨rfl, by decide⟩, ⟨by decide, trivial⟩,
        may_ask (by decide), ⟨by decide, trivial⟩, may_unlock (by decide), ⟨rfl, by decide⟩, ⟨by decide, trivial⟩, trivial⟩)
    simpa using this

/-- What is read in a section is part of the text that the file contains when the section begins. -/
def ReadsPresent (C : Codec) : Prop := ∀ (guess : Nat × Nat → Nat → Nat), Moderate guess → ∀ (d : Bytes) (tr mid : TextTrace C) (i : Sid)
  (w w' : TextTogether C) (t : Txt C), TextHistory guess d tr w → TextHistory guess d (tr ++ (.granted i, .done) :: mid) w' → Within i mid →
    w.txts i = some t → ∀ s text e, callsOf i mid = [(.read none, .text s)] → C.decode C.decInit w.file true = .ok (text, e) →
    ∃ n, s = (incoming t.newline text).drop n

/-- C107 is false for sections that do not begin with a movement.  `lock_file` resets the buffers, which decodes a character after a
carriage return, and then waits; what others write in the meantime is not seen. -/
theorem C107_refuted : ¬ ReadsPresent latin1 := by
  intro h
  obtain ⟨h1, h2⟩ := stale_history
  have hfile : (replay quotient ⟨[97, 13, 98], fun _ => none⟩ staleBefore).file = [97, 13, 88] := by decide +kernel
  have hnl : ((replay quotient ⟨[97, 13, 98], fun _ => none⟩ staleBefore).txts (1, 0)).map (fun t => t.newline) = some .auto := by
    decide +kernel
  generalize replay quotient ⟨[97, 13, 98], fun _ => none⟩ staleBefore = w at h1 hfile hnl
  cases ht : w.txts (1, 0) with
  | none => rw [ht] at hnl; cases hnl
  | some t =>
    rw [ht] at hnl
    have hnl : t.newline = .auto := Option.some.inj hnl
    obtain ⟨n, hn⟩ := h quotient quotient_moderate _ _ _ _ _ _ t h1 h2 (by
      intro x hx
      obtain rfl := List.mem_singleton.1 hx
      exact ⟨fun _ => ⟨_, rfl⟩, by simp⟩) ht [98] [97, 13, 88] () rfl (by rw [hfile]; rfl)
    rw [hnl] at hn
    have hin : incoming .auto [97, 13, 88] = [97, 10, 88] := by decide
    rw [hin] at hn
    match n, hn with
    | 0, hn => cases hn
    | 1, hn => cases hn
    | 2, hn => cases hn
    | n + 3, hn => simp at hn

/-- The first stream appends a line.  Meanwhile the second asks for the lock; then it appends another. -/
def logBefore : TextTrace latin1 :=
  pairOpened ++ [(.ask (1, 0), .done), (.granted (1, 0), .done), (.did (1, 0) (.seek .toEnd), .cookie (offset 3)), (.ask (2, 0), .done),
    (.did (1, 0) (.write [120, 10]), .num 2), (.unlock (1, 0), .done)]

def logMid : TextTrace latin1 :=
  [(.did (2, 0) (.seek .toEnd), .cookie (offset 6)), (.ask (1, 0), .done), (.did (2, 0) (.write [121]), .num 1)]

theorem log_history : TextHistory quotient [97, 13, 98] (logBefore ++ (.granted (2, 0), .done) :: logMid)
    (replay quotient ⟨[97, 13, 98], fun _ => none⟩ (logBefore ++ (.granted (2, 0), .done) :: logMid)) := by
  have := replay_history (guess := quotient) (d := [97, 13, 98]) (logBefore ++ (.granted (2, 0), .done) :: logMid) .start
    (by decide +kernel) (pair_proper _
    ⟨may_ask (by decide), ⟨rfl, by decide⟩, ⟨by decide, trivial⟩, may_ask (by decide), ⟨by decide, trivial⟩, may_unlock (by decide), ⟨rfl, by decide⟩,
      ⟨by decide, trivial⟩, may_ask (by decide), ⟨by decide, trivial⟩, trivial⟩)
  simpa using this

-- the hypotheses of `C107_append`, and what follows: both lines are in the file
example : Within (2, 0) logMid ∧ callsOf (2, 0) logMid = [(.seek .toEnd, .cookie (offset 6)), (.write [121], .num 1)] ∧
    (replay quotient ⟨[97, 13, 98], fun _ => none⟩ logBefore).file = [97, 13, 98, 120, 13, 10] ∧
    (replay quotient ⟨[97, 13, 98], fun _ => none⟩ (logBefore ++ (.granted (2, 0), .done) :: logMid ++ [(.unlock (2, 0), .done)])).file =
      [97, 13, 98, 120, 13, 10, 121] := by
  refine ⟨?_, rfl, by decide +kernel, by decide +kernel⟩
  intro x hx
  simp only [logMid, List.mem_cons, List.not_mem_nil, or_false] at hx
  rcases hx with rfl | rfl | rfl
  · exact ⟨fun _ => ⟨_, rfl⟩, by simp⟩
  · exact ⟨fun h => by simp [TextItem.stream] at h, by simp⟩
  · exact ⟨fun _ => ⟨_, rfl⟩, by simp⟩

-- the hypotheses of `C107_log`
example : LogTrace (logBefore ++ (.granted (2, 0), .done) :: logMid ++ [(.unlock (2, 0), .done)]) [((1, 0), [120, 10]), ((2, 0), [121])] ∧
    LogFile latin1 (fun _ => outgoing [13, 10] .auto) [97, 13, 98] [((1, 0), [120, 10]), ((2, 0), [121])] [97, 13, 98, 120, 13, 10, 121] := by
  constructor
  · have h1 : LogTrace (pairOpened ++ [(.ask (1, 0), .done)]) [] :=
      .other (tr := pairOpened) (.other (tr := pairOpened.take 1) (.other (tr := []) .start (by simp)) (by simp)) (by simp)
    have h2 : LogTrace logBefore [((1, 0), [120, 10])] := by
      have := LogTrace.entry (mid := [(.did (1, 0) (.seek .toEnd), .cookie (offset 3)), (.ask (2, 0), .done),
        (.did (1, 0) (.write [120, 10]), .num 2)]) (o'' := .done) h1 (by
          intro x hx
          simp only [List.mem_cons, List.not_mem_nil, or_false] at hx
          rcases hx with rfl | rfl | rfl
          · exact ⟨fun _ => ⟨_, rfl⟩, by simp⟩
          · exact ⟨fun h => by simp [TextItem.stream] at h, by simp⟩
          · exact ⟨fun _ => ⟨_, rfl⟩, by simp⟩) rfl
      exact this
    refine .entry h2 ?_ rfl
    intro x hx
    simp only [logMid, List.mem_cons, List.not_mem_nil, or_false] at hx
    rcases hx with rfl | rfl | rfl
    · exact ⟨fun _ => ⟨_, rfl⟩, by simp⟩
    · exact ⟨fun h => by simp [TextItem.stream] at h, by simp⟩
    · exact ⟨fun _ => ⟨_, rfl⟩, by simp⟩
  · exact .entry (l := [((1, 0), [120, 10])]) (f := [97, 13, 98, 120, 13, 10]) (b := [121])
      (.entry (l := []) (f := [97, 13, 98]) (b := [120, 13, 10]) .start rfl) rfl

/-- The first stream is in the middle of an iteration. -/
def iterating : TextTrace latin1 :=
  pairOpened ++ [(.ask (1, 0), .done), (.granted (1, 0), .done),
      (.did (1, 0) (.seek (.to (some (offset 0)))), .cookie (offset 0)), (.did (1, 0) .next, .text [97, 10])]

/-- `unlock_file` releases the lock. -/
def Unlocks (C : Codec) : Prop := ∀ (guess : Nat × Nat → Nat → Nat), Moderate guess → ∀ (d : Bytes) (tr : TextTrace C) (i : Sid)
  (w : TextTogether C), TextHistory guess d tr w → i ∈ lockers tr → (w.step guess (.unlock i)).1 = .done

/-- C107: a section that ends inside an iteration over lines does not end: `unlock_file` fails, and the lock is still held. -/
theorem C107_unlock_refuted : ¬ Unlocks latin1 := by
  intro h
  have hist := replay_history (guess := quotient) (d := [97, 13, 98]) iterating .start
    (by decide +kernel) (pair_proper _ ⟨may_ask (by decide), ⟨rfl, by decide⟩, ⟨by decide, trivial⟩, ⟨by decide, trivial⟩, trivial⟩)
  have := h quotient quotient_moderate _ _ (1, 0) _ hist (show (1, 0) ∈ lockers ([] ++ iterating) by decide)
  revert this
  decide +kernel

end Verif.Props
