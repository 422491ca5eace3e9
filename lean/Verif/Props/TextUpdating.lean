import Verif.Spec.TextUpdating
import Verif.Props.TextLocks
import Verif.Props.Updating

/-!
# C127 for text streams
-/

set_option autoImplicit false

namespace Verif.Props

open Verif Verif.Spec Verif.Txt

variable {C : Codec}

/-- The reference considers the first call. -/
theorem doc_next {nl : Newline} {inc out : Text → Text} {d₀ doc : Doc} {op : Op} {o : Out} {calls pre post : List (Op × Out)}
    (h5 : (op, o) :: calls = pre ++ post) (h6 : DocConforms C nl inc out d₀ pre doc)
    (h7 : post = [] ∨ ∃ op out rest, post = (op, out) :: rest ∧ ¬ DocCall doc op) (hc : DocCall d₀ op) :
    ∃ d₁ pre', pre = (op, o) :: pre' ∧ DocAllowed C nl inc out d₀ op o d₁ ∧ DocConforms C nl inc out d₁ pre' doc ∧ calls = pre' ++ post := by
  cases pre with
  | nil =>
    exfalso
    cases h6
    rw [List.nil_append] at h5
    rcases h7 with h7 | ⟨op', out', rest, h7, h7'⟩
    · rw [h7] at h5; cases h5
    · rw [h7] at h5; cases h5; exact h7' hc
  | cons x pre =>
    obtain ⟨rfl, e2⟩ := List.cons.inj h5
    cases h6 with
    | cons ha hn => exact ⟨_, pre, rfl, ha, hn, e2⟩

/-- C127: a section of a text stream that reads the text of a file and replaces it. -/
theorem C127_text_section (hC : LawfulCodec C) (hE : LawfulEncoder C) {guess : Nat × Nat → Nat → Nat} (hg : Moderate guess) {d : Bytes}
    {tr mid : TextTrace C} {i : Sid} {w w' : TextTogether C} {t : Txt C} (hw : TextHistory guess d tr w)
    (hw' : TextHistory guess d (tr ++ (.granted i, .done) :: mid) w') (hmid : Within i mid) (ht : w.txts i = some t)
    {o o₁ o₂ o₃ o₄ : Out} {s : Text} (hcalls : callsOf i mid = [(.seek (.to (some (offset 0))), o), (.read none, o₁),
      (.seek (.to (some (offset 0))), o₂), (.write s, o₃), (.truncate none, o₄)]) {text : Text} {e : C.Dec}
    (hd : C.decode C.decInit w.file true = .ok (text, e)) {b : Bytes} (hb : encoded C 0 (outgoing t.linesep t.newline s) = .ok b) :
    o₁ = .text (incoming t.newline text) ∧ o₃ = .num s.length ∧ o₄ = .num b.length ∧ (w'.step guess (.unlock i)).1 = .done ∧
      (w'.step guess (.unlock i)).2.file = b := by
  obtain ⟨t₀, log, p, d₀, pre, post, doc, h1, h2, _, h3, h4, h5, h6, h7, h8⟩ :=
    C107_section_partial hC hE hg hw hw' hmid (.inr ⟨0, rfl⟩) hcalls
  rw [ht] at h1
  cases h1
  rw [h3 0 rfl] at h2 h4
  have hfind : (blank w.file log).Finds C (incoming t.newline) 0 (incoming t.newline text) :=
    .inl (.inr ⟨.inl rfl, Nat.zero_le _, text, e, by rw [List.drop_zero]; exact hd, rfl⟩)
  have hread := h4.reading _ hfind
  obtain ⟨d₁, pre₁, rfl, a1, c1, q1⟩ := doc_next h5 h6 h7 (.inl ⟨_, hread, trivial⟩)
  obtain ⟨x, k1, k2, k3, _⟩ := a1.reads _ hread trivial
  obtain ⟨rfl, rfl⟩ := k1
  obtain ⟨d₂, pre₂, rfl, a2, c2, q2⟩ := doc_next q1 c1 h7 (.inl rfl)
  obtain ⟨rfl, a2⟩ := a2
  have hw2 := a2.writing
  rw [← k3] at hw2
  obtain ⟨d₃, pre₃, rfl, a3, c3, q3⟩ := doc_next q2 c2 h7 (.inr ⟨_, hw2, trivial⟩)
  obtain ⟨x, k4, k5, k6, _⟩ := a3.writes _ hw2 trivial
  simp only [offset, SinkAllowed, hb] at k4
  obtain ⟨rfl, rfl⟩ := k4
  obtain ⟨d₄, pre₄, rfl, a4, c4, q4⟩ := doc_next q3 c3 h7 (.inr ⟨_, k5, trivial⟩)
  obtain ⟨x, k7, k8, k9, _⟩ := a4.writes _ k5 trivial
  obtain ⟨rfl, rfl⟩ := k7
  obtain ⟨rfl, rfl⟩ := List.append_eq_nil_iff.1 q4.symm
  cases c4
  obtain ⟨g1, g2, _⟩ := h8 rfl
  have hdone := g2 (by rw [k8]; simp)
  refine ⟨by simp [limit], rfl, by simp, hdone, (g1 hdone).trans ?_⟩
  rw [← k9]
  simp only [Nat.zero_add]
  exact (resizeTo_put _ _).1

theorem mem_of_callsOf {i : Sid} {tr : TextTrace C} {op : Op} {o : Out} (h : (op, o) ∈ callsOf i tr) : (TextItem.did i op, o) ∈ tr := by
  obtain ⟨⟨it, o'⟩, h1, h2⟩ := List.mem_filterMap.1 h
  cases it with
  | did j op' =>
    dsimp only at h2
    split at h2
    · rename_i e; subst e; cases h2; exact h1
    · cases h2
  | _ => cases h2

/-- The file after all updates, when nobody holds the lock; and it can be decoded. -/
theorem UpdateTrace.file (hC : LawfulCodec C) (hE : LawfulEncoder C) {guess : Nat × Nat → Nat → Nat} (hg : Moderate guess) {d : Bytes}
    {inc ends : Sid → Text → Text} {tr : TextTrace C} {l : List (Sid × (Text → Text))} (hl : UpdateTrace tr l)
    (hd : ∃ text e, C.decode C.decInit d true = .ok (text, e)) (hr : ∀ s, RoundTrips C s) :
    ∀ {w : TextTogether C}, TextHistory guess d tr w →
      (∀ i t o, (.opened i t, o) ∈ tr → ends i = outgoing t.linesep t.newline ∧ inc i = incoming t.newline) →
      (∀ i s o, (.did i (.write s), o) ∈ tr → ∃ b, encoded C 0 (ends i s) = .ok b) →
      UpdatedFile C inc ends d l w.file ∧ lockers tr = [] ∧ ∃ text e, C.decode C.decInit w.file true = .ok (text, e) := by
  induction hl with
  | start =>
    intro w hw _ _
    obtain rfl := hw.unique .start
    exact ⟨.start, rfl, hd⟩
  | @other tr l x hl hx ih =>
    intro w hw he hb
    obtain ⟨w₀, h1, h2, h3, h4⟩ := hw.last
    obtain ⟨g1, g2, g3⟩ := ih h1 (fun i t o h => he i t o (List.mem_append_left _ h)) fun i s o h => hb i s o (List.mem_append_left _ h)
    rw [C107_others h1 hw fun i _ => by rw [g2]; simp]
    refine ⟨g1, ?_, g3⟩
    rw [TextTogether.lockers_snoc, g2]
    obtain ⟨it, o⟩ := x
    cases it <;> cases o <;> first | rfl | exact absurd rfl (hx _)
  | @look tr mid l i o o' o'' hl hmid hcalls ih =>
    intro w hw he hb
    obtain ⟨w', h1, h2, h3, h4⟩ := hw.last
    obtain ⟨w₀, h5⟩ : ∃ w₀, TextHistory guess d tr w₀ := h1.prefix
    obtain ⟨g1, g2, text, e, g3⟩ := ih h5 (fun i t o h => he i t o (by simp [h])) fun i s o h => hb i s o (by simp [h])
    obtain ⟨t, _, k1, _, _, _, _, _, _, _, _, _, _, k2, _, _⟩ := TextTogether.alone h5 mid.length mid w' rfl h1 hmid
    obtain ⟨_, _, e1, e2⟩ := C107_read hC hE hg h5 h1 hmid k1 hcalls g3
    rw [h4, e2]
    refine ⟨g1, ?_, text, e, g3⟩
    dsimp only at h3
    rw [TextTogether.lockers_snoc, k2, h3, e1]
    simp [lockStep]
  | @update tr mid l i g x o o₁ o₂ o₃ o₄ hl hmid hcalls ih =>
    intro w hw he hb
    obtain ⟨w', h1, h2, h3, h4⟩ := hw.last
    obtain ⟨w₀, h5⟩ : ∃ w₀, TextHistory guess d tr w₀ := h1.prefix
    obtain ⟨g1, g2, text, e, g3⟩ := ih h5 (fun i t o h => he i t o (by simp [h])) fun i s o h => hb i s o (by simp [h])
    obtain ⟨t, _, k1, _, _, _, _, _, _, _, _, _, _, k2, _, _⟩ := TextTogether.alone h5 mid.length mid w' rfl h1 hmid
    obtain ⟨t₀, q, m1, m2, m3⟩ := TextTogether.style h5 k1
    have hends : ends i = outgoing t.linesep t.newline := by rw [m2, m3]; exact (he i t₀ q (by simp [m1])).1
    have hinc : inc i = incoming t.newline := by rw [m2]; exact (he i t₀ q (by simp [m1])).2
    obtain ⟨b, hbb⟩ := hb i (g x) o₂ (by simp [mem_of_callsOf (show (Op.write (g x), o₂) ∈ callsOf i mid by rw [hcalls]; simp)])
    rw [hends] at hbb
    obtain ⟨e0, _, _, e1, e2⟩ := C127_text_section hC hE hg h5 h1 hmid k1 hcalls g3 hbb
    injection e0 with e0
    rw [h4, e2]
    refine ⟨.update g1 g3 (by rw [hinc, hends, ← e0]; exact hbb), ?_, ?_⟩
    · dsimp only at h3
      rw [TextTogether.lockers_snoc, k2, h3, e1]
      simp [lockStep]
    · unfold encoded at hbb
      simp only [if_true] at hbb
      cases hq : C.encode C.encInit (outgoing t.linesep t.newline (g x)) with
      | error x => rw [hq] at hbb; cases hbb
      | ok q =>
        rw [hq] at hbb; cases hbb
        obtain ⟨d1, _, h, _⟩ := hr _ _ _ hq
        exact ⟨_, d1, h⟩

/-- C127 for text streams.  The file is the one that results when all updates are made one after the other. -/
theorem C127_text (hC : LawfulCodec C) (hE : LawfulEncoder C) {guess : Nat × Nat → Nat → Nat} (hg : Moderate guess) {d : Bytes}
    {inc ends : Sid → Text → Text} {tr : TextTrace C} {l : List (Sid × (Text → Text))} (hl : UpdateTrace tr l) {w : TextTogether C}
    (hw : TextHistory guess d tr w) (he : ∀ i t o, (.opened i t, o) ∈ tr → ends i = outgoing t.linesep t.newline ∧ inc i = incoming t.newline)
    (hd : ∃ text e, C.decode C.decInit d true = .ok (text, e)) (hr : ∀ s, RoundTrips C s)
    (hb : ∀ i s o, (.did i (.write s), o) ∈ tr → ∃ b, encoded C 0 (ends i s) = .ok b) : UpdatedFile C inc ends d l w.file :=
  (UpdateTrace.file hC hE hg hl hd hr hw he hb).1

theorem encodes {s : Text} {b : Bytes} (h : encoded C 0 s = .ok b) : ∃ e, C.encode C.encInit s = .ok (b, e) := by
  unfold encoded at h
  simp only [if_true] at h
  cases hq : C.encode C.encInit s with
  | error x => rw [hq] at h; cases h
  | ok q => rw [hq] at h; cases h; exact ⟨q.2, rfl⟩

/-- C127 for text streams that all use the same newlines, which the texts survive: the text of the file is the old one, changed by all
updates, one after the other; and the file is its encoding. -/
theorem C127_text_final (hC : LawfulCodec C) (hE : LawfulEncoder C) {guess : Nat × Nat → Nat → Nat} (hg : Moderate guess) {d : Bytes}
    {nl : Newline} {ls : Text} (hls : Linesep ls) {tr : TextTrace C} {l : List (Sid × (Text → Text))} (hl : UpdateTrace tr l)
    {w : TextTogether C} (hw : TextHistory guess d tr w) (he : ∀ i t o, (.opened i t, o) ∈ tr → t.linesep = ls ∧ t.newline = nl)
    {text : Text} {e : C.Dec} (hd : C.decode C.decInit d true = .ok (text, e)) (hr : ∀ s, RoundTrips C s)
    (hb : ∀ i s o, (.did i (.write s), o) ∈ tr → ∃ b, encoded C 0 (outgoing ls nl s) = .ok b)
    (hk : Lossless nl (incoming nl text)) (hk' : ∀ x ∈ l, ∀ s, Lossless nl s → Lossless nl (x.2 s)) :
    (∃ text' e', C.decode C.decInit w.file true = .ok (text', e') ∧ incoming nl text' = textAfter l (incoming nl text)) ∧
      (l ≠ [] → encoded C 0 (outgoing ls nl (textAfter l (incoming nl text))) = .ok w.file) := by
  have h := C127_text hC hE hg (inc := fun _ => incoming nl) (ends := fun _ => outgoing ls nl) hl hw
    (fun i t o hm => by obtain ⟨rfl, rfl⟩ := he i t o hm; exact ⟨rfl, rfl⟩) ⟨text, e, hd⟩ hr hb
  suffices h : ((∃ text' e', C.decode C.decInit w.file true = .ok (text', e') ∧ incoming nl text' = textAfter l (incoming nl text)) ∧
      (l ≠ [] → encoded C 0 (outgoing ls nl (textAfter l (incoming nl text))) = .ok w.file)) ∧
      Lossless nl (textAfter l (incoming nl text)) from h.1
  clear hl hw
  generalize w.file = f at h
  induction h with
  | start => exact ⟨⟨⟨text, e, hd, rfl⟩, fun h => absurd rfl h⟩, hk⟩
  | @update l f b i g text' e' h1 h2 h3 ih =>
    obtain ⟨⟨⟨text₁, e₁, k1, k2⟩, _⟩, k3⟩ := ih fun x hx => hk' x (List.mem_append_left _ hx)
    rw [h2] at k1
    cases k1
    have ht : textAfter (l ++ [(i, g)]) (incoming nl text) = g (textAfter l (incoming nl text)) := by simp [textAfter]
    have hk3 : Lossless nl (g (textAfter l (incoming nl text))) := hk' (i, g) (by simp) _ k3
    rw [k2] at h3
    obtain ⟨e₂, h4⟩ := encodes h3
    obtain ⟨d₁, _, h5, _⟩ := hr _ _ _ h4
    rw [ht]
    exact ⟨⟨⟨_, d₁, h5, (lossless_iff hls nl _).2 hk3⟩, fun _ => h3⟩, hk3⟩

/-- C127 for text streams, together with the processes, threads, registries and kernel that grant the locks. -/
theorem C127_text_locks (hC : LawfulCodec C) (hE : LawfulEncoder C) {guess : Nat × Nat → Nat → Nat} (hg : Moderate guess) {d : Bytes}
    {u : Uid} {inc ends : Sid → Text → Text} {tr : TextTrace C} {l : List (Sid × (Text → Text))} (hl : UpdateTrace tr l)
    {t : TextTogether C} {ls : List Label} {w : World} {ev : List Event} (hj : TextJoint TextRules guess d u tr t ls w ev)
    (he : ∀ i t o, (.opened i t, o) ∈ tr → ends i = outgoing t.linesep t.newline ∧ inc i = incoming t.newline)
    (hd : ∃ text e, C.decode C.decInit d true = .ok (text, e)) (hr : ∀ s, RoundTrips C s)
    (hb : ∀ i s o, (.did i (.write s), o) ∈ tr → ∃ b, encoded C 0 (ends i s) = .ok b) : UpdatedFile C inc ends d l t.file :=
  C127_text hC hE hg hl (C107_locks hj) he hd hr hb

/-! ## Cases -/

/-- The first stream adds a line; meanwhile the second one asks for the lock. -/
def editFirst : TextTrace latin1 :=
  [(.did (1, 0) (.seek (.to (some (offset 0)))), .cookie (offset 0)), (.did (1, 0) (.read none), .text [97, 10, 98]), (.ask (2, 0), .done),
    (.did (1, 0) (.seek (.to (some (offset 0)))), .cookie (offset 0)), (.did (1, 0) (.write [97, 10, 98, 99, 10]), .num 5),
    (.did (1, 0) (.truncate none), .num 7)]

/-- The second stream deletes the first line. -/
def editSecond : TextTrace latin1 :=
  [(.did (2, 0) (.seek (.to (some (offset 0)))), .cookie (offset 0)), (.did (2, 0) (.read none), .text [97, 10, 98, 99, 10]),
    (.did (2, 0) (.seek (.to (some (offset 0)))), .cookie (offset 0)), (.did (2, 0) (.write [98, 99, 10]), .num 3),
    (.ask (1, 0), .done), (.did (2, 0) (.truncate none), .num 4)]

/-- The first stream looks at the result. -/
def editLook : TextTrace latin1 :=
  [(.did (1, 0) (.seek (.to (some (offset 0)))), .cookie (offset 0)), (.did (1, 0) (.read none), .text [98, 99, 10])]

def editBefore : TextTrace latin1 := pairOpened ++ [(.ask (1, 0), .done)]
def edit₁ : TextTrace latin1 := editBefore ++ (.granted (1, 0), .done) :: editFirst ++ [(.unlock (1, 0), .done)]
def edit₂ : TextTrace latin1 := edit₁ ++ (.granted (2, 0), .done) :: editSecond ++ [(.unlock (2, 0), .done)]
def edited : TextTrace latin1 := edit₂ ++ (.granted (1, 0), .done) :: editLook ++ [(.unlock (1, 0), .done)]

def edits : List (Sid × (Text → Text)) := [((1, 0), fun s => s ++ [99, 10]), ((2, 0), fun s => s.drop 2)]

theorem edited_history : TextHistory quotient [97, 13, 98] edited (replay quotient ⟨[97, 13, 98], fun _ => none⟩ edited) := by
  have := replay_history (guess := quotient) (d := [97, 13, 98]) edited .start (by decide +kernel) (pair_proper _
    ⟨may_ask (by decide), ⟨rfl, by decide⟩, ⟨by decide, trivial⟩, ⟨by decide, trivial⟩, may_ask (by decide), ⟨by decide, trivial⟩,
      ⟨by decide, trivial⟩, ⟨by decide, trivial⟩, may_unlock (by decide), ⟨rfl, by decide⟩, ⟨by decide, trivial⟩, ⟨by decide, trivial⟩,
      ⟨by decide, trivial⟩, ⟨by decide, trivial⟩, may_ask (by decide), ⟨by decide, trivial⟩, may_unlock (by decide), ⟨rfl, by decide⟩,
      ⟨by decide, trivial⟩, ⟨by decide, trivial⟩, may_unlock (by decide), trivial⟩)
  simpa using this

theorem edit₂_updates : UpdateTrace edit₂ edits := by
  have h1 : UpdateTrace editBefore [] :=
    .other (tr := pairOpened) (.other (tr := pairOpened.take 1) (.other (tr := []) .start (by simp)) (by simp)) (by simp)
  have h2 : UpdateTrace edit₁ (edits.take 1) := .update (x := [97, 10, 98]) h1 (by
    simp [Within, editFirst, TextItem.stream]) rfl
  exact .update (x := [97, 10, 98, 99, 10]) h2 (by simp [Within, editSecond, TextItem.stream]) rfl

theorem edited_updates : UpdateTrace edited edits :=
  .look edit₂_updates (by simp [Within, editLook, TextItem.stream]) rfl

-- the hypotheses of `C127_text` and of `C127_text_final`
example : TextHistory quotient [97, 13, 98] edited (replay quotient ⟨[97, 13, 98], fun _ => none⟩ edited) ∧ UpdateTrace edited edits ∧
    (∀ i t o, (.opened i t, o) ∈ edited → t.linesep = [13, 10] ∧ t.newline = .auto) ∧ Linesep [13, 10] ∧
    latin1.decode latin1.decInit [97, 13, 98] true = .ok ([97, 13, 98], ()) ∧ (∀ s, RoundTrips latin1 s) ∧
    (∀ i s o, (.did i (.write s), o) ∈ edited → ∃ b, encoded latin1 0 (outgoing [13, 10] .auto s) = .ok b) ∧
    Lossless .auto (incoming .auto [97, 13, 98]) ∧ (∀ x ∈ edits, ∀ s, Lossless .auto s → Lossless .auto (x.2 s)) ∧
    textAfter edits (incoming .auto [97, 13, 98]) = [98, 99, 10] ∧
    (replay quotient ⟨[97, 13, 98], fun _ => none⟩ edited).file = [98, 99, 13, 10] := by
  refine ⟨edited_history, edited_updates, ?_, .inr (.inl rfl), rfl, latin1_roundTrips, ?_, by simp [Lossless]; decide, ?_, by decide,
    by decide +kernel⟩
  · intro i t o h
    simp [edited, edit₂, edit₁, editBefore, pairOpened, editFirst, editSecond, editLook] at h
    rcases h with ⟨⟨_, rfl⟩, _⟩ | ⟨⟨_, rfl⟩, _⟩ <;> exact ⟨rfl, rfl⟩
  · intro i s o h
    simp [edited, edit₂, edit₁, editBefore, pairOpened, editFirst, editSecond, editLook] at h
    rcases h with ⟨⟨_, rfl⟩, _⟩ | ⟨⟨_, rfl⟩, _⟩
    · exact ⟨[97, 13, 10, 98, 99, 13, 10], rfl⟩
    · exact ⟨[98, 99, 13, 10], rfl⟩
  · intro x hx s hs
    simp only [edits, List.mem_cons, List.not_mem_nil, or_false] at hx
    rcases hx with rfl | rfl
    · simp only [Lossless, List.mem_append, not_or] at hs ⊢
      exact ⟨hs, by decide⟩
    · exact fun h => hs (List.mem_of_mem_drop h)

/-- What the lock system does between the two updates. -/
def editBetween : List Label := doUnlock 1 0 none 0 ++ doLock 2 0 0 none 0 false

-- the two updates, on the lock system
example : (∃ ls w ev, TextJoint TextRules quotient [97, 13, 98] (0, 7) edit₂
    (replay quotient ⟨[97, 13, 98], fun _ => none⟩ edit₂) ls w ev) ∧ UpdateTrace edit₂ edits := by
  refine ⟨?_, edit₂_updates⟩
  have e1 : (Verif.run pairBefore).map (fun x => heldOf x.2) = some [⟨1, 0, (0, 7), false, 0, none⟩] := by decide
  have e2 : ((Verif.run pairBefore).bind (fun x => runFrom x.1 x.2 editBetween)).map (fun x => heldOf x.2) =
      some [⟨2, 0, (0, 7), false, 0, none⟩] := by decide
  cases hr1 : Verif.run pairBefore with
  | none => rw [hr1] at e1; cases e1
  | some x =>
    rw [hr1] at e1 e2
    simp only [Option.map_some, Option.some.injEq] at e1
    simp only [Option.bind_some] at e2
    cases hr2 : runFrom x.1 x.2 editBetween with
    | none => rw [hr2] at e2; cases e2
    | some y =>
      rw [hr2] at e2
      simp only [Option.map_some, Option.some.injEq] at e2
      have p1 : AllProper [] edit₁ := pair_proper _
        ⟨may_ask (by decide), ⟨rfl, by decide⟩, ⟨by decide, trivial⟩, ⟨by decide, trivial⟩, may_ask (by decide), ⟨by decide, trivial⟩,
          ⟨by decide, trivial⟩, ⟨by decide, trivial⟩, may_unlock (by decide), trivial⟩
      have p2 : AllProper edit₁ ((.granted (2, 0), .done) :: editSecond ++ [(.unlock (2, 0), .done)]) :=
        ⟨⟨rfl, by decide⟩, ⟨by decide, trivial⟩, ⟨by decide, trivial⟩, ⟨by decide, trivial⟩, ⟨by decide, trivial⟩, may_ask (by decide),
          ⟨by decide, trivial⟩, may_unlock (by decide), trivial⟩
      have j0 := TextJoint.run (P := TextRules (C := latin1)) (guess := quotient) (d := [97, 13, 98]) (u := (0, 7)) .init rfl pairBefore
        (by decide) hr1
      have j1 := TextJoint.items edit₁ j0 (by decide +kernel) p1.rules (by
        intro i o hm
        simp [edit₁, editBefore, editFirst, pairOpened] at hm
        obtain ⟨rfl, _⟩ := hm
        intro a ha
        obtain rfl := List.mem_singleton.1 ha
        exact ⟨_, by rw [e1]; exact List.mem_cons_self, rfl, rfl, rfl, by simp [Covers]⟩)
      rw [List.nil_append] at j1
      have j2 := TextJoint.run j1 (by simp [edit₁, editBefore, editFirst, pairOpened, lockers, lockStep]) editBetween (by decide) hr2
      have j3 := TextJoint.items _ j2 (by decide +kernel) p2.rules (by
        intro i o hm
        simp [editSecond] at hm
        obtain ⟨rfl, _⟩ := hm
        intro a ha
        obtain rfl := List.mem_singleton.1 ha
        exact ⟨_, by rw [e2]; exact List.mem_cons_self, rfl, rfl, rfl, by simp [Covers]⟩)
      rw [← replay_append] at j3
      have he : edit₁ ++ ((.granted (2, 0), .done) :: editSecond ++ [(.unlock (2, 0), .done)]) = edit₂ := by simp [edit₂]
      rw [he] at j3
      exact ⟨_, _, _, j3⟩

end Verif.Props
